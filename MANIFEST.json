{
 "claims": [
  {
   "property": "C01",
   "status": "proved",
   "theorems": [
    "Nisaba.Props.C01_partition"
   ],
   "note": "All rule lists; the fuel of the loop never runs out."
  },
  {
   "property": "C02",
   "status": "proved",
   "theorems": [
    "Nisaba.Props.C02_line_order",
    "Nisaba.Props.C02_line_order_text"
   ],
   "note": "Equality of compiled relations and of rewritten texts."
  },
  {
   "property": "C03",
   "status": "proved",
   "theorems": [
    "Nisaba.Props.C03_total_single_valued"
   ],
   "note": "Relation defined by the declarative obligatory left-to-right rewrite."
  },
  {
   "property": "C04",
   "status": "proved",
   "theorems": [
    "Nisaba.Props.C04_compose_heuristic"
   ],
   "note": "State counts of intermediate machines are arbitrary."
  },
  {
   "property": "C05",
   "status": "proved",
   "theorems": [
    "Nisaba.Props.C05_pipeline"
   ],
   "note": ""
  },
  {
   "property": "C06",
   "status": "proved",
   "theorems": [
    "Nisaba.Props.C06_nfc_total",
    "Nisaba.Props.C06_nfc_total_sigma"
   ],
   "note": "Actual tables of all 20 scripts and the pan-Brahmic table, any alphabet containing what the table writes."
  },
  {
   "property": "C07",
   "status": "proved",
   "theorems": [
    "Nisaba.Props.C07_nfc_idempotent"
   ],
   "note": "All strings; finite closed set of machine states checked by the kernel."
  },
  {
   "property": "C08",
   "status": "proved",
   "theorems": [
    "Nisaba.Props.C08_nfc_complete"
   ],
   "note": ""
  },
  {
   "property": "C09",
   "status": "proved",
   "theorems": [
    "Nisaba.Props.C09_brahmic_agrees"
   ],
   "note": ""
  },
  {
   "property": "C10",
   "status": "proved",
   "theorems": [
    "Nisaba.Props.C10_visual_function",
    "Nisaba.Props.C10_visual_function_lang"
   ],
   "note": "Any iteration order of the mark set."
  },
  {
   "property": "C100",
   "status": "proved",
   "theorems": [
    "Nisaba.Props.Emd.C100_emd",
    "Nisaba.Props.Emd.C100_pair",
    "Nisaba.Props.Emd.C100_totals"
   ],
   "note": ""
  },
  {
   "property": "C101",
   "status": "partial",
   "theorems": [
    "Nisaba.Props.Emd.C101_lengths_partial",
    "Nisaba.Props.Emd.C101_violated_words",
    "Nisaba.Props.Emd.C101_violated_spaces"
   ],
   "note": "Proved for characters and single spaces; false for word error rates and other white space (witnesses proved)."
  },
  {
   "property": "C102",
   "status": "partial",
   "theorems": [
    "Nisaba.Props.Emd.C102_word_iff",
    "Nisaba.Props.Emd.C102_members_partial",
    "Nisaba.Props.Emd.C102_violated"
   ],
   "note": "True exactly for words without quotation mark, backslash and control characters, which are not escaped."
  },
  {
   "property": "C103",
   "status": "proved",
   "theorems": [
    "Nisaba.Props.IterableThing.C103_items",
    "Nisaba.Props.IterableThing.C103_add_add",
    "Nisaba.Props.IterableThing.C103_untyped",
    "Nisaba.Props.IterableThing.C103_copy",
    "Nisaba.Props.IterableThing.C103_item"
   ],
   "note": ""
  },
  {
   "property": "C104",
   "status": "proved",
   "theorems": [
    "Nisaba.Props.IterableThing.C104_add",
    "Nisaba.Props.IterableThing.C104_union",
    "Nisaba.Props.IterableThing.C104_concat",
    "Nisaba.Props.IterableThing.C104_compose",
    "Nisaba.Props.IterableThing.C104_union_star"
   ],
   "note": ""
  },
  {
   "property": "C105",
   "status": "proved",
   "theorems": [
    "Nisaba.NT.Derom.C105_iso",
    "Nisaba.NT.Derom.C105_brahmic"
   ],
   "note": ""
  },
  {
   "property": "C106",
   "status": "proved",
   "theorems": [
    "Nisaba.NT.Derom.C106_hi",
    "Nisaba.NT.Derom.C106_ta"
   ],
   "note": ""
  },
  {
   "property": "C107",
   "status": "partial",
   "theorems": [
    "Nisaba.NT.Derom.C107_partial",
    "Nisaba.NT.Derom.C107_violated"
   ],
   "note": "False: a single tr is rewritten, as its mapping is also in the group of plain consonants (proved). Proved: the letter occurs exactly for words with tr."
  },
  {
   "property": "C108",
   "status": "proved",
   "theorems": [
    "Nisaba.NT.Derom.C108_anusvara"
   ],
   "note": ""
  },
  {
   "property": "C109",
   "status": "proved",
   "theorems": [
    "Nisaba.NT.Derom.C109_agree"
   ],
   "note": ""
  },
  {
   "property": "C11",
   "status": "proved",
   "theorems": [
    "Nisaba.Props.C11_visual_absorbs_nfc"
   ],
   "note": ""
  },
  {
   "property": "C110",
   "status": "proved",
   "theorems": [
    "Nisaba.Props.C110_speller",
    "Nisaba.Props.C110_case",
    "Nisaba.Props.C110_default"
   ],
   "note": ""
  },
  {
   "property": "C111",
   "status": "partial",
   "theorems": [
    "Nisaba.Props.C111_decodable",
    "Nisaba.Props.C111_reversible_partial",
    "Nisaba.Props.C111_reversible_violated"
   ],
   "note": "Proved for 11 of 13 languages; in Sindhi and Tamil two pairs of letters have the same spelling (witnesses proved), and there words are determined up to letters of the same spelling."
  },
  {
   "property": "C112",
   "status": "partial",
   "theorems": [
    "Nisaba.Props.C112_wellformed_partial",
    "Nisaba.Props.C112_joiner",
    "Nisaba.Props.C112_wellformed_violated",
    "Nisaba.Props.C112_nfc",
    "Nisaba.Props.C112_round_trip"
   ],
   "note": "NFC for all; well-formedness for eight languages; in Kannada, Malayalam and Telugu a text is well formed exactly if no joiner comes before an independent vowel (proved both ways)."
  },
  {
   "property": "C113",
   "status": "proved",
   "theorems": [
    "Nisaba.Props.hi_nat_acronym",
    "Nisaba.Props.hi_nat_other",
    "Nisaba.Props.namesOf_unique",
    "Nisaba.Props.hi_nat_lower",
    "Nisaba.Props.hi_nat_ke"
   ],
   "note": ""
  },
  {
   "property": "C114",
   "status": "partial",
   "theorems": [
    "Nisaba.Props.C114_lookup",
    "Nisaba.Props.C114_own_index_partial",
    "Nisaba.Props.C114_own_index_violated",
    "Nisaba.Props.C114_shared",
    "Nisaba.Props.C114_reserved",
    "Nisaba.Props.C114_reserved_violated",
    "Nisaba.Props.C114_grapheme"
   ],
   "note": "Looking up is proved for every history. A phoneme carries the index of its place if it is passed only once; passed again, even in vain, it takes the index of another place (witnesses proved). Languages share an index exactly if one has more phonemes than the distance allows (proved both ways)."
  },
  {
   "property": "C115",
   "status": "partial",
   "theorems": [
    "Nisaba.Props.C115_pair",
    "Nisaba.Props.C115_control",
    "Nisaba.Props.C115_inverse_partial",
    "Nisaba.Props.C115_inverse_violated",
    "Nisaba.Props.C115_raw_violated"
   ],
   "note": "Proved for every history and every feature whose text is no name that the methods need; a symbol that gets a second partner leaves the first one pointing to it, and the features of symbols themselves overwrite the field raw (both proved)."
  },
  {
   "property": "C116",
   "status": "partial",
   "theorems": [
    "Nisaba.Props.C116_import_partial",
    "Nisaba.Props.C116_english",
    "Nisaba.Props.C116_taken_violated"
   ],
   "note": "Proved for aliases that are not taken; for a taken alias the call raises IndexError and leaves an unpaired copy in the inventory (witness proved)."
  },
  {
   "property": "C117",
   "status": "partial",
   "theorems": [
    "Nisaba.Props.C117_compose",
    "Nisaba.Props.C117_compose_error",
    "Nisaba.Props.C117_flat",
    "Nisaba.Props.C117_derive",
    "Nisaba.Props.C117_derive_violated",
    "Nisaba.Props.C117_devoiced",
    "Nisaba.Props.C117_import",
    "Nisaba.Props.C117_import_violated",
    "Nisaba.Props.C117_ok",
    "Nisaba.Props.C117_inventory",
    "Nisaba.Props.C117_decodable",
    "Nisaba.Props.C117_combiner_violated",
    "Nisaba.Props.C117_ipa_violated"
   ],
   "note": "Proved except: the default translit of a derived phoneme is an empty transducer, composites ignore what an import added, the combiner makes transcriptions ambiguous and some phonemes have the same IPA (all four proved)."
  },
  {
   "property": "C118",
   "status": "partial",
   "theorems": [
    "Nisaba.Props.C118_roundtrip",
    "Nisaba.Props.C118_prefix",
    "Nisaba.Props.C118_empty_violated",
    "Nisaba.Props.C118_empty_run_violated",
    "Nisaba.Props.C118_tab_violated",
    "Nisaba.Props.C118_tab_lost_violated",
    "Nisaba.Props.C118_epsilon_violated"
   ],
   "note": "The round trip is proved for valid UTF-8 and candidates that are fields, below the limit of line length; an empty candidate stops the extractor, a leading tab is lost silently, a word that is the epsilon symbol stops the decoder (all proved)."
  },
  {
   "property": "C119",
   "status": "partial",
   "theorems": [
    "Nisaba.Props.C119_extractor_partial",
    "Nisaba.Props.C119_lists_partial",
    "Nisaba.Props.C119_rejoiner",
    "Nisaba.Props.C119_lists_violated",
    "Nisaba.Props.C119_full_input_violated",
    "Nisaba.Props.C119_single_violated"
   ],
   "note": "Proved for the extractor with scores, more than one result and different labels of neighbouring texts, and for texts that have candidates. With one result no file of the extractor can be read, with the words as labels a repeated text is merged, a text without candidates is lost (all proved)."
  },
  {
   "property": "C12",
   "status": "proved",
   "theorems": [
    "Nisaba.Props.C12_dedup_order",
    "Nisaba.Props.C12_dedup_order_irrelevant"
   ],
   "note": ""
  },
  {
   "property": "C120",
   "status": "partial",
   "theorems": [
    "Nisaba.Props.C120_setup",
    "Nisaba.Props.C120_no_rules",
    "Nisaba.Props.C120_one",
    "Nisaba.Props.C120_many",
    "Nisaba.Props.C120_missing",
    "Nisaba.Props.C120_outcome",
    "Nisaba.Props.C120_refused",
    "Nisaba.Props.C120_details",
    "Nisaba.Props.C120_run",
    "Nisaba.Props.C120_noutput_violated",
    "Nisaba.Props.C120_byte_violated",
    "Nisaba.Props.C120_generated_violated"
   ],
   "note": "Proved for labels the output mode can print and no generated symbols, for every choice of shortest paths that OpenFst allows. A label above 255 is printed as another byte, a generated symbol like a text in brackets, and a number of outputs below 1 makes every input fail (all proved)."
  },
  {
   "property": "C121",
   "status": "partial",
   "theorems": [
    "Nisaba.Props.C121_last_update",
    "Nisaba.Props.C121_default",
    "Nisaba.Props.C121_names_partial",
    "Nisaba.Props.C121_unsaid",
    "Nisaba.Props.C121_height_violated",
    "Nisaba.Props.C121_distinct",
    "Nisaba.Props.C121_similarity_partial",
    "Nisaba.Props.C121_atomics",
    "Nisaba.Props.C121_complete"
   ],
   "note": "Proved for every table (last update, defaults) and for all 100 phonemes but the vowel ø, which no loop gives a height: it is as similar to y, œ and ɶ as to itself (proved)."
  },
  {
   "property": "C122",
   "status": "proved",
   "theorems": [
    "Nisaba.Props.C122_union",
    "Nisaba.Props.C122_compatible",
    "Nisaba.Props.C122_english",
    "Nisaba.Props.C122_lists",
    "Nisaba.Props.C122_case",
    "Nisaba.Props.C122_latin_ipa"
   ],
   "note": "The union and the similarity for every profile and every list of symbols; the letters of both inventories exhaustively. C122_latin_ipa lists exactly which Latin letters agree with the phoneme of the same character."
  },
  {
   "property": "C123",
   "status": "partial",
   "theorems": [
    "Nisaba.Props.C123_copy",
    "Nisaba.Props.C123_context",
    "Nisaba.Props.C123_everywhere",
    "Nisaba.Props.C123_delete_insert_partial",
    "Nisaba.Props.C123_deletion_violated",
    "Nisaba.Props.C123_interchangeable",
    "Nisaba.Props.C123_cost_partial",
    "Nisaba.Props.C123_int_cost_violated",
    "Nisaba.Props.C123_constants",
    "Nisaba.Props.C123_row_partial",
    "Nisaba.Props.C123_row_violated"
   ],
   "note": "Proved for all expressions and contexts. The claim fails for deletion of a symbol that is no Atomic (TypeError), for a cost that is an int (it is ignored) and for rows with alternatives, which look like sequences (all proved)."
  },
  {
   "property": "C124",
   "status": "partial",
   "theorems": [
    "Nisaba.Props.C124_table_partial",
    "Nisaba.Props.C124_failure",
    "Nisaba.Props.C124_fill_partial",
    "Nisaba.Props.C124_fill_violated",
    "Nisaba.Props.C124_letters"
   ],
   "note": "Rows are read back if no string has a tab or a line feed or begins like a comment. _fill_missing_raw of unicode_strings_util fails on items that are no mappings (proved): None is assigned to a field of type string."
  },
  {
   "property": "C125",
   "status": "proved",
   "theorems": [
    "Nisaba.Props.C125_score",
    "Nisaba.Props.C125_final",
    "Nisaba.Props.C125_once",
    "Nisaba.Props.C125_endless"
   ],
   "note": "For models with sorted arcs, at most one backoff arc per state, whose backing off ends, in which every state has an arc and no word leads back to a start state that is not final. The PhiMatcher of OpenFst is modelled from its documentation."
  },
  {
   "property": "C126",
   "status": "partial",
   "theorems": [
    "Nisaba.Props.C126_greedy",
    "Nisaba.Props.C126_init",
    "Nisaba.Props.C126_no_oov",
    "Nisaba.Props.C126_segments",
    "Nisaba.Props.C126_whole",
    "Nisaba.Props.C126_transducer",
    "Nisaba.Props.C126_calls",
    "Nisaba.Props.C126_empty_violated"
   ],
   "note": "The claim fails for an empty candidate with word pieces: it has no symbols and is never read, so that the language model drops it (proved). Without a symbol for unknown words the program ends in the greedy mode (C126_no_oov)."
  },
  {
   "property": "C127",
   "status": "partial",
   "theorems": [
    "Nisaba.Props.C127_posterior",
    "Nisaba.Props.C127_best",
    "Nisaba.Props.C127_sum",
    "Nisaba.Props.C127_none",
    "Nisaba.Props.C127_word_partial",
    "Nisaba.Props.C127_one_word",
    "Nisaba.Props.C127_word_violated",
    "Nisaba.Props.C127_word_minimum_violated",
    "Nisaba.Props.C127_empty_violated"
   ],
   "note": "Proved at line level for all weights and models. At word level the claim fails for lines of several words: costs are divided by the sum over all words of the line, so that they do not add up to 1 for a word and the minimum posterior removes candidates because of other words; an empty line ends the program (all proved). Rounding is not modelled."
  },
  {
   "property": "C128",
   "status": "proved",
   "theorems": [
    "Nisaba.Props.C128_pairs",
    "Nisaba.Props.C128_costs",
    "Nisaba.Props.C128_invert",
    "Nisaba.Props.C128_covered",
    "Nisaba.Props.C128_refused"
   ],
   "note": "Composition of transducers is composition of relations; the failure arcs are those of C125. Before pruning, which is C63."
  },
  {
   "property": "C129",
   "status": "proved",
   "theorems": [
    "Nisaba.Props.C129_file",
    "Nisaba.Props.C129_file_invalid",
    "Nisaba.Props.C129_text",
    "Nisaba.Props.C129_words",
    "Nisaba.Props.C129_prefix_in_word",
    "Nisaba.Props.C129_invalid"
   ],
   "note": "The condition on the words is needed: nothing escapes the prefix (C129_prefix_in_word)."
  },
  {
   "property": "C13",
   "status": "proved",
   "theorems": [
    "Nisaba.Props.C13_joiners"
   ],
   "note": "Stronger than stated: surviving joiners stand between consonants."
  },
  {
   "property": "C130",
   "status": "partial",
   "theorems": [
    "Nisaba.Props.C130_value",
    "Nisaba.Props.C130_symm",
    "Nisaba.Props.C130_refl",
    "Nisaba.Props.C130_nothing",
    "Nisaba.Props.C130_text",
    "Nisaba.Props.C130_trans_partial",
    "Nisaba.Props.C130_trans_violated",
    "Nisaba.Props.C130_fst_value_violated"
   ],
   "note": "Equality is not transitive with Fsts, and a thing whose value is an Fst does not equal it."
  },
  {
   "property": "C131",
   "status": "partial",
   "theorems": [
    "Nisaba.Props.C131_round_trip_partial",
    "Nisaba.Props.C131_errors",
    "Nisaba.Props.C131_empty_violated",
    "Nisaba.Props.C131_message_partial",
    "Nisaba.Props.C131_message_refused",
    "Nisaba.Props.C131_default_message_violated",
    "Nisaba.Props.C131_binary_message_violated"
   ],
   "note": "The empty text and the message without fields cannot be read back, and a binary form that is also text is read as text."
  },
  {
   "property": "C132",
   "status": "proved",
   "theorems": [
    "Nisaba.Props.C132_from_iso",
    "Nisaba.Props.C132_from_iso_errors",
    "Nisaba.Props.C132_index",
    "Nisaba.Props.C132_case",
    "Nisaba.Props.C132_equidistant",
    "Nisaba.Props.C132_languages"
   ],
   "note": "The table of the package pycountry is a parameter."
  },
  {
   "property": "C133",
   "status": "partial",
   "theorems": [
    "Nisaba.Props.C133_best",
    "Nisaba.Props.C133_rewrites",
    "Nisaba.Props.C133_top_rewrites",
    "Nisaba.Props.C133_manager_best",
    "Nisaba.Props.C133_top",
    "Nisaba.Props.C133_one_top",
    "Nisaba.Props.C133_cascade",
    "Nisaba.Props.C133_set_fst",
    "Nisaba.Props.C133_debug_partial",
    "Nisaba.Props.C133_debug_symbol",
    "Nisaba.Props.C133_debug_violated"
   ],
   "note": "Debug strings have NUL bytes for epsilon labels (C133_debug_violated). A number that is not positive is a failure for repeated fields and not for vectors (C133_manager_best)."
  },
  {
   "property": "C134",
   "status": "partial",
   "theorems": [
    "Nisaba.Props.C134_text",
    "Nisaba.Props.C134_align_partial",
    "Nisaba.Props.C134_string_partial",
    "Nisaba.Props.C134_side_violated",
    "Nisaba.Props.C134_mark_hidden"
   ],
   "note": "A side with a single item that is a Cat or Or is printed as the text of that item and not with its items (C134_side_violated); the marks of a context that is any are not printed (C134_mark_hidden)."
  },
  {
   "property": "C135",
   "status": "proved",
   "theorems": [
    "Nisaba.Props.C135_all",
    "Nisaba.Props.C135_set",
    "Nisaba.Props.C135_set_not",
    "Nisaba.Props.C135_divide",
    "Nisaba.Props.C135_not_not",
    "Nisaba.Props.C135_keep",
    "Nisaba.Props.C135_range",
    "Nisaba.Props.C135_range_other",
    "Nisaba.Props.C135_non_generic",
    "Nisaba.Props.C135_equal"
   ],
   "note": "A range from a value to itself is the whole list, see C43."
  },
  {
   "property": "C136",
   "status": "partial",
   "theorems": [
    "Nisaba.Props.C136_byte",
    "Nisaba.Props.C136_utf8",
    "Nisaba.Props.C136_keep",
    "Nisaba.Props.C136_add_byte_partial",
    "Nisaba.Props.C136_add_utf8_partial",
    "Nisaba.Props.C136_only",
    "Nisaba.Props.C136_apart",
    "Nisaba.Props.C136_lost",
    "Nisaba.Props.C136_add_violated"
   ],
   "note": "An addition before the table was first asked for is lost, so the last sentence is proved for tables that were asked for and refuted for others."
  },
  {
   "property": "C137",
   "status": "partial",
   "theorems": [
    "Nisaba.Props.C137_symbol",
    "Nisaba.Props.C137_refines",
    "Nisaba.Props.C137_instance",
    "Nisaba.Props.C137_constant_partial",
    "Nisaba.Props.C137_stable",
    "Nisaba.Props.C137_features",
    "Nisaba.Props.C137_constant_violated"
   ],
   "note": "The instance of a control Atomic that was made with the constructor is a new object, so the last sentence is proved for the control symbols and their constants."
  },
  {
   "property": "C138",
   "status": "partial",
   "theorems": [
    "Nisaba.Props.C138_doc",
    "Nisaba.Props.C138_all_partial",
    "Nisaba.Props.C138_all_violated",
    "Nisaba.Props.C138_header_violated",
    "Nisaba.Props.C138_symbol",
    "Nisaba.Props.C138_grapheme",
    "Nisaba.Props.C138_descriptions"
   ],
   "note": "A later symbol with the same index takes the place of an earlier one, and a symbol with the alias of a method breaks the description, so that every symbol is listed is proved for unshared indices and refuted otherwise."
  },
  {
   "property": "C14",
   "status": "partial",
   "theorems": [
    "Nisaba.Props.C14_visual_idempotent_partial",
    "Nisaba.Props.C14_visual_not_idempotent",
    "Nisaba.Props.C14_visual_not_idempotent_plain"
   ],
   "note": "False as stated for every script (witnesses proved). Proved for ten scripts on text without joiners."
  },
  {
   "property": "C15",
   "status": "proved",
   "theorems": [
    "Nisaba.Props.C15_concat"
   ],
   "note": ""
  },
  {
   "property": "C16",
   "status": "proved",
   "theorems": [
    "Nisaba.Props.C16_grammar",
    "Nisaba.Props.C16_finite_memory",
    "Nisaba.Props.C16_recogniser"
   ],
   "note": "Independent inductive grammar; executable recogniser and finite-memory automaton."
  },
  {
   "property": "C17",
   "status": "proved",
   "theorems": [
    "Nisaba.Props.C17_start",
    "Nisaba.Props.C17_pair",
    "Nisaba.Props.C17_no_exceptions",
    "Nisaba.Props.C17_sign_follows_consonant"
   ],
   "note": "Exceptions are only the accept rows of Malayalam and the compound vowel signs of Sylheti."
  },
  {
   "property": "C18",
   "status": "partial",
   "theorems": [
    "Nisaba.Props.C18_normal_form",
    "Nisaba.Props.C18_word_partial",
    "Nisaba.Props.C18_brackets",
    "Nisaba.Props.C18_text",
    "Nisaba.Props.C18_text_partial",
    "Nisaba.Props.C18_cpp"
   ],
   "note": "Every word: a returned text is the visual normal form. Words without '[', ']' and '\\\\': normal form if well formed, IllFormedError otherwise. With brackets the claim is false and C18_brackets proves it: AcceptText does not escape its argument."
  },
  {
   "property": "C19",
   "status": "proved",
   "theorems": [
    "Nisaba.Props.C19_unambiguous"
   ],
   "note": "All 20 scripts. Certificates for the sequential form of both transducers are found by an untrusted search and checked by the kernel."
  },
  {
   "property": "C20",
   "status": "proved",
   "theorems": [
    "Nisaba.Props.C20_lossless"
   ],
   "note": "All 20 scripts, every text in the domain."
  },
  {
   "property": "C21",
   "status": "proved",
   "theorems": [
    "Nisaba.Props.C21_wellformed",
    "Nisaba.Props.C21_round_trip"
   ],
   "note": ""
  },
  {
   "property": "C22",
   "status": "proved",
   "theorems": [
    "Nisaba.Props.C22_concat",
    "Nisaba.Props.C22_from"
   ],
   "note": "On the relation of brahmic_to_iso; for FROM_<script> when NFC does not act across the boundary."
  },
  {
   "property": "C23",
   "status": "proved",
   "theorems": [
    "Nisaba.Props.C23_reversible",
    "Nisaba.Props.C23_decodes"
   ],
   "note": "UTF-8 token mode. Unique decodability by a closed set of dangling rests of the 183 codewords."
  },
  {
   "property": "C24",
   "status": "partial",
   "theorems": [
    "Nisaba.Props.C24_idempotent_partial",
    "Nisaba.Props.C24_not_idempotent",
    "Nisaba.Props.C24_not_idempotent_alef"
   ],
   "note": "False in general (witnesses proved). Proved for text without two consecutive marks."
  },
  {
   "property": "C25",
   "status": "proved",
   "theorems": [
    "Nisaba.Props.C25_reaches_fixed_point",
    "Nisaba.Props.C25_no_bound"
   ],
   "note": "Also proved: no fixed number of passes is enough."
  },
  {
   "property": "C26",
   "status": "proved",
   "theorems": [
    "Nisaba.Props.C26_total_positional"
   ],
   "note": ""
  },
  {
   "property": "C27",
   "status": "partial",
   "theorems": [
    "Nisaba.Props.C27_idempotent_partial",
    "Nisaba.Props.C27_not_idempotent",
    "Nisaba.Props.C27_dari_alternates"
   ],
   "note": "False in every language (witness proved). Proved for words of plain letters, in Dari of at least two."
  },
  {
   "property": "C28",
   "status": "proved",
   "theorems": [
    "Nisaba.Props.C28_no_presentation_forms",
    "Nisaba.Props.C28_rows"
   ],
   "note": ""
  },
  {
   "property": "C29",
   "status": "partial",
   "theorems": [
    "Nisaba.Props.C29_convert",
    "Nisaba.Props.C29_raw_agrees",
    "Nisaba.Props.C29_prefix_order",
    "Nisaba.Props.C29_errors_partial",
    "Nisaba.Props.C29_named_sequence",
    "Nisaba.Props.C29_empty_prefix"
   ],
   "note": "Success is characterised for every database. ValueError is the only error when names name single characters; a named sequence ends in a TypeError (proved). One character found through two prefixes counts as ambiguous."
  },
  {
   "property": "C30",
   "status": "proved",
   "theorems": [
    "Nisaba.Props.C30_rewrite",
    "Nisaba.Props.C30_rules",
    "Nisaba.Props.C30_nfc",
    "Nisaba.Props.C30_nfc_brahmic",
    "Nisaba.Props.C30_visual",
    "Nisaba.Props.C30_visual_lang"
   ],
   "note": ""
  },
  {
   "property": "C31",
   "status": "proved",
   "theorems": [
    "Nisaba.Props.C31_round_trip",
    "Nisaba.Props.C31_decode_errors",
    "Nisaba.Props.C31_decode_first",
    "Nisaba.Props.C31_decode_single",
    "Nisaba.Props.C31_split"
   ],
   "note": ""
  },
  {
   "property": "C32",
   "status": "proved",
   "theorems": [
    "Nisaba.Props.C32_split_lossless",
    "Nisaba.Props.C32_split_invalid",
    "Nisaba.Props.C32_whitespace_sets",
    "Nisaba.Props.C32_whitespace_characters",
    "Nisaba.Props.C32_union"
   ],
   "note": "Abseil StrSplit loop modelled; any delimiter set."
  },
  {
   "property": "C33",
   "status": "proved",
   "theorems": [
    "Nisaba.Props.C33_word",
    "Nisaba.Props.C33_text",
    "Nisaba.Props.C33_invalid"
   ],
   "note": "Refinement to repeated best merge; no out-of-range access."
  },
  {
   "property": "C34",
   "status": "partial",
   "theorems": [
    "Nisaba.Props.C34_counts",
    "Nisaba.Props.C34_min_alignment_partial",
    "Nisaba.Props.C34_char_mode",
    "Nisaba.Props.C34_epsilon_token"
   ],
   "note": "Holds for all sequences without the token <epsilon>, always in character mode. False for a word spelled <epsilon> (witness proved)."
  },
  {
   "property": "C35",
   "status": "partial",
   "theorems": [
    "Nisaba.Props.C35_lines_partial",
    "Nisaba.Props.C35_missing_reference",
    "Nisaba.Props.C35_shifted"
   ],
   "note": "Holds when every example has a reference. False otherwise (proved: reads out of range and shifts)."
  },
  {
   "property": "C36",
   "status": "proved",
   "theorems": [
    "Nisaba.Props.C36_mode"
   ],
   "note": ""
  },
  {
   "property": "C37",
   "status": "partial",
   "theorems": [
    "Nisaba.Props.C37_rejoin_partial",
    "Nisaba.Props.C37_exists",
    "Nisaba.Props.C37_single_part",
    "Nisaba.Props.C37_single_part_unsorted"
   ],
   "note": "Proved for two or more parts. A single part is returned unsorted and uncut (proved)."
  },
  {
   "property": "C38",
   "status": "proved",
   "theorems": [
    "Nisaba.Props.C38_fifo",
    "Nisaba.Props.C38_all_executed",
    "Nisaba.Props.C38_no_deadlock",
    "Nisaba.Props.C38_terminates",
    "Nisaba.Props.C38_returns",
    "Nisaba.Props.C38_not_started",
    "Nisaba.Props.C38_late_task_dropped"
   ],
   "note": "Every interleaving; tasks may schedule tasks."
  },
  {
   "property": "C39",
   "status": "proved",
   "theorems": [
    "Nisaba.Props.C39_components",
    "Nisaba.Props.C39_shape",
    "Nisaba.Props.C39_assoc"
   ],
   "note": ""
  },
  {
   "property": "C40",
   "status": "proved",
   "theorems": [
    "Nisaba.Props.C40_matrix"
   ],
   "note": ""
  },
  {
   "property": "C41",
   "status": "partial",
   "theorems": [
    "Nisaba.Props.C41_add_item",
    "Nisaba.Props.C41_failure_unchanged",
    "Nisaba.Props.C41_retrievable_partial",
    "Nisaba.Props.C41_persistent",
    "Nisaba.Props.C41_get",
    "Nisaba.Props.C41_order",
    "Nisaba.Props.C41_no_exception",
    "Nisaba.Props.C41_method_hidden"
   ],
   "note": "Holds for every history and every alias that is not a class-level data descriptor. An alias equal to a method name is accepted and hides the method (C41_method_hidden)."
  },
  {
   "property": "C42",
   "status": "partial",
   "theorems": [
    "Nisaba.Props.C42_list",
    "Nisaba.Props.C42_other_aspect_partial",
    "Nisaba.Props.C42_value_partial",
    "Nisaba.Props.C42_symmetric_partial",
    "Nisaba.Props.C42_bounds_partial",
    "Nisaba.Props.C42_any_na_partial",
    "Nisaba.Props.C42_max_attained_partial",
    "Nisaba.Props.C42_set_least",
    "Nisaba.Props.C42_set_symmetric",
    "Nisaba.Props.C42_repository",
    "Nisaba.Props.C42_same_alias_asymmetric",
    "Nisaba.Props.C42_list_alias_asymmetric",
    "Nisaba.Props.C42_repeated_negative"
   ],
   "note": "Holds for every tree of value lists with distinct features and aliases and non-negative steps, among them all aspects of the repository. Two features with one alias, or a feature with the alias of a list, give asymmetric distances; a feature listed twice gives negative ones (witnesses proved)."
  },
  {
   "property": "C43",
   "status": "partial",
   "theorems": [
    "Nisaba.Props.C43_forward_partial",
    "Nisaba.Props.C43_round_partial",
    "Nisaba.Props.C43_other_list",
    "Nisaba.Props.C43_same_value_is_whole_list"
   ],
   "note": "Holds for two different values; the range goes round when the first comes after the last. range(x, x) is the whole list instead of {x} (proved)."
  },
  {
   "property": "C44",
   "status": "partial",
   "theorems": [
    "Nisaba.Props.C44_cat_flat",
    "Nisaba.Props.C44_or_flat",
    "Nisaba.Props.C44_or_no_redundant",
    "Nisaba.Props.C44_cat_grouping_partial",
    "Nisaba.Props.C44_cat_assoc_partial",
    "Nisaba.Props.C44_cat_unit",
    "Nisaba.Props.C44_cat_language",
    "Nisaba.Props.C44_cat_symbols_assoc",
    "Nisaba.Props.C44_or_language_partial",
    "Nisaba.Props.C44_or_any",
    "Nisaba.Props.C44_or_grouping_partial",
    "Nisaba.Props.C44_cat_grouping_any",
    "Nisaba.Props.C44_or_grouping_fails"
   ],
   "note": "Sequences are associative with units unless a grouped part is any; the symbol lists never depend on grouping. Alternations have the union of the symbol lists whatever the grouping, but the grouping changes which redundant alternatives stay (witness proved)."
  },
  {
   "property": "C45",
   "status": "partial",
   "theorems": [
    "Nisaba.Props.C45_accepts",
    "Nisaba.Props.C45_refl",
    "Nisaba.Props.C45_trans",
    "Nisaba.Props.C45_antisymm",
    "Nisaba.Props.C45_any",
    "Nisaba.Props.C45_nothing",
    "Nisaba.Props.C45_sequences",
    "Nisaba.Props.C45_items",
    "Nisaba.Props.C45_any_inside",
    "Nisaba.Props.C45_equivalent_not_symmetric",
    "Nisaba.Props.C45_or_rejects_alternative"
   ],
   "note": "Reflexive for expressions with symbol lists that contain no empty alternation, transitive through anything but any. Because repeated symbol lists count, equivalence is not symmetric and an alternation may reject one of its alternatives (witnesses proved)."
  },
  {
   "property": "C46",
   "status": "partial",
   "theorems": [
    "Nisaba.Props.C46_indices",
    "Nisaba.Props.C46_increasing_partial",
    "Nisaba.Props.C46_families",
    "Nisaba.Props.C46_recurring_alias",
    "Nisaba.Props.C46_added_not_indexed",
    "Nisaba.Props.C46_total"
   ],
   "note": "Holds for the operations that entered the inventory. An operation with a recurring alias gets the index of the next one, and operations added with add_operations cannot be looked up (both proved)."
  },
  {
   "property": "C47",
   "status": "partial",
   "theorems": [
    "Nisaba.Props.C47_node_partial",
    "Nisaba.Props.C47_states_partial",
    "Nisaba.Props.C47_independent_partial",
    "Nisaba.Props.C47_default_fst_shared",
    "Nisaba.Props.C47_default_error_shared"
   ],
   "note": "Holds when every lattice is given its own FST and error node. The default FST and the default error node are shared objects (proved). Arcs are not modelled."
  },
  {
   "property": "C48",
   "status": "partial",
   "theorems": [
    "Nisaba.Props.C48_one_for_one",
    "Nisaba.Props.C48_lossless",
    "Nisaba.Props.C48_remembered_partial",
    "Nisaba.Props.C48_typed_forgets",
    "Nisaba.Props.C48_reserved_alias",
    "Nisaba.Props.C48_grapheme_lost"
   ],
   "note": "One symbol per character in every inventory; lossless in every plain symbol inventory. In grapheme inventories, and for 'the same character is always the same symbol', only while no caller has taken one of the reserved aliases; inventories typed with another class forget unknown characters (all three proved)."
  },
  {
   "property": "C49",
   "status": "partial",
   "theorems": [
    "Nisaba.Props.C49_load_partial",
    "Nisaba.Props.C49_missing",
    "Nisaba.Props.C49_retry",
    "Nisaba.Props.C49_name_invariant",
    "Nisaba.Props.C49_ok_found",
    "Nisaba.Props.C49_supported",
    "Nisaba.Props.C49_reading"
   ],
   "note": "Holds for the first Load or VerifyLoad of a grammar. After a failed attempt the tag is forgotten (C49_retry)."
  },
  {
   "property": "C50",
   "status": "partial",
   "theorems": [
    "Nisaba.Props.C50_scores_partial",
    "Nisaba.Props.C50_total",
    "Nisaba.Props.C50_empty_reference"
   ],
   "note": "Proved when no reference is empty. An empty reference makes the choice depend on order (witness proved)."
  },
  {
   "property": "C51",
   "status": "partial",
   "theorems": [
    "Nisaba.Props.C51_lines_partial",
    "Nisaba.Props.C51_carriage_return",
    "Nisaba.Props.C51_long_line"
   ],
   "note": "Carriage returns stay and over-long lines are not cut (proved)."
  },
  {
   "property": "C52",
   "status": "proved",
   "theorems": [
    "Nisaba.Props.C52_written",
    "Nisaba.Props.C52_counts",
    "Nisaba.Props.C52_ensemble",
    "Nisaba.Props.C52_outputs"
   ],
   "note": "Over the real numbers."
  },
  {
   "property": "C53",
   "status": "proved",
   "theorems": [
    "Nisaba.Props.C53_aligned"
   ],
   "note": ""
  },
  {
   "property": "C54",
   "status": "partial",
   "theorems": [
    "Nisaba.Props.C54_groups_partial",
    "Nisaba.Props.C54_default_k"
   ],
   "note": "Grouping proved; the default number of results leaves out the last text (proved)."
  },
  {
   "property": "C55",
   "status": "proved",
   "theorems": [
    "Nisaba.Props.C55_word",
    "Nisaba.Props.C55_text"
   ],
   "note": "UTF-8 token mode."
  },
  {
   "property": "C56",
   "status": "proved",
   "theorems": [
    "Nisaba.Props.C56_has_feature"
   ],
   "note": "For aspects with distinct objects and aliases."
  },
  {
   "property": "C57",
   "status": "proved",
   "theorems": [
    "Nisaba.Props.C57_contains_list",
    "Nisaba.Props.C57_special",
    "Nisaba.Props.C57_contains",
    "Nisaba.Props.C57_accepted_is_contained"
   ],
   "note": ""
  },
  {
   "property": "C58",
   "status": "partial",
   "theorems": [
    "Nisaba.Props.C58_side",
    "Nisaba.Props.C58_context",
    "Nisaba.Props.C58_any_context",
    "Nisaba.Props.C58_empty_rule_context",
    "Nisaba.Props.C58_context_required",
    "Nisaba.Props.C58_boundary_ignores_requirement"
   ],
   "note": "Holds without boundary flags. With from_bos or to_eos an empty context matches whatever the rule requires (proved)."
  },
  {
   "property": "C59",
   "status": "proved",
   "theorems": [
    "Nisaba.Props.C59_read",
    "Nisaba.Props.C59_epsilon"
   ],
   "note": ""
  },
  {
   "property": "C60",
   "status": "proved",
   "theorems": [
    "Nisaba.Props.C60_tokens",
    "Nisaba.Props.C60_invalid",
    "Nisaba.Props.C60_words_unique"
   ],
   "note": ""
  },
  {
   "property": "C61",
   "status": "partial",
   "theorems": [
    "Nisaba.Props.C61_external",
    "Nisaba.Props.C61_mixture",
    "Nisaba.Props.C61_half_partial",
    "Nisaba.Props.C61_weight_ignored",
    "Nisaba.Props.C61_violated"
   ],
   "note": "The mixture is right for the factor that is set, but initialization resets the factor, so that the configured weight has no effect and the mixture is half and half (proved). The model's weights are not normalised first."
  },
  {
   "property": "C62",
   "status": "proved",
   "theorems": [
    "Nisaba.Props.C62_segments",
    "Nisaba.Props.C62_joined"
   ],
   "note": ""
  },
  {
   "property": "C63",
   "status": "partial",
   "theorems": [
    "Nisaba.Props.C63_filter_partial",
    "Nisaba.Props.C63_not_filtered",
    "Nisaba.Props.C63_minimum_not_applied"
   ],
   "note": "Positions with at most k candidates are not checked against the minimum posterior (witness proved)."
  },
  {
   "property": "C64",
   "status": "partial",
   "theorems": [
    "Nisaba.Props.C64_interleaving_partial",
    "Nisaba.Props.C64_same_partial",
    "Nisaba.Props.C64_no_deadlock_partial",
    "Nisaba.Props.C64_terminates",
    "Nisaba.Props.C64_race",
    "Nisaba.Props.C64_never_started"
   ],
   "note": "Holds when external candidates override or there are none, and one k is used. Otherwise equal words race (witness proved). The pool that should run the words is never started (proved)."
  },
  {
   "property": "C65",
   "status": "partial",
   "theorems": [
    "Nisaba.Props.C65_sequential",
    "Nisaba.Props.C65_parallel_partial",
    "Nisaba.Props.C65_nothing_written"
   ],
   "note": "Proved for started workers; the code never starts them and writes an empty file (proved)."
  },
  {
   "property": "C66",
   "status": "partial",
   "theorems": [
    "Nisaba.Props.C64_same_partial",
    "Nisaba.Props.C66_earlier_k"
   ],
   "note": "Holds for calls with one k (the calls before are other tasks of the system); fails after a call with a smaller k (witness proved)."
  },
  {
   "property": "C67",
   "status": "partial",
   "theorems": [
    "Nisaba.Props.C67_paths",
    "Nisaba.Props.C67_empty",
    "Nisaba.Props.C67_one_top",
    "Nisaba.Props.C67_dead_end"
   ],
   "note": "For automata without dead ends, as they are after pruning; with a dead end a path is shown that is none (witness proved)."
  },
  {
   "property": "C68",
   "status": "partial",
   "theorems": [
    "Nisaba.Props.C68_reset_partial",
    "Nisaba.Props.C68_reset_violated"
   ],
   "note": "Holds after the last path; in the middle old labels stay (witness proved)."
  },
  {
   "property": "C69",
   "status": "partial",
   "theorems": [
    "Nisaba.Props.C69_lossless",
    "Nisaba.Props.C69_parse_partial",
    "Nisaba.Props.C69_dollar",
    "Nisaba.Props.C69_mixed_violated"
   ],
   "note": "A colon before a dollar sign is taken as part of the name (proved for all names)."
  },
  {
   "property": "C70",
   "status": "partial",
   "theorems": [
    "Nisaba.Props.C70_rewrites",
    "Nisaba.Props.C70_top_rewrites",
    "Nisaba.Props.C70_top_rewrite",
    "Nisaba.Props.C70_one_top",
    "Nisaba.Props.C70_matches",
    "Nisaba.Props.C70_split",
    "Nisaba.Props.C70_one_top_violated"
   ],
   "note": "Holds for strings; OneTopRewrite to an acceptor misses a tie between a string and its extension (witness proved)."
  },
  {
   "property": "C71",
   "status": "partial",
   "theorems": [
    "Nisaba.Props.C71_agree",
    "Nisaba.Props.C71_set_rules",
    "Nisaba.Props.C71_names",
    "Nisaba.Props.C71_load",
    "Nisaba.Props.C71_init_violated",
    "Nisaba.Props.C71_no_rules"
   ],
   "note": "InitFromDefs appends to the earlier rules and accepts an empty list (proved)."
  },
  {
   "property": "C72",
   "status": "partial",
   "theorems": [
    "Nisaba.Props.C72_parens_partial",
    "Nisaba.Props.C72_assignments",
    "Nisaba.Props.C72_reuse_violated"
   ],
   "note": "Reuse of a label is not noticed because the set of labels seen stays empty (witness proved)."
  },
  {
   "property": "C73",
   "status": "proved",
   "theorems": [
    "Nisaba.Props.C73_byte",
    "Nisaba.Props.C73_utf8",
    "Nisaba.Props.C73_byte_printable",
    "Nisaba.Props.C73_utf8_printable"
   ],
   "note": ""
  },
  {
   "property": "C74",
   "status": "partial",
   "theorems": [
    "Nisaba.Props.C74_nfc_partial",
    "Nisaba.Props.C74_visual_partial",
    "Nisaba.Props.C74_visual_lang",
    "Nisaba.Props.C74_acceptor_partial",
    "Nisaba.Props.C74_malayalam",
    "Nisaba.Props.C74_acceptor_malayalam"
   ],
   "note": "Fails for Malayalam text with CHILLU N before a two-part vowel sign (witness proved); proved for all other text."
  },
  {
   "property": "C75",
   "status": "proved",
   "theorems": [
    "Nisaba.Props.C75_reading_function",
    "Nisaba.Props.C75_reading_unchanged",
    "Nisaba.Props.reading_writes"
   ],
   "note": ""
  },
  {
   "property": "C76",
   "status": "partial",
   "theorems": [
    "Nisaba.Props.C76_reading_normal_partial",
    "Nisaba.Props.C76_reading_normal_abjad",
    "Nisaba.Props.C76_malayalam"
   ],
   "note": "Fails for Malayalam text with VOWEL SIGN U, VOWEL SIGN U, VIRAMA (witness proved); proved for all other text."
  },
  {
   "property": "C77",
   "status": "partial",
   "theorems": [
    "Nisaba.Props.C77_reading_wellformed_partial",
    "Nisaba.Props.C77_hindi",
    "Nisaba.Props.C77_malayalam"
   ],
   "note": "Proved for Bengali and Lepcha; fails for Hindi and Malayalam (witnesses proved)."
  },
  {
   "property": "C78",
   "status": "partial",
   "theorems": [
    "Nisaba.Props.C78_in_place",
    "Nisaba.Props.C78_new",
    "Nisaba.Props.C78_replace_partial",
    "Nisaba.Props.C78_update_self_violated"
   ],
   "note": "replace and update hold when the new features do not come out of the set itself; s.update(s) empties s (proved)."
  },
  {
   "property": "C79",
   "status": "partial",
   "theorems": [
    "Nisaba.Props.C79_constructor",
    "Nisaba.Props.C79_update",
    "Nisaba.Props.C79_update_comm",
    "Nisaba.Props.C79_copy_partial",
    "Nisaba.Props.C79_copy_violated",
    "Nisaba.Props.C79_foreign_violated"
   ],
   "note": "Copies are equal unless a set was edited by hand: an emptied aspect becomes any (witness proved). get does not look at the inventory of the aspect (witness proved)."
  },
  {
   "property": "C80",
   "status": "partial",
   "theorems": [
    "Nisaba.Props.C80_symmetric",
    "Nisaba.Props.C80_bounds_partial",
    "Nisaba.Props.C80_other_inventory",
    "Nisaba.Props.C80_single_aspect_violated",
    "Nisaba.Props.C80_empty_violated"
   ],
   "note": "Bounds for profiles whose sets were not edited by hand; an emptied set gives large negative values (witness proved), a single aspect an error (proved). Division by zero is characterised."
  },
  {
   "property": "C81",
   "status": "partial",
   "theorems": [
    "Nisaba.Props.C81_new_partial",
    "Nisaba.Props.C81_get",
    "Nisaba.Props.C81_copy_partial",
    "Nisaba.Props.C81_isolated",
    "Nisaba.Props.C81_result_violated",
    "Nisaba.Props.C81_shared_violated",
    "Nisaba.Props.C81_alias_violated"
   ],
   "note": "Fails for inventories with the same alias, the result of new_profile is not the profile held, not_applicable is shared (witnesses proved)."
  },
  {
   "property": "C82",
   "status": "partial",
   "theorems": [
    "Nisaba.Props.C82_add",
    "Nisaba.Props.C82_added",
    "Nisaba.Props.C82_has_partial",
    "Nisaba.Props.C82_phon",
    "Nisaba.Props.C82_list_violated",
    "Nisaba.Props.C82_na_violated"
   ],
   "note": "Symbol.has_feature does not find value lists, and n_a stays when a feature is added (witnesses proved)."
  },
  {
   "property": "C83",
   "status": "partial",
   "theorems": [
    "Nisaba.Props.C83_read",
    "Nisaba.Props.C83_negative_merged"
   ],
   "note": "Proved for non-negative text indices; a text with a negative index is merged with the next (witness proved)."
  },
  {
   "property": "C84",
   "status": "partial",
   "theorems": [
    "Nisaba.Props.C84_best_partial",
    "Nisaba.Props.C84_exists",
    "Nisaba.Props.C84_error",
    "Nisaba.Props.C84_epsilon_violated"
   ],
   "note": "The word <epsilon> is dropped from outputs (witness proved); proved for all other words. Empty positions and k <= 0 are an out-of-range read (proved)."
  },
  {
   "property": "C85",
   "status": "partial",
   "theorems": [
    "Nisaba.Props.C85_votes_partial",
    "Nisaba.Props.C85_exists",
    "Nisaba.Props.C85_run"
   ],
   "note": "Proved for all words other than <epsilon>."
  },
  {
   "property": "C86",
   "status": "partial",
   "theorems": [
    "Nisaba.Props.C86_read",
    "Nisaba.Props.C86_combined",
    "Nisaba.Props.C86_repeat_violated",
    "Nisaba.Props.C86_inputs_violated"
   ],
   "note": "One input twice in a row is read as one answer, and the inputs of the files are not compared (witnesses proved)."
  },
  {
   "property": "C87",
   "status": "proved",
   "theorems": [
    "Nisaba.Props.C87_relation",
    "Nisaba.Props.C87_unknown",
    "Nisaba.Props.C87_invalid"
   ],
   "note": "For words whose symbols are valid UTF-8."
  },
  {
   "property": "C88",
   "status": "proved",
   "theorems": [
    "Nisaba.Props.iso_to_typ_unique",
    "Nisaba.Props.iso_to_typ_domain",
    "Nisaba.Props.iso_to_typ_injective",
    "Nisaba.Props.iso_to_typ_modes"
   ],
   "note": ""
  },
  {
   "property": "C89",
   "status": "partial",
   "theorems": [
    "Nisaba.Props.te_pronunciation",
    "Nisaba.Props.kn_pronunciation",
    "Nisaba.Props.hi_pronunciation",
    "Nisaba.Props.mr_pronunciation",
    "Nisaba.Props.bn_pronunciation",
    "Nisaba.Props.ta_pronunciation",
    "Nisaba.Props.ml_pronunciation",
    "Nisaba.Props.pa_pronunciation_partial",
    "Nisaba.Props.pa_pronunciation_unique_partial",
    "Nisaba.Props.pa_pronunciation_violated",
    "Nisaba.Props.gu_pronunciation_partial"
   ],
   "note": "Punjabi has two pronunciations of an affricate after an addak (witness proved), one for every text without silent characters. Gujarati for texts without a diphthong. Malayalam adds graphemes <u>."
  },
  {
   "property": "C90",
   "status": "partial",
   "theorems": [
    "Nisaba.Props.te_psaf",
    "Nisaba.Props.te_psac",
    "Nisaba.Props.te_nat",
    "Nisaba.Props.te_ipa",
    "Nisaba.Props.kn_psaf",
    "Nisaba.Props.kn_psac",
    "Nisaba.Props.kn_nat",
    "Nisaba.Props.kn_ipa",
    "Nisaba.Props.mr_psaf",
    "Nisaba.Props.mr_psac",
    "Nisaba.Props.mr_nat",
    "Nisaba.Props.mr_ipa",
    "Nisaba.Props.bn_psaf",
    "Nisaba.Props.bn_psac",
    "Nisaba.Props.bn_nat",
    "Nisaba.Props.bn_ipa",
    "Nisaba.Props.hi_psaf",
    "Nisaba.Props.hi_psac",
    "Nisaba.Props.hi_ipa",
    "Nisaba.Props.hi_nat",
    "Nisaba.Props.hi_nat_modes",
    "Nisaba.Props.ta_psaf",
    "Nisaba.Props.ta_psac",
    "Nisaba.Props.ta_nat",
    "Nisaba.Props.ta_ipa",
    "Nisaba.Props.ml_psaf",
    "Nisaba.Props.ml_psac",
    "Nisaba.Props.ml_nat",
    "Nisaba.Props.ml_ipa",
    "Nisaba.Props.te_psaf_modes",
    "Nisaba.Props.te_psac_modes",
    "Nisaba.Props.te_nat_modes",
    "Nisaba.Props.kn_psaf_modes",
    "Nisaba.Props.kn_psac_modes",
    "Nisaba.Props.kn_nat_modes",
    "Nisaba.Props.mr_psaf_modes",
    "Nisaba.Props.mr_psac_modes",
    "Nisaba.Props.mr_nat_modes",
    "Nisaba.Props.bn_psaf_modes",
    "Nisaba.Props.bn_psac_modes",
    "Nisaba.Props.bn_nat_modes",
    "Nisaba.Props.gu_psaf_modes",
    "Nisaba.Props.gu_psac_modes",
    "Nisaba.Props.gu_nat_modes",
    "Nisaba.Props.pa_psaf_modes",
    "Nisaba.Props.pa_psac_modes",
    "Nisaba.Props.pa_nat_modes",
    "Nisaba.Props.hi_psaf_modes",
    "Nisaba.Props.hi_psac_modes",
    "Nisaba.Props.ta_psaf_modes",
    "Nisaba.Props.ta_psac_modes",
    "Nisaba.Props.ta_nat_modes",
    "Nisaba.Props.ml_psaf_modes",
    "Nisaba.Props.ml_psac_modes",
    "Nisaba.Props.ml_nat_modes",
    "Nisaba.Props.gu_psaf_partial",
    "Nisaba.Props.gu_psac_partial",
    "Nisaba.Props.gu_nat_partial",
    "Nisaba.Props.gu_ipa_partial",
    "Nisaba.Props.pa_psaf_partial",
    "Nisaba.Props.pa_psac_partial",
    "Nisaba.Props.pa_nat_partial",
    "Nisaba.Props.pa_ipa_partial",
    "Nisaba.Props.gu_psaf_violated",
    "Nisaba.Props.gu_psac_violated",
    "Nisaba.Props.gu_nat_violated",
    "Nisaba.Props.gu_ipa_violated",
    "Nisaba.Props.pa_psaf_unique_partial",
    "Nisaba.Props.pa_psac_unique_partial",
    "Nisaba.Props.pa_nat_unique_partial",
    "Nisaba.Props.pa_ipa_unique_partial",
    "Nisaba.Props.pa_psaf_violated",
    "Nisaba.Props.pa_psac_violated",
    "Nisaba.Props.pa_ipa_violated"
   ],
   "note": "Gujarati texts with a diphthong have no output at all (proved for all of them). Punjabi texts with an addak before an affricate have several outputs (witness proved)."
  },
  {
   "property": "C91",
   "status": "partial",
   "theorems": [
    "Nisaba.Props.txn_to_ipa_iff",
    "Nisaba.Props.ipa_unambiguous",
    "Nisaba.Props.print_ltn_iff",
    "Nisaba.Props.te_transcription",
    "Nisaba.Props.kn_transcription",
    "Nisaba.Props.hi_transcription",
    "Nisaba.Props.mr_transcription",
    "Nisaba.Props.bn_transcription",
    "Nisaba.Props.ta_transcription",
    "Nisaba.Props.ml_transcription",
    "Nisaba.Props.gu_transcription_partial",
    "Nisaba.Props.pa_transcription_partial"
   ],
   "note": "Gujarati and Punjabi as in C90."
  },
  {
   "property": "C92",
   "status": "proved",
   "theorems": [
    "Nisaba.Props.C92_to_unambiguous",
    "Nisaba.Props.C92_to_nfc"
   ],
   "note": ""
  },
  {
   "property": "C93",
   "status": "proved",
   "theorems": [
    "Nisaba.Props.C93_iso_unique",
    "Nisaba.Props.C93_unambiguous"
   ],
   "note": ""
  },
  {
   "property": "C94",
   "status": "proved",
   "theorems": [
    "Nisaba.Props.C94_tilde"
   ],
   "note": ""
  },
  {
   "property": "C95",
   "status": "partial",
   "theorems": [
    "Nisaba.Props.C95_words_partial",
    "Nisaba.Props.C95_violated"
   ],
   "note": "Proved for words without the syllable mO, for which the rules give other letters (witness proved)."
  },
  {
   "property": "C96",
   "status": "partial",
   "theorems": [
    "Nisaba.Props.C96_typable_partial",
    "Nisaba.Props.C96_violated"
   ],
   "note": "Ten letters cannot be typed (proved over all keys). 70 letters can; the sign AU with two parts is left open."
  },
  {
   "property": "C97",
   "status": "proved",
   "theorems": [
    "Nisaba.Props.C97_iso",
    "Nisaba.Props.C97_fixed",
    "Nisaba.Props.C97_reading",
    "Nisaba.Props.C97_arab",
    "Nisaba.Props.C97_arab_reading",
    "Nisaba.Props.C97_arab_visual"
   ],
   "note": ""
  },
  {
   "property": "C98",
   "status": "partial",
   "theorems": [
    "Nisaba.Props.PortFile.C98_read_to_string_partial",
    "Nisaba.Props.PortFile.C98_write_read",
    "Nisaba.Props.PortFile.C98_violated"
   ],
   "note": "Proved for maxima below 2^63; for larger ones the conversion to int64_t makes reading fail (proved)."
  },
  {
   "property": "C99",
   "status": "partial",
   "theorems": [
    "Nisaba.Props.PortFile.C99_lines_partial",
    "Nisaba.Props.PortFile.C99_read_line",
    "Nisaba.Props.PortFile.C99_violated",
    "Nisaba.Props.PortFile.C99_nul_violated"
   ],
   "note": "Proved for lines without NUL at least two bytes shorter than the maximum; lines of the documented maximum are split, and what follows a NUL is lost (both proved for all of them)."
  }
 ]
}