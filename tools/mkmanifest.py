"""Writes MANIFEST.json.  Property -> (status, theorems, note)."""
import glob, json, os, re
C = {}
# Full names of the theorems, from the namespaces they are stated in.
FULL = {}
for path in sorted(glob.glob(os.path.join(os.path.dirname(__file__), '..', 'lean', 'Verif', 'Props', '*.lean'))):
    stack = []
    for line in open(path):
        m = re.match(r'(namespace|(?:noncomputable )?section|mutual|end)(?: ([\w.]+))?$', line)
        t = re.match(r"theorem ([\w'.]+)", line)
        if m and m.group(1) == 'end': stack.pop()
        elif m: stack.append(m.group(2) if m.group(1) == 'namespace' else None)
        elif t: FULL[t.group(1)] = '.'.join([n for n in stack if n] + [t.group(1)])
def claim(pid, status, theorems, note):
    C[pid] = dict(property=pid, status=status, theorems=[FULL[t] for t in theorems], note=note)

claim('C01', 'proved', ['C01_partition'], 'All rule lists; the fuel of the loop never runs out.')
claim('C02', 'proved', ['C02_line_order', 'C02_line_order_text'], 'Equality of compiled relations and of rewritten texts.')
claim('C03', 'proved', ['C03_total_single_valued'], 'Relation defined by the declarative obligatory left-to-right rewrite.')
claim('C04', 'proved', ['C04_compose_heuristic'], 'State counts of intermediate machines are arbitrary.')
claim('C05', 'proved', ['C05_pipeline'], '')
claim('C06', 'proved', ['C06_nfc_total', 'C06_nfc_total_sigma'], 'Actual tables of all 20 scripts and the pan-Brahmic table, any alphabet containing what the table writes.')
claim('C07', 'proved', ['C07_nfc_idempotent'], 'All strings; finite closed set of machine states checked by the kernel.')
claim('C08', 'proved', ['C08_nfc_complete'], '')
claim('C09', 'proved', ['C09_brahmic_agrees'], '')
claim('C10', 'proved', ['C10_visual_function', 'C10_visual_function_lang'], 'Any iteration order of the mark set.')
claim('C11', 'proved', ['C11_visual_absorbs_nfc'], '')
claim('C12', 'proved', ['C12_dedup_order', 'C12_dedup_order_irrelevant'], '')
claim('C13', 'proved', ['C13_joiners'], 'Stronger than stated: surviving joiners stand between consonants.')
claim('C14', 'partial', ['C14_visual_idempotent_partial', 'C14_visual_not_idempotent', 'C14_visual_not_idempotent_plain'], 'False as stated for every script (witnesses proved). Proved for ten scripts on text without joiners.')
claim('C15', 'proved', ['C15_concat'], '')
claim('C16', 'proved', ['C16_grammar', 'C16_finite_memory', 'C16_recogniser'], 'Independent inductive grammar; executable recogniser and finite-memory automaton.')
claim('C17', 'proved', ['C17_start', 'C17_pair', 'C17_no_exceptions', 'C17_sign_follows_consonant'], 'Exceptions are only the accept rows of Malayalam and the compound vowel signs of Sylheti.')
claim('C31', 'proved', ['C31_round_trip', 'C31_decode_errors', 'C31_decode_first', 'C31_decode_single', 'C31_split'], '')
claim('C32', 'proved', ['C32_split_lossless', 'C32_split_invalid', 'C32_whitespace_sets', 'C32_whitespace_characters', 'C32_union'], 'Abseil StrSplit loop modelled; any delimiter set.')
claim('C33', 'proved', ['C33_word', 'C33_text', 'C33_invalid'], 'Refinement to repeated best merge; no out-of-range access.')
claim('C34', 'partial', ['C34_counts', 'C34_min_alignment_partial', 'C34_char_mode', 'C34_epsilon_token'], 'Holds for all sequences without the token <epsilon>, always in character mode. False for a word spelled <epsilon> (witness proved).')
claim('C35', 'partial', ['C35_lines_partial', 'C35_missing_reference', 'C35_shifted'], 'Holds when every example has a reference. False otherwise (proved: reads out of range and shifts).')
claim('C36', 'proved', ['C36_mode'], '')
claim('C37', 'partial', ['C37_rejoin_partial', 'C37_exists', 'C37_single_part', 'C37_single_part_unsorted'], 'Proved for two or more parts. A single part is returned unsorted and uncut (proved).')
claim('C38', 'proved', ['C38_fifo', 'C38_all_executed', 'C38_no_deadlock', 'C38_terminates', 'C38_returns', 'C38_not_started', 'C38_late_task_dropped'], 'Every interleaving; tasks may schedule tasks.')
claim('C39', 'proved', ['C39_components', 'C39_shape', 'C39_assoc'], '')
claim('C40', 'proved', ['C40_matrix'], '')
claim('C50', 'partial', ['C50_scores_partial', 'C50_total', 'C50_empty_reference'], 'Proved when no reference is empty. An empty reference makes the choice depend on order (witness proved).')
claim('C51', 'partial', ['C51_lines_partial', 'C51_carriage_return', 'C51_long_line'], 'Carriage returns stay and over-long lines are not cut (proved).')
claim('C52', 'proved', ['C52_written', 'C52_counts', 'C52_ensemble', 'C52_outputs'], 'Over the real numbers.')
claim('C53', 'proved', ['C53_aligned'], '')
claim('C54', 'partial', ['C54_groups_partial', 'C54_default_k'], 'Grouping proved; the default number of results leaves out the last text (proved).')

claim("C18", "partial", ["C18_normal_form", "C18_word_partial", "C18_brackets", "C18_text",
      "C18_text_partial", "C18_cpp"],
      "Every word: a returned text is the visual normal form. Words without '[', ']' and '\\\\': "
      "normal form if well formed, IllFormedError otherwise. With brackets the claim is false and "
      "C18_brackets proves it: AcceptText does not escape its argument.")
claim("C30", "proved", ["C30_rewrite", "C30_rules", "C30_nfc", "C30_nfc_brahmic", "C30_visual", "C30_visual_lang"], "")
claim("C49", "partial", ["C49_load_partial", "C49_missing", "C49_retry", "C49_name_invariant",
      "C49_ok_found", "C49_supported", "C49_reading"],
      "Holds for the first Load or VerifyLoad of a grammar. After a failed attempt the tag is "
      "forgotten (C49_retry).")

claim("C23", "proved", ["C23_reversible", "C23_decodes"], "UTF-8 token mode. Unique decodability by a closed set of dangling rests of the 183 codewords.")
claim("C24", "partial", ["C24_idempotent_partial", "C24_not_idempotent", "C24_not_idempotent_alef"],
      "False in general (witnesses proved). Proved for text without two consecutive marks.")
claim("C25", "proved", ["C25_reaches_fixed_point", "C25_no_bound"], "Also proved: no fixed number of passes is enough.")
claim("C26", "proved", ["C26_total_positional"], "")
claim("C27", "partial", ["C27_idempotent_partial", "C27_not_idempotent", "C27_dari_alternates"],
      "False in every language (witness proved). Proved for words of plain letters, in Dari of at least two.")
claim("C28", "proved", ["C28_no_presentation_forms", "C28_rows"], "")
claim("C55", "proved", ["C55_word", "C55_text"], "UTF-8 token mode.")

claim("C41", "partial", ["C41_add_item", "C41_failure_unchanged", "C41_retrievable_partial", "C41_persistent",
      "C41_get", "C41_order", "C41_no_exception", "C41_method_hidden"],
      "Holds for every history and every alias that is not a class-level data descriptor. An alias equal to a "
      "method name is accepted and hides the method (C41_method_hidden).")
claim("C46", "partial", ["C46_indices", "C46_increasing_partial", "C46_families", "C46_recurring_alias",
      "C46_added_not_indexed", "C46_total"],
      "Holds for the operations that entered the inventory. An operation with a recurring alias gets the index of "
      "the next one, and operations added with add_operations cannot be looked up (both proved).")
claim("C47", "partial", ["C47_node_partial", "C47_states_partial", "C47_independent_partial", "C47_default_fst_shared",
      "C47_default_error_shared"],
      "Holds when every lattice is given its own FST and error node. The default FST and the default error node "
      "are shared objects (proved). Arcs are not modelled.")

claim("C48", "partial", ["C48_one_for_one", "C48_lossless", "C48_remembered_partial", "C48_typed_forgets",
      "C48_reserved_alias", "C48_grapheme_lost"],
      "One symbol per character in every inventory; lossless in every plain symbol inventory. In grapheme "
      "inventories, and for 'the same character is always the same symbol', only while no caller has taken one of the "
      "reserved aliases; inventories typed with another class forget unknown characters (all three proved).")

claim("C42", "partial", ["C42_list", "C42_other_aspect_partial", "C42_value_partial", "C42_symmetric_partial", "C42_bounds_partial", "C42_any_na_partial",
      "C42_max_attained_partial", "C42_set_least", "C42_set_symmetric", "C42_repository",
      "C42_same_alias_asymmetric", "C42_list_alias_asymmetric", "C42_repeated_negative"],
      "Holds for every tree of value lists with distinct features and aliases and non-negative steps, among them all "
      "aspects of the repository. Two features with one alias, or a feature with the alias of a list, give asymmetric "
      "distances; a feature listed twice gives negative ones (witnesses proved).")
claim("C43", "partial", ["C43_forward_partial", "C43_round_partial", "C43_other_list", "C43_same_value_is_whole_list"],
      "Holds for two different values; the range goes round when the first comes after the last. range(x, x) is the "
      "whole list instead of {x} (proved).")
claim("C56", "proved", ["C56_has_feature"], "For aspects with distinct objects and aliases.")

claim("C44", "partial", ["C44_cat_flat", "C44_or_flat", "C44_or_no_redundant", "C44_cat_grouping_partial",
      "C44_cat_assoc_partial", "C44_cat_unit", "C44_cat_language", "C44_cat_symbols_assoc", "C44_or_language_partial",
      "C44_or_any", "C44_or_grouping_partial", "C44_cat_grouping_any", "C44_or_grouping_fails"],
      "Sequences are associative with units unless a grouped part is any; the symbol lists never depend on grouping. "
      "Alternations have the union of the symbol lists whatever the grouping, but the grouping changes which redundant "
      "alternatives stay (witness proved).")
claim("C45", "partial", ["C45_accepts", "C45_refl", "C45_trans", "C45_antisymm", "C45_any", "C45_nothing",
      "C45_sequences", "C45_items", "C45_any_inside", "C45_equivalent_not_symmetric", "C45_or_rejects_alternative"],
      "Reflexive for expressions with symbol lists that contain no empty alternation, transitive through anything but "
      "any. Because repeated symbol lists count, equivalence is not symmetric and an alternation may reject one of its "
      "alternatives (witnesses proved).")
claim("C57", "proved", ["C57_contains_list", "C57_special", "C57_contains", "C57_accepted_is_contained"], "")
claim("C58", "partial", ["C58_side", "C58_context", "C58_any_context", "C58_empty_rule_context", "C58_context_required", "C58_boundary_ignores_requirement"],
      "Holds without boundary flags. With from_bos or to_eos an empty context matches whatever the rule requires "
      "(proved).")

claim("C29", "partial", ["C29_convert", "C29_raw_agrees", "C29_prefix_order", "C29_errors_partial",
      "C29_named_sequence", "C29_empty_prefix"],
      "Success is characterised for every database. ValueError is the only error when names name single characters; "
      "a named sequence ends in a TypeError (proved). One character found through two prefixes counts as ambiguous.")

claim("C19", "proved", ["C19_unambiguous"], "All 20 scripts. Certificates for the sequential form of both transducers are found by an untrusted search and checked by the kernel.")
claim("C20", "proved", ["C20_lossless"], "All 20 scripts, every text in the domain.")
claim("C21", "proved", ["C21_wellformed", "C21_round_trip"], "")
claim("C22", "proved", ["C22_concat", "C22_from"], "On the relation of brahmic_to_iso; for FROM_<script> when NFC does not act across the boundary.")

claim("C59", "proved", ["C59_read", "C59_epsilon"], "")
claim("C60", "proved", ["C60_tokens", "C60_invalid", "C60_words_unique"], "")

claim("C61", "partial", ["C61_external", "C61_mixture", "C61_half_partial", "C61_weight_ignored", "C61_violated"],
      "The mixture is right for the factor that is set, but initialization resets the factor, so that the configured "
      "weight has no effect and the mixture is half and half (proved). The model's weights are not normalised first.")
claim("C62", "proved", ["C62_segments", "C62_joined"], "")
claim("C63", "partial", ["C63_filter_partial", "C63_not_filtered", "C63_minimum_not_applied"],
      "Positions with at most k candidates are not checked against the minimum posterior (witness proved).")
claim("C64", "partial", ["C64_interleaving_partial", "C64_same_partial", "C64_no_deadlock_partial", "C64_terminates",
      "C64_race", "C64_never_started"],
      "Holds when external candidates override or there are none, and one k is used. Otherwise equal words race "
      "(witness proved). The pool that should run the words is never started (proved).")
claim("C65", "partial", ["C65_sequential", "C65_parallel_partial", "C65_nothing_written"],
      "Proved for started workers; the code never starts them and writes an empty file (proved).")
claim("C66", "partial", ["C64_same_partial", "C66_earlier_k"],
      "Holds for calls with one k (the calls before are other tasks of the system); fails after a call with a smaller "
      "k (witness proved).")

claim("C67", "partial", ["C67_paths", "C67_empty", "C67_one_top", "C67_dead_end"],
      "For automata without dead ends, as they are after pruning; with a dead end a path is shown that is none (witness proved).")
claim("C68", "partial", ["C68_reset_partial", "C68_reset_violated"],
      "Holds after the last path; in the middle old labels stay (witness proved).")
claim("C69", "partial", ["C69_lossless", "C69_parse_partial", "C69_dollar", "C69_mixed_violated"],
      "A colon before a dollar sign is taken as part of the name (proved for all names).")
claim("C70", "partial", ["C70_rewrites", "C70_top_rewrites", "C70_top_rewrite", "C70_one_top", "C70_matches", "C70_split",
      "C70_one_top_violated"],
      "Holds for strings; OneTopRewrite to an acceptor misses a tie between a string and its extension (witness proved).")
claim("C71", "partial", ["C71_agree", "C71_set_rules", "C71_names", "C71_load", "C71_init_violated", "C71_no_rules"],
      "InitFromDefs appends to the earlier rules and accepts an empty list (proved).")
claim("C72", "partial", ["C72_parens_partial", "C72_assignments", "C72_reuse_violated"],
      "Reuse of a label is not noticed because the set of labels seen stays empty (witness proved).")
claim("C73", "proved", ["C73_byte", "C73_utf8", "C73_byte_printable", "C73_utf8_printable"], "")

claim("C74", "partial", ["C74_nfc_partial", "C74_visual_partial", "C74_visual_lang", "C74_acceptor_partial", "C74_malayalam",
      "C74_acceptor_malayalam"],
      "Fails for Malayalam text with CHILLU N before a two-part vowel sign (witness proved); proved for all other text.")
claim("C75", "proved", ["C75_reading_function", "C75_reading_unchanged", "reading_writes"], "")
claim("C76", "partial", ["C76_reading_normal_partial", "C76_reading_normal_abjad", "C76_malayalam"],
      "Fails for Malayalam text with VOWEL SIGN U, VOWEL SIGN U, VIRAMA (witness proved); proved for all other text.")
claim("C77", "partial", ["C77_reading_wellformed_partial", "C77_hindi", "C77_malayalam"],
      "Proved for Bengali and Lepcha; fails for Hindi and Malayalam (witnesses proved).")

claim("C78", "partial", ["C78_in_place", "C78_new", "C78_replace_partial", "C78_update_self_violated"],
      "replace and update hold when the new features do not come out of the set itself; s.update(s) empties s (proved).")
claim("C79", "partial", ["C79_constructor", "C79_update", "C79_update_comm", "C79_copy_partial", "C79_copy_violated",
      "C79_foreign_violated"],
      "Copies are equal unless a set was edited by hand: an emptied aspect becomes any (witness proved). get does not "
      "look at the inventory of the aspect (witness proved).")
claim("C80", "partial", ["C80_symmetric", "C80_bounds_partial", "C80_other_inventory", "C80_single_aspect_violated",
      "C80_empty_violated"],
      "Bounds for profiles whose sets were not edited by hand; an emptied set gives large negative values (witness "
      "proved), a single aspect an error (proved). Division by zero is characterised.")
claim("C81", "partial", ["C81_new_partial", "C81_get", "C81_copy_partial", "C81_isolated", "C81_result_violated",
      "C81_shared_violated", "C81_alias_violated"],
      "Fails for inventories with the same alias, the result of new_profile is not the profile held, not_applicable is "
      "shared (witnesses proved).")
claim("C82", "partial", ["C82_add", "C82_added", "C82_has_partial", "C82_phon", "C82_list_violated", "C82_na_violated"],
      "Symbol.has_feature does not find value lists, and n_a stays when a feature is added (witnesses proved).")

claim("C83", "partial", ["C83_read", "C83_negative_merged"],
      "Proved for non-negative text indices; a text with a negative index is merged with the next (witness proved).")
claim("C84", "partial", ["C84_best_partial", "C84_exists", "C84_error", "C84_epsilon_violated"],
      "The word <epsilon> is dropped from outputs (witness proved); proved for all other words. Empty positions and "
      "k <= 0 are an out-of-range read (proved).")
claim("C85", "partial", ["C85_votes_partial", "C85_exists", "C85_run"],
      "Proved for all words other than <epsilon>.")
claim("C86", "partial", ["C86_read", "C86_combined", "C86_repeat_violated", "C86_inputs_violated"],
      "One input twice in a row is read as one answer, and the inputs of the files are not compared (witnesses proved).")
claim("C87", "proved", ["C87_relation", "C87_unknown", "C87_invalid"], "For words whose symbols are valid UTF-8.")

claim("C88", "proved", ["iso_to_typ_unique", "iso_to_typ_domain", "iso_to_typ_injective", "iso_to_typ_modes"], "")
claim("C89", "partial", [l + "_pronunciation" for l in ["te", "kn", "hi", "mr", "bn", "ta", "ml"]] +
      ["pa_pronunciation_partial", "pa_pronunciation_unique_partial", "pa_pronunciation_violated", "gu_pronunciation_partial"],
      "Punjabi has two pronunciations of an affricate after an addak (witness proved), one for every text without silent "
      "characters. Gujarati for texts without a diphthong. Malayalam adds graphemes <u>.")
claim("C90", "partial", [l + "_" + k for l in ["te", "kn", "mr", "bn"] for k in ["psaf", "psac", "nat", "ipa"]] +
      ["hi_psaf", "hi_psac", "hi_ipa", "hi_nat", "hi_nat_modes"] + [l + "_" + k for l in ["ta", "ml"] for k in ["psaf", "psac", "nat", "ipa"]] +
      [l + "_" + k + "_modes" for l in ["te", "kn", "mr", "bn", "gu", "pa"] for k in ["psaf", "psac", "nat"]] +
      ["hi_psaf_modes", "hi_psac_modes", "ta_psaf_modes", "ta_psac_modes", "ta_nat_modes", "ml_psaf_modes", "ml_psac_modes", "ml_nat_modes"] +
      [l + "_" + k + "_partial" for l in ["gu", "pa"] for k in ["psaf", "psac", "nat", "ipa"]] +
      ["gu_" + k + "_violated" for k in ["psaf", "psac", "nat", "ipa"]] +
      ["pa_" + k + "_unique_partial" for k in ["psaf", "psac", "nat", "ipa"]] +
      ["pa_psaf_violated", "pa_psac_violated", "pa_ipa_violated"],
      "Gujarati texts with a diphthong have no output at all (proved for all of them). Punjabi texts with an addak before "
      "an affricate have several outputs (witness proved).")
claim("C91", "partial", ["txn_to_ipa_iff", "ipa_unambiguous", "print_ltn_iff"] +
      [l + "_transcription" for l in ["te", "kn", "hi", "mr", "bn", "ta", "ml"]] +
      ["gu_transcription_partial", "pa_transcription_partial"],
      "Gujarati and Punjabi as in C90.")

claim("C92", "proved", ["C92_to_unambiguous", "C92_to_nfc"], "")
claim("C93", "proved", ["C93_iso_unique", "C93_unambiguous"], "")
claim("C94", "proved", ["C94_tilde"], "")
claim("C95", "partial", ["C95_words_partial", "C95_violated"],
      "Proved for words without the syllable mO, for which the rules give other letters (witness proved).")
claim("C96", "partial", ["C96_typable_partial", "C96_violated"],
      "Ten letters cannot be typed (proved over all keys). 70 letters can; the sign AU with two parts is left open.")

claim("C97", "proved", ["C97_iso", "C97_fixed", "C97_reading", "C97_arab", "C97_arab_reading",
      "C97_arab_visual"], "")

claim("C98", "partial", ["C98_read_to_string_partial", "C98_write_read", "C98_violated"],
      "Proved for maxima below 2^63; for larger ones the conversion to int64_t makes reading fail (proved).")
claim("C99", "partial", ["C99_lines_partial", "C99_read_line", "C99_violated", "C99_nul_violated"],
      "Proved for lines without NUL at least two bytes shorter than the maximum; lines of the documented maximum are split, and what follows a NUL is lost (both proved for all of them).")
claim("C100", "proved", ["C100_emd", "C100_pair", "C100_totals"], "")
claim("C101", "partial", ["C101_lengths_partial", "C101_violated_words", "C101_violated_spaces"],
      "Proved for characters and single spaces; false for word error rates and other white space (witnesses proved).")
claim("C102", "partial", ["C102_word_iff", "C102_members_partial", "C102_violated"],
      "True exactly for words without quotation mark, backslash and control characters, which are not escaped.")
claim("C103", "proved", ["C103_items", "C103_add_add", "C103_untyped", "C103_copy", "C103_item"], "")
claim("C104", "proved", ["C104_add", "C104_union", "C104_concat", "C104_compose", "C104_union_star"], "")

claim("C105", "proved", ["C105_iso", "C105_brahmic"], "")
claim("C106", "proved", ["C106_hi", "C106_ta"], "")
claim("C107", "partial", ["C107_partial", "C107_violated"],
      "False: a single tr is rewritten, as its mapping is also in the group of plain consonants (proved). Proved: the letter occurs exactly for words with tr.")
claim("C108", "proved", ["C108_anusvara"], "")
claim("C109", "proved", ["C109_agree"], "")

claim("C110", "proved", ["C110_speller", "C110_case", "C110_default"], "")
claim("C111", "partial", ["C111_decodable", "C111_reversible_partial", "C111_reversible_violated"],
      "Proved for 11 of 13 languages; in Sindhi and Tamil two pairs of letters have the same spelling (witnesses proved), and there words are determined up to letters of the same spelling.")
claim("C112", "partial", ["C112_wellformed_partial", "C112_joiner", "C112_wellformed_violated", "C112_nfc", "C112_round_trip"],
      "NFC for all; well-formedness for eight languages; in Kannada, Malayalam and Telugu a text is well formed exactly if no joiner comes before an independent vowel (proved both ways).")

claim("C113", "proved", ["hi_nat_acronym", "hi_nat_other", "namesOf_unique", "hi_nat_lower", "hi_nat_ke"], "")

claim("C114", "partial", ["C114_lookup", "C114_own_index_partial", "C114_own_index_violated", "C114_shared",
      "C114_reserved", "C114_reserved_violated", "C114_grapheme"],
      "Looking up is proved for every history. A phoneme carries the index of its place if it is passed only once; passed again, even in vain, it takes the index of another place (witnesses proved). Languages share an index exactly if one has more phonemes than the distance allows (proved both ways).")

claim("C115", "partial", ["C115_pair", "C115_control", "C115_inverse_partial", "C115_inverse_violated", "C115_raw_violated"],
      "Proved for every history and every feature whose text is no name that the methods need; a symbol that gets a second partner leaves the first one pointing to it, and the features of symbols themselves overwrite the field raw (both proved).")
claim("C116", "partial", ["C116_import_partial", "C116_english", "C116_taken_violated"],
      "Proved for aliases that are not taken; for a taken alias the call raises IndexError and leaves an unpaired copy in the inventory (witness proved).")

claim("C117", "partial", ["C117_compose", "C117_compose_error", "C117_flat", "C117_derive", "C117_derive_violated", "C117_devoiced",
      "C117_import", "C117_import_violated", "C117_ok", "C117_inventory", "C117_decodable", "C117_combiner_violated", "C117_ipa_violated"],
      "Proved except: the default translit of a derived phoneme is an empty transducer, composites ignore what an import added, the combiner makes transcriptions ambiguous and some phonemes have the same IPA (all four proved).")

claim("C118", "partial", ["C118_roundtrip", "C118_prefix", "C118_empty_violated", "C118_empty_run_violated", "C118_tab_violated",
      "C118_tab_lost_violated", "C118_epsilon_violated"],
      "The round trip is proved for valid UTF-8 and candidates that are fields, below the limit of line length; an empty candidate stops the extractor, a leading tab is lost silently, a word that is the epsilon symbol stops the decoder (all proved).")

claim("C119", "partial", ["C119_extractor_partial", "C119_lists_partial", "C119_rejoiner", "C119_lists_violated", "C119_full_input_violated", "C119_single_violated"],
      "Proved for the extractor with scores, more than one result and different labels of neighbouring texts, and for texts that have candidates. With one result no file of the extractor can be read, with the words as labels a repeated text is merged, a text without candidates is lost (all proved).")

claim("C120", "partial", ["C120_setup", "C120_no_rules", "C120_one", "C120_many", "C120_missing", "C120_outcome", "C120_refused", "C120_details", "C120_run", "C120_noutput_violated", "C120_byte_violated", "C120_generated_violated"],
      "Proved for labels the output mode can print and no generated symbols, for every choice of shortest paths that OpenFst allows. A label above 255 is printed as another byte, a generated symbol like a text in brackets, and a number of outputs below 1 makes every input fail (all proved).")

claim("C121", "partial", ["C121_last_update", "C121_default", "C121_names_partial", "C121_unsaid", "C121_height_violated", "C121_distinct", "C121_similarity_partial", "C121_atomics", "C121_complete"],
      "Proved for every table (last update, defaults) and for all 100 phonemes but the vowel ø, which no loop gives a height: it is as similar to y, œ and ɶ as to itself (proved).")

claim("C122", "proved", ["C122_union", "C122_compatible", "C122_english", "C122_lists", "C122_case", "C122_latin_ipa"],
      "The union and the similarity for every profile and every list of symbols; the letters of both inventories exhaustively. C122_latin_ipa lists exactly which Latin letters agree with the phoneme of the same character.")

claim("C123", "partial", ["C123_copy", "C123_context", "C123_everywhere", "C123_delete_insert_partial", "C123_deletion_violated", "C123_interchangeable", "C123_cost_partial", "C123_int_cost_violated", "C123_constants", "C123_row_partial", "C123_row_violated"],
      "Proved for all expressions and contexts. The claim fails for deletion of a symbol that is no Atomic (TypeError), for a cost that is an int (it is ignored) and for rows with alternatives, which look like sequences (all proved).")

claim("C124", "partial", ["C124_table_partial", "C124_failure", "C124_fill_partial", "C124_fill_violated", "C124_letters"],
      "Rows are read back if no string has a tab or a line feed or begins like a comment. _fill_missing_raw of unicode_strings_util fails on items that are no mappings (proved): None is assigned to a field of type string.")

claim("C125", "proved", ["C125_score", "C125_final", "C125_once", "C125_endless"],
      "For models with sorted arcs, at most one backoff arc per state, whose backing off ends, in which every state has an arc and no word leads back to a start state that is not final. The PhiMatcher of OpenFst is modelled from its documentation.")

claim("C126", "partial", ["C126_greedy", "C126_init", "C126_no_oov", "C126_segments", "C126_whole", "C126_transducer", "C126_calls", "C126_empty_violated"],
      "The claim fails for an empty candidate with word pieces: it has no symbols and is never read, so that the language model drops it (proved). Without a symbol for unknown words the program ends in the greedy mode (C126_no_oov).")

claim("C127", "partial", ["C127_posterior", "C127_best", "C127_sum", "C127_none", "C127_word_partial", "C127_one_word", "C127_word_violated", "C127_word_minimum_violated", "C127_empty_violated"],
      "Proved at line level for all weights and models. At word level the claim fails for lines of several words: costs are divided by the sum over all words of the line, so that they do not add up to 1 for a word and the minimum posterior removes candidates because of other words; an empty line ends the program (all proved). Rounding is not modelled.")

claim("C128", "proved", ["C128_pairs", "C128_costs", "C128_invert", "C128_covered", "C128_refused"],
      "Composition of transducers is composition of relations; the failure arcs are those of C125. Before pruning, which is C63.")

claim("C129", "proved", ["C129_file", "C129_file_invalid", "C129_text", "C129_words", "C129_prefix_in_word", "C129_invalid"],
      "The condition on the words is needed: nothing escapes the prefix (C129_prefix_in_word).")

claim("C130", "partial", ["C130_value", "C130_symm", "C130_refl", "C130_nothing", "C130_text", "C130_trans_partial", "C130_trans_violated", "C130_fst_value_violated"],
      "Equality is not transitive with Fsts, and a thing whose value is an Fst does not equal it.")

claim("C131", "partial", ["C131_round_trip_partial", "C131_errors", "C131_empty_violated", "C131_message_partial", "C131_message_refused", "C131_default_message_violated", "C131_binary_message_violated"],
      "The empty text and the message without fields cannot be read back, and a binary form that is also text is read as text.")

claim("C132", "proved", ["C132_from_iso", "C132_from_iso_errors", "C132_index", "C132_case", "C132_equidistant", "C132_languages"],
      "The table of the package pycountry is a parameter.")

claim("C133", "partial", ["C133_best", "C133_rewrites", "C133_top_rewrites", "C133_manager_best", "C133_top", "C133_one_top",
      "C133_cascade", "C133_set_fst", "C133_debug_partial", "C133_debug_symbol", "C133_debug_violated"],
      "Debug strings have NUL bytes for epsilon labels (C133_debug_violated). A number that is not positive is a failure for repeated fields and not for vectors (C133_manager_best).")

claim("C134", "partial", ["C134_text", "C134_align_partial", "C134_string_partial", "C134_side_violated", "C134_mark_hidden"],
      "A side with a single item that is a Cat or Or is printed as the text of that item and not with its items (C134_side_violated); the marks of a context that is any are not printed (C134_mark_hidden).")

claim("C135", "proved", ["C135_all", "C135_set", "C135_set_not", "C135_divide", "C135_not_not", "C135_keep", "C135_range",
      "C135_range_other", "C135_non_generic", "C135_equal"],
      "A range from a value to itself is the whole list, see C43.")

claim("C136", "partial", ["C136_byte", "C136_utf8", "C136_keep", "C136_add_byte_partial", "C136_add_utf8_partial", "C136_only",
      "C136_apart", "C136_lost", "C136_add_violated"],
      "An addition before the table was first asked for is lost, so the last sentence is proved for tables that were asked for and refuted for others.")

claim("C137", "partial", ["C137_symbol", "C137_refines", "C137_instance", "C137_constant_partial", "C137_stable", "C137_features",
      "C137_constant_violated"],
      "The instance of a control Atomic that was made with the constructor is a new object, so the last sentence is proved for the control symbols and their constants.")

claim("C138", "partial", ["C138_doc", "C138_all_partial", "C138_all_violated", "C138_header_violated", "C138_symbol",
      "C138_grapheme", "C138_descriptions"],
      "A later symbol with the same index takes the place of an earlier one, and a symbol with the alias of a method breaks the description, so that every symbol is listed is proved for unshared indices and refuted otherwise.")

out = {'claims': [C[k] for k in sorted(C)]}
json.dump(out, open(os.path.join(os.path.dirname(__file__), '..', 'MANIFEST.json'), 'w'), indent=1, ensure_ascii=False)
