{"id": "C01", "title": "Unordered rule files are split into a correct bleeding order", "statement": "Splitting a rule list into ordered rule sets either raises ValueError, which happens exactly when two different rules share the same left-hand side, or returns rule sets that together contain every distinct rule exactly once, in which no left-hand side occurs inside another left-hand side of the same set, and in which a rule whose left-hand side contains another rule's left-hand side is always in a strictly earlier set.", "quantifier": "every finite list of (lhs, rhs) rules, including duplicates and overlapping left-hand sides", "why_tests_cant": "rule files grow; tests only exercise a few hand-written lists, while the guarantee is about every rule graph", "anchors": ["nisaba/scripts/utils/rule.py: partition_unordered, _match_lhs_in_lhs"]}
{"id": "C02", "title": "The order of lines in an unordered rule file is irrelevant", "statement": "Permuting or duplicating the lines of an unordered rule file never changes the text produced by the compiled rewriter, nor whether compilation fails.", "quantifier": "every rule list, every permutation of it and every input string", "why_tests_cant": "there are n! orders of a rule file and infinitely many inputs", "anchors": ["nisaba/scripts/utils/rule.py: fst_from_rules, partition_unordered"]}
{"id": "C03", "title": "A compiled unordered rule set is a total single-valued rewriter", "statement": "For every rule list accepted by the splitter, the obligatory left-to-right context-free rewrite of every rule set, and the cascade of all rule sets, relates every string over the alphabet to exactly one output.", "quantifier": "every accepted rule list, every string over the alphabet", "why_tests_cant": "ambiguity needs overlapping matches at some position of some string; the space of strings is infinite", "anchors": ["nisaba/scripts/utils/rule.py: fst_from_rules", "nisaba/scripts/utils/rewrite.py: Rewrite, RewriteAndComposeFsts"]}
{"id": "C04", "title": "The composition heuristic never changes the composed transducer", "statement": "Composing a list of transducers in the order chosen by the size heuristic denotes the same weighted relation as composing them strictly left to right; an empty list denotes the supplied default and a singleton its only element.", "quantifier": "every list of weighted relations and every assignment of state counts to intermediate machines", "why_tests_cant": "the heuristic picks a different bracketing for every vector of machine sizes", "anchors": ["nisaba/scripts/utils/rewrite.py: ComposeFsts"]}
{"id": "C05", "title": "Function pipelines apply their stages left to right", "statement": "A pipeline built from single-argument functions maps v to the last function applied to ... the first function applied to v; the empty pipeline is the identity and concatenating pipelines composes them.", "quantifier": "every list of functions and every argument", "why_tests_cant": "quantifies over all functions", "anchors": ["nisaba/scripts/utils/func.py: ComposeFn1"]}
{"id": "C06", "title": "Brahmic NFC is total and closed on the script alphabet", "statement": "For each of the 20 Brahmic scripts and for the pan-Brahmic grammar, NFC conversion of any string over the alphabet succeeds, gives exactly one result, and the result is again over the alphabet.", "quantifier": "every script, every string over its alphabet", "why_tests_cant": "infinite set of strings; unit tests list a few dozen words", "anchors": ["nisaba/scripts/brahmic/nfc.py: generator_main", "nisaba/scripts/brahmic/sigma.py", "nisaba/scripts/utils/char.py: derive_sigma"]}
{"id": "C07", "title": "Brahmic NFC is idempotent", "statement": "Converting to NFC twice gives the same text as converting once, for each script's NFC grammar and for the pan-Brahmic one.", "quantifier": "every script, every string over its alphabet", "why_tests_cant": "a counterexample may need several interacting rules at arbitrary positions", "anchors": ["nisaba/scripts/brahmic/nfc.py: generator_main", "nisaba/scripts/brahmic/data/*/nfc.textproto"]}
{"id": "C08", "title": "Brahmic NFC leaves no decomposed sequence behind", "statement": "The output of a script's NFC conversion contains no occurrence of any left-hand side of that script's NFC table, and a text that contains none is returned unchanged.", "quantifier": "every script, every string over its alphabet", "why_tests_cant": "needs all strings; a rewrite may create a new left-hand side together with its neighbours", "anchors": ["nisaba/scripts/brahmic/nfc.py: generator_main", "nisaba/scripts/brahmic/data/*/nfc.textproto"]}
{"id": "C09", "title": "Pan-Brahmic NFC agrees with every per-script NFC", "statement": "On text over one script's alphabet, the pan-Brahmic NFC conversion returns exactly what that script's own NFC conversion returns.", "quantifier": "every script, every string over that script's alphabet", "why_tests_cant": "the combined grammar orders 49 rules of all scripts together; any pair could interact on some string", "anchors": ["nisaba/scripts/brahmic/nfc.py: generator_main"]}
{"id": "C10", "title": "Brahmic visual normalization is single-valued", "statement": "For each of the 20 scripts (and the Assamese and Bengali variants), visual normalization relates every string over the alphabet to exactly one output.", "quantifier": "every script, every string over its alphabet", "why_tests_cant": "contextual rewrites, joiner preservation and deletion interact on strings of any length", "anchors": ["nisaba/scripts/brahmic/visual_norm.py: core_visual_norm_fsts, generator_main", "nisaba/scripts/brahmic/char_util.py: dedup_marks_fst"]}
{"id": "C11", "title": "Visual normalization absorbs NFC", "statement": "Visually normalizing a text and visually normalizing its NFC form give the same result, for each Brahmic script.", "quantifier": "every script, every string over its alphabet", "why_tests_cant": "infinite inputs", "anchors": ["nisaba/scripts/brahmic/visual_norm.py: generator_main, open_nfc"]}
{"id": "C12", "title": "Mark de-duplication does not depend on processing order", "statement": "Removing repeated combining marks gives the same text whatever order the mark characters are processed in, and its effect is exactly to collapse every run of one mark character to a single occurrence and to change nothing else.", "quantifier": "every set of mark characters, every processing order, every string", "why_tests_cant": "the code iterates over an unordered set; the order differs between runs and Python versions", "anchors": ["nisaba/scripts/brahmic/char_util.py: dedup_marks_fst, script_marks"]}
{"id": "C13", "title": "Visual normalization removes stray joiners", "statement": "In the output of a script's visual normalization, zero-width joiners and non-joiners occur only inside a preserved sequence of that script; zero width spaces occur never.", "quantifier": "every script, every string over its alphabet", "why_tests_cant": "a joiner could be reintroduced or survive by interacting with any other rewrite", "anchors": ["nisaba/scripts/brahmic/visual_norm.py: core_visual_norm_fsts", "nisaba/scripts/brahmic/data/*/preserve.textproto"]}
{"id": "C14", "title": "Brahmic visual normalization is idempotent", "statement": "Visually normalizing a text twice gives the same text as normalizing it once.", "quantifier": "every script, every string over its alphabet", "why_tests_cant": "counterexamples need a joiner or mark in the middle of a rewritable sequence; the search space is unbounded", "anchors": ["nisaba/scripts/brahmic/visual_norm.py: generator_main", "nisaba/scripts/brahmic/__init__.py: Normalizer"]}
{"id": "C15", "title": "Well-formed Brahmic text is closed under concatenation", "statement": "The empty text is well formed and the concatenation of two well-formed texts is well formed, in every script.", "quantifier": "every script, every pair of strings", "why_tests_cant": "infinite pairs", "anchors": ["nisaba/scripts/brahmic/wellformed.py: accept_well_formed"]}
{"id": "C16", "title": "Well-formedness acceptor implements the documented orthographic syllable grammar deterministically", "statement": "A decision procedure that reads the text left to right and keeps a finite summary accepts exactly the strings the declarative akshara grammar derives, so acceptance is decidable and independent of how a text is segmented.", "quantifier": "every script, every string", "why_tests_cant": "grammar and recogniser must agree on all strings, including those with ambiguous segmentation", "anchors": ["nisaba/scripts/brahmic/wellformed.py: accept_well_formed"]}
{"id": "C17", "title": "Ill-placed dependent signs are rejected", "statement": "No well-formed text of a script starts with a dependent vowel sign or a virama, and no well-formed text contains two consecutive dependent vowel signs or a virama directly after a vowel sign, unless the sequence is explicitly listed as an accepted exception.", "quantifier": "every script, every string", "why_tests_cant": "an exception or a multi-character token could let such a sequence slip through in some context", "anchors": ["nisaba/scripts/brahmic/wellformed.py: accept_well_formed", "nisaba/scripts/brahmic/data/*"]}
{"id": "C18", "title": "Normalizing acceptor returns only well-formed text", "statement": "When the normalizing acceptor succeeds on a word, its result is the visual normal form of that word and is accepted by the well-formedness grammar; otherwise it raises an ill-formed error; on running text every maximal run of ignored characters is preserved in place and every other run is replaced by its normalized word.", "quantifier": "every script with a grammar, every text, every ignore set", "why_tests_cant": "text-level behaviour must hold for any interleaving of words and separators", "anchors": ["nisaba/scripts/brahmic/__init__.py: NormalizingAcceptor", "nisaba/scripts/brahmic/grammar.cc: Normalizer::Rewrite"]}
{"id": "C19", "title": "Romanization to ISO is unambiguous", "statement": "For every NFC text that can be romanized, all lowest-weight romanizations are the same string: shortest-path search can return only one answer.", "quantifier": "every script, every string of native characters", "why_tests_cant": "ties depend on segmentations of arbitrarily long strings; a tie makes the output depend on FST library internals", "anchors": ["nisaba/scripts/brahmic/iso.py: brahmic_to_iso, _script_fsts", "nisaba/scripts/utils/far.py: Far.FstWrapper.ApplyOnText"]}
{"id": "C20", "title": "ISO romanization is lossless", "statement": "For every romanizable text, converting to ISO and back to the same script returns the NFC form of the text, whichever lowest-weight path the shortest-path search picks.", "quantifier": "every script, every string of native characters in the domain", "why_tests_cant": "the inverse transducer is highly ambiguous; only weights select the right answer, on strings of any length", "anchors": ["nisaba/scripts/brahmic/iso.py: brahmic_to_iso, _script_fsts"]}
{"id": "C21", "title": "Every well-formed text can be romanized", "statement": "Each text accepted by a script's well-formedness grammar has an ISO romanization.", "quantifier": "every script, every well-formed string", "why_tests_cant": "inclusion between two infinite languages", "anchors": ["nisaba/scripts/brahmic/iso.py: brahmic_to_iso", "nisaba/scripts/brahmic/wellformed.py: accept_well_formed"]}
{"id": "C22", "title": "Romanization distributes over concatenation at the relation level", "statement": "Concatenating two native texts with romanizations yields a text whose romanization exists and costs no more than the sum of the two costs.", "quantifier": "every script, every pair of strings", "why_tests_cant": "infinite pairs", "anchors": ["nisaba/scripts/brahmic/iso.py: brahmic_to_iso"]}
{"id": "C23", "title": "Reversible abjad romanization is lossless", "statement": "Romanizing any text that the reversible scheme covers and converting back returns exactly the NFC form of the text; two different NFC texts never share a romanization and each romanization decodes in only one way.", "quantifier": "every string over the characters of the reversible romanization table", "why_tests_cant": "unique decodability of a 183-entry code is a statement about all strings", "anchors": ["nisaba/scripts/abjad_alphabet/reversible_roman.py: generator_main", "nisaba/scripts/abjad_alphabet/data/Arab/reversible_roman.textproto"]}
{"id": "C24", "title": "Abjad NFC is idempotent", "statement": "Converting abjad text to NFC twice gives the same text as converting it once.", "quantifier": "every string", "why_tests_cant": "mark reordering cascades depend on the length of a mark run", "anchors": ["nisaba/scripts/abjad_alphabet/nfc.py: generator_main", "nisaba/scripts/abjad_alphabet/data/Arab/nfc.textproto"]}
{"id": "C25", "title": "Iterating abjad NFC always reaches a fixed point", "statement": "For every text, repeating NFC conversion a finite number of times reaches a text that NFC no longer changes.", "quantifier": "every string", "why_tests_cant": "termination is a liveness property over unbounded iteration", "anchors": ["nisaba/scripts/abjad_alphabet/nfc.py: generator_main", "nisaba/scripts/abjad_alphabet/data/Arab/nfc.textproto"]}
{"id": "C26", "title": "Abjad visual normalization is single-valued and position-aware", "statement": "For each supported language the per-word visual normalization is a total single-valued function; non-final rules never alter the last character's own rewrite, final rules only alter the last character sequence of words longer than it, and isolated rules only apply when the match is the entire word.", "quantifier": "every language, every word", "why_tests_cant": "all words of any length", "anchors": ["nisaba/scripts/abjad_alphabet/visual_norm.py: generator_main", "nisaba/scripts/abjad_alphabet/__init__.py: Normalizer"]}
{"id": "C27", "title": "Abjad visual normalization is idempotent", "statement": "Visually normalizing a word twice gives the same result as normalizing it once, in every supported language.", "quantifier": "every language, every word", "why_tests_cant": "cross-table interactions on arbitrary words", "anchors": ["nisaba/scripts/abjad_alphabet/visual_norm.py: generator_main", "nisaba/scripts/abjad_alphabet/data/*/visual_norm*.textproto"]}
{"id": "C28", "title": "Presentation forms never survive abjad normalization", "statement": "After visual normalization no Arabic presentation-form character listed in the table remains in the text.", "quantifier": "every language, every word", "why_tests_cant": "699 characters in arbitrary contexts", "anchors": ["nisaba/scripts/abjad_alphabet/visual_norm_common.py", "nisaba/scripts/abjad_alphabet/visual_norm.py", "nisaba/scripts/abjad_alphabet/data/Arab/presentation_forms.textproto"]}
{"id": "C29", "title": "Unicode-name entries and raw strings always agree", "statement": "Converting a string entry succeeds only if its Unicode names (with the file's prefixes) resolve, each to exactly one non-control character, and spell the raw string when one is given; the resulting string is then that raw string; otherwise a ValueError is raised.", "quantifier": "every entry, every prefix list, every character-name database", "why_tests_cant": "the name database and the entries are unbounded", "anchors": ["nisaba/scripts/utils/unicode_strings_util.py: convert_item, name_to_char, proto_entries_to_string"]}
{"id": "C30", "title": "Byte-mode and UTF-8-mode rewriters agree", "statement": "Rewriting the UTF-8 bytes of a text with byte-level rules gives the UTF-8 bytes of the text rewritten with character-level rules.", "quantifier": "every rule set and every text of valid Unicode scalar values", "why_tests_cant": "the two builds of each grammar must agree on all strings", "anchors": ["nisaba/scripts/brahmic/nfc.py: generator_main", "nisaba/scripts/utils/rule.py: fst_from_rules", "nisaba/scripts/utils/rewrite.py: Rewrite"]}
{"id": "C31", "title": "UTF-8 encode/decode round trip", "statement": "Decoding the encoding of any Unicode scalar value returns that value and its byte length; splitting a valid string into characters and concatenating them returns the string; splitting an invalid string returns no characters.", "quantifier": "every scalar value, every byte string", "why_tests_cant": "2^32 code points and infinitely many byte strings", "anchors": ["nisaba/port/utf8_util.cc: EncodeUnicodeChar, DecodeUnicodeChar, DecodeSingleUnicodeChar, StrSplitByChar"]}
{"id": "C32", "title": "Splitting at UTF-8 delimiters loses nothing", "statement": "Splitting text at any set of Unicode delimiter characters yields pieces that contain no delimiter and, when rejoined with the delimiters found, give back the text.", "quantifier": "every delimiter set, every byte string", "why_tests_cant": "all strings", "anchors": ["nisaba/port/utf8_delimiters.cc: Utf8Delimiter::Find", "nisaba/port/unicode_properties.cc"]}
{"id": "C33", "title": "Word-piece segmentation is lossless and always succeeds", "statement": "For every word piece vocabulary and every word of valid UTF-8, segmentation terminates without an internal error, the pieces concatenate to the prefix followed by the word, every piece longer than one character is in the vocabulary, and no two adjacent pieces could still be merged.", "quantifier": "every vocabulary, every word", "why_tests_cant": "greedy merging interacts with arbitrary vocabularies", "anchors": ["nisaba/translit/fst/wordpiece-segmenter.cc: WordpieceSegmenter"]}
{"id": "C34", "title": "Error counts are a minimum-cost alignment", "statement": "The reported substitutions, insertions and deletions of a test/reference pair come from one alignment of the two token sequences and their sum is the least possible number of edits.", "quantifier": "every pair of token sequences", "why_tests_cant": "optimality over exponentially many alignments", "anchors": ["nisaba/translit/tools/calculate_error_rate.cc: ErrorRate, CalculateErrorRate"]}
{"id": "C35", "title": "Per-example error output lines up with the examples", "statement": "The per-example edit counts reported for example i are those computed from the references and hypotheses of example i, even when some examples have no references.", "quantifier": "every list of examples", "why_tests_cant": "depends on which subset of examples is empty", "anchors": ["nisaba/translit/tools/calculate_error_rate.cc: CalculateErrorRates, WritePairwiseEdits"]}
{"id": "C36", "title": "Most frequent value is a mode", "statement": "The chosen word count of an ensemble is a value that occurs at least as often as every other value, with ties broken towards the largest value.", "quantifier": "every non-empty list of counts", "why_tests_cant": "all lists", "anchors": ["nisaba/translit/tools/kbest-full-string-util.cc: MostFreqValue"]}
{"id": "C37", "title": "Rejoined k-best lists are the best full strings", "statement": "Rejoining per-part candidate lists returns, in best-first order, the k cheapest concatenations of one candidate per part, with the cost of a concatenation being the sum of the part costs.", "quantifier": "every list of candidate lists, every k", "why_tests_cant": "combinatorially many concatenations", "anchors": ["nisaba/translit/tools/kbest-full-string-util.cc: KbestRejoiner"]}
{"id": "C38", "title": "Thread pool runs every scheduled task exactly once", "statement": "If at least one worker is started, every task scheduled before the pool is destroyed is executed exactly once before destruction returns, no task is executed before it is scheduled, and the pool never deadlocks, under every interleaving of workers and scheduler.", "quantifier": "every number of workers, every sequence of scheduled tasks, every interleaving", "why_tests_cant": "interleavings cannot be enumerated by tests", "anchors": ["nisaba/port/thread_pool.h: ThreadPool"]}
{"id": "C39", "title": "Path joining", "statement": "Joining a directory and a relative path appends the components of the path to those of the directory with no doubled separator, an absolute path replaces the directory, an empty directory is ignored, and joining several paths does not depend on the grouping.", "quantifier": "every pair of paths, every triple for grouping", "why_tests_cant": "all strings", "anchors": ["nisaba/port/file_util.cc: JoinPath"]}
{"id": "C40", "title": "Transliteration distance matrix is symmetric with zero diagonal blocks", "statement": "The ground-distance matrix given to the earth mover's distance computation is square, symmetric, zero inside each of the two groups and holds the pairwise edit counts elsewhere.", "quantifier": "every pair of candidate lists", "why_tests_cant": "all shapes of inputs", "anchors": ["nisaba/translit/tools/calculate_error_rate.cc: GetDistances, TransposeMatrix", "nisaba/translit/tools/emd_cer.py"]}
{"id": "C41", "title": "Inventories never overwrite or alias items", "statement": "Adding an item to an inventory succeeds only if its alias is new; a failed addition leaves the inventory unchanged; every added item remains retrievable under its alias and the iteration order is insertion order.", "quantifier": "every sequence of additions", "why_tests_cant": "histories of any length", "anchors": ["nisaba/scripts/natural_translit/utils/inventory.py: Inventory", "nisaba/scripts/natural_translit/utils/type_op.py: IterableThing"]}
{"id": "C42", "title": "Feature distance is a well-behaved dissimilarity", "statement": "The distance between two feature values of one aspect is symmetric, non-negative, zero against itself and against 'any', and at most the aspect's maximum.", "quantifier": "every linear or cyclic aspect with any number of values, every pair of values", "why_tests_cant": "aspects of any size", "anchors": ["nisaba/scripts/natural_translit/utils/feature.py: Feature.Aspect, Feature.distance"]}
{"id": "C43", "title": "Value ranges contain exactly the values between their end points", "statement": "A range over an ordered value list contains the end points and every value between them in order, and nothing else.", "quantifier": "every value list and every pair of its members", "why_tests_cant": "all sizes", "anchors": ["nisaba/scripts/natural_translit/utils/feature.py: Feature.ValueList.range"]}
{"id": "C44", "title": "Expression concatenation and alternation are associative with units", "statement": "Concatenating or alternating expressions flattens nested sequences, drops neutral elements and is associative, so that grouping never changes the resulting expression.", "quantifier": "every expression tree", "why_tests_cant": "all trees", "anchors": ["nisaba/scripts/natural_translit/utils/expression.py: Cat.of, Or.of"]}
{"id": "C45", "title": "Expression acceptance is a partial order", "statement": "An expression accepts itself, 'nothing' accepts no expression, 'any' accepts every one, and a sequence accepts exactly sequences of the same length item by item.", "quantifier": "every expression tree", "why_tests_cant": "all trees", "anchors": ["nisaba/scripts/natural_translit/utils/expression.py: Expression.accepts, Atomic, Cat"]}
{"id": "C46", "title": "Operation indices are unique and increasing", "statement": "Every operation added to an operation inventory gets an index larger than all earlier ones and can be looked up by it.", "quantifier": "every sequence of operations", "why_tests_cant": "histories of any length", "anchors": ["nisaba/scripts/natural_translit/utils/operation.py: Operation.Inventory"]}
{"id": "C47", "title": "Lattices built separately are independent", "statement": "Building one lattice never changes the states or arcs of another lattice.", "quantifier": "every sequence of lattice constructions and insertions", "why_tests_cant": "shared mutable defaults only show in particular histories", "anchors": ["nisaba/scripts/natural_translit/utils/lattice.py: Lattice"]}
{"id": "C48", "title": "Symbol parsing is lossless", "statement": "Parsing a text into inventory symbols and printing the symbols returns the text; unknown characters become control symbols one for one.", "quantifier": "every inventory, every string", "why_tests_cant": "all strings", "anchors": ["nisaba/scripts/natural_translit/utils/symbol.py: Symbol.Inventory.parse, str_to_raw_symbols"]}
{"id": "C49", "title": "Grammar loading falls back from language to script consistently", "statement": "A grammar requested for a language uses the language-specific rule if the archive has it and otherwise the rule of the language's script, and reports an error exactly when neither exists.", "quantifier": "every archive content, every tag", "why_tests_cant": "all combinations of archive contents and tags", "anchors": ["nisaba/scripts/brahmic/grammar.cc: Grammar::Load, VerifyLoad"]}
{"id": "C50", "title": "Multi-reference error rates choose the best reference and add up", "statement": "For every example the reported counts are those of the best-scoring hypothesis against a reference with the least error rate, whatever the order of the references, and the totals are the sums over the examples.", "quantifier": "every list of examples, hypotheses and references", "why_tests_cant": "all combinations of references and ties", "anchors": ["nisaba/translit/tools/calculate_error_rate.cc: CalculateMinErrorRate, CalculateErrorRate, WriteErrorRate"]}
{"id": "C51", "title": "Reading lines returns the lines of the file", "statement": "Reading the lines of a file returns its non-empty lines in order, without their terminators (line feed and carriage return), cut at the given maximum length.", "quantifier": "every file content and every maximum length", "why_tests_cant": "all contents", "anchors": ["nisaba/port/file_util.cc: ReadLines"]}
{"id": "C52", "title": "Candidate weights are normalised to probabilities", "statement": "The probabilities written for candidates and references, and the exponentiated negated scores of ensembled and extracted candidates, are positive, sum to one and are proportional to the input weights; reference counts become relative frequencies.", "quantifier": "every non-empty list of scores", "why_tests_cant": "all score vectors", "anchors": ["nisaba/translit/tools/calculate_error_rate.cc: GetNormalizer, WriteCands", "nisaba/translit/tools/kbest-full-string-util.cc: NormAndPairList, GetOutputs"]}
{"id": "C53", "title": "Ensembled candidates are aligned word by word", "statement": "Simple alignment keeps exactly the candidates with the requested number of words, or with the most frequent number if none is requested or all if they agree, gives them common boundary states, one fewer than words, and never trips its internal checks for candidates with words.", "quantifier": "every list of candidates and every requested length", "why_tests_cant": "all lists", "anchors": ["nisaba/translit/tools/kbest-full-string-util.cc: SimpleAlign, PruneByInputLength, BuildAlignWfst"]}
{"id": "C54", "title": "Rejoining groups candidates by part and text", "statement": "Candidate lines of consecutive parts are grouped by part and parts by text according to the split indices; when no number of results is given, it is the greatest number of candidates of any part.", "quantifier": "every sequence of parts", "why_tests_cant": "histories of any length", "anchors": ["nisaba/translit/tools/kbest-full-string-util.cc: InitializeKbestRejoiner", "nisaba/translit/tools/rejoin-kbest-full-string_main.cc"]}
{"id": "C55", "title": "The abjad normalizer keeps separators and normalizes every word", "statement": "Normalizing a line returns it with all ignored characters in place and every other run replaced by the visual form of its NFC form, without presentation forms; the only error is FstInputError, raised exactly when a word has a character outside the alphabet.", "quantifier": "every language, every line, every non-empty set of ignored characters", "why_tests_cant": "all lines", "anchors": ["nisaba/scripts/abjad_alphabet/__init__.py: Normalizer.ApplyOnWord, Normalizer.ApplyOnText", "nisaba/scripts/utils/far.py: FstWrapper.ApplyOnText"]}
{"id": "C56", "title": "A set has a value exactly if it has a feature below it", "statement": "has_feature(value) of a set of features of an aspect is true exactly if the set contains the value or, for a value list, one of the features anywhere below it.", "quantifier": "every aspect, any nesting of value lists, every set of its features, every value of the aspect", "why_tests_cant": "nesting depth and sets are unbounded", "anchors": ["nisaba/scripts/natural_translit/utils/feature.py: Feature.Set.has_feature, ValueList.populate"]}
{"id": "C57", "title": "Containment of expressions is containment of symbol lists", "statement": "contains_symbol_list(list, head, tail) is true exactly if the list is [eps], or is not [nor] and either the item is any or the list is a non-empty contiguous part of one of the item's symbol lists, at its beginning if head is set and at its end if tail is set; contains(other) asks this for some symbol list of the other item.", "quantifier": "every expression tree, every symbol list, all flags", "why_tests_cant": "all trees and lists", "anchors": ["nisaba/scripts/natural_translit/utils/symbol.py: Item.contains_symbol_list, Item.contains"]}
{"id": "C58", "title": "A rule applies only in its context", "statement": "A rule with preceding and following contexts matches a position exactly if its preceding context ends, and its following context begins, the actual context on both sides, or equals it when the boundary flags are set; a rule that requires a context does not match where there is none.", "quantifier": "every rule context, every actual context, both boundary flags", "why_tests_cant": "all expression trees as contexts", "anchors": ["nisaba/scripts/natural_translit/utils/expression.py: Alignment.context_matches, _BaseAlignment", "nisaba/scripts/natural_translit/utils/symbol.py: Item.matches, Item.is_prefix, Item.is_suffix"]}
{"id": "C59", "title": "The error-rate tool groups candidates by example number", "statement": "After both files have been read, the references and the tests of each example are exactly the lines with that example number, in file order, each with its own text and value; there are as many examples as the largest number requires; the symbol 0 stands for no token except one spelled <epsilon>.", "quantifier": "every pair of input files", "why_tests_cant": "any number of lines in any order of example numbers", "anchors": ["nisaba/translit/tools/calculate_error_rate.cc: ReadInputs, CalculateErrorRate"]}
{"id": "C60", "title": "Tokens of the error-rate tool are words or characters", "statement": "For word error rate the tokens of a text are its words, the maximal runs of characters that are not white space; for character error rate they are the characters of these words joined by one space; invalid UTF-8 is an error.", "quantifier": "every text, both modes", "why_tests_cant": "all texts", "anchors": ["nisaba/translit/tools/calculate_error_rate.cc: MaybeSplitChars"]}
{"id": "C61", "title": "External candidates are mixed with the configured weight", "statement": "A word that both the external candidate file and the pair language model know gets, with pairlm_translit_weight lambda and no override, lambda parts of the model's distribution and 1 - lambda parts of the external one.", "quantifier": "every weight, every candidate list, every model result", "why_tests_cant": "real-valued weights and lists of any length", "anchors": ["nisaba/translit/fst/pairlm_decoder.cc: InitializePairLMDecoder, InitializeExternalTransliterations, TransliterateWord"]}
{"id": "C62", "title": "Words are cut exactly where coverage changes", "statement": "A word with covered and uncovered characters is cut into its maximal runs of either kind, and its candidates are the k best concatenations of one candidate of each run; any other word is not cut.", "quantifier": "every word, every set of covered characters, every list of candidates per run", "why_tests_cant": "all words", "anchors": ["nisaba/translit/fst/pairlm_decoder.cc: SegmentCoveredChars, TransliterateSegmentedWord"]}
{"id": "C63", "title": "Final pruning keeps the best candidates", "statement": "At every word position at most k candidates remain, at least one, none of them worse than a removed one, and all but the best reach the minimum posterior; nothing else is removed.", "quantifier": "every candidate list, every k, every minimum posterior", "why_tests_cant": "lists of any length with real weights", "anchors": ["nisaba/translit/fst/pairlm_decoder.cc: ApplyArcScoreThresh, ApplyFinalKBestFilter"]}
{"id": "C64", "title": "Transliteration does not depend on thread interleaving", "statement": "The candidates of every word of every line and their weights are those of the word alone, whatever the order in which the threads working on words and lines proceed; no thread waits for ever.", "quantifier": "every set of lines and every interleaving of the threads", "why_tests_cant": "the number of interleavings is unbounded", "anchors": ["nisaba/translit/fst/pairlm_decoder.cc: TransliterateWord, TransliterateUnsegmentedWord, BuildTransliterationFst", "nisaba/port/thread_pool.h: ThreadPool"]}
{"id": "C65", "title": "The runner writes results in input order", "statement": "The runner writes the results of the lines that do not start with # in input order, numbered from 0, whatever the number of workers.", "quantifier": "every input file, every number of workers, every execution", "why_tests_cant": "all interleavings", "anchors": ["nisaba/translit/fst/pairlm_decoder_runner.cc: SequentialDecoding, ParallelDecoding"]}
{"id": "C66", "title": "Results do not depend on earlier calls", "statement": "What a decoder returns for a word and a k does not depend on the strings transliterated before.", "quantifier": "every history of calls", "why_tests_cant": "histories of any length", "anchors": ["nisaba/translit/fst/pairlm_decoder.cc: TransliterateString, TransliterateWord"]}
{"id": "C67", "title": "The path iterator shows every path once", "statement": "On an acyclic automaton the iterator shows every path from the start state to a final state exactly once, with its input labels, output labels and weight, and then is done; it never pops an empty vector. LatticeToOneTopString succeeds exactly if there is one path and returns its string.", "quantifier": "every acyclic automaton over every semiring", "why_tests_cant": "all automata", "anchors": ["nisaba/interim/grm2/paths/paths.h: PathIterator", "nisaba/interim/grm2/rewrite/rewrite.h: LatticeToOneTopString"]}
{"id": "C68", "title": "Reset restarts the iteration", "statement": "After Reset the path iterator behaves like a new one.", "quantifier": "every acyclic automaton, every number of Next calls before Reset", "why_tests_cant": "all automata and positions", "anchors": ["nisaba/interim/grm2/paths/paths.h: PathIterator::Reset"]}
{"id": "C69", "title": "Rule definitions are split into their names", "statement": "A definition made of a rule name, a parentheses name and an assignments name with separators dollar or colon between them is split into exactly these names; no character of a definition is lost.", "quantifier": "every definition", "why_tests_cant": "all strings", "anchors": ["nisaba/interim/grm2/rewrite/rule_cascade.h: RuleTriple", "nisaba/interim/grm2/thrax/abstract-grm-manager.h: RuleTriple"]}
{"id": "C70", "title": "A cascade applies its rules in order", "statement": "Rewrites returns exactly the strings that the rules, applied one after the other, lead to; TopRewrites those of least cost, TopRewrite one of them, OneTopRewrite succeeds exactly if there is only one; Matches tells whether an output is among them; a cascade rewrites like its first part followed by its second part.", "quantifier": "every set of rules, every cascade, every input", "why_tests_cant": "all inputs and cascades of any length", "anchors": ["nisaba/interim/grm2/rewrite/rule_cascade.h: RuleCascade", "nisaba/interim/grm2/rewrite/base_rule_cascade.h: BaseRuleCascade", "nisaba/interim/grm2/rewrite/rewrite_manager.h: RewriteManager"]}
{"id": "C71", "title": "Both kinds of cascades agree and keep only the rules set last", "statement": "A cascade of the thrax kind and one of the rewrite kind with the same rules succeed on the same strings and return outputs of the same cost; setting rules replaces the earlier rules; loading an archive makes every name refer to its last transducer.", "quantifier": "every archive, every sequence of rule lists, every input", "why_tests_cant": "histories of any length", "anchors": ["nisaba/interim/grm2/rewrite/rule_cascade.h: SetRules", "nisaba/interim/grm2/thrax/abstract-grm-manager.h: RuleCascade::InitFromDefs, AbstractGrmManager", "nisaba/interim/grm2/rewrite/rewrite_manager.h: Load"]}
{"id": "C72", "title": "Parentheses are paired without reuse", "statement": "The parenthesis pairs of a pushdown rule are the label pairs of the arcs of the parentheses transducer, in order, and no label belongs to two pairs; every pair gets the stack assigned to its opening parenthesis, and a missing assignment is an error.", "quantifier": "every parentheses transducer and every assignment transducer", "why_tests_cant": "transducers of any size", "anchors": ["nisaba/interim/grm2/rewrite/parentheses.h: MakeParenthesesVector, MakeAssignmentsVector"]}
{"id": "C73", "title": "Symbol tables are unambiguous and printable", "statement": "Different labels of the byte symbol table and of the UTF-8 symbol table have different non-empty symbols; a symbol has no white space and no control characters.", "quantifier": "every label of the tables", "why_tests_cant": "65536 labels, pairwise", "anchors": ["nisaba/interim/grm2/thrax/walker/util/function/symbols.cc: GenerateByteSymbolTable, GenerateUtf8SymbolTable, IsUnicodeSpaceOrControl"]}
{"id": "C74", "title": "Normalization keeps well-formed text well formed", "statement": "The NFC form and the visual normal form of a text that the well-formedness acceptor of its script accepts are accepted again, in the language variants of visual normalization too; so the normalizing acceptor never raises IllFormedError for a well-formed word.", "quantifier": "every script and every well-formed text", "why_tests_cant": "well-formed texts are unbounded; tests list a few rows", "anchors": ["nisaba/scripts/brahmic/nfc.py: generator_main", "nisaba/scripts/brahmic/visual_norm.py: generator_main", "nisaba/scripts/brahmic/wellformed.py: accept_well_formed", "nisaba/scripts/brahmic/__init__.py: NormalizingAcceptor.ApplyOnWord"]}
{"id": "C75", "title": "Reading normalization is a function", "statement": "Reading normalization returns exactly one text over the alphabet of the script for every text over it, and returns texts in which no rule applies unchanged.", "quantifier": "every language of READING_NORM_LANGS, every abjad language, every text", "why_tests_cant": "all texts", "anchors": ["nisaba/scripts/brahmic/reading_norm.py: generator_main, _reading_norm_fst", "nisaba/scripts/abjad_alphabet/reading_norm.py: generator_main"]}
{"id": "C76", "title": "Reading normalization removes all that its rules rewrite", "statement": "Reading-normalized text contains no left-hand side of a reading rule, so a second application changes nothing.", "quantifier": "every language of READING_NORM_LANGS, every abjad language, every text", "why_tests_cant": "all texts; rules may create matches of one another", "anchors": ["nisaba/scripts/brahmic/reading_norm.py: generator_main", "nisaba/scripts/abjad_alphabet/reading_norm.py: generator_main"]}
{"id": "C77", "title": "Reading normalization keeps well-formed text well formed", "statement": "The reading normal form of a well-formed Brahmic text is well formed.", "quantifier": "every language of READING_NORM_LANGS, every well-formed text", "why_tests_cant": "all well-formed texts", "anchors": ["nisaba/scripts/brahmic/reading_norm.py: generator_main", "nisaba/scripts/brahmic/wellformed.py: accept_well_formed"]}
{"id": "C78", "title": "Feature sets behave like sets", "statement": "add, remove, replace, update and reset change a feature set as the set operations they name, for features given directly or inside sets, profiles, multi-profiles and lists; union, intersection, difference and copy make a new set; no other set changes.", "quantifier": "every set and every nesting of arguments, the set itself included", "why_tests_cant": "arguments nest without bound and may alias the set", "anchors": ["nisaba/scripts/natural_translit/utils/feature.py: Feature.Set"]}
{"id": "C79", "title": "Profiles keep one value set per aspect", "statement": "A new profile has, for every aspect of its inventory, the given features of that aspect, or the default; update replaces exactly the aspects that features are given for; copy has the same values; no other profile changes.", "quantifier": "every inventory, every profile, every history of calls", "why_tests_cant": "histories of any length; objects may share sets", "anchors": ["nisaba/scripts/natural_translit/utils/feature.py: Feature.Profile.__init__, get, copy, update"]}
{"id": "C80", "title": "Similarity of profiles is a similarity", "statement": "The similarity of two profiles of one inventory is symmetric, between zero and one, and one for a profile and itself; profiles of different inventories have similarity zero.", "quantifier": "every inventory, every two profiles, every choice of aspects", "why_tests_cant": "all profiles", "anchors": ["nisaba/scripts/natural_translit/utils/feature.py: Feature.Profile.compare, similarity", "nisaba/scripts/natural_translit/utils/feature.py: Feature.Set.distance"]}
{"id": "C81", "title": "A multi-profile answers with the profile given last", "statement": "After new_profile a multi-profile answers with the values of the given profile for its inventory, and with not-applicable values for an inventory without profile; copy makes new profiles with the same values; other multi-profiles do not change.", "quantifier": "every history of calls", "why_tests_cant": "histories of any length; objects are mutable and shared", "anchors": ["nisaba/scripts/natural_translit/utils/feature.py: Feature.MultiProfile.new_profile, get, copy"]}
{"id": "C82", "title": "Features added to a symbol are its features", "statement": "add_features adds to every aspect of the profiles of a symbol exactly the given features of the aspect, in place of any; other symbols do not change; has_feature tells whether the symbol has a feature or a feature of a value list.", "quantifier": "every symbol, every features, every history", "why_tests_cant": "histories of any length", "anchors": ["nisaba/scripts/natural_translit/utils/symbol.py: Symbol.add_features, has_feature", "nisaba/scripts/natural_translit/phonology/phonological_symbol.py: has_feature", "nisaba/scripts/natural_translit/utils/feature.py: Feature.value_in"]}
{"id": "C83", "title": "The lattice reader keeps every candidate where it belongs", "statement": "Lines of (text index, position, input word, candidate, score) are accepted exactly when texts follow one another with positions in order from 0; the extractor then has for every text and position exactly the candidates of its lines, in order, and the joined input words.", "quantifier": "every list of lines", "why_tests_cant": "files of any length and any interleaving", "anchors": ["nisaba/translit/tools/kbest-full-string-util.cc: KbestExtractor::InitializeKbestExtractor"]}
{"id": "C84", "title": "k-best extraction lists the k best combinations", "statement": "The extractor lists the k combinations of one candidate for every position with the least summed cost, best first, spelled with single spaces, with scores that are normalised over the list.", "quantifier": "every lattice, every k", "why_tests_cant": "the number of combinations is exponential in the length", "anchors": ["nisaba/translit/tools/kbest-full-string-util.cc: KbestExtractor::GetBest, GetBests, MakeLattice, GetOutputs"]}
{"id": "C85", "title": "The ensemble lists the combinations with most votes", "statement": "The ensemble lists the k word sequences, every word taken from some candidate at its position, with the greatest product of summed probabilities, best first and each once, with normalised scores.", "quantifier": "every list of candidates with the same number of words, every k", "why_tests_cant": "unbounded candidate lists, real-valued scores", "anchors": ["nisaba/translit/tools/kbest-full-string-util.cc: EnsembleFullString::RunEnsemble, GetOutputs, BuildAlignWfst", "nisaba/translit/tools/ensemble-full-string_main.cc"]}
{"id": "C86", "title": "Every system has the same weight in an ensemble", "statement": "Candidate files are read as one answer per input; the candidates for an input are those of the answers of all systems, each system normalised to total probability 1; files with different numbers of answers are an error.", "quantifier": "every number of files of any length", "why_tests_cant": "any number of systems, any scores", "anchors": ["nisaba/translit/tools/kbest-full-string-util.cc: ReadInputs, ReadInputsToEnsemble, NormAndPairList, VerifyCombineEnsembleInputs"]}
{"id": "C87", "title": "The word piece transducer maps words to their pieces", "statement": "The transducer of GetWordpieceTransducer accepts exactly the sequences of the given words and maps each to the labels of the pieces GetWordpieces makes of its words, in order; pieces without label have the label of the unknown piece, and it is an error if that has none.", "quantifier": "every vocabulary, every word list without the label 0, every path through the transducer", "why_tests_cant": "cyclic automaton: sequences of any length", "anchors": ["nisaba/translit/fst/wordpiece-segmenter.cc: GetWordpieceTransducer"]}
{"id": "C88", "title": "The graphemes of an ISO text are determined", "statement": "iso_to_typ_rules maps every text written with the characters of the Brahmic inventory to exactly one sequence of graphemes of the inventory, texts that differ by more than the sign for independent vowels in front of them to different ones, and no other text; the byte and utf8 grammars agree.", "quantifier": "every text, both token types", "why_tests_cant": "texts of any length; the rules of the grammar overlap", "anchors": ["nisaba/scripts/natural_translit/brahmic/grapheme_inventory.py: iso_to_typ_rules", "nisaba/scripts/natural_translit/script/char.py: read_glyph, compose_from_gr"]}
{"id": "C89", "title": "Every ISO text has one pronunciation", "statement": "The grapheme to phoneme rules of every language map every ISO text to exactly one sequence of alignments, and the graphemes on its left sides are those of the text.", "quantifier": "every language of language_params, every ISO text", "why_tests_cant": "cascades of rewrites with overlapping rules over all texts; a rewrite may be ambiguous for rare combinations", "anchors": ["nisaba/scripts/natural_translit/brahmic/g2p.py: iso_to_txn", "nisaba/scripts/natural_translit/language_params/*.py: _TXN_OPS", "nisaba/scripts/natural_translit/utils/rewrite_functions.py"]}
{"id": "C90", "title": "Every ISO text has one romanization of every kind", "statement": "iso_to_psaf, iso_to_psac and iso_to_nat map every ISO text to exactly one string, of lowercase ASCII letters; iso_to_ipa to exactly one string; other texts have no output; byte and utf8 grammars of the romanizations agree.", "quantifier": "every language of language_params, every ISO text, both token types", "why_tests_cant": "all texts; a symbol that one rule leaves behind in one combination makes the output empty", "anchors": ["nisaba/scripts/natural_translit/language_params/*.py: iso_to_psaf, iso_to_psac, iso_to_nat, iso_to_ipa", "nisaba/scripts/natural_translit/brahmic/romanizer.py", "nisaba/scripts/natural_translit/brahmic/g2p.py", "nisaba/scripts/natural_translit/utils/rewrite_functions.py"]}
{"id": "C91", "title": "Transcriptions and romanizations print the right sides", "statement": "txn_to_ipa maps a sequence of alignments exactly to the IPA symbols of the phonemes on its right sides, in order, and print_only_ltn to the letters of its translits; no sequence of phonemes has two transcriptions; iso_to_ipa prints the phonemes of the pronunciation of the text.", "quantifier": "every sequence of symbols; every language, every ISO text", "why_tests_cant": "sequences of any length; names of symbols are prefixes of one another", "anchors": ["nisaba/scripts/natural_translit/phonology/transcriptor.py: txn_to_ipa", "nisaba/scripts/natural_translit/phonology/phon.py: ls_translit_ipa", "nisaba/scripts/natural_translit/latin/ltn_inventory.py: print_only_ltn", "nisaba/scripts/natural_translit/utils/rewrite_functions.py: EXTRACT_RIGHT_SIDE"]}
{"id": "C92", "title": "ISO texts have one conversion to a script", "statement": "An ISO 15919 text that TO_<script> accepts, whether or not FROM_<script> writes it, has exactly one lowest-weight conversion, every path with another result costs more, and all results are in NFC and over the alphabet of the script.", "quantifier": "every Brahmic script, every text", "why_tests_cant": "weighted closure with overlapping units over texts of any length; ties are rare", "anchors": ["nisaba/scripts/brahmic/iso.py: TO_<script>, _brahmic_to_iso, iso_to_brahmic", "nisaba/scripts/brahmic/data/<script>/*.textproto"]}
{"id": "C93", "title": "Keys of the fixed rule romanization are unambiguous", "statement": "Every text of ASCII input characters has exactly one ISO text by the fixed rules and no other text has one; if it can be converted to the script, the lowest-weight conversion is unique and is that of the ISO text.", "quantifier": "every text of keys", "why_tests_cant": "a cascade of 81 rewrites over texts of any length", "anchors": ["nisaba/scripts/brahmic/fixed.py: _fixed_rule_fst, _ascii_acceptor, generator_main", "nisaba/scripts/brahmic/data/Mlym/fixed.textproto"]}
{"id": "C94", "title": "The separator of the fixed rule romanization separates", "statement": "Keys on both sides of ~ are turned into ISO independently of each other, and ~ is not in the result.", "quantifier": "every pair of texts of keys", "why_tests_cant": "81 rewrites, any of which could see past the separator", "anchors": ["nisaba/scripts/brahmic/fixed.py", "nisaba/scripts/brahmic/data/Mlym/fixed.textproto"]}
{"id": "C95", "title": "Words typed in the fixed rule romanization come out as typed", "statement": "Words made of vowels, consonants, conjuncts and final letters in the keys of the Mozhi scheme are converted to exactly the letters the scheme gives for their parts.", "quantifier": "every word of any length over 1085 parts", "why_tests_cant": "interactions of 81 rewrites across parts and of the weighted conversion; words of any length", "anchors": ["nisaba/scripts/brahmic/fixed.py", "nisaba/scripts/brahmic/iso.py", "nisaba/scripts/brahmic/data/Mlym/fixed.textproto", "nisaba/scripts/brahmic/data/Mlym/*.textproto"]}
{"id": "C96", "title": "Every letter can be typed", "statement": "For every letter and sign of Malayalam that TO_MLYM can write, some keys of the fixed rule romanization are converted to a text with it.", "quantifier": "every letter of the tables; every text of keys for the negative part", "why_tests_cant": "that no keys give a letter is a statement about all texts", "anchors": ["nisaba/scripts/brahmic/fixed.py", "nisaba/scripts/brahmic/data/Mlym/fixed.textproto", "nisaba/scripts/brahmic/data/Mlym/*.textproto"]}
{"id": "C97", "title": "The archives the API loads agree with the UTF-8 grammars", "statement": "The byte-mode grammars of conversion to and from ISO 15919, of the fixed rule romanization, of reading normalization, and of NFC, visual normalization and romanization of the abjads turn the UTF-8 bytes of a text into the bytes of exactly the results of the UTF-8 grammars, with the same weights and so with the same cheapest results; no byte string that is not text is produced.", "quantifier": "every script and language, every text of Unicode scalar values other than NUL", "why_tests_cant": "the two builds of each grammar must agree on all strings, weights and ties", "anchors": ["nisaba/scripts/brahmic/iso.py: generator_main", "nisaba/scripts/brahmic/fixed.py: generator_main", "nisaba/scripts/brahmic/reading_norm.py: generator_main", "nisaba/scripts/abjad_alphabet/visual_norm.py: generator_main", "nisaba/scripts/abjad_alphabet/reversible_roman.py: generator_main"]}
{"id": "C98", "title": "Files are read whole", "statement": "File::ReadToString delivers the first max_length bytes of the file, or all of them if there are fewer, returns their number, and leaves the rest to be read; what WriteString wrote is read back.", "quantifier": "every file content, every max_length of the parameter type", "why_tests_cant": "sizes around the block size and the limits of the integer types", "anchors": ["nisaba/port/file.cc: File::ReadToString, File::WriteString"]}
{"id": "C99", "title": "Lines are read back one by one", "statement": "Lines of at most max_length bytes that WriteLine wrote are returned by ReadLine one by one, and no byte of a file is lost or read twice.", "quantifier": "every list of lines, every maximum", "why_tests_cant": "all lengths up to the limit", "anchors": ["nisaba/port/file.cc: File::ReadLine, File::WriteLine", "nisaba/port/file.h"]}
{"id": "C100", "title": "The earth mover's error rate is the least expected error rate", "statement": "For every line the edits reported by calculate_emd_cer are the least expected number of edits over all joint distributions of hypothesis and reference with the given probabilities, the reference length is the expected length of a reference whatever flow the solver chooses, with one hypothesis and one reference they are those of the pair, and the totals are sums over the lines.", "quantifier": "all probabilities, edits and lengths, every least-cost flow", "why_tests_cant": "the solver may return any of infinitely many flows", "anchors": ["nisaba/translit/tools/emd_cer.py: emd_error_and_length", "nisaba/translit/tools/calculate_emd_cer.py: main", "nisaba/translit/tools/calculate_error_rate.cc: WritePairwiseEdits, GetDistances, GetLengths"]}
{"id": "C101", "title": "Reference lengths are counted in the unit of the edits", "statement": "The length of a reference in the lines for the earth mover's distance is the number of its tokens, the same tokens the edits are counted in.", "quantifier": "every list of references, both modes", "why_tests_cant": "all texts and kinds of white space", "anchors": ["nisaba/translit/tools/calculate_error_rate.cc: GetLengths, MaybeSplitChars, WritePairwiseEdits"]}
{"id": "C102", "title": "Candidates survive the JSON lines", "statement": "The JSON parser reads back the candidates of a line as they were, in order.", "quantifier": "every list of candidates", "why_tests_cant": "all characters of the candidates", "anchors": ["nisaba/translit/tools/calculate_error_rate.cc: WriteCands, WritePairwiseEdits", "nisaba/translit/tools/calculate_emd_cer.py: main"]}
{"id": "C103", "title": "Iterables hold the outermost valid items", "statement": "The items of an IterableThing are, in order, the outermost valid objects in all arguments ever added, to any depth of nesting; adding in one or several calls is the same; an untyped iterable never holds Nothing or its own class and its copies are equal; item() agrees with list indexing and gives the default outside of the range.", "quantifier": "every nesting of arguments, every sequence of calls, every index", "why_tests_cant": "nestings of any depth and shape", "anchors": ["nisaba/scripts/natural_translit/utils/type_op.py: IterableThing"]}
{"id": "C104", "title": "Lists of transducers flatten, join and compose", "statement": "An FstList holds the transducers and the acceptors of the strings in its arguments from left to right; union, concat, union_star and compose of it denote the union, the piecewise concatenation, its closure and the cascade of the members, nothing for union and compose of the empty list and the empty text for its concatenation.", "quantifier": "every nesting of arguments, every text", "why_tests_cant": "lists of any length, texts of any length", "anchors": ["nisaba/scripts/natural_translit/utils/fst_list.py: FstList", "nisaba/scripts/utils/rewrite.py: ComposeFsts"]}
{"id": "C105", "title": "Deromanization is total and unambiguous on lowercase words", "statement": "Hindi and Tamil deromanize: every word of lowercase ASCII letters has exactly one ISO text from to_iso() and exactly one native text from to_brahmic(), any other text has none, and the byte grammars give the UTF-8 bytes of the same texts.", "quantifier": "every text, both languages, both modes", "why_tests_cant": "all sequences of letters, with all overlaps of the rules", "anchors": ["nisaba/scripts/natural_translit/brahmic/deromanizer.py: Deromanizer", "nisaba/scripts/natural_translit/brahmic/derom_inventory.py: DeromMapping, make_inventory", "nisaba/scripts/natural_translit/language_params/hi.py: deromanize", "nisaba/scripts/natural_translit/language_params/ta.py: deromanize"]}
{"id": "C106", "title": "Deromanized texts are orthographically sound", "statement": "In the native text each vowel sign and each virama stands directly after a consonant letter (or its nukta), each nukta after a consonant letter, each anusvara after a consonant, nukta, vowel sign or vowel letter.", "quantifier": "every lowercase word, both languages, every place of the output", "why_tests_cant": "all sequences of letters, also those that are no words", "anchors": ["nisaba/scripts/natural_translit/brahmic/deromanizer.py: Deromanizer", "nisaba/scripts/natural_translit/brahmic/derom_inventory.py: DeromMapping, make_inventory", "nisaba/scripts/natural_translit/language_params/hi.py: deromanize", "nisaba/scripts/natural_translit/language_params/ta.py: deromanize", "nisaba/scripts/natural_translit/brahmic/grapheme_inventory.py: TO_BRAHMIC"]}
{"id": "C107", "title": "only_geminated keeps single clusters", "statement": "With only_geminated a cluster is rewritten only if it is doubled: Tamil trtr and ttr give two letters rra and a single tr gives none.", "quantifier": "every lowercase word", "why_tests_cant": "all contexts of tr", "anchors": ["nisaba/scripts/natural_translit/brahmic/deromanizer.py: Deromanizer.params, _set_consonant_rules", "nisaba/scripts/natural_translit/language_params/ta.py: deromanize"]}
{"id": "C108", "title": "Nasals of Hindi are written with an anusvara", "statement": "The number of anusvaras of a Hindi deromanization, native or ISO, is the number of places of the word with a vowel followed by m before b or p, or by n at the end or before a consonant other than n and m.", "quantifier": "every lowercase word", "why_tests_cant": "all words", "anchors": ["nisaba/scripts/natural_translit/brahmic/deromanizer.py: _rw_nasal_labial, _rw_ans_n, _set_anusvara", "nisaba/scripts/natural_translit/language_params/hi.py: deromanize"]}
{"id": "C109", "title": "The two outputs of the deromanizer agree", "statement": "The native text of to_brahmic() is in NFC, the ISO text of to_iso() for the same word is exactly what brahmic.iso FROM_<script> gives for the native text, and TO_<script> of the ISO text gives the native text back.", "quantifier": "every lowercase word, Hindi with Devanagari and Tamil, every lowest-weight path", "why_tests_cant": "the agreement of two independently written tables and rule systems on all words", "anchors": ["nisaba/scripts/natural_translit/brahmic/deromanizer.py: Deromanizer", "nisaba/scripts/natural_translit/brahmic/derom_inventory.py: DeromMapping, make_inventory", "nisaba/scripts/natural_translit/language_params/hi.py: deromanize", "nisaba/scripts/natural_translit/language_params/ta.py: deromanize", "nisaba/scripts/brahmic/iso.py: _script_fsts"]}
{"id": "C110", "title": "Letters are spelled out one by one", "statement": "For every language and script and both token types, speller() gives a result exactly for the texts of ASCII letters, and only one: the table spellings of the letters, with single spaces between them in the Arabic script, without a final zero width non-joiner in Kannada, Malayalam and Telugu; case does not matter; without a table column the word is lowercased.", "quantifier": "every text, all 143 combinations of language and script, both modes", "why_tests_cant": "words of any length", "anchors": ["nisaba/scripts/natural_translit/brahmic/en_spellout.py: speller, _separated, _get_spellout", "nisaba/scripts/natural_translit/deromanization/en_spellout.py: generator_main"]}
{"id": "C111", "title": "Spelled out words can be read back", "statement": "The text spelled out by an exported speller determines the word up to case, as acronyms in the native script are meant to be told apart.", "quantifier": "every pair of words, 13 languages, both modes", "why_tests_cant": "unique decodability of the spellings: pairs of words of any length", "anchors": ["nisaba/scripts/natural_translit/brahmic/en_spellout.py: speller, _separated, _get_spellout", "nisaba/scripts/natural_translit/deromanization/en_spellout.py: generator_main"]}
{"id": "C112", "title": "Spelled out words are valid Brahmic text", "statement": "The text spelled out by an exported Brahmic speller is well formed for brahmic.wellformed, is left unchanged by NFC, and conversion to ISO and back gives it again.", "quantifier": "every word, 11 languages", "why_tests_cant": "agreement of independently written tables, words of any length", "anchors": ["nisaba/scripts/natural_translit/brahmic/en_spellout.py: speller, _separated, _get_spellout", "nisaba/scripts/natural_translit/deromanization/en_spellout.py: generator_main", "nisaba/scripts/brahmic/wellformed.py: accept_well_formed", "nisaba/scripts/brahmic/iso.py: _script_fsts"]}
{"id": "C113", "title": "Acronyms of Hindi are written in upper case", "statement": "iso_to_nat of Hindi: a text whose graphemes are a sequence of names of English letters gives exactly these letters in upper case; every other text gives what the grammar without the rule of acronyms gives, one lowercase word.", "quantifier": "every ISO text, both modes, every sequence of letters", "why_tests_cant": "sequences of any length, all ways to split a text into names, all other texts", "anchors": ["nisaba/scripts/natural_translit/brahmic/acronym.py: _letter, HI_ACRONYM_SET, HI_ACR_TYP_TO_TR", "nisaba/scripts/natural_translit/language_params/hi.py: iso_to_nat"]}
{"id": "C114", "title": "Phonemes have unique indices", "statement": "After any calls of add_phonemes on inventories of different languages: index_lookup of an inventory gives its k-th phoneme exactly for 3000000 + 100 times the language index + k; the index a phoneme carries is that of its place; inventories of different languages share no index, and no phoneme shares one with a grapheme.", "quantifier": "every sequence of calls, every set of phonemes and languages", "why_tests_cant": "sequences of calls over several inventories, inventories of any size", "anchors": ["nisaba/scripts/natural_translit/phonology/phonological_symbol.py: Phon.Inventory._add_phoneme, add_phonemes", "nisaba/scripts/natural_translit/utils/symbol.py: Symbol.Inventory._add_symbol, _add_to_dicts, index_lookup", "nisaba/scripts/natural_translit/phonology/features/language.py: _features"]}
{"id": "C115", "title": "Feature pairs are symmetric", "statement": "After any sequence of feature_pair calls, x.feature_pair(y, f, t) makes x.f = x, x.t = y, y.t = y, y.f = x (CTRL.nos for a control symbol), sets the attributes named after the aspects and adds the features if asked, and changes no other attribute or symbol; control symbols never change; if the pairs of a feature share no symbols then x.t.f is x for all of them at the end.", "quantifier": "every sequence of calls, any symbols and features", "why_tests_cant": "histories of calls on shared mutable symbols, any names of features", "anchors": ["nisaba/scripts/natural_translit/utils/symbol.py: Symbol.feature_pair, set_attribute, add_features", "nisaba/scripts/natural_translit/utils/symbol.py: _control_symbols"]}
{"id": "C116", "title": "Importing pairs copies pairs", "statement": "import_as_feature_pairs into an inventory that has none of the aliases adds one new grapheme for each member of a pair, reachable by the alias of the original; the copies are paired with each other, the originals and all other symbols stay as they were, and the two lists of the copies are reachable by the aliases of the features.", "quantifier": "every inventory reachable by such calls, every list of pairs", "why_tests_cant": "aliasing between originals and copies, inventories of any size", "anchors": ["nisaba/scripts/natural_translit/script/grapheme.py: Grapheme.Inventory.import_as_feature_pairs, import_graphemes, add_graphemes, Grapheme.copy", "nisaba/scripts/natural_translit/utils/inventory.py: Inventory.make_iterable_suppl, add_item"]}
{"id": "C117", "title": "Composed and derived phonemes consist of their parts", "statement": "compose joins aliases, transcriptions, IPA, features, ph and base translits of all components in order and is flat: composing composites gives what composing their parts gives. derive_with_suffix keeps all translits and adds one (the base translit by default). import_phon copies a phoneme and composites made of the copy use its features and translits. The phonemes of the inventory have distinct aliases, and a sequence of them can be read back from its transcription and its IPA.", "quantifier": "every heap of phonemes, every nesting of compositions, every sequence of phonemes of the inventory", "why_tests_cant": "nesting of any depth, sharing of components between objects, sequences of any length", "anchors": ["nisaba/scripts/natural_translit/phonology/modify_phon.py: compose, derive_with_suffix, devoiced, nonpulmonic", "nisaba/scripts/natural_translit/phonology/phon.py: Phon, import_phon, new_tr, translit_by_key", "nisaba/scripts/natural_translit/phonology/phoneme_inventory.py: PHONEMES, PHON_INVENTORY"]}
{"id": "C118", "title": "The k-best extractor reads what the decoder writes", "statement": "RunPairLMDecoder writes a file from which KbestExtractor gets, for every line that is no comment and has words, in order: its index, its words joined by single spaces, and for every word the candidates with their weights as printed. A candidate that cannot be a field of its own (empty, or with a tab) must not pass unnoticed.", "quantifier": "every input file, any candidates and symbol tables", "why_tests_cant": "agreement of the writer in one library with the parser in another, texts, words and candidates of any number and spelling", "anchors": ["nisaba/translit/fst/pairlm_decoder.cc: BuildTransliterationFst, PrintTransliterations", "nisaba/translit/fst/pairlm_decoder_runner.cc: Transliterate, SequentialDecoding", "nisaba/translit/tools/kbest-full-string-util.cc: KbestExtractor::InitializeKbestExtractor", "nisaba/port/file_util.cc: ReadLines"]}
{"id": "C119", "title": "Tools read the candidates that tools write", "statement": "The file written by KbestExtractor, EnsembleFiles or KbestRejoiner, read by EnsembleFiles (ReadInputs) or KbestRejoiner, gives the candidates of every text, in order, text by text, with the scores as printed.", "quantifier": "every number of results, every option of the extractor, any texts and candidates", "why_tests_cant": "agreement of three writers with two parsers, files of any length", "anchors": ["nisaba/translit/tools/kbest-full-string-util.cc: RunExtractorAndOutput, RunEnsembleAndOutput, RunRejoinerAndOutput", "nisaba/translit/tools/kbest-full-string-util.cc: ReadInputs, InitializeKbestRejoiner", "nisaba/port/file_util.cc: ReadLines"]}
{"id": "C120", "title": "The rewrite tester prints the outputs of the rules", "statement": "RewriteTester starts exactly if the archive has every name in --rules. ProcessInput prints the outputs of least cost of the rules applied in order: one with --noutput=1, else that many distinct ones with their costs, each so that it can be read again in the same mode; it reports a failure exactly if there is no output, and the details change nothing else.", "quantifier": "every archive, every list of rules, every input, every mode, any number of outputs", "why_tests_cant": "compositions of arbitrary transducers; ties and order of paths; injectivity of the printed text", "anchors": ["nisaba/interim/grm2/thrax/rewrite-tester.cc: Initialize, ProcessInput, FstToStrings, AppendLabel, Run", "nisaba/interim/grm2/thrax/abstract-grm-manager.h: Rewrite, LoadArchive"]}
{"id": "C121", "title": "The features of a universal phoneme are those its name says", "statement": "The phoneme inventory of x_uni gives each phoneme, in every aspect, exactly the values of the last loop that names it, and else those of its class. Every word of its descriptive name (close, front, rounded, voiced, bilabial, trill, ...) holds of its features, and what the name does not say is not there. No two phonemes share an alias, a symbol or a name; phonemes of the same class (vowel or consonant) are always more similar than phonemes of different classes, and sync_atomics gives the atomics the same features.", "quantifier": "every table of phonemes and updates; every phoneme and every pair of phonemes of x_uni", "why_tests_cant": "10000 pairs; the tests look at one phoneme; the order of the loops decides what is kept", "anchors": ["nisaba/scripts/natural_translit/phonology/inventories/x_uni.py: _phoneme_inventory", "nisaba/scripts/natural_translit/utils/feature.py: Profile.__init__, Profile.update, Profile.similarity", "nisaba/scripts/natural_translit/phonology/phonological_symbol.py: Phon, DescriptiveInventory.sync_atomics", "nisaba/scripts/natural_translit/phonology/features/descriptive.py"]}
{"id": "C122", "title": "A letter of English has the features of its sounds", "statement": "A grapheme that takes its features from phonemes has exactly the union of their features and similarity 1 with each of them. In the English inventory every letter, in both cases, has exactly the features of the sounds that the comments of en.py list for it; the lists letter, vowel, consonant, lower, upper of the Latin and the English inventories agree with the features, and both cases of a letter have the same descriptive features.", "quantifier": "every profile, every list of symbols; every letter of the two inventories", "why_tests_cant": "tests compare a few letters with one phoneme each", "anchors": ["nisaba/scripts/natural_translit/script/inventories/latn.py: _build_inventory", "nisaba/scripts/natural_translit/language_params/en.py: _latn_inventory", "nisaba/scripts/natural_translit/phonology/phonological_symbol.py: update_descriptives_from_symbol"]}
{"id": "C123", "title": "Rules of alignment keep what they are given", "statement": "Alignment.rule, deletion, insertion and interchangeable make alignments with exactly the sides, contexts, operation, priority and cost given; a rule applies exactly where its contexts match, and everywhere if it has none. interchangeable gives two rules that differ only in the exchanged sides and the alias. A copy of any alignment is equal to it in every attribute, and tsv_row has one field for each of alias, sides, operation and cost.", "quantifier": "every expression, every context, every operation, every chain of constructor and copy calls", "why_tests_cant": "expressions and contexts are unbounded trees that are rebuilt when copied", "anchors": ["nisaba/scripts/natural_translit/utils/expression.py: Alignment.__init__, simple, rule, deletion, insertion, interchangeable, copy, context_matches, tsv_row, _constants", "nisaba/scripts/natural_translit/utils/type_op.py: type_check"]}
{"id": "C124", "title": "A table made from Unicode names has one row for each item", "statement": "unicode_strings_to_tsv writes exactly one row for each item, in order, with the strings that the item stands for; it fails exactly if an item cannot be converted, names the first such item, and leaves the rows of the items before it. _fill_missing_raw gives every item the strings it stands for, keeps names and languages, does nothing the second time and does not change the table.", "quantifier": "every Unicode database, every message with any number of items", "why_tests_cant": "messages are unbounded; errors depend on the position of the item", "anchors": ["nisaba/scripts/utils/unicode_strings_to_tsv.py: _convert_data_proto_to_file", "nisaba/scripts/utils/unicode_strings_util.py: _fill_missing_raw", "nisaba/scripts/utils/letter_languages.py: _fill_missing_raw"]}
{"id": "C125", "title": "Composition with a language model scores as the backoff model", "statement": "After MakePhiMatcherLM, composing a non-empty sequence of words with the language model gives exactly the costs that the backoff model defines: a word takes the arc of its state if there is one and otherwise pays the backoff cost and is looked up there, and the end is paid at the first state on the backoff way that is final. A sequence has at most one cost. MakePhiMatcherLM ends whenever backing off ends.", "quantifier": "every backoff model, every sequence of words", "why_tests_cant": "models have any number of states and orders; the backoff ways are unbounded", "anchors": ["nisaba/translit/fst/pairlm_decoder.cc: GetBackoff, GetStateFinalCost, MakePhiMatcherLM, PairLMDecoder::ComposeLatticeWithLM"]}
{"id": "C126", "title": "Candidates become the symbols of the language model", "statement": "Each candidate of a word is read by the candidate transducer and written as the symbols of the language model: the word itself, the pieces that the word piece model gives, or the greedy cut into longest symbols with the prefix for pieces inside words. What is not a symbol becomes the symbol for unknown words and costs oov_cost each. The transducer relates exactly the sequences of candidates to the sequences of their symbols, and a candidate is added once however often it is found.", "quantifier": "every symbol table, every prefix, every sequence of calls with any candidates", "why_tests_cant": "the trie, the cuts and the sequence of calls are unbounded", "anchors": ["nisaba/translit/fst/pairlm_decoder.cc: WordToFst, GetMatchedTokens, PairLMDecoder::InitializeWordPieceTrie, ParseCandWordPiece, SegmentCandWordPiece, AddToCandsToLMFst, AddCandSymArc"]}
{"id": "C127", "title": "With a language model the costs of candidates are posteriors", "statement": "With a language model, TransliterateString gives each word its candidates with their posterior probabilities as costs: the share of the weight of all choices of candidates for the line (at word level: for the word) that have this candidate there. They add up to 1 for each word, and the k_best greatest are kept.", "quantifier": "every line with any number of words and candidates, every language model, all weights", "why_tests_cant": "the choices are a product over all words; sums over all paths cannot be sampled", "anchors": ["nisaba/translit/fst/pairlm_decoder.cc: RemoveContext, PairLMDecoder::BuildTransliterationFst, ComposeLatticeWithLM, CollectUniqueArcCosts, AssignLabelsAndCostsToTranslitLattice, TransliterateString", "nisaba/translit/fst/pairlm_decoder_options.proto: min_cand_posterior, apply_lm_at_word_level"]}
{"id": "C128", "title": "Transliterations of a word are those of the pair strings that spell it", "statement": "With a pair language model, a word has a transliteration y at cost c exactly if a string of pair symbols N;M that the model accepts at cost c has the word as its input sides and y as its output sides, where 0 stands for nothing. Symbols that are no pairs are ignored, and a pair that is not numeric ends the program at the start. invert_pairlm gives the converse relation at the same costs. The covered characters are the positive input sides, and a word with any other character has no transliteration.", "quantifier": "every table of pair symbols, every pair language model, every word", "why_tests_cant": "pairs with 0 insert and delete without bound; tables and models are arbitrary", "anchors": ["nisaba/translit/fst/pairlm_decoder.cc: BuildUnicodeToPairTransducer, PairLMDecoder::InitializeTranslitModel, InitializeInputCharacterSet, GetWordTransliterations"]}
{"id": "C129", "title": "The word-piece file gives the first words of its lines and the text output tells the words", "statement": "A word-piece segmenter initialised from a file is the one initialised with the first words of the lines of the file in their order: what follows on a line, white space before the word and lines without a word have no effect on pieces or ranks. The text output of TokenizeInput, cut at the spaces, is the list of pieces, none empty; without its spaces it is the words of the input, each after the prefix; so it determines the words, whatever the vocabulary, if no word contains the first character of the prefix. Invalid UTF-8 in the file or the text throws.", "quantifier": "every file of lines, every vocabulary, every prefix without a space, every text", "why_tests_cant": "files, vocabularies and texts are unbounded; merges of pieces depend on the vocabulary", "anchors": ["nisaba/translit/fst/wordpiece-segmenter.cc: WordpieceSegmenter::InitWordpieces, TokenizeInput"]}
{"id": "C130", "title": "A thing is compared by its value", "statement": "The value of a new Thing is the object it is made from, or the named attribute of it if it has one, and the Thing itself if it is made from nothing. is_equal compares two objects by their values: it is symmetric, reflexive except for objects whose value is a Nothing, which equal nothing, and transitive; things with string values compare as the strings, string Fsts as the strings they spell, things that are their own values by identity.", "quantifier": "every pair of objects, every thing", "why_tests_cant": "objects, attributes and Fsts are arbitrary; equality laws range over triples of objects", "anchors": ["nisaba/scripts/natural_translit/utils/type_op.py: Thing.__init__, value_of, is_string, is_equal"]}
{"id": "C131", "title": "What is written to a file is read back, as text and as a message", "statement": "Text written with WriteTextFile or WriteTempTextFile is read back unchanged under the given or returned name and no other file changes; a name that cannot be opened and a missing file are errors. GetTextProto reads back a message written in text form or in binary form; contents that are neither, and other flags than the default, are errors.", "quantifier": "every text, every file name, every message, every pair of parsers", "why_tests_cant": "texts and messages are unbounded, and the same bytes may have a meaning in both forms", "anchors": ["nisaba/port/file_util.cc: WriteTextFile, WriteTempTextFile, ReadTextFile, ReadBinaryFile", "nisaba/port/file.cc: ReadFileToProto, GetTextProto"]}
{"id": "C132", "title": "Languages keep their place and are all equally far apart", "statement": "Language.from_iso with a two- or three-letter code, in capitals or not, gives the code in lower case, the name of the language and its place in the table of languages; other lengths are a ValueError and unknown codes an AttributeError. Both codes of a language give the same index and text, codes of two languages different indices, and a table of at most 8000 languages leaves the indices of x_uni and x_psa free. Any two different languages of the inventory are at distance 1, in one family or not.", "quantifier": "every table of languages without repeated codes, every code, every aspect of equidistant lists", "why_tests_cant": "the table belongs to another package and changes; trees of lists are nested without bound", "anchors": ["nisaba/scripts/natural_translit/phonology/features/language.py: Language.from_iso, _features"]}
{"id": "C133", "title": "The best rewrites are the cheapest ones, each once with its least cost", "statement": "TopRewrites with a number gives distinct strings, at most that many and as many as the rules allow, each with the least of its costs, and no string left out is cheaper than one given; Rewrites gives all outputs, TopRewrites those of least cost, TopRewrite one of them, OneTopRewrite a string exactly if it is the only one. The rewrite manager and a cascade of one rule give the same. Nothing is given without a rewrite. SetFst replaces a transducer that there is and no other. Debug strings are the outputs with generated symbols in brackets.", "quantifier": "every set of rules over any ordered weights, every number, every input string", "why_tests_cant": "a few rules with a few weights are tried; ties, numbers that are not positive and empty lattices are easily missed", "anchors": ["nisaba/interim/grm2/rewrite/rewrite.h: TopRewrites, LatticeToShortest, LatticeToStrings", "nisaba/interim/grm2/rewrite/rewrite_manager.h: RewriteManager", "nisaba/interim/grm2/rewrite/base_rule_cascade.h: TopRewrites, LabelsToDebugString, PrintDebugSymbol"]}
{"id": "C134", "title": "The printed forms of expressions and alignments tell what they are", "statement": "If no text of a symbol has a delimiter and no two symbols have one text, two expressions built with the library are printed alike only if they have the same structure (eps and the empty Cat, nor and the empty Or are printed alike). The printed form of an alignment tells both sides, and string() tells in addition the contexts that are not any, their marks for the beginning and the end, and the operation.", "quantifier": "every expression built by Atomic, Cat, Or, add and copies, of any depth; every rule", "why_tests_cant": "tests compare a few printed forms with literals; that no two structures share a form needs all pairs", "anchors": ["nisaba/scripts/natural_translit/utils/expression.py: Expression.__str__, _str_enclosed, Cat.__str__, Or.__str__", "nisaba/scripts/natural_translit/utils/expression.py: _side_str, enclosed_str, _context_str, Alignment.string"]}
{"id": "C135", "title": "The sets of an aspect have the features they are made of", "statement": "In an aspect with well-named values and after any calls of set, set_not and set_range: all has exactly the features of the value list, never any or n_a; set keeps of the features given those of the aspect; set_not has the features of the aspect that are not given, so that both divide the aspect; set_range has the features from the first to the last place of a list, going round its end. No call changes a set there is or a distance, a taken alias changes nothing. non_generic leaves out any and n_a only; is_equal is equality of members.", "quantifier": "every tree of value lists with distinct aliases, every sequence of calls, all arguments", "why_tests_cant": "tests define a few sets once; interference of later calls and of taken aliases needs all sequences", "anchors": ["nisaba/scripts/natural_translit/utils/feature.py: Aspect.filter, _make_set, set, set_not, set_range, populate", "nisaba/scripts/natural_translit/utils/feature.py: Set.non_generic, Set.is_equal"]}
{"id": "C136", "title": "The symbol tables for bytes and UTF-8 have every character and what was added to them", "statement": "After any calls of GetByteSymbolTable, GetUtf8SymbolTable, AddToByteSymbolTable and AddToUtf8SymbolTable: the byte table has every byte and the UTF-8 table every code point below 65536, under the character itself or, if it is not visible, under its hexadecimal number, both ways; a symbol keeps its label; the tables hold nothing but this and what was added, and do not touch each other. A symbol that is added is in the table that is got afterwards.", "quantifier": "every sequence of calls, all symbols and labels", "why_tests_cant": "whether an addition is seen depends on an earlier call of Get, anywhere in the process; tests make one order of calls", "anchors": ["nisaba/interim/grm2/thrax/walker/util/function/symbols.cc: SymbolTableBuilder"]}
{"id": "C137", "title": "An instance of a symbol stands for that symbol", "statement": "However symbols, Atomics and instances are made from each other and changed: the attribute symbol of any of them is a symbol that is no Atomic and has the same alias, text, raw, index and name; get_instance and copy give an Atomic of the same symbol that is a control, eps or nor exactly if the argument is; nothing later changes the symbol of an object, and a change of features is seen in no other object. The instance of a control symbol or of a control Atomic is the one constant of that symbol, any other instance is new.", "quantifier": "every sequence of makings and changes of symbols", "why_tests_cant": "chains of Atomics of Atomics and later changes of features are unbounded; tests make single instances", "anchors": ["nisaba/scripts/natural_translit/utils/expression.py: Atomic", "nisaba/scripts/natural_translit/utils/symbol.py: Symbol"]}
{"id": "C138", "title": "The description of a symbol inventory lists its symbols", "statement": "After any additions and parses, description() (and str) of a symbol inventory is the header and one line for each symbol that the inventory has, in the order of the indices, each once; control symbols are listed only on demand. Every symbol that was added is listed. The line of a symbol tells its alias and its index, the line of a grapheme its alias, name and text, and descriptions() tells the line of each symbol.", "quantifier": "every sequence of additions, supplements and parses, all symbols", "why_tests_cant": "which symbols the dictionary of indices still holds depends on all earlier additions; tests print fixed inventories", "anchors": ["nisaba/scripts/natural_translit/utils/symbol.py: Symbol.Inventory.description, Symbol.description"]}
