#!/usr/bin/env python3
"""Writes /verif/properties.jsonl from the list below (kept as code so that
quoting stays correct)."""
import json, os
P = []
def add(title, statement, quantifier, why, anchors):
    P.append(dict(id="C%02d" % (len(P)+1), title=title, statement=statement,
                  quantifier=quantifier, why_tests_cant=why, anchors=anchors))

U = "nisaba/scripts/utils/"
B = "nisaba/scripts/brahmic/"
A = "nisaba/scripts/abjad_alphabet/"
N = "nisaba/scripts/natural_translit/"
T = "nisaba/translit/"
R = "nisaba/port/"

# ---- A. rewrite-rule compiler ------------------------------------------
add("Unordered rule files are split into a correct bleeding order",
    "Splitting a rule list into ordered rule sets either raises ValueError, which happens exactly when two different rules share the same left-hand side, or returns rule sets that together contain every distinct rule exactly once, in which no left-hand side occurs inside another left-hand side of the same set, and in which a rule whose left-hand side contains another rule's left-hand side is always in a strictly earlier set.",
    "every finite list of (lhs, rhs) rules, including duplicates and overlapping left-hand sides",
    "rule files grow; tests only exercise a few hand-written lists, while the guarantee is about every rule graph",
    [U+"rule.py: partition_unordered, _match_lhs_in_lhs"])
add("The order of lines in an unordered rule file is irrelevant",
    "Permuting or duplicating the lines of an unordered rule file never changes the text produced by the compiled rewriter, nor whether compilation fails.",
    "every rule list, every permutation of it and every input string",
    "there are n! orders of a rule file and infinitely many inputs",
    [U+"rule.py: fst_from_rules, partition_unordered"])
add("A compiled unordered rule set is a total single-valued rewriter",
    "For every rule list accepted by the splitter, the obligatory left-to-right context-free rewrite of every rule set, and the cascade of all rule sets, relates every string over the alphabet to exactly one output.",
    "every accepted rule list, every string over the alphabet",
    "ambiguity needs overlapping matches at some position of some string; the space of strings is infinite",
    [U+"rule.py: fst_from_rules", U+"rewrite.py: Rewrite, RewriteAndComposeFsts"])
add("The composition heuristic never changes the composed transducer",
    "Composing a list of transducers in the order chosen by the size heuristic denotes the same weighted relation as composing them strictly left to right; an empty list denotes the supplied default and a singleton its only element.",
    "every list of weighted relations and every assignment of state counts to intermediate machines",
    "the heuristic picks a different bracketing for every vector of machine sizes",
    [U+"rewrite.py: ComposeFsts"])
add("Function pipelines apply their stages left to right",
    "A pipeline built from single-argument functions maps v to the last function applied to ... the first function applied to v; the empty pipeline is the identity and concatenating pipelines composes them.",
    "every list of functions and every argument",
    "quantifies over all functions", [U+"func.py: ComposeFn1"])
# ---- B. Brahmic NFC ------------------------------------------------------
add("Brahmic NFC is total and closed on the script alphabet",
    "For each of the 20 Brahmic scripts and for the pan-Brahmic grammar, NFC conversion of any string over the alphabet succeeds, gives exactly one result, and the result is again over the alphabet.",
    "every script, every string over its alphabet",
    "infinite set of strings; unit tests list a few dozen words",
    [B+"nfc.py: generator_main", B+"sigma.py", U+"char.py: derive_sigma"])
add("Brahmic NFC is idempotent",
    "Converting to NFC twice gives the same text as converting once, for each script's NFC grammar and for the pan-Brahmic one.",
    "every script, every string over its alphabet",
    "a counterexample may need several interacting rules at arbitrary positions",
    [B+"nfc.py: generator_main", B+"data/*/nfc.textproto"])
add("Brahmic NFC leaves no decomposed sequence behind",
    "The output of a script's NFC conversion contains no occurrence of any left-hand side of that script's NFC table, and a text that contains none is returned unchanged.",
    "every script, every string over its alphabet",
    "needs all strings; a rewrite may create a new left-hand side together with its neighbours",
    [B+"nfc.py: generator_main", B+"data/*/nfc.textproto"])
add("Pan-Brahmic NFC agrees with every per-script NFC",
    "On text over one script's alphabet, the pan-Brahmic NFC conversion returns exactly what that script's own NFC conversion returns.",
    "every script, every string over that script's alphabet",
    "the combined grammar orders 49 rules of all scripts together; any pair could interact on some string",
    [B+"nfc.py: generator_main"])
# ---- C. Brahmic visual norm ------------------------------------------------
add("Brahmic visual normalization is single-valued",
    "For each of the 20 scripts (and the Assamese and Bengali variants), visual normalization relates every string over the alphabet to exactly one output.",
    "every script, every string over its alphabet",
    "contextual rewrites, joiner preservation and deletion interact on strings of any length",
    [B+"visual_norm.py: core_visual_norm_fsts, generator_main", B+"char_util.py: dedup_marks_fst"])
add("Visual normalization absorbs NFC",
    "Visually normalizing a text and visually normalizing its NFC form give the same result, for each Brahmic script.",
    "every script, every string over its alphabet",
    "infinite inputs", [B+"visual_norm.py: generator_main, open_nfc"])
add("Mark de-duplication does not depend on processing order",
    "Removing repeated combining marks gives the same text whatever order the mark characters are processed in, and its effect is exactly to collapse every run of one mark character to a single occurrence and to change nothing else.",
    "every set of mark characters, every processing order, every string",
    "the code iterates over an unordered set; the order differs between runs and Python versions",
    [B+"char_util.py: dedup_marks_fst, script_marks"])
add("Visual normalization removes stray joiners",
    "In the output of a script's visual normalization, zero-width joiners and non-joiners occur only inside a preserved sequence of that script; zero width spaces occur never.",
    "every script, every string over its alphabet",
    "a joiner could be reintroduced or survive by interacting with any other rewrite",
    [B+"visual_norm.py: core_visual_norm_fsts", B+"data/*/preserve.textproto"])
add("Brahmic visual normalization is idempotent",
    "Visually normalizing a text twice gives the same text as normalizing it once.",
    "every script, every string over its alphabet",
    "counterexamples need a joiner or mark in the middle of a rewritable sequence; the search space is unbounded",
    [B+"visual_norm.py: generator_main", B+"__init__.py: Normalizer"])
# ---- D. wellformed ---------------------------------------------------------
add("Well-formed Brahmic text is closed under concatenation",
    "The empty text is well formed and the concatenation of two well-formed texts is well formed, in every script.",
    "every script, every pair of strings",
    "infinite pairs", [B+"wellformed.py: accept_well_formed"])
add("Well-formedness acceptor implements the documented orthographic syllable grammar deterministically",
    "A decision procedure that reads the text left to right and keeps a finite summary accepts exactly the strings the declarative akshara grammar derives, so acceptance is decidable and independent of how a text is segmented.",
    "every script, every string",
    "grammar and recogniser must agree on all strings, including those with ambiguous segmentation",
    [B+"wellformed.py: accept_well_formed"])
add("Ill-placed dependent signs are rejected",
    "No well-formed text of a script starts with a dependent vowel sign or a virama, and no well-formed text contains two consecutive dependent vowel signs or a virama directly after a vowel sign, unless the sequence is explicitly listed as an accepted exception.",
    "every script, every string",
    "an exception or a multi-character token could let such a sequence slip through in some context",
    [B+"wellformed.py: accept_well_formed", B+"data/*"])
add("Normalizing acceptor returns only well-formed text",
    "When the normalizing acceptor succeeds on a word, its result is the visual normal form of that word and is accepted by the well-formedness grammar; otherwise it raises an ill-formed error; on running text every maximal run of ignored characters is preserved in place and every other run is replaced by its normalized word.",
    "every script with a grammar, every text, every ignore set",
    "text-level behaviour must hold for any interleaving of words and separators",
    [B+"__init__.py: NormalizingAcceptor", B+"grammar.cc: Normalizer::Rewrite"])
# ---- E. ISO -------------------------------------------------------------------
add("Romanization to ISO is unambiguous",
    "For every NFC text that can be romanized, all lowest-weight romanizations are the same string: shortest-path search can return only one answer.",
    "every script, every string of native characters",
    "ties depend on segmentations of arbitrarily long strings; a tie makes the output depend on FST library internals",
    [B+"iso.py: brahmic_to_iso, _script_fsts", U+"far.py: Far.FstWrapper.ApplyOnText"])
add("ISO romanization is lossless",
    "For every romanizable text, converting to ISO and back to the same script returns the NFC form of the text, whichever lowest-weight path the shortest-path search picks.",
    "every script, every string of native characters in the domain",
    "the inverse transducer is highly ambiguous; only weights select the right answer, on strings of any length",
    [B+"iso.py: brahmic_to_iso, _script_fsts"])
add("Every well-formed text can be romanized",
    "Each text accepted by a script's well-formedness grammar has an ISO romanization.",
    "every script, every well-formed string",
    "inclusion between two infinite languages", [B+"iso.py: brahmic_to_iso", B+"wellformed.py: accept_well_formed"])
add("Romanization distributes over concatenation at the relation level",
    "Concatenating two native texts with romanizations yields a text whose romanization exists and costs no more than the sum of the two costs.",
    "every script, every pair of strings", "infinite pairs", [B+"iso.py: brahmic_to_iso"])
# ---- F. Abjad -------------------------------------------------------------------
add("Reversible abjad romanization is lossless",
    "Romanizing any text that the reversible scheme covers and converting back returns exactly the NFC form of the text; two different NFC texts never share a romanization and each romanization decodes in only one way.",
    "every string over the characters of the reversible romanization table",
    "unique decodability of a 183-entry code is a statement about all strings",
    [A+"reversible_roman.py: generator_main", A+"data/Arab/reversible_roman.textproto"])
add("Abjad NFC is idempotent",
    "Converting abjad text to NFC twice gives the same text as converting it once.",
    "every string", "mark reordering cascades depend on the length of a mark run",
    [A+"nfc.py: generator_main", A+"data/Arab/nfc.textproto"])
add("Iterating abjad NFC always reaches a fixed point",
    "For every text, repeating NFC conversion a finite number of times reaches a text that NFC no longer changes.",
    "every string", "termination is a liveness property over unbounded iteration",
    [A+"nfc.py: generator_main", A+"data/Arab/nfc.textproto"])
add("Abjad visual normalization is single-valued and position-aware",
    "For each supported language the per-word visual normalization is a total single-valued function; non-final rules never alter the last character's own rewrite, final rules only alter the last character sequence of words longer than it, and isolated rules only apply when the match is the entire word.",
    "every language, every word", "all words of any length",
    [A+"visual_norm.py: generator_main", A+"__init__.py: Normalizer"])
add("Abjad visual normalization is idempotent",
    "Visually normalizing a word twice gives the same result as normalizing it once, in every supported language.",
    "every language, every word", "cross-table interactions on arbitrary words",
    [A+"visual_norm.py: generator_main", A+"data/*/visual_norm*.textproto"])
add("Presentation forms never survive abjad normalization",
    "After visual normalization no Arabic presentation-form character listed in the table remains in the text.",
    "every language, every word", "699 characters in arbitrary contexts",
    [A+"visual_norm_common.py", A+"visual_norm.py", A+"data/Arab/presentation_forms.textproto"])
# ---- G. data conversion --------------------------------------------------------
add("Unicode-name entries and raw strings always agree",
    "Converting a string entry succeeds only if its Unicode names (with the file's prefixes) resolve, each to exactly one non-control character, and spell the raw string when one is given; the resulting string is then that raw string; otherwise a ValueError is raised.",
    "every entry, every prefix list, every character-name database",
    "the name database and the entries are unbounded", [U+"unicode_strings_util.py: convert_item, name_to_char, proto_entries_to_string"])
add("Byte-mode and UTF-8-mode rewriters agree",
    "Rewriting the UTF-8 bytes of a text with byte-level rules gives the UTF-8 bytes of the text rewritten with character-level rules.",
    "every rule set and every text of valid Unicode scalar values",
    "the two builds of each grammar must agree on all strings", [B+"nfc.py: generator_main", U+"rule.py: fst_from_rules", U+"rewrite.py: Rewrite"])
# ---- H. C++ port ------------------------------------------------------------------
add("UTF-8 encode/decode round trip",
    "Decoding the encoding of any Unicode scalar value returns that value and its byte length; splitting a valid string into characters and concatenating them returns the string; splitting an invalid string returns no characters.",
    "every scalar value, every byte string", "2^32 code points and infinitely many byte strings",
    [R+"utf8_util.cc: EncodeUnicodeChar, DecodeUnicodeChar, DecodeSingleUnicodeChar, StrSplitByChar"])
add("Splitting at UTF-8 delimiters loses nothing",
    "Splitting text at any set of Unicode delimiter characters yields pieces that contain no delimiter and, when rejoined with the delimiters found, give back the text.",
    "every delimiter set, every byte string", "all strings", [R+"utf8_delimiters.cc: Utf8Delimiter::Find", R+"unicode_properties.cc"])
add("Word-piece segmentation is lossless and always succeeds",
    "For every word piece vocabulary and every word of valid UTF-8, segmentation terminates without an internal error, the pieces concatenate to the prefix followed by the word, every piece longer than one character is in the vocabulary, and no two adjacent pieces could still be merged.",
    "every vocabulary, every word", "greedy merging interacts with arbitrary vocabularies",
    [T+"fst/wordpiece-segmenter.cc: WordpieceSegmenter"])
add("Error counts are a minimum-cost alignment",
    "The reported substitutions, insertions and deletions of a test/reference pair come from one alignment of the two token sequences and their sum is the least possible number of edits.",
    "every pair of token sequences", "optimality over exponentially many alignments",
    [T+"tools/calculate_error_rate.cc: ErrorRate, CalculateErrorRate"])
add("Per-example error output lines up with the examples",
    "The per-example edit counts reported for example i are those computed from the references and hypotheses of example i, even when some examples have no references.",
    "every list of examples", "depends on which subset of examples is empty", [T+"tools/calculate_error_rate.cc: CalculateErrorRates, WritePairwiseEdits"])
add("Most frequent value is a mode",
    "The chosen word count of an ensemble is a value that occurs at least as often as every other value, with ties broken towards the largest value.",
    "every non-empty list of counts", "all lists", [T+"tools/kbest-full-string-util.cc: MostFreqValue"])
add("Rejoined k-best lists are the best full strings",
    "Rejoining per-part candidate lists returns, in best-first order, the k cheapest concatenations of one candidate per part, with the cost of a concatenation being the sum of the part costs.",
    "every list of candidate lists, every k", "combinatorially many concatenations", [T+"tools/kbest-full-string-util.cc: KbestRejoiner"])
add("Thread pool runs every scheduled task exactly once",
    "If at least one worker is started, every task scheduled before the pool is destroyed is executed exactly once before destruction returns, no task is executed before it is scheduled, and the pool never deadlocks, under every interleaving of workers and scheduler.",
    "every number of workers, every sequence of scheduled tasks, every interleaving",
    "interleavings cannot be enumerated by tests", [R+"thread_pool.h: ThreadPool"])
add("Path joining",
    "Joining a directory and a relative path appends the components of the path to those of the directory with no doubled separator, an absolute path replaces the directory, an empty directory is ignored, and joining several paths does not depend on the grouping.",
    "every pair of paths, every triple for grouping", "all strings", [R+"file_util.cc: JoinPath"])
add("Transliteration distance matrix is symmetric with zero diagonal blocks",
    "The ground-distance matrix given to the earth mover's distance computation is square, symmetric, zero inside each of the two groups and holds the pairwise edit counts elsewhere.",
    "every pair of candidate lists", "all shapes of inputs", [T+"tools/calculate_error_rate.cc: GetDistances, TransposeMatrix", T+"tools/emd_cer.py"])
# ---- I. natural_translit utils ------------------------------------------------------
add("Inventories never overwrite or alias items",
    "Adding an item to an inventory succeeds only if its alias is new; a failed addition leaves the inventory unchanged; every added item remains retrievable under its alias and the iteration order is insertion order.",
    "every sequence of additions", "histories of any length", [N+"utils/inventory.py: Inventory", N+"utils/type_op.py: IterableThing"])
add("Feature distance is a well-behaved dissimilarity",
    "The distance between two feature values of one aspect is symmetric, non-negative, zero against itself and against 'any', and at most the aspect's maximum.",
    "every linear or cyclic aspect with any number of values, every pair of values", "aspects of any size",
    [N+"utils/feature.py: Feature.Aspect, Feature.distance"])
add("Value ranges contain exactly the values between their end points",
    "A range over an ordered value list contains the end points and every value between them in order, and nothing else.",
    "every value list and every pair of its members", "all sizes", [N+"utils/feature.py: Feature.ValueList.range"])
add("Expression concatenation and alternation are associative with units",
    "Concatenating or alternating expressions flattens nested sequences, drops neutral elements and is associative, so that grouping never changes the resulting expression.",
    "every expression tree", "all trees", [N+"utils/expression.py: Cat.of, Or.of"])
add("Expression acceptance is a partial order",
    "An expression accepts itself, 'nothing' accepts no expression, 'any' accepts every one, and a sequence accepts exactly sequences of the same length item by item.",
    "every expression tree", "all trees", [N+"utils/expression.py: Expression.accepts, Atomic, Cat"])
add("Operation indices are unique and increasing",
    "Every operation added to an operation inventory gets an index larger than all earlier ones and can be looked up by it.",
    "every sequence of operations", "histories of any length", [N+"utils/operation.py: Operation.Inventory"])
add("Lattices built separately are independent",
    "Building one lattice never changes the states or arcs of another lattice.",
    "every sequence of lattice constructions and insertions", "shared mutable defaults only show in particular histories",
    [N+"utils/lattice.py: Lattice"])
add("Symbol parsing is lossless",
    "Parsing a text into inventory symbols and printing the symbols returns the text; unknown characters become control symbols one for one.",
    "every inventory, every string", "all strings", [N+"utils/symbol.py: Symbol.Inventory.parse, str_to_raw_symbols"])
add("Grammar loading falls back from language to script consistently",
    "A grammar requested for a language uses the language-specific rule if the archive has it and otherwise the rule of the language's script, and reports an error exactly when neither exists.",
    "every archive content, every tag", "all combinations of archive contents and tags", [B+"grammar.cc: Grammar::Load, VerifyLoad"])

add("Multi-reference error rates choose the best reference and add up",
    "For every example the reported counts are those of the best-scoring hypothesis against a reference with the least error rate, whatever the order of the references, and the totals are the sums over the examples.",
    "every list of examples, hypotheses and references", "all combinations of references and ties",
    [T+"tools/calculate_error_rate.cc: CalculateMinErrorRate, CalculateErrorRate, WriteErrorRate"])
add("Reading lines returns the lines of the file",
    "Reading the lines of a file returns its non-empty lines in order, without their terminators (line feed and carriage return), cut at the given maximum length.",
    "every file content and every maximum length", "all contents", [R+"file_util.cc: ReadLines"])
add("Candidate weights are normalised to probabilities",
    "The probabilities written for candidates and references, and the exponentiated negated scores of ensembled and extracted candidates, are positive, sum to one and are proportional to the input weights; reference counts become relative frequencies.",
    "every non-empty list of scores", "all score vectors",
    [T+"tools/calculate_error_rate.cc: GetNormalizer, WriteCands", T+"tools/kbest-full-string-util.cc: NormAndPairList, GetOutputs"])
add("Ensembled candidates are aligned word by word",
    "Simple alignment keeps exactly the candidates with the requested number of words, or with the most frequent number if none is requested or all if they agree, gives them common boundary states, one fewer than words, and never trips its internal checks for candidates with words.",
    "every list of candidates and every requested length", "all lists",
    [T+"tools/kbest-full-string-util.cc: SimpleAlign, PruneByInputLength, BuildAlignWfst"])
add("Rejoining groups candidates by part and text",
    "Candidate lines of consecutive parts are grouped by part and parts by text according to the split indices; when no number of results is given, it is the greatest number of candidates of any part.",
    "every sequence of parts", "histories of any length",
    [T+"tools/kbest-full-string-util.cc: InitializeKbestRejoiner", T+"tools/rejoin-kbest-full-string_main.cc"])

add("The abjad normalizer keeps separators and normalizes every word",
    "Normalizing a line returns it with all ignored characters in place and every other run replaced by the visual form of its NFC form, without presentation forms; the only error is FstInputError, raised exactly when a word has a character outside the alphabet.",
    "every language, every line, every non-empty set of ignored characters", "all lines",
    [A+"__init__.py: Normalizer.ApplyOnWord, Normalizer.ApplyOnText", U+"far.py: FstWrapper.ApplyOnText"])

add("A set has a value exactly if it has a feature below it",
    "has_feature(value) of a set of features of an aspect is true exactly if the set contains the value or, for a value list, one of the features anywhere below it.",
    "every aspect, any nesting of value lists, every set of its features, every value of the aspect",
    "nesting depth and sets are unbounded",
    ["nisaba/scripts/natural_translit/utils/feature.py: Feature.Set.has_feature, ValueList.populate"])

NT = "nisaba/scripts/natural_translit/utils/"
add("Containment of expressions is containment of symbol lists",
    "contains_symbol_list(list, head, tail) is true exactly if the list is [eps], or is not [nor] and either the item is any or the list is a non-empty contiguous part of one of the item's symbol lists, at its beginning if head is set and at its end if tail is set; contains(other) asks this for some symbol list of the other item.",
    "every expression tree, every symbol list, all flags", "all trees and lists",
    [NT+"symbol.py: Item.contains_symbol_list, Item.contains"])
add("A rule applies only in its context",
    "A rule with preceding and following contexts matches a position exactly if its preceding context ends, and its following context begins, the actual context on both sides, or equals it when the boundary flags are set; a rule that requires a context does not match where there is none.",
    "every rule context, every actual context, both boundary flags", "all expression trees as contexts",
    [NT+"expression.py: Alignment.context_matches, _BaseAlignment", NT+"symbol.py: Item.matches, Item.is_prefix, Item.is_suffix"])

add("The error-rate tool groups candidates by example number",
    "After both files have been read, the references and the tests of each example are exactly the lines with that example number, in file order, each with its own text and value; there are as many examples as the largest number requires; the symbol 0 stands for no token except one spelled <epsilon>.",
    "every pair of input files", "any number of lines in any order of example numbers",
    [T+"tools/calculate_error_rate.cc: ReadInputs, CalculateErrorRate"])
add("Tokens of the error-rate tool are words or characters",
    "For word error rate the tokens of a text are its words, the maximal runs of characters that are not white space; for character error rate they are the characters of these words joined by one space; invalid UTF-8 is an error.",
    "every text, both modes", "all texts",
    [T+"tools/calculate_error_rate.cc: MaybeSplitChars"])

PL = "nisaba/translit/fst/pairlm_decoder.cc: "
add("External candidates are mixed with the configured weight",
    "A word that both the external candidate file and the pair language model know gets, with pairlm_translit_weight lambda and no override, lambda parts of the model's distribution and 1 - lambda parts of the external one.",
    "every weight, every candidate list, every model result", "real-valued weights and lists of any length",
    [PL+"InitializePairLMDecoder, InitializeExternalTransliterations, TransliterateWord"])
add("Words are cut exactly where coverage changes",
    "A word with covered and uncovered characters is cut into its maximal runs of either kind, and its candidates are the k best concatenations of one candidate of each run; any other word is not cut.",
    "every word, every set of covered characters, every list of candidates per run", "all words",
    [PL+"SegmentCoveredChars, TransliterateSegmentedWord"])
add("Final pruning keeps the best candidates",
    "At every word position at most k candidates remain, at least one, none of them worse than a removed one, and all but the best reach the minimum posterior; nothing else is removed.",
    "every candidate list, every k, every minimum posterior", "lists of any length with real weights",
    [PL+"ApplyArcScoreThresh, ApplyFinalKBestFilter"])
add("Transliteration does not depend on thread interleaving",
    "The candidates of every word of every line and their weights are those of the word alone, whatever the order in which the threads working on words and lines proceed; no thread waits for ever.",
    "every set of lines and every interleaving of the threads", "the number of interleavings is unbounded",
    [PL+"TransliterateWord, TransliterateUnsegmentedWord, BuildTransliterationFst", "nisaba/port/thread_pool.h: ThreadPool"])
add("The runner writes results in input order",
    "The runner writes the results of the lines that do not start with # in input order, numbered from 0, whatever the number of workers.",
    "every input file, every number of workers, every execution", "all interleavings",
    ["nisaba/translit/fst/pairlm_decoder_runner.cc: SequentialDecoding, ParallelDecoding"])
add("Results do not depend on earlier calls",
    "What a decoder returns for a word and a k does not depend on the strings transliterated before.",
    "every history of calls", "histories of any length",
    [PL+"TransliterateString, TransliterateWord"])

G2 = "nisaba/interim/grm2/"
add("The path iterator shows every path once",
    "On an acyclic automaton the iterator shows every path from the start state to a final state exactly once, with its input labels, output labels and weight, and then is done; it never pops an empty vector. LatticeToOneTopString succeeds exactly if there is one path and returns its string.",
    "every acyclic automaton over every semiring", "all automata",
    [G2+"paths/paths.h: PathIterator", G2+"rewrite/rewrite.h: LatticeToOneTopString"])
add("Reset restarts the iteration",
    "After Reset the path iterator behaves like a new one.",
    "every acyclic automaton, every number of Next calls before Reset", "all automata and positions",
    [G2+"paths/paths.h: PathIterator::Reset"])
add("Rule definitions are split into their names",
    "A definition made of a rule name, a parentheses name and an assignments name with separators dollar or colon between them is split into exactly these names; no character of a definition is lost.",
    "every definition", "all strings",
    [G2+"rewrite/rule_cascade.h: RuleTriple", G2+"thrax/abstract-grm-manager.h: RuleTriple"])
add("A cascade applies its rules in order",
    "Rewrites returns exactly the strings that the rules, applied one after the other, lead to; TopRewrites those of least cost, TopRewrite one of them, OneTopRewrite succeeds exactly if there is only one; Matches tells whether an output is among them; a cascade rewrites like its first part followed by its second part.",
    "every set of rules, every cascade, every input", "all inputs and cascades of any length",
    [G2+"rewrite/rule_cascade.h: RuleCascade", G2+"rewrite/base_rule_cascade.h: BaseRuleCascade", G2+"rewrite/rewrite_manager.h: RewriteManager"])
add("Both kinds of cascades agree and keep only the rules set last",
    "A cascade of the thrax kind and one of the rewrite kind with the same rules succeed on the same strings and return outputs of the same cost; setting rules replaces the earlier rules; loading an archive makes every name refer to its last transducer.",
    "every archive, every sequence of rule lists, every input", "histories of any length",
    [G2+"rewrite/rule_cascade.h: SetRules", G2+"thrax/abstract-grm-manager.h: RuleCascade::InitFromDefs, AbstractGrmManager", G2+"rewrite/rewrite_manager.h: Load"])
add("Parentheses are paired without reuse",
    "The parenthesis pairs of a pushdown rule are the label pairs of the arcs of the parentheses transducer, in order, and no label belongs to two pairs; every pair gets the stack assigned to its opening parenthesis, and a missing assignment is an error.",
    "every parentheses transducer and every assignment transducer", "transducers of any size",
    [G2+"rewrite/parentheses.h: MakeParenthesesVector, MakeAssignmentsVector"])
add("Symbol tables are unambiguous and printable",
    "Different labels of the byte symbol table and of the UTF-8 symbol table have different non-empty symbols; a symbol has no white space and no control characters.",
    "every label of the tables", "65536 labels, pairwise",
    [G2+"thrax/walker/util/function/symbols.cc: GenerateByteSymbolTable, GenerateUtf8SymbolTable, IsUnicodeSpaceOrControl"])

BR = "nisaba/scripts/brahmic/"
add("Normalization keeps well-formed text well formed",
    "The NFC form and the visual normal form of a text that the well-formedness acceptor of its script accepts are accepted again, in the language variants of visual normalization too; so the normalizing acceptor never raises IllFormedError for a well-formed word.",
    "every script and every well-formed text", "well-formed texts are unbounded; tests list a few rows",
    [BR+"nfc.py: generator_main", BR+"visual_norm.py: generator_main", BR+"wellformed.py: accept_well_formed", BR+"__init__.py: NormalizingAcceptor.ApplyOnWord"])
add("Reading normalization is a function",
    "Reading normalization returns exactly one text over the alphabet of the script for every text over it, and returns texts in which no rule applies unchanged.",
    "every language of READING_NORM_LANGS, every abjad language, every text", "all texts",
    [BR+"reading_norm.py: generator_main, _reading_norm_fst", "nisaba/scripts/abjad_alphabet/reading_norm.py: generator_main"])
add("Reading normalization removes all that its rules rewrite",
    "Reading-normalized text contains no left-hand side of a reading rule, so a second application changes nothing.",
    "every language of READING_NORM_LANGS, every abjad language, every text", "all texts; rules may create matches of one another",
    [BR+"reading_norm.py: generator_main", "nisaba/scripts/abjad_alphabet/reading_norm.py: generator_main"])
add("Reading normalization keeps well-formed text well formed",
    "The reading normal form of a well-formed Brahmic text is well formed.",
    "every language of READING_NORM_LANGS, every well-formed text", "all well-formed texts",
    [BR+"reading_norm.py: generator_main", BR+"wellformed.py: accept_well_formed"])

FE = "nisaba/scripts/natural_translit/utils/feature.py: "
SY = "nisaba/scripts/natural_translit/utils/symbol.py: "
add("Feature sets behave like sets",
    "add, remove, replace, update and reset change a feature set as the set operations they name, for features given directly or inside sets, profiles, multi-profiles and lists; union, intersection, difference and copy make a new set; no other set changes.",
    "every set and every nesting of arguments, the set itself included", "arguments nest without bound and may alias the set",
    [FE+"Feature.Set"])
add("Profiles keep one value set per aspect",
    "A new profile has, for every aspect of its inventory, the given features of that aspect, or the default; update replaces exactly the aspects that features are given for; copy has the same values; no other profile changes.",
    "every inventory, every profile, every history of calls", "histories of any length; objects may share sets",
    [FE+"Feature.Profile.__init__, get, copy, update"])
add("Similarity of profiles is a similarity",
    "The similarity of two profiles of one inventory is symmetric, between zero and one, and one for a profile and itself; profiles of different inventories have similarity zero.",
    "every inventory, every two profiles, every choice of aspects", "all profiles",
    [FE+"Feature.Profile.compare, similarity", FE+"Feature.Set.distance"])
add("A multi-profile answers with the profile given last",
    "After new_profile a multi-profile answers with the values of the given profile for its inventory, and with not-applicable values for an inventory without profile; copy makes new profiles with the same values; other multi-profiles do not change.",
    "every history of calls", "histories of any length; objects are mutable and shared",
    [FE+"Feature.MultiProfile.new_profile, get, copy"])
add("Features added to a symbol are its features",
    "add_features adds to every aspect of the profiles of a symbol exactly the given features of the aspect, in place of any; other symbols do not change; has_feature tells whether the symbol has a feature or a feature of a value list.",
    "every symbol, every features, every history", "histories of any length",
    [SY+"Symbol.add_features, has_feature", "nisaba/scripts/natural_translit/phonology/phonological_symbol.py: has_feature", FE+"Feature.value_in"])

KB = T+"tools/kbest-full-string-util.cc: "
add("The lattice reader keeps every candidate where it belongs",
    "Lines of (text index, position, input word, candidate, score) are accepted exactly when texts follow one another with positions in order from 0; the extractor then has for every text and position exactly the candidates of its lines, in order, and the joined input words.",
    "every list of lines", "files of any length and any interleaving",
    [KB+"KbestExtractor::InitializeKbestExtractor"])
add("k-best extraction lists the k best combinations",
    "The extractor lists the k combinations of one candidate for every position with the least summed cost, best first, spelled with single spaces, with scores that are normalised over the list.",
    "every lattice, every k", "the number of combinations is exponential in the length",
    [KB+"KbestExtractor::GetBest, GetBests, MakeLattice, GetOutputs"])
add("The ensemble lists the combinations with most votes",
    "The ensemble lists the k word sequences, every word taken from some candidate at its position, with the greatest product of summed probabilities, best first and each once, with normalised scores.",
    "every list of candidates with the same number of words, every k", "unbounded candidate lists, real-valued scores",
    [KB+"EnsembleFullString::RunEnsemble, GetOutputs, BuildAlignWfst", T+"tools/ensemble-full-string_main.cc"])
add("Every system has the same weight in an ensemble",
    "Candidate files are read as one answer per input; the candidates for an input are those of the answers of all systems, each system normalised to total probability 1; files with different numbers of answers are an error.",
    "every number of files of any length", "any number of systems, any scores",
    [KB+"ReadInputs, ReadInputsToEnsemble, NormAndPairList, VerifyCombineEnsembleInputs"])
add("The word piece transducer maps words to their pieces",
    "The transducer of GetWordpieceTransducer accepts exactly the sequences of the given words and maps each to the labels of the pieces GetWordpieces makes of its words, in order; pieces without label have the label of the unknown piece, and it is an error if that has none.",
    "every vocabulary, every word list without the label 0, every path through the transducer", "cyclic automaton: sequences of any length",
    [T+"fst/wordpiece-segmenter.cc: GetWordpieceTransducer"])

NTR = "nisaba/scripts/natural_translit/"
add("The graphemes of an ISO text are determined",
    "iso_to_typ_rules maps every text written with the characters of the Brahmic inventory to exactly one sequence of graphemes of the inventory, texts that differ by more than the sign for independent vowels in front of them to different ones, and no other text; the byte and utf8 grammars agree.",
    "every text, both token types", "texts of any length; the rules of the grammar overlap",
    [NTR+"brahmic/grapheme_inventory.py: iso_to_typ_rules", NTR+"script/char.py: read_glyph, compose_from_gr"])
add("Every ISO text has one pronunciation",
    "The grapheme to phoneme rules of every language map every ISO text to exactly one sequence of alignments, and the graphemes on its left sides are those of the text.",
    "every language of language_params, every ISO text", "cascades of rewrites with overlapping rules over all texts; a rewrite may be ambiguous for rare combinations",
    [NTR+"brahmic/g2p.py: iso_to_txn", NTR+"language_params/*.py: _TXN_OPS", NTR+"utils/rewrite_functions.py"])
add("Every ISO text has one romanization of every kind",
    "iso_to_psaf, iso_to_psac and iso_to_nat map every ISO text to exactly one string, of lowercase ASCII letters; iso_to_ipa to exactly one string; other texts have no output; byte and utf8 grammars of the romanizations agree.",
    "every language of language_params, every ISO text, both token types", "all texts; a symbol that one rule leaves behind in one combination makes the output empty",
    [NTR+"language_params/*.py: iso_to_psaf, iso_to_psac, iso_to_nat, iso_to_ipa", NTR+"brahmic/romanizer.py", NTR+"brahmic/g2p.py", NTR+"utils/rewrite_functions.py"])
add("Transcriptions and romanizations print the right sides",
    "txn_to_ipa maps a sequence of alignments exactly to the IPA symbols of the phonemes on its right sides, in order, and print_only_ltn to the letters of its translits; no sequence of phonemes has two transcriptions; iso_to_ipa prints the phonemes of the pronunciation of the text.",
    "every sequence of symbols; every language, every ISO text", "sequences of any length; names of symbols are prefixes of one another",
    [NTR+"phonology/transcriptor.py: txn_to_ipa", NTR+"phonology/phon.py: ls_translit_ipa", NTR+"latin/ltn_inventory.py: print_only_ltn", NTR+"utils/rewrite_functions.py: EXTRACT_RIGHT_SIDE"])

BRM = "nisaba/scripts/brahmic/"
add("ISO texts have one conversion to a script",
    "An ISO 15919 text that TO_<script> accepts, whether or not FROM_<script> writes it, has exactly one lowest-weight conversion, every path with another result costs more, and all results are in NFC and over the alphabet of the script.",
    "every Brahmic script, every text", "weighted closure with overlapping units over texts of any length; ties are rare",
    [BRM+"iso.py: TO_<script>, _brahmic_to_iso, iso_to_brahmic", BRM+"data/<script>/*.textproto"])
add("Keys of the fixed rule romanization are unambiguous",
    "Every text of ASCII input characters has exactly one ISO text by the fixed rules and no other text has one; if it can be converted to the script, the lowest-weight conversion is unique and is that of the ISO text.",
    "every text of keys", "a cascade of 81 rewrites over texts of any length",
    [BRM+"fixed.py: _fixed_rule_fst, _ascii_acceptor, generator_main", BRM+"data/Mlym/fixed.textproto"])
add("The separator of the fixed rule romanization separates",
    "Keys on both sides of ~ are turned into ISO independently of each other, and ~ is not in the result.",
    "every pair of texts of keys", "81 rewrites, any of which could see past the separator",
    [BRM+"fixed.py", BRM+"data/Mlym/fixed.textproto"])
add("Words typed in the fixed rule romanization come out as typed",
    "Words made of vowels, consonants, conjuncts and final letters in the keys of the Mozhi scheme are converted to exactly the letters the scheme gives for their parts.",
    "every word of any length over 1085 parts", "interactions of 81 rewrites across parts and of the weighted conversion; words of any length",
    [BRM+"fixed.py", BRM+"iso.py", BRM+"data/Mlym/fixed.textproto", BRM+"data/Mlym/*.textproto"])
add("Every letter can be typed",
    "For every letter and sign of Malayalam that TO_MLYM can write, some keys of the fixed rule romanization are converted to a text with it.",
    "every letter of the tables; every text of keys for the negative part", "that no keys give a letter is a statement about all texts",
    [BRM+"fixed.py", BRM+"data/Mlym/fixed.textproto", BRM+"data/Mlym/*.textproto"])

add("The archives the API loads agree with the UTF-8 grammars",
    "The byte-mode grammars of conversion to and from ISO 15919, of the fixed rule romanization, of reading normalization, and of NFC, visual normalization and romanization of the abjads turn the UTF-8 bytes of a text into the bytes of exactly the results of the UTF-8 grammars, with the same weights and so with the same cheapest results; no byte string that is not text is produced.",
    "every script and language, every text of Unicode scalar values other than NUL", "the two builds of each grammar must agree on all strings, weights and ties",
    ["nisaba/scripts/brahmic/iso.py: generator_main", "nisaba/scripts/brahmic/fixed.py: generator_main", "nisaba/scripts/brahmic/reading_norm.py: generator_main", "nisaba/scripts/abjad_alphabet/visual_norm.py: generator_main", "nisaba/scripts/abjad_alphabet/reversible_roman.py: generator_main"])

PF = "nisaba/port/file.cc: "
add("Files are read whole",
    "File::ReadToString delivers the first max_length bytes of the file, or all of them if there are fewer, returns their number, and leaves the rest to be read; what WriteString wrote is read back.",
    "every file content, every max_length of the parameter type", "sizes around the block size and the limits of the integer types",
    [PF+"File::ReadToString, File::WriteString"])
add("Lines are read back one by one",
    "Lines of at most max_length bytes that WriteLine wrote are returned by ReadLine one by one, and no byte of a file is lost or read twice.",
    "every list of lines, every maximum", "all lengths up to the limit",
    [PF+"File::ReadLine, File::WriteLine", "nisaba/port/file.h"])
EM = "nisaba/translit/tools/"
add("The earth mover's error rate is the least expected error rate",
    "For every line the edits reported by calculate_emd_cer are the least expected number of edits over all joint distributions of hypothesis and reference with the given probabilities, the reference length is the expected length of a reference whatever flow the solver chooses, with one hypothesis and one reference they are those of the pair, and the totals are sums over the lines.",
    "all probabilities, edits and lengths, every least-cost flow", "the solver may return any of infinitely many flows",
    [EM+"emd_cer.py: emd_error_and_length", EM+"calculate_emd_cer.py: main", EM+"calculate_error_rate.cc: WritePairwiseEdits, GetDistances, GetLengths"])
add("Reference lengths are counted in the unit of the edits",
    "The length of a reference in the lines for the earth mover's distance is the number of its tokens, the same tokens the edits are counted in.",
    "every list of references, both modes", "all texts and kinds of white space",
    [EM+"calculate_error_rate.cc: GetLengths, MaybeSplitChars, WritePairwiseEdits"])
add("Candidates survive the JSON lines",
    "The JSON parser reads back the candidates of a line as they were, in order.",
    "every list of candidates", "all characters of the candidates",
    [EM+"calculate_error_rate.cc: WriteCands, WritePairwiseEdits", EM+"calculate_emd_cer.py: main"])
NTU = "nisaba/scripts/natural_translit/utils/"
add("Iterables hold the outermost valid items",
    "The items of an IterableThing are, in order, the outermost valid objects in all arguments ever added, to any depth of nesting; adding in one or several calls is the same; an untyped iterable never holds Nothing or its own class and its copies are equal; item() agrees with list indexing and gives the default outside of the range.",
    "every nesting of arguments, every sequence of calls, every index", "nestings of any depth and shape",
    [NTU+"type_op.py: IterableThing"])
add("Lists of transducers flatten, join and compose",
    "An FstList holds the transducers and the acceptors of the strings in its arguments from left to right; union, concat, union_star and compose of it denote the union, the piecewise concatenation, its closure and the cascade of the members, nothing for union and compose of the empty list and the empty text for its concatenation.",
    "every nesting of arguments, every text", "lists of any length, texts of any length",
    [NTU+"fst_list.py: FstList", "nisaba/scripts/utils/rewrite.py: ComposeFsts"])

DR = "nisaba/scripts/natural_translit/"
DRA = [DR+"brahmic/deromanizer.py: Deromanizer", DR+"brahmic/derom_inventory.py: DeromMapping, make_inventory", DR+"language_params/hi.py: deromanize", DR+"language_params/ta.py: deromanize"]
add("Deromanization is total and unambiguous on lowercase words",
    "Hindi and Tamil deromanize: every word of lowercase ASCII letters has exactly one ISO text from to_iso() and exactly one native text from to_brahmic(), any other text has none, and the byte grammars give the UTF-8 bytes of the same texts.",
    "every text, both languages, both modes", "all sequences of letters, with all overlaps of the rules",
    DRA)
add("Deromanized texts are orthographically sound",
    "In the native text each vowel sign and each virama stands directly after a consonant letter (or its nukta), each nukta after a consonant letter, each anusvara after a consonant, nukta, vowel sign or vowel letter.",
    "every lowercase word, both languages, every place of the output", "all sequences of letters, also those that are no words",
    DRA + [DR+"brahmic/grapheme_inventory.py: TO_BRAHMIC"])
add("only_geminated keeps single clusters",
    "With only_geminated a cluster is rewritten only if it is doubled: Tamil trtr and ttr give two letters rra and a single tr gives none.",
    "every lowercase word", "all contexts of tr",
    [DR+"brahmic/deromanizer.py: Deromanizer.params, _set_consonant_rules", DR+"language_params/ta.py: deromanize"])
add("Nasals of Hindi are written with an anusvara",
    "The number of anusvaras of a Hindi deromanization, native or ISO, is the number of places of the word with a vowel followed by m before b or p, or by n at the end or before a consonant other than n and m.",
    "every lowercase word", "all words",
    [DR+"brahmic/deromanizer.py: _rw_nasal_labial, _rw_ans_n, _set_anusvara", DR+"language_params/hi.py: deromanize"])
add("The two outputs of the deromanizer agree",
    "The native text of to_brahmic() is in NFC, the ISO text of to_iso() for the same word is exactly what brahmic.iso FROM_<script> gives for the native text, and TO_<script> of the ISO text gives the native text back.",
    "every lowercase word, Hindi with Devanagari and Tamil, every lowest-weight path", "the agreement of two independently written tables and rule systems on all words",
    DRA + ["nisaba/scripts/brahmic/iso.py: _script_fsts"])

ESP = [DR+"brahmic/en_spellout.py: speller, _separated, _get_spellout", DR+"deromanization/en_spellout.py: generator_main"]
add("Letters are spelled out one by one",
    "For every language and script and both token types, speller() gives a result exactly for the texts of ASCII letters, and only one: the table spellings of the letters, with single spaces between them in the Arabic script, without a final zero width non-joiner in Kannada, Malayalam and Telugu; case does not matter; without a table column the word is lowercased.",
    "every text, all 143 combinations of language and script, both modes", "words of any length",
    ESP)
add("Spelled out words can be read back",
    "The text spelled out by an exported speller determines the word up to case, as acronyms in the native script are meant to be told apart.",
    "every pair of words, 13 languages, both modes", "unique decodability of the spellings: pairs of words of any length",
    ESP)
add("Spelled out words are valid Brahmic text",
    "The text spelled out by an exported Brahmic speller is well formed for brahmic.wellformed, is left unchanged by NFC, and conversion to ISO and back gives it again.",
    "every word, 11 languages", "agreement of independently written tables, words of any length",
    ESP + ["nisaba/scripts/brahmic/wellformed.py: accept_well_formed", "nisaba/scripts/brahmic/iso.py: _script_fsts"])

add("Acronyms of Hindi are written in upper case",
    "iso_to_nat of Hindi: a text whose graphemes are a sequence of names of English letters gives exactly these letters in upper case; every other text gives what the grammar without the rule of acronyms gives, one lowercase word.",
    "every ISO text, both modes, every sequence of letters", "sequences of any length, all ways to split a text into names, all other texts",
    [DR+"brahmic/acronym.py: _letter, HI_ACRONYM_SET, HI_ACR_TYP_TO_TR", DR+"language_params/hi.py: iso_to_nat"])

NTR = "nisaba/scripts/natural_translit/"
add("Phonemes have unique indices",
    "After any calls of add_phonemes on inventories of different languages: index_lookup of an inventory gives its k-th phoneme exactly for 3000000 + 100 times the language index + k; the index a phoneme carries is that of its place; inventories of different languages share no index, and no phoneme shares one with a grapheme.",
    "every sequence of calls, every set of phonemes and languages", "sequences of calls over several inventories, inventories of any size",
    [NTR+"phonology/phonological_symbol.py: Phon.Inventory._add_phoneme, add_phonemes", NTR+"utils/symbol.py: Symbol.Inventory._add_symbol, _add_to_dicts, index_lookup", NTR+"phonology/features/language.py: _features"])

add("Feature pairs are symmetric",
    "After any sequence of feature_pair calls, x.feature_pair(y, f, t) makes x.f = x, x.t = y, y.t = y, y.f = x (CTRL.nos for a control symbol), sets the attributes named after the aspects and adds the features if asked, and changes no other attribute or symbol; control symbols never change; if the pairs of a feature share no symbols then x.t.f is x for all of them at the end.",
    "every sequence of calls, any symbols and features", "histories of calls on shared mutable symbols, any names of features",
    [NTR+"utils/symbol.py: Symbol.feature_pair, set_attribute, add_features", NTR+"utils/symbol.py: _control_symbols"])
add("Importing pairs copies pairs",
    "import_as_feature_pairs into an inventory that has none of the aliases adds one new grapheme for each member of a pair, reachable by the alias of the original; the copies are paired with each other, the originals and all other symbols stay as they were, and the two lists of the copies are reachable by the aliases of the features.",
    "every inventory reachable by such calls, every list of pairs", "aliasing between originals and copies, inventories of any size",
    [NTR+"script/grapheme.py: Grapheme.Inventory.import_as_feature_pairs, import_graphemes, add_graphemes, Grapheme.copy", NTR+"utils/inventory.py: Inventory.make_iterable_suppl, add_item"])

add("Composed and derived phonemes consist of their parts",
    "compose joins aliases, transcriptions, IPA, features, ph and base translits of all components in order and is flat: composing composites gives what composing their parts gives. derive_with_suffix keeps all translits and adds one (the base translit by default). import_phon copies a phoneme and composites made of the copy use its features and translits. The phonemes of the inventory have distinct aliases, and a sequence of them can be read back from its transcription and its IPA.",
    "every heap of phonemes, every nesting of compositions, every sequence of phonemes of the inventory", "nesting of any depth, sharing of components between objects, sequences of any length",
    [NTR+"phonology/modify_phon.py: compose, derive_with_suffix, devoiced, nonpulmonic", NTR+"phonology/phon.py: Phon, import_phon, new_tr, translit_by_key", NTR+"phonology/phoneme_inventory.py: PHONEMES, PHON_INVENTORY"])

add("The k-best extractor reads what the decoder writes",
    "RunPairLMDecoder writes a file from which KbestExtractor gets, for every line that is no comment and has words, in order: its index, its words joined by single spaces, and for every word the candidates with their weights as printed. A candidate that cannot be a field of its own (empty, or with a tab) must not pass unnoticed.",
    "every input file, any candidates and symbol tables", "agreement of the writer in one library with the parser in another, texts, words and candidates of any number and spelling",
    ["nisaba/translit/fst/pairlm_decoder.cc: BuildTransliterationFst, PrintTransliterations", "nisaba/translit/fst/pairlm_decoder_runner.cc: Transliterate, SequentialDecoding", "nisaba/translit/tools/kbest-full-string-util.cc: KbestExtractor::InitializeKbestExtractor", "nisaba/port/file_util.cc: ReadLines"])

add("Tools read the candidates that tools write",
    "The file written by KbestExtractor, EnsembleFiles or KbestRejoiner, read by EnsembleFiles (ReadInputs) or KbestRejoiner, gives the candidates of every text, in order, text by text, with the scores as printed.",
    "every number of results, every option of the extractor, any texts and candidates", "agreement of three writers with two parsers, files of any length",
    ["nisaba/translit/tools/kbest-full-string-util.cc: RunExtractorAndOutput, RunEnsembleAndOutput, RunRejoinerAndOutput", "nisaba/translit/tools/kbest-full-string-util.cc: ReadInputs, InitializeKbestRejoiner", "nisaba/port/file_util.cc: ReadLines"])

add("The rewrite tester prints the outputs of the rules",
    "RewriteTester starts exactly if the archive has every name in --rules. ProcessInput prints the outputs of least cost of the rules applied in order: one with --noutput=1, else that many distinct ones with their costs, each so that it can be read again in the same mode; it reports a failure exactly if there is no output, and the details change nothing else.",
    "every archive, every list of rules, every input, every mode, any number of outputs", "compositions of arbitrary transducers; ties and order of paths; injectivity of the printed text",
    ["nisaba/interim/grm2/thrax/rewrite-tester.cc: Initialize, ProcessInput, FstToStrings, AppendLabel, Run", "nisaba/interim/grm2/thrax/abstract-grm-manager.h: Rewrite, LoadArchive"])

add("The features of a universal phoneme are those its name says",
    "The phoneme inventory of x_uni gives each phoneme, in every aspect, exactly the values of the last loop that names it, and else those of its class. Every word of its descriptive name (close, front, rounded, voiced, bilabial, trill, ...) holds of its features, and what the name does not say is not there. No two phonemes share an alias, a symbol or a name; phonemes of the same class (vowel or consonant) are always more similar than phonemes of different classes, and sync_atomics gives the atomics the same features.",
    "every table of phonemes and updates; every phoneme and every pair of phonemes of x_uni", "10000 pairs; the tests look at one phoneme; the order of the loops decides what is kept",
    [NTR + "phonology/inventories/x_uni.py: _phoneme_inventory", NTR + "utils/feature.py: Profile.__init__, Profile.update, Profile.similarity", NTR + "phonology/phonological_symbol.py: Phon, DescriptiveInventory.sync_atomics", NTR + "phonology/features/descriptive.py"])

add("A letter of English has the features of its sounds",
    "A grapheme that takes its features from phonemes has exactly the union of their features and similarity 1 with each of them. In the English inventory every letter, in both cases, has exactly the features of the sounds that the comments of en.py list for it; the lists letter, vowel, consonant, lower, upper of the Latin and the English inventories agree with the features, and both cases of a letter have the same descriptive features.",
    "every profile, every list of symbols; every letter of the two inventories", "tests compare a few letters with one phoneme each",
    [NTR + "script/inventories/latn.py: _build_inventory", NTR + "language_params/en.py: _latn_inventory", NTR + "phonology/phonological_symbol.py: update_descriptives_from_symbol"])

add("Rules of alignment keep what they are given",
    "Alignment.rule, deletion, insertion and interchangeable make alignments with exactly the sides, contexts, operation, priority and cost given; a rule applies exactly where its contexts match, and everywhere if it has none. interchangeable gives two rules that differ only in the exchanged sides and the alias. A copy of any alignment is equal to it in every attribute, and tsv_row has one field for each of alias, sides, operation and cost.",
    "every expression, every context, every operation, every chain of constructor and copy calls", "expressions and contexts are unbounded trees that are rebuilt when copied",
    [NTR + "utils/expression.py: Alignment.__init__, simple, rule, deletion, insertion, interchangeable, copy, context_matches, tsv_row, _constants", NTR + "utils/type_op.py: type_check"])

add("A table made from Unicode names has one row for each item",
    "unicode_strings_to_tsv writes exactly one row for each item, in order, with the strings that the item stands for; it fails exactly if an item cannot be converted, names the first such item, and leaves the rows of the items before it. _fill_missing_raw gives every item the strings it stands for, keeps names and languages, does nothing the second time and does not change the table.",
    "every Unicode database, every message with any number of items", "messages are unbounded; errors depend on the position of the item",
    ["nisaba/scripts/utils/unicode_strings_to_tsv.py: _convert_data_proto_to_file", "nisaba/scripts/utils/unicode_strings_util.py: _fill_missing_raw", "nisaba/scripts/utils/letter_languages.py: _fill_missing_raw"])

add("Composition with a language model scores as the backoff model",
    "After MakePhiMatcherLM, composing a non-empty sequence of words with the language model gives exactly the costs that the backoff model defines: a word takes the arc of its state if there is one and otherwise pays the backoff cost and is looked up there, and the end is paid at the first state on the backoff way that is final. A sequence has at most one cost. MakePhiMatcherLM ends whenever backing off ends.",
    "every backoff model, every sequence of words", "models have any number of states and orders; the backoff ways are unbounded",
    ["nisaba/translit/fst/pairlm_decoder.cc: GetBackoff, GetStateFinalCost, MakePhiMatcherLM, PairLMDecoder::ComposeLatticeWithLM"])

add("Candidates become the symbols of the language model",
    "Each candidate of a word is read by the candidate transducer and written as the symbols of the language model: the word itself, the pieces that the word piece model gives, or the greedy cut into longest symbols with the prefix for pieces inside words. What is not a symbol becomes the symbol for unknown words and costs oov_cost each. The transducer relates exactly the sequences of candidates to the sequences of their symbols, and a candidate is added once however often it is found.",
    "every symbol table, every prefix, every sequence of calls with any candidates", "the trie, the cuts and the sequence of calls are unbounded",
    ["nisaba/translit/fst/pairlm_decoder.cc: WordToFst, GetMatchedTokens, PairLMDecoder::InitializeWordPieceTrie, ParseCandWordPiece, SegmentCandWordPiece, AddToCandsToLMFst, AddCandSymArc"])

add("With a language model the costs of candidates are posteriors",
    "With a language model, TransliterateString gives each word its candidates with their posterior probabilities as costs: the share of the weight of all choices of candidates for the line (at word level: for the word) that have this candidate there. They add up to 1 for each word, and the k_best greatest are kept.",
    "every line with any number of words and candidates, every language model, all weights", "the choices are a product over all words; sums over all paths cannot be sampled",
    ["nisaba/translit/fst/pairlm_decoder.cc: RemoveContext, PairLMDecoder::BuildTransliterationFst, ComposeLatticeWithLM, CollectUniqueArcCosts, AssignLabelsAndCostsToTranslitLattice, TransliterateString", "nisaba/translit/fst/pairlm_decoder_options.proto: min_cand_posterior, apply_lm_at_word_level"])

add("Transliterations of a word are those of the pair strings that spell it",
    "With a pair language model, a word has a transliteration y at cost c exactly if a string of pair symbols N;M that the model accepts at cost c has the word as its input sides and y as its output sides, where 0 stands for nothing. Symbols that are no pairs are ignored, and a pair that is not numeric ends the program at the start. invert_pairlm gives the converse relation at the same costs. The covered characters are the positive input sides, and a word with any other character has no transliteration.",
    "every table of pair symbols, every pair language model, every word", "pairs with 0 insert and delete without bound; tables and models are arbitrary",
    ["nisaba/translit/fst/pairlm_decoder.cc: BuildUnicodeToPairTransducer, PairLMDecoder::InitializeTranslitModel, InitializeInputCharacterSet, GetWordTransliterations"])

add("The word-piece file gives the first words of its lines and the text output tells the words",
    "A word-piece segmenter initialised from a file is the one initialised with the first words of the lines of the file in their order: what follows on a line, white space before the word and lines without a word have no effect on pieces or ranks. The text output of TokenizeInput, cut at the spaces, is the list of pieces, none empty; without its spaces it is the words of the input, each after the prefix; so it determines the words, whatever the vocabulary, if no word contains the first character of the prefix. Invalid UTF-8 in the file or the text throws.",
    "every file of lines, every vocabulary, every prefix without a space, every text", "files, vocabularies and texts are unbounded; merges of pieces depend on the vocabulary",
    ["nisaba/translit/fst/wordpiece-segmenter.cc: WordpieceSegmenter::InitWordpieces, TokenizeInput"])

add("A thing is compared by its value",
    "The value of a new Thing is the object it is made from, or the named attribute of it if it has one, and the Thing itself if it is made from nothing. is_equal compares two objects by their values: it is symmetric, reflexive except for objects whose value is a Nothing, which equal nothing, and transitive; things with string values compare as the strings, string Fsts as the strings they spell, things that are their own values by identity.",
    "every pair of objects, every thing", "objects, attributes and Fsts are arbitrary; equality laws range over triples of objects",
    ["nisaba/scripts/natural_translit/utils/type_op.py: Thing.__init__, value_of, is_string, is_equal"])

add("What is written to a file is read back, as text and as a message",
    "Text written with WriteTextFile or WriteTempTextFile is read back unchanged under the given or returned name and no other file changes; a name that cannot be opened and a missing file are errors. GetTextProto reads back a message written in text form or in binary form; contents that are neither, and other flags than the default, are errors.",
    "every text, every file name, every message, every pair of parsers", "texts and messages are unbounded, and the same bytes may have a meaning in both forms",
    ["nisaba/port/file_util.cc: WriteTextFile, WriteTempTextFile, ReadTextFile, ReadBinaryFile", "nisaba/port/file.cc: ReadFileToProto, GetTextProto"])

add("Languages keep their place and are all equally far apart",
    "Language.from_iso with a two- or three-letter code, in capitals or not, gives the code in lower case, the name of the language and its place in the table of languages; other lengths are a ValueError and unknown codes an AttributeError. Both codes of a language give the same index and text, codes of two languages different indices, and a table of at most 8000 languages leaves the indices of x_uni and x_psa free. Any two different languages of the inventory are at distance 1, in one family or not.",
    "every table of languages without repeated codes, every code, every aspect of equidistant lists", "the table belongs to another package and changes; trees of lists are nested without bound",
    ["nisaba/scripts/natural_translit/phonology/features/language.py: Language.from_iso, _features"])

add("The best rewrites are the cheapest ones, each once with its least cost",
    "TopRewrites with a number gives distinct strings, at most that many and as many as the rules allow, each with the least of its costs, and no string left out is cheaper than one given; Rewrites gives all outputs, TopRewrites those of least cost, TopRewrite one of them, OneTopRewrite a string exactly if it is the only one. The rewrite manager and a cascade of one rule give the same. Nothing is given without a rewrite. SetFst replaces a transducer that there is and no other. Debug strings are the outputs with generated symbols in brackets.",
    "every set of rules over any ordered weights, every number, every input string", "a few rules with a few weights are tried; ties, numbers that are not positive and empty lattices are easily missed",
    ["nisaba/interim/grm2/rewrite/rewrite.h: TopRewrites, LatticeToShortest, LatticeToStrings", "nisaba/interim/grm2/rewrite/rewrite_manager.h: RewriteManager", "nisaba/interim/grm2/rewrite/base_rule_cascade.h: TopRewrites, LabelsToDebugString, PrintDebugSymbol"])

add("The printed forms of expressions and alignments tell what they are",
    "If no text of a symbol has a delimiter and no two symbols have one text, two expressions built with the library are printed alike only if they have the same structure (eps and the empty Cat, nor and the empty Or are printed alike). The printed form of an alignment tells both sides, and string() tells in addition the contexts that are not any, their marks for the beginning and the end, and the operation.",
    "every expression built by Atomic, Cat, Or, add and copies, of any depth; every rule", "tests compare a few printed forms with literals; that no two structures share a form needs all pairs",
    ["nisaba/scripts/natural_translit/utils/expression.py: Expression.__str__, _str_enclosed, Cat.__str__, Or.__str__", "nisaba/scripts/natural_translit/utils/expression.py: _side_str, enclosed_str, _context_str, Alignment.string"])

add("The sets of an aspect have the features they are made of",
    "In an aspect with well-named values and after any calls of set, set_not and set_range: all has exactly the features of the value list, never any or n_a; set keeps of the features given those of the aspect; set_not has the features of the aspect that are not given, so that both divide the aspect; set_range has the features from the first to the last place of a list, going round its end. No call changes a set there is or a distance, a taken alias changes nothing. non_generic leaves out any and n_a only; is_equal is equality of members.",
    "every tree of value lists with distinct aliases, every sequence of calls, all arguments", "tests define a few sets once; interference of later calls and of taken aliases needs all sequences",
    ["nisaba/scripts/natural_translit/utils/feature.py: Aspect.filter, _make_set, set, set_not, set_range, populate", "nisaba/scripts/natural_translit/utils/feature.py: Set.non_generic, Set.is_equal"])

add("The symbol tables for bytes and UTF-8 have every character and what was added to them",
    "After any calls of GetByteSymbolTable, GetUtf8SymbolTable, AddToByteSymbolTable and AddToUtf8SymbolTable: the byte table has every byte and the UTF-8 table every code point below 65536, under the character itself or, if it is not visible, under its hexadecimal number, both ways; a symbol keeps its label; the tables hold nothing but this and what was added, and do not touch each other. A symbol that is added is in the table that is got afterwards.",
    "every sequence of calls, all symbols and labels", "whether an addition is seen depends on an earlier call of Get, anywhere in the process; tests make one order of calls",
    ["nisaba/interim/grm2/thrax/walker/util/function/symbols.cc: SymbolTableBuilder"])

add("An instance of a symbol stands for that symbol",
    "However symbols, Atomics and instances are made from each other and changed: the attribute symbol of any of them is a symbol that is no Atomic and has the same alias, text, raw, index and name; get_instance and copy give an Atomic of the same symbol that is a control, eps or nor exactly if the argument is; nothing later changes the symbol of an object, and a change of features is seen in no other object. The instance of a control symbol or of a control Atomic is the one constant of that symbol, any other instance is new.",
    "every sequence of makings and changes of symbols", "chains of Atomics of Atomics and later changes of features are unbounded; tests make single instances",
    ["nisaba/scripts/natural_translit/utils/expression.py: Atomic", "nisaba/scripts/natural_translit/utils/symbol.py: Symbol"])

add("The description of a symbol inventory lists its symbols",
    "After any additions and parses, description() (and str) of a symbol inventory is the header and one line for each symbol that the inventory has, in the order of the indices, each once; control symbols are listed only on demand. Every symbol that was added is listed. The line of a symbol tells its alias and its index, the line of a grapheme its alias, name and text, and descriptions() tells the line of each symbol.",
    "every sequence of additions, supplements and parses, all symbols", "which symbols the dictionary of indices still holds depends on all earlier additions; tests print fixed inventories",
    ["nisaba/scripts/natural_translit/utils/symbol.py: Symbol.Inventory.description, Symbol.description"])

if __name__ == "__main__":
    out = os.path.join(os.path.dirname(os.path.abspath(__file__)), "..", "properties.jsonl")
    with open(out, "w") as f:
        for p in P:
            f.write(json.dumps(p, ensure_ascii=False) + "\n")
    print(len(P))
