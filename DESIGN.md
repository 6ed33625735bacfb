# Design of the formal model of nisaba

## Trusted base

* Lean 4.33.0's kernel.  Every theorem listed in `MANIFEST.json` depends on no
  axioms other than `propext`, `Classical.choice` and `Quot.sound`
  (checked with `#print axioms`; no `sorry`, no `native_decide`, no own axioms).
* The hand translation of `/repo` source text into the Lean definitions of
  `lean/Verif/Model/*` (each definition cites file and lines), and the
  generator `tools/gen_tables.py`, which copies the rule tables of
  `/repo/nisaba/scripts/*/data` (textproto files, combined as the `BUILD.bazel`
  files prescribe) into `lean/Verif/Data/*`.
* The meaning given to third-party primitives (Pynini/OpenFst operations,
  `absl` string functions, `std::mutex`/`condition_variable`, pandas' TSV
  reader, networkx graph).  Those are not modelled from their source: they are
  given their documented meaning (`Model/Pynini.lean` etc.).

## Modelling conventions

* Text is `List Nat` (Unicode code points, or bytes where a property is about
  bytes).
* A (weighted) transducer is its denotation: a relation
  `input → output → weight → Prop` (`WRel`), tropical weights in `Nat`.
  Pynini's union, concat, star, cross, compose, invert, project, insert, delete
  are defined on denotations; the grammar-building Python functions are then
  transcribed operator by operator.
* `pynini.cdrewrite` (obligatory, left to right) is the declarative relation
  `CDRewrite`: scan the input from the left; where a rule with its contexts
  matches at the current position one of the matching rules must be applied,
  otherwise the character is copied; the left context is looked up in the
  output produced so far, the right context in the remaining input.
* Exceptions are values (`Except`/`Option`).
* Properties of the shipped tables are proved for all strings: a generic
  theorem about an arbitrary table with a decidable side condition, and a
  kernel computation (`decide +kernel`) of the side condition on the whole
  table.

## Plan per property

Status (proved / partial) and theorem names are in `MANIFEST.json`; the full English statements are
in `properties.jsonl`.

| id | model (`lean/Verif/Model/…`) | what is proved and how (`lean/Verif/Props/…`) |
|----|-------|-----------|
| C01 | `Rule`: `partition_unordered` as leaf peeling on the digraph | invariant on peeled/remaining nodes; a longest left-hand side shows that leaves exist |
| C02 | same, plus the string semantics of each rule set | leaves depend only on the set of rules |
| C03 | `Pynini`, `Rule`: `CDRewrite` relation and executable `scan` | equivalence of relation and function when the left-hand sides are factor-free |
| C04 | `Pynini`: `ComposeFsts` recursion with an arbitrary size oracle | associativity of weighted relation composition |
| C05 | `Pynini`: `ComposeFn1` fold | induction |
| C06–C09 | `Brahmic`: NFC tables, `fst_from_rules` | generic theorems about a table with a decidable side condition; closed finite sets of machine states checked by the kernel |
| C10–C13 | `Brahmic`: dedup, rewrite, preserve/clean/reinstate | structural lemmas per stage |
| C14 | same | false: negation with a witness per script; `_partial` for ten scripts on text without joiners (closed sets of states of the two-pass machine) |
| C15–C17 | `Wellformed`: transcription of `accept_well_formed` as a regular expression | language algebra; independent inductive grammar; derivative automaton |
| C18 | `Acceptor`: text tokenization and normalizing acceptor, Python and C++ | induction over the segmentation |
| C19–C22 | `Iso`: weighted relation of `brahmic_to_iso` and its inverse | both directions are equivalent to sequential machines; the certificates (residual sets, potentials) are found by an untrusted search inside Lean and *checked* by the kernel |
| C23 | `Abjad`: star of the romanization table | closed set of dangling rests (Sardinas–Patterson) |
| C24–C28 | `Abjad`: tables and per-language cascade | negation witnesses; measure for C25; observers |
| C29 | `UnicodeStrings`: `convert_item` etc. | case analysis; the Unicode database and the order of a set are parameters |
| C30 | `ByteMode`: UTF-8 encoding as a prefix code | synchronisation of byte and character rewriting |
| C31–C32 | `Utf8`, `Delimiters`: byte-level models | arithmetic per length class; induction |
| C33 | `Wordpiece`: greedy pair merging | partition invariant, termination by length |
| C34–C35, C40, C50 | `ErrorRate`, `Fst` | alignments as paths in the edit transducer; minimum over alignments |
| C36–C37, C53–C54 | `Kbest` | functional models of the C++ helpers, induction |
| C38 | `ThreadPool`: small steps with mutex and condition variable | inductive invariant over all interleavings; progress; measure |
| C39, C51 | `FileUtil` | induction |
| C41 | `Inventory` | invariant over all histories of calls; `get` is characterised by the history |
| C42–C43, C56 | `Feature`: aspects as trees of value lists | invariant of `populate`; all aspects of the repository meet the hypotheses |
| C44–C45, C57–C58 | `Expression` | structural induction on expression trees |
| C46 | `Operation` | invariant over histories |
| C47 | `Lattice` | invariant over programs that build and use lattices |
| C48 | `Symbol` | induction over the text, invariant over histories |
| C49 | `Grammar`: loading, fallback, reading normalization | case analysis; invariant over histories |
| C52 | `Softmax` | algebra over the reals |
| C55 | `Abjad` | induction over the segmentation of a line |
| C59–C60 | `ErrorRate`: reading of the input files, tokens | induction over the lines |
| C61 | `PairLM`: initialization, mixture of candidate lists | invariant of one thread, field arithmetic; the configured weight is proved to be ignored |
| C62, C63 | `PairLM.segmentCovered`, `concatBest`, `finalFilter` | uniqueness of maximal runs; prefix of a sorted list |
| C64, C66 | `PairLM.TStep`: critical sections of `TransliterateWord`, any number of threads and lines | invariant over all interleavings, progress, measure; witnesses for races |
| C65 | `PairLM` runner over the thread pool of C38 | on top of `C38_all_executed` |
| C67, C68 | `Paths`: the iterator with its explicit stacks; popping an empty vector is an error | invariant of the depth-first search; refinement to the list of paths |
| C69–C71 | `Grm2`: rule definitions, cascades of both kinds over lattices with costs, loading of archives | refinement to derivations; induction over the cascade |
| C72 | `Grm2.makeParens`, `Grm2.makeAssigns` | induction over the arcs |
| C73 | `Grm2.byteSymbol`, `Grm2.utf8Symbol` | arithmetic per length |
| C74, C77 | the acceptor as a token graph `wfGram`, rules as edits of accepted token sequences (`rulesOk`) | a kernel check per script that every rule keeps every place of the graph, lifted to all texts by induction over the scan |
| C75, C76 | `Reading`, `Abjad.readingNormFst` | C06 machinery; `closed` sets of factors checked in the kernel |
| C78–C82 | `World`: all set, profile and multi-profile objects with their identities; `Arg` the nested arguments; one function per method | invariant `WOk` (objects of a world share no sets, multi-profiles share no profiles) over all histories `Reach`; values of every aspect after every call |
| C83, C86 | `Extract.readerStep`, `Extract.readInputs`, `Extract.combine`: the file readers as folds over lines | invariant of the fold; both directions of acceptance |
| C84, C85 | `Extract.makeLattice`, `NShortest` (any choice among ties), scores in ℝ | paths of the lattice are the picks of one candidate per position; the set of possible results is characterised exactly |
| C87 | `Wordpiece.wordpieceTransducer` | every word is a cycle through the start state; paths are concatenations of cycles |
| C88 | `NtFst`, `NtInventory`: `cdrewrite` as derivations, inventories as generated tables | tokens; kernel checks of the whole inventory lifted to all texts |
| C89, C90 | `NtBrahmic`: one definition per rule of `g2p.py`, `romanizer.py` and per language | invariants of token sequences as automata; every rule is checked to keep its automaton, to be total and unambiguous on it; chains of rules compose |
| C91 | `txnToIpa`, `printOnlyLtn` | both directions over lists of symbols |
| C92 | `toScript` | weighted-path certificate per script, read from the ISO side |
| C93 | `Fixed`: `fixedRuleFst`, `asciiAcceptor`, `fixedFst` | a cascade of single rules is a function; C92 |
| C94 | as C93 | `~` is in no left-hand side but at its end, so no rule looks across it |
| C95 | as C93; the specification is in Props/FixedKeys.lean | per rewrite no left-hand side crosses from one part of a word to the next one, so words are rewritten part by part; the certificate of C92 then reads them part by part |
| C96 | as C93 | invariant of the cascade: which characters can be before U+2E2F and U+0325 |
| C97 | `ByteGrammars`: the ISO, fixed, reading and abjad grammars on byte tables | encoding commutes with union, concatenation, closure and inversion; rewriting as in C30; the encoding is injective |
| C98, C99 | `PortFile`: reading and writing with the integer conversions of C++ | induction on the bytes left; `C98_violated`, `C99_violated`, `C99_nul_violated` |
| C100 | `Emd`: the arrays of a line, dot products; the solver is a parameter assumed to return a least-cost flow | masses outside the blocks are zero, so flows are couplings; sums exchanged |
| C101, C102 | `Emd`: lengths; writer of candidates and reader of JSON strings | decision of the reader character by character; witnesses |
| C103 | `IterableThing`: objects as trees | simultaneous induction on objects and lists |
| C104 | `IterableThing`: lists of relations | induction on the list |
| C105 | `Derom`: mappings, groups, rules, grammars of hi and ta | each rule is a function on sequences of symbols (`Rw.rel_iff`), for rule lists whose left sides do not overlap, which the kernel checks for all rules |
| C106 | as C105 | invariant of neighbours kept by each rule; letters of each symbol checked |
| C107 | as C105 | pairs of letters are neither made nor lost; `C107_violated` |
| C108 | as C105 | first two rules in closed form, the others keep the number of anusvaras |
| C109 | C105's grammars and C19's ISO grammars of Deva and Taml | invariant: no vowel after a virama or anusvara; closed form of `typ2iso`; simulation of the token transducer by the checked ISO certificate over all (class, row, pending) states; NFC left sides do not occur |
| C110 | `brahmic/en_spellout.py` with its whole table; `_separated` is `cdrewrite` over the alphabet of the spellings, both token types | relation of the closure; final deletion as a function; self-synchronisation of UTF-8 in byte mode |
| C111 | as C110 | Sardinas–Patterson: closed finite set of dangling suffixes checked by the kernel, induction over pairs of words; negations for Sindhi and Tamil |
| C112 | as C110, with `wellformed.py`, `nfc.py` and `iso.py` of 10 scripts | spellings well formed and closure (C15); gluing of `consonant virama ZWNJ` to a following syllable; no pair (ZWNJ, vowel) in the language; NFC left sides do not occur; C21 |
| C113 | `Acronym`: `acronym.py` and `iso_to_nat` of Hindi | Sardinas-Patterson on the grapheme strings of the names; the rule reads all letters or none; all later rules keep translits of capitals |
| C114 | `PhonIndex`: phonemes and inventories as mutable objects, `_add_phoneme`, `index_lookup` | invariant over all histories: the dictionary of indices is the enumeration of the items; names of phonemes and supplements that hide a method are excluded |
| C115 | `FeaturePair`: symbols as mutable objects with attributes, `feature_pair`, `set_attribute`, control symbols | the exact effect of one call as a case distinction over symbol and name; invariant over histories that no needed method is hidden; induction over histories for matchings |
| C116 | `FeaturePair`: `import_as_feature_pairs`, `import_graphemes`, `add_graphemes`, on the inventories of `Inventory` | induction over the pairs with the state after each pair in closed form; `C116_english` is the case of the 26 letters |
| C117 | `ModPhon`: `phon.py` and `modify_phon.py` over a heap of phonemes; the inventory of `NtInventory` | closed form of the loop of `compose`; components do not change when the heap grows; braces make transcriptions a prefix code, composites are told apart by `{+}` |
| C118 | `LatticeText`: building and printing the sausage lattice, the runner, `ReadLines`, splitting at tabs, `std::stoi`, the reader of `Extract`; how weights are written and read is a parameter | the lattice is a chain of layers; the walk prints them; fields without tabs split back; reduced to C51 and C83 |
| C119 | `CandText`: the three writers and the parsing of their files, over `Extract.readInputs` and `Kbest.initRejoiner` | all writers write tables of label, candidate, score; a table is read row by row; the rejoiner is reduced to C54 |
| C120 | `RewriteTester`: start, reading of inputs, the loop over rules with details, printing of paths, over `Grm2`; the choice of shortest paths is any that meets OpenFst's documentation (`SoundFinder`) | the loop is the cascade of C71; lines are read back; case analysis of the outcome |
| C121 | the 100 universal phonemes: tables and loops of x_uni.py (read by `tools/gen_phoninv.py`), `Profile` with `update`, `add_features` and `similarity`, `sync_atomics`; not indices nor the expressions of atomics | induction over the loops for all tables; the inventory is computed once by the kernel, words of names and all pairs are then checked on it |
| C122 | Latin graphemes (latn.py) and the English inventory (en.py): profiles, cases, lists, `update_descriptives_from_symbol` | union and similarity for all profiles by induction over aspects; letters by computing both inventories |
| C123 | the class `Alignment`: constructors, contexts, `copy`, constants, `tsv_row`; floats and operations are arbitrary types; `string` is not modelled | normal forms of C44 make copies equal; case analysis of the contexts |
| C124 | `unicode_strings_to_tsv.py`, both `_fill_missing_raw`, over the model of C29; the Unicode database is arbitrary | induction over the items; lines and fields are read back |
| C125 | `MakePhiMatcherLM` with its helpers, state by state, and the rule of OpenFst's `PhiMatcher` in composition; costs in any commutative monoid; the costs of the start state are left as OpenFst has them | rank of the backoff order; invariant of the loop over states; refinement to an inductive definition of backoff scores |
| C126 | trie of word pieces as sets of suffixes, greedy cut, segmentation, the candidate transducer with its labels and states; the word piece model itself is a parameter (C93) | the greedy cut refines an inductive specification; invariant over all calls that relates paths to sequences of candidates |
| C127 | lattice with unique indices, composition as products of weights, counting, final filter of C63 at both levels; the score of the language model is a parameter; costs are numbers of any ordered field, so rounding and ties in `ArcSort` are not modelled | sums over all choices; each path has an index at most once; reduction to C63 |
| C128 | `BuildUnicodeToPairTransducer` on the text of symbols, with `StrSplit` and `SimpleAtoi`, the covered characters, and `GetWordTransliterations` before pruning; composition is composition of relations | induction over the ways of one-state transducers; decimals are read back; labels are unique |
| C129 | `InitWordpieces` on the contents of a file and `TokenizeInput`, on bytes | the split of UTF-8 text is the split of its characters; word by word from C33; words are read off between prefixes |
| C130 | `Thing.__init__`, `value_of`, `is_string`, `is_equal` on strings, Fsts, things, `Nothing`s and other objects; `==` of other objects, attributes and `pyn.equal` are parameters | case analysis over the kinds of objects; Fsts break transitivity |
| C131 | `WriteTextFile`, `WriteTempTextFile`, `ReadFile`, `ReadFileToProto`, `GetTextProto`; the parsers of messages are parameters, errors of the device are left out | direct; the failures for empty files and for binary forms that are comments are proved |
| C132 | `Language.from_iso` over any table of languages; the tree of language families as data | search of the table by induction; the distance of two features is the step of the list where they part (C42) |
| C133 | `Grm2Best`: determinization and shortest paths by their documented meaning, the functions of the rewrite manager and of cascades with weights, `SetFst`, debug strings | refinement to derivations (C70); sorting by insertion gives the best ones |
| C134 | `ExprStr`: `str` of expressions, the forms of alignments, with the texts of symbols as a parameter | unique readability by induction on expressions in normal form (C44); the marks by the first and last letters |
| C135 | `AspectSets`: `set`, `set_not`, `set_range`, `all`, `non_generic`, `is_equal` on the aspects of `Feature` | invariant over all sequences of calls after `populate`; ranges by C43 |
| C136 | `SymTab`: the builder of symbols.cc with the two tables that are made at the first request | invariant over all sequences of calls; the texts of the labels are C73; the loss of early additions is proved as a violation |
| C137 | `AtomicId`: symbols and atomics as objects in a store, `get_instance`, `is_control`, `symbols` | invariant over all sequences of acts; refinement to the values of `Expression` |
| C138 | `SymDoc`: `description` of an inventory over the state of C48, the lines of single symbols | invariant of the dictionary of indices over all sequences of calls; the list is given by its order and members; the lost symbols are proved as violations |

## What the models leave out

* Python/C++ floating point: error rates, feature distances and steps are
  rationals, softmax is over the reals.  Overflow and rounding are not modelled.
* Pynini/OpenFst: transducers are relations, so state numbering, optimization
  (`optimize`, which preserves the relation) and machine sizes do not appear
  (C04 takes the sizes as arbitrary).  `shortestpath` is "some output of least
  weight" where ties matter.  String compilation assumes the documented
  bracket syntax; generated symbols are numbered from 0x110000.
* Rules whose two sides are both empty are dropped, as Pynini's string maps have
  no effect then.
* Byte-mode grammars: their alphabet is all bytes for the Brahmic grammars, and
  for the abjads and the fixed rules the byte strings of the characters; the
  rewriter over the latter is taken to rewrite strings of that closure to strings
  of that closure (`RewriteIn`).
* `FROM_BRAHMIC` of `iso.py` rewrites with a union of grammars that accept the
  empty string; what obligatory rewriting of the empty string does is not fixed
  by the documentation, so it is not modelled.  `char_util` printing and the
  build files are not modelled.
* `Fixed`: how Pynini reads the backslash among the input characters.
* Abseil (`StrSplit`, `StrJoin`, `AsciiStrToUpper`, status codes) by documented
  meaning; log messages and the text of error messages are not modelled.
* Thread pool: one step per critical section, spurious wake-ups included;
  the memory model is sequentially consistent because all shared state is
  guarded by the one mutex.
* Grammar loading: reading an opened archive does not fail half way.
* `Feature`, `Profile`: aliases that equal a method name are not modelled there
  (see C41), nor string representations and comparison tables.  A set is the list of its
  members; features of other inventories are at the error distance from all others.
* `Expression`: expressions are values without identity; `Alignment` as an
  argument of `accepts` is not modelled.
* `UnicodeStrings`: reading of textproto files.
* `Lattice`: arcs.
* `PairLM`: costs are positive numbers `exp(-cost)` of any ordered field, exact
  arithmetic.  The pair language model, its composition, pruning and shortest
  paths are a parameter (any candidate list per word and `k`).  Candidate labels are the
  candidates; iteration order of hash maps is fixed.  Not modelled: sampling.
* `SymTab`: `fst::SymbolTable` as OpenFst has it, by insertion order and dense keys; one thread.
* `AtomicId`: alias, text, raw, index and name are one value; `copy` of features gives an equal value.
* `SymDoc`: names and the text of features are parameters; the subclasses' lines differ only in `describe`.
* `AspectSets`: sets by the lists of their members; lists in the arguments are given flat.
* `ExprStr`: all plain expressions have one text; the texts of symbols and the printed form of operations are
  parameters.
* `Grm2Best`: as `Grm2`; among strings of equal cost OpenFst may choose others than the model.
* `Language`: languages from ISO codes; the table of `pycountry` is a parameter.
* `WordpieceText`, `TextFile`: the vocabulary file and text output of the word-piece segmenter, and
  whole files and messages. `ThingValue`: values of things and their comparison.
* `LmPairs`, `LmBackoff`, `LmPieces`, `LmPosterior`: the pair language model before pruning, the
  second language model, word pieces and posteriors of the same decoder, each on its own: the
  result of one is a parameter of the next.  Of OpenFst: composition of relations, failure
  arcs, pushing as division by the total, and unigram counts as sums over paths.
* `Grm2`: a lattice is a finite list of strings with costs; rules are functions
  from strings to such lists, given by the archive; pushdown composition is a
  parameter that gets the parentheses and assignments.  Not modelled: stacks of
  rewrite lattices in protos, symbol table construction under locks, `NO_GOOGLE` variants.
* `Paths`: the automaton is a table of states; termination is by fuel, and the
  theorems hold for all large enough amounts of it.
* `NtFst`, `NtInventory`, `NtBrahmic`: `cdrewrite` is obligatory left-to-right
  rewriting with all choices among overlapping matches.  The English
  inventory is not modelled.
* `Derom`: `rules` with arguments; scripts other than Deva and Taml.
* `PortFile`: a read error is the end of the file; streams of protos are left out.
* `Emd`: probabilities are exact rationals, the decimals written are left out.
* `IterableThing`: iterables that contain themselves, aliases and texts.
* `ModPhon`: transducers in fields are finite sets of strings.
* Not modelled at all: `letter_languages`, the proto file streams.

## Disagreements between the code and the properties

Each of these is proved as a theorem (name in parentheses) or is a remark from reading.

* C14 Brahmic visual normalization is idempotent for no script
  (`C14_visual_not_idempotent`), and for Deva, Gujr, Knda, Newa, Orya, Taml and
  Telu not even on text without joiners (`C14_visual_not_idempotent_plain`).
* C17 Malayalam accept rows are whole pieces, so text may start with 0D41 0D4D
  or 0D3E 0D02; Sylheti has the compound vowel signs A823 A802 and A825 A802.
* C18 `AcceptText` does not escape its argument: the ASCII text
  `[224][170][149]` is accepted by the Gujarati acceptor and a lone `[` ends in
  a string error instead of `IllFormedError` (`C18_brackets`).  The C++
  `Normalizer::Rewrite` overwrites its output even when the text is ill formed.
* C24–C27 Abjad NFC is not idempotent (0615 0615 0650; 0627 0653 0655), no fixed
  number of passes suffices (`C25_no_bound`), visual normalization is idempotent in
  no language (0627 200D 0653), and Dari alternates between isolated 0647 and
  06C1 (`C27_dari_alternates`).  The NFC table lacks some canonical orders (0650 064C).
* C29 A named sequence ends in a `TypeError` (`C29_named_sequence`); an empty
  prefix makes every name ambiguous (`C29_empty_prefix`).
* C34 A word spelled `<epsilon>` is skipped (`C34_epsilon_token`).
* C35 Examples without references make pairwise output read out of range and
  shift (`C35_missing_reference`, `C35_shifted`).
* C37 A single part is returned unsorted and uncut (`C37_single_part_unsorted`).
* C38 Tasks scheduled by running tasks after shutdown may be dropped
  (`C38_late_task_dropped`); nothing runs without `StartWorkers` (`C38_not_started`).
* C41 An alias equal to a method name hides the method (`C41_method_hidden`).
* C42 Two features with one alias, or a feature with the alias of a list, have
  asymmetric distances; a feature listed twice has negative ones.
* C43 `range(x, x)` is the whole list (`C43_same_value_is_whole_list`).
* C44 Grouping matters for `Cat` when a grouped part is `any`
  (`C44_cat_grouping_any`) and changes which redundant alternatives an `Or` keeps
  (`C44_or_grouping_fails`).
* C45 `is_equivalent` is not symmetric and an `Or` may reject one of its own
  alternatives when symbol lists repeat.
* C46 Operations with a recurring alias share an index with the next one; operations
  added by `add_operations` cannot be looked up.
* C47 The default FST and the default error node are shared between lattices.
* C48 Typed inventories forget unknown characters; reserved aliases collide.
* C49 After a failed `Load` the tag is forgotten (`C49_retry`); Assamese has a
  visual normalization rule but `SupportsFst("as")` is false.
* C50 An empty reference makes the choice of the best reference depend on order.
* C51 Carriage returns stay; over-long lines are not cut.
* C53 Candidates without words abort ensembling (by reading).
* C54 The default number of results ignores the last text (`C54_default_k`).
* C58 With boundary flags an empty context matches whatever the rule requires
  (`C58_boundary_ignores_requirement`).
* C61 `InitializePairLMDecoder` resets the mixture weight after it was read
  (`C61_weight_ignored`, `C61_violated`); the weights of the model are joint
  probabilities that are not normalised before they are mixed with normalised
  external ones (`C61_half_partial` shows the denominator).
* C63 The minimum posterior is ignored where there are at most `k` candidates
  (`C63_minimum_not_applied`).
* C64 Two equal words mixed at the same time are mixed twice (`C64_race`).
  `BuildTransliterationFst` never starts its workers, so that no word is ever
  transliterated and the check of line 1039 reads state -1 (`C64_never_started`).
* C65 `ParallelDecoding` never starts its workers either and writes an empty
  file (`C65_nothing_written`).
* C66 A call with a small `k` leaves fewer candidates for later calls with a
  larger one (`C66_earlier_k`).  By reading: a candidate spelled like the epsilon
  symbol gets label 0; an empty line prints nothing, not even a newline.
* C67 On an automaton with a dead end the path iterator shows a path that is none
  (`C67_dead_end`).
* C68 `Reset` before the end keeps the labels of the current path in front and
  later pops an empty vector (`C68_reset_violated`).
* C69 `rule:paren$assign` is read as rule `rule:paren` with parentheses `assign`
  (`C69_mixed_violated`).
* C70 `OneTopRewrite` to an acceptor only looks for states with several arcs, so that
  a tie between a string and its extension passes (`C70_one_top_violated`).
* C71 `thrax::RuleCascade::InitFromDefs` appends to the rules of earlier calls
  (`C71_init_violated`) and accepts no rules (`C71_no_rules`).  The archive entry
  `*StringFstSymbolTable` is a rule for one manager only (`C71_load`).
* C72 The set of labels seen is never filled, reuse is not noticed
  (`C72_reuse_violated`).
* By reading, in grm2: variants of `TopRewrites(n)` for protos pass a lattice where
  its address is meant and would not compile; a NUL byte compiles to epsilon; the
  symbol table builder tests its pointer outside the lock.
* C74 Malayalam 0D7B 0D47 0D3E 0D02 is accepted (two accepted exceptions), but
  NFC and visual normalization join 0D47 0D3E into 0D4B, and 0D7B 0D4B 0D02 is
  rejected (`C74_malayalam`, `C74_acceptor_malayalam`).
* C76 Malayalam reading normalization of 0D41 0D41 0D4D leaves 0D41 0D4D, a
  left-hand side (`C76_malayalam`).
* C77 Hindi reading normalization writes an anusvara behind a virama
  (`C77_hindi`); Malayalam leaves a virama at the beginning (`C77_malayalam`).
  `READING_NORM_LANGS` lacks Sylo, which has a reading rule file (by reading).
* C78 `s.update(s)` empties `s` (`C78_update_self_violated`).
* C79 Copying a profile turns an emptied aspect into `any` (`C79_copy_violated`);
  `get` answers with its own set for an aspect of another inventory with the same
  alias (`C79_foreign_violated`).
* C80 `compare` with a single aspect, which its type allows, ends in an
  `AttributeError` (`C80_single_aspect_violated`); an emptied aspect makes the
  similarity negative, also of a profile with itself (`C80_empty_violated`).
* C81 `new_profile` returns a copy that is not held when there was a profile
  (`C81_result_violated`); a second inventory with the same alias is dropped
  (`C81_alias_violated`); updating what `get` answers for an inventory without
  profile changes `not_applicable` for all symbols (`C81_shared_violated`).
* C82 `Symbol.has_feature` is false for every value list (`C82_list_violated`);
  `add_features` keeps `n_a` (`C82_na_violated`).
* C83 a text with a negative index is not closed when the index changes; its
  first position becomes part of the next text (`C83_negative_merged`).
* C84, C85 a candidate word `<epsilon>` has label 0 and vanishes from the
  outputs (`C84_epsilon_violated`).
* C86 two examples in a row with the same input are read as one
  (`C86_repeat_violated`); candidates of different inputs are combined when the
  files are not parallel (`C86_inputs_violated`).
* C89, C90: the rules of Gujarati rewrite `{a}` to `{ec}` before the diphthongs
  `{a}{+}{i}` and `{a}{+}{u}` are printed, and no phoneme is written `{ec}{+}{i}`.
  So every text with a diphthong has no PSAF, PSAC, NAT and IPA output
  (`gu_psaf_violated` and the others, for all such texts).
* C89, C90: `ADDAK` of Punjabi doubles a phoneme after `{sil}`, and `{t}` is a
  prefix of the affricate `{t}{+}{sh}`, so an addak before `c` has two
  pronunciations, two transcriptions (tt͡ʃ, t͡ʃt͡ʃ) and two romanizations
  (`pa_*_violated`).  Texts without silent characters have one of each.
* C90: the second rule of `VOCALIC_TR_I` may read the length sign of a long
  vocalic sign with the vowel or leave it, so the rule is ambiguous; the sign is
  printed as nothing, so PSAF of Tamil and Malayalam is not (`ta_psaf`,
  `ml_psaf`).  Its first rule, for `{S}{:h}`, never applies: `VOCALIC_EC` has
  replaced every `{S}` before.
* C95: data/Mlym/fixed.textproto turns `ṁ` before a vowel back into `m` for all
  vowels but `ō`, so `mO` becomes ംഓ and not മോ (`C95_violated`).
* C98: `ReadToString` converts the maximum to `int64_t`: with `UINT64_MAX` it
  throws, with 2^63 it reads nothing of any file (`C98_violated`).  As `fread`
  returns an unsigned number, -1 is never returned and errors look like the end
  of the file.
* C99: `ReadLine` splits a line of `max_length` bytes in two (`C99_violated`), and it loses what follows a
  NUL in a line (`C99_nul_violated`).
* C101: lengths are in characters even if the edits are in words, and white space
  is counted that the tokens do not have (`C101_violated_words`,
  `C101_violated_spaces`).
* C102: candidates are not escaped in the JSON lines (`C102_violated`).
* C107: a single Tamil `tr` becomes ற though the docstring of `params` says that
  it stays `tr`: the members of `only_geminated` are also added to the group
  `consonant` (`C107_violated`).
* C111: in Sindhi `a` and `e`, `g` and `j`, in Tamil `b` and `p`, `d` and `t`
  have the same spelling (`C111_reversible_violated`).
* C112: `fa` in Kannada, Malayalam and Telugu has a joiner before a vowel letter
  and is rejected by `wellformed` (`C112_wellformed_violated`).
* Remark: `calculate_emd_cer.py` divides 0 by 0 for a file without lines.
* C96: no keys give ർ, ൿ, ഌ, ൡ, ൢ, ൣ, ഁ, ഽ, ഺ or ഩ (`C96_violated`).  A final
  `r` becomes `rⸯ`, the dot reph ൎ, where the chillu ർ is `ṟⸯ`.
* C113: the README calls the spelling patterns highly unlikely in native words, but
  a word that is one name is read as a letter too: the postposition `kē` is written
  `K` (`hi_nat_ke`).
* C114: `_add_phoneme` sets language and index before it tries to add, so a phoneme
  that is already there, or is refused, gets the index of the next one
  (`C114_own_index_violated`); nothing limits a language to 100 phonemes
  (`C114_reserved_violated`); characters from U+F4241 have indices of phonemes.
* C115: a symbol paired twice by the same features keeps only the last partner, while
  the first one still points to it (`C115_inverse_violated`); the attribute is named by
  the text of the feature, not its alias, so pairing by `SYM_FEATURES.type.raw` overwrites
  the field `raw` (`C115_raw_violated`).
* C116: an alias that is taken makes `import_as_feature_pairs` raise an `IndexError`
  after it has added the other copy (`C116_taken_violated`).
* C117: the default of `new_tr` in `derive_with_suffix` is `pyn.Fst()`, which is an `Fst`, so
  the entry of a derived phoneme accepts nothing instead of being a copy of the base entry
  (`C117_derive_violated`); an imported phoneme keeps the original as its component, so
  composites ignore what was added (`C117_import_violated`); `ɬ`, `ɮ` and `ɒ̈` are the IPA of
  two phonemes each (`C117_ipa_violated`).
* C118: an empty candidate is printed as an empty column, which the extractor skips: it finds four
  fields and stops (`C118_empty_violated`); a tab at the start of a candidate is lost
  (`C118_tab_lost_violated`); a word of the input that is `<epsilon>` stops the decoder
  (`C118_epsilon_violated`).
* C119: the extractor leaves out the index when one result is asked for, and the file cannot be read by
  the ensemble and the rejoiner (`C119_single_violated`); with `show_full_input_string` a text that
  comes twice in a row is read as one (`C119_full_input_violated`); a text without candidates has no
  line and is lost (`C119_lists_violated`).
* C120: in byte mode a label above 255 is printed as another byte (`C120_byte_violated`); a generated symbol
  and a text in brackets are printed alike, so that two lines may be equal (`C120_generated_violated`);
  `--noutput=0` makes every input fail (`C120_noutput_violated`).  Symbol tables of the transducers, which the
  tester picks by the mode of the output also for the input, are not modelled.
* C121: x_uni.py gives ø (alias `oi`) no height, so that it allows all of them and has similarity 1 with y, œ
  and ɶ (`C121_height_violated`).  C122: latn.py gives the letter o an open height, while the phoneme o is
  close-mid; see the list in `C122_latin_ipa`.
* C123: `Alignment.deletion` of a grapheme or phoneme raises a `TypeError`, `insertion` takes it
  (`C123_deletion_violated`); an `int` as `applied_cost` is ignored, because `type_check` keeps only floats
  (`C123_int_cost_violated`); the rows of `a | b` and `a + b` are the same (`C123_row_violated`).
* C124: `_fill_missing_raw` of unicode_strings_util.py assigns `None` to `to_raw` of an item that is no mapping,
  which protobuf refuses (`C124_fill_violated`).
* C126: with word pieces an empty candidate gets no arc in the candidate transducer, so with a language model it
  is lost, or the program ends if it is the only one (`C126_empty_violated`).
* C127: with `apply_lm_at_word_level` the counts are normalised over all words of the line, not for each word, although
  a comment in `TransliterateString` says that the weights are correct: costs are not posteriors
  (`C127_word_violated`), `min_cand_posterior` removes candidates because of other words
  (`C127_word_minimum_violated`), and an empty line ends the program (`C127_empty_violated`).
* C130: `is_equal` says that things are equal if their values are equal. A thing made from an Fst does
  not equal this Fst, and comparing it with a thing made from a number raises an error
  (`C130_fst_value_violated`). A thing with the value 'a' equals 'a', and 'a' equals the Fst of 'a',
  but the thing does not equal the Fst (`C130_trans_violated`).
* C131: `ReadFile` takes an empty file for an error, so that the empty text and the message without
  fields are written but not read back (`C131_empty_violated`, `C131_default_message_violated`). The
  comment in `ReadFileToProto` says that a binary encoding is hardly ever valid text: a message with a
  string of 35 bytes in field 1 begins with a line feed and `#`, a comment, and is read as the message
  without fields (`C131_binary_message_violated`).
* C133: a debug string has a NUL byte for each epsilon label that the shortest path algorithm leaves in the
  path, the output has none (`C133_debug_violated`).  The variants of `TopRewrites` with a number in
  rewrite.h:441-450 and base_rule_cascade.h:345-352 do not compile if they are used (an argument is
  missing); this is not expressed in the model.
* C134: `_side_str` (expression.py:357-360) reads `item(0).text` of a side with one item, so for a `Cat` of one
  `Or` it prints the label of the `Or` and not its items (`C134_side_violated`).
* C136: symbols.cc `AddToByteSymbolTable` and `AddToUtf8SymbolTable` do nothing while the table was not asked
  for; a later `Get…` makes the table without the symbol (`C136_add_violated`).
* C137: expression.py `Atomic.get_instance` says that a control `Atomic` gives the constant; `Atomic(eps)` is a
  control, and its instance is a new object (`C137_constant_violated`).
* C138: symbol.py `Inventory.description` says "all symbols in the inventory"; of symbols that share an index it
  has only the last (`C138_all_violated`), and a symbol `header` makes it fail (`C138_header_violated`).

## Tests against wrong programs

`seeded/LOG.jsonl` lists edits of the model as a realistic bug would make them,
with the theorems that stopped proving and the theorems tightened because an
edit had gone unnoticed.
