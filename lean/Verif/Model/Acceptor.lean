import Verif.Model.ByteMode
import Verif.Model.Wellformed
/-!
# Model of the Python API over compiled archives

nisaba/scripts/utils/far.py, the normalizing acceptor of nisaba/scripts/brahmic/__init__.py and
its C++ counterpart in nisaba/scripts/brahmic/grammar.cc.
-/
namespace Nisaba

/-! ## Pynini string compilation -/

/-- `[`, `]` and `\`: the characters with a special meaning in Pynini strings. -/
def isSpecial (c : Nat) : Bool := c == 0x5B || c == 0x5D || c == 0x5C

/-- `pynini.escape`: a backslash before every special character. -/
def pyEscape (s : Str) : Str := s.flatMap fun c => if isSpecial c then [0x5C, c] else [c]

/-- Value of a decimal numeral, `none` if there is another character or no digit. -/
def numeral : Nat → Str → Option Nat
  | acc, [] => some acc
  | acc, c :: s => if 0x30 ≤ c && c ≤ 0x39 then numeral (acc * 10 + (c - 0x30)) s else none

/-- Labels of the text between two square brackets: a decimal numeral is a label, anything else is
mapped to generated symbols by `gen`. -/
def bracketLabels (gen : Str → Str) (s : Str) : Str :=
  match s, numeral 0 s with
  | _ :: _, some n => [n]
  | _, _ => gen s

/-- Compilation of a string to labels, as done by `pynini.accep` and for string arguments of
operators, in byte mode; `none` is the exception `FstStringCompilationError`.  Pynini is not part
of the repository: this is its documented behaviour.  Simplification: the only escapes are those
of the special characters, and numbers in brackets are decimal.  The first argument of the inner
function is the text read since an open bracket. -/
def pyCompileAux (gen : Str → Str) : Option Str → Str → Option Str
  | none, [] => some []
  | some _, [] => none
  | none, c :: s =>
    if c = 0x5C then
      match s with
      | c' :: s' => if isSpecial c' then (pyCompileAux gen none s').map (c' :: ·) else none
      | [] => none
    else if c = 0x5B then pyCompileAux gen (some []) s
    else if c = 0x5D then none
    else (pyCompileAux gen none s).map (c :: ·)
  | some acc, c :: s =>
    if c = 0x5D then (pyCompileAux gen none s).map (bracketLabels gen acc ++ ·)
    else if isSpecial c then none
    else pyCompileAux gen (some (acc ++ [c])) s
termination_by _ s => s.length
decreasing_by all_goals simp_all; try omega

/-- See `pyCompileAux`. -/
def pyCompile (gen : Str → Str) (s : Str) : Option Str := pyCompileAux gen none s

/-! ## nisaba/scripts/utils/far.py -/

/-- nisaba/scripts/utils/far.py:42-63 `FstWrapper.ApplyOnText`, for an unweighted transducer: `t` is
a possible result for `text`.  If there is none the code raises `FstInputError`. -/
def applyOnText (gen : Str → Str) (fst : Rel) (text t : Str) : Prop :=
  ∃ labels, pyCompile gen (utf8 (pyEscape text)) = some labels ∧ fst labels (utf8 t)

/-- Results of `AcceptText`; `error` is the exception of string compilation. -/
inductive Accepted where
  | yes | no | error
  deriving DecidableEq

open Classical in
/-- nisaba/scripts/utils/far.py:65-83 `FstWrapper.AcceptText`: `text @ self._fst`, without
`pynini.escape`. -/
noncomputable def acceptText (gen : Str → Str) (fst : Lang) (text : Str) : Accepted :=
  match pyCompile gen (utf8 text) with
  | none => .error
  | some labels => if fst labels then .yes else .no

/-! ## nisaba/scripts/brahmic/wellformed.py in byte mode -/

/-- The tables of a script as compiled in byte mode. -/
def encData (d : BrahmicData) : BrahmicData :=
  { d with
    consonant := encRules d.consonant
    deadConsonant := encRules d.deadConsonant
    subjoined := encRules d.subjoined
    vowelSign := encRules d.vowelSign
    vowel := encRules d.vowel
    vowelLength := encRules d.vowelLength
    coda := encRules d.coda
    standalone := encRules d.standalone
    virama := encRules d.virama
    accept := encRules d.accept
    preserve := encRules d.preserve }

/-- nisaba/scripts/brahmic/wellformed.py:126-144: the acceptor exported in byte mode. -/
def byteWellFormed (d : BrahmicData) : Lang := wellFormed (encData d)

/-! ## nisaba/scripts/brahmic/__init__.py -/

/-- Results of the methods of `NormalizingAcceptor`. -/
inductive NormResult where
  | ok (t : Str)
  | illFormedError
  | fstInputError
  | stringError
  deriving DecidableEq

/-- nisaba/scripts/brahmic/__init__.py:104-109 `NormalizingAcceptor.ApplyOnWord`: `r` is a possible
outcome for `word`.  `vn` and `wf` are the compiled grammars. -/
def applyOnWord (gen : Str → Str) (vn : Rel) (wf : Lang) (word : Str) : NormResult → Prop
  | .ok t => applyOnText gen vn word t ∧ acceptText gen wf t = .yes
  | .illFormedError => ∃ t, applyOnText gen vn word t ∧ acceptText gen wf t = .no
  | .stringError => ∃ t, applyOnText gen vn word t ∧ acceptText gen wf t = .error
  | .fstInputError => ∀ t, ¬ applyOnText gen vn word t

/-- Characters added in front of a result. -/
def NormResult.prepend (s : Str) : NormResult → NormResult
  | .ok t => .ok (s ++ t)
  | e => e

/-- nisaba/scripts/brahmic/__init__.py:102 and 111-113 `NormalizingAcceptor.ApplyOnText`:
`re.sub` of `[^ignore]+`, which replaces maximal runs of characters outside the set from left to
right, with `ApplyOnWord` as replacement function.  The second argument is the run being read. -/
def subRuns (ignore : Nat → Bool) (onWord : Str → NormResult) : Str → Str → NormResult
  | [], [] => .ok []
  | w@(_ :: _), [] => onWord w
  | w, c :: s =>
    if ignore c then
      match w with
      | [] => (subRuns ignore onWord [] s).prepend [c]
      | _ =>
        match onWord w with
        | .ok t => (subRuns ignore onWord [] s).prepend (t ++ [c])
        | e => e
    else subRuns ignore onWord (w ++ [c]) s

/-- nisaba/scripts/brahmic/__init__.py:93-102 and 111-113.  `re.escape` makes the characters of
`ignore` literal, so the class excludes exactly those; for the empty string the pattern `[^]+` is
not a regular expression and the constructor raises `re.error` (`none`). -/
def acceptorApplyOnText (ignore : Str) (onWord : Str → NormResult) (line : Str) :
    Option NormResult :=
  if ignore.isEmpty then none else some (subRuns (fun c => ignore.contains c) onWord [] line)

/-! ## nisaba/scripts/brahmic/grammar.cc -/

/-- nisaba/scripts/brahmic/grammar.cc:128-138 `Normalizer::Rewrite`, with 98-114 `Grammar::Rewrite`
and `Grammar::Accept` for grammars that are loaded: the status (true is OK) and the contents of
`*output`, which holds `before` initially.  `GrmManager::RewriteBytes` takes the bytes as they are;
`bytes` may be any byte string. -/
def normalizerRewrite (vn : Rel) (wf : Lang) (bytes before : Str) (status : Bool) (out : Str) : Prop :=
  if status then vn bytes out ∧ wf out
  else (vn bytes out ∧ ¬ wf out) ∨ ((∀ b, ¬ vn bytes b) ∧ out = before)

end Nisaba
