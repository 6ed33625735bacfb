import Verif.Model.Pynini
/-!
# Loading of grammars in C++

Models nisaba/scripts/brahmic/grammar.h, nisaba/scripts/brahmic/grammar.cc and the parts of
nisaba/interim/grm2/thrax/abstract-grm-manager.h they use.  Names are byte strings; a rule is its
relation.  Log messages and the texts of the error statuses are not modelled.
-/
namespace Nisaba.Grm

/-- `absl::AsciiStrToUpper`, byte by byte. -/
def upper (s : Str) : Str := s.map fun c => if 0x61 ≤ c ∧ c ≤ 0x7A then c - 0x20 else c

/-- `absl::AsciiStrToLower`, byte by byte. -/
def lower (s : Str) : Str := s.map fun c => if 0x41 ≤ c ∧ c ≤ 0x5A then c + 0x20 else c

/-- `std::map<std::string, …>`: an association list without repeated keys. -/
abbrev FstMap := List (Str × Rel)

/-- `std::map::operator[]` with assignment. -/
def put (m : FstMap) (k : Str) (r : Rel) : FstMap := m.filter (fun p => p.1 ≠ k) ++ [(k, r)]

/-- `std::map::count(k) != 0`. -/
def has (m : FstMap) (k : Str) : Bool := m.any fun p => p.1 = k

/-- nisaba/interim/grm2/thrax/abstract-grm-manager.h:198-211 `GetFst`, `GetFstSafe`. -/
def find (m : FstMap) (k : Str) : Option Rel := (m.find? fun p => p.1 = k).map (·.2)

/-- The archive file as seen by `Load`: the resource path may not resolve, the file may not open,
or it has a list of entries.  Simplification: reading of an opened archive does not fail. -/
inductive Far
  | noPath
  | noFile
  | entries (es : List (Str × Rel))

inductive Status
  | ok
  | pathError
  | archiveError
  /-- "not found in lowercase" -/
  | tagError
  /-- "not found in uppercase" -/
  | scriptError
  | rewriteError
  deriving DecidableEq

/-- nisaba/scripts/brahmic/grammar.h:46-82 `class Grammar`: `fst_name_` and the rules of the manager
(`far_file_path_` is constant and stands for the `Far` handed to the operations). -/
structure Grammar where
  fstName : Str
  fsts : FstMap

/-- nisaba/scripts/brahmic/grammar.h:49-67, the constructors: the tag is put in upper case, the
manager is new (empty) or shared. -/
def Grammar.new (tag : Str) (manager : FstMap := []) : Grammar := ⟨upper tag, manager⟩

/-- nisaba/interim/grm2/thrax/abstract-grm-manager.h:153-174 and grm-manager.h:59-69
`LoadArchive`: a file that does not open leaves the manager as it is, an empty archive clears it. -/
def loadArchive (m : FstMap) : Far → FstMap × Bool
  | .noPath => (m, false)
  | .noFile => (m, false)
  | .entries es =>
    let m' := es.foldl (fun m e => put m e.1 e.2) []
    (m', m'.length ≠ 0)

/-- nisaba/scripts/brahmic/grammar.cc:76-79 `lang_script_map`; ASCII codes. -/
def langScript : List (Str × Str) :=
  [([0x62, 0x6E], [0x42, 0x65, 0x6E, 0x67]),  -- bn Beng
   ([0x67, 0x75], [0x47, 0x75, 0x6A, 0x72]),  -- gu Gujr
   ([0x68, 0x69], [0x44, 0x65, 0x76, 0x61]),  -- hi Deva
   ([0x6B, 0x6E], [0x4B, 0x6E, 0x64, 0x61]),  -- kn Knda
   ([0x6D, 0x6C], [0x4D, 0x6C, 0x79, 0x6D]),  -- ml Mlym
   ([0x6D, 0x72], [0x44, 0x65, 0x76, 0x61]),  -- mr Deva
   ([0x6F, 0x72], [0x4F, 0x72, 0x79, 0x61]),  -- or Orya
   ([0x70, 0x61], [0x47, 0x75, 0x72, 0x75]),  -- pa Guru
   ([0x73, 0x69], [0x53, 0x69, 0x6E, 0x68]),  -- si Sinh
   ([0x74, 0x61], [0x54, 0x61, 0x6D, 0x6C]),  -- ta Taml
   ([0x74, 0x65], [0x54, 0x65, 0x6C, 0x75])]  -- te Telu

/-- nisaba/scripts/brahmic/grammar.cc:72-96 `Grammar::VerifyLoad`. -/
def verifyLoad (g : Grammar) (far : Far) : Grammar × Status :=
  match far with
  | .noPath => (g, .pathError)
  | _ =>
    if has g.fsts g.fstName then (g, .ok)
    else match langScript.find? (fun p => p.1 = lower g.fstName) with
      | none => (g, .tagError)
      | some e =>
        let g' : Grammar := { g with fstName := upper e.2 }
        if has g'.fsts g'.fstName then (g', .ok) else (g', .scriptError)

/-- nisaba/scripts/brahmic/grammar.cc:33-42 and 66-70 `LoadArchive`, `Grammar::Load`. -/
def load (g : Grammar) (far : Far) : Grammar × Status :=
  match far with
  | .noPath => (g, .pathError)
  | _ =>
    match loadArchive g.fsts far with
    | (m, true) => verifyLoad { g with fsts := m } far
    | (m, false) => ({ g with fsts := m }, .archiveError)

/-- nisaba/scripts/brahmic/grammar.cc:98-105 `Grammar::Rewrite`: possible status and `*output`. -/
def rewrite (g : Grammar) (input before : Str) (st : Status) (out : Str) : Prop :=
  match find g.fsts g.fstName with
  | none => st = .rewriteError ∧ out = before
  | some r => (st = .ok ∧ r input out) ∨ (st = .rewriteError ∧ (∀ o, ¬ r input o) ∧ out = before)

/-- nisaba/scripts/brahmic/grammar.h:84-121 `class Normalizer`; also `ReadingNorm` (125-143), whose
second grammar is the reading normalization. -/
structure Pair where
  first : Grammar
  second : Grammar

/-- nisaba/scripts/brahmic/grammar.cc:116-120 `Normalizer::Load`, 144-148 `ReadingNorm::Load`. -/
def Pair.load (p : Pair) (far1 far2 : Far) : Pair × Status :=
  match Grm.load p.first far1 with
  | (g, .ok) =>
    match Grm.load p.second far2 with
    | (g', st) => (⟨g, g'⟩, st)
  | (g, st) => (⟨g, p.second⟩, st)

/-- nisaba/scripts/brahmic/grammar.cc:140-142 `Normalizer::SupportsFst`. -/
def supportsFst (tag : Str) (visual wellformed : Far) : Bool :=
  (Pair.load ⟨.new tag, .new tag⟩ visual wellformed).2 = .ok

/-- nisaba/scripts/brahmic/grammar.cc:150-156 `ReadingNorm::Rewrite`. -/
def Pair.readingRewrite (p : Pair) (input before : Str) (st : Status) (out : Str) : Prop :=
  ∃ st1 temp, rewrite p.first input [] st1 temp ∧
    (if st1 = .ok then rewrite p.second temp before st out else st = st1 ∧ out = before)

end Nisaba.Grm
