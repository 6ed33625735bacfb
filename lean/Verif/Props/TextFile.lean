import Verif.Model.TextFile
/-!
# Writing and reading whole files and messages (C131)
-/
namespace Nisaba.Props
open Nisaba.TextFile
variable {P : Type}

/-- C131, write then read: a text that is not empty is read back as it was written, under the name
given or the name returned, and the other files stay as they were.  Missing: the empty text, see
`C131_empty_violated`. -/
theorem C131_round_trip_partial (fs : FS) (path tmp name contents : Str) (hc : contents ≠ []) :
    (fs.canWrite path = true → ∃ fs', writeTextFile fs path contents = .ok fs' ∧
      readFile fs' path = .ok contents ∧ ∀ p, p ≠ path → readFile fs' p = readFile fs p) ∧
    (fs.canWrite (FileUtil.joinPath tmp name) = true → ∃ p' fs',
      writeTempTextFile fs tmp name contents = .ok (p', fs') ∧ readFile fs' p' = .ok contents ∧
      ∀ p, p ≠ p' → readFile fs' p = readFile fs p) := by
  have hl : ¬ contents.length = 0 := by simpa using hc
  constructor
  · intro h
    refine ⟨_, by rw [writeTextFile, if_pos h], by simp [readFile, hl], ?_⟩
    intro p hp
    simp [readFile, hp]
  · intro h
    refine ⟨_, _, by rw [writeTempTextFile]; exact if_pos h, by simp [readFile, hl], ?_⟩
    intro p hp
    simp only [readFile]
    rw [if_neg hp]

/-- Files can be written below `/tmp/` only. -/
def exampleFs : FS where
  files := fun _ => none
  canWrite := fun p => [47, 116, 109, 112, 47].isPrefixOf p

example : exampleFs.canWrite (FileUtil.joinPath [47, 116, 109, 112] [97]) = true := by decide

/-- C131, reading and writing fail with an error, never with other contents: a file that does not
exist is not found, a name that cannot be opened is refused. -/
theorem C131_errors (fs : FS) (path tmp name contents : Str) (ps : Parsers P) (flags : Int) :
    (fs.files path = none → readFile fs path = .error .notFound ∧
      getTextProto ps fs path flags = .error .invalidArgument) ∧
    (fs.canWrite path = false → writeTextFile fs path contents = .error .permissionDenied) ∧
    (fs.canWrite (FileUtil.joinPath tmp name) = false →
      writeTempTextFile fs tmp name contents = .error .permissionDenied) := by
  refine ⟨?_, ?_, ?_⟩
  · intro h
    have h1 : readFile fs path = .error .notFound := by simp [readFile, h]
    exact ⟨h1, by simp [getTextProto, readFileToProto, h1]⟩
  · intro h
    simp [writeTextFile, h]
  · intro h
    simp [writeTempTextFile, tempFilePath, h]

example : exampleFs.canWrite [97] = false ∧ exampleFs.files [97] = none := by decide

/-- C131, the property does not hold for the empty text: it is written without an error, and reading
it back is an internal error. -/
theorem C131_empty_violated (fs : FS) (path : Str) (h : fs.canWrite path = true) :
    ∃ fs', writeTextFile fs path [] = .ok fs' ∧ readFile fs' path = .error .internal :=
  ⟨_, by rw [writeTextFile, if_pos h], by simp [readFile]⟩

/-- C131, messages: a message written as text, or in binary form unless this form happens to be
text, is read back.  Missing: messages without text, see `C131_default_message_violated`, and binary
forms that are text, see `C131_binary_message_violated`. -/
theorem C131_message_partial (ps : Parsers P) (fs fs' : FS) (path s : Str) (m : P) (hs : s ≠ [])
    (hw : writeTextFile fs path s = .ok fs')
    (hm : ps.text s = some m ∨ ps.text s = none ∧ ps.binary s = some m) :
    getTextProto ps fs' path defaults = .ok m := by
  have hc : fs.canWrite path = true := by
    cases h : fs.canWrite path with
    | true => rfl
    | false => simp [writeTextFile, h] at hw
  obtain ⟨f, h1, h2, _⟩ := (C131_round_trip_partial fs path [] [] s hs).1 hc
  rw [hw] at h1
  cases h1
  rcases hm with h | ⟨h, h'⟩
  · simp [getTextProto, readFileToProto, h2, h]
  · simp [getTextProto, readFileToProto, h2, h, h']

/-- Parsers of the examples: a message is a list of bytes; text is `"` and the bytes, binary form is
a tag, the length and the bytes. -/
def exampleParsers : Parsers Str where
  text := fun s => match s with
    | 34 :: t => some t
    | _ => none
  binary := fun s => match s with
    | 10 :: n :: t => if t.length = n then some t else none
    | _ => none

example : exampleParsers.text [34, 97] = some [97] ∧
    (exampleParsers.text [10, 1, 97] = none ∧ exampleParsers.binary [10, 1, 97] = some [97]) := by
  decide

/-- C131, error branch: contents that neither parser accepts, and other flags than the default, are
errors. -/
theorem C131_message_refused (ps : Parsers P) (fs : FS) (path s : Str) (flags : Int)
    (hf : fs.files path = some s) :
    (ps.text s = none → ps.binary s = none →
      getTextProto ps fs path flags = .error .invalidArgument) ∧
    (flags ≠ defaults → getTextProto ps fs path flags = .error .invalidArgument) := by
  constructor
  · intro h1 h2
    have : readFileToProto ps fs path = none := by
      unfold readFileToProto readFile
      rw [hf]
      by_cases hl : s.length = 0
      · simp [hl]
      · simp [hl, h1, h2]
    simp [getTextProto, this]
  · intro h
    simp [getTextProto, h]

example : exampleParsers.text [1] = none ∧ exampleParsers.binary [1] = none ∧ (0 : Int) ≠ defaults := by
  decide

/-- C131, the property does not hold for the message all of whose fields are unset: its text form is
empty, and so is its binary form, so that it cannot be read back though both parsers accept it. -/
theorem C131_default_message_violated (ps : Parsers P) (fs : FS) (path : Str) (m : P)
    (_ht : ps.text [] = some m) (_hb : ps.binary [] = some m) (hc : fs.canWrite path = true) :
    ∃ fs', writeTextFile fs path [] = .ok fs' ∧
      getTextProto ps fs' path defaults = .error .invalidArgument := by
  obtain ⟨fs', h1, h2⟩ := C131_empty_violated fs path hc
  exact ⟨fs', h1, by simp [getTextProto, readFileToProto, h2]⟩

/-- Text format takes a line feed for white space and what follows `#` up to the end of the line for
a comment (Protocol Buffers text format, not in the repository). -/
def TextComments (ps : Parsers P) (unset : P) : Prop :=
  ∀ s : Str, 10 ∉ s → ps.text (10 :: 35 :: s) = some unset

/-- Binary form of a message with a string in field 1: tag 10, the length if it is below 128, the
string (Protocol Buffers encoding, not in the repository). -/
def StringField (ps : Parsers P) (msg : Str → P) : Prop :=
  ∀ s : Str, s.length < 128 → ps.binary (10 :: s.length :: s) = some (msg s)

/-- C131, the property does not hold for binary forms that are text: the binary form of a message
with a string of 35 bytes in field 1 begins with a line feed and `#`, and is read as the message
without fields. -/
theorem C131_binary_message_violated (ps : Parsers P) (unset : P) (msg : Str → P)
    (ht : TextComments ps unset) (hb : StringField ps msg) (fs : FS) (path s : Str)
    (hc : fs.canWrite path = true) (hs : s.length = 35) (h10 : 10 ∉ s) (hne : msg s ≠ unset) :
    ∃ b fs', ps.binary b = some (msg s) ∧ writeTextFile fs path b = .ok fs' ∧
      getTextProto ps fs' path defaults = .ok unset ∧
      getTextProto ps fs' path defaults ≠ .ok (msg s) := by
  have hb' := hb s (by omega)
  rw [hs] at hb'
  obtain ⟨fs', h1, h2, _⟩ :=
    (C131_round_trip_partial fs path [] [] (10 :: 35 :: s) (by simp)).1 hc
  have h3 : getTextProto ps fs' path defaults = .ok unset := by
    simp [getTextProto, readFileToProto, h2, ht s h10]
  refine ⟨_, fs', hb', h1, h3, ?_⟩
  rw [h3]
  intro h
  exact hne (Except.ok.inj h).symm

/-- Parsers that meet the hypotheses of `C131_binary_message_violated`. -/
example : ∃ ps : Parsers (Option Str), TextComments ps none ∧ StringField ps some ∧
    some (List.replicate 35 97) ≠ (none : Option Str) := by
  refine ⟨⟨fun s => match s with
    | 10 :: 35 :: t => if 10 ∈ t then none else some none
    | _ => none, fun s => match s with
    | 10 :: n :: t => if t.length = n then some (some t) else none
    | _ => none⟩, ?_, ?_, by simp⟩
  · intro s hs
    simp [hs]
  · intro s hs
    simp

end Nisaba.Props
