import Verif.Model.Grm2
/-!
# Model of nisaba/interim/grm2/thrax/rewrite-tester.cc

Over the archives and lattices of `Grm2`.  What `fst::ShortestPath` and `PathIterator` pick is a parameter
(`Finder`), so that nothing depends on the order of paths or on the choice among equal costs.  Symbol tables
attached to the transducers (lines 91-102, 161-171) are left out: the archive is compiled without them.
Printing of a cost is a parameter.  Log messages are left out, `LOG(FATAL)` and `CHECK` are `fatal`.
-/
namespace Nisaba.RewriteTester
open Nisaba.Grm2

/-- Byte string of an ASCII text. -/
def ascii (s : String) : Str := s.toList.map Char.toNat

/-- `fst::SymbolTable`: symbols with labels. -/
abbrev Table := List (Str × Nat)

/-- `SymbolTable::Find(label)`: the empty string if there is none. -/
def symbolOf (t : Table) (l : Nat) : Str :=
  match t.find? (fun e => e.2 == l) with
  | some e => e.1
  | none => []

/-- `SymbolTable::Find(symbol)`: `none` for -1. -/
def labelOf (t : Table) (s : Str) : Option Nat := (t.find? (fun e => e.1 == s)).map (·.2)

/-- `--input_mode`, `--output_mode`: rewrite-tester.cc:119-144; the table is the one read from the file. -/
inductive Mode
  | byte
  | utf8
  | symbol (t : Table)

/-- `absl::StrSplit(text, c)`. -/
def splitOn (c : Nat) : Str → List Str
  | [] => [[]]
  | x :: s =>
    if x = c then [] :: splitOn c s
    else
      match splitOn c s with
      | [] => [[x]]
      | w :: ws => (x :: w) :: ws

/-- Tokens between tabs and blanks, the empty ones dropped: the `SYMBOL` branch of OpenFst's
`ConvertStringToLabels` with the default `--fst_field_separator`. -/
def tokens (s : Str) : List Str :=
  ((splitOn 9 s).flatMap (splitOn 32)).filter (· ≠ [])

/-- All or nothing. -/
def allSome {α : Type} : List (Option α) → Option (List α)
  | [] => some []
  | none :: _ => none
  | some a :: l => (allSome l).map (a :: ·)

/-- rewrite-tester.cc:157: `StringCompiler`.  For UTF-8 only valid strings are accepted; OpenFst also accepts some
invalid ones (overlong forms, surrogates). -/
def compile : Mode → Str → Option Str
  | .byte, s => some s
  | .utf8, s => Utf8.decodeAll s
  | .symbol t, s => allSome ((tokens s).map (labelOf t))

/-- Flags and tables. -/
structure Options (K : Type) where
  input : Mode := .byte
  output : Mode := .byte
  noutput : Int := 1
  details : Bool := false
  separator : Str := [9, 32]
  generated : Option Table := none
  costText : K → Str

/-- rewrite-tester.cc:239-272 `AppendLabel`: `none` is `false`. -/
def appendLabel {K : Type} (o : Options K) (path : Str) (l : Nat) : Option Str :=
  if l = 0 then some path
  else
    match (o.generated.map fun t => symbolOf t l) with
    | some (c :: sym) => some (path ++ ([91] ++ (c :: sym) ++ [93]))
    | _ =>
      match o.output with
      | .symbol t =>
        if symbolOf t l = [] then none
        else some ((if path = [] then path else path ++ o.separator) ++ symbolOf t l)
      | .byte => some (path ++ [l % 256])
      | .utf8 => if l < 0x200000 then some (path ++ Utf8.encodeRaw l) else none

/-- rewrite-tester.cc:230-233: the labels of one path. -/
def pathText {K : Type} (o : Options K) (path : Str) : Str → Option Str
  | [] => some path
  | l :: ls => (appendLabel o path l).bind fun p => pathText o p ls

/-- `fst::ShortestPath` followed by `PathIterator`: one path, or several distinct strings. -/
structure Finder (K : Type) where
  one : Lat K → Option (Str × K)
  many : Nat → Lat K → Lat K

/-- rewrite-tester.cc:216-226: the paths.  `ShortestPath` finds none if their number is not positive. -/
def found {K : Type} (f : Finder K) (n : Int) (l : Lat K) : Lat K :=
  if n = 1 then (f.one l).toList else if n ≤ 0 then [] else f.many n.toNat l

/-- rewrite-tester.cc:228-236: the loop over the paths: what was stored and the return value. -/
def printPaths {K : Type} (o : Options K) : Lat K → Lat K → Lat K × Bool
  | [], acc => (acc, true)
  | (y, c) :: l, acc =>
    match pathText o [] y with
    | none => (acc, false)
    | some t => printPaths o l (acc ++ [(t, c)])

/-- rewrite-tester.cc:213-237 `FstToStrings`. -/
def fstToStrings {K : Type} (f : Finder K) (o : Options K) (l : Lat K) : Lat K × Bool :=
  match found f o.noutput l with
  | [] => ([], false)
  | p :: ps => printPaths o (p :: ps) []

/-- `std::endl`. -/
def newline : Str := [10]

/-- rewrite-tester.cc:180-183: the lines for one rule. -/
def detailLines {K : Type} (main : Str) (outs : Lat K) : Str :=
  outs.flatMap fun p => ascii "output of rule[" ++ main ++ ascii "] is: " ++ p.1 ++ newline

variable {K : Type} [AddMonoid K] [LinearOrder K]

/-- rewrite-tester.cc:172-190: the loop over the rules: `input_fst`, `output_fst`, the stream. -/
def loop (f : Finder K) (o : Options K) (m : Map K) (several : Bool) :
    List Str → Lat K → Lat K → Str → Res (Lat K × Str)
  | [], _, out, s => .ok (out, s)
  | d :: ds, l, _, s =>
    (composeRule true m (parseRuleDef d) l).bind fun l' =>
      loop f o m several ds l' l'
        (if o.details && several then s ++ detailLines (parseRuleDef d).main (fstToStrings f o l').1 else s)

/-- rewrite-tester.cc:194-201: one line of output. -/
def outputLine (o : Options K) (prepend : Bool) (p : Str × K) : Str :=
  (if prepend then ascii "Output string: " else []) ++ p.1 ++
    (if o.noutput ≠ 1 ∧ p.2 ≠ 0 then ascii " <cost=" ++ o.costText p.2 ++ [62] else []) ++ newline

/-- rewrite-tester.cc:204. -/
def failure (input : Str) : Str := ascii "Rewrite failed for \"" ++ input ++ [34]

/-- rewrite-tester.cc:158. -/
def unparsed : Str := ascii "Unable to parse input string."

/-- rewrite-tester.cc:153-206 `ProcessInput`. -/
def processInput (f : Finder K) (o : Options K) (m : Map K) (rules : List Str) (prepend : Bool) (input : Str) :
    Res Str :=
  match compile o.input input with
  | none => .ok unparsed
  | some x =>
    match loop f o m (decide (1 < rules.length)) rules [(x, 0)] [] [] with
    | .fatal => .fatal
    | .fail => .ok (failure input)
    | .ok (out, s) =>
      match fstToStrings f o out with
      | (outs, true) => .ok (s ++ outs.flatMap (outputLine o prepend))
      | (_, false) => .ok (failure input)

/-- rewrite-tester.cc:77-117 `Initialize`: the archive and the rules; the modes are part of `Options`. -/
def setup (far : List (Str × Entry K)) (rules : Str) : Res (Map K × List Str) :=
  if (loadArchive far).2 then
    if (splitOn 44 rules).isEmpty then .fatal
    else if validate (loadArchive far).1 ((splitOn 44 rules).map parseRuleDef) then
      .ok ((loadArchive far).1, splitOn 44 rules)
    else .fatal
  else .fatal

/-- rewrite-tester.cc:147-151, 208-211 `Run` over the lines of the standard input: what is printed. -/
def run (f : Finder K) (o : Options K) (m : Map K) (rules : List Str) : List Str → Res Str
  | [] => .ok (ascii "Input string: ")
  | i :: is =>
    (processInput f o m rules true i).bind fun t =>
      (run f o m rules is).bind fun r => .ok (ascii "Input string: " ++ t ++ newline ++ r)

end Nisaba.RewriteTester
