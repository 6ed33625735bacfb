import Verif.Model.Grm2
/-!
# Model of the class `SymbolTableBuilder` in nisaba/interim/grm2/thrax/walker/util/function/symbols.cc

The texts of the labels are in `Verif.Model.Grm2`.  `fst::SymbolTable` is a class of OpenFst that is not in
the repository; `Table` says what its `AddSymbol` and its two methods `Find` do.  The mutex is left out: one
thread.
-/
namespace Nisaba.SymTab

open Nisaba.Grm2

/-- OpenFst's `SymbolTable`: the symbols with their keys in the order of insertion, and the number of symbols
at the start whose key is their place (`dense_key_limit_`). -/
structure Table where
  entries : List (Str × Int)
  dense : Nat

def Table.empty : Table := ⟨[], 0⟩

/-- OpenFst `AddSymbol(symbol, key)`: the key -1 is `kNoSymbol`; a symbol that is in the table keeps its
key. -/
def Table.add (t : Table) (s : Str) (k : Int) : Table :=
  if k = -1 then t
  else if t.entries.any (fun e => e.1 == s) then t
  else
    { entries := t.entries ++ [(s, k)]
      dense := if k = t.entries.length ∧ k = t.dense then t.dense + 1 else t.dense }

/-- OpenFst `Find(symbol)`; `none` is `kNoSymbol`. -/
def Table.label (t : Table) (s : Str) : Option Int := (t.entries.find? fun e => e.1 == s).map (·.2)

/-- OpenFst `Find(key)`; `none` is the empty string.  Of two symbols with one key that is not dense the later
one is found. -/
def Table.symbol (t : Table) (k : Int) : Option Str :=
  if 0 ≤ k ∧ k < t.dense then (t.entries[k.toNat]?).map (·.1)
  else (t.entries.reverse.find? fun e => e.2 == k).map (·.1)

/-- symbols.cc:173-207, both loops: the labels below `n` are added in their order. -/
def generate (text : Nat → Str) : Nat → Table
  | 0 => Table.empty
  | n + 1 => (generate text n).add (text n) n

/-- symbols.cc:148-149, symbols.h:56-57. -/
structure Builder where
  byte : Option Table := none
  utf8 : Option Table := none

/-- symbols.cc:151-154 `GetByteSymbolTable`.  The number of labels is an argument; it is 256 in
symbols.cc:178. -/
def Builder.getByte (nb : Nat) (b : Builder) : Builder × Table :=
  match b.byte with
  | some t => (b, t)
  | none => let t := generate byteSymbol nb; ({ b with byte := some t }, t)

/-- symbols.cc:156-159 `GetUtf8SymbolTable`.  The number of labels is an argument; it is 65536 in
symbols.cc:193. -/
def Builder.getUtf8 (nu : Nat) (b : Builder) : Builder × Table :=
  match b.utf8 with
  | some t => (b, t)
  | none => let t := generate utf8Symbol nu; ({ b with utf8 := some t }, t)

/-- symbols.cc:161-165 `AddToByteSymbolTable`. -/
def Builder.addByte (b : Builder) (s : Str) (k : Int) : Builder :=
  match b.byte with
  | none => b
  | some t => { b with byte := some (t.add s k) }

/-- symbols.cc:167-171 `AddToUtf8SymbolTable`. -/
def Builder.addUtf8 (b : Builder) (s : Str) (k : Int) : Builder :=
  match b.utf8 with
  | none => b
  | some t => { b with utf8 := some (t.add s k) }

/-- The four functions of symbols.h:30-34. -/
inductive Call
  | getByte
  | getUtf8
  | addByte (s : Str) (k : Int)
  | addUtf8 (s : Str) (k : Int)

/-- symbols.cc:31-47: the functions call the one builder. -/
def Builder.call (nb nu : Nat) (b : Builder) : Call → Builder
  | .getByte => (b.getByte nb).1
  | .getUtf8 => (b.getUtf8 nu).1
  | .addByte s k => b.addByte s k
  | .addUtf8 s k => b.addUtf8 s k

/-- The builder after some calls in a new process. -/
def run (nb nu : Nat) (calls : List Call) : Builder := calls.foldl (Builder.call nb nu) {}

/-- What `GetByteSymbolTable` and `GetUtf8SymbolTable` return after some calls. -/
def byteTable (calls : List Call) : Table := ((run 256 65536 calls).getByte 256).2
def utf8Table (calls : List Call) : Table := ((run 256 65536 calls).getUtf8 65536).2

end Nisaba.SymTab
