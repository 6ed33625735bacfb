/-!
# `phonology/phon.py` and `phonology/modify_phon.py`

Phonemes are objects in a heap, as the components of a composite are references to other phonemes,
and those of a simple one a reference to itself.  A transducer in a field is an acceptor of finitely
many strings and is given by their list; `pyn.Fst()` accepts none.
-/
namespace Nisaba.ModPhon

abbrev Str := List Nat
abbrev Fst := List Str

/-- `a + b` of two acceptors. -/
def cat (a b : Fst) : Fst := a.flatMap fun x => b.map fun y => x ++ y

/-- A Python dictionary in the order of insertion. -/
abbrev Dict := List (Str × Fst)

def Dict.get (d : Dict) (k : Str) : Option Fst := (d.find? fun p => p.1 == k).map (·.2)

/-- `d[k] = v`. -/
def Dict.set : Dict → Str → Fst → Dict
  | [], k, v => [(k, v)]
  | (k', v') :: d, k, v => if k' == k then (k', v) :: d else (k', v') :: Dict.set d k v

/-- `d | e`. -/
def Dict.union (d e : Dict) : Dict := e.foldl (fun d p => d.set p.1 p.2) d

/-- phon.py:29-51 `Phon`, with the places of the components. -/
structure Phn where
  alias : Str
  txn : Str
  ftr : List Str
  ph : Fst
  ipa : Str
  tr : Dict
  cmp : List Nat
  deriving DecidableEq

inductive Err where
  | indexError | keyError | valueError
  deriving DecidableEq

abbrev Heap := List Phn

/-- The phoneme at a place.  References are never dangling in the code; the default does not occur
(`Ok` in `Verif.Props.ModPhon`). -/
def at' (h : Heap) (p : Nat) : Phn := h.getD p ⟨[], [], [], [], [], [], []⟩

/-- The key 'base'. -/
def base : Str := [98, 97, 115, 101]

/-- utils/alignment.py:85-87 `enclose_phoneme` of a string. -/
def enclosePhoneme (s : Str) : Str := 123 :: (s ++ [125])

/-- utils/alignment.py:90-92 `enclose_translit('DEL')`. -/
def delTr : Fst := [[96, 68, 69, 76, 96]]

/-- phon.py:99-108 `new_tr`; `none` is anything but an `Fst`. -/
def newTr (key : Str) (new b : Option Fst) : Dict :=
  match new, b with
  | some n, _ => [(key, n)]
  | none, some b => [(key, b)]
  | none, none => [(key, [[]])]

/-- `str.upper` of ASCII letters. -/
def upper (s : Str) : Str := s.map fun c => if 97 ≤ c ∧ c ≤ 122 then c - 32 else c

/-- phon.py:53-93 `Phon.base`: the only component is the phoneme itself (phon.py:51). -/
def mkBase (h : Heap) (txn : Str) (ftr : List Str) (ipa : Str) (tr : Option Fst) (alias : Str) : Heap :=
  h ++ [{ alias := if alias.isEmpty then upper txn else alias
          txn := txn
          ftr := ftr
          ph := [enclosePhoneme txn]
          ipa := ipa
          tr := newTr base tr (some delTr)
          cmp := [h.length] }]

/-- modify_phon.py:83-126 `derive_with_suffix`.  The default of `new_tr` is `pyn.Fst()`, an `Fst`
that accepts nothing. -/
def derive (h : Heap) (phon modifier : Phn) (new : Option Fst := some []) : Except Err Heap :=
  match modifier.ftr, phon.tr.get base with
  | [], _ => .error .indexError
  | _ :: _, none => .error .keyError
  | key :: _, some b =>
    .ok (h ++ [{ alias := phon.alias ++ upper modifier.txn
                 txn := phon.txn ++ modifier.txn
                 ftr := phon.ftr ++ modifier.ftr
                 ph := [enclosePhoneme (phon.txn ++ modifier.txn)]
                 ipa := phon.ipa ++ modifier.ipa
                 tr := phon.tr.union (newTr key new (some b))
                 cmp := [h.length] }])

/-- modify_phon.py:129-133 `devoiced`: the copy is used only for its fields.  `list.remove` raises a
`ValueError` if there is nothing to remove. -/
def devoiced (h : Heap) (voiced : Str) (dvc phon : Phn) : Except Err Heap :=
  if voiced ∈ phon.ftr then derive h { phon with ftr := phon.ftr.erase voiced } dvc
  else .error .valueError

/-- modify_phon.py:136-138 `nonpulmonic`. -/
def nonpulmonic (h : Heap) (npl phon : Phn) : Except Err Heap := derive h phon npl

/-- modify_phon.py:40: text, `ph` and IPA of the combiner. -/
def cmbTxn : Str := [43]
def cmbPh : Fst := [enclosePhoneme [43]]
def cmbIpa : Str := [865]

/-- modify_phon.py:215-222: one round of the loop of `compose`. -/
def addCmp (acc : Phn × Fst) (c : Phn) (place : Nat) : Except Err (Phn × Fst) :=
  match c.tr.get base with
  | none => .error .keyError
  | some t =>
    let q := acc.1
    .ok ({ q with
           alias := q.alias ++ (95 :: c.alias)
           txn := q.txn ++ (cmbTxn ++ c.txn)
           ftr := q.ftr ++ c.ftr
           ph := cat (cat q.ph cmbPh) c.ph
           ipa := q.ipa ++ (cmbIpa ++ c.ipa)
           cmp := q.cmp ++ [place] }, cat acc.2 t)

/-- modify_phon.py:215-222: the loop. -/
def addCmps (h : Heap) (acc : Phn × Fst) : List Nat → Except Err (Phn × Fst)
  | [] => .ok acc
  | c :: cs =>
    match addCmp acc (at' h c) c with
    | .error e => .error e
    | .ok acc => addCmps h acc cs

/-- modify_phon.py:203-205: `cmp_list`. -/
def cmpList (h : Heap) (phons : List Nat) : List Nat := phons.flatMap fun p => (at' h p).cmp

/-- modify_phon.py:160-226 `compose`. -/
def compose (h : Heap) (phons : List Nat) (ftr : Str) (new : Option Fst) (alt : Option Dict) :
    Except Err Heap :=
  match cmpList h phons with
  | [] => .error .indexError
  | c :: cs =>
    let p := at' h c
    match p.tr.get base with
    | none => .error .keyError
    | some b =>
      match addCmps h ({ alias := p.alias
                         txn := p.txn
                         ftr := ftr :: p.ftr
                         ph := p.ph
                         ipa := p.ipa
                         tr := []
                         cmp := [c] }, b) cs with
      | .error e => .error e
      | .ok (q, b) =>
        let d := Dict.union [(base, b)] (newTr ftr new (some b))
        .ok (h ++ [{ q with tr := (match alt with | some a => d.union a | none => d) }])

/-- phon.py:167-181 `import_phon`: the components are those of the original. -/
def importPhon (h : Heap) (phon : Phn) (addFtr : Option (List Str)) (alt : Option Dict) : Heap :=
  h ++ [{ phon with
          ftr := phon.ftr ++ addFtr.getD []
          tr := (match alt with | some a => phon.tr.union a | none => phon.tr) }]

/-- phon.py:187-193 `check_key` and the translit of `translit_by_key`. -/
def trOf (p : Phn) (key : Str) : Except Err Fst :=
  match p.tr.get (if key.isEmpty then base else key) with
  | some t => .ok t
  | none => .error .keyError

end Nisaba.ModPhon
