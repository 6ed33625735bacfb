import Verif.Lemmas.DeromVir
import Verif.Lemmas.IsoScripts
/-!
# Deromanization and conversion to ISO
-/
namespace Nisaba.NT
namespace Derom
open _root_.Nisaba.Seq

/-- The sign of the inherent vowel. -/
abbrev tA : Tok := .t a!"a"

/-! ## The function of `typ2iso` -/

/-- Insertion of the inherent vowel after every letter that may carry one. -/
def insF : Bool → List Tok → List Tok
  | p, [] => bif p then [tA] else []
  | p, a :: ts => (bif p then [tA] else []) ++ a :: insF (isSch a) ts

/-- Deletion of the inherent vowel before signs. -/
def delF : List Tok → List Tok
  | [] => []
  | a :: ts => bif teq a tA && rCtx .vowelSVir ts then delF ts else a :: delF ts

/-- The two together. -/
def combF : Bool → List Tok → List Tok
  | p, [] => bif p then [tA] else []
  | p, a :: ts => (bif p && !isSign a then [tA] else []) ++ a :: combF (isSch a) ts

theorem goIns_insF (rev rest : List Tok) :
    goIns [tA] .schCons .eps rev rest = rev.reverse ++ insF (lCtx .schCons rev) rest := by
  induction rest generalizing rev with
  | nil =>
    rw [goIns, insF]
    cases lCtx .schCons rev <;> simp [rCtx]
  | cons a rest ih =>
    rw [goIns, insF]
    cases h : lCtx .schCons rev
    · simp only [Bool.false_and, cond_false]
      rw [ih]
      simp [lCtx, isSch]
    · simp only [rCtx, Bool.and_true, cond_true]
      rw [ih]
      simp [lCtx, isSch]

theorem go_delF {n : Nat} {rev rest : List Tok} (hn : rest.length ≤ n) :
    go [([tA], [])] .eps .vowelSVir n rev rest = rev.reverse ++ delF rest := by
  induction n generalizing rev rest with
  | zero => cases rest with
    | nil => simp [go, delF]
    | cons a rest => simp at hn
  | succ n ih => cases rest with
    | nil => simp [go, delF]
    | cons a rest =>
      have hn' : rest.length ≤ n := by simpa using hn
      have h1 : teq tA a = teq a tA := by
        rw [Bool.eq_iff_iff, teq_iff, teq_iff, eq_comm]
      rw [go, delF, pick, tdrop, h1]
      cases h : teq a tA
      · simp only [cond_false, pick, Bool.false_and]
        rw [ih hn']
        simp
      · simp only [cond_true, tdrop, lCtx, Bool.true_and]
        cases h2 : rCtx .vowelSVir rest
        · simp only [cond_false, pick]
          rw [ih hn']
          simp
        · simp only [cond_true]
          rw [ih hn']
          simp

section
set_option maxRecDepth 100000
theorem a_sch : isSch tA = false := by decide +kernel
end

theorem delF_insF {p : Option Tok} {ts : List Tok} (h : wfF p ts = true) (b : Bool) :
    delF (insF b ts) = combF b ts := by
  have hA : teq tA tA = true := teq_iff.2 rfl
  induction ts generalizing p b with
  | nil => cases b <;> simp [insF, combF, delF, hA, rCtx]
  | cons a ts ih =>
    rw [wfF, Bool.and_eq_true] at h
    have key : delF (a :: insF (isSch a) ts) = a :: combF (isSch a) ts := by
      rw [delF]
      have : (teq a tA && rCtx .vowelSVir (insF (isSch a) ts)) = false := by
        cases ha : teq a tA
        · rfl
        · rw [teq_iff.1 ha, a_sch, Bool.true_and]
          cases ts with
          | nil => rfl
          | cons c ts =>
            have h2 := h.2
            rw [wfF, Bool.and_eq_true, adj, Bool.and_eq_true, teq_iff.1 ha, a_sch] at h2
            have h3 := h2.1.1
            cases hs : isSign c
            · exact hs
            · rw [hs] at h3; cases h3
      rw [this, cond_false, ih h.2]
    rw [insF, combF]
    cases b
    · simpa using key
    · rw [cond_true, List.singleton_append, delF, hA, Bool.true_and, Bool.true_and, key,
        show rCtx .vowelSVir (a :: insF (isSch a) ts) = isSign a from rfl]
      cases isSign a <;> rfl

/-- A rule at the beginning of words. -/
def bowW (w : Rw) : Bool :=
  (match w.preceding with | .bow => true | _ => false) && (match w.following with | .nul => true | _ => false) &&
  w.tok.all fun p => match p.1, p.2 with
    | [_], [_] => true
    | _, _ => false

/-- What a rule at the beginning makes of the first symbol. -/
def firstW (w : Rw) (a : Tok) : Tok := match w.tok.find? fun p => (match p.1 with | [b] => teq b a | _ => false) with
  | some p => (match p.2 with | [b] => b | _ => a)
  | none => a

theorem go_bow {rs : List (List Tok × List Tok)} {n : Nat} {a : Tok} {rev rest : List Tok} :
    go rs .bow .nul n (a :: rev) rest = (a :: rev).reverse ++ rest := by
  induction n generalizing a rev rest with
  | zero => cases rest with
    | nil => simp [go]
    | cons b rest => rfl
  | succ n ih => cases rest with
    | nil => simp [go]
    | cons b rest =>
      have h : pick .bow .nul (a :: rev) (b :: rest) rs = none := by
        cases h : pick .bow .nul (a :: rev) (b :: rest) rs with
        | none => rfl
        | some q =>
          obtain ⟨l, _, _, h1, _⟩ := pick_some (rest' := q.1) (r := q.2) h
          cases h1
      rw [go, h]
      simp only
      rw [ih]
      simp

theorem pick_bow {rs : List (List Tok × List Tok)} {a : Tok} {rest : List Tok}
    (h : (rs.all fun p => match p.1, p.2 with
      | [_], [_] => true
      | _, _ => false) = true) :
    pick .bow .nul [] (a :: rest) rs = (rs.find? fun p => (match p.1 with | [b] => teq b a | _ => false)).map
      fun p => (rest, p.2) := by
  induction rs with
  | nil => rfl
  | cons p rs ih =>
    obtain ⟨l, r⟩ := p
    rw [List.all_cons, Bool.and_eq_true] at h
    match l, r, h.1 with
    | [b], [c], _ =>
      rw [pick, tdrop, List.find?_cons]
      simp only
      cases hb : teq b a
      · simp only [cond_false]
        exact ih h.2
      · simp [tdrop, lCtx, rCtx]

theorem run_bow {w : Rw} (h : bowW w = true) (a : Tok) (ts : List Tok) :
    w.run (a :: ts) = firstW w a :: ts ∧ w.run [] = [] := by
  rw [bowW, Bool.and_eq_true, Bool.and_eq_true] at h
  have hP : w.preceding = .bow := by
    have := h.1.1
    cases hp : w.preceding <;> rw [hp] at this <;> first | rfl | cases this
  have hF : w.following = .nul := by
    have := h.1.2
    cases hp : w.following <;> rw [hp] at this <;> first | rfl | cases this
  have hne : ∀ l r, (l, r) ∈ w.tok → l ≠ [] := by
    intro l r hm hl
    have := List.all_eq_true.1 h.2 _ hm
    subst hl
    cases this
  constructor
  · rw [run_go hne, hP, hF, List.length_cons, go, pick_bow h.2, firstW]
    cases hf : w.tok.find? fun p => (match p.1 with | [b] => teq b a | _ => false) with
    | none => simp only [Option.map_none]; rw [go_bow]; rfl
    | some p =>
      obtain ⟨l, r⟩ := p
      have := List.all_eq_true.1 h.2 _ (List.mem_of_find?_eq_some hf)
      match l, r, this with
      | [b], [c], _ =>
        simp only [Option.map_some]
        rw [show [c].reverse ++ [] = [c] from rfl, go_bow]
        rfl
  · rw [run_go hne]; rfl

/-- What the rules at the beginning make of the first symbol. -/
def firstWs (ws : List Rw) (a : Tok) : Tok := ws.foldl (fun a w => firstW w a) a

theorem runs_bow {ws : List Rw} (h : ws.all bowW = true) (a : Tok) (ts : List Tok) :
    runs ws (a :: ts) = firstWs ws a :: ts ∧ runs ws [] = [] := by
  induction ws generalizing a with
  | nil => exact ⟨rfl, rfl⟩
  | cons w ws ih =>
    rw [List.all_cons, Bool.and_eq_true] at h
    obtain ⟨h1, h2⟩ := run_bow h.1 a ts
    obtain ⟨h3, h4⟩ := ih h.2 (firstW w a)
    constructor
    · show runs ws (w.run (a :: ts)) = _
      rw [h1, h3]; rfl
    · show runs ws (w.run []) = _
      rw [h2, h4]

/-- The class of a symbol: letter that may carry a sign, virama or anusvara, other. -/
def kls (a : Tok) : Nat := bif isSch a then 1 else bif isVA a then 3 else 2

/-- What is written for a symbol after a symbol of a class. -/
def emit (F : Tok → Tok) (c : Nat) (t : Tok) : Str :=
  (bif Nat.beq c 1 && !isSign t then glT tA else []) ++ glT (bif Nat.beq c 0 then F t else t)

/-- What is written for a text. -/
def outF (F : Tok → Tok) : Nat → List Tok → Str
  | c, [] => bif Nat.beq c 1 then glT tA else []
  | c, t :: ts => emit F c t ++ outF F (kls t) ts

theorem kls_sch (a : Tok) : Nat.beq (kls a) 1 = isSch a := by
  rw [kls]
  cases isSch a <;> cases isVA a <;> rfl
theorem kls_pos (a : Tok) : Nat.beq (kls a) 0 = false := by
  rw [kls]
  cases isSch a <;> cases isVA a <;> rfl

theorem combF_out (F : Tok → Tok) {c : Nat} (hc : Nat.beq c 0 = false) (ts : List Tok) :
    (combF (Nat.beq c 1) ts).flatMap glT = outF F c ts := by
  induction ts generalizing c with
  | nil => rw [combF, outF]; cases Nat.beq c 1 <;> simp
  | cons t ts ih =>
    rw [combF, outF, emit, hc, ← kls_sch, List.flatMap_append, List.flatMap_cons, ih (kls_pos t),
      List.append_assoc]
    cases Nat.beq c 1 && !isSign t <;> simp

theorem typ2iso_split (P : Params) : typ2iso P = [insert (iso a!"A") .schCons, rw1 (iso a!"A") [] .eps .vowelSVir] ++
    indToSign P := rfl

section
set_option maxRecDepth 100000
theorem ins_tok : (match (insert (iso a!"A") .schCons).tok with
    | [([], [b])] => teq b tA
    | _ => false) = true := by decide +kernel
theorem del_tok : (match (rw1 (iso a!"A") [] .eps .vowelSVir).tok with
    | [([b], [])] => teq b tA
    | _ => false) = true := by decide +kernel
theorem ind_ok : ([hi, ta].all fun P => (indToSign P).all bowW) = true := by decide +kernel
end

theorem iso_out {P : Params} (hP : P = hi ∨ P = ta) {ts : List Tok} (h : wfF none ts = true) :
    (runs (typ2iso P) ts).flatMap glT = outF (firstWs (indToSign P)) 0 ts := by
  have hb : (indToSign P).all bowW = true := List.all_eq_true.1 ind_ok P (by
    rcases hP with h | h
    · exact h ▸ List.mem_cons_self
    · exact h ▸ List.mem_cons_of_mem _ List.mem_cons_self)
  rw [typ2iso_split, runs_append]
  generalize indToSign P = ws at *
  have e1 : (insert (iso a!"A") .schCons).tok = [([], [tA])] := by
    have := ins_tok
    split at this
    · rename_i b hb; rw [hb, teq_iff.1 this]
    · cases this
  have e2 : (rw1 (iso a!"A") [] .eps .vowelSVir).tok = [([tA], [])] := by
    have := del_tok
    split at this
    · rename_i b hb; rw [hb, teq_iff.1 this]
    · cases this
  have : runs [insert (iso a!"A") .schCons, rw1 (iso a!"A") [] .eps .vowelSVir] ts = combF false ts := by
    show (rw1 (iso a!"A") [] .eps .vowelSVir).run ((insert (iso a!"A") .schCons).run ts) = _
    rw [run_ins e1, run_go (by rw [e2]; simp), e2]
    rw [show (insert (iso a!"A") .schCons).preceding = .schCons from rfl,
      show (insert (iso a!"A") .schCons).following = .eps from rfl,
      show (rw1 (iso a!"A") [] .eps .vowelSVir).preceding = .eps from rfl,
      show (rw1 (iso a!"A") [] .eps .vowelSVir).following = .vowelSVir from rfl,
      goIns_insF, go_delF (Nat.le_refl _)]
    rw [List.reverse_nil, List.nil_append, List.nil_append, delF_insF h]
    rfl
  rw [this]
  cases ts with
  | nil => rw [show combF false [] = [] from rfl, (runs_bow hb tA []).2]; rfl
  | cons t ts =>
    rw [combF, Bool.false_and, cond_false, List.nil_append, (runs_bow hb t _).1, List.flatMap_cons, outF,
      ← kls_sch, combF_out (firstWs ws) (kls_pos t), emit]
    rfl

/-! ## Admissible sequences -/

/-- What may follow a class. -/
def adm (c : Nat) (t : Tok) : Bool :=
  (bif isSign t then Nat.beq c 1 else true) && ((bif isAns t then Nat.beq c 2 else true) &&
    (bif isInd t then !Nat.beq c 3 else true))
def admF : Nat → List Tok → Bool
  | _, [] => true
  | c, t :: ts => adm c t && admF (kls t) ts

def kO : Option Tok → Nat
  | none => 0
  | some a => kls a

/-- Vowels do not carry signs. -/
def vowOk (a : Tok) : Bool := !isVow a || (!isSch a && !isVA a)

theorem admF_of {p : Option Tok} {ts : List Tok} (h : wfF p ts = true) (hv : NV (p.toList ++ ts))
    (ho : ∀ a ∈ p.toList ++ ts, vowOk a = true) : admF (kO p) ts = true := by
  induction ts generalizing p with
  | nil => rfl
  | cons t ts ih =>
    rw [wfF, Bool.and_eq_true] at h
    rw [admF, Bool.and_eq_true]
    refine ⟨?_, ih (p := some t) h.2 ?_ ?_⟩
    · have h1 := h.1
      cases p with
      | none =>
        rw [adj, Bool.not_eq_true', Bool.or_eq_false_iff] at h1
        rw [adm, h1.1, h1.2]
        cases isInd t <;> rfl
      | some a =>
        rw [adj, Bool.and_eq_true] at h1
        rw [adm, Bool.and_eq_true, Bool.and_eq_true]
        refine ⟨?_, ?_, ?_⟩
        · have := h1.1
          cases hs : isSign t
          · rfl
          · rw [hs, cond_true] at this
            rw [cond_true, kO, kls_sch, this]
        · have := h1.2
          cases hs : isAns t
          · rfl
          · rw [hs, cond_true] at this
            have h2 := ho a (by simp)
            rw [vowOk, this, Bool.not_true, Bool.false_or, Bool.and_eq_true, Bool.not_eq_true', Bool.not_eq_true'] at h2
            rw [cond_true, kO, kls, h2.1, h2.2]; rfl
        · cases hs : isInd t
          · rfl
          · rw [cond_true, kO, kls]
            cases hc : isSch a
            · cases hk : isVA a
              · rfl
              · exact absurd ⟨[], ts, rfl⟩ (hv a t hk (by rw [isV, hs, Bool.or_true]))
            · rfl
    · intro a b ha hb hp
      cases p with
      | none => exact hv a b ha hb hp
      | some c => exact hv a b ha hb (pair_append.2 (.inr (.inl hp)))
    · intro a ha
      exact ho a (List.mem_append.2 (.inr ha))

/-! ## Simulation -/

/-- The rest after a prefix. -/
def dropP : Str → Str → Option Str
  | [], s => some s
  | _ :: _, [] => none
  | a :: p, b :: s => bif Nat.beq a b then dropP p s else none

theorem dropP_some {p s r : Str} (h : dropP p s = some r) : s = p ++ r := by
  induction p generalizing s with
  | nil => injection h
  | cons a p ih => cases s with
    | nil => cases h
    | cons b s =>
      rw [dropP] at h
      cases hb : Nat.beq a b
      · rw [hb] at h; cases h
      · rw [hb] at h
        rw [Nat.eq_of_beq_eq_true hb, ih h]; rfl

/-- A state: the class of the last symbol, the row of the certificate and what is written by the
deromanizer but not yet by the certificate. -/
abbrev St := Nat × Nat × Str

def inQ (Q : List St) (c i : Nat) (m : Str) : Bool :=
  Q.any fun q => Nat.beq q.1 c && (Nat.beq q.2.1 i && strEq q.2.2 m)

theorem inQ_mem {Q : List St} {c i : Nat} {m : Str} (h : inQ Q c i m = true) : (c, i, m) ∈ Q := by
  obtain ⟨⟨c', i', m'⟩, hq, h⟩ := List.any_eq_true.1 h
  simp only [Bool.and_eq_true] at h
  rw [Nat.eq_of_beq_eq_true h.1, Nat.eq_of_beq_eq_true h.2.1, strEq_iff.1 h.2.2] at hq
  exact hq

noncomputable def finOk (C : Cert) (q : St) : Bool := match C.rows.find q.2.1 with
  | some row => (match finals row with
    | e :: _ => strEq e.out (q.2.2 ++ bif Nat.beq q.1 1 then glT tA else [])
    | [] => false)
  | none => false

noncomputable def simOk (C : Cert) (br : Tok → Str) (F : Tok → Tok) (A : List Tok) (Q : List St) : Bool :=
  inQ Q 0 0 [] && Q.all fun q => finOk C q && A.all fun t => !adm q.1 t || C.walk (br t) q.2.1 fun o j =>
    match dropP o (q.2.2 ++ emit F q.1 t) with
    | some m => inQ Q (kls t) j m
    | none => false

theorem sim_run {C : Cert} {br : Tok → Str} {F : Tok → Tok} {A : List Tok} {Q : List St}
    (h : simOk C br F A Q = true) {ts : List Tok} {c i : Nat} {m : Str} (hq : (c, i, m) ∈ Q)
    (ha : admF c ts = true) (hA : ∀ a ∈ ts, a ∈ A) (v : Nat) (pre : Str) :
    ∃ v' o k row e l, (ts.flatMap br).foldl C.step (some (v, pre, i)) = some (v', pre ++ o, k) ∧
      C.rows.find k = some row ∧ finals row = e :: l ∧ o ++ e.out = m ++ outF F c ts := by
  rw [simOk, Bool.and_eq_true] at h
  induction ts generalizing c i m v pre with
  | nil =>
    have := List.all_eq_true.1 h.2 _ hq
    rw [Bool.and_eq_true, finOk] at this
    have := this.1
    split at this
    · rename_i row hrow
      split at this
      · rename_i e l hf
        refine ⟨v, [], i, row, e, l, by simp, hrow, hf, ?_⟩
        rw [List.nil_append, strEq_iff.1 this]; rfl
      · cases this
    · cases this
  | cons t ts ih =>
    rw [admF, Bool.and_eq_true] at ha
    have h1 := List.all_eq_true.1 h.2 _ hq
    rw [Bool.and_eq_true] at h1
    have h2 := List.all_eq_true.1 h1.2 t (hA t (by simp))
    rw [ha.1, Bool.not_true, Bool.false_or] at h2
    obtain ⟨v1, o1, k1, h3, h4⟩ := walk_run (v := v) (pre := pre) h2
    split at h3
    · rename_i m' hd
      obtain ⟨v', o, k, row, e, l, h5, h6, h7, h8⟩ := ih (inQ_mem h3) ha.2 (fun a h => hA a (by simp [h])) v1 (pre ++ o1)
      refine ⟨v', o1 ++ o, k, row, e, l, ?_, h6, h7, ?_⟩
      · rw [List.flatMap_cons, List.foldl_append, h4, h5, List.append_assoc]
      · rw [List.append_assoc, h8, outF, ← List.append_assoc, ← dropP_some hd, List.append_assoc]
    · cases h3

theorem sim_best {C : Cert} {br : Tok → Str} {F : Tok → Tok} {A : List Tok} {Q : List St}
    (h : simOk C br F A Q = true) {ts : List Tok} (ha : admF 0 ts = true) (hA : ∀ a ∈ ts, a ∈ A) :
    ∃ w, C.best (ts.flatMap br) = some (w, outF F 0 ts) := by
  have h0 := h
  rw [simOk, Bool.and_eq_true] at h0
  obtain ⟨v', o, k, row, e, l, h5, h6, h7, h8⟩ := sim_run h (inQ_mem h0.1) ha hA 0 []
  rw [List.nil_append] at h5 h8
  refine ⟨v' + e.wt, ?_⟩
  rw [Cert.best, Cert.run, h5]
  simp only [h6, h7, h8]

/-- The states for Hindi. -/
def hiQ : List St :=
  [(0, 0, []), (2, 10, []), (1, 9, a!"y"), (1, 5, a!"pʰ"), (1, 3, a!"kʰ"), (1, 2, a!"k"), (1, 4, a!"j"),
   (1, 6, a!"g"), (1, 1, []), (3, 0, []), (2, 9, a!"ya"), (3, 11, []), (2, 5, a!"pʰa"), (2, 3, a!"kʰa"),
   (2, 2, a!"ka"), (2, 4, a!"ja"), (2, 6, a!"ga"), (2, 1, a!"a")]
/-- The states for Tamil. -/
def taQ : List St := [(0, 0, []), (2, 3, []), (1, 1, []), (2, 1, a!"a"), (3, 4, [])]

section
set_option maxRecDepth 100000
theorem hi_sim : simOk IsoCert.Deva.D (brT true) (firstWs (indToSign hi)) (alphas (typOps hi) LC) hiQ = true := by
  decide +kernel
theorem ta_sim : simOk IsoCert.Taml.D (brT false) (firstWs (indToSign ta)) (alphas (typOps ta) LC) taQ = true := by
  decide +kernel
theorem vow_ok : ([hi, ta].all fun P => (alphas (typOps P) LC).all vowOk) = true := by decide +kernel
end

/-- The certificate romanizes the native deromanization to the ISO one. -/
theorem derom_best {P : Params} (hP : P = hi ∨ P = ta) {C : Cert} {Q : List St}
    (h : simOk C (brT P.deva) (firstWs (indToSign P)) (alphas (typOps P) LC) Q = true) {x : Str} (hx : lower x) :
    ∃ w, C.best (brhOf P x) = some (w, isoOf P x) := by
  have hm : P ∈ [hi, ta] := by
    rcases hP with h | h
    · exact h ▸ List.mem_cons_self
    · exact h ▸ List.mem_cons_of_mem _ List.mem_cons_self
  have h1 := (typOps_ok hP).1
  have h2 : (typOps P).all shapeW = true := List.all_eq_true.1 shape_ok P hm
  have h3 := typ_nv hP hx
  have h4 : (alphas (typOps P) LC).all vowOk = true := List.all_eq_true.1 vow_ok P hm
  rw [brhOf, isoOf]
  generalize typOps P = ws at *
  have h5 := runs_shape h1 h2 (lat_shape hx none)
  have h6 := runs_alpha h1 (lat_mem hx)
  rw [iso_out hP h5]
  refine sim_best h (admF_of (p := none) h5 h3 fun a ha => List.all_eq_true.1 h4 a (h6 a ha)) h6

/-! ## NFC -/

/-- A pair of letters whose second does not begin the letters of a symbol. -/
theorem pair_flat {f : Tok → Str} {a b : Nat} {ts : List Tok}
    (h : ∀ t ∈ ts, (f t).head? ≠ some b ∧ ¬ [a, b] <:+: f t) : ¬ [a, b] <:+: ts.flatMap f := by
  induction ts with
  | nil => intro h; have := h.length_le; simp at this
  | cons t ts ih =>
    have ht := h t (by simp)
    have ih' := ih fun s hs => h s (by simp [hs])
    have hb : ∀ s ∈ ts, (f s).head? ≠ some b := fun s hs => (h s (by simp [hs])).1
    have hh : (ts.flatMap f).head? ≠ some b := by
      clear ih ih' h ht
      induction ts with
      | nil => simp
      | cons s ts ih =>
        rw [List.flatMap_cons, List.head?_append]
        cases hs : (f s).head? with
        | none => exact ih fun s hs => hb s (by simp [hs])
        | some c =>
          have := hb s (by simp)
          rw [hs] at this
          exact this
    rw [List.flatMap_cons]
    rintro ⟨u, v, he⟩
    have he' : (u ++ [a, b]) ++ v = f t ++ ts.flatMap f := by simpa using he
    rcases List.append_eq_append_iff.1 he' with ⟨z, h1, _⟩ | ⟨z, h1, h2⟩
    · exact ht.2 ⟨u, z, h1.symm⟩
    · rcases List.eq_nil_or_concat z with rfl | ⟨z, d, rfl⟩
      · exact ht.2 ⟨u, [], by simpa using h1⟩
      · rw [List.concat_eq_append] at h1 h2
        have h3 : u ++ [a] = f t ++ z ∧ b = d := by
          have : (u ++ [a]) ++ [b] = (f t ++ z) ++ [d] := by simpa using h1
          have := List.append_inj' this rfl
          exact ⟨this.1, by simpa using this.2⟩
        obtain ⟨h3, rfl⟩ := h3
        rcases List.eq_nil_or_concat z with rfl | ⟨z, d, rfl⟩
        · rw [h2] at hh; simp at hh
        · rw [List.concat_eq_append] at h3 h2
          have : u ++ [a] = (f t ++ z) ++ [d] := by simpa using h3
          have h4 := (List.append_inj' this rfl).2
          injection h4 with h4 _
          subst h4
          exact ih' ⟨z, v, by rw [h2]; simp⟩

/-- Letters of a symbol without left sides of the NFC rules. -/
def nfcT (rules : List Rule) (s : Str) : Bool := rules.all fun p => match p.1 with
  | [a] => !s.any (Nat.beq a)
  | [a, b] => (match s with | c :: _ => !Nat.beq b c | [] => true) && !(s.zip s.tail).any fun q => Nat.beq a q.1 && Nat.beq b q.2
  | _ => false

theorem zip_infix {a b : Nat} {s : Str} (h : [a, b] <:+: s) :
    ((s.zip s.tail).any fun q => Nat.beq a q.1 && Nat.beq b q.2) = true := by
  obtain ⟨u, v, rfl⟩ := h
  induction u with
  | nil => simp
  | cons c u ih =>
    have : ((c :: u) ++ [a, b] ++ v) = c :: (u ++ [a, b] ++ v) := rfl
    rw [this, List.tail_cons]
    cases hw : u ++ [a, b] ++ v with
    | nil => simp at hw
    | cons d w =>
      rw [hw] at ih
      rw [List.tail_cons] at ih
      rw [List.zip_cons_cons, List.any_cons, ih, Bool.or_true]

theorem nfcT_no {rules : List Rule} {ts : List Tok} {f : Tok → Str} (h0 : nfcT rules [] = true)
    (h : ∀ t ∈ ts, nfcT rules (f t) = true) : ∀ p ∈ rules, ¬ p.1 <:+: ts.flatMap f := by
  rintro ⟨l, r⟩ hp
  have hl := List.all_eq_true.1 h0 _ hp
  match l, hl with
  | [a], _ =>
    intro hi
    have : a ∈ ts.flatMap f := hi.subset (by simp)
    obtain ⟨t, ht, ha⟩ := List.mem_flatMap.1 this
    have h1 := List.all_eq_true.1 (h t ht) _ hp
    simp only [Bool.not_eq_true', List.any_eq_false] at h1
    exact h1 a ha (Nat.beq_refl a)
  | [a, b], _ =>
    apply pair_flat
    intro t ht
    have h1 := List.all_eq_true.1 (h t ht) _ hp
    simp only [Bool.and_eq_true] at h1
    constructor
    · intro hh
      cases hf : f t with
      | nil => rw [hf] at hh; cases hh
      | cons c s =>
        rw [hf] at h1 hh
        injection hh with hh
        have := h1.1
        simp only [hh, Nat.beq_refl, Bool.not_true] at this
        cases this
    · intro hi
      have := h1.2
      rw [zip_infix hi] at this
      cases this

section
set_option maxRecDepth 100000
theorem hi_nfc : nfcT Data.deva.nfc [] = true ∧
    ((alphas (typOps hi) LC).all fun t => nfcT Data.deva.nfc (brT true t)) = true := by decide +kernel
theorem ta_nfc : (Data.taml.nfc.all fun p => match p.1 with
    | [a, b] => Nat.beq b 0xbd7 || (Nat.beq b 0xbbe && !tamlK.base a)
    | _ => false) = true ∧
    ((alphas (typOps ta) LC).all fun t => !(brT false t).any (Nat.beq 0xbd7)) = true ∧
    tamlK.sign 0xbbe = true := by decide +kernel
end

/-- The native deromanization is in NFC. -/
theorem hi_fixed {x : Str} (hx : lower x) : ∀ p ∈ Data.deva.nfc, ¬ p.1 <:+: brhOf hi x := by
  have h1 := (typOps_ok (P := hi) (.inl rfl)).1
  have h4 := hi_nfc
  rw [brhOf]
  generalize typOps hi = ws at *
  exact nfcT_no h4.1 fun t ht => List.all_eq_true.1 h4.2 t (runs_alpha h1 (lat_mem hx) t ht)

theorem ta_fixed {x : Str} (hx : lower x) : ∀ p ∈ Data.taml.nfc, ¬ p.1 <:+: brhOf ta x := by
  have h1 := (typOps_ok (P := ta) (.inr rfl)).1
  have h2 := ta_shape hx
  obtain ⟨h3, h4, h5⟩ := ta_nfc
  rintro ⟨l, r⟩ hp hi
  have hl := List.all_eq_true.1 h3 _ hp
  match l, hl with
  | [a, b], hl =>
    simp only [Bool.or_eq_true, Bool.and_eq_true] at hl
    rcases hl with hl | ⟨hl, ha⟩
    · rw [Nat.eq_of_beq_eq_true hl] at hi
      have : 0xbd7 ∈ brhOf ta x := hi.subset (by simp)
      rw [brhOf] at this
      generalize typOps ta = ws at *
      obtain ⟨t, ht, hb⟩ := List.mem_flatMap.1 this
      have := List.all_eq_true.1 h4 t (runs_alpha h1 (lat_mem hx) t ht)
      simp only [Bool.not_eq_true', List.any_eq_false] at this
      exact this _ hb (Nat.beq_refl _)
    · rw [Nat.eq_of_beq_eq_true hl] at hi
      obtain ⟨u, v, he⟩ := hi
      rw [← he, show u ++ [a, 0xbbe] ++ v = (u ++ [a]) ++ 0xbbe :: v by simp] at h2
      have := ok_split tamlK h2
      rw [lastC_concat, Classes.after, Bool.and_eq_true, h5, Bool.true_or, cond_true] at this
      rw [this.1] at ha
      cases ha

end Derom
end Nisaba.NT
