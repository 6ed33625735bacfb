import Verif.Model.Pynini
/-!
# Certificates for weighted transducers

A weighted transducer is a list of arcs with strings as labels.  A certificate is a deterministic
machine whose rows list, for every state and every unread part of an arc, the least weight and the
one output of that weight.  `Cert.ok` is a finite check; `exact` says what a checked certificate
proves about all inputs.  Certificates are found by a search (`Verif.Lemmas.IsoSearch`) that need
not be trusted.
-/
namespace Nisaba.Seq

noncomputable section

/-- Arc of a transducer: source, input, output, weight, target. -/
structure Arc where
  src : Nat
  inp : Str
  out : Str
  wt : Nat
  dst : Nat
  deriving DecidableEq, Repr

/-- `Run A p x y w q`: a path from `p` to `q` reads `x`, writes `y` and has weight `w`. -/
inductive Run (A : List Arc) : Nat → Str → Str → Nat → Nat → Prop
  | nil (q : Nat) : Run A q [] [] 0 q
  | cons {a : Arc} {x y : Str} {w q : Nat} (h : a ∈ A) (k : Run A a.dst x y w q) :
      Run A a.src (a.inp ++ x) (a.out ++ y) (a.wt + w) q

theorem Run.trans {A : List Arc} {p q r : Nat} {x y x' y' : Str} {w w' : Nat}
    (h : Run A p x y w q) (k : Run A q x' y' w' r) : Run A p (x ++ x') (y ++ y') (w + w') r := by
  induction h with
  | nil q => simpa using k
  | cons h _ ih =>
    rw [List.append_assoc, List.append_assoc, Nat.add_assoc]
    exact Run.cons h (ih k)

theorem Run.single {A : List Arc} {a : Arc} (h : a ∈ A) : Run A a.src a.inp a.out a.wt a.dst := by
  simpa using Run.cons h (Run.nil (A := A) a.dst)

/-- `Reach A x o w q p`: after reading `x` from state 0 the path is at the end of arcs up to state
`q` except that `p` of the last arc is still to be read. -/
inductive Reach (A : List Arc) : Str → Str → Nat → Nat → Str → Prop
  | start : Reach A [] [] 0 0 []
  | read {x o w q c p} (h : Reach A x o w q (c :: p)) : Reach A (x ++ [c]) o w q p
  | arc {x o w c p} {a : Arc} (h : Reach A x o w a.src []) (ha : a ∈ A) (hi : a.inp = c :: p) :
      Reach A (x ++ [c]) (o ++ a.out) (w + a.wt) a.dst p

theorem Reach.reads {A : List Arc} {x o w q p s} (h : Reach A x o w q (p ++ s)) :
    Reach A (x ++ p) o w q s := by
  induction p generalizing x with
  | nil => simpa using h
  | cons c p ih =>
    have := ih (x := x ++ [c]) (Reach.read h)
    simpa using this

theorem Reach.run {A : List Arc} (hA : ∀ a ∈ A, a.inp ≠ []) {p q : Nat} {x y : Str} {w : Nat}
    (h : Run A p x y w q) {x₀ o₀ w₀} (k : Reach A x₀ o₀ w₀ p []) :
    Reach A (x₀ ++ x) (o₀ ++ y) (w₀ + w) q [] := by
  induction h generalizing x₀ o₀ w₀ with
  | nil q => simpa using k
  | @cons a x y w q ha _ ih =>
    obtain ⟨c, i, hi⟩ : ∃ c i, a.inp = c :: i := by
      cases h : a.inp with
      | nil => exact absurd h (hA a ha)
      | cons c i => exact ⟨c, i, rfl⟩
    have h1 := Reach.arc k ha hi
    have h2 : Reach A (x₀ ++ [c] ++ i) (o₀ ++ a.out) (w₀ + a.wt) a.dst [] :=
      Reach.reads (s := []) (by simpa using h1)
    have := ih h2
    rw [hi]
    simpa [Nat.add_assoc] using this

/-- What a `Reach` is a part of. -/
theorem Reach.toRun {A : List Arc} {x o w q p} (h : Reach A x o w q p) :
    Run A 0 (x ++ p) o w q := by
  induction h with
  | start => exact Run.nil 0
  | read _ ih => simpa using ih
  | @arc x o w c p a _ ha hi ih =>
    have := ih.trans (Run.single ha)
    simpa [hi] using this

theorem run_iff_reach {A : List Arc} (hA : ∀ a ∈ A, a.inp ≠ []) {x y : Str} {w q : Nat} :
    Run A 0 x y w q ↔ Reach A x y w q [] :=
  ⟨fun h => by simpa using Reach.run hA h Reach.start, fun h => by simpa using h.toRun⟩

/-! ## Search trees

The functions of the check are written with recursors, which the kernel evaluates faster than
definitions by pattern matching. -/

abbrev sel {α : Type} (b : Bool) (x y : α) : α := Bool.rec y x b

theorem sel_eq {α : Type} (b : Bool) (x y : α) : sel b x y = bif b then x else y := by
  cases b <;> rfl

def lall {α : Type} (p : α → Bool) (l : List α) : Bool :=
  List.rec true (fun a _ ih => sel (p a) ih false) l

theorem lall_iff {α : Type} {p : α → Bool} {l : List α} : lall p l = true ↔ ∀ a ∈ l, p a = true := by
  induction l with
  | nil => simp [lall]
  | cons a l ih =>
    show sel (p a) (lall p l) false = true ↔ _
    rw [sel_eq]
    cases h : p a <;> simp [ih, h]

inductive Tree (α : Type) where
  | nil
  | node (l : Tree α) (k : Nat) (v : α) (r : Tree α)
  deriving Repr

namespace Tree
variable {α : Type}

def find (t : Tree α) (c : Nat) : Option α :=
  Tree.rec none (fun _ k v _ il ir => sel (Nat.beq c k) (some v) (sel (Nat.ble c k) il ir)) t

def all (p : Nat → α → Bool) (t : Tree α) : Bool :=
  Tree.rec true (fun _ k v _ il ir => sel (p k v) (sel il ir false) false) t

def sum (f : α → Nat) (t : Tree α) : Nat :=
  Tree.rec 0 (fun _ _ v _ il ir => Nat.add il (Nat.add (f v) ir)) t

def toList : Tree α → List (Nat × α)
  | nil => []
  | node l k v r => l.toList ++ (k, v) :: r.toList

theorem find_node (l r : Tree α) (k : Nat) (v : α) (c : Nat) : (node l k v r).find c =
    bif Nat.beq c k then some v else bif Nat.ble c k then l.find c else r.find c := by
  show sel _ _ (sel _ _ _) = _
  rw [sel_eq, sel_eq]; rfl

theorem all_node (l r : Tree α) (k : Nat) (v : α) (p : Nat → α → Bool) : (node l k v r).all p =
    (p k v && (l.all p && r.all p)) := by
  show sel _ (sel _ _ _) _ = _
  rw [sel_eq, sel_eq]
  show (bif p k v then bif l.all p then r.all p else false else false) = _
  cases p k v <;> cases l.all p <;> rfl

theorem mem_of_find {t : Tree α} {c : Nat} {v : α} (h : t.find c = some v) : (c, v) ∈ t.toList := by
  induction t with
  | nil => cases h
  | node l k u r ihl ihr =>
    rw [find_node] at h
    cases hb : Nat.beq c k with
    | true =>
      rw [hb] at h; simp only [cond_true, Option.some.injEq] at h
      have := Nat.eq_of_beq_eq_true hb
      simp [toList, this, h]
    | false =>
      rw [hb] at h; simp only [cond_false] at h
      cases hl : Nat.ble c k with
      | true => rw [hl] at h; simp only [cond_true] at h; simp [toList, ihl h]
      | false => rw [hl] at h; simp only [cond_false] at h; simp [toList, ihr h]

theorem all_iff {t : Tree α} {p : Nat → α → Bool} :
    t.all p = true ↔ ∀ q ∈ t.toList, p q.1 q.2 = true := by
  induction t with
  | nil => simp [all, toList]
  | node l k v r ihl ihr =>
    simp only [all_node, Bool.and_eq_true, ihl, ihr, toList, List.mem_append, List.mem_cons]
    constructor
    · rintro ⟨h2, h1, h3⟩ q (h | rfl | h)
      · exact h1 q h
      · exact h2
      · exact h3 q h
    · intro h
      exact ⟨h (k, v) (Or.inr (Or.inl rfl)), fun q hq => h q (Or.inl hq),
        fun q hq => h q (Or.inr (Or.inr hq))⟩

theorem all_find {t : Tree α} {p : Nat → α → Bool} (h : t.all p = true) {c : Nat} {v : α}
    (hf : t.find c = some v) : p c v = true := all_iff.1 h _ (mem_of_find hf)

end Tree

/-! ## Strings and entries, with fast Boolean tests -/

def strEq (s : Str) : Str → Bool :=
  List.rec (fun t => List.rec true (fun _ _ _ => false) t)
    (fun a _ ih t => List.rec false (fun b t _ => sel (Nat.beq a b) (ih t) false) t) s

theorem strEq_iff {s t : Str} : strEq s t = true ↔ s = t := by
  induction s generalizing t with
  | nil => cases t <;> simp [strEq]
  | cons a s ih =>
    cases t with
    | nil => simp [strEq]
    | cons b t =>
      show sel (Nat.beq a b) (strEq s t) false = true ↔ _
      rw [sel_eq]
      cases hb : Nat.beq a b with
      | true => have := Nat.eq_of_beq_eq_true hb; simp [ih, this]
      | false => have := Nat.ne_of_beq_eq_false hb; simp [this]

theorem beq_iff {a b : Nat} : Nat.beq a b = true ↔ a = b :=
  ⟨Nat.eq_of_beq_eq_true, fun h => by subst h; exact Nat.beq_refl a⟩

/-- Entry of a row: state, unread part of the arc, output and weight relative to what the
deterministic machine has emitted. -/
structure Entry where
  st : Nat
  pend : Str
  out : Str
  wt : Nat
  deriving DecidableEq, Repr, Hashable

/-- Row of a certificate: entries, and for the next character the additional weight, the output
emitted and the next row. -/
structure Row where
  entries : List Entry
  next : Tree (Nat × Str × Nat)

structure Cert where
  /-- Arcs by the first character of their input, with their position in the list of arcs. -/
  groups : Tree (List (Nat × Arc))
  rows : Tree Row

def arcEq (a b : Arc) : Bool :=
  bif Nat.beq a.src b.src then bif Nat.beq a.dst b.dst then bif Nat.beq a.wt b.wt then
    bif strEq a.inp b.inp then strEq a.out b.out else false else false else false else false

theorem arcEq_iff {a b : Arc} : arcEq a b = true ↔ a = b := by
  obtain ⟨a1, a2, a3, a4, a5⟩ := a
  obtain ⟨b1, b2, b3, b4, b5⟩ := b
  have key : arcEq ⟨a1, a2, a3, a4, a5⟩ ⟨b1, b2, b3, b4, b5⟩ =
      (Nat.beq a1 b1 && (Nat.beq a5 b5 && (Nat.beq a4 b4 && (strEq a2 b2 && strEq a3 b3)))) := by
    simp only [arcEq]
    cases Nat.beq a1 b1 <;> cases Nat.beq a5 b5 <;> cases Nat.beq a4 b4 <;> cases strEq a2 b2 <;> rfl
  rw [key]
  simp only [Bool.and_eq_true, beq_iff, strEq_iff, Arc.mk.injEq]
  constructor
  · rintro ⟨h1, h2, h3, h4, h5⟩; exact ⟨h1, h4, h5, h3, h2⟩
  · rintro ⟨h1, h2, h3, h4, h5⟩; exact ⟨h1, h5, h4, h2, h3⟩

/-- Is the arc with its position listed? -/
def listed (i : Nat) (a : Arc) : List (Nat × Arc) → Bool
  | [] => false
  | p :: l => bif Nat.beq i p.1 then arcEq a p.2 else listed i a l

theorem listed_mem {i : Nat} {a : Arc} {l : List (Nat × Arc)} (h : listed i a l = true) :
    (i, a) ∈ l := by
  induction l with
  | nil => simp [listed] at h
  | cons p l ih =>
    simp only [listed] at h
    cases hb : Nat.beq i p.1 with
    | true =>
      rw [hb] at h
      have h1 := Nat.eq_of_beq_eq_true hb
      have h2 := arcEq_iff.1 (by simpa using h)
      exact List.mem_cons.2 (Or.inl (Prod.ext h1 h2))
    | false => rw [hb] at h; exact List.mem_cons_of_mem _ (ih (by simpa using h))

/-- Every arc is listed under its first character and all its characters are keys. -/
def arcsListed (g : Tree (List (Nat × Arc))) : Nat → List Arc → Bool
  | _, [] => true
  | i, a :: l =>
    (match a.inp with
     | [] => false
     | c :: p =>
       (match g.find c with
        | none => false
        | some grp => listed i a grp) && p.all (fun c => (g.find c).isSome)) &&
    arcsListed g (i + 1) l

/-- Arcs in the group of a character start with that character. -/
def headsOk (g : Tree (List (Nat × Arc))) : Bool :=
  g.all (fun c grp => grp.all (fun p => headIs c p.2.inp))
where
  headIs (c : Nat) : Str → Bool
    | [] => false
    | x :: _ => Nat.beq x c

def groupsOk (A : List Arc) (g : Tree (List (Nat × Arc))) : Bool :=
  arcsListed g 0 A && (Nat.ble (g.sum List.length) A.length && headsOk g)

/-- `s ++ t`, evaluated and passed on. -/
def appK (s t : Str) (k : Str → Bool) : Bool :=
  List.rec (motive := fun _ => (Str → Bool) → Bool) (fun k => k t)
    (fun a _ ih k => ih fun r => k (a :: r)) s k

/-- Successors of an entry that is at the end of an arc. -/
def arcK (est : Nat) (eout : Str) (ewt : Nat) (g : List (Nat × Arc)) :
    List Entry → (List Entry → Bool) → Bool :=
  List.rec (fun acc k => k acc) (fun p _ ih acc k =>
    Prod.rec (fun _ a => Arc.rec (fun src inp out wt dst =>
      sel (Nat.beq src est)
        (List.rec false (fun _ t _ =>
          appK eout out fun o => ih (⟨dst, t, o, Nat.add ewt wt⟩ :: acc) k) inp)
        (ih acc k)) a) p) g

/-- Successors of the entries of a row for a character. -/
def candsK (c : Nat) (g : List (Nat × Arc)) (S : List Entry) :
    List Entry → (List Entry → Bool) → Bool :=
  List.rec (fun acc k => k acc) (fun e _ ih acc k =>
    Entry.rec (fun st pend out wt =>
      List.rec (arcK st out wt g acc fun acc => ih acc k)
        (fun c' p _ => sel (Nat.beq c c') (ih (⟨st, p, out, wt⟩ :: acc) k) (ih acc k)) pend) e) S

/-- Some entry of the next row has the key of `k` and is better, or equal with the same output. -/
def covered (dw : Nat) (pre : Str) (l : List Entry) (k : Entry) : Bool :=
  Entry.rec (fun kst kpend kout kwt =>
    List.rec false (fun e _ ih =>
      Entry.rec (fun est epend eout ewt =>
        sel (Nat.beq est kst)
          (sel (strEq epend kpend)
            (sel (Nat.beq (Nat.add dw ewt) kwt) (strEq (List.append pre eout) kout)
              (Nat.ble (Nat.add dw ewt) kwt))
            ih)
          ih) e) l) k

def attained (dw : Nat) (pre : Str) (l : List Entry) (e : Entry) : Bool :=
  Entry.rec (fun est epend eout ewt =>
    List.rec false (fun k _ ih =>
      Entry.rec (fun kst kpend kout kwt =>
        sel (Nat.beq est kst)
          (sel (strEq epend kpend)
            (sel (Nat.beq (Nat.add dw ewt) kwt)
              (sel (strEq (List.append pre eout) kout) true ih) ih)
            ih)
          ih) k) l) e

/-- One step of the deterministic machine is right. -/
def stepOk (C : Cert) (row : Row) (c : Nat) (s : Nat × Str × Nat) : Bool :=
  Option.rec false (fun grp =>
    Option.rec false (fun row' => candsK c grp row.entries [] fun ks =>
      sel (lall (covered s.1 s.2.1 row'.entries) ks)
        (lall (attained s.1 s.2.1 ks) row'.entries) false)
      (C.rows.find s.2.2))
    (C.groups.find c)

/-- No step of the transducer is missing. -/
def fullOk (row : Row) (c : Nat) (grp : List (Nat × Arc)) : Bool :=
  Option.rec (candsK c grp row.entries [] fun ks => List.rec true (fun _ _ _ => false) ks)
    (fun _ => true) (row.next.find c)

def isFinal (e : Entry) : Bool := Nat.beq e.st 0 && e.pend.isEmpty

def finals (row : Row) : List Entry := row.entries.filter isFinal

def startOk (C : Cert) : Bool :=
  match C.rows.find 0 with
  | none => false
  | some row =>
    match row.entries with
    | [e] => Nat.beq e.st 0 && (e.pend.isEmpty && (e.out.isEmpty && Nat.beq e.wt 0))
    | _ => false

def Cert.rowOk (C : Cert) (row : Row) : Bool :=
  row.next.all (stepOk C row) && Nat.ble (finals row).length 1

/-- The check of the steps that are there. -/
def Cert.ok (A : List Arc) (C : Cert) : Bool :=
  groupsOk A C.groups && (startOk C && C.rows.all (fun _ row => C.rowOk row))

/-- The check that no step is missing. -/
def Cert.full (C : Cert) : Bool := C.rows.all (fun _ row => C.groups.all (fullOk row))

/-! ## The deterministic machine -/

def Cert.step (C : Cert) : Option (Nat × Str × Nat) → Nat → Option (Nat × Str × Nat)
  | none, _ => none
  | some (v, pre, i), c =>
    match C.rows.find i with
    | none => none
    | some row =>
      match row.next.find c with
      | none => none
      | some (dw, p, j) => some (v + dw, pre ++ p, j)

/-- Weight, output and row after reading a text. -/
def Cert.run (C : Cert) (x : Str) : Option (Nat × Str × Nat) := x.foldl C.step (some (0, [], 0))

/-- What a row says about the text read. -/
structure Exact (A : List Arc) (x : Str) (v : Nat) (pre : Str) (S : List Entry) : Prop where
  sound : ∀ e ∈ S, Reach A x (pre ++ e.out) (v + e.wt) e.st e.pend
  complete : ∀ {o w q p}, Reach A x o w q p →
    ∃ e ∈ S, e.st = q ∧ e.pend = p ∧ (v + e.wt < w ∨ (v + e.wt = w ∧ pre ++ e.out = o))

theorem appK_eq (s t : Str) (k : Str → Bool) : appK s t k = k (s ++ t) := by
  induction s generalizing k with
  | nil => rfl
  | cons a s ih => exact ih fun r => k (a :: r)

theorem arcK_true {est : Nat} {eout : Str} {ewt : Nat} {g : List (Nat × Arc)} {acc : List Entry}
    {f : List Entry → Bool} (h : arcK est eout ewt g acc f = true) : ∃ l, f l = true ∧
      ∀ k, k ∈ l ↔ (∃ p ∈ g, p.2.src = est ∧
        k = ⟨p.2.dst, p.2.inp.tail, eout ++ p.2.out, ewt + p.2.wt⟩) ∨ k ∈ acc := by
  induction g generalizing acc with
  | nil => exact ⟨acc, h, by simp⟩
  | cons q g ih =>
    obtain ⟨i, ⟨src, inp, out, wt, dst⟩⟩ := q
    have h : sel (Nat.beq src est) (List.rec false (fun _ t _ => appK eout out fun o =>
      arcK est eout ewt g (⟨dst, t, o, Nat.add ewt wt⟩ :: acc) f) inp) (arcK est eout ewt g acc f)
      = true := h
    rw [sel_eq] at h
    cases hb : Nat.beq src est with
    | true =>
      have he := Nat.eq_of_beq_eq_true hb
      rw [hb] at h
      cases inp with
      | nil => cases h
      | cons c t =>
        have h : appK eout out (fun o =>
          arcK est eout ewt g (⟨dst, t, o, Nat.add ewt wt⟩ :: acc) f) = true := h
        rw [appK_eq] at h
        obtain ⟨l, h1, h2⟩ := ih h
        refine ⟨l, h1, fun k => (h2 k).trans ?_⟩
        constructor
        · rintro (⟨p, hp, h3⟩ | h3)
          · exact Or.inl ⟨p, List.mem_cons_of_mem _ hp, h3⟩
          · rcases List.mem_cons.1 h3 with rfl | h3
            · exact Or.inl ⟨_, List.mem_cons_self, he, rfl⟩
            · exact Or.inr h3
        · rintro (⟨p, hp, h3, h4⟩ | h3)
          · rcases List.mem_cons.1 hp with rfl | hp
            · exact Or.inr (List.mem_cons.2 (Or.inl h4))
            · exact Or.inl ⟨p, hp, h3, h4⟩
          · exact Or.inr (List.mem_cons_of_mem _ h3)
    | false =>
      have he := Nat.ne_of_beq_eq_false hb
      rw [hb] at h
      obtain ⟨l, h1, h2⟩ := ih h
      refine ⟨l, h1, fun k => (h2 k).trans ?_⟩
      constructor
      · rintro (⟨p, hp, h3⟩ | h3)
        · exact Or.inl ⟨p, List.mem_cons_of_mem _ hp, h3⟩
        · exact Or.inr h3
      · rintro (⟨p, hp, h3, h4⟩ | h3)
        · rcases List.mem_cons.1 hp with rfl | hp
          · exact absurd h3 he
          · exact Or.inl ⟨p, hp, h3, h4⟩
        · exact Or.inr h3

theorem candsK_true {c : Nat} {g : List (Nat × Arc)} {S acc : List Entry} {f : List Entry → Bool}
    (h : candsK c g S acc f = true) : ∃ l, f l = true ∧ ∀ k, k ∈ l ↔ (∃ e ∈ S,
      (∃ p, e.pend = c :: p ∧ k = ⟨e.st, p, e.out, e.wt⟩) ∨
      (e.pend = [] ∧ ∃ p ∈ g, p.2.src = e.st ∧
        k = ⟨p.2.dst, p.2.inp.tail, e.out ++ p.2.out, e.wt + p.2.wt⟩)) ∨ k ∈ acc := by
  induction S generalizing acc with
  | nil => exact ⟨acc, h, by simp⟩
  | cons e S ih =>
    obtain ⟨st, pend, out, wt⟩ := e
    cases pend with
    | nil =>
      have h : arcK st out wt g acc (fun acc => candsK c g S acc f) = true := h
      obtain ⟨l₀, h0, h1⟩ := arcK_true h
      obtain ⟨l, h2, h3⟩ := ih h0
      refine ⟨l, h2, fun k => (h3 k).trans ?_⟩
      rw [h1 k]
      constructor
      · rintro (⟨e, he, h4⟩ | h4 | h4)
        · exact Or.inl ⟨e, List.mem_cons_of_mem _ he, h4⟩
        · exact Or.inl ⟨_, List.mem_cons_self, Or.inr ⟨rfl, h4⟩⟩
        · exact Or.inr h4
      · rintro (⟨e, he, h4⟩ | h4)
        · rcases List.mem_cons.1 he with rfl | he
          · rcases h4 with ⟨p, hp, _⟩ | ⟨_, h4⟩
            · cases hp
            · exact Or.inr (Or.inl h4)
          · exact Or.inl ⟨e, he, h4⟩
        · exact Or.inr (Or.inr h4)
    | cons c' p =>
      have h : sel (Nat.beq c c') (candsK c g S (⟨st, p, out, wt⟩ :: acc) f)
        (candsK c g S acc f) = true := h
      rw [sel_eq] at h
      cases hb : Nat.beq c c' with
      | true =>
        have he := Nat.eq_of_beq_eq_true hb
        subst he
        rw [hb] at h
        obtain ⟨l, h2, h3⟩ := ih h
        refine ⟨l, h2, fun k => (h3 k).trans ?_⟩
        constructor
        · rintro (⟨e, he, h4⟩ | h4)
          · exact Or.inl ⟨e, List.mem_cons_of_mem _ he, h4⟩
          · rcases List.mem_cons.1 h4 with rfl | h4
            · exact Or.inl ⟨_, List.mem_cons_self, Or.inl ⟨p, rfl, rfl⟩⟩
            · exact Or.inr h4
        · rintro (⟨e, he, h4⟩ | h4)
          · rcases List.mem_cons.1 he with rfl | he
            · rcases h4 with ⟨p', hp, h4⟩ | ⟨h4, _⟩
              · cases hp; exact Or.inr (List.mem_cons.2 (Or.inl h4))
              · cases h4
            · exact Or.inl ⟨e, he, h4⟩
          · exact Or.inr (List.mem_cons_of_mem _ h4)
      | false =>
        have he := Nat.ne_of_beq_eq_false hb
        rw [hb] at h
        obtain ⟨l, h2, h3⟩ := ih h
        refine ⟨l, h2, fun k => (h3 k).trans ?_⟩
        constructor
        · rintro (⟨e, he, h4⟩ | h4)
          · exact Or.inl ⟨e, List.mem_cons_of_mem _ he, h4⟩
          · exact Or.inr h4
        · rintro (⟨e, he', h4⟩ | h4)
          · rcases List.mem_cons.1 he' with rfl | he'
            · rcases h4 with ⟨p', hp, h4⟩ | ⟨h4, _⟩
              · cases hp; exact absurd rfl he
              · cases h4
            · exact Or.inl ⟨e, he', h4⟩
          · exact Or.inr h4

theorem covered_ok {dw : Nat} {pre : Str} {k : Entry} {S : List Entry}
    (h : covered dw pre S k = true) : ∃ e ∈ S, e.st = k.st ∧ e.pend = k.pend ∧
      (dw + e.wt < k.wt ∨ (dw + e.wt = k.wt ∧ pre ++ e.out = k.out)) := by
  obtain ⟨kst, kpend, kout, kwt⟩ := k
  induction S with
  | nil => cases h
  | cons e S ih =>
    obtain ⟨est, epend, eout, ewt⟩ := e
    have lift (h : covered dw pre S ⟨kst, kpend, kout, kwt⟩ = true) :
        ∃ e' ∈ (⟨est, epend, eout, ewt⟩ : Entry) :: S, e'.st = kst ∧ e'.pend = kpend ∧
        (dw + e'.wt < kwt ∨ (dw + e'.wt = kwt ∧ pre ++ e'.out = kout)) := by
      obtain ⟨e', h1, h2⟩ := ih h; exact ⟨e', List.mem_cons_of_mem _ h1, h2⟩
    have h : sel (Nat.beq est kst)
      (sel (strEq epend kpend)
        (sel (Nat.beq (Nat.add dw ewt) kwt) (strEq (List.append pre eout) kout)
          (Nat.ble (Nat.add dw ewt) kwt))
        (covered dw pre S ⟨kst, kpend, kout, kwt⟩))
      (covered dw pre S ⟨kst, kpend, kout, kwt⟩) = true := h
    simp only [sel_eq] at h
    cases h1 : Nat.beq est kst with
    | false => rw [h1] at h; exact lift (by simpa using h)
    | true =>
      rw [h1] at h; simp only [cond_true] at h
      cases h2 : strEq epend kpend with
      | false => rw [h2] at h; exact lift (by simpa using h)
      | true =>
        rw [h2] at h; simp only [cond_true] at h
        refine ⟨_, List.mem_cons_self, beq_iff.1 h1, strEq_iff.1 h2, ?_⟩
        cases h3 : Nat.beq (Nat.add dw ewt) kwt with
        | true =>
          rw [h3] at h; simp only [cond_true] at h
          exact Or.inr ⟨beq_iff.1 h3, strEq_iff.1 h⟩
        | false =>
          rw [h3] at h; simp only [cond_false] at h
          have h5 : dw + ewt ≤ kwt := Nat.le_of_ble_eq_true h
          have h6 : dw + ewt ≠ kwt := Nat.ne_of_beq_eq_false h3
          exact Or.inl (by show dw + ewt < kwt; omega)

theorem attained_ok {dw : Nat} {pre : Str} {e : Entry} {K : List Entry}
    (h : attained dw pre K e = true) : ∃ k ∈ K, e.st = k.st ∧ e.pend = k.pend ∧
      dw + e.wt = k.wt ∧ pre ++ e.out = k.out := by
  obtain ⟨est, epend, eout, ewt⟩ := e
  induction K with
  | nil => cases h
  | cons k K ih =>
    obtain ⟨kst, kpend, kout, kwt⟩ := k
    have lift (h : attained dw pre K ⟨est, epend, eout, ewt⟩ = true) :
        ∃ k' ∈ (⟨kst, kpend, kout, kwt⟩ : Entry) :: K, est = k'.st ∧ epend = k'.pend ∧
        dw + ewt = k'.wt ∧ pre ++ eout = k'.out := by
      obtain ⟨e', h1, h2⟩ := ih h; exact ⟨e', List.mem_cons_of_mem _ h1, h2⟩
    have h : sel (Nat.beq est kst)
      (sel (strEq epend kpend)
        (sel (Nat.beq (Nat.add dw ewt) kwt)
          (sel (strEq (List.append pre eout) kout) true
            (attained dw pre K ⟨est, epend, eout, ewt⟩))
          (attained dw pre K ⟨est, epend, eout, ewt⟩))
        (attained dw pre K ⟨est, epend, eout, ewt⟩))
      (attained dw pre K ⟨est, epend, eout, ewt⟩) = true := h
    simp only [sel_eq] at h
    cases h1 : Nat.beq est kst with
    | false => rw [h1] at h; exact lift (by simpa using h)
    | true =>
      rw [h1] at h; simp only [cond_true] at h
      cases h2 : strEq epend kpend with
      | false => rw [h2] at h; exact lift (by simpa using h)
      | true =>
        rw [h2] at h; simp only [cond_true] at h
        cases h3 : Nat.beq (Nat.add dw ewt) kwt with
        | false => rw [h3] at h; exact lift (by simpa using h)
        | true =>
          rw [h3] at h; simp only [cond_true] at h
          cases h4 : strEq (List.append pre eout) kout with
          | false => rw [h4] at h; exact lift (by simpa using h)
          | true =>
            exact ⟨_, List.mem_cons_self, beq_iff.1 h1, strEq_iff.1 h2, beq_iff.1 h3,
              strEq_iff.1 h4⟩

/-! ## Groups -/

theorem arcsListed_ok {g : Tree (List (Nat × Arc))} {A : List Arc} {i : Nat}
    (h : arcsListed g i A = true) {j : Nat} {a : Arc} (ha : A[j]? = some a) :
    ∃ c p grp, a.inp = c :: p ∧ g.find c = some grp ∧ (i + j, a) ∈ grp ∧
      ∀ x ∈ p, (g.find x).isSome = true := by
  induction A generalizing i j with
  | nil => simp at ha
  | cons b A ih =>
    simp only [arcsListed, Bool.and_eq_true] at h
    cases j with
    | zero =>
      simp only [List.getElem?_cons_zero, Option.some.injEq] at ha
      subst ha
      obtain ⟨h, _⟩ := h
      cases hi : b.inp with
      | nil => rw [hi] at h; simp at h
      | cons c p =>
        rw [hi] at h
        simp only [Bool.and_eq_true, List.all_eq_true] at h
        obtain ⟨h1, h2⟩ := h
        cases hg : g.find c with
        | none => rw [hg] at h1; simp at h1
        | some grp =>
          rw [hg] at h1
          exact ⟨c, p, grp, rfl, hg, listed_mem h1, h2⟩
    | succ j =>
      simp only [List.getElem?_cons_succ] at ha
      have := ih h.2 ha
      rwa [show i + 1 + j = i + (j + 1) by omega] at this

/-- All entries of the groups. -/
def flat (g : Tree (List (Nat × Arc))) : List (Nat × Arc) := g.toList.flatMap (·.2)

theorem length_flat (g : Tree (List (Nat × Arc))) : (flat g).length = g.sum List.length := by
  induction g with
  | nil => rfl
  | node l k v r ihl ihr =>
    have : (Tree.node l k v r).sum List.length =
      l.sum List.length + (v.length + r.sum List.length) := rfl
    simp only [flat, Tree.toList, List.flatMap_append, List.flatMap_cons,
      List.length_append] at ihl ihr ⊢
    omega

theorem find_flat {g : Tree (List (Nat × Arc))} {c : Nat} {grp : List (Nat × Arc)}
    (h : g.find c = some grp) {p : Nat × Arc} (hp : p ∈ grp) : p ∈ flat g :=
  List.mem_flatMap.2 ⟨(c, grp), Tree.mem_of_find h, hp⟩

/-- Pigeonhole: a list without repetitions contained in a list that is not longer contains it. -/
theorem subset_of_nodup {α : Type} [DecidableEq α] : ∀ {l m : List α}, l.Nodup → l ⊆ m →
    m.length ≤ l.length → m ⊆ l
  | [], m, _, _, hl => by
    have : m = [] := List.eq_nil_of_length_eq_zero (by simpa using hl)
    simp [this]
  | a :: l, m, hn, hs, hl => by
    have ha : a ∈ m := hs List.mem_cons_self
    have hn' := List.nodup_cons.1 hn
    have hs' : l ⊆ m.erase a := by
      intro x hx
      have hne : x ≠ a := by rintro rfl; exact hn'.1 hx
      exact (List.mem_erase_of_ne hne).2 (hs (List.mem_cons_of_mem _ hx))
    have hlen : (m.erase a).length ≤ l.length := by
      rw [List.length_erase_of_mem ha]; simp at hl; omega
    have ih := subset_of_nodup hn'.2 hs' hlen
    intro x hx
    by_cases hxa : x = a
    · simp [hxa]
    · exact List.mem_cons_of_mem _ (ih ((List.mem_erase_of_ne hxa).2 hx))

theorem groups_sound {A : List Arc} {g : Tree (List (Nat × Arc))} (h : groupsOk A g = true)
    {p : Nat × Arc} (hp : p ∈ flat g) : p.2 ∈ A := by
  simp only [groupsOk, Bool.and_eq_true] at h
  obtain ⟨h1, h2, _⟩ := h
  have hnd : (A.zipIdx.map (fun p => (p.2, p.1))).Nodup := by
    rw [List.Nodup, List.pairwise_map]
    have := List.pairwise_iff_getElem (R := fun (p q : Arc × Nat) => ¬ (p.2, p.1) = (q.2, q.1))
      (l := A.zipIdx)
    rw [this]
    intro i j hi hj hij
    simp
    intro h; omega
  have hsub : A.zipIdx.map (fun p => (p.2, p.1)) ⊆ flat g := by
    intro q hq
    obtain ⟨⟨a, i⟩, hai, rfl⟩ := List.mem_map.1 hq
    have hai' : A[i]? = some a := by
      have := List.mem_zipIdx_iff_getElem?.1 hai
      simpa using this
    obtain ⟨c, p, grp, _, hf, hm, _⟩ := arcsListed_ok h1 hai'
    simp only [Nat.zero_add] at hm
    exact find_flat hf hm
  have hlen : (flat g).length ≤ (A.zipIdx.map (fun p => (p.2, p.1))).length := by
    rw [length_flat]; simpa using Nat.le_of_ble_eq_true h2
  have := subset_of_nodup hnd hsub hlen hp
  obtain ⟨⟨a, i⟩, hai, rfl⟩ := List.mem_map.1 this
  exact (List.mem_zipIdx_iff_getElem?.1 hai |> fun h => List.mem_of_getElem? (by simpa using h))

theorem groups_complete {A : List Arc} {g : Tree (List (Nat × Arc))} (h : groupsOk A g = true)
    {a : Arc} (ha : a ∈ A) : ∃ c p grp i, a.inp = c :: p ∧ g.find c = some grp ∧ (i, a) ∈ grp ∧
      ∀ x ∈ p, (g.find x).isSome = true := by
  simp only [groupsOk, Bool.and_eq_true] at h
  obtain ⟨j, hj⟩ := List.getElem?_of_mem ha
  obtain ⟨c, p, grp, h1, h2, h3, h4⟩ := arcsListed_ok h.1 hj
  exact ⟨c, p, grp, _, h1, h2, h3, h4⟩

theorem groups_heads {A : List Arc} {g : Tree (List (Nat × Arc))} (h : groupsOk A g = true)
    {c : Nat} {grp : List (Nat × Arc)} (hf : g.find c = some grp) {p : Nat × Arc} (hp : p ∈ grp) :
    p.2.inp = c :: p.2.inp.tail := by
  simp only [groupsOk, Bool.and_eq_true] at h
  have := Tree.all_find h.2.2 hf
  have := List.all_eq_true.1 this p hp
  cases hi : p.2.inp with
  | nil => rw [hi] at this; simp [headsOk.headIs] at this
  | cons x t => rw [hi] at this; simp [headsOk.headIs] at this; simp [this]

theorem snocInd {motive : Str → Prop} (x : Str) (nil : motive [])
    (snoc : ∀ x c, motive x → motive (x ++ [c])) : motive x := by
  have : ∀ y : Str, motive y.reverse := by
    intro y
    induction y with
    | nil => exact nil
    | cons c y ih => rw [List.reverse_cons]; exact snoc _ _ ih
  simpa using this x.reverse

/-! ## Exactness -/

theorem reach_nil {A : List Arc} {o w q p} (h : Reach A [] o w q p) :
    o = [] ∧ w = 0 ∧ q = 0 ∧ p = [] := by
  generalize hx : ([] : Str) = x at h
  cases h with
  | start => exact ⟨rfl, rfl, rfl, rfl⟩
  | read h => simp at hx
  | arc h ha hi => simp at hx

theorem reach_snoc {A : List Arc} {x : Str} {c : Nat} {o w q p} (h : Reach A (x ++ [c]) o w q p) :
    Reach A x o w q (c :: p) ∨ ∃ a ∈ A, ∃ o' w', Reach A x o' w' a.src [] ∧ a.inp = c :: p ∧
      o = o' ++ a.out ∧ w = w' + a.wt ∧ q = a.dst := by
  generalize hx : x ++ [c] = x' at h
  cases h with
  | start => simp at hx
  | read h =>
    obtain ⟨rfl, hc⟩ := List.append_inj' hx rfl
    cases hc
    exact Or.inl h
  | arc h ha hi =>
    obtain ⟨rfl, hc⟩ := List.append_inj' hx rfl
    cases hc
    exact Or.inr ⟨_, ha, _, _, h, hi, rfl, rfl, rfl⟩

theorem reach_keys {A : List Arc} {g : Tree (List (Nat × Arc))} (hg : groupsOk A g = true)
    {x o w q p} (h : Reach A x o w q p) : ∀ c ∈ p, (g.find c).isSome = true := by
  induction h with
  | start => simp
  | read _ ih => exact fun c hc => ih c (List.mem_cons_of_mem _ hc)
  | @arc x o w c p a _ ha hi _ =>
    obtain ⟨c', p', grp, i, h1, _, _, h4⟩ := groups_complete hg ha
    rw [hi] at h1
    cases h1
    exact h4

/-- The successors of an exact list of entries are exact. -/
theorem exact_cands {A : List Arc} {C : Cert} (hg : groupsOk A C.groups = true)
    {x : Str} {v : Nat} {pre : Str} {S : List Entry} (h : Exact A x v pre S) {c : Nat}
    {grp : List (Nat × Arc)} (hf : C.groups.find c = some grp) {l : List Entry}
    (mem_cands : ∀ {k}, k ∈ l ↔ ∃ e ∈ S,
      (∃ p, e.pend = c :: p ∧ k = ⟨e.st, p, e.out, e.wt⟩) ∨
      (e.pend = [] ∧ ∃ p ∈ grp, p.2.src = e.st ∧
        k = ⟨p.2.dst, p.2.inp.tail, e.out ++ p.2.out, e.wt + p.2.wt⟩)) :
    Exact A (x ++ [c]) v pre l := by
  constructor
  · intro k hk
    obtain ⟨e, he, h1⟩ := mem_cands.1 hk
    rcases h1 with ⟨p, hp, rfl⟩ | ⟨hp, q, hq, hs, rfl⟩
    · have := h.sound e he
      rw [hp] at this
      exact Reach.read this
    · have := h.sound e he
      rw [hp, ← hs] at this
      have h2 := Reach.arc this (groups_sound hg (find_flat hf hq)) (groups_heads hg hf hq)
      simpa [Nat.add_assoc] using h2
  · intro o w q p hr
    rcases reach_snoc hr with hr | ⟨a, ha, o', w', hr', hi, rfl, rfl, rfl⟩
    · obtain ⟨e, he, h1, h2, h3⟩ := h.complete hr
      exact ⟨⟨e.st, p, e.out, e.wt⟩, mem_cands.2 ⟨e, he, Or.inl ⟨p, h2, rfl⟩⟩, h1, rfl, h3⟩
    · obtain ⟨e, he, h1, h2, h3⟩ := h.complete hr'
      obtain ⟨c', p', grp', i, hi', hf', hm, _⟩ := groups_complete hg ha
      rw [hi] at hi'
      cases hi'
      rw [hf] at hf'
      cases hf'
      refine ⟨⟨a.dst, a.inp.tail, e.out ++ a.out, e.wt + a.wt⟩,
        mem_cands.2 ⟨e, he, Or.inr ⟨h2, (i, a), hm, h1.symm, rfl⟩⟩, rfl, by simp [hi], ?_⟩
      rcases h3 with h3 | ⟨h3, rfl⟩
      · left; show v + (e.wt + a.wt) < _; omega
      · right; exact ⟨by show v + (e.wt + a.wt) = _; omega, by simp⟩

theorem Cert.run_snoc (C : Cert) (x : Str) (c : Nat) : C.run (x ++ [c]) = C.step (C.run x) c := by
  simp [Cert.run, List.foldl_append]

/-- A row of a checked certificate. -/
theorem rowOk_of_find {A : List Arc} {C : Cert} (h : C.ok A = true) {i : Nat} {row : Row}
    (hf : C.rows.find i = some row) : C.rowOk row = true := by
  simp only [Cert.ok, Bool.and_eq_true] at h
  exact Tree.all_find h.2.2 hf

theorem exact_step {A : List Arc} {C : Cert} (h : C.ok A = true) {x : Str} {v : Nat} {pre : Str}
    {i : Nat} {row : Row} (hrow : C.rows.find i = some row) (hx : Exact A x v pre row.entries)
    {c : Nat} {dw : Nat} {p : Str} {j : Nat} (hn : row.next.find c = some (dw, p, j)) :
    ∃ row', C.rows.find j = some row' ∧ Exact A (x ++ [c]) (v + dw) (pre ++ p) row'.entries := by
  have hr := rowOk_of_find h hrow
  simp only [Cert.ok, Bool.and_eq_true] at h
  simp only [Cert.rowOk, Bool.and_eq_true] at hr
  have hs := Tree.all_find hr.1 hn
  simp only [stepOk] at hs
  cases hf : C.groups.find c with
  | none => rw [hf] at hs; simp at hs
  | some grp =>
    rw [hf] at hs
    simp only at hs
    cases hj : C.rows.find j with
    | none => rw [hj] at hs; simp at hs
    | some row' =>
      rw [hj] at hs
      simp only at hs
      obtain ⟨l, hl, hm⟩ := candsK_true hs
      have hl : (lall (covered dw p row'.entries) l &&
          lall (attained dw p l) row'.entries) = true := by
        rw [sel_eq] at hl
        cases h1 : lall (covered dw p row'.entries) l with
        | true => rw [h1] at hl; simpa using hl
        | false => rw [h1] at hl; simp at hl
      simp only [Bool.and_eq_true, lall_iff] at hl
      obtain ⟨hc, ha⟩ := hl
      have hk := exact_cands h.1 hx hf (l := l) (fun {k} => by simpa using hm k)
      refine ⟨row', rfl, ⟨?_, ?_⟩⟩
      · intro e he
        obtain ⟨k, hk1, h1, h2, h3, h4⟩ := attained_ok (ha e he)
        have := hk.sound k hk1
        rw [← h1, ← h2, ← h3, ← h4] at this
        simpa [Nat.add_assoc] using this
      · intro o w q r hr
        obtain ⟨k, hk1, h1, h2, h3⟩ := hk.complete hr
        obtain ⟨e, he, h4, h5, h6⟩ := covered_ok (hc k hk1)
        refine ⟨e, he, h4.trans h1, h5.trans h2, ?_⟩
        rcases h6 with h6 | ⟨h6, h7⟩
        · left; rcases h3 with h3 | ⟨h3, _⟩ <;> omega
        · rcases h3 with h3 | ⟨h3, h8⟩
          · left; omega
          · right; exact ⟨by omega, by rw [List.append_assoc, h7, h8]⟩

theorem exact_start {A : List Arc} {C : Cert} (h : C.ok A = true) :
    ∃ row, C.rows.find 0 = some row ∧ Exact A [] 0 [] row.entries := by
  simp only [Cert.ok, Bool.and_eq_true] at h
  have h := h.2.1
  simp only [startOk] at h
  cases hf : C.rows.find 0 with
  | none => rw [hf] at h; simp at h
  | some row =>
    rw [hf] at h
    simp only at h
    refine ⟨row, rfl, ?_⟩
    cases he : row.entries with
    | nil => rw [he] at h; simp at h
    | cons e l =>
      rw [he] at h
      cases l with
      | cons _ _ => simp at h
      | nil =>
        simp only [Bool.and_eq_true, beq_iff, List.isEmpty_iff] at h
        obtain ⟨h1, h2, h3, h4⟩ := h
        constructor
        · intro e' he'
          rw [List.mem_singleton] at he'
          subst he'
          rw [h1, h2, h3, h4]
          exact Reach.start
        · intro o w q p hr
          obtain ⟨rfl, rfl, rfl, rfl⟩ := reach_nil hr
          exact ⟨e, by simp, h1, h2, Or.inr ⟨by simp [h4], by simp [h3]⟩⟩

/-- What the deterministic machine computes is exact. -/
theorem exact_run {A : List Arc} {C : Cert} (h : C.ok A = true) (x : Str) {v : Nat} {pre : Str}
    {i : Nat} (hx : C.run x = some (v, pre, i)) :
    ∃ row, C.rows.find i = some row ∧ Exact A x v pre row.entries := by
  induction x using snocInd generalizing v pre i with
  | nil =>
    simp only [Cert.run, List.foldl_nil, Option.some.injEq, Prod.mk.injEq] at hx
    obtain ⟨rfl, rfl, rfl⟩ := hx
    exact exact_start h
  | snoc x c ih =>
    rw [Cert.run_snoc] at hx
    cases hr : C.run x with
    | none => rw [hr] at hx; simp [Cert.step] at hx
    | some s =>
      obtain ⟨v', pre', i'⟩ := s
      obtain ⟨row, hf, he⟩ := ih hr
      rw [hr] at hx
      simp only [Cert.step, hf] at hx
      cases hn : row.next.find c with
      | none => rw [hn] at hx; simp at hx
      | some t =>
        obtain ⟨dw, p, j⟩ := t
        rw [hn] at hx
        simp only [Option.some.injEq, Prod.mk.injEq] at hx
        obtain ⟨rfl, rfl, rfl⟩ := hx
        exact exact_step h hf he hn

/-- Where a full certificate has no step, the transducer has none. -/
theorem none_run {A : List Arc} {C : Cert} (h : C.ok A = true) (hfull : C.full = true) (x : Str)
    (hx : C.run x = none) {o w q p} : ¬ Reach A x o w q p := by
  induction x using snocInd generalizing o w q p with
  | nil => simp [Cert.run] at hx
  | snoc x c ih =>
    rw [Cert.run_snoc] at hx
    intro hr
    have hok := h
    simp only [Cert.ok, Bool.and_eq_true] at hok
    have hkey : (C.groups.find c).isSome = true := by
      rcases reach_snoc hr with hr | ⟨a, ha, _, _, _, hi, _⟩
      · exact reach_keys hok.1 hr c List.mem_cons_self
      · obtain ⟨c', p', grp', i, hi', hf', hm, _⟩ := groups_complete hok.1 ha
        rw [hi] at hi'
        cases hi'
        simp [hf']
    obtain ⟨grp, hg⟩ := Option.isSome_iff_exists.1 hkey
    cases hs : C.run x with
    | none =>
      rcases reach_snoc hr with hr | ⟨a, ha, _, _, hr, _⟩
      · exact ih hs hr
      · exact ih hs hr
    | some s =>
      obtain ⟨v', pre', i'⟩ := s
      obtain ⟨row, hf, he⟩ := exact_run h x hs
      rw [hs] at hx
      simp only [Cert.step, hf] at hx
      cases hn : row.next.find c with
      | some t => rw [hn] at hx; simp at hx
      | none =>
        have h1 := Tree.all_find (Tree.all_find hfull hf) hg
        simp only [fullOk, hn] at h1
        obtain ⟨l, hl, hm⟩ := candsK_true h1
        obtain ⟨k, hk, _⟩ := (exact_cands hok.1 he hg (l := l)
          (fun {k} => by simpa using hm k)).complete hr
        cases l with
        | nil => simp at hk
        | cons _ _ => cases hl

/-- The best output of the transducer for a text. -/
def Cert.best (C : Cert) (x : Str) : Option (Nat × Str) :=
  match C.run x with
  | none => none
  | some (v, pre, i) =>
    match C.rows.find i with
    | none => none
    | some row =>
      match finals row with
      | [] => none
      | e :: _ => some (v + e.wt, pre ++ e.out)

theorem mem_finals {row : Row} {e : Entry} :
    e ∈ finals row ↔ e ∈ row.entries ∧ e.st = 0 ∧ e.pend = [] := by
  simp [finals, isFinal]

/-- A best output is attained, and any other output of an accepting run is worse. -/
theorem best_exact {A : List Arc} {C : Cert} (h : C.ok A = true) {x y : Str} {w : Nat}
    (hb : C.best x = some (w, y)) :
    Reach A x y w 0 [] ∧
      ∀ {o w'}, Reach A x o w' 0 [] → w < w' ∨ (w = w' ∧ o = y) := by
  simp only [Cert.best] at hb
  cases hr : C.run x with
  | none => rw [hr] at hb; simp at hb
  | some s =>
    obtain ⟨v, pre, i⟩ := s
    obtain ⟨row, hf, he⟩ := exact_run h x hr
    have hok := rowOk_of_find h hf
    simp only [Cert.rowOk, Bool.and_eq_true] at hok
    have hlen := Nat.le_of_ble_eq_true hok.2
    rw [hr] at hb
    simp only [hf] at hb
    cases hfin : finals row with
    | nil => rw [hfin] at hb; simp at hb
    | cons e l =>
      rw [hfin] at hb hlen
      simp only [Option.some.injEq, Prod.mk.injEq] at hb
      obtain ⟨rfl, rfl⟩ := hb
      have hl : l = [] := by
        cases l with
        | nil => rfl
        | cons _ _ => simp at hlen
      subst hl
      have hme : e ∈ finals row := by simp [hfin]
      obtain ⟨h1, h2, h3⟩ := mem_finals.1 hme
      constructor
      · have := he.sound e h1
        rwa [h2, h3] at this
      · intro o w' hr'
        obtain ⟨e', h4, h5, h6, h7⟩ := he.complete hr'
        have : e' ∈ finals row := mem_finals.2 ⟨h4, h5, h6⟩
        rw [hfin, List.mem_singleton] at this
        subst this
        rcases h7 with h7 | ⟨h7, h8⟩
        · exact Or.inl h7
        · exact Or.inr ⟨h7, h8.symm⟩

theorem best_none {A : List Arc} {C : Cert} (h : C.ok A = true) (hfull : C.full = true) {x : Str}
    (hb : C.best x = none) {o w} : ¬ Reach A x o w 0 [] := by
  intro hr
  simp only [Cert.best] at hb
  cases hs : C.run x with
  | none => exact none_run h hfull x hs hr
  | some s =>
    obtain ⟨v, pre, i⟩ := s
    obtain ⟨row, hf, he⟩ := exact_run h x hs
    obtain ⟨e, h1, h2, h3, _⟩ := he.complete hr
    have hme := mem_finals.2 ⟨h1, h2, h3⟩
    rw [hs] at hb
    simp only [hf] at hb
    cases hfin : finals row with
    | nil => rw [hfin] at hme; simp at hme
    | cons e l => rw [hfin] at hb; simp at hb

/-! ## Two machines in a row -/

/-- Output and row of a certificate for a text, from a given row, passed on. -/
def Cert.walk (C : Cert) (x : Str) : Nat → (Str → Nat → Bool) → Bool :=
  List.rec (fun i k => k [] i) (fun c _ ih i k =>
    Option.rec false (fun row =>
      Option.rec false (fun t => Prod.rec (fun _ q => Prod.rec (fun p j =>
        ih j fun o l => appK p o fun r => k r l) q) t) (Tree.find (Row.next row) c))
      (C.rows.find i)) x

theorem walk_run {C : Cert} {x : Str} : ∀ {i v pre f}, C.walk x i f = true →
    ∃ v' o k, f o k = true ∧ x.foldl C.step (some (v, pre, i)) = some (v', pre ++ o, k) := by
  induction x with
  | nil =>
    intro i v pre f h
    exact ⟨v, [], i, h, by simp⟩
  | cons c x ih =>
    intro i v pre f h
    have h : Option.rec (motive := fun _ => Bool) false (fun row =>
      Option.rec false (fun t => Prod.rec (fun _ q => Prod.rec (fun p j =>
        C.walk x j fun o l => appK p o fun r => f r l) q) t) (Tree.find (Row.next row) c))
      (C.rows.find i) = true := h
    cases hf : C.rows.find i with
    | none => rw [hf] at h; cases h
    | some row =>
      rw [hf] at h
      have h : Option.rec (motive := fun _ => Bool) false (fun t => Prod.rec (fun _ q => Prod.rec
        (fun p j => C.walk x j fun o l => appK p o fun r => f r l) q) t)
        (Tree.find (Row.next row) c) = true := h
      cases hn : row.next.find c with
      | none => rw [hn] at h; cases h
      | some t =>
        obtain ⟨dw, p, j⟩ := t
        rw [hn] at h
        have h : C.walk x j (fun o l => appK p o fun r => f r l) = true := h
        obtain ⟨v', o, k, h1, h2⟩ := ih (v := v + dw) (pre := pre ++ p) h
        rw [appK_eq] at h1
        refine ⟨v', p ++ o, k, h1, ?_⟩
        rw [List.foldl_cons]
        simp only [Cert.step, hf, hn]
        rw [h2, List.append_assoc]

/-- Remove a prefix from `t ++ [c]` and pass on the rest. -/
def strip (c : Nat) (s : Str) : Str → (Str → Bool) → Bool :=
  List.rec (fun t k => appK t [c] k)
    (fun a s ih t k => List.rec
      (sel (Nat.beq a c) (List.rec (k []) (fun _ _ _ => false) s) false)
      (fun b t _ => sel (Nat.beq a b) (ih t k) false) t) s

theorem strip_true {c : Nat} {s t : Str} {k : Str → Bool} (h : strip c s t k = true) :
    ∃ r, k r = true ∧ t ++ [c] = s ++ r := by
  induction s generalizing t with
  | nil =>
    have h : appK t [c] k = true := h
    rw [appK_eq] at h
    exact ⟨_, h, rfl⟩
  | cons a s ih =>
    cases t with
    | nil =>
      have h : sel (Nat.beq a c) (List.rec (motive := fun _ => Bool) (k [])
        (fun _ _ _ => false) s) false = true := h
      rw [sel_eq] at h
      cases hb : Nat.beq a c with
      | false => rw [hb] at h; cases h
      | true =>
        rw [hb] at h
        cases s with
        | nil => exact ⟨[], h, by simp [Nat.eq_of_beq_eq_true hb]⟩
        | cons _ _ => cases h
    | cons b t =>
      have h : sel (Nat.beq a b) (strip c s t k) false = true := h
      rw [sel_eq] at h
      cases hb : Nat.beq a b with
      | false => rw [hb] at h; cases h
      | true =>
        rw [hb] at h
        obtain ⟨r, h1, h2⟩ := ih h
        exact ⟨r, h1, by simp [h2, Nat.eq_of_beq_eq_true hb]⟩

def strMem (s : Str) (l : List Str) : Bool :=
  List.rec false (fun t _ ih => sel (strEq s t) true ih) l

theorem strMem_mem {s : Str} {l : List Str} (h : strMem s l = true) : s ∈ l := by
  induction l with
  | nil => cases h
  | cons t l ih =>
    have h : sel (strEq s t) true (strMem s l) = true := h
    rw [sel_eq] at h
    cases hb : strEq s t with
    | true => simp [strEq_iff.1 hb]
    | false => rw [hb] at h; exact List.mem_cons_of_mem _ (ih (by simpa using h))

/-- Reachable rows of two machines in a row, with what the second has yet to write for the text
that the first has read. -/
abbrev Pairs := Tree (Tree (List Str))

def Pairs.has (P : Pairs) (i j : Nat) (rest : Str) : Bool :=
  Option.rec false (fun t => Option.rec false (strMem rest) (Tree.find t j)) (Tree.find P i)

def pairStep (T : Cert) (P : Pairs) (ban : Nat → Bool) (j : Nat) (rest : Str) (c : Nat)
    (s : Nat × Str × Nat) : Bool :=
  sel (ban c) true (Prod.rec (fun _ q => Prod.rec (fun p i' =>
    T.walk p j fun em j' => strip c em rest (P.has i' j')) q) s)

def pairFinal (T : Cert) (j : Nat) (rest : Str) (e : Entry) : Bool :=
  T.walk e.out j fun em j' =>
    Option.rec false (fun row =>
      List.rec false (fun e' _ _ => strEq (List.append em (Entry.out e')) rest) (finals row))
      (T.rows.find j')

/-- The second machine undoes the first, for texts without banned characters. -/
def pairsOk (D T : Cert) (P : Pairs) (ban : Nat → Bool) : Bool :=
  sel (P.has 0 0 [])
    (P.all fun i t => Option.rec false (fun row =>
      t.all fun j l => lall (fun rest =>
        sel (Tree.all (pairStep T P ban j rest) (Row.next row))
          (lall (pairFinal T j rest) (finals row)) false) l) (D.rows.find i))
    false

theorem has_iff {P : Pairs} {i j : Nat} {rest : Str} (h : P.has i j rest = true) :
    ∃ t l, P.find i = some t ∧ t.find j = some l ∧ rest ∈ l := by
  simp only [Pairs.has] at h
  cases ht : P.find i with
  | none => rw [ht] at h; cases h
  | some t =>
    rw [ht] at h
    have h : Option.rec (motive := fun _ => Bool) false (strMem rest) (t.find j) = true := h
    cases hl : t.find j with
    | none => rw [hl] at h; cases h
    | some l => rw [hl] at h; exact ⟨t, l, rfl, hl, strMem_mem h⟩

theorem sel_false {a b : Bool} (h : sel a b false = true) : a = true ∧ b = true := by
  cases a <;> cases b <;> first | exact ⟨rfl, rfl⟩ | cases h

theorem pairs_spec {D T : Cert} {P : Pairs} {ban : Nat → Bool} (h : pairsOk D T P ban = true) :
    P.has 0 0 [] = true ∧ ∀ {i j rest}, P.has i j rest = true → ∀ {row}, D.rows.find i = some row →
      (∀ {c s}, row.next.find c = some s → pairStep T P ban j rest c s = true) ∧
      ∀ e ∈ finals row, pairFinal T j rest e = true := by
  obtain ⟨h0, h1⟩ := sel_false h
  refine ⟨h0, fun {i j rest} hP row hf => ?_⟩
  obtain ⟨t, l, ht, hl, hm⟩ := has_iff hP
  have h2 := Tree.all_find h1 ht
  rw [hf] at h2
  have h3 := lall_iff.1 (Tree.all_find h2 hl) rest hm
  obtain ⟨h4, h5⟩ := sel_false h3
  exact ⟨fun hn => Tree.all_find h4 hn, fun e he => lall_iff.1 h5 e he⟩

theorem pairs_run {D T : Cert} {P : Pairs} {ban : Nat → Bool} (h : pairsOk D T P ban = true)
    {x : Str} (hban : ∀ c ∈ x, ban c = false) {v : Nat} {pre : Str} {i : Nat}
    (hx : D.run x = some (v, pre, i)) :
    ∃ v' em j rest, T.run pre = some (v', em, j) ∧ x = em ++ rest ∧ P.has i j rest = true := by
  obtain ⟨h0, h1⟩ := pairs_spec h
  induction x using snocInd generalizing v pre i with
  | nil =>
    simp only [Cert.run, List.foldl_nil, Option.some.injEq, Prod.mk.injEq] at hx
    obtain ⟨rfl, rfl, rfl⟩ := hx
    exact ⟨0, [], 0, [], rfl, rfl, h0⟩
  | snoc x c ih =>
    rw [Cert.run_snoc] at hx
    cases hs : D.run x with
    | none => rw [hs] at hx; simp [Cert.step] at hx
    | some s =>
      obtain ⟨v₀, pre₀, i₀⟩ := s
      obtain ⟨v', em, j, rest, hT, rfl, hP⟩ :=
        ih (fun c hc => hban c (List.mem_append_left _ hc)) hs
      rw [hs] at hx
      simp only [Cert.step] at hx
      cases hf : D.rows.find i₀ with
      | none => rw [hf] at hx; simp at hx
      | some row =>
        rw [hf] at hx
        cases hn : row.next.find c with
        | none => simp [hn] at hx
        | some t =>
          obtain ⟨dw, p, k⟩ := t
          simp only [hn, Option.some.injEq, Prod.mk.injEq] at hx
          obtain ⟨rfl, rfl, rfl⟩ := hx
          have h4 := (h1 hP hf).1 hn
          simp only [pairStep, sel_eq, hban c (by simp), cond_false] at h4
          obtain ⟨v'', em', j', h5, hv⟩ := walk_run (v := v') (pre := em) h4
          obtain ⟨r, h6, h7⟩ := strip_true h5
          refine ⟨v'', em ++ em', j', r, ?_, ?_, h6⟩
          · rw [Cert.run, List.foldl_append]
            rw [Cert.run] at hT
            rw [hT, hv]
          · rw [List.append_assoc, h7, List.append_assoc]

/-- The best output of the second machine for the best output of the first is the text. -/
theorem pairs_best {D T : Cert} {P : Pairs} {ban : Nat → Bool} (h : pairsOk D T P ban = true)
    {x y : Str} {w : Nat} (hban : ∀ c ∈ x, ban c = false) (hb : D.best x = some (w, y)) :
    ∃ w', T.best y = some (w', x) := by
  simp only [Cert.best] at hb
  cases hr : D.run x with
  | none => rw [hr] at hb; simp at hb
  | some s =>
    obtain ⟨v, pre, i⟩ := s
    rw [hr] at hb
    obtain ⟨v', em, j, rest, hT, rfl, hP⟩ := pairs_run h hban hr
    simp only at hb
    cases hf : D.rows.find i with
    | none => rw [hf] at hb; simp at hb
    | some row =>
      rw [hf] at hb
      cases hfin : finals row with
      | nil => simp [hfin] at hb
      | cons e l =>
        simp only [hfin, Option.some.injEq, Prod.mk.injEq] at hb
        obtain ⟨rfl, rfl⟩ := hb
        have h4 := ((pairs_spec h).2 hP hf).2 e (by rw [hfin]; exact List.mem_cons_self)
        obtain ⟨v'', em', j', h5, hv⟩ := walk_run (v := v') (pre := em) h4
        cases hf' : T.rows.find j' with
        | none => rw [hf'] at h5; cases h5
        | some row' =>
          rw [hf'] at h5
          have h5 : List.rec (motive := fun _ => Bool) false
            (fun e' _ _ => strEq (List.append em' (Entry.out e')) rest) (finals row') = true := h5
          cases hfin' : finals row' with
          | nil => rw [hfin'] at h5; cases h5
          | cons e' m =>
            rw [hfin'] at h5
            have h6 : em' ++ e'.out = rest := strEq_iff.1 h5
            refine ⟨v'' + e'.wt, ?_⟩
            have hrun : T.run (pre ++ e.out) = some (v'', em ++ em', j') := by
              rw [Cert.run, List.foldl_append]
              rw [Cert.run] at hT
              rw [hT, hv]
            simp only [Cert.best, hrun, hf', hfin', List.append_assoc, h6]

end

end Nisaba.Seq
