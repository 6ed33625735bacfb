import Verif.Lemmas.NtTok
import Verif.Model.NtBrahmic
/-!
# Automata for the sequences of the natural_translit grammars

The automaton `δ` accepts the sequences in which the sign `{+}` occurs only inside of an affricate or
a diphthong and a composite phoneme is not directly followed by a length sign.  The automaton `σ`
accepts the sequences of alignments.  `ruleCheck` decides that a rule keeps both languages and the
left sides.
-/
namespace Nisaba.NT

theorem seq_eq {a b : Str} : seq a b = true ↔ a = b := by
  induction a generalizing b with
  | nil => cases b <;> simp [seq]
  | cons x a ih =>
    cases b with
    | nil => simp [seq]
    | cons y b =>
      rw [seq, cond_eq_ite]
      by_cases h : Nat.beq x y = true
      · rw [if_pos h, ih]
        rw [Nat.beq_eq] at h
        simp [h]
      · rw [if_neg h]
        rw [Nat.beq_eq] at h
        simp [h]

/-- Parser of sequences. -/
def parseGo : Str → Option (Nat × Str) → List Tok → Option (List Tok)
  | [], none, acc => some acc.reverse
  | [], some _, _ => none
  | c :: cs, none, acc =>
    bif Nat.beq c 60 then parseGo cs (some (62, [])) acc
    else bif Nat.beq c 123 then parseGo cs (some (125, [])) acc
    else bif Nat.beq c 96 then parseGo cs (some (96, [])) acc
    else bif Nat.beq c 61 then parseGo cs none (.eq :: acc)
    else none
  | c :: cs, some (k, n), acc =>
    bif Nat.beq c k then
      parseGo cs none
        ((bif Nat.beq k 62 then Tok.g n.reverse else bif Nat.beq k 125 then Tok.p n.reverse
          else Tok.t n.reverse) :: acc)
    else parseGo cs (some (k, c :: n)) acc

/-- The sequence encoded by a string. -/
def toks (s : Str) : Option (List Tok) := parseGo s none []

/-- All characters are name characters. -/
def nameB (s : Str) : Bool := s.all nameChar

theorem nameB_iff {s : Str} : nameB s = true ↔ ∀ c ∈ s, nameChar c = true := by
  simp [nameB]

/-- Decision of `Plain`. -/
def plainB (ts : List Tok) : Bool := ts.all (fun a => nameB a.name)

theorem plainB_iff {ts : List Tok} : plainB ts = true ↔ Plain ts := by
  simp only [plainB, List.all_eq_true, nameB_iff, Plain, Tok.plain]

/-- Left sides. -/
def gproj : Tok → List Str
  | .g s => [s]
  | _ => []

/-! ## Composite phonemes -/

/-- Classes of symbols. -/
inductive Cl
  | ga | g | eq | t | a | iu | pt | pd | sh | zh | plus | dur | asp | sim | bad
deriving DecidableEq

/-- Names of the simple phonemes of brahmic/phoneme_inventory.py. -/
def simNames : List Str :=
  [a!"sil", a!"Z", a!"N", a!"_", a!"V", a!"S", a!"ae", a!"e", a!"ec", a!"eh", a!"o", a!"oh",
   a!"m", a!"ni", a!"n", a!"nn", a!"ny", a!"ng", a!"p", a!"ti", a!"tt", a!"k", a!"q", a!"b", a!"di",
   a!"dd", a!"g", a!"f", a!"s", a!"ss", a!"kh", a!"h", a!"z", a!"gh", a!"vu", a!"rru", a!"y", a!"l",
   a!"ll", a!"r", a!"rt", a!"rd"]

/-- Names of the lowercase translits of latin/ltn_inventory.py. -/
def trNames : List Str := (Ltn.ASCII_LC ++ Ltn.SUBSTRING ++ Ltn.DEL).map Chr.typ

/-- Class of a symbol. -/
def cls : Tok → Cl
  | .g s => bif seq s a!"a_i" then .ga else bif nameB s then .g else .bad
  | .eq => .eq
  | .t s => bif trNames.any (seq s) then .t else .bad
  | .p s =>
    bif seq s a!"a" then .a else bif seq s a!"i" then .iu else bif seq s a!"u" then .iu
    else bif seq s a!"t" then .pt else bif seq s a!"d" then .pd else bif seq s a!"sh" then .sh
    else bif seq s a!"zh" then .zh else bif seq s a!"+" then .plus else bif seq s a!":h" then .dur
    else bif seq s a!"H" then .asp else bif simNames.any (seq s) then .sim else .bad

/-- States: `c` neutral, `k` after a composite, `A`, `T`, `D` after the first part of a composite,
`A1`, `T1`, `D1` after its sign, `h`, `h1` after the grapheme `a_i` and the sign `=`, `e` after a
sign `=`, `f` after that and `t`, `z` dead. -/
inductive Q
  | c | k | A | A1 | T | T1 | D | D1 | h | h1 | e | f | z
deriving DecidableEq

/-- Variants: diphthongs allowed, the grapheme `a_i` is tracked, a doubled `t` at the start of a right
side does not end in the first part of a composite, translits allowed, phonemes allowed. -/
structure Cfg where
  ai : Bool
  hh : Bool
  tt : Bool
  tr : Bool
  ph : Bool

/-- Doubled `t` are tracked; not together with `a_i`. -/
def Cfg.dt (cfg : Cfg) : Bool := cfg.tt && !cfg.hh

/-- The transitions on a phoneme outside of a composite. -/
def δp (cfg : Cfg) (q : Q) : Cl → Q
  | .plus => match q with | .A => .A1 | .T => .T1 | .f => .T1 | .D => .D1 | _ => .z
  | .dur => match q with | .k => .z | _ => .c
  | .asp => match q with | .k => .k | _ => .c
  | .a => match q with
    | .h1 => bif cfg.hh then .c else bif cfg.ai then .A else .c
    | _ => bif cfg.ai then .A else .c
  | .pt => match q with
    | .e => bif cfg.dt then .f else .T
    | .f => bif cfg.dt then .c else .T
    | _ => .T
  | .pd => .D
  | .bad => .z
  | _ => .c

/-- Transitions of the automaton of composites. -/
def δ (cfg : Cfg) (q : Q) (x : Cl) : Q :=
  match q with
  | .z => .z
  | .A1 => match x with | .iu => .k | _ => .z
  | .T1 => match x with | .sh => .k | _ => .z
  | .D1 => match x with | .zh => .k | _ => .z
  | q =>
    match x with
    | .ga => bif cfg.hh then .h else .c
    | .g => .c
    | .eq => match q with
      | .h => bif cfg.hh then .h1 else bif cfg.dt then .e else .c
      | _ => bif cfg.dt then .e else .c
    | .t => bif cfg.tr then .c else .z
    | x => bif cfg.ph then δp cfg q x else .z

/-- Runs. -/
def run (cfg : Cfg) : Q → List Tok → Q
  | q, [] => q
  | q, a :: ts => run cfg (δ cfg q (cls a)) ts

/-- Accepting states. -/
def acc : Q → Bool
  | .z => false
  | .A1 => false
  | .T1 => false
  | .D1 => false
  | _ => true

/-- The states above the neutral one. -/
def leC (cfg : Cfg) : Q → Bool
  | .c => true
  | .A => true
  | .D => true
  | .T => true
  | .h => !cfg.hh
  | .h1 => !cfg.hh
  | .e => !cfg.dt
  | .f => !cfg.dt
  | _ => false

/-- A simulation: whatever is accepted from the first state is accepted from the second one. -/
def le (cfg : Cfg) (q q' : Q) : Bool :=
  decide (q = q') ||
  match q with
  | .z => true
  | .k => leC cfg q'
  | .c => leC cfg q'
  | .h => leC cfg q'
  | .h1 => leC cfg q'
  | .e => leC cfg q'
  | .f => decide (q' = .T)
  | _ => false

def allQ : List Q := [.c, .k, .A, .A1, .T, .T1, .D, .D1, .h, .h1, .e, .f, .z]
def allCl : List Cl :=
  [.ga, .g, .eq, .t, .a, .iu, .pt, .pd, .sh, .zh, .plus, .dur, .asp, .sim, .bad]

theorem mem_allQ (q : Q) : q ∈ allQ := by cases q <;> decide
theorem mem_allCl (x : Cl) : x ∈ allCl := by cases x <;> decide

/-- Simulation for continuations that do not start with the sign of composites. -/
def leNP (cfg : Cfg) (q q' : Q) : Bool :=
  (!acc q || acc q') &&
  allCl.all (fun x => decide (x = .plus) || le cfg (δ cfg q x) (δ cfg q' x))

/-- All variants. -/
def allCfg : List Cfg :=
  [true, false].flatMap fun a => [true, false].flatMap fun b => [true, false].flatMap fun c =>
    [true, false].flatMap fun d => [true, false].map fun e => ⟨a, b, c, d, e⟩

theorem mem_allCfg (cfg : Cfg) : cfg ∈ allCfg := by
  obtain ⟨a, b, c, d, e⟩ := cfg
  cases a <;> cases b <;> cases c <;> cases d <;> cases e <;> simp [allCfg]

theorem le_all : (allCfg.all fun cfg => allQ.all fun q => allQ.all fun q' =>
    bif le cfg q q' then (!acc q || acc q') &&
      allCl.all fun x => le cfg (δ cfg q x) (δ cfg q' x) else true) = true := by
  decide +kernel

theorem le_step {cfg : Cfg} {q q' : Q} (x : Cl) (h : le cfg q q' = true) :
    le cfg (δ cfg q x) (δ cfg q' x) = true := by
  have h1 := List.all_eq_true.1 (List.all_eq_true.1 (List.all_eq_true.1 le_all cfg (mem_allCfg cfg))
    q (mem_allQ q)) q' (mem_allQ q')
  rw [h, cond_true, Bool.and_eq_true] at h1
  exact List.all_eq_true.1 h1.2 x (mem_allCl x)

theorem le_acc {cfg : Cfg} {q q' : Q} (h : le cfg q q' = true) (ha : acc q = true) :
    acc q' = true := by
  have h1 := List.all_eq_true.1 (List.all_eq_true.1 (List.all_eq_true.1 le_all cfg (mem_allCfg cfg))
    q (mem_allQ q)) q' (mem_allQ q')
  rw [h, cond_true, Bool.and_eq_true, ha] at h1
  simpa using h1.1

theorem run_append (cfg : Cfg) (q : Q) (xs ys : List Tok) :
    run cfg q (xs ++ ys) = run cfg (run cfg q xs) ys := by
  induction xs generalizing q with
  | nil => rfl
  | cons a xs ih => exact ih _

theorem le_run {cfg : Cfg} {q q' : Q} (h : le cfg q q' = true) (ts : List Tok) :
    le cfg (run cfg q ts) (run cfg q' ts) = true := by
  induction ts generalizing q q' with
  | nil => exact h
  | cons a ts ih => exact ih (le_step _ h)

theorem run_z (cfg : Cfg) (ts : List Tok) : run cfg .z ts = .z := by
  induction ts with
  | nil => rfl
  | cons a ts ih => exact ih

theorem leNP_run {cfg : Cfg} {q q' : Q} (h : leNP cfg q q' = true) (ts : List Tok)
    (hts : ∀ a, ts.head? = some a → cls a ≠ .plus) (ha : acc (run cfg q ts) = true) :
    acc (run cfg q' ts) = true := by
  rw [leNP, Bool.and_eq_true] at h
  cases ts with
  | nil => rw [run] at ha ⊢; have := h.1; rw [ha] at this; simpa using this
  | cons a ts =>
    have h2 := List.all_eq_true.1 h.2 (cls a) (mem_allCl _)
    rw [Bool.or_eq_true] at h2
    rcases h2 with h2 | h2
    · exact absurd (of_decide_eq_true h2) (hts a rfl)
    · exact le_acc (le_run h2 ts) ha

/-! ## Alignments -/

/-- States: start, after a grapheme, on a right side, dead. -/
inductive Sh
  | s | g | r | z
deriving DecidableEq

/-- Transitions of the automaton of alignments. -/
def σ : Sh → Tok → Sh
  | .z, _ => .z
  | _, .g _ => .g
  | .g, .eq => .r
  | .r, .p _ => .r
  | .r, .t _ => .r
  | _, _ => .z

def srun : Sh → List Tok → Sh
  | q, [] => q
  | q, a :: ts => srun (σ q a) ts

def sacc : Sh → Bool
  | .s => true
  | .r => true
  | _ => false

theorem srun_append (q : Sh) (xs ys : List Tok) : srun q (xs ++ ys) = srun (srun q xs) ys := by
  induction xs generalizing q with
  | nil => rfl
  | cons a xs ih => exact ih _

theorem srun_z (ts : List Tok) : srun .z ts = .z := by
  induction ts with
  | nil => rfl
  | cons a ts ih => exact ih

def allSh : List Sh := [.s, .g, .r, .z]
theorem mem_allSh (q : Sh) : q ∈ allSh := by cases q <;> decide

/-! ## Sequences in both languages -/

/-- Accepted by both automata. -/
def OK (cfg : Cfg) (ts : List Tok) : Prop := acc (run cfg .c ts) = true ∧ sacc (srun .s ts) = true

theorem simNames_plain : simNames.all nameB = true := by decide +kernel
theorem trNames_plain : trNames.all nameB = true := by decide +kernel

theorem any_seq {l : List Str} {s : Str} (h : l.any (seq s) = true) : s ∈ l := by
  rw [List.any_eq_true] at h
  obtain ⟨x, hx, h⟩ := h
  rw [seq_eq.1 h]
  exact hx

theorem cls_plain {a : Tok} (h : cls a ≠ .bad) : a.plain := by
  cases a with
  | g s =>
    simp only [cls, cond_eq_ite] at h
    split at h
    · next h1 => rw [seq_eq.1 h1]; decide
    · split at h
      · next h2 => exact nameB_iff.1 h2
      · exact absurd rfl h
  | eq => intro c hc; cases hc
  | t s =>
    simp only [cls, cond_eq_ite] at h
    split at h
    · next h1 => exact nameB_iff.1 (List.all_eq_true.1 trNames_plain s (any_seq h1))
    · exact absurd rfl h
  | p s =>
    simp only [cls, cond_eq_ite] at h
    repeat' split at h
    all_goals first
      | (next h1 => rw [seq_eq.1 h1]; decide)
      | (next h1 => exact nameB_iff.1 (List.all_eq_true.1 simNames_plain s (any_seq h1)))
      | exact absurd rfl h

theorem cls_plus {a : Tok} (h : cls a = .plus) : a = .p a!"+" := by
  cases a with
  | g s =>
    exfalso
    revert h
    rw [cls]
    cases seq s a!"a_i" <;> cases nameB s <;> (intro h; cases h)
  | eq => cases h
  | t s =>
    exfalso
    revert h
    rw [cls]
    generalize trNames.any (seq s) = b
    cases b <;> (intro h; cases h)
  | p s =>
    revert h
    rw [cls]
    generalize simNames.any (seq s) = b
    intro h
    cases h1 : seq s a!"+" with
    | true => rw [seq_eq.1 h1]
    | false =>
      exfalso
      rw [h1] at h
      revert h
      cases seq s a!"a" <;> cases seq s a!"i" <;> cases seq s a!"u" <;> cases seq s a!"t" <;>
        cases seq s a!"d" <;> cases seq s a!"sh" <;> cases seq s a!"zh" <;> cases seq s a!":h" <;>
        cases seq s a!"H" <;> cases b <;> (intro h; cases h)

theorem δ_bad (cfg : Cfg) (q : Q) : δ cfg q .bad = .z := by
  obtain ⟨a, b, c, d, e⟩ := cfg
  cases q <;> cases e <;> rfl

theorem run_plain {cfg : Cfg} {ts : List Tok} {q : Q} (h : acc (run cfg q ts) = true) :
    Plain ts := by
  induction ts generalizing q with
  | nil => intro a ha; cases ha
  | cons a ts ih =>
    rw [plain_cons]
    rw [run] at h
    refine ⟨cls_plain ?_, ih h⟩
    intro hb
    rw [hb, δ_bad, run_z] at h
    cases h

theorem OK.plain {cfg : Cfg} {ts : List Tok} (h : OK cfg ts) : Plain ts := run_plain h.1

/-! ## The check of rules -/

/-- The first symbol is no translit. -/
def notT : Tok → Bool
  | .t _ => false
  | _ => true

def eqStrs : List Str → List Str → Bool
  | [], [] => true
  | a :: x, b :: y => seq a b && eqStrs x y
  | _, _ => false

theorem eqStrs_eq {x y : List Str} (h : eqStrs x y = true) : x = y := by
  induction x generalizing y with
  | nil => cases y <;> simp_all [eqStrs]
  | cons a x ih =>
    cases y with
    | nil => simp [eqStrs] at h
    | cons b y =>
      rw [eqStrs, Bool.and_eq_true] at h
      rw [seq_eq.1 h.1, ih h.2]

/-- The check on sequences. -/
def seqCheck (cfg : Cfg) (np : Bool) (lt rt : List Tok) : Bool :=
  (allQ.all fun q =>
    let q1 := run cfg q lt
    decide (q1 = .z) || (bif np then leNP cfg q1 (run cfg q rt) else le cfg q1 (run cfg q rt))) &&
  (allSh.all fun q => let q1 := srun q lt; decide (q1 = .z) || decide (q1 = srun q rt))

/-- The check of a rule. -/
def ruleCheck' (cfg : Cfg) (np : Bool) (l r : Str) : Option (List Tok) → Option (List Tok) → Bool
  | some (a :: lt), some rt =>
    seq l (enc (a :: lt)) && seq r (enc rt) && plainB (a :: lt) && notT a &&
      eqStrs ((a :: lt).flatMap gproj) (rt.flatMap gproj) && seqCheck cfg np (a :: lt) rt
  | _, _ => false

def ruleCheck (cfg : Cfg) (np : Bool) (rule : Str × Str) : Bool :=
  ruleCheck' cfg np rule.1 rule.2 (toks rule.1) (toks rule.2)

theorem seqCheck_sound {cfg : Cfg} {np : Bool} {lt rt : List Tok}
    (h : seqCheck cfg np lt rt = true) (o q : List Tok)
    (hnp : np = true → ∀ a, q.head? = some a → cls a ≠ .plus) (hk : OK cfg (o ++ lt ++ q)) :
    OK cfg (o ++ rt ++ q) := by
  rw [seqCheck, Bool.and_eq_true] at h
  obtain ⟨h1, h2⟩ := hk
  rw [run_append, run_append] at h1
  rw [srun_append, srun_append] at h2
  constructor
  · have h3 := List.all_eq_true.1 h.1 (run cfg .c o) (mem_allQ _)
    rw [run_append, run_append]
    simp only [Bool.or_eq_true, decide_eq_true_eq] at h3
    rcases h3 with h3 | h3
    · rw [h3, run_z] at h1; cases h1
    · cases np with
      | false => exact le_acc (le_run h3 q) h1
      | true => exact leNP_run h3 q (hnp rfl) h1
  · have h3 := List.all_eq_true.1 h.2 (srun .s o) (mem_allSh _)
    rw [srun_append, srun_append]
    simp only [Bool.or_eq_true, decide_eq_true_eq] at h3
    rcases h3 with h3 | h3
    · rw [h3, srun_z] at h2; cases h2
    · rw [← h3]; exact h2

theorem ruleCheck_sound {cfg : Cfg} {np : Bool} {l r : Str} (h : ruleCheck cfg np (l, r) = true)
    (rc : Str → Prop) (hnp : np = true → ∀ q, rc (enc q) → ∀ a, q.head? = some a → cls a ≠ .plus) :
    RuleOk gproj (OK cfg) rc l r := by
  unfold ruleCheck at h
  revert h
  generalize toks (l, r).1 = x
  generalize toks (l, r).2 = y
  intro h
  unfold ruleCheck' at h
  split at h
  · next a lt rt =>
    simp only [Bool.and_eq_true] at h
    obtain ⟨⟨⟨⟨⟨h1, h2⟩, h3⟩, h4⟩, h5⟩, h6⟩ := h
    refine ⟨a, lt, rt, seq_eq.1 h1, seq_eq.1 h2, plainB_iff.1 h3, ?_, eqStrs_eq h5, ?_⟩
    · rintro s rfl; cases h4
    · intro o q hq hk
      exact seqCheck_sound h6 o q (fun hb => hnp hb q hq) hk
  · cases h

/-! ## Determinism -/

/-- Prefix of strings. -/
def pre : Str → Str → Bool
  | [], _ => true
  | _ :: _, [] => false
  | a :: x, b :: y => bif Nat.beq a b then pre x y else false

theorem pre_iff {x y : Str} : pre x y = true ↔ x <+: y := by
  induction x generalizing y with
  | nil => simp [pre]
  | cons a x ih =>
    cases y with
    | nil => simp [pre]
    | cons b y =>
      rw [pre, cond_eq_ite]
      by_cases h : Nat.beq a b = true
      · rw [if_pos h, ih]
        rw [Nat.beq_eq] at h
        simp [h, List.cons_prefix_cons]
      · rw [if_neg h]
        rw [Nat.beq_eq] at h
        simp [h, List.cons_prefix_cons]

/-- No two inputs of rules are prefixes of each other; with `np` the longer one may go on with the
sign of composites. -/
def detCheck (np : Bool) (rs : List (Str × Str)) : Bool :=
  rs.all fun a => (!seq a.1 []) && rs.all fun b =>
    bif pre a.1 b.1 then
      (seq a.1 b.1 && seq a.2 b.2) || (np && pre (a.1 ++ a!"{+}") b.1)
    else true

theorem det_of_check {np : Bool} {rs : List (Str × Str)} (h : detCheck np rs = true) (L R : Lang)
    (hnp : np = true → ∀ x, ¬ (ctxOf L R).right (a!"{+}" ++ x)) :
    Det (cdrewrite (rules rs) L R) := by
  have hne : ∀ l r, rules rs l r → l ≠ [] := by
    intro l r hm
    have h1 := List.all_eq_true.1 h _ hm
    rw [Bool.and_eq_true] at h1
    rintro rfl
    have := h1.1
    simp [seq] at this
  have key : ∀ l r l' r' x x', rules rs l r → rules rs l' r' → l ++ x = l' ++ x' →
      (ctxOf L R).right x → l.length ≤ l'.length → l = l' ∧ r = r' := by
    intro l r l' r' x x' hm hm' he hx hlen
    have h1 := List.all_eq_true.1 h _ hm
    rw [Bool.and_eq_true] at h1
    have h2 := List.all_eq_true.1 h1.2 _ hm'
    have hpre : l <+: l' := List.prefix_of_prefix_length_le ⟨x, rfl⟩ ⟨x', he.symm⟩ hlen
    simp only [pre_iff.2 hpre, cond_true, Bool.or_eq_true, Bool.and_eq_true] at h2
    rcases h2 with ⟨h3, h4⟩ | ⟨h3, h4⟩
    · exact ⟨seq_eq.1 h3, seq_eq.1 h4⟩
    · exfalso
      obtain ⟨w, hw⟩ := pre_iff.1 h4
      rw [← hw, List.append_assoc, List.append_assoc] at he
      have := List.append_cancel_left he
      subst this
      exact hnp h3 _ hx
  intro s y z hy hz
  refine cdr_det hne ?_ hy.2.2 hz.2.2
  intro l r l' r' x x' hm hm' he hx hx'
  rcases Nat.le_total l.length l'.length with hl | hl
  · exact key l r l' r' x x' hm hm' he hx hl
  · obtain ⟨h1, h2⟩ := key l' r' l r x' x hm' hm he.symm hx' hl
    exact ⟨h1.symm, h2.symm⟩

/-- A stage of the pipeline: outputs are in the language, left sides are kept, there is an output. -/
def St (P Q : List Tok → Prop) (R : Rel) : Prop := Closed gproj P Q R ∧ Tot P R

theorem st_of_check {cfg : Cfg} {rs : List (Str × Str)} (h : rs.all (ruleCheck cfg false) = true)
    (L R : Lang) : St (OK cfg) (OK cfg) (cdrewrite (rules rs) L R) := by
  have hr : ∀ l r, (l, r) ∈ rs → RuleOk gproj (OK cfg) (ctxOf L R).right l r := fun l r hm =>
    ruleCheck_sound (List.all_eq_true.1 h _ hm) _ (fun hb => by cases hb)
  exact ⟨closed_cdrewrite (fun _ h => h.plain) hr, tot_cdrewrite (fun _ h => h.plain) hr⟩

theorem st_of_check_np {cfg : Cfg} {rs : List (Str × Str)} (h : rs.all (ruleCheck cfg true) = true)
    (L R : Lang) (hnp : ∀ x, ¬ (ctxOf L R).right (enc [.p a!"+"] ++ x)) :
    St (OK cfg) (OK cfg) (cdrewrite (rules rs) L R) := by
  have hr : ∀ l r, (l, r) ∈ rs → RuleOk gproj (OK cfg) (ctxOf L R).right l r := fun l r hm =>
    ruleCheck_sound (List.all_eq_true.1 h _ hm) _ (by
      intro _ q hq a ha hc
      have := cls_plus hc
      subst this
      cases q with
      | nil => cases ha
      | cons b q =>
        injection ha with ha
        subst ha
        exact hnp (enc q) hq)
  exact ⟨closed_cdrewrite (fun _ h => h.plain) hr, tot_cdrewrite (fun _ h => h.plain) hr⟩

end Nisaba.NT
