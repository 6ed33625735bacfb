import Verif.Lemmas.Visual
/-!
# Cascades of rule sets and de-duplication as one sequential machine
-/
namespace Nisaba

/-- A stage of a cascade. -/
inductive Stage where
  | rules (rs : List Rule)
  | dedup (M : List Nat)

/-- What a stage does to a text. -/
def Stage.run : Stage → Str → Str
  | .rules rs, x => scan rs 0 x
  | .dedup M, x => collapse M x

/-- What a stage with memory `b` still writes for the remaining text `x`. -/
def Stage.res : Stage → Str → Str → Str
  | .rules rs, b, x => scan rs 0 (b ++ x)
  | .dedup M, b, x => collapseFrom M b.head? x

/-- One character: (text written, new memory). -/
def Stage.step : Stage → Str → Nat → Str × Str
  | .rules rs, b, c => let bc := b ++ [c]; settle rs bc.length bc
  | .dedup M, b, c =>
    bif memNat M c then (bif strEq b [c] then ([], b) else ([c], [c])) else ([c], [])

def Stage.Good : Stage → Prop
  | .rules rs => LhsNonempty rs ∧ PrefixDet rs
  | .dedup _ => True

theorem collapseFrom_none_of_not_mem {M : List Nat} {a : Nat} (ha : a ∉ M) (x : Str) :
    collapseFrom M (some a) x = collapseFrom M none x := by
  cases x with
  | nil => rfl
  | cons c x =>
    simp only [collapseFrom]
    rw [if_neg, if_neg]
    · rintro ⟨h, _⟩; simp at h
    · rintro ⟨h, h'⟩; simp at h; exact ha (h ▸ h')

/-- Memory of a de-duplication stage has at most one character. -/
def Stage.Inv : Stage → Str → Prop
  | .rules _, _ => True
  | .dedup _, b => b.length ≤ 1

theorem Stage.step_inv (st : Stage) (b : Str) (c : Nat) (h : st.Inv b) : st.Inv (st.step b c).2 := by
  cases st with
  | rules rs => trivial
  | dedup M =>
    simp only [Stage.step, Stage.Inv, Bool.cond_eq_ite] at *
    split
    · split
      · exact h
      · simp
    · simp

theorem Stage.res_step {st : Stage} (hg : st.Good) {b : Str} (hb : st.Inv b) (c : Nat) (x : Str) :
    st.res b (c :: x) = (st.step b c).1 ++ st.res (st.step b c).2 x := by
  cases st with
  | rules rs =>
    have := settle_scan hg.1 hg.2 (b ++ [c]).length (b ++ [c]) x
    simpa [Stage.res, Stage.step] using this
  | dedup M =>
    simp only [Stage.res, Stage.step, Bool.cond_eq_ite, collapseFrom]
    by_cases hM : c ∈ M
    · rw [if_pos (memNat_iff.2 hM)]
      by_cases hbc : b = [c]
      · subst hbc
        rw [if_pos ⟨rfl, hM⟩, if_pos (strEq_iff.2 rfl)]; rfl
      · rw [if_neg (fun h => hbc (strEq_iff.1 h)), if_neg]
        · rfl
        · rintro ⟨h, _⟩
          match b, hb, h with
          | [a], _, h => simp at h; exact hbc (by rw [h])
    · rw [if_neg (fun h => hM (memNat_iff.1 h)), if_neg fun h => hM h.2,
        collapseFrom_none_of_not_mem hM]
      rfl

/-- Text into one stage. -/
def Stage.feed (st : Stage) : Str → Str → Str × Str
  | b, [] => ([], b)
  | b, c :: x =>
    let r := st.step b c
    let q := st.feed r.2 x
    (r.1 ++ q.1, q.2)

theorem Stage.feed_inv (st : Stage) (b x : Str) (h : st.Inv b) : st.Inv (st.feed b x).2 := by
  induction x generalizing b with
  | nil => exact h
  | cons c x ih => exact ih _ (st.step_inv b c h)

theorem Stage.res_feed {st : Stage} (hg : st.Good) {b : Str} (hb : st.Inv b) (x y : Str) :
    st.res b (x ++ y) = (st.feed b x).1 ++ st.res (st.feed b x).2 y := by
  induction x generalizing b with
  | nil => rfl
  | cons c x ih =>
    simp only [List.cons_append, Stage.feed]
    rw [Stage.res_step hg hb, ih (st.step_inv b c hb)]
    simp

theorem Stage.res_nil (st : Stage) (x : Str) : st.res [] x = st.run x := by
  cases st with
  | rules rs => rfl
  | dedup M => simp [Stage.res, Stage.run, collapse_eq]

/-! ## Cascades -/

def runAll : List Stage → Str → Str
  | [], x => x
  | st :: sts, x => runAll sts (st.run x)

def feedAll : List Stage → List Str → Str → List Str × Str
  | [], _, x => ([], x)
  | st :: sts, bufs, x =>
    let r := st.feed (bufs.headD []) x
    let q := feedAll sts bufs.tail r.1
    (r.2 :: q.1, q.2)

def resAll : List Stage → List Str → Str → Str
  | [], _, x => x
  | st :: sts, bufs, x => resAll sts bufs.tail (st.res (bufs.headD []) x)

def InvAll : List Stage → List Str → Prop
  | [], _ => True
  | st :: sts, bufs => st.Inv (bufs.headD []) ∧ InvAll sts bufs.tail

theorem feedAll_inv (sts : List Stage) (bufs : List Str) (x : Str) (h : InvAll sts bufs) :
    InvAll sts (feedAll sts bufs x).1 := by
  induction sts generalizing bufs x with
  | nil => trivial
  | cons st sts ih => exact ⟨st.feed_inv _ x h.1, ih _ _ h.2⟩

theorem resAll_feedAll {sts : List Stage} (hg : ∀ st ∈ sts, st.Good) {bufs : List Str}
    (hb : InvAll sts bufs) (x y : Str) :
    resAll sts bufs (x ++ y) = (feedAll sts bufs x).2 ++ resAll sts (feedAll sts bufs x).1 y := by
  induction sts generalizing bufs x y with
  | nil => rfl
  | cons st sts ih =>
    simp only [resAll, feedAll, List.headD_cons, List.tail_cons]
    rw [Stage.res_feed (hg st (by simp)) hb.1, ih (fun s hs => hg s (List.mem_cons_of_mem _ hs)) hb.2]

theorem invAll_nil (sts : List Stage) : InvAll sts [] := by
  induction sts with
  | nil => trivial
  | cons st sts ih =>
    refine ⟨?_, ih⟩
    cases st <;> simp [Stage.Inv]

theorem resAll_nil (sts : List Stage) (x : Str) : resAll sts [] x = runAll sts x := by
  induction sts generalizing x with
  | nil => rfl
  | cons st sts ih => simp [resAll, runAll, Stage.res_nil, ih]

/-! ## Checker -/

def nextM (sts : List Stage) (bad : List Str) (s : MState) (c : Nat) : Option MState :=
  let r := feedAll sts s.1 [c]
  match observe bad s.2 r.2 with
  | some q => some (r.1, q)
  | none => none

def closedM (sts : List Stage) (bad : List Str) (alpha : List Nat) (I : List MState) : Bool :=
  memState I ([], []) &&
  I.all fun s =>
    (match observe bad s.2 (resAll sts s.1 []) with | some _ => true | none => false) &&
    alpha.all fun c =>
      match nextM sts bad s c with
      | some s' => memState I (s'.1, s'.2)
      | none => false

def exploreM (sts : List Stage) (bad : List Str) (alpha : List Nat) :
    Nat → List MState → List MState → List MState
  | 0, _, seen => seen
  | _ + 1, [], seen => seen
  | n + 1, s :: todo, seen =>
    let succ := alpha.filterMap (nextM sts bad s)
    let new := succ.foldl (fun acc t => bif memState seen t || memState acc t then acc else t :: acc) []
    exploreM sts bad alpha n (todo ++ new) (seen ++ new)

theorem noBadM_over {sts : List Stage} {bad : List Str} {alpha : List Nat} {I : List MState}
    (hg : ∀ st ∈ sts, st.Good)
    (hbad : ∀ l ∈ bad, l ≠ []) (hc : closedM sts bad alpha I = true)
    {x : Str} (hx : ∀ c ∈ x, c ∈ alpha) : ∀ l ∈ bad, ¬ l <:+: runAll sts x := by
  simp only [closedM, Bool.and_eq_true, List.all_eq_true, memState_iff] at hc
  obtain ⟨h0, hI⟩ := hc
  have key : ∀ (x : Str), (∀ c ∈ x, c ∈ alpha) → ∀ s ∈ I, InvAll sts s.1 → ∀ t,
      Adequate bad s.2 t →
      (∀ l ∈ bad, ¬ l <:+: t) → ∀ l ∈ bad, ¬ l <:+: t ++ resAll sts s.1 x := by
    intro x
    induction x with
    | nil =>
      intro _ s hs _ t ha hno
      have := (hI s hs).1
      cases ho : observe bad s.2 (resAll sts s.1 []) with
      | none => rw [ho] at this; simp at this
      | some q => exact (observe_sound hbad ha hno ho).2
    | cons c x ih =>
      intro hx s hs hinv t ha hno
      have hcl := (hI s hs).2 c (hx c (by simp))
      unfold nextM at hcl
      cases ho : observe bad s.2 (feedAll sts s.1 [c]).2 with
      | none => simp [ho] at hcl
      | some q =>
        simp only [ho] at hcl
        have hmem := memState_iff.1 hcl
        obtain ⟨ha', hno'⟩ := observe_sound hbad ha hno ho
        have e := resAll_feedAll hg hinv [c] x
        simp only [List.singleton_append] at e
        rw [e, ← List.append_assoc]
        exact ih (fun d hd => hx d (List.mem_cons_of_mem _ hd)) ((feedAll sts s.1 [c]).1, q) hmem
          (feedAll_inv sts s.1 [c] hinv) _ ha' hno'
  have := key x hx ([], []) h0 (invAll_nil sts) [] (by intro l _ u hu _; simpa using hu)
    (by intro l hl h; exact hbad l hl (List.infix_nil.1 h))
  simpa [resAll_nil] using this

/-! ## Irrelevant characters -/

/-- Characters a stage reacts to. -/
def Stage.chars : Stage → List Nat
  | .rules rs => rs.flatMap fun p => p.1
  | .dedup M => M

theorem collapseFrom_append_of_not_mem {M : List Nat} {c : Nat} (hc : c ∉ M) (prev : Option Nat)
    (a b : Str) : collapseFrom M prev (a ++ c :: b) =
      collapseFrom M prev a ++ c :: collapseFrom M none b := by
  induction a generalizing prev with
  | nil =>
    simp only [List.nil_append, collapseFrom]
    rw [if_neg fun h => hc h.2, collapseFrom_none_of_not_mem hc]
  | cons d a ih =>
    simp only [List.cons_append, collapseFrom]
    split
    · exact ih _
    · rw [ih]; rfl

theorem Stage.run_sep {st : Stage} (hg : st.Good) {c : Nat} (hc : c ∉ st.chars) (a b : Str) :
    st.run (a ++ c :: b) = st.run a ++ c :: st.run b := by
  cases st with
  | rules rs =>
    refine scan_sep hg.1 (fun p hp h => hc ?_) a b
    exact List.mem_flatMap.2 ⟨p, hp, h⟩
  | dedup M =>
    simp only [Stage.run, collapse_eq]
    exact collapseFrom_append_of_not_mem hc none a b

theorem runAll_sep {sts : List Stage} (hg : ∀ st ∈ sts, st.Good) {c : Nat}
    (hc : ∀ st ∈ sts, c ∉ st.chars) (a b : Str) :
    runAll sts (a ++ c :: b) = runAll sts a ++ c :: runAll sts b := by
  induction sts generalizing a b with
  | nil => rfl
  | cons st sts ih =>
    simp only [runAll]
    rw [Stage.run_sep (hg st (by simp)) (hc st (by simp)),
      ih (fun s hs => hg s (List.mem_cons_of_mem _ hs)) (fun s hs => hc s (List.mem_cons_of_mem _ hs))]

/-- No text over `dom` makes the cascade write a bad sequence, when the check has been run for
the relevant characters of `dom`. -/
theorem noBadM_of_closed {sts : List Stage} {bad : List Str} {alpha : List Nat} {I : List MState}
    (dom : Nat → Prop)
    (hg : ∀ st ∈ sts, st.Good)
    (hbad : ∀ l ∈ bad, l ≠ []) (hba : ∀ l ∈ bad, ∀ c ∈ l, dom c → c ∈ alpha)
    (hdb : ∀ l ∈ bad, (∃ c ∈ l, ¬ dom c) → ∃ c ∈ l, ∀ x : Str, (∀ e ∈ x, dom e) → c ∉ runAll sts x)
    (hal : ∀ st ∈ sts, ∀ c ∈ st.chars, dom c → c ∈ alpha)
    (hc : closedM sts bad alpha I = true) (x : Str) (hx : ∀ c ∈ x, dom c) :
    ∀ l ∈ bad, ¬ l <:+: runAll sts x := by
  generalize hn : x.length = n
  induction n using Nat.strongRecOn generalizing x with
  | _ n ih =>
    by_cases hxa : ∀ c ∈ x, c ∈ alpha
    · exact noBadM_over hg hbad hc hxa
    · obtain ⟨c, hcx, hca⟩ : ∃ c, c ∈ x ∧ c ∉ alpha := by
        refine Classical.byContradiction fun h => hxa fun c hc => ?_
        exact Classical.byContradiction fun h' => h ⟨c, hc, h'⟩
      have hdc := hx c hcx
      obtain ⟨a, b, rfl⟩ := List.append_of_mem hcx
      have hxa' : ∀ c ∈ a, dom c := fun e he => hx e (by simp [he])
      have hxb' : ∀ c ∈ b, dom c := fun e he => hx e (by simp [he])
      intro l hl hin
      by_cases hld : ∃ c ∈ l, ¬ dom c
      · obtain ⟨e, he, hno⟩ := hdb l hl hld
        exact hno _ hx (hin.subset he)
      rw [runAll_sep hg (fun st hst h => hca (hal st hst c h hdc))] at hin
      rcases infix_sep (fun h => hca (hba l hl c h hdc)) hin with h | h
      · exact ih a.length (by simp at hn; omega) a hxa' rfl l hl h
      · exact ih b.length (by simp at hn; omega) b hxb' rfl l hl h

end Nisaba
