import Verif.Lemmas.NfcTables
/-!
# Visual normalization is a function
-/
namespace Nisaba

/-- `R` is the graph of `f` on strings over `σ`. -/
def Graph (σ : Nat → Prop) (R : Rel) (f : Str → Str) : Prop := ∀ s t, R s t ↔ Over σ s ∧ t = f s

/-- `f` maps strings over `σ` to strings over `τ`. -/
def MapsOver (σ τ : Nat → Prop) (f : Str → Str) : Prop := ∀ s, Over σ s → Over τ (f s)

theorem Graph.comp {σ τ : Nat → Prop} {R S : Rel} {f g : Str → Str} (h : Graph σ R f)
    (k : Graph τ S g) (hf : MapsOver σ τ f) : Graph σ (Rel.comp R S) (fun s => g (f s)) := by
  intro s t
  constructor
  · rintro ⟨y, h1, h2⟩
    obtain ⟨h3, rfl⟩ := (h _ _).1 h1
    exact ⟨h3, ((k _ _).1 h2).2⟩
  · rintro ⟨h1, rfl⟩
    exact ⟨f s, (h _ _).2 ⟨h1, rfl⟩, (k _ _).2 ⟨hf s h1, rfl⟩⟩

/-! ## De-duplication -/

def collapseFrom (M : List Nat) : Option Nat → Str → Str
  | _, [] => []
  | prev, a :: s =>
    if prev = some a ∧ a ∈ M then collapseFrom M prev s else a :: collapseFrom M (some a) s

theorem collapse_cons (M : List Nat) (a : Nat) (s : Str) :
    collapse M (a :: s) = a :: collapseFrom M (some a) s := by
  induction s generalizing a with
  | nil => simp [collapse, collapseFrom]
  | cons b s ih =>
    simp only [collapse, Bool.cond_eq_ite, Bool.and_eq_true, collapseFrom, Option.some.injEq]
    by_cases h : a = b
    · subst h
      by_cases hM : a ∈ M
      · rw [if_pos ⟨Nat.beq_refl a, memNat_iff.2 hM⟩, if_pos ⟨rfl, hM⟩, ih]
      · rw [if_neg fun h => hM (memNat_iff.1 h.2), if_neg fun h => hM h.2, ih]
    · rw [if_neg fun h' => h (Nat.eq_of_beq_eq_true h'.1), if_neg fun h' => h h'.1, ih]

theorem collapse_eq (M : List Nat) (s : Str) : collapse M s = collapseFrom M none s := by
  cases s with
  | nil => rfl
  | cons a s => rw [collapse_cons]; simp [collapseFrom]

theorem collapseFrom_comp (M : List Nat) (c : Nat) (prev : Option Nat) (s : Str) :
    collapseFrom M prev (collapseFrom [c] prev s) = collapseFrom (c :: M) prev s := by
  induction s generalizing prev with
  | nil => rfl
  | cons a s ih =>
    simp only [collapseFrom, List.mem_cons, List.not_mem_nil, or_false]
    by_cases hp : prev = some a
    · by_cases hc : a = c
      · subst hc
        rw [if_pos ⟨hp, rfl⟩, if_pos ⟨hp, Or.inl rfl⟩, ih]
      · rw [if_neg fun h => hc h.2]
        by_cases hM : a ∈ M
        · rw [if_pos ⟨hp, Or.inr hM⟩, collapseFrom, if_pos ⟨hp, hM⟩, ← hp, ih]
        · rw [if_neg (fun h => h.2.elim hc hM), collapseFrom, if_neg fun h => hM h.2, ih]
    · rw [if_neg fun h => hp h.1, if_neg fun h => hp h.1, collapseFrom, if_neg fun h => hp h.1, ih]

theorem collapse_comp (M : List Nat) (c : Nat) (s : Str) :
    collapse M (collapse [c] s) = collapse (c :: M) s := by
  simp only [collapse_eq, collapseFrom_comp]

theorem collapseFrom_congr {M M' : List Nat} (h : ∀ c, c ∈ M ↔ c ∈ M') (prev : Option Nat)
    (s : Str) : collapseFrom M prev s = collapseFrom M' prev s := by
  induction s generalizing prev with
  | nil => rfl
  | cons a s ih => simp only [collapseFrom, h a, ih]

theorem collapse_congr {M M' : List Nat} (h : ∀ c, c ∈ M ↔ c ∈ M') (s : Str) :
    collapse M s = collapse M' s := by
  simp only [collapse_eq, collapseFrom_congr h]

theorem mem_collapseFrom {M : List Nat} {prev : Option Nat} {s : Str} {c : Nat}
    (h : c ∈ collapseFrom M prev s) : c ∈ s := by
  induction s generalizing prev with
  | nil => simp [collapseFrom] at h
  | cons a s ih =>
    simp only [collapseFrom] at h
    split at h
    · exact List.mem_cons_of_mem _ (ih h)
    · rcases List.mem_cons.1 h with rfl | h
      · simp
      · exact List.mem_cons_of_mem _ (ih h)

theorem over_collapse {σ : Nat → Prop} (M : List Nat) : MapsOver σ σ (collapse M) := by
  intro s hs c hc
  rw [collapse_eq] at hc
  exact hs c (mem_collapseFrom hc)

def lastIs (c : Nat) (out : Str) : Bool := isPre [c] out.reverse

theorem endsIn_single {c : Nat} {out : Str} :
    endsIn (fun x => x = [c]) out ↔ lastIs c out = true := by
  rw [lastIs, isPre_iff]
  constructor
  · rintro ⟨p, x, rfl, rfl⟩; simp
  · intro h
    obtain ⟨t, ht⟩ := h
    refine ⟨t.reverse, [c], ?_, rfl⟩
    have := congrArg List.reverse ht
    simp at this
    exact this.symm

theorem lastIs_concat {c d : Nat} {out : Str} : lastIs c (out ++ [d]) = true ↔ c = d := by
  rw [lastIs, isPre_iff]
  simp

def dedupCtx (c : Nat) : BCtx := ⟨lastIs c, fun _ => true⟩

theorem scanC_dedup (c : Nat) (out : Str) (prev : Option Nat) (s : Str)
    (h : lastIs c out = true ↔ prev = some c) :
    scanC (dedupCtx c) [([c], [])] out 0 s = out ++ collapseFrom [c] prev s := by
  induction s generalizing out prev with
  | nil => simp [scanC, collapseFrom]
  | cons a s ih =>
    simp only [scanC, findRuleC, dedupCtx, collapseFrom, List.mem_singleton]
    by_cases ha : a = c
    · subst ha
      by_cases hp : prev = some a
      · have hl := h.2 hp
        simp only [isPre, Nat.beq_refl, cond_true, hl, Bool.and_self, hp, and_self, if_true,
          List.append_nil, List.length_singleton, Nat.sub_self]
        rw [← hp]
        exact ih out prev h
      · have hl : lastIs a out = false := by
          rw [Bool.eq_false_iff]; exact fun h' => hp (h.1 h')
        simp only [hl, Bool.false_and, Bool.and_false, cond_false, hp, false_and, if_false]
        rw [show (BCtx.mk (lastIs a) fun _ => true) = dedupCtx a from rfl,
          ih (out ++ [a]) (some a) (by simp [lastIs_concat])]
        simp
    · have : isPre [c] (a :: s) = false := by
        rw [Bool.eq_false_iff, Ne, isPre_iff]
        intro h'; exact ha (by simpa using (List.cons_prefix_cons.1 h').1.symm)
      simp only [this, Bool.false_and, cond_false, ha, and_false, if_false]
      rw [show (BCtx.mk (lastIs c) fun _ => true) = dedupCtx c from rfl,
        ih (out ++ [a]) (some a) (by rw [lastIs_concat]; simp; exact eq_comm)]
      simp

theorem prefixDet_single (p : Rule) : PrefixDet [p] := by
  intro a ha b hb _
  simp at ha hb; rw [ha, hb]

theorem dedupChar_graph (σ : Nat → Prop) (c : Nat) : Graph σ (dedupChar σ c) (collapse [c]) := by
  intro s t
  have e : (⟨endsIn (fun x => x = [c]), fun _ => True⟩ : Ctx) = (dedupCtx c).toCtx := by
    simp only [dedupCtx, BCtx.toCtx]
    congr 1
    funext out
    exact propext endsIn_single
  unfold dedupChar
  rw [e, rewriteC_iff (by intro p hp; simp at hp; simp [hp]) ((prefixDet_single _).detAt _)
    (by intro p hp; simp at hp; subst hp; intro c hc; simp at hc),
    scanC_dedup c [] none s (by simp [lastIs, isPre]), collapse_eq]
  simp

theorem dedupChars_graph (σ : Nat → Prop) {order : List Nat} (hne : order ≠ []) :
    Graph σ (dedupChars σ order) (collapse order) := by
  unfold dedupChars
  induction order with
  | nil => exact absurd rfl hne
  | cons c order ih =>
    cases order with
    | nil => simpa [composeRels] using dedupChar_graph σ c
    | cons d order =>
      have := (dedupChar_graph σ c).comp (ih (by simp)) (over_collapse [c])
      simp only [List.map_cons, composeRels] at this ⊢
      intro s t
      rw [this s t]
      simp only [collapse_comp]

/-! ## Contexts given by tables -/

theorem endsIn_iff {rows : List Rule} {out : Str} :
    endsIn (inputLang rows) out ↔ endsInB rows out = true := by
  simp only [endsInB, List.any_eq_true, isPre_iff, List.reverse_prefix]
  constructor
  · rintro ⟨p, x, rfl, y, hy⟩; exact ⟨(x, y), hy, ⟨p, rfl⟩⟩
  · rintro ⟨q, hq, p, hp⟩; exact ⟨p, q.1, hp.symm, q.2, hq⟩

theorem startsIn_iff {rows : List Rule} {rest : Str} :
    startsIn (inputLang rows) rest ↔ startsInB rows rest = true := by
  simp only [startsInB, List.any_eq_true, isPre_iff]
  constructor
  · rintro ⟨x, p, rfl, y, hy⟩; exact ⟨(x, y), hy, ⟨p, rfl⟩⟩
  · rintro ⟨q, hq, p, hp⟩; exact ⟨q.1, p, hp.symm, q.2, hq⟩

theorem consCtx_toCtx (d : BrahmicData) :
    (consCtx d).toCtx = ⟨endsIn (consonantLang d), startsIn (consonantLang d)⟩ := by
  simp only [consCtx, BCtx.toCtx, consonantLang]
  congr 1
  · funext out; exact propext endsIn_iff.symm
  · funext out; exact propext startsIn_iff.symm

theorem rightCtx_toCtx (rows : List Rule) :
    (BCtx.mk (fun _ => true) (startsInB rows)).toCtx = ⟨fun _ => True, startsIn (inputLang rows)⟩ := by
  simp only [BCtx.toCtx]
  congr 1
  funext out; exact propext startsIn_iff.symm

theorem leftCtx_toCtx (rows : List Rule) :
    (BCtx.mk (endsInB rows) (fun _ => true)).toCtx = ⟨endsIn (inputLang rows), fun _ => True⟩ := by
  simp only [BCtx.toCtx]
  congr 1
  funext out; exact propext endsIn_iff.symm

/-! ## Single-character left-hand sides -/

/-- What a rule set with single-character left-hand sides does to one character. -/
def charMap (rs : List Rule) (c : Nat) : Str :=
  match findRule rs [c] with
  | some p => p.2
  | none => [c]

theorem findRule_singleLhs {rs : List Rule} (h1 : ∀ p ∈ rs, p.1.length = 1) (c : Nat) (s : Str) :
    findRule rs (c :: s) = findRule rs [c] := by
  induction rs with
  | nil => rfl
  | cons p rs ih =>
    have e : isPre p.1 (c :: s) = isPre p.1 [c] := by
      have := h1 p (by simp)
      match hp : p.1, this with
      | [a], _ => simp [isPre]
    simp only [findRule, e, ih fun q hq => h1 q (List.mem_cons_of_mem _ hq)]

theorem scan_singleLhs {rs : List Rule} (h1 : ∀ p ∈ rs, p.1.length = 1) (s : Str) :
    scan rs 0 s = s.flatMap (charMap rs) := by
  induction s with
  | nil => simp [scan]
  | cons c s ih =>
    rw [List.flatMap_cons, ← ih]
    simp only [scan, charMap, findRule_singleLhs h1 c s]
    cases hf : findRule rs [c] with
    | none => simp
    | some p => simp [h1 p (findRule_some hf).1]

theorem charMap_delete (js : List Nat) (c : Nat) :
    charMap (js.map fun c => (([c], []) : Rule)) c = if memNat js c then [] else [c] := by
  unfold charMap
  induction js with
  | nil => simp [findRule, memNat]
  | cons j js ihj =>
    simp only [List.map_cons, findRule, isPre, Bool.cond_eq_ite]
    by_cases h : j = c
    · subst h
      simp [memNat]
    · have h1 : Nat.beq j c = false := by
        rw [Bool.eq_false_iff]; exact fun h' => h (Nat.eq_of_beq_eq_true h')
      have h2 : memNat (j :: js) c = memNat js c := by
        have : Nat.beq c j = false := by
          rw [Bool.eq_false_iff]; exact fun h' => h (Nat.eq_of_beq_eq_true h').symm
        simp [memNat, this]
      simp only [h1, h2, Bool.false_eq_true, if_false]
      exact ihj

theorem scan_delete (js : List Nat) (s : Str) :
    scan (js.map fun c => ([c], [])) 0 s = s.filter fun c => !memNat js c := by
  rw [scan_singleLhs (by simp)]
  induction s with
  | nil => rfl
  | cons c s ih =>
    rw [List.flatMap_cons, ih, List.filter_cons, charMap_delete]
    cases memNat js c <;> simp

theorem prefixDet_delete (js : List Nat) : PrefixDet (js.map fun c => (([c], []) : Rule)) := by
  intro p hp q hq h
  obtain ⟨a, _, rfl⟩ := List.mem_map.1 hp
  obtain ⟨b, _, rfl⟩ := List.mem_map.1 hq
  have : a = b := by simpa using (List.cons_prefix_cons.1 h).1
  rw [this]

/-! ## Table conditions -/

/-- Two different rules have different left-hand sides (and none is empty). -/
def noConflict (rules : List Rule) : Bool :=
  rules.all fun p => !p.1.isEmpty && rules.all fun q => bif strEq p.1 q.1 then strEq p.2 q.2 else true

theorem noConflict_ok {rules : List Rule} (h : noConflict rules = true) :
    ∃ sets, partitionUnordered rules = .ok sets := by
  cases hs : partitionUnordered rules with
  | ok sets => exact ⟨sets, rfl⟩
  | fuel => exact absurd hs (peel_ne_fuel (Nat.le_refl _))
  | valueError =>
    exfalso
    obtain ⟨p, hp, q, hq, hne, he⟩ := peel_valueError hs
    simp only [noConflict, List.all_eq_true, Bool.and_eq_true] at h
    have := (h p (mem_nodes.1 hp)).2 q (mem_nodes.1 hq)
    rw [strEq_iff.2 he, cond_true, strEq_iff] at this
    exact hne (Prod.ext he this)

theorem noConflict_nonempty {rules : List Rule} (h : noConflict rules = true) :
    LhsNonempty rules := by
  intro p hp hnil
  simp only [noConflict, List.all_eq_true, Bool.and_eq_true] at h
  have := (h p hp).1
  simp [hnil] at this

/-- `fst_from_rules` of such a table is the graph of `applyRules`. -/
theorem noConflict_graph {rules : List Rule} (h : noConflict rules = true) {σ : Nat → Prop}
    (hσ : RhsOver σ rules) :
    ∃ R, fstFromRules rules σ = some R ∧ Graph σ R (applyRules rules) ∧
      MapsOver σ σ (applyRules rules) := by
  obtain ⟨sets, hs⟩ := noConflict_ok h
  have e : fstFromRules rules σ = some (rewriteAndCompose sets σ) := by simp [fstFromRules, hs]
  refine ⟨_, e, fun s t => fstFromRules_iff (noConflict_nonempty h) hσ e, ?_⟩
  intro s hs'
  unfold applyRules stages
  rw [hs]
  exact over_scanAll (fun st hst p hp => hσ p (mem_sets_rules hs hst hp)) hs'

/-- No left-hand side is a prefix of that of a different rule. -/
def prefixDetB (rows : List Rule) : Bool :=
  rows.all fun p => rows.all fun q => bif isPre p.1 q.1 then ruleEq p q else true

theorem prefixDetB_iff {rows : List Rule} (h : prefixDetB rows = true) : PrefixDet rows := by
  intro p hp q hq hpre
  simp only [prefixDetB, List.all_eq_true] at h
  have := h p hp q hq
  rw [isPre_iff.2 hpre, cond_true, ruleEq_iff] at this
  exact this

/-- A consonant row that ends in another one without joiners or generated symbols, and starts
with one without those and without first characters of preserved sequences. -/
def consonantOk (d : BrahmicData) (x : Str) : Bool :=
  (d.consonant.any fun y => isPre y.1.reverse x.reverse &&
    y.1.all fun c => !isJoiner c && Nat.blt c 0x110000) &&
  (d.consonant.any fun y => isPre y.1 x &&
    y.1.all fun c => !isJoiner c && Nat.blt c 0x110000 &&
      d.preserve.all fun p => !(isPre [c] p.1))

/-- Facts about the tables of a script that visual normalization relies on. -/
def visualOk (d : BrahmicData) : Bool :=
  noConflict d.visualRewrite &&
  prefixDetB d.preserve && prefixDetB (invRows d.preserve) &&
  (d.preserve.all fun p => !p.1.isEmpty && (p.1.all fun c => Nat.blt c 0x110000 && !Nat.beq c ZWS) &&
    match p.2 with
    | [g] => Nat.ble 0x110000 g
    | _ => false) &&
  d.consonant.all fun p => consonantOk d p.1

end Nisaba
