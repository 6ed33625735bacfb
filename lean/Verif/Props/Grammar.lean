import Verif.Model.Grammar
/-!
# Grammar loading and the fallback from language to script (C49)
-/
namespace Nisaba.Props
open Nisaba Nisaba.Grm

/-- The last rule stored under name `k` in an archive, as a reader of the file sees it. -/
def Stored (es : List (Str × Rel)) (k : Str) (r : Rel) : Prop :=
  ∃ pre post, es = pre ++ (k, r) :: post ∧ ∀ p ∈ post, p.1 ≠ k

/-- The archive has a rule of this name. -/
def Named (es : List (Str × Rel)) (k : Str) : Prop := ∃ r, (k, r) ∈ es

/-- Bytes of an ASCII string. -/
def ascii (s : String) : Str := s.toList.map Char.toNat

/-- The eleven languages that have a script of their own to fall back to. -/
def languages : List (Str × Str) :=
  [("bn", "Beng"), ("gu", "Gujr"), ("hi", "Deva"), ("kn", "Knda"), ("ml", "Mlym"), ("mr", "Deva"),
   ("or", "Orya"), ("pa", "Guru"), ("si", "Sinh"), ("ta", "Taml"), ("te", "Telu")].map
    fun p => (ascii p.1, ascii p.2)

/-- The script of a language, by its two-letter code in any case. -/
inductive LangOf : Str → Str → Prop
  | mk {tag lang script : Str} : (lang, script) ∈ languages → lower tag = lang →
      LangOf tag (upper script)

theorem languages_eq : languages = langScript := by decide

theorem has_put (m : FstMap) (k k' : Str) (r : Rel) :
    has (put m k r) k' = true ↔ k = k' ∨ has m k' = true := by
  simp only [has, put, List.any_eq_true, List.mem_append, List.mem_filter, List.mem_singleton,
    decide_eq_true_eq]
  constructor
  · rintro ⟨p, ⟨h1, _⟩ | rfl, h⟩
    · exact Or.inr ⟨p, h1, h⟩
    · exact Or.inl h
  · rintro (h | ⟨p, h1, h⟩)
    · exact ⟨_, Or.inr rfl, h⟩
    · by_cases e : p.1 = k
      · exact ⟨(k, r), Or.inr rfl, e ▸ h⟩
      · exact ⟨p, Or.inl ⟨h1, by simpa using e⟩, h⟩

theorem find_put (m : FstMap) (k k' : Str) (r : Rel) :
    find (put m k r) k' = if k = k' then some r else find m k' := by
  unfold find put
  rw [List.find?_append]
  by_cases e : k = k'
  · subst e
    have : (m.filter (fun p => p.1 ≠ k)).find? (fun p => p.1 = k) = none := by
      rw [List.find?_eq_none]
      intro p hp
      have := (List.mem_filter.1 hp).2
      simpa using this
    rw [this]; simp
  · rw [if_neg e, List.find?_filter]
    have : ∀ a : Str × Rel, (decide (decide (a.1 ≠ k) = true ∧ decide (a.1 = k') = true)) =
        decide (a.1 = k') := by
      intro a
      by_cases h : a.1 = k'
      · have : ¬ k' = k := fun h' => e h'.symm
        simp [h, this]
      · simp [h]
    simp only [this]
    simp [e]

def build (es : List (Str × Rel)) (m : FstMap) : FstMap :=
  es.foldl (fun m e => put m e.1 e.2) m

theorem has_build (es : List (Str × Rel)) (m : FstMap) (k : Str) :
    has (build es m) k = true ↔ Named es k ∨ has m k = true := by
  induction es generalizing m with
  | nil => simp [build, Named]
  | cons e es ih =>
    rw [build, List.foldl_cons, ← build, ih, has_put]
    simp only [Named, List.mem_cons]
    constructor
    · rintro (⟨r, h⟩ | h | h)
      · exact Or.inl ⟨r, Or.inr h⟩
      · exact Or.inl ⟨e.2, Or.inl (by rw [← h])⟩
      · exact Or.inr h
    · rintro (⟨r, h | h⟩ | h)
      · exact Or.inr (Or.inl (by rw [← h]))
      · exact Or.inl ⟨r, h⟩
      · exact Or.inr (Or.inr h)

theorem find_build (es : List (Str × Rel)) (m : FstMap) (k : Str) (r : Rel)
    (h : find (build es m) k = some r) : Stored es k r ∨ ((∀ p ∈ es, p.1 ≠ k) ∧ find m k = some r) := by
  induction es generalizing m with
  | nil => exact Or.inr ⟨by simp, h⟩
  | cons e es ih =>
    rw [build, List.foldl_cons, ← build] at h
    rcases ih _ h with ⟨pre, post, h1, h2⟩ | ⟨h1, h2⟩
    · exact Or.inl ⟨e :: pre, post, by rw [h1]; rfl, h2⟩
    · rw [find_put] at h2
      split at h2
      · rename_i hk
        cases h2
        exact Or.inl ⟨[], es, by rw [← hk]; rfl, h1⟩
      · rename_i hk
        exact Or.inr ⟨fun p hp => (List.mem_cons.1 hp).elim (fun e' => e' ▸ hk) (h1 p), h2⟩

theorem has_find {m : FstMap} {k : Str} (h : has m k = true) : ∃ r, find m k = some r := by
  simp only [has, List.any_eq_true, decide_eq_true_eq] at h
  obtain ⟨p, hp, e⟩ := h
  cases hf : m.find? (fun p => p.1 = k) with
  | none =>
    rw [List.find?_eq_none] at hf
    exact absurd e (by simpa using hf p hp)
  | some q => exact ⟨q.2, by simp [find, hf]⟩

theorem build_length (es : List (Str × Rel)) : (build es []).length = 0 ↔ es = [] := by
  constructor
  · intro h
    cases es with
    | nil => rfl
    | cons e es =>
      have := (has_build (e :: es) [] e.1).2 (Or.inl ⟨e.2, by simp⟩)
      rw [List.length_eq_zero_iff.1 h] at this
      simp [has] at this
  · rintro rfl; rfl

theorem langScript_spec (t : Str) :
    (langScript.find? (fun p => p.1 = lower t) = none ↔ ∀ k, ¬ LangOf t k) ∧
    ∀ e, langScript.find? (fun p => p.1 = lower t) = some e → ∀ k, LangOf t k ↔ k = upper e.2 := by
  have keys : ∀ p ∈ langScript, ∀ q ∈ langScript, p.1 = q.1 → p = q := by decide
  constructor
  · rw [List.find?_eq_none]
    constructor
    · rintro h k ⟨hm, hl⟩
      rw [languages_eq] at hm
      exact absurd hl.symm (by simpa using h _ hm)
    · intro h p hp
      simp only [decide_eq_true_eq]
      exact fun e => h _ (LangOf.mk (languages_eq ▸ hp) e.symm)
  · intro e he k
    have h1 := List.mem_of_find?_eq_some he
    have h2 := List.find?_some he
    simp only [decide_eq_true_eq] at h2
    constructor
    · rintro ⟨hm, hl⟩
      rw [← keys _ hm _ h1 (hl.symm.trans h2.symm)]
    · rintro rfl; exact LangOf.mk (languages_eq ▸ h1) h2.symm

theorem upper_upper (s : Str) : upper (upper s) = upper s := by
  unfold upper
  rw [List.map_map]
  apply List.map_congr_left
  intro c _
  simp only [Function.comp]
  by_cases h : 0x61 ≤ c ∧ c ≤ 0x7A
  · rw [if_pos h, if_neg (by omega)]
  · rw [if_neg h, if_neg h]

theorem lower_upper (s : Str) : lower (upper s) = lower s := by
  unfold upper lower
  rw [List.map_map]
  apply List.map_congr_left
  intro c _
  simp only [Function.comp]
  by_cases h : 0x61 ≤ c ∧ c ≤ 0x7A
  · rw [if_pos h, if_pos (by omega), if_neg (by omega)]; omega
  · rw [if_neg h]

theorem langOf_upper {t k : Str} : LangOf (upper t) k ↔ LangOf t k := by
  constructor
  · rintro ⟨h1, h2⟩; exact ⟨h1, by rw [← h2, lower_upper]⟩
  · rintro ⟨h1, h2⟩; exact ⟨h1, by rw [lower_upper, h2]⟩

/-- C49 for a grammar that is loaded for the first time: for an archive with entries `es` and a
tag in any case, `Load` succeeds exactly if the archive has a rule for the tag or for the script of
the language it names, the rule used is the one of the tag if there is one and otherwise that of
the script, and the failures are told apart.
Missing for the full claim: a grammar whose earlier `Load` or `VerifyLoad` failed, see
`C49_retry`. -/
theorem C49_load_partial (tag : Str) (m : FstMap) (es : List (Str × Rel)) :
    let res := load (.new tag m) (.entries es)
    (res.2 = .ok ↔ Named es (upper tag) ∨ ∃ k, LangOf tag k ∧ Named es k) ∧
    (res.2 = .ok → res.1.fstName = upper tag ∨
      (¬ Named es (upper tag) ∧ LangOf tag res.1.fstName)) ∧
    (res.2 = .ok → ∃ r, Stored es res.1.fstName r ∧ ∀ input before st out,
      rewrite res.1 input before st out ↔
        (st = .ok ∧ r input out) ∨ (st = .rewriteError ∧ (∀ o, ¬ r input o) ∧ out = before)) ∧
    (res.2 = .archiveError ↔ es = []) ∧
    (res.2 = .tagError ↔ es ≠ [] ∧ ¬ Named es (upper tag) ∧ ∀ k, ¬ LangOf tag k) ∧
    (res.2 = .scriptError ↔ es ≠ [] ∧ ¬ Named es (upper tag) ∧ ∃ k, LangOf tag k ∧ ¬ Named es k) := by
  intro res
  by_cases hes : es = []
  · have : res.2 = .archiveError := by subst hes; rfl
    subst hes
    simp [this, Named]
  have hl : (build es []).length ≠ 0 := fun h => hes ((build_length es).1 h)
  have e1 : res = verifyLoad ⟨upper tag, build es []⟩ (.entries es) := by
    show load _ _ = _
    simp only [load, loadArchive, Grammar.new]
    rw [show es.foldl (fun m e => put m e.1 e.2) [] = build es [] from rfl, decide_eq_true hl]
  have hb : ∀ k, has (build es []) k = true ↔ Named es k := by
    intro k; rw [has_build]; simp [has]
  have rw_ok : ∀ k, Named es k → ∃ r, Stored es k r ∧ ∀ input before st out,
      rewrite ⟨k, build es []⟩ input before st out ↔
        (st = .ok ∧ r input out) ∨ (st = .rewriteError ∧ (∀ o, ¬ r input o) ∧ out = before) := by
    intro k hk
    obtain ⟨r, hr⟩ := has_find ((hb k).2 hk)
    refine ⟨r, ?_, ?_⟩
    · rcases find_build es [] k r hr with h | ⟨_, h⟩
      · exact h
      · simp [find] at h
    · intro input before st out
      simp [rewrite, hr]
  simp only [verifyLoad] at e1
  by_cases h1 : Named es (upper tag)
  · have e2 : res = (⟨upper tag, build es []⟩, .ok) := by
      rw [e1]; simp [(hb _).2 h1]
    rw [e2]
    refine ⟨by simp [h1], by simp, fun _ => rw_ok _ h1, by simp [hes], by simp [h1], by simp [h1]⟩
  · have h1' : has (build es []) (upper tag) = false := by
      cases h : has (build es []) (upper tag) with
      | false => rfl
      | true => exact absurd ((hb _).1 h) h1
    simp only [h1', Bool.false_eq_true, if_false] at e1
    obtain ⟨sn, ss⟩ := langScript_spec (upper tag)
    cases hf : langScript.find? (fun p => p.1 = lower (upper tag)) with
    | none =>
      rw [hf] at e1
      have hn : ∀ k, ¬ LangOf tag k := fun k hk => sn.1 hf k (langOf_upper.2 hk)
      rw [e1]
      refine ⟨by simp [h1, hn], by simp, by simp, by simp [hes], by simp [hes, h1, hn],
        by simp [hn]⟩
    | some e =>
      rw [hf] at e1
      have hk : ∀ k, LangOf tag k ↔ k = upper e.2 := fun k => langOf_upper.symm.trans (ss e hf k)
      by_cases h2 : Named es (upper e.2)
      · have e2 : res = (⟨upper e.2, build es []⟩, .ok) := by
          rw [e1]; simp [(hb _).2 h2]
        rw [e2]
        refine ⟨by simp [hk, h2], by simp [h1, hk], fun _ => rw_ok _ h2, by simp [hes],
          by simp [hk], by simp [hk, h2]⟩
      · have h2' : has (build es []) (upper e.2) = false := by
          cases h : has (build es []) (upper e.2) with
          | false => rfl
          | true => exact absurd ((hb _).1 h) h2
        have e2 : res = (⟨upper e.2, build es []⟩, .scriptError) := by
          rw [e1]; simp [h2']
        rw [e2]
        refine ⟨by simp [hk, h1, h2], by simp, by simp, by simp [hes], by simp [hk],
          by simp [hk, h1, h2, hes]⟩

/-- A grammar whose archive cannot be found or opened reports an error and keeps its state. -/
theorem C49_missing (g : Grammar) :
    load g .noPath = (g, .pathError) ∧ load g .noFile = (g, .archiveError) := ⟨rfl, rfl⟩

/-- C49 fails after a failed attempt: if the rule is looked up while the shared manager has neither
the rule of the language nor that of its script, the tag is forgotten.  Asked again when the
manager has both rules, the grammar uses the rule of the script; asked again when it has only that
of the language, it reports an error. -/
theorem C49_retry (r1 r2 : Rel) :
    let tag : Str := [0x68, 0x69]  -- "hi"
    let HI : Str := [0x48, 0x49]
    let DEVA : Str := [0x44, 0x45, 0x56, 0x41]
    let first := load (.new tag) (.entries [([0x54, 0x41, 0x4D, 0x4C], r1)])
    let both := load first.1 (.entries [(HI, r1), (DEVA, r2)])
    let only := load first.1 (.entries [(HI, r1)])
    LangOf tag DEVA ∧ first.2 = .scriptError ∧ both.2 = .ok ∧ both.1.fstName = DEVA ∧
      only.2 = .tagError := by
  refine ⟨⟨(?_ : ([0x68, 0x69], [0x44, 0x65, 0x76, 0x61]) ∈ langScript), by decide⟩, ?_⟩
  · decide
  · refine ⟨rfl, rfl, rfl, rfl⟩

/-- Whatever the history of `Load` and `VerifyLoad` calls, the rule name in use is the tag in upper
case or the name of the script of the language it names. -/
inductive History (tag : Str) : Grammar → Prop
  | new (m : FstMap) : History tag (.new tag m)
  | load {g : Grammar} (far : Far) : History tag g → History tag (Grm.load g far).1
  | verify {g : Grammar} (far : Far) : History tag g → History tag (verifyLoad g far).1
  /-- the shared manager is changed from outside -/
  | shared {g : Grammar} (m : FstMap) : History tag g → History tag { g with fsts := m }

theorem verify_name {tag : Str} {g : Grammar} (far : Far)
    (h : g.fstName = upper tag ∨ LangOf tag g.fstName) :
    let g' := (verifyLoad g far).1
    g'.fstName = upper tag ∨ LangOf tag g'.fstName := by
  have noChain : ∀ p ∈ langScript, ∀ q ∈ langScript, lower (upper p.2) ≠ q.1 := by decide
  have key : ∀ e, langScript.find? (fun p => p.1 = lower g.fstName) = some e →
      LangOf tag (upper e.2) := by
    intro e he
    have h1 := List.mem_of_find?_eq_some he
    have h2 := List.find?_some he
    simp only [decide_eq_true_eq] at h2
    rcases h with h | h
    · rw [h, lower_upper] at h2
      exact ⟨h1, h2.symm⟩
    · generalize g.fstName = n at h h2
      cases h with
      | mk h3 h4 => exact absurd h2.symm (noChain _ h3 _ h1)
  have main : ∀ f : Far, f ≠ .noPath →
      (verifyLoad g f).1.fstName = upper tag ∨ LangOf tag (verifyLoad g f).1.fstName := by
    intro f hf
    cases f with
    | noPath => exact absurd rfl hf
    | _ =>
      simp only [verifyLoad]
      split
      · exact h
      · split
        · exact h
        · rename_i e he
          split <;> exact Or.inr (key e he)
  cases far with
  | noPath => exact h
  | noFile => exact main .noFile (by simp)
  | entries es => exact main (.entries es) (by simp)

theorem C49_name_invariant {tag : Str} {g : Grammar} (h : History tag g) :
    g.fstName = upper tag ∨ LangOf tag g.fstName := by
  induction h with
  | new m => exact Or.inl rfl
  | shared m _ ih => exact ih
  | verify far _ ih => exact verify_name far ih
  | @load g far _ ih =>
    cases far with
    | noPath => exact ih
    | noFile => exact ih
    | entries es =>
      simp only [Grm.load]
      split
      · exact verify_name (g := { g with fsts := _ }) _ ih
      · exact ih

/-- Whatever the history, a successful `Load` or `VerifyLoad` means that `Rewrite` finds its
rule. -/
theorem C49_ok_found (g : Grammar) (far : Far) :
    ((verifyLoad g far).2 = .ok → ∃ r, find (verifyLoad g far).1.fsts (verifyLoad g far).1.fstName = some r) ∧
    ((load g far).2 = .ok → ∃ r, find (load g far).1.fsts (load g far).1.fstName = some r) := by
  have ver : ∀ (g : Grammar), (verifyLoad g far).2 = .ok →
      ∃ r, find (verifyLoad g far).1.fsts (verifyLoad g far).1.fstName = some r := by
    intro g
    cases far with
    | noPath => simp [verifyLoad]
    | _ =>
      simp only [verifyLoad]
      split
      · exact fun _ => has_find (by assumption)
      · split
        · simp
        · split
          · exact fun _ => has_find (by assumption)
          · simp
  refine ⟨ver g, ?_⟩
  cases far with
  | noPath => simp [load]
  | noFile => simp [load, loadArchive]
  | entries es =>
    simp only [load]
    split
    · exact ver _
    · simp

/-! ### The shipped archives -/

def asciiUpper (s : String) : Str := upper (s.toList.map Char.toNat)

/-- nisaba/scripts/brahmic/util.py:75-96 `SCRIPTS`, the names exported by wellformed.py:131-132. -/
def scriptNames : List Str :=
  ["Beng", "Bugi", "Deva", "Gujr", "Guru", "Knda", "Lepc", "Limb", "Mlym", "Mtei", "Newa", "Orya",
   "Sinh", "Sylo", "Takr", "Taml", "Telu", "Tglg", "Thaa", "Tirh"].map asciiUpper

/-- The names exported by visual_norm.py:116 and 128. -/
def visualNames : List Str := scriptNames ++ ["as", "bn"].map asciiUpper

def archive (names : List Str) : List (Str × Rel) := names.map fun n => (n, fun _ _ => True)

theorem named_archive (names : List Str) (k : Str) : Named (archive names) k ↔ k ∈ names := by
  simp only [Named, archive, List.mem_map, Prod.mk.injEq]
  constructor
  · rintro ⟨_, a, h, rfl, _⟩; exact h
  · intro h; exact ⟨_, k, h, rfl, rfl⟩

/-- With the archives that the build exports, `Normalizer::SupportsFst` holds exactly for the
twenty scripts and the eleven languages of the map; in particular not for Assamese (`as`), which
has its own visual normalization rule but no script in the map. -/
theorem C49_supported (tag : Str) (visual wellformed : List (Str × Rel))
    (hv : ∀ k, Named visual k ↔ k ∈ visualNames) (hw : ∀ k, Named wellformed k ↔ k ∈ scriptNames) :
    supportsFst tag (.entries visual) (.entries wellformed) = true ↔
      upper tag ∈ scriptNames ∨ ∃ k, LangOf tag k := by
  have hk : ∀ k, LangOf tag k → k ∈ scriptNames := by
    have : ∀ p ∈ langScript, upper p.2 ∈ scriptNames := by decide
    rintro k ⟨h1, _⟩; exact this _ h1
  have p1 := (C49_load_partial tag [] visual).1
  have p2 := (C49_load_partial tag [] wellformed).1
  rw [hv] at p1; rw [hw] at p2
  have red : supportsFst tag (.entries visual) (.entries wellformed) = true ↔
      (load (.new tag) (.entries visual)).2 = .ok ∧
        (load (.new tag) (.entries wellformed)).2 = .ok := by
    unfold supportsFst Pair.load
    rcases load (.new tag) (.entries visual) with ⟨g, st⟩
    cases st <;> simp
  rw [red]
  have sub : upper tag ∈ scriptNames → upper tag ∈ visualNames :=
    fun h => List.mem_append_left _ h
  rcases h1 : load (.new tag) (.entries visual) with ⟨g, st⟩
  rcases h2 : load (.new tag) (.entries wellformed) with ⟨g', st'⟩
  rw [h1] at p1; rw [h2] at p2
  simp only at p1 p2
  have fin : (upper tag ∈ scriptNames ∨ ∃ k, LangOf tag k) ↔ st' = .ok := by
    rw [p2]
    constructor
    · rintro (h | ⟨k, h⟩)
      · exact Or.inl h
      · exact Or.inr ⟨k, h, (hw k).2 (hk k h)⟩
    · rintro (h | ⟨k, h, _⟩)
      · exact Or.inl h
      · exact Or.inr ⟨k, h⟩
  have imp : (upper tag ∈ scriptNames ∨ ∃ k, LangOf tag k) → st = .ok := by
    rw [p1]
    rintro (h | ⟨k, h⟩)
    · exact Or.inl (sub h)
    · exact Or.inr ⟨k, h, (hv k).2 (List.mem_append_left _ (hk k h))⟩
  rw [fin] at imp ⊢
  exact ⟨fun h => h.2, fun h => ⟨imp h, h⟩⟩

example : supportsFst (asciiUpper "as") (.entries (archive visualNames))
    (.entries (archive scriptNames)) = false := by
  have := C49_supported (asciiUpper "as") _ _ (named_archive visualNames) (named_archive scriptNames)
  rw [← Bool.not_eq_true, this]
  rintro (h | ⟨k, h⟩)
  · exact absurd h (by decide)
  · exact (langScript_spec (asciiUpper "as")).1.1 (by decide) k h

example : supportsFst (asciiUpper "mr") (.entries (archive visualNames))
    (.entries (archive scriptNames)) = true := by
  rw [C49_supported _ _ _ (named_archive _) (named_archive _)]
  exact Or.inr ⟨_, ⟨(by decide : ([0x6D, 0x72], [0x44, 0x65, 0x76, 0x61]) ∈ langScript), by decide⟩⟩

/-- Language rule present: it is used; absent: that of the script. -/
example (r1 r2 : Rel) :
    (load (.new [0x62, 0x6E]) (.entries [([0x42, 0x4E], r1), ([0x42, 0x45, 0x4E, 0x47], r2)])).1.fstName
      = [0x42, 0x4E] ∧
    (load (.new [0x62, 0x6E]) (.entries [([0x42, 0x45, 0x4E, 0x47], r2)])).1.fstName
      = [0x42, 0x45, 0x4E, 0x47] := ⟨rfl, rfl⟩

/-- **C49** (reading normalization).  When both grammars have been loaded, `ReadingNorm::Rewrite`
applies the second rule to an output of the first; it fails, leaving the output string as it was, if
the first rule has no output or the second has none for the output of the first that was taken. -/
theorem C49_reading (p : Pair) (r1 r2 : Rel) (h1 : find p.first.fsts p.first.fstName = some r1)
    (h2 : find p.second.fsts p.second.fstName = some r2) (input before : Str) (st : Status) (out : Str) :
    p.readingRewrite input before st out ↔
      (st = .ok ∧ ∃ t, r1 input t ∧ r2 t out) ∨
      (st = .rewriteError ∧ out = before ∧
        ((∀ t, ¬ r1 input t) ∨ ∃ t, r1 input t ∧ ∀ o, ¬ r2 t o)) := by
  unfold Pair.readingRewrite rewrite
  rw [h1, h2]
  constructor
  · rintro ⟨st1, temp, (⟨rfl, ht⟩ | ⟨rfl, hn, _⟩), h⟩
    · rw [if_pos rfl] at h
      rcases h with ⟨rfl, h⟩ | ⟨rfl, h, rfl⟩
      · exact .inl ⟨rfl, temp, ht, h⟩
      · exact .inr ⟨rfl, rfl, .inr ⟨temp, ht, h⟩⟩
    · rw [if_neg (by decide)] at h
      exact .inr ⟨h.1, h.2, .inl hn⟩
  · rintro (⟨rfl, t, ht, h⟩ | ⟨rfl, rfl, hn | ⟨t, ht, hn⟩⟩)
    · exact ⟨.ok, t, .inl ⟨rfl, ht⟩, by rw [if_pos rfl]; exact .inl ⟨rfl, h⟩⟩
    · exact ⟨.rewriteError, [], .inr ⟨rfl, hn, rfl⟩, by rw [if_neg (by decide)]; exact ⟨rfl, rfl⟩⟩
    · exact ⟨.ok, t, .inl ⟨rfl, ht⟩, by rw [if_pos rfl]; exact .inr ⟨rfl, hn, rfl⟩⟩

/-- A pair of grammars with a rule that doubles and a rule that drops the first byte. -/
example : (⟨.new [0x68] [([0x48], fun s t => t = s ++ s)], .new [0x68] [([0x48], fun s t => t = s.drop 1)]⟩ :
    Pair).readingRewrite [1, 2] [] .ok [2, 1, 2] :=
  (C49_reading _ _ _ rfl rfl _ _ _ _).2 (.inl ⟨rfl, [1, 2, 1, 2], rfl, rfl⟩)

end Nisaba.Props
