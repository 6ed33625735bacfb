import Verif.Lemmas.FeatureImport
/-!
# C115, C116: feature pairs of symbols, importing them into an inventory
-/
namespace Nisaba.Pair
deriving instance DecidableEq for Except
end Nisaba.Pair

namespace Nisaba.Props
open Nisaba.Pair Nisaba.Inv

set_option maxRecDepth 100000

/-- C115: after any history of calls, `x.feature_pair(y, f, t)` makes `x.f = x`, `x.t = y`,
`y.t = y`, `y.f = x` (with `CTRL.nos` in the place of a control symbol), sets the attributes named
after the aspects and adds the features if asked to, and changes nothing else.  The names must be
none of those the methods need (`features`, `set_attribute`, `is_control`, `add_features`), the two
features must have different texts, and an aspect a text that is none of theirs. -/
theorem C115_pair (as : List (String × List Nat)) (cs : List Call)
    (hcs : ∀ c ∈ cs, NamesOk c.f c.t c.addAspect) {x y : Nat} (hx : x < (start as).length)
    (hy : y < (start as).length) {f t : Ftr} {addAspect addFeats : Bool}
    (hn : NamesOk f t addAspect) (hne : f.text ≠ t.text)
    (hasp : addAspect = true → f.aspect ∉ [f.text, t.text] ∧ t.aspect ∉ [f.text, t.text]) :
    ∃ w', featurePair (run (start as) cs) x y f t addAspect addFeats = (w', .ok ()) ∧
      (7 ≤ x → get w' x f.text = some (.sym x) ∧
        get w' x t.text = some (.sym (if y < 7 then 6 else y)) ∧
        (addAspect = true → x ≠ y ∨ f.aspect ≠ t.aspect → get w' x f.aspect = some (.feat f.id)) ∧
        (addFeats = true → f.id ∈ added w' x)) ∧
      (7 ≤ y → get w' y t.text = some (.sym y) ∧
        get w' y f.text = some (.sym (if x < 7 then 6 else x)) ∧
        (addAspect = true → get w' y t.aspect = some (.feat t.id)) ∧
        (addFeats = true → t.id ∈ added w' y)) ∧
      (∀ s m, (s = x → m ≠ f.text ∧ m ≠ t.text ∧ (addAspect = true → m ≠ f.aspect)) →
        (s = y → m ≠ f.text ∧ m ≠ t.text ∧ (addAspect = true → m ≠ t.aspect)) →
        get w' s m = get (run (start as) cs) s m) ∧
      (∀ s, addFeats = false ∨ (s ≠ x ∧ s ≠ y) → added w' s = added (run (start as) cs) s) := by
  have hw := run_clear hcs (clear_of_new (start_new as))
  obtain ⟨w', e, h⟩ := featurePair_eff hw.1 (by rw [hw.2]; exact hx) (by rw [hw.2]; exact hy) hn
    addFeats
  have hc : ∀ s, 7 ≤ s → isCtrl s = false := by
    intro s hs
    cases hh : isCtrl s with
    | false => rfl
    | true => rw [isCtrl_iff] at hh; omega
  have hc' : ∀ s, (if isCtrl s = true then nos else s) = if s < 7 then 6 else s := by
    intro s
    simp only [isCtrl_iff, nos]
  refine ⟨w', e, ?_, ?_, ?_, ?_⟩
  · intro h7
    have cx := hc x h7
    refine ⟨?_, ?_, ?_, ?_⟩
    · rw [h.get]
      cases addAspect with
      | false => grind
      | true => have := hasp rfl; grind
    · rw [h.get, hc', hc']
      cases addAspect with
      | false => grind
      | true => have := hasp rfl; grind
    · intro ha hd
      rw [h.get]; grind
    · intro ha
      rw [h.added]; simp [ha, cx]
  · intro h7
    have cy := hc y h7
    refine ⟨?_, ?_, ?_, ?_⟩
    · rw [h.get, hc', hc']
      cases addAspect with
      | false => grind
      | true => have := hasp rfl; grind
    · rw [h.get, hc', hc']
      cases addAspect with
      | false => grind
      | true => have := hasp rfl; grind
    · intro ha
      rw [h.get]; simp [ha, cy]
    · intro ha
      rw [h.added]; simp [ha, cy]
  · intro s m h1 h2
    rw [h.get]
    grind
  · intro s hs
    rw [h.added]
    rcases hs with hs | hs
    · simp [hs]
    · simp [hs.1, hs.2]

/-- C115: no history of calls changes an attribute or a feature of a control symbol, whatever the
names of the features are. -/
theorem C115_control (as : List (String × List Nat)) (cs : List Call) {s : Nat} (hs : s < 7) :
    (run (start as) cs)[s]? = (start as)[s]? := by
  have key : ∀ (cs : List Call) (w : Syms), (run w cs)[s]? = w[s]? := by
    intro cs
    induction cs with
    | nil => intro w; rfl
    | cons c cs ih =>
      intro w
      rw [show run w (c :: cs) = run (step w c) cs from rfl, ih,
        step_other (.inr (isCtrl_iff.2 hs))]
  exact key cs _

/-- C115: in a history in which the pairs made with the features `f`, `t` share no symbols, and
nothing else writes to attributes with the texts of `f` and `t`, going from one side of a pair to the
other and back ends where it began.  Missing: `hmatch`, see `C115_inverse_violated`. -/
theorem C115_inverse_partial (as : List (String × List Nat)) (cs : List Call)
    (hcs : ∀ c ∈ cs, NamesOk c.f c.t c.addAspect) {f t : Ftr} (hne : f.text ≠ t.text)
    (hother : ∀ c ∈ cs, (c.f = f ∧ c.t = t) ∨
      (f.text ∉ [c.f.text, c.t.text] ∧ t.text ∉ [c.f.text, c.t.text]))
    (hasp : ∀ c ∈ cs, c.addAspect = true →
      c.f.aspect ∉ [f.text, t.text] ∧ c.t.aspect ∉ [f.text, t.text])
    (hmatch : ∀ c ∈ cs, ∀ d ∈ cs, c.f = f → c.t = t → d.f = f → d.t = t →
      (c.x ∈ [d.x, d.y] ∨ c.y ∈ [d.x, d.y]) → c.x = d.x ∧ c.y = d.y)
    (hsym : ∀ c ∈ cs, c.f = f → c.t = t → 7 ≤ c.x ∧ 7 ≤ c.y ∧ c.x < (start as).length ∧
      c.y < (start as).length)
    {c : Call} (hc : c ∈ cs) (hf : c.f = f) (ht : c.t = t) :
    get (run (start as) cs) c.x t.text = some (.sym c.y) ∧
    get (run (start as) cs) c.y f.text = some (.sym c.x) ∧
    get (run (start as) cs) c.x f.text = some (.sym c.x) ∧
    get (run (start as) cs) c.y t.text = some (.sym c.y) := by
  have hcf : ∀ s, 7 ≤ s → isCtrl s = false := by
    intro s hs
    cases hh : isCtrl s with
    | false => rfl
    | true => rw [isCtrl_iff] at hh; omega
  have key : ∀ ds es : List Call, ds ++ es = cs → ∀ c ∈ ds, c.f = f → c.t = t →
      get (run (start as) ds) c.x t.text = some (.sym c.y) ∧
      get (run (start as) ds) c.y f.text = some (.sym c.x) ∧
      get (run (start as) ds) c.x f.text = some (.sym c.x) ∧
      get (run (start as) ds) c.y t.text = some (.sym c.y) := by
    intro ds
    induction hk : ds.length generalizing ds with
    | zero =>
      intro es _ c hc
      rw [List.length_eq_zero_iff.1 hk] at hc
      cases hc
    | succ k ih =>
      intro es he c hc hf ht
      obtain ⟨ds', d, rfl⟩ : ∃ ds' d, ds = ds' ++ [d] :=
        ⟨ds.dropLast, ds.getLast (by intro h; rw [h] at hk; cases hk),
          (List.dropLast_concat_getLast _).symm⟩
      have hk' : ds'.length = k := by simpa using hk
      have hsub : ∀ e ∈ ds' ++ [d], e ∈ cs := fun e h => he ▸ List.mem_append_left _ h
      have hd : d ∈ cs := hsub d (by simp)
      have hcm := hsub c hc
      rw [run_append]
      have hw := run_clear (fun e h => hcs e (hsub e (List.mem_append_left _ h)))
        (clear_of_new (start_new as)) (cs := ds')
      rw [show run (run (start as) ds') [d] = step (run (start as) ds') d from rfl]
      have hold := ih ds' hk' (d :: es) (by rw [← he]; simp)
      by_cases hin : d.x < (run (start as) ds').length ∧ d.y < (run (start as) ds').length
      · have eff := step_eff hw.1 (hcs d hd) hin.1 hin.2
        have hda := hasp d hd
        by_cases hown : d.f = f ∧ d.t = t
        · have h7 := hsym d hd hown.1 hown.2
          have c1 := hcf _ h7.1
          have c2 := hcf _ h7.2.1
          by_cases hsh : c.x ∈ [d.x, d.y] ∨ c.y ∈ [d.x, d.y]
          · obtain ⟨ex, ey⟩ := hmatch c hcm d hd hf ht hown.1 hown.2 hsh
            rw [ex, ey]
            simp only [eff.get, hown.1, hown.2, c1, c2]
            rw [hown.1, hown.2] at hda
            cases hb : d.addAspect with
            | false => grind
            | true => have := hda hb; grind
          · have hcd : c ∈ ds' := by
              rcases List.mem_append.1 hc with h | h
              · exact h
              · rw [List.mem_singleton] at h
                subst h
                exact absurd (.inl (by simp)) hsh
            have := hold c hcd hf ht
            simp only [eff.get]
            simp only [List.mem_cons, List.not_mem_nil, or_false, not_or] at hsh
            simp only [hsh.1.1, hsh.1.2, hsh.2.1, hsh.2.2, false_and, and_false, if_false]
            exact this
        · have ho := (hother d hd).resolve_left hown
          have hcd : c ∈ ds' := by
            rcases List.mem_append.1 hc with h | h
            · exact h
            · rw [List.mem_singleton] at h
              subst h
              exact absurd ⟨hf, ht⟩ hown
          have := hold c hcd hf ht
          simp only [eff.get]
          simp only [List.mem_cons, List.not_mem_nil, or_false, not_or] at ho hda
          cases hb : d.addAspect with
          | false =>
            simp only [ho.1.1, ho.1.2, ho.2.1, ho.2.2, Bool.false_eq_true, and_false, false_and,
              if_false]
            exact this
          | true =>
            have q := hda hb
            simp only [ho.1.1, ho.1.2, ho.2.1, ho.2.2, Ne.symm q.1.1, Ne.symm q.1.2, Ne.symm q.2.1,
              Ne.symm q.2.2, and_false, if_false]
            exact this
      · have hs : step (run (start as) ds') d = run (start as) ds' := by
          unfold step; rw [if_neg hin]
        rw [hs]
        have hcd : c ∈ ds' := by
          rcases List.mem_append.1 hc with h | h
          · exact h
          · rw [List.mem_singleton] at h
            subst h
            have := hsym c hcm hf ht
            rw [hw.2] at hin
            exact absurd ⟨this.2.2.1, this.2.2.2⟩ hin
        exact hold c hcd hf ht
  exact key cs [] (by simp) c hc hf ht

/-! ### Cases -/

/-- script/grapheme.py:74 `case`: the features `lower` and `upper`. -/
def lower : Ftr := ⟨0, "lower", "lower", "case"⟩
def upper : Ftr := ⟨1, "upper", "upper", "case"⟩

theorem caseNames : PairNames lower upper :=
  ⟨⟨by decide, by decide, fun _ => by decide, fun _ => by decide⟩, by decide, by decide, by decide⟩

/-- Symbols `i`, `I`, dotless `ı` and `İ`. -/
def turkish : List (String × List Nat) := [("i", []), ("i_upper", []), ("i_dotless", []), ("i_dot", [])]

example : (featurePair (run (start turkish) []) 7 8 lower upper true true).2 = .ok () ∧
    get (run (start turkish) [⟨7, 8, lower, upper, true, true⟩]) 7 "upper" = some (.sym 8) ∧
    get (run (start turkish) [⟨7, 8, lower, upper, true, true⟩]) 8 "case" = some (.feat 1) ∧
    get (run (start turkish) [⟨7, 5, lower, upper, true, true⟩]) 7 "upper" = some (.sym 6) ∧
    get (run (start turkish) [⟨7, 5, lower, upper, true, true⟩]) 5 "lower" = none := by
  decide +kernel

/-- The hypotheses of `C115_inverse_partial` are met by two pairs without common symbols. -/
example : get (run (start turkish) [⟨7, 8, lower, upper, true, true⟩, ⟨9, 10, lower, upper, true, true⟩])
    7 "upper" = some (.sym 8) := by
  refine (C115_inverse_partial turkish _ (f := lower) (t := upper) ?_ (by decide) ?_ ?_ ?_ ?_
    (c := ⟨7, 8, lower, upper, true, true⟩) (by simp) rfl rfl).1
  · intro c hc
    simp only [List.mem_cons, List.not_mem_nil, or_false] at hc
    rcases hc with rfl | rfl <;> exact caseNames.ok
  · intro c hc
    simp only [List.mem_cons, List.not_mem_nil, or_false] at hc
    rcases hc with rfl | rfl <;> exact .inl ⟨rfl, rfl⟩
  · intro c hc _
    simp only [List.mem_cons, List.not_mem_nil, or_false] at hc
    rcases hc with rfl | rfl <;> decide
  · intro c hc d hd _ _ _ _
    simp only [List.mem_cons, List.not_mem_nil, or_false] at hc hd
    rcases hc with rfl | rfl <;> rcases hd with rfl | rfl <;> decide
  · intro c hc _ _
    simp only [List.mem_cons, List.not_mem_nil, or_false] at hc
    rcases hc with rfl | rfl <;> decide

/-- C115 is violated when a symbol gets a second partner: `i.upper` is still `I`, but `I.lower` is
the new partner. -/
theorem C115_inverse_violated : ∃ as cs, (∀ c ∈ cs, NamesOk c.f c.t c.addAspect) ∧
    ∃ x y z, x ≠ z ∧ get (run (start as) cs) x "upper" = some (.sym y) ∧
      get (run (start as) cs) y "lower" = some (.sym z) := by
  refine ⟨turkish, [⟨7, 8, lower, upper, true, true⟩, ⟨9, 8, lower, upper, true, true⟩], ?_, 7, 8, 9,
    by decide, by decide +kernel, by decide +kernel⟩
  intro c hc
  simp only [List.mem_cons, List.not_mem_nil, or_false] at hc
  rcases hc with rfl | rfl <;> exact caseNames.ok

/-- symbol.py:262-277: the features `abst` (text `abstract`) and `raw` of the aspect `type`. -/
def abst : Ftr := ⟨2, "abst", "abstract", "type"⟩
def raw : Ftr := ⟨3, "raw", "raw", "type"⟩

/-- C115 is violated by the features of symbols themselves: pairing by `type.raw` overwrites the
field `raw`, the text of the symbol, with a symbol. -/
theorem C115_raw_violated (as : List (String × List Nat)) (cs : List Call)
    (hcs : ∀ c ∈ cs, NamesOk c.f c.t c.addAspect) {x y : Nat} (hx : x < (start as).length)
    (hy : y < (start as).length) (h7 : 7 ≤ x) (h7' : 7 ≤ y) :
    get (start as) x "raw" = some .own ∧
    get (featurePair (run (start as) cs) x y abst raw true true).1 x "raw" = some (.sym y) ∧
    get (featurePair (run (start as) cs) x y abst raw true true).1 y "raw" = some (.sym y) := by
  obtain ⟨w', e, h1, h2, _⟩ := C115_pair as cs hcs hx hy (f := abst) (t := raw) (addAspect := true)
    (addFeats := true) ⟨by decide, by decide, fun _ => by decide, fun _ => by decide⟩ (by decide)
    (fun _ => by decide)
  rw [e]
  refine ⟨?_, ?_, (h2 h7').1⟩
  · unfold Pair.get
    rw [List.getElem?_eq_getElem hx]
    obtain ⟨a, fs, ho⟩ := start_new as _ (List.getElem_mem hx)
    simp only [ho]
    rw [get_new, if_pos (by decide)]
  · have := (h1 h7).2.1
    rwa [if_neg (by omega)] at this

/-! ## C116: importing pairs -/

namespace ImportAux

theorem imported_at {w w' : Syms} {f t : Ftr} : ∀ {ps : List (Nat × Nat)} {n k x y : Nat},
    Imported w w' f t n ps → ps[k]? = some (x, y) →
    Imported w w' f t (n + 2 * k) [(x, y)]
  | [], _, _, _, _, _, h => by simp at h
  | (x, y) :: ps, n, 0, _, _, hi, h => by
    simp only [List.getElem?_cons_zero, Option.some.injEq, Prod.mk.injEq] at h
    obtain ⟨rfl, rfl⟩ := h
    obtain ⟨a1, a2, a3, a4, a5, a6, a7, a8, a9, a10, _⟩ := hi
    exact ⟨a1, a2, a3, a4, a5, a6, a7, a8, a9, a10, trivial⟩
  | (x, y) :: ps, n, k + 1, _, _, hi, h => by
    have := imported_at (n := n + 2) (k := k) hi.2.2.2.2.2.2.2.2.2.2 (by simpa using h)
    rwa [show n + 2 * (k + 1) = n + 2 + 2 * k by omega]

theorem copies_at {w : Syms} : ∀ {ps : List (Nat × Nat)} {n k x y : Nat}, ps[k]? = some (x, y) →
    (n + 2 * k, (copyOf w x).alias) ∈ copies w n ps ∧
    (n + 2 * k + 1, (copyOf w y).alias) ∈ copies w n ps
  | [], _, _, _, _, h => by simp at h
  | (x, y) :: ps, n, 0, _, _, h => by
    simp only [List.getElem?_cons_zero, Option.some.injEq, Prod.mk.injEq] at h
    obtain ⟨rfl, rfl⟩ := h
    simp [copies]
  | (x, y) :: ps, n, k + 1, x', y', h => by
    have := copies_at (w := w) (n := n + 2) (k := k) (x := x') (y := y') (ps := ps) (by simpa using h)
    simp only [copies, List.mem_cons]
    rw [show n + 2 * (k + 1) = n + 2 + 2 * k by omega]
    exact ⟨.inr (.inr this.1), .inr (.inr this.2)⟩

theorem find_append {d : List (String × Field Item)} {a : String} (h : (d.any fun p => p.1 == a) = false) :
    ∀ {l : List (String × Field Item)}, (d ++ l).find? (fun p => p.1 == a) = l.find? (fun p => p.1 == a) := by
  intro l
  rw [List.find?_append]
  have : d.find? (fun p => p.1 == a) = none := by
    rw [List.find?_eq_none]
    intro p hp
    have := (List.any_eq_false.1 h) p hp
    simpa using this
  rw [this]; rfl

theorem find_copies : ∀ {gs : List (Nat × String)} {g : Nat} {a : String}, (gs.map (·.2)).Nodup →
    (g, a) ∈ gs →
    (gs.map (fun p => ((p.2, .val (.sym p.1)) : String × Field Item))).find? (fun p => p.1 == a) =
      some (a, .val (.sym g))
  | [], _, _, _, h => by cases h
  | (g', a') :: gs, g, a, hn, h => by
    rw [List.map_cons, List.nodup_cons] at hn
    rcases List.mem_cons.1 h with e | h
    · cases e; simp
    · have : a' ≠ a := fun e => hn.1 (e ▸ List.mem_map.2 ⟨_, h, rfl⟩)
      rw [List.map_cons, List.find?_cons]
      have hb : (a' == a) = false := by simp [this]
      simp only [hb]
      exact find_copies hn.2 h

theorem suppl_ok {s : State} {a : String} {l : List Nat} (h1 : s.inv.hasKey "make_iterable_suppl" = false)
    (h2 : s.inv.hasKey "add_suppl" = false) (h3 : s.inv.hasKey "make_suppl" = false)
    (h4 : s.inv.hasKey "_add_field" = false) (ha : s.inv.hasKey a = false) :
    s.makeIterableSuppl a l = ({ s with inv := { s.inv with
      dict := s.inv.dict ++ [(a, .val (.list l))]
      supplAliases := s.inv.supplAliases ++ [a] } }, .ok true) := by
  unfold State.makeIterableSuppl
  rw [State.method_ok h1]
  simp only
  unfold Inventory.addSuppl Inventory.makeSuppl
  rw [Pair.method_ok h2, Pair.method_ok h3, Pair.method_ok h4]
  unfold Inventory.addField
  rw [ha]
  rfl

end ImportAux
open ImportAux

/-- A new inventory next to symbols that were made and paired before. -/
theorem ready_new (as : List (String × List Nat)) (cs : List Call)
    (hcs : ∀ c ∈ cs, NamesOk c.f c.t c.addAspect) : Ready (State.new (run (start as) cs)) := by
  have hw := run_clear hcs (clear_of_new (start_new as))
  refine ⟨hw.1, ?_, ?_, ?_, ?_⟩
  · show 7 ≤ (run (start as) cs).length
    rw [hw.2]; simp [start, ctrl]
  · intro g hg
    have h1 : (State.new (run (start as) cs)).inv.items = [] := rfl
    have h2 : (State.new (run (start as) cs)).atomics.items = [] := rfl
    rw [h1, h2] at hg
    simp at hg
  · intro m hm
    have : ∀ m ∈ invMethods, (State.new []).inv.hasKey m = false ∧
        (State.new []).atomics.hasKey m = false := by decide +kernel
    exact this m hm
  · intro g; exact ⟨rfl, rfl⟩

/-- C116: `import_as_feature_pairs` into an inventory in which no alias of the symbols is taken makes
one new symbol per member of a pair, under the same alias and with the features of the original and
the feature of its side; the copies are paired with each other; the originals and all other symbols
are unchanged, and the inventory gets the two lists.  Missing: aliases that are taken
(`C116_taken_violated`).  The state afterwards is `Ready` for further calls. -/
theorem C116_import_partial {s : State} (hs : Ready s) {f t : Ftr} (hn : PairNames f t)
    {ps : List (Nat × Nat)} (hp : ∀ p ∈ ps, p.1 < s.syms.length ∧ p.2 < s.syms.length)
    (hnd : ((copies s.syms s.syms.length ps).map (·.2)).Nodup)
    (hfree : ∀ a ∈ (copies s.syms s.syms.length ps).map (·.2),
      ¬ Taken s a ∧ a ∉ invMethods ∧ a ∉ dataDescriptors)
    (hf : ¬ Taken s f.alias ∧ f.alias ∉ invMethods ∧ f.alias ∉ dataDescriptors ∧
      f.alias ∉ (copies s.syms s.syms.length ps).map (·.2))
    (ht : ¬ Taken s t.alias ∧ t.alias ∉ invMethods ∧ t.alias ∉ dataDescriptors ∧
      t.alias ∉ (copies s.syms s.syms.length ps).map (·.2))
    (hft : f.alias ≠ t.alias) :
    ∃ s', s.importAsFeaturePairs f t ps true = (s', .ok ()) ∧ Ready s' ∧
      s'.syms.length = s.syms.length + 2 * ps.length ∧
      (∀ g, g < s.syms.length → s'.syms[g]? = s.syms[g]?) ∧
      (∀ k x y, ps[k]? = some (x, y) → ∃ a b, aliasOf s.syms x = some a ∧ aliasOf s.syms y = some b ∧
        ∃ x' y', x' = s.syms.length + 2 * k ∧ y' = s.syms.length + 2 * k + 1 ∧
        (∀ d, s'.inv.getattr a d = some (.val (.sym x')) ∧ s'.inv.getattr b d = some (.val (.sym y'))) ∧
        aliasOf s'.syms x' = some a ∧ aliasOf s'.syms y' = some b ∧
        get s'.syms x' f.text = some (.sym x') ∧ get s'.syms x' t.text = some (.sym y') ∧
        get s'.syms y' t.text = some (.sym y') ∧ get s'.syms y' f.text = some (.sym x') ∧
        get s'.syms x' f.aspect = some (.feat f.id) ∧ get s'.syms y' t.aspect = some (.feat t.id) ∧
        added s'.syms x' = added s.syms x ++ [f.id] ∧ added s'.syms y' = added s.syms y ++ [t.id]) ∧
      (∀ d, s'.inv.getattr f.alias d = some (.val (.list (List.range' s.syms.length ps.length 2))) ∧
        s'.inv.getattr t.alias d =
          some (.val (.list (List.range' (s.syms.length + 1) ps.length 2)))) := by
  obtain ⟨s1, e, h1, h2, h3, h4, h5, h6⟩ := importLoop_ok hn hs hp hnd
    (fun a ha => ⟨(hfree a ha).1, (hfree a ha).2.1⟩)
  have nk : ∀ {a : String}, ¬ Taken s a → a ∉ (copies s.syms s.syms.length ps).map (·.2) →
      s1.inv.hasKey a = false := by
    intro a h h'
    have : ¬ Taken (s.plus (copies s.syms s.syms.length ps)) a := by
      rw [plus_taken]; rintro (q | q)
      · exact h q
      · exact h' q
    rw [h5]
    cases hk : (s.plus (copies s.syms s.syms.length ps)).inv.hasKey a with
    | false => rfl
    | true => exact absurd (.inl hk) this
  have hfk := nk hf.1 hf.2.2.2
  have htk := nk ht.1 ht.2.2.2
  unfold State.importAsFeaturePairs
  rw [e]
  simp only [if_true]
  rw [suppl_ok (h1.free _ (by decide)).1 (h1.free _ (by decide)).1 (h1.free _ (by decide)).1
    (h1.free _ (by decide)).1 hfk]
  simp only
  have hk2 : ∀ {m : String}, s1.inv.hasKey m = false → m ≠ f.alias →
      Inventory.hasKey { s1.inv with
        dict := s1.inv.dict ++ [(f.alias, Field.val (Item.list (List.range' s.syms.length ps.length 2)))]
        supplAliases := s1.inv.supplAliases ++ [f.alias] } m = false := by
    intro m hm hne
    have hb : (f.alias == m) = false := by simp [Ne.symm hne]
    simp only [Inventory.hasKey, List.any_append, List.any_cons, List.any_nil, hb, Bool.or_false] at hm ⊢
    exact hm
  have nf : ∀ {m : String}, m ∈ invMethods → m ≠ f.alias := by
    rintro m hm rfl
    exact hf.2.1 hm
  rw [suppl_ok (hk2 (h1.free _ (by decide)).1 (nf (by decide)))
    (hk2 (h1.free _ (by decide)).1 (nf (by decide))) (hk2 (h1.free _ (by decide)).1 (nf (by decide)))
    (hk2 (h1.free _ (by decide)).1 (nf (by decide))) (hk2 htk (Ne.symm hft))]
  simp only
  have nt : ∀ {m : String}, m ∈ invMethods → m ≠ t.alias := by
    rintro m hm rfl
    exact ht.2.1 hm
  refine ⟨_, rfl, ?_, h2, h3, ?_, ?_⟩
  · refine ⟨h1.clear, h1.seven, h1.below, ?_, h1.valid⟩
    intro m hm
    refine ⟨?_, (h1.free m hm).2⟩
    have hb1 : (f.alias == m) = false := by simp [Ne.symm (nf hm)]
    have hb2 : (t.alias == m) = false := by simp [Ne.symm (nt hm)]
    have := (h1.free m hm).1
    simp only [Inventory.hasKey, List.any_append, List.any_cons, List.any_nil, hb1, hb2,
      Bool.or_false] at this ⊢
    exact this
  · intro k x y hk
    have hmem := hp (x, y) (List.mem_of_getElem? hk)
    have him := imported_at h4 hk
    have hcp := copies_at (w := s.syms) (n := s.syms.length) hk
    obtain ⟨a1, a2, a3, a4, a5, a6, a7, a8, a9, a10, _⟩ := him
    have alx : aliasOf s.syms x = some (copyOf s.syms x).alias := by
      simp [aliasOf, copyOf, List.getElem?_eq_getElem hmem.1, Obj.new]
    have aly : aliasOf s.syms y = some (copyOf s.syms y).alias := by
      simp [aliasOf, copyOf, List.getElem?_eq_getElem hmem.2, Obj.new]
    refine ⟨_, _, alx, aly, _, _, rfl, rfl, ?_, by rw [a7, alx], by rw [a8, aly], a1, a2, a3, a4, a5,
      a6, a9, a10⟩
    intro d
    have look : ∀ {g : Nat} {a : String}, (g, a) ∈ copies s.syms s.syms.length ps →
        ∀ l m : List (String × Field Item), ((s1.inv.dict ++ l) ++ m).find? (fun p => p.1 == a) =
          some (a, .val (.sym g)) := by
      intro g a hga l m
      have ha := hfree a (List.mem_map.2 ⟨_, hga, rfl⟩)
      have hno : (s.inv.dict.any fun p => p.1 == a) = false := by
        cases hh : s.inv.dict.any fun p => p.1 == a with
        | false => rfl
        | true => exact absurd (.inl hh) ha.1
      rw [h5]
      simp only [State.plus, List.append_assoc]
      rw [find_append hno, List.find?_append, find_copies hnd hga]
      rfl
    unfold Inventory.getattr
    rw [if_neg (hfree _ (List.mem_map.2 ⟨_, hcp.1, rfl⟩)).2.2,
      if_neg (hfree _ (List.mem_map.2 ⟨_, hcp.2, rfl⟩)).2.2]
    simp only [look hcp.1, look hcp.2, and_self]
  · intro d
    unfold Inventory.getattr
    rw [if_neg hf.2.2.1, if_neg ht.2.2.1]
    simp only [List.append_assoc]
    have q1 : (s1.inv.dict.any fun p => p.1 == f.alias) = false := hfk
    have q2 : (s1.inv.dict.any fun p => p.1 == t.alias) = false := htk
    rw [find_append q1, find_append q2]
    have hb : (f.alias == t.alias) = false := by simp [hft]
    simp [hb]

/-- script/inventories/latn.py and language_params/en.py: the 26 letters in both cases, paired in the
inventory of the script and then imported into the inventory of the language. -/
def letters : List String :=
  ["a", "b", "c", "d", "e", "f", "g", "h", "i", "j", "k", "l", "m", "n", "o", "p", "q", "r", "s", "t",
   "u", "v", "w", "x", "y", "z"]

def latn : List (String × List Nat) :=
  letters.map (fun a => (a, [])) ++ letters.map (fun a => (a ++ "_upper", []))

def latnPairs : List (Nat × Nat) := (List.range 26).map (fun k => (7 + k, 33 + k))

def latnCalls : List Call := latnPairs.map (fun p => ⟨p.1, p.2, lower, upper, true, true⟩)

/-- The letters of English are paired with each other, and those of the script keep their pairs. -/
theorem C116_english : ∃ s', (State.new (run (start latn) latnCalls)).importAsFeaturePairs lower upper
      latnPairs true = (s', .ok ()) ∧
    ∀ k, k < 26 →
      get s'.syms (59 + 2 * k) "upper" = some (.sym (60 + 2 * k)) ∧
      get s'.syms (60 + 2 * k) "lower" = some (.sym (59 + 2 * k)) ∧
      get s'.syms (7 + k) "upper" = some (.sym (33 + k)) ∧
      (∀ d, s'.inv.getattr (letters.getD k "") d = some (.val (.sym (59 + 2 * k)))) := by
  have hok : ∀ c ∈ latnCalls, NamesOk c.f c.t c.addAspect := by
    intro c hc
    obtain ⟨p, _, rfl⟩ := List.mem_map.1 hc
    exact caseNames.ok
  have hl : (State.new (run (start latn) latnCalls)).syms.length = 59 := by
    have := (run_clear hok (clear_of_new (start_new latn))).2
    exact this.trans (by decide +kernel)
  have hcp : (copies (run (start latn) latnCalls) 59 latnPairs).map (·.2) =
      (letters.flatMap fun a => [a, a ++ "_upper"]) := by decide +kernel
  have hsy : (State.new (run (start latn) latnCalls)).syms = run (start latn) latnCalls := rfl
  have hnt : ∀ a ∈ "lower" :: "upper" :: (letters.flatMap fun a => [a, a ++ "_upper"]),
      ((State.new []).inv.hasKey a = false ∧ (State.new []).atomics.hasKey a = false) ∧
      a ∉ invMethods ∧ a ∉ dataDescriptors := by decide +kernel
  have hnt' : ∀ a ∈ "lower" :: "upper" :: (letters.flatMap fun a => [a, a ++ "_upper"]),
      ¬ Taken (State.new (run (start latn) latnCalls)) a ∧ a ∉ invMethods ∧ a ∉ dataDescriptors := by
    intro a ha
    have h := hnt a ha
    refine ⟨?_, h.2⟩
    rintro (q | q)
    · have := h.1.1
      rw [show (State.new []).inv = (State.new (run (start latn) latnCalls)).inv from rfl, q] at this
      cases this
    · have := h.1.2
      rw [show (State.new []).atomics = (State.new (run (start latn) latnCalls)).atomics from rfl, q]
        at this
      cases this
  obtain ⟨s', e, _, _, h3, h4, _⟩ := C116_import_partial (ready_new latn latnCalls hok) caseNames
    (ps := latnPairs) (by
      rw [hl]
      decide) (by rw [hl, hsy, hcp]; decide +kernel)
    (by
      rw [hl, hsy, hcp]
      intro a ha
      exact hnt' a (List.mem_cons_of_mem _ (List.mem_cons_of_mem _ ha)))
    ⟨(hnt' _ (by simp [lower])).1, (hnt' _ (by simp [lower])).2.1, (hnt' _ (by simp [lower])).2.2,
      by rw [hl, hsy, hcp]; decide +kernel⟩
    ⟨(hnt' _ (by simp [upper])).1, (hnt' _ (by simp [upper])).2.1, (hnt' _ (by simp [upper])).2.2,
      by rw [hl, hsy, hcp]; decide +kernel⟩ (by decide)
  rw [hl, hsy] at h3
  rw [hl, hsy] at h4
  refine ⟨s', e, ?_⟩
  intro k hk
  have hpk : latnPairs[k]? = some (7 + k, 33 + k) := by
    simp [latnPairs, hk]
  obtain ⟨a, b, ha, _, x', y', rfl, rfl, hd, _, _, g1, g2, g3, g4, _⟩ := h4 k _ _ hpk
  refine ⟨?_, ?_, ?_, ?_⟩
  · rw [show 60 + 2 * k = 59 + 2 * k + 1 by omega]; exact g2
  · rw [show 60 + 2 * k = 59 + 2 * k + 1 by omega]; exact g4
  · rw [get_congr (h3 (7 + k) (by omega))]
    have : ∀ k, k < 26 → get (run (start latn) latnCalls) (7 + k) "upper" = some (.sym (33 + k)) := by
      decide +kernel
    exact this k hk
  · have : ∀ k, k < 26 → aliasOf (run (start latn) latnCalls) (7 + k) = some (letters.getD k "") := by
      decide +kernel
    rw [this k hk] at ha
    cases ha
    exact fun d => (hd d).1

/-- C116 is violated when an alias is taken: the call ends in an `IndexError`, and the other symbol
of the pair stays in the inventory without a partner. -/
theorem C116_taken_violated : ∃ s f t ps, Ready s ∧ PairNames f t ∧
    (∀ p ∈ ps, p.1 < s.syms.length ∧ p.2 < s.syms.length) ∧
    (s.importAsFeaturePairs f t ps true).2 = .error .indexError ∧
    ∃ g a, Item.sym g ∉ s.inv.items ∧ Item.sym g ∈ (s.importAsFeaturePairs f t ps true).1.inv.items ∧
      aliasOf (s.importAsFeaturePairs f t ps true).1.syms g = some a ∧
      get (s.importAsFeaturePairs f t ps true).1.syms g f.text = none ∧
      get (s.importAsFeaturePairs f t ps true).1.syms g t.text = none := by
  have hr := ready_new [("i", []), ("script", [])] [] (by simp)
  refine ⟨_, lower, upper, [(7, 8)], hr, caseNames, by decide, by decide +kernel, 9, "i", ?_, ?_, ?_, ?_, ?_⟩
  all_goals decide +kernel

end Nisaba.Props
