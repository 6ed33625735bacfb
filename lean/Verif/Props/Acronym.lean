import Verif.Lemmas.AcronymChain
import Verif.Props.NtLang
/-!
# natural_translit: acronyms and the romanization `iso_to_nat` of Hindi (C113)
-/
namespace Nisaba.Props
open Nisaba Nisaba.NT

/-- Uppercase ASCII letters. -/
def UpperCase (y : Str) : Prop := ∀ c ∈ y, 65 ≤ c ∧ c ≤ 90

/-- The grapheme strings of the names of the English letters in Hindi. -/
def letterNames : List (Str × List Str) := [
  (a!"A", [a!"<e_i>", a!"<ee_i>"]),
  (a!"B", [a!"<b><i>", a!"<b><ii>"]),
  (a!"C", [a!"<s><i>", a!"<s><ii>"]),
  (a!"D", [a!"<dd><i>", a!"<dd><ii>"]),
  (a!"E", [a!"<i_i>", a!"<ii_i>"]),
  (a!"F", [a!"<e_i><f><a>", a!"<e_i><ph><a>", a!"<ee_i><f><a>", a!"<ee_i><ph><a>"]),
  (a!"G", [a!"<j><i>", a!"<j><ii>"]),
  (a!"H", [a!"<e_i><c><a>", a!"<ee_i><c><a>"]),
  (a!"I", [a!"<a_i><i_i>", a!"<a_i><ii_i>", a!"<aa_i><i_i>", a!"<aa_i><ii_i>"]),
  (a!"J", [a!"<j><e>", a!"<j><ee>"]),
  (a!"K", [a!"<k><e>", a!"<k><ee>"]),
  (a!"L", [a!"<e_i><l><a>", a!"<ee_i><l><a>"]),
  (a!"M", [a!"<e_i><m><a>", a!"<ee_i><m><a>"]),
  (a!"N", [a!"<e_i><n><a>", a!"<ee_i><n><a>"]),
  (a!"O", [a!"<o_i>", a!"<oo_i>"]),
  (a!"P", [a!"<p><i>", a!"<p><ii>"]),
  (a!"Q", [a!"<k><y><u>", a!"<k><y><uu>"]),
  (a!"R", [a!"<a_i><r><a>", a!"<aa_i><r><a>"]),
  (a!"S", [a!"<e_i><s><a>", a!"<ee_i><s><a>"]),
  (a!"T", [a!"<tt><i>", a!"<tt><ii>"]),
  (a!"U", [a!"<y><u>", a!"<y><uu>"]),
  (a!"V", [a!"<v><i>", a!"<v><ii>"]),
  (a!"W", [a!"<dd><a><b><l><u>", a!"<dd><a><b><l><uu>", a!"<dd><a><b><l><y><u>",
    a!"<dd><a><b><l><y><uu>", a!"<dd><a><b><a><l><y><u>", a!"<dd><a><b><a><l><y><uu>",
    a!"<dd><a><b><l><a><y><u>", a!"<dd><a><b><l><a><y><uu>"]),
  (a!"X", [a!"<e_i><k><s><a>", a!"<ee_i><k><s><a>"]),
  (a!"Y", [a!"<v><a><i_i>", a!"<v><a><ii_i>", a!"<v><aa><i_i>", a!"<v><aa><ii_i>"]),
  (a!"Z", [a!"<j><e><dd><a>", a!"<j><ee><dd><a>", a!"<z><e><dd><a>", a!"<z><ee><dd><a>"])]

/-- A grapheme string is a sequence of names of the letters of a word. -/
inductive NamesOf : Str → Str → Prop
  | nil : NamesOf [] []
  | cons {L s g y : Str} {names : List Str} (h : (L, names) ∈ letterNames) (hs : s ∈ names)
      (k : NamesOf g y) : NamesOf (s ++ g) (L ++ y)

/-- The names of the table are those of the model. -/
theorem letterNames_sound : (letterNames.all fun p => match p.1 with
    | [c] => p.2.all fun s => Acr.acronymSet.any fun q => seq q.2 (c :: a!"_UC") && (Acr.expand q.1).any (seq s)
    | _ => false) = true := by
  set_option maxRecDepth 100000 in decide +kernel

theorem letterNames_complete : (Acr.acronymSet.all fun q => (Acr.expand q.1).all fun s => match q.2 with
    | c :: _ => letterNames.any fun p => seq p.1 [c] && p.2.any (seq s)
    | [] => false) = true := by
  set_option maxRecDepth 100000 in decide +kernel

/-- Strings of spellings are spellings. -/
theorem mat_of_expand {os : List (List Str)} {s : Str} (h : s ∈ Acr.expand os) :
    ∃ v, Acr.Mat os v ∧ s = v.flatMap encloseGrapheme := by
  induction os generalizing s with
  | nil => rw [Acr.expand, List.mem_singleton] at h; exact ⟨[], .nil, h⟩
  | cons o os ih =>
    rw [Acr.expand, List.mem_flatMap] at h
    obtain ⟨a, ha, h⟩ := h
    obtain ⟨t, ht, rfl⟩ := List.mem_map.1 h
    obtain ⟨v, hv, rfl⟩ := ih ht
    exact ⟨_, .cons ha hv, rfl⟩

theorem names_inj {v w : List Str} (hv : ∀ g ∈ v, ∀ c ∈ g, nameChar c = true)
    (hw : ∀ g ∈ w, ∀ c ∈ g, nameChar c = true)
    (h : v.flatMap encloseGrapheme = w.flatMap encloseGrapheme) : v = w := by
  induction v generalizing w with
  | nil =>
    cases w with
    | nil => rfl
    | cons g w => simp [encloseGrapheme] at h
  | cons g v ih =>
    cases w with
    | nil => simp [encloseGrapheme] at h
    | cons g' w =>
      rw [List.flatMap_cons, List.flatMap_cons] at h
      have h' : g ++ 62 :: v.flatMap encloseGrapheme = g' ++ 62 :: w.flatMap encloseGrapheme := by
        simp only [encloseGrapheme, NT.LT, NT.GT, List.cons_append, List.append_assoc] at h
        injection h
      have no : ∀ g : Str, (∀ c ∈ g, nameChar c = true) → 62 ∉ g := fun g h hm => by
        have := h 62 hm; cases this
      obtain ⟨rfl, h2⟩ := split_unique h' (no _ (hv _ (by simp))) (no _ (hw _ (by simp)))
      rw [ih (fun g hg => hv g (by simp [hg])) (fun g hg => hw g (by simp [hg])) h2]

theorem mat_names {os : List (List Str)} (hp : Acr.OsPlain os) {v : List Str} (h : Acr.Mat os v) :
    ∀ g ∈ v, ∀ c ∈ g, nameChar c = true := by
  induction h with
  | nil => intro g hg; cases hg
  | @cons o os a w ha _ ih =>
    intro g hg
    rw [List.mem_cons] at hg
    rcases hg with rfl | hg
    · exact hp o (by simp) a ha
    · exact ih (fun o ho => hp o (by simp [ho])) g hg

theorem namesOf_iff {w : List Str} (hw : ∀ g ∈ w, ∀ c ∈ g, nameChar c = true) {y : Str} :
    NamesOf (w.flatMap encloseGrapheme) y ↔ Acr.Dec w y := by
  constructor
  · intro h
    have key : ∀ {s y : Str}, NamesOf s y → ∃ v, s = v.flatMap encloseGrapheme ∧
        (∀ g ∈ v, ∀ c ∈ g, nameChar c = true) ∧ Acr.Dec v y := by
      intro s y h
      induction h with
      | nil => exact ⟨[], rfl, (fun g hg => by cases hg), .nil⟩
      | @cons L s g y names h hs _ ih =>
        obtain ⟨v, rfl, h1, h2⟩ := ih
        have h3 := List.all_eq_true.1 letterNames_sound _ h
        match L with
        | [] => cases h3
        | _ :: _ :: _ => cases h3
        | [c] =>
          obtain ⟨⟨os, a⟩, hq, h4⟩ := List.any_eq_true.1 (List.all_eq_true.1 h3 s hs)
          rw [Bool.and_eq_true] at h4
          have ha := seq_eq.1 h4.1
          change a = _ at ha
          subst ha
          obtain ⟨s', hs', h5⟩ := List.any_eq_true.1 h4.2
          have := seq_eq.1 h5
          subst this
          obtain ⟨u, hu, rfl⟩ := mat_of_expand hs'
          refine ⟨u ++ v, by rw [List.flatMap_append], ?_, .cons hq hu h2⟩
          intro g hg
          rw [List.mem_append] at hg
          rcases hg with hg | hg
          exacts [mat_names (Acr.set_plain hq) hu g hg, h1 g hg]
    obtain ⟨v, he, h1, h2⟩ := key h
    rw [names_inj hw h1 he]
    exact h2
  · intro h
    clear hw
    induction h with
    | nil => exact .nil
    | @cons os c v w y h m _ ih =>
      rw [List.flatMap_append]
      have h1 := List.all_eq_true.1 (List.all_eq_true.1 letterNames_complete _ h) _ m.expand
      obtain ⟨⟨L, ns⟩, hp, h2⟩ := List.any_eq_true.1 h1
      rw [Bool.and_eq_true] at h2
      have := seq_eq.1 h2.1
      change L = [c] at this
      subst this
      obtain ⟨s, hs, h3⟩ := List.any_eq_true.1 h2.2
      rw [seq_eq.1 h3]
      exact .cons (L := [c]) hp hs ih

/-- The text of a grapheme string. -/
theorem hi_nat_text (m : Mode) {cs : List Chr} (h : IsIso cs) :
    ∃ ts : List Tok, Typ ts ∧ (∀ z, isoToTyp m (isoText m cs) z ↔ z = enc ts) ∧
      (∀ u, compose (G2p.isoToTxn m) (isoText m cs) u ↔ u = enc (ts.flatMap alTok)) ∧
      ∀ y, NamesOf (enc ts) y ↔ Acr.Dec (Acr.names ts) y := by
  obtain ⟨ts, h1, h2, h3, h4⟩ := isoTxn_stage m h
  refine ⟨ts, h1.1, fun z => ⟨fun hz => ?_, fun hz => hz ▸ h2⟩, fun u => ⟨h4 u, fun hu => hu ▸ h3⟩, fun y => ?_⟩
  · obtain ⟨ds, _, e, _⟩ := iso_to_typ_unique m cs h
    rw [(e z).1 hz, (e _).1 h2]
  · obtain ⟨_, g, e⟩ := Acr.typ_X h1.1
    rw [e]
    exact namesOf_iff fun d hd => (g d hd).name

/-- C113. A text that is a sequence of names of English letters is written as these letters in upper
case, and has no other output. -/
theorem hi_nat_acronym (m : Mode) (cs : List Chr) (h : IsIso cs) (g y : Str)
    (hg : isoToTyp m (isoText m cs) g) (hy : NamesOf g y) :
    ∀ z, compose (Hi.nat m) (isoText m cs) z ↔ z = y := by
  obtain ⟨ts, h1, h2, h3, h4⟩ := hi_nat_text m h
  rw [(h2 g).1 hg] at hy
  exact (Acr.hi_nat_iff m h1 h3).1 y ((h4 y).1 hy)

/-- C113. The rule of acronyms changes no other text. -/
theorem hi_nat_other (m : Mode) (cs : List Chr) (h : IsIso cs) (g : Str)
    (hg : isoToTyp m (isoText m cs) g) (hy : ∀ y, ¬ NamesOf g y) :
    ∀ z, compose (Hi.nat m) (isoText m cs) z ↔
      compose (G2p.isoToTxn m ++ Hi.natOps m) (isoText m cs) z := by
  obtain ⟨ts, h1, h2, h3, h4⟩ := hi_nat_text m h
  rw [(h2 g).1 hg] at hy
  exact (Acr.hi_nat_iff m h1 h3).2 fun ⟨y, k⟩ => hy y ((h4 y).2 k)

/-- C113. A grapheme string is the sequence of names of at most one word. -/
theorem namesOf_unique (m : Mode) (cs : List Chr) (h : IsIso cs) (g y y' : Str)
    (hg : isoToTyp m (isoText m cs) g) (hy : NamesOf g y) (hy' : NamesOf g y') : y = y' := by
  have h1 := (hi_nat_acronym m cs h g y' hg hy' y').2 rfl
  exact ((hi_nat_acronym m cs h g y hg hy y').1 h1).symm

theorem namesOf_upper {g y : Str} (h : NamesOf g y) : UpperCase y := by
  induction h with
  | nil => intro c hc; cases hc
  | @cons L s g y names h _ _ ih =>
    have h1 : (letterNames.all fun p => p.1.all fun c => Nat.ble 65 c && Nat.ble c 90) = true := by
      decide +kernel
    intro c hc
    rw [List.mem_append] at hc
    rcases hc with hc | hc
    · have := List.all_eq_true.1 (List.all_eq_true.1 h1 _ h) c hc
      simpa [Nat.ble_eq] using this
    · exact ih c hc

/-- C90, C113, Hindi: the romanization of other texts is in lower case. -/
theorem hi_nat_lower : OneOutput (fun m => G2p.isoToTxn m ++ Hi.natOps m) LowerCase :=
  out_of (rest := Hi.natOps) (P := OK M1) (fun _ => rfl) hi_nat_tail fun _ h => al_ok (by simp) h

/-- C90, Hindi: the romanization `iso_to_nat`. -/
theorem hi_nat : OneOutput Hi.nat fun y => LowerCase y ∨ UpperCase y := by
  refine ⟨fun m cs h => ?_, ?_⟩
  · obtain ⟨ts, h1, h2, h3, h4⟩ := hi_nat_text m h
    by_cases hy : ∃ y, NamesOf (enc ts) y
    · obtain ⟨y, hy⟩ := hy
      exact ⟨y, .inr (namesOf_upper hy), hi_nat_acronym m cs h _ y ((h2 _).2 rfl) hy⟩
    · obtain ⟨y, k1, k2⟩ := hi_nat_lower.1 m cs h
      refine ⟨y, .inl k1, fun z => ?_⟩
      rw [hi_nat_other m cs h _ ((h2 _).2 rfl) fun y k => hy ⟨y, k⟩]
      exact k2 z
  · exact out_domain (g := Hi.nat) (fun m => Acr.HI_ACR_TYP_TO_TR ++ Hi.natOps m)
      fun m => by rw [Hi.nat, List.append_assoc]

theorem hi_nat_modes : ModesAgree Hi.nat :=
  modes_of (rest := fun m => Acr.HI_ACR_TYP_TO_TR ++ Hi.natOps m)
    (fun m => by rw [Hi.nat, List.append_assoc]) (by simp only [Hi.natOps, print_modes])

/-! ## Examples -/

section
set_option maxRecDepth 100000

/-- The text `bī.ē` of बीए, that is B.A. -/
def textBa : List Chr := [a!"B", a!"II", a!"IND", a!"EE"].map Brh.sp

theorem textBa_iso : IsIso textBa := spB_iff (by decide +kernel)

theorem textBa_typ (m : Mode) : isoToTyp m (isoText m textBa) a!"<b><ii><ee_i>" :=
  typB_iff (as := [a!"B", a!"II", a!"IND", a!"EE"]) (s1 := a!"<b><ii><ind><ee>")
    (ts2 := [.g a!"b", .g a!"ii", .g a!"ind", .g a!"ee"])
    (s4 := a!"<b><ii><ee_i>") (s5 := a!"<b><ii><ee_i>") (by decide +kernel) m

/-- The text `bī.ē` meets the hypotheses of `hi_nat_acronym`, and is written `BA`. -/
example (m : Mode) : IsIso textBa ∧ isoToTyp m (isoText m textBa) a!"<b><ii><ee_i>" ∧
    NamesOf a!"<b><ii><ee_i>" a!"BA" ∧ ∀ z, compose (Hi.nat m) (isoText m textBa) z ↔ z = a!"BA" :=
  have h : NamesOf a!"<b><ii><ee_i>" a!"BA" :=
    .cons (L := a!"B") (s := a!"<b><ii>") (names := [a!"<b><i>", a!"<b><ii>"]) (by decide) (by decide)
      (.cons (L := a!"A") (s := a!"<ee_i>") (names := [a!"<e_i>", a!"<ee_i>"]) (by decide) (by decide) .nil)
  ⟨textBa_iso, textBa_typ m, h, hi_nat_acronym m _ textBa_iso _ _ (textBa_typ m) h⟩

/-- A name of a letter starts every string of names. -/
theorem namesOf_first {g y : Str} (h : NamesOf g y) :
    g = [] ∨ ∃ p ∈ letterNames, ∃ s ∈ p.2, s <+: g := by
  cases h with
  | nil => exact .inl rfl
  | cons h hs _ => exact .inr ⟨_, h, _, hs, ⟨_, rfl⟩⟩

/-- The text `ka` meets the hypotheses of `hi_nat_other`. -/
example (m : Mode) : IsIso textKa ∧ isoToTyp m (isoText m textKa) a!"<k><a>" ∧ ∀ y, ¬ NamesOf a!"<k><a>" y := by
  refine ⟨textKa_iso, textKa_typ m, fun y h => ?_⟩
  rcases namesOf_first h with h | ⟨p, hp, s, hs, hp'⟩
  · cases h
  · have : (letterNames.all fun p => p.2.all fun s => !(s.isPrefixOf a!"<k><a>")) = true := by
      decide +kernel
    have := List.all_eq_true.1 (List.all_eq_true.1 this p hp) s hs
    rw [Bool.not_eq_true', Bool.eq_false_iff] at this
    exact this (List.isPrefixOf_iff_prefix.2 hp')

/-- The text `kē` of the postposition के. -/
def textKe : List Chr := [a!"K", a!"EE"].map Brh.sp

/-- C113. A word that sounds like a letter is written as the letter: के is written `K`. -/
theorem hi_nat_ke (m : Mode) : ∀ z, compose (Hi.nat m) (isoText m textKe) z ↔ z = a!"K" :=
  hi_nat_acronym m textKe (spB_iff (by decide +kernel)) a!"<k><ee>" a!"K"
    (typB_iff (as := [a!"K", a!"EE"]) (s1 := a!"<k><ee>") (ts2 := [.g a!"k", .g a!"ee"])
      (s4 := a!"<k><ee>") (s5 := a!"<k><ee>") (by decide +kernel) m)
    (.cons (L := a!"K") (s := a!"<k><ee>") (names := [a!"<k><e>", a!"<k><ee>"]) (by decide) (by decide) .nil)

end

end Nisaba.Props
