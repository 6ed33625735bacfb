import Verif.Lemmas.SymDoc
/-!
# C138: the description of a symbol inventory
-/
namespace Nisaba.Props
open Nisaba Nisaba.Inv Nisaba.Symbol

/-- C138: whatever was added to an inventory and parsed with it, its description is the header and
one line for each symbol of the inventory that is found under its own index, by ascending index;
control symbols have a line only on demand. -/
theorem C138_doc (kind : Kind) (valid : Val → Bool) (pre : Nat) (os : List Op)
    (hm : ∀ m ∈ ["header", "index_lookup", "lookup"],
      ((SymInv.new kind valid pre).run os).inv.hasKey m = false)
    (showControl : Bool) :
    ∃ L : List Sym,
      L.Pairwise (fun x y => x.index < y.index) ∧
      (∀ y : Sym, y ∈ L ↔
        ((y ∈ ctrl ∧ showControl = true) ∨
          (y ∉ ctrl ∧ Val.sym y ∈ ((SymInv.new kind valid pre).run os).inv.items)) ∧
        ((SymInv.new kind valid pre).run os).indexLookup y.index = .ok y) ∧
      ∀ (text : List Nat) (describe : Sym → List Nat),
        ((SymInv.new kind valid pre).run os).description text describe showControl =
          .ok ("## Inventory: ".toList.map Char.toNat ++ text ++ [10, 10] ++
            L.flatMap (fun y => [35, 35, 35, 32] ++ describe y ++ [10])) := by
  have h := run_doc os (new_doc kind valid pre)
  have h1 := hm "index_lookup" (by decide)
  have h2 := hm "lookup" (by decide)
  have h3 := hm "header" (by decide)
  refine ⟨_, shown_sorted h showControl, ?_, ?_⟩
  · intro y
    rw [mem_shown h, indexLookup_ok _ h1 h2, Except.ok.injEq]
  · intro text describe
    have hh : Inventory.method ((SymInv.new kind valid pre).run os).inv "header" = .ok () := by
      simp [Inventory.method, h3]
    unfold SymInv.description
    rw [hh, describeAll_eq _ h1 h2]
    rfl

/-- C138, the part that holds of "all symbols in the inventory": a symbol of the inventory has its
line if no other symbol of the inventory and no control symbol has its index.  Missing: symbols
that share an index (`C138_all_violated`). -/
theorem C138_all_partial (kind : Kind) (valid : Val → Bool) (pre : Nat) (os : List Op)
    (hm : ∀ m ∈ ["header", "index_lookup", "lookup", "_add_to_dicts"],
      ((SymInv.new kind valid pre).run os).inv.hasKey m = false)
    (y : Sym) (hy : Val.sym y ∈ ((SymInv.new kind valid pre).run os).inv.items)
    (hc : ∀ c ∈ ctrl, c.index ≠ y.index)
    (hu : ∀ z, Val.sym z ∈ ((SymInv.new kind valid pre).run os).inv.items →
      z.index = y.index → z = y)
    (text : List Nat) (describe : Sym → List Nat) (showControl : Bool) :
    ∃ a b, ((SymInv.new kind valid pre).run os).description text describe showControl =
      .ok (a ++ ([35, 35, 35, 32] ++ describe y ++ [10]) ++ b) := by
  obtain ⟨L, _, mem, eq⟩ := C138_doc kind valid pre os (fun m h => hm m (by
    simp only [List.mem_cons, List.not_mem_nil, or_false] at h ⊢
    rcases h with h | h | h <;> simp [h])) showControl
  have h := run_doc os (new_doc kind valid pre)
  have hin := h.back (hm "_add_to_dicts" (by decide)) y hy
  obtain ⟨z, hz⟩ := dict_get_some hin
  obtain ⟨e, hz2⟩ := h.entries _ _ (dict_get_mem hz)
  have hzy : z = y := by
    rcases hz2 with hz2 | hz2
    · exact absurd e.symm (hc z hz2)
    · exact hu z hz2 e.symm
  subst hzy
  have hL : z ∈ L := by
    rw [mem]
    refine ⟨.inr ⟨fun hz3 => hc z hz3 rfl, hy⟩, ?_⟩
    rw [indexLookup_ok _ (hm "index_lookup" (by decide)) (hm "lookup" (by decide)), hz]
    rfl
  obtain ⟨l1, l2, rfl⟩ := List.append_of_mem hL
  refine ⟨"## Inventory: ".toList.map Char.toNat ++ text ++ [10, 10] ++
    l1.flatMap (fun y => [35, 35, 35, 32] ++ describe y ++ [10]),
    l2.flatMap (fun y => [35, 35, 35, 32] ++ describe y ++ [10]), ?_⟩
  rw [eq]
  simp [List.flatMap_append, List.flatMap_cons]

/-- Two symbols with one index. -/
def docFirst : Sym := { id := 10, cls := 0, alias := "a", text := [97], raw := [97], index := 5 }
def docSecond : Sym := { id := 11, cls := 0, alias := "b", text := [98], raw := [98], index := 5 }

/-- C138 fails as the docstring states it: the description leaves out a symbol of the inventory if a
symbol that was added later has the same index. -/
theorem C138_all_violated (describe : Sym → List Nat) :
    let s := (SymInv.new .base (fun _ => true) undefinedPrefix).run [.add docFirst, .add docSecond]
    Val.sym docFirst ∈ s.inv.items ∧ Val.sym docSecond ∈ s.inv.items ∧
      s.description [] describe false = .ok ("## Inventory: ".toList.map Char.toNat ++ [10, 10] ++
        ([35, 35, 35, 32] ++ describe docSecond ++ [10])) := by
  refine ⟨by decide +kernel, by decide +kernel, ?_⟩
  unfold SymInv.description
  have h : ((SymInv.new .base (fun _ => true) undefinedPrefix).run
      [.add docFirst, .add docSecond]).inv.method "header" = .ok () := by
    have : ((SymInv.new .base (fun _ => true) undefinedPrefix).run
      [.add docFirst, .add docSecond]).inv.hasKey "header" = false := by decide +kernel
    simp [Inventory.method, this]
  have h1 : ((SymInv.new .base (fun _ => true) undefinedPrefix).run
      [.add docFirst, .add docSecond]).inv.hasKey "index_lookup" = false := by decide +kernel
  have h2 : ((SymInv.new .base (fun _ => true) undefinedPrefix).run
      [.add docFirst, .add docSecond]).inv.hasKey "lookup" = false := by decide +kernel
  have h3 : shown ((SymInv.new .base (fun _ => true) undefinedPrefix).run
      [.add docFirst, .add docSecond]) false (sortedKeys ((SymInv.new .base (fun _ => true)
        undefinedPrefix).run [.add docFirst, .add docSecond]).indexDict) = [docSecond] := by
    decide +kernel
  rw [h, describeAll_eq _ h1 h2, h3, List.flatMap_cons, List.flatMap_nil, List.append_nil]
  rfl

/-- C138 fails, too, once a symbol has the alias `header`: the description cannot be made. -/
theorem C138_header_violated (describe : Sym → List Nat) (showControl : Bool) :
    ((SymInv.new .base (fun _ => true) undefinedPrefix).run
      [.add { docFirst with alias := "header" }]).description [] describe showControl =
      .error .typeError := by
  unfold SymInv.description
  have h : ((SymInv.new .base (fun _ => true) undefinedPrefix).run
      [.add { docFirst with alias := "header" }]).inv.method "header" = .error .typeError := by
    have : ((SymInv.new .base (fun _ => true) undefinedPrefix).run
      [.add { docFirst with alias := "header" }]).inv.hasKey "header" = true := by decide +kernel
    simp [Inventory.method, this]
  rw [h]

/-! ### The line of one symbol -/

theorem docCut_at {A B r q : List Nat} (c : Nat) (hA : c ∉ A) (hB : c ∉ B)
    (h : A ++ c :: r = B ++ c :: q) : A = B ∧ r = q := by
  induction A generalizing B with
  | nil =>
    cases B with
    | nil => exact ⟨rfl, (List.cons.inj h).2⟩
    | cons b B =>
      obtain ⟨e, _⟩ := List.cons.inj h
      exact absurd (by rw [← e]; simp) hB
  | cons a A ih =>
    cases B with
    | nil =>
      obtain ⟨e, _⟩ := List.cons.inj h
      exact absurd (by rw [e]; simp) hA
    | cons b B =>
      obtain ⟨e, e2⟩ := List.cons.inj h
      obtain ⟨h1, h2⟩ := ih (fun x => hA (List.mem_cons_of_mem _ x))
        (fun x => hB (List.mem_cons_of_mem _ x)) e2
      exact ⟨by rw [e, h1], h2⟩

theorem docCut_end {A B r q : List Nat} (c : Nat) (hA : c ∉ A) (hB : c ∉ B)
    (hr : r = [] ∨ ∃ r', r = c :: r') (hq : q = [] ∨ ∃ q', q = c :: q')
    (h : A ++ r = B ++ q) : A = B ∧ r = q := by
  rcases hr with rfl | ⟨r', rfl⟩ <;> rcases hq with rfl | ⟨q', rfl⟩
  · simpa using h
  · exact absurd (by rw [List.append_nil] at h; rw [h]; simp) hA
  · exact absurd (by rw [List.append_nil] at h; rw [← h]; simp) hB
  · obtain ⟨a, b⟩ := docCut_at c hA hB h
    exact ⟨a, by rw [b]⟩

theorem digits_no_space (n : Nat) : 32 ∉ points (toString n) := by
  intro h
  unfold points at h
  rw [List.mem_map] at h
  obtain ⟨c, hc, e⟩ := h
  rw [Nat.toString_eq_repr, Nat.toList_repr] at hc
  have := Nat.isDigit_of_mem_toDigits (by decide) (by decide) hc
  simp [Char.isDigit] at this
  have h1 := this.1
  have h2 : (48 : Nat) ≤ c.toNat := by
    have := UInt32.le_iff_toNat_le.1 h1
    simpa using this
  omega

theorem docPoints_inj {a b : String} (h : points a = points b) : a = b := by
  have : a.toList = b.toList := by
    refine (List.map_inj_right ?_).1 h
    intro x y hxy
    exact Char.toNat_inj.1 hxy
  exact String.toList_inj.1 this

theorem toString_nat_inj {m n : Nat} (h : toString m = toString n) : m = n := by
  have := congrArg String.toList h
  simp only [Nat.toString_eq_repr, Nat.toList_repr] at this
  have := congrArg (fun l => Nat.ofDigitChars 10 l 0) this
  simpa using this

/-- C138: the description of a symbol tells its alias and its index, if aliases have no space. -/
theorem C138_symbol (name : Sym → List Nat) (y z : Sym) (hy : ' ' ∉ y.alias.toList)
    (hz : ' ' ∉ z.alias.toList) (h : y.describe name = z.describe name) :
    y.alias = z.alias ∧ y.index = z.index := by
  have np : ∀ a : String, ' ' ∉ a.toList → 32 ∉ points a := by
    intro a ha hm
    unfold points at hm
    rw [List.mem_map] at hm
    obtain ⟨c, hc, e⟩ := hm
    have : c = ' ' := Char.toNat_inj.1 e
    exact ha (this ▸ hc)
  have tail : ∀ y : Sym, ∃ r, (r = [] ∨ ∃ r', r = 32 :: r') ∧
      y.describe name = points "alias: " ++ (points y.alias ++
        32 :: ([32] ++ points "index: " ++ (points (toString y.index) ++ r))) := by
    intro y
    refine ⟨(if y.raw = [] then [] else points "  raw: " ++ y.raw)
      ++ (if y.text = [] then [] else points "  text: " ++ y.text)
      ++ (if name y = points y.alias then [] else points "  name: " ++ name y), ?_, ?_⟩
    · by_cases h1 : y.raw = []
      · by_cases h2 : y.text = []
        · by_cases h3 : name y = points y.alias
          · left; simp [h1, h2, h3]
          · right; simp only [h1, h2, h3, if_true, if_false]; exact ⟨_, rfl⟩
        · right; simp only [h1, h2, if_true, if_false]; exact ⟨_, rfl⟩
      · right; simp only [h1, if_false]; exact ⟨_, rfl⟩
    · unfold Sym.describe
      have : points "  index: " = 32 :: ([32] ++ points "index: ") := by decide
      simp only [this, List.append_assoc, List.cons_append]
  obtain ⟨r, hr, ey⟩ := tail y
  obtain ⟨q, hq, ez⟩ := tail z
  rw [ey, ez, List.append_cancel_left_eq] at h
  obtain ⟨ha, h2⟩ := docCut_at 32 (np _ hy) (np _ hz) h
  rw [List.append_cancel_left_eq] at h2
  obtain ⟨hi, _⟩ := docCut_end 32 (digits_no_space _) (digits_no_space _) hr hq h2
  exact ⟨docPoints_inj ha, toString_nat_inj (docPoints_inj hi)⟩

/-- C138: the description of a grapheme tells its alias, its name and its raw text, or else its text,
if these have no tabulator. -/
theorem C138_grapheme (name : Sym → List Nat) (y z : Sym)
    (hy : '\t' ∉ y.alias.toList ∧ 9 ∉ y.raw ∧ 9 ∉ y.text)
    (hz : '\t' ∉ z.alias.toList ∧ 9 ∉ z.raw ∧ 9 ∉ z.text)
    (h : y.describeGrapheme name = z.describeGrapheme name) :
    y.alias = z.alias ∧ name y = name z ∧ y.raw = z.raw ∧ (y.raw = [] → y.text = z.text) := by
  have np : ∀ a : String, '\t' ∉ a.toList → 9 ∉ points a := by
    intro a ha hm
    unfold points at hm
    rw [List.mem_map] at hm
    obtain ⟨c, hc, e⟩ := hm
    have : c = '\t' := Char.toNat_inj.1 e
    exact ha (this ▸ hc)
  have form : ∀ y : Sym, y.describeGrapheme name = points "alias: " ++ (points y.alias ++
      9 :: ((if y.raw = [] then points "text: " ++ y.text else points "raw: " ++ y.raw) ++
        9 :: (points "name: " ++ name y))) := by
    intro y
    unfold Sym.describeGrapheme
    have h1 : points "\t" = [9] := by decide
    have h2 : points "\tname: " = 9 :: points "name: " := by decide
    simp only [h1, h2, List.append_assoc, List.cons_append, List.nil_append]
  have nomid : ∀ y : Sym, 9 ∉ y.raw → 9 ∉ y.text →
      9 ∉ (if y.raw = [] then points "text: " ++ y.text else points "raw: " ++ y.raw) := by
    intro y h1 h2
    split
    · rw [List.mem_append, not_or]; exact ⟨by decide, h2⟩
    · rw [List.mem_append, not_or]; exact ⟨by decide, h1⟩
  rw [form, form, List.append_cancel_left_eq] at h
  obtain ⟨ha, h2⟩ := docCut_at 9 (np _ hy.1) (np _ hz.1) h
  obtain ⟨hr, h3⟩ := docCut_at 9 (nomid y hy.2.1 hy.2.2) (nomid z hz.2.1 hz.2.2) h2
  rw [List.append_cancel_left_eq] at h3
  refine ⟨docPoints_inj ha, h3, ?_⟩
  have ht : points "text: " = 116 :: points "ext: " := by decide
  have hw : points "raw: " = 114 :: points "aw: " := by decide
  by_cases h1 : y.raw = [] <;> by_cases h2 : z.raw = []
  · rw [if_pos h1, if_pos h2, List.append_cancel_left_eq] at hr
    exact ⟨by rw [h1, h2], fun _ => hr⟩
  · rw [if_pos h1, if_neg h2, ht, hw] at hr
    exact absurd (List.cons.inj hr).1 (by decide)
  · rw [if_neg h1, if_pos h2, ht, hw] at hr
    exact absurd (List.cons.inj hr).1 (by decide)
  · rw [if_neg h1, if_neg h2, List.append_cancel_left_eq] at hr
    exact ⟨hr, fun h => absurd h h1⟩

theorem docLines (ds es : List (List Nat)) (hd : ∀ d ∈ ds, 10 ∉ d) (he : ∀ e ∈ es, 10 ∉ e)
    (h1 : ds ≠ []) (h2 : es ≠ [])
    (h : List.intercalate [10, 32, 32] ds = List.intercalate [10, 32, 32] es) : ds = es := by
  induction ds generalizing es with
  | nil => exact absurd rfl h1
  | cons d ds ih =>
    cases es with
    | nil => exact absurd rfl h2
    | cons e es =>
      have nd := hd d (by simp)
      have ne := he e (by simp)
      cases ds with
      | nil =>
        cases es with
        | nil => simpa [List.intercalate] using h
        | cons e' es =>
          simp only [List.intercalate, List.intersperse, List.flatten_cons, List.flatten_nil,
            List.append_nil] at h
          exact absurd (by rw [h]; simp) nd
      | cons d' ds =>
        cases es with
        | nil =>
          simp only [List.intercalate, List.intersperse, List.flatten_cons, List.flatten_nil,
            List.append_nil] at h
          exact absurd (by rw [← h]; simp) ne
        | cons e' es =>
          have hc : ∀ a b : List Nat, ∀ l, List.intercalate [10, 32, 32] (a :: b :: l) =
              a ++ 10 :: 32 :: 32 :: List.intercalate [10, 32, 32] (b :: l) := by
            intro a b l
            simp [List.intercalate, List.intersperse]
          rw [hc, hc] at h
          obtain ⟨ha, hb⟩ := docCut_at 10 nd ne h
          rw [ha, ih (e' :: es) (fun x hx => hd x (by simp [hx])) (fun x hx => he x (by simp [hx]))
            (by simp) (by simp) (List.cons.inj (List.cons.inj hb).2).2]

/-- C138: the text of `descriptions` under a title tells the descriptions of the symbols one by one,
if they are single lines. -/
theorem C138_descriptions (title : List Nat) (ds es : List (List Nat)) (hd : ∀ d ∈ ds, 10 ∉ d)
    (he : ∀ e ∈ es, 10 ∉ e) (h1 : ds ≠ []) (h2 : es ≠ [])
    (h : descriptions title ds = descriptions title es) : ds = es := by
  unfold descriptions at h
  rw [List.append_cancel_right_eq, List.append_cancel_left_eq] at h
  exact docLines ds es hd he h1 h2 h

/-! ### The hypotheses are met -/

/-- Two symbols added out of order and a parsed text that makes a third. -/
def docOps : List Op :=
  [.add { docSecond with index := 9 }, .add docFirst, .suppl "letters" 3, .parse [97, 99]]

example : ∀ m ∈ ["header", "index_lookup", "lookup", "_add_to_dicts"],
    ((SymInv.new .base (fun _ => true) undefinedPrefix).run docOps).inv.hasKey m = false := by
  decide +kernel

example : ((SymInv.new .base (fun _ => true) undefinedPrefix).run docOps).description [88]
    (fun y => points y.alias) false =
    .ok (points "## Inventory: X\n\n### a\n### b\n### from_unk_1\n") := by
  have h : (((SymInv.new .base (fun _ => true) undefinedPrefix).run docOps).description [88]
    (fun y => points y.alias) false).toOption =
    some (points "## Inventory: X\n\n### a\n### b\n### from_unk_1\n") := by decide +kernel
  generalize ((SymInv.new .base (fun _ => true) undefinedPrefix).run docOps).description [88]
    (fun y => points y.alias) false = x at h ⊢
  cases x with
  | error e => cases h
  | ok t => exact congrArg Except.ok (Option.some.inj h)

example :
    Val.sym docFirst ∈ ((SymInv.new .base (fun _ => true) undefinedPrefix).run docOps).inv.items ∧
    (∀ c ∈ ctrl, c.index ≠ docFirst.index) ∧
    (((SymInv.new .base (fun _ => true) undefinedPrefix).run docOps).inv.items.filter
      (fun v => match v with
        | .sym z => z.index == docFirst.index
        | _ => false)) = [Val.sym docFirst] := by decide +kernel

example : docFirst.describe (fun _ => [65]) =
    points "alias: a  index: 5  raw: a  text: a  name: A" := by decide +kernel

example : '\t' ∉ docFirst.alias.toList ∧ 9 ∉ docFirst.raw ∧ 9 ∉ docFirst.text ∧
    docFirst.describeGrapheme (fun _ => [65]) = points "alias: a\traw: a\tname: A" := by decide +kernel

example : (∀ d ∈ [docFirst, docSecond].map (Sym.describe fun _ => [65]), 10 ∉ d) ∧
    descriptions [] ([docFirst, docSecond].map (Sym.describe fun _ => [65])) =
      points ("symbols:\n  alias: a  index: 5  raw: a  text: a  name: A\n" ++
        "  alias: b  index: 5  raw: b  text: b  name: A\n") := by decide +kernel

end Nisaba.Props
