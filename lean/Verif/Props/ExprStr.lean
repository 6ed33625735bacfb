import Verif.Lemmas.ExprStr
import Verif.Props.Expression
/-!
# C134: what the printed forms of expressions and alignments tell
-/
namespace Nisaba.Props

open Nisaba.Expr Nisaba.AlignRule Nisaba.ExprStr Nisaba.Props.ExprAux

namespace ExprStrAux

/-- Texts for the examples: the marks are those of the code, another symbol has one letter. -/
def T : Texts where
  sym n := if n = bos then [0x200B, 0x22B3, 0x200B] else if n = eos then [0x200B, 0x22B2, 0x200B]
    else [0x20000 + n]
  plain := [0x1FFFF]
  label _ := a!"Or_x"

theorem T_sym (n : Nat) : T.sym n = if n = bos then [0x200B, 0x22B3, 0x200B] else if n = eos then [0x200B, 0x22B2, 0x200B]
    else [0x20000 + n] := rfl

theorem clear_T : Clear T where
  sym n := by
    rw [T_sym]
    split
    · exact ⟨by simp, by simp, by simp⟩
    · split
      · exact ⟨by simp, by simp, by simp⟩
      · refine ⟨by simp, by simp; omega, ?_⟩
        intro c hc
        simp only [List.mem_singleton] at hc
        omega
  plain := ⟨by simp [T], by simp [T], by simp [T]⟩
  inj m n h := by
    rw [T_sym, T_sym] at h
    repeat' split at h
    all_goals simp_all
  sym_plain n := by
    rw [T_sym]
    repeat' split
    all_goals simp [T]
    all_goals omega
  sym_any n := by
    rw [T_sym]
    repeat' split
    all_goals simp [anyText]
  plain_any := by simp [T, anyText]

theorem marks_T : Marks T where
  bos := rfl
  eos := rfl
  only_bos n h := by
    rw [T_sym] at h
    repeat' split at h
    all_goals simp_all
    all_goals omega
  only_eos n h := by
    rw [T_sym] at h
    repeat' split at h
    all_goals simp_all
    all_goals omega
  plain := by simp [T]

/-- A context that is any on both sides. -/
def anyBoth (a : Al) : Bool := isAny a.left && isAny a.right

/-- The two sides of a context: both any, or the same sides and the same mark. -/
def SameContext (a b : Al) (m m' : Bool) : Prop :=
  (anyBoth a = true ∧ anyBoth b = true) ∨
  (anyBoth a = false ∧ anyBoth b = false ∧ sideShape a.left = sideShape b.left ∧ sideShape a.right = sideShape b.right ∧
    m = m')

/-- Both sides are built with the operations and printed with their items. -/
def Plain (a : Al) : Prop := (Built a.left ∧ Shown a.left) ∧ Built a.right ∧ Shown a.right

end ExprStrAux

open ExprStrAux

/-- The printed form of an expression tells the expression, up to the two forms of nothing: `eps` and the empty
`Cat`, `nor` and the empty `Or`. -/
theorem C134_text {T : Texts} (hT : Clear T) {x y : Ex} (hx : Built x) (hy : Built y) :
    str T x = str T y ↔ shape x = shape y := by
  rw [← str_shape T x, ← str_shape T y]
  refine ⟨fun e => ?_, fun e => by rw [e]⟩
  exact (inj hT (shape_inner (built_normal hx)) _ [] [] (shape_inner (built_normal hy)) (.inl rfl) (.inl rfl) (by simpa using e)).1

example : shape (mkCat [.sym 10, mkOr [.sym 11, .sym 12]]) ≠ shape (mkOr [mkCat [.sym 10, .sym 11], .sym 12]) :=
  fun h => absurd ((C134_text clear_T
    (.cat _ (by simp only [List.mem_cons, List.not_mem_nil, or_false, forall_eq_or_imp, forall_eq]
                exact ⟨.sym _, .or _ (by simp [Built.sym])⟩))
    (.or _ (by simp only [List.mem_cons, List.not_mem_nil, or_false, forall_eq_or_imp, forall_eq]
               exact ⟨.cat _ (by simp [Built.sym]), .sym _⟩))).2 h) (by decide +kernel)

example : str T (mkCat [.sym 10, mkOr [.sym 11, .sym 12]]) =
    [40, 0x2000A, 32, 40, 0x2000B, 32, 124, 32, 0x2000C, 41, 41] := by decide +kernel

/-- The printed form of an alignment tells both sides, when they are printed with their items: up to the two forms
of nothing, and up to a `Cat` or `Or` of one symbol that is printed as the symbol.  What is missing are the
sides with a single item that is a `Cat` or an `Or`, see `C134_side_violated`. -/
theorem C134_align_partial {T : Texts} (hT : Clear T) {a b : Al} (ha : Plain a) (hb : Plain b) :
    alignStr T a = alignStr T b ↔ sideShape a.left = sideShape b.left ∧ sideShape a.right = sideShape b.right := by
  simp only [alignStr, enclosedStr, alignedStr, side_eq T ha.1.2, side_eq T ha.2.2, side_eq T hb.1.2, side_eq T hb.2.2]
  refine ⟨fun e => ?_, fun e => by rw [e.1, e.2]⟩
  simp only [List.append_nil, List.cons_append, List.nil_append, List.append_assoc, List.cons.injEq, true_and] at e
  obtain ⟨h1, h2⟩ := inj hT (side_inner (built_normal ha.1.1)) _ _ _ (side_inner (built_normal hb.1.1))
    (.cons (by simp)) (.cons (by simp)) e
  simp only [List.cons.injEq, true_and] at h2
  exact ⟨h1, (inj hT (side_inner (built_normal ha.2.1)) _ _ _ (side_inner (built_normal hb.2.1))
    (.cons (by simp)) (.cons (by simp)) h2).1⟩

example : sideShape (.sym 10) = sideShape (mkCat [.sym 10]) ∧ sideShape (.sym 11) = sideShape (.sym 11) :=
  (C134_align_partial (a := ⟨.sym 10, .sym 11⟩) (b := ⟨mkCat [.sym 10], .sym 11⟩) clear_T
    ⟨⟨.sym _, trivial⟩, .sym _, trivial⟩
    ⟨⟨.cat _ (by simp [Built.sym]), by simp [mkCat, addCats, addCat, isControl, Shown]⟩, .sym _, trivial⟩).1 (by decide +kernel)

/-- The detailed form of an alignment tells both sides, the contexts that are not any with their sides and marks,
and the printed form of the operation.  Missing are sides as above and contexts that are any: their marks
`from_bos` and `to_eos` are not printed, see
`C134_mark_hidden`. -/
theorem C134_string_partial {F Op : Type} {T : Texts} (hT : Clear T) (hM : Marks T) (op : Op → Option Str)
    {a b : Alignment F Op} (ha : Plain ⟨a.left, a.right⟩) (hb : Plain ⟨b.left, b.right⟩)
    (hap : Plain a.preceding) (haf : Plain a.following) (hbp : Plain b.preceding) (hbf : Plain b.following) :
    string T op a = string T op b ↔
      (sideShape a.left = sideShape b.left ∧ sideShape a.right = sideShape b.right) ∧
      SameContext a.preceding b.preceding a.fromBos b.fromBos ∧
      SameContext a.following b.following a.toEos b.toEos ∧ op a.operation = op b.operation := by
  have pre : ∀ r : Alignment F Op, Plain r.preceding → preStr T r = if alAny r.preceding then [] else
      0x2308 :: ((if r.fromBos then T.sym bos else []) ++ (str T (sideShape r.preceding.left) ++
        0x2236 :: (str T (sideShape r.preceding.right) ++ [0x230B, 32]))) := by
    intro r hr
    unfold preStr contextStr
    split <;> simp [enclosedStr, alignedStr, side_eq T hr.1.2, side_eq T hr.2.2]
  have fol : ∀ r : Alignment F Op, Plain r.following → folStr T r = if alAny r.following then [] else
      32 :: 0x2308 :: (str T (sideShape r.following.left) ++
        0x2236 :: (str T (sideShape r.following.right) ++ ((if r.toEos then T.sym eos else []) ++ [0x230B]))) := by
    intro r hr
    unfold folStr contextStr
    split <;> simp [enclosedStr, alignedStr, side_eq T hr.1.2, side_eq T hr.2.2]
  have hany : ∀ a : Al, alAny a = anyBoth a := fun _ => rfl
  have opt : ∀ r : Alignment F Op, Plain ⟨r.left, r.right⟩ → string T op r = 40 :: (preStr T r ++
      (str T (sideShape r.left) ++ 0x2236 :: (str T (sideShape r.right) ++ (folStr T r ++ ((match op r.operation with
        | some s => [44, 32] ++ s
        | none => []) ++ [41]))))) := by
    intro r hr
    simp only [string, enclosedStr, alignedStr, side_eq T hr.1.2, side_eq T hr.2.2]
    cases op r.operation <;> simp
  rw [opt a ha, opt b hb, pre a hap, pre b hbp, fol a haf, fol b hbf]
  have al := side_inner (built_normal ha.1.1)
  have ar := side_inner (built_normal ha.2.1)
  have bl := side_inner (built_normal hb.1.1)
  have br := side_inner (built_normal hb.2.1)
  have apl := side_inner (built_normal hap.1.1)
  have apr := side_inner (built_normal hap.2.1)
  have bpl := side_inner (built_normal hbp.1.1)
  have bpr := side_inner (built_normal hbp.2.1)
  have afl := side_inner (built_normal haf.1.1)
  have afr := side_inner (built_normal haf.2.1)
  have bfl := side_inner (built_normal hbf.1.1)
  have bfr := side_inner (built_normal hbf.2.1)
  simp only [List.cons.injEq, true_and]
  have two : ∀ {x y : Ex} {u v : Str}, Inner x → Inner y → Delim u → Delim v → str T x ++ u = str T y ++ v →
      x = y ∧ u = v := fun hx hy hu hv e => inj hT hx _ _ _ hy hu hv e
  have head : ∀ (x : Ex) (u v : Str), str T x ++ u ≠ 0x2308 :: v := by
    intro x u v e
    obtain ⟨c, w, e1, _, _, _, _, h, _⟩ := str_head hT x
    rw [e1] at e
    simp only [List.cons_append, List.cons.injEq] at e
    exact h e.1
  have opd : ∀ o : Option Str, ∃ c t, ((match o with | some s => [44, 32] ++ s | none => []) ++ [41] : Str) = c :: t ∧
      (c = 44 ∨ c = 41) := by
    intro o
    cases o
    · exact ⟨41, [], rfl, .inr rfl⟩
    · exact ⟨44, _, rfl, .inl rfl⟩
  have opi : ∀ o o' : Option Str, ((match o with | some s => [44, 32] ++ s | none => []) ++ [41] : Str) =
      (match o' with | some s => [44, 32] ++ s | none => []) ++ [41] → o = o' := by
    intro o o' e
    cases o <;> cases o' <;> simp_all
  -- after the sides
  have last : ((if alAny a.following then [] else
      32 :: 0x2308 :: (str T (sideShape a.following.left) ++
        0x2236 :: (str T (sideShape a.following.right) ++ ((if a.toEos then T.sym eos else []) ++ [0x230B])))) ++
        ((match op a.operation with | some s => [44, 32] ++ s | none => []) ++ [41]) : Str) =
      (if alAny b.following then [] else
      32 :: 0x2308 :: (str T (sideShape b.following.left) ++
        0x2236 :: (str T (sideShape b.following.right) ++ ((if b.toEos then T.sym eos else []) ++ [0x230B])))) ++
        ((match op b.operation with | some s => [44, 32] ++ s | none => []) ++ [41]) →
      SameContext a.following b.following a.toEos b.toEos ∧ op a.operation = op b.operation := by
    intro e
    obtain ⟨c, t, e1, h1⟩ := opd (op a.operation)
    obtain ⟨c', t', e2, h2⟩ := opd (op b.operation)
    cases h : alAny a.following <;> cases h' : alAny b.following <;>
      simp only [h, h', Bool.false_eq_true, if_false, if_true, List.nil_append] at e
    · simp only [List.cons_append, List.append_assoc, List.nil_append, List.cons.injEq, true_and] at e
      obtain ⟨g1, g2⟩ := two afl bfl (.cons (by simp)) (.cons (by simp)) e
      simp only [List.cons.injEq, true_and] at g2
      obtain ⟨g3, g4, g5⟩ := eos_inj hT hM afr bfr _ _ _ _ g2
      exact ⟨.inr ⟨h, h', g1, g3, g4⟩, opi _ _ g5⟩
    · rw [e2] at e
      simp only [List.cons_append, List.cons.injEq] at e
      omega
    · rw [e1] at e
      simp only [List.cons_append, List.cons.injEq] at e
      omega
    · exact ⟨.inl ⟨h, h'⟩, opi _ _ e⟩
  have dl : ∀ r : Alignment F Op, Delim (((if alAny r.following then [] else
      32 :: 0x2308 :: (str T (sideShape r.following.left) ++
        0x2236 :: (str T (sideShape r.following.right) ++ ((if r.toEos then T.sym eos else []) ++ [0x230B])))) ++
        ((match op r.operation with | some s => [44, 32] ++ s | none => []) ++ [41]) : Str)) := by
    intro r
    obtain ⟨c, t, e1, h1⟩ := opd (op r.operation)
    cases h : alAny r.following
    · exact .cons (by simp)
    · rw [if_pos rfl, List.nil_append, e1]
      exact .cons (by omega)
  have sides : ∀ {u v : Str}, Delim u → Delim v → str T (sideShape a.left) ++ 0x2236 :: (str T (sideShape a.right) ++ u) =
      str T (sideShape b.left) ++ 0x2236 :: (str T (sideShape b.right) ++ v) →
      (sideShape a.left = sideShape b.left ∧ sideShape a.right = sideShape b.right) ∧ u = v := by
    intro u v hu hv e
    obtain ⟨g1, g2⟩ := two al bl (.cons (by simp)) (.cons (by simp)) e
    simp only [List.cons.injEq, true_and] at g2
    obtain ⟨g3, g4⟩ := two ar br hu hv g2
    exact ⟨⟨g1, g3⟩, g4⟩
  constructor
  · intro e
    cases h : alAny a.preceding <;> cases h' : alAny b.preceding <;>
      simp only [h, h', Bool.false_eq_true, if_false, if_true, List.nil_append] at e
    · simp only [List.cons_append, List.append_assoc, List.nil_append, List.cons.injEq, true_and] at e
      obtain ⟨g1, g2, g3⟩ := bos_inj hT hM apl bpl _ _ _ _ e
      obtain ⟨g4, g5⟩ := two apr bpr (.cons (by simp)) (.cons (by simp)) g3
      simp only [List.cons.injEq, true_and] at g5
      obtain ⟨g6, g7⟩ := sides (dl a) (dl b) g5
      obtain ⟨g8, g9⟩ := last g7
      exact ⟨g6, .inr ⟨h, h', g2, g4, g1⟩, g8, g9⟩
    · exact absurd e.symm (head _ _ _)
    · exact absurd e (head _ _ _)
    · obtain ⟨g6, g7⟩ := sides (dl a) (dl b) e
      obtain ⟨g8, g9⟩ := last g7
      exact ⟨g6, .inl ⟨h, h'⟩, g8, g9⟩
  · rintro ⟨⟨e1, e2⟩, hp, hf, ho⟩
    rw [e1, e2, ho]
    congr 1
    · rcases hp with ⟨h, h'⟩ | ⟨h, h', e1, e2, e3⟩
      · simp [hany, h, h']
      · simp [hany, h, h', e1, e2, e3]
    · congr 1; congr 1; congr 1; congr 1
      rcases hf with ⟨h, h'⟩ | ⟨h, h', e1, e2, e3⟩
      · simp [hany, h, h']
      · simp [hany, h, h', e1, e2, e3]

/-- A rule for the examples: `a:b` after the beginning and an `a`, before any. -/
def C134_rule (m : Bool) : Alignment Unit Unit where
  name := []
  left := mkCat [.sym 10, .sym 11]
  right := .sym 11
  preceding := ⟨.sym 10, .any⟩
  following := ⟨.any, .any⟩
  fromBos := m
  toEos := false
  operation := ()
  priority := 0
  appliedCost := ()
  source := .native

example : string T (fun _ => some a!"alignable") (C134_rule true) ≠ string T (fun _ => some a!"alignable") (C134_rule false) :=
  fun h => by
    have hs : Plain ⟨mkCat [.sym 10, .sym 11], .sym 11⟩ :=
      ⟨⟨.cat _ (by simp [Built.sym]), by simp [mkCat, addCats, addCat, isControl, Shown]⟩, .sym _, trivial⟩
    have hp : Plain ⟨.sym 10, .any⟩ := ⟨⟨.sym _, trivial⟩, .any, trivial⟩
    have ha : Plain ⟨.any, .any⟩ := ⟨⟨.any, trivial⟩, .any, trivial⟩
    rcases ((C134_string_partial clear_T marks_T _ hs hs hp ha hp ha).1 h).2.1 with h | h
    · exact absurd h.1 (by decide)
    · exact absurd h.2.2.2.2 (by decide)

example : string T (fun _ => some a!"alignable") (C134_rule true) =
    [40, 0x2308, 0x200B, 0x22B3, 0x200B, 0x2000A, 0x2236, 0x200B, 0x1F753, 0x22C6, 0x200B, 0x230B, 32, 40, 0x2000A, 32,
      0x2000B, 41, 0x2236, 0x2000B, 44, 32] ++ a!"alignable" ++ [41] := by decide +kernel

/-- A side with a single item that is a `Cat` or an `Or` is printed as the text of this item, its class and alias, and
not with the items in it (`_side_str` reads `text` and not `str`): two such sides with different symbols may
be printed alike. -/
theorem C134_side_violated : ∃ (T : Texts) (a b : Al), Clear T ∧ (Built a.left ∧ Built b.left) ∧ a.right = b.right ∧
    Built a.right ∧ alignStr T a = alignStr T b ∧ symbols a.left ≠ symbols b.left ∧
    str T a.left ≠ str T b.left := by
  refine ⟨T, ⟨mkCat [mkOr [.sym 10, .sym 11]], .sym 14⟩, ⟨mkCat [mkOr [.sym 12, .sym 13]], .sym 14⟩, clear_T,
    ⟨.cat _ ?_, .cat _ ?_⟩, rfl, .sym _, by decide +kernel, by decide +kernel, by decide +kernel⟩
  · simp only [List.mem_singleton, forall_eq]
    exact .or _ (by simp [Built.sym])
  · simp only [List.mem_singleton, forall_eq]
    exact .or _ (by simp [Built.sym])

/-- The marks `from_bos` and `to_eos` of a context that is any are never printed. -/
theorem C134_mark_hidden {F Op : Type} (T : Texts) (op : Op → Option Str) (r : Alignment F Op)
    (hp : isAny r.preceding.left = true ∧ isAny r.preceding.right = true)
    (hf : isAny r.following.left = true ∧ isAny r.following.right = true) (m n : Bool) :
    string T op { r with fromBos := m, toEos := n } = string T op r := by
  simp [string, preStr, folStr, contextStr, alAny, hp, hf]

example : string T (fun _ => none) { C134_rule true with preceding := ⟨mkCat [.any], .any⟩, fromBos := false, toEos := true } =
    string T (fun _ => none) { C134_rule true with preceding := ⟨mkCat [.any], .any⟩ } :=
  C134_mark_hidden T _ { C134_rule true with preceding := ⟨mkCat [.any], .any⟩ } ⟨by decide +kernel, rfl⟩ ⟨rfl, rfl⟩ _ _

end Nisaba.Props
