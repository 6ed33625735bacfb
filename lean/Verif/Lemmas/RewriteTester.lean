import Verif.Model.RewriteTester
import Verif.Lemmas.Grm2
import Verif.Lemmas.Utf8
/-! # Lemmas for `RewriteTester` -/
namespace Nisaba.RewriteTester
open Nisaba.Grm2

variable {K : Type} [AddMonoid K] [LinearOrder K]

/-! ## Splitting -/

theorem splitOn_ne_nil (c : Nat) (s : Str) : splitOn c s ≠ [] := by
  induction s with
  | nil => simp [splitOn]
  | cons x s ih =>
    simp only [splitOn]
    split
    · simp
    · split <;> simp

/-- No separator. -/
theorem splitOn_free {c : Nat} {s : Str} (h : c ∉ s) : splitOn c s = [s] := by
  induction s with
  | nil => rfl
  | cons x s ih =>
    have hx : x ≠ c := fun e => h (by simp [e])
    rw [splitOn, if_neg hx, ih fun hc => h (by simp [hc])]

/-- A separator after a piece. -/
theorem splitOn_append {c : Nat} {a : Str} (h : c ∉ a) (s : Str) : splitOn c (a ++ c :: s) = a :: splitOn c s := by
  induction a with
  | nil => simp [splitOn]
  | cons x a ih =>
    have hx : x ≠ c := fun e => h (by simp [e])
    rw [List.cons_append, splitOn, if_neg hx, ih fun hc => h (by simp [hc])]

theorem splitOn_intercalate (c : Nat) (w : Str) (ws : List Str) (h : ∀ v ∈ w :: ws, c ∉ v) :
    splitOn c ([c].intercalate (w :: ws)) = w :: ws := by
  induction ws generalizing w with
  | nil => simpa [List.intercalate] using splitOn_free (h w (by simp))
  | cons v ws ih =>
    have e : [c].intercalate (w :: v :: ws) = w ++ c :: [c].intercalate (v :: ws) := by
      simp [List.intercalate]
    rw [e, splitOn_append (h w (by simp)), ih v fun u hu => h u (by simp [hu])]

/-- The first piece grows. -/
theorem splitOn_cons {c x : Nat} (hx : x ≠ c) (s : Str) :
    splitOn c (x :: s) = (x :: (splitOn c s).headD []) :: (splitOn c s).tail := by
  rw [splitOn, if_neg hx]
  cases h : splitOn c s with
  | nil => exact absurd h (splitOn_ne_nil c s)
  | cons w ws => rfl

/-- `tokens` from the first byte on: a separator ends a token. -/
theorem tokens_sep (x : Nat) (hx : x = 9 ∨ x = 32) (s : Str) : tokens (x :: s) = tokens s := by
  rcases hx with rfl | rfl
  · simp [tokens, splitOn]
  · rw [tokens, splitOn_cons (by decide)]
    rw [tokens]
    cases h : splitOn 9 s with
    | nil => exact absurd h (splitOn_ne_nil 9 s)
    | cons w ws => simp [splitOn]

theorem tokens_seps (p : Str) (hp : ∀ x ∈ p, x = 9 ∨ x = 32) (s : Str) : tokens (p ++ s) = tokens s := by
  induction p with
  | nil => rfl
  | cons x p ih =>
    rw [List.cons_append, tokens_sep x (hp x (by simp)), ih fun y hy => hp y (by simp [hy])]

theorem tokens_word {w : Str} (hw : w ≠ []) (h9 : 9 ∉ w) (h32 : 32 ∉ w) : tokens w = [w] := by
  rw [tokens, splitOn_free h9]
  simp [splitOn_free h32, hw]

theorem tokens_word_sep {w : Str} (hw : w ≠ []) (h9 : 9 ∉ w) (h32 : 32 ∉ w) (x : Nat) (hx : x = 9 ∨ x = 32)
    (s : Str) : tokens (w ++ x :: s) = w :: tokens s := by
  rcases hx with rfl | rfl
  · rw [tokens, splitOn_append h9]
    simp [splitOn_free h32, hw, tokens]
  · have : splitOn 9 (w ++ 32 :: s) = (w ++ 32 :: (splitOn 9 s).headD []) :: (splitOn 9 s).tail := by
      clear hw h32
      induction w with
      | nil => simpa using splitOn_cons (c := 9) (x := 32) (by decide) s
      | cons y w ih =>
        have hy : y ≠ 9 := fun e => h9 (by simp [e])
        rw [List.cons_append, splitOn_cons hy, ih fun hc => h9 (by simp [hc])]
        rfl
    rw [tokens, this, tokens]
    cases h : splitOn 9 s with
    | nil => exact absurd h (splitOn_ne_nil 9 s)
    | cons v vs =>
      simp only [List.headD_cons, List.tail_cons, List.flatMap_cons, splitOn_append h32]
      simp [hw]

theorem tokens_joined (p : Str) (hp : p ≠ []) (hps : ∀ x ∈ p, x = 9 ∨ x = 32) (ws : List Str)
    (hw : ∀ w ∈ ws, w ≠ [] ∧ 9 ∉ w ∧ 32 ∉ w) : tokens (p.intercalate ws) = ws := by
  induction ws with
  | nil => rfl
  | cons w ws ih =>
    obtain ⟨h1, h2, h3⟩ := hw w (by simp)
    cases ws with
    | nil => simpa [List.intercalate] using tokens_word h1 h2 h3
    | cons v ws =>
      have e : p.intercalate (w :: v :: ws) = w ++ (p ++ p.intercalate (v :: ws)) := by
        simp [List.intercalate]
      rw [e]
      cases p with
      | nil => exact absurd rfl hp
      | cons x p =>
        rw [List.cons_append, tokens_word_sep h1 h2 h3 x (hps x (by simp)),
          tokens_seps p fun y hy => hps y (by simp [hy])]
        rw [ih fun u hu => hw u (by simp [hu])]

/-! ## Symbols -/

theorem symbolOf_mem {t : Table} (hl : (t.map (·.2)).Nodup) {s : Str} {l : Nat} (h : (s, l) ∈ t) :
    symbolOf t l = s := by
  induction t with
  | nil => simp at h
  | cons e t ih =>
    rw [List.map_cons, List.nodup_cons] at hl
    rw [symbolOf, List.find?_cons]
    by_cases he : e.2 = l
    · rcases List.mem_cons.1 h with rfl | h
      · simp
      · exact absurd (List.mem_map.2 ⟨_, h, he.symm⟩) hl.1
    · rw [show (e.2 == l) = false by simpa using he]
      rcases List.mem_cons.1 h with rfl | h
      · exact absurd rfl he
      · exact ih hl.2 h

theorem symbolOf_none {t : Table} {l : Nat} (h : l ∉ t.map (·.2)) : symbolOf t l = [] := by
  rw [symbolOf]
  have : t.find? (fun e => e.2 == l) = none := by
    rw [List.find?_eq_none]
    intro e he h2
    exact h (List.mem_map.2 ⟨e, he, by simpa using h2⟩)
  rw [this]

theorem labelOf_mem {t : Table} (hs : (t.map (·.1)).Nodup) {s : Str} {l : Nat} (h : (s, l) ∈ t) :
    labelOf t s = some l := by
  induction t with
  | nil => simp at h
  | cons e t ih =>
    rw [List.map_cons, List.nodup_cons] at hs
    rw [labelOf, List.find?_cons]
    by_cases he : e.1 = s
    · rcases List.mem_cons.1 h with rfl | h
      · simp
      · exact absurd (List.mem_map.2 ⟨_, h, he.symm⟩) hs.1
    · rw [show (e.1 == s) = false by simpa using he]
      rcases List.mem_cons.1 h with rfl | h
      · exact absurd rfl he
      · exact ih hs.2 h

theorem allSome_map {α β : Type} (f : α → Option β) (g : α → β) (l : List α) (h : ∀ a ∈ l, f a = some (g a)) :
    allSome (l.map f) = some (l.map g) := by
  induction l with
  | nil => rfl
  | cons a l ih =>
    rw [List.map_cons, h a (by simp), allSome, ih fun b hb => h b (by simp [hb])]
    rfl

/-! ## Paths -/

section
omit [AddMonoid K] [LinearOrder K]

theorem pathText_byte (o : Options K) (ho : o.output = .byte) (hg : o.generated = none) (p y : Str)
    (hy : ∀ l ∈ y, 0 < l ∧ l < 256) : pathText o p y = some (p ++ y) := by
  induction y generalizing p with
  | nil => simp [pathText]
  | cons l y ih =>
    obtain ⟨h1, h2⟩ := hy l (by simp)
    have : appendLabel o p l = some (p ++ [l]) := by
      rw [appendLabel, if_neg (by omega), hg, ho]
      simp [Nat.mod_eq_of_lt h2]
    rw [pathText, this, Option.bind_some, ih _ fun k hk => hy k (by simp [hk])]
    simp

theorem scalar_lt {l : Nat} (h : Utf8.isScalar l = true) : l < 0x200000 := by
  simp only [Utf8.isScalar, Bool.and_eq_true, decide_eq_true_eq] at h
  omega

theorem pathText_utf8 (o : Options K) (ho : o.output = .utf8) (hg : o.generated = none) (p y : Str)
    (hy : ∀ l ∈ y, 0 < l ∧ Utf8.isScalar l = true) : pathText o p y = some (p ++ y.flatMap Utf8.encodeRaw) := by
  induction y generalizing p with
  | nil => simp [pathText]
  | cons l y ih =>
    obtain ⟨h1, h2⟩ := hy l (by simp)
    have : appendLabel o p l = some (p ++ Utf8.encodeRaw l) := by
      rw [appendLabel, if_neg (by omega), hg, ho]
      simp [scalar_lt h2]
    rw [pathText, this, Option.bind_some, ih _ fun k hk => hy k (by simp [hk])]
    simp

theorem pathText_symbol_ne (o : Options K) (t : Table) (ho : o.output = .symbol t) (hg : o.generated = none)
    (p y : Str) (hp : p ≠ []) (hy : ∀ l ∈ y, 0 < l ∧ symbolOf t l ≠ []) :
    pathText o p y = some (p ++ (y.map (symbolOf t)).flatMap (o.separator ++ ·)) := by
  induction y generalizing p with
  | nil => simp [pathText]
  | cons l y ih =>
    obtain ⟨h1, h2⟩ := hy l (by simp)
    have : appendLabel o p l = some (p ++ o.separator ++ symbolOf t l) := by
      rw [appendLabel, if_neg (by omega), hg, ho]
      simp [h2, hp]
    rw [pathText, this, Option.bind_some, ih _ (by simp [hp]) fun k hk => hy k (by simp [hk])]
    simp

theorem intercalate_flatMap (p w : Str) (ws : List Str) :
    p.intercalate (w :: ws) = w ++ ws.flatMap (p ++ ·) := by
  induction ws generalizing w with
  | nil => simp [List.intercalate]
  | cons v ws ih =>
    have e : p.intercalate (w :: v :: ws) = w ++ (p ++ p.intercalate (v :: ws)) := by simp [List.intercalate]
    rw [e, ih v]
    simp

theorem pathText_symbol (o : Options K) (t : Table) (ho : o.output = .symbol t) (hg : o.generated = none)
    (y : Str) (hy : ∀ l ∈ y, 0 < l ∧ symbolOf t l ≠ []) :
    pathText o [] y = some (o.separator.intercalate (y.map (symbolOf t))) := by
  cases y with
  | nil => rfl
  | cons l y =>
    obtain ⟨h1, h2⟩ := hy l (by simp)
    have : appendLabel o [] l = some (symbolOf t l) := by
      rw [appendLabel, if_neg (by omega), hg, ho]
      simp [h2]
    rw [pathText, this, Option.bind_some,
      pathText_symbol_ne o t ho hg _ y h2 fun k hk => hy k (by simp [hk])]
    rw [List.map_cons, intercalate_flatMap]

/-- A label without a symbol. -/
theorem pathText_missing (o : Options K) (t : Table) (ho : o.output = .symbol t) (hg : o.generated = none)
    (p y : Str) (l : Nat) (hl : l ∈ y) (h0 : l ≠ 0) (hm : symbolOf t l = []) : pathText o p y = none := by
  induction y generalizing p with
  | nil => simp at hl
  | cons k y ih =>
    rw [pathText]
    by_cases h : k = l
    · have : appendLabel o p k = none := by
        rw [appendLabel, if_neg (by omega), hg, ho]
        simp [h, hm]
      rw [this]; rfl
    · rcases List.mem_cons.1 hl with rfl | hl
      · exact absurd rfl h
      · cases appendLabel o p k with
        | none => rfl
        | some q => exact ih q hl

/-- All paths can be printed. -/
theorem printPaths_ok (o : Options K) (g : Str → Str) (l acc : Lat K)
    (h : ∀ p ∈ l, pathText o [] p.1 = some (g p.1)) :
    printPaths o l acc = (acc ++ l.map fun p => (g p.1, p.2), true) := by
  induction l generalizing acc with
  | nil => simp [printPaths]
  | cons p l ih =>
    obtain ⟨y, c⟩ := p
    simp only [printPaths]
    rw [h (y, c) (by simp)]
    simp only
    rw [ih _ fun q hq => h q (by simp [hq])]
    simp

/-- What is printed if it succeeds: as many texts as paths. -/
theorem printPaths_true (o : Options K) (l acc outs : Lat K) (h : printPaths o l acc = (outs, true)) :
    outs.length = acc.length + l.length := by
  induction l generalizing acc with
  | nil => simp [printPaths] at h; simp [h]
  | cons p l ih =>
    obtain ⟨y, c⟩ := p
    simp only [printPaths] at h
    cases e : pathText o [] y with
    | none => rw [e] at h; simp at h
    | some t =>
      rw [e] at h
      rw [ih _ h]
      simp; omega

theorem fstToStrings_true (f : Finder K) (o : Options K) (l outs : Lat K)
    (h : fstToStrings f o l = (outs, true)) : outs ≠ [] := by
  rw [fstToStrings] at h
  cases e : found f o.noutput l with
  | nil => rw [e] at h; simp at h
  | cons p ps =>
    rw [e] at h
    have := printPaths_true o _ _ _ h
    intro he
    rw [he] at this
    simp at this

end

/-- The loop without details. -/
theorem loop_plain (f : Finder K) (o : Options K) (m : Map K) (several : Bool) (hd : (o.details && several) = false)
    (ds : List Str) (l out : Lat K) (s : Str) :
    loop f o m several ds l out s =
      (thraxCascade m (ds.map parseRuleDef) l out).bind fun r => .ok (r, s) := by
  induction ds generalizing l out with
  | nil => rfl
  | cons d ds ih =>
    rw [loop, List.map_cons, thraxCascade]
    simp only [hd]
    cases composeRule true m (parseRuleDef d) l with
    | fatal => rfl
    | fail => rfl
    | ok l' => simp only [Res.bind]; exact ih l' l'

/-- The loop with or without details. -/
theorem loop_any (f : Finder K) (o : Options K) (m : Map K) (several : Bool)
    (ds : List Str) (l out : Lat K) (s : Str) :
    match thraxCascade m (ds.map parseRuleDef) l out with
    | .fatal => loop f o m several ds l out s = .fatal
    | .fail => loop f o m several ds l out s = .fail
    | .ok r => ∃ pre, loop f o m several ds l out s = .ok (r, s ++ pre) := by
  induction ds generalizing l out s with
  | nil => exact ⟨[], by simp [loop]⟩
  | cons d ds ih =>
    rw [loop, List.map_cons, thraxCascade]
    cases composeRule true m (parseRuleDef d) l with
    | fatal => rfl
    | fail => rfl
    | ok l' =>
      simp only [Res.bind]
      have key := ih l' l' (if o.details && several then
        s ++ detailLines (parseRuleDef d).main (fstToStrings f o l').1 else s)
      cases h : thraxCascade m (ds.map parseRuleDef) l' l' with
      | fatal => rw [h] at key; exact key
      | fail => rw [h] at key; exact key
      | ok r =>
        rw [h] at key
        obtain ⟨pre, h2⟩ := key
        simp only
        rw [h2]
        split
        · exact ⟨detailLines (parseRuleDef d).main (fstToStrings f o l').1 ++ pre, by rw [List.append_assoc]⟩
        · exact ⟨pre, rfl⟩

/-! ## Words -/

/-- A separator of words. -/
def Blank (c : Nat) : Prop := c = 9 ∨ c = 32

instance (c : Nat) : Decidable (Blank c) := by unfold Blank; infer_instance

theorem pieces_cons (x : Nat) (s : Str) : (splitOn 9 (x :: s)).flatMap (splitOn 32) =
    if Blank x then [] :: (splitOn 9 s).flatMap (splitOn 32)
    else (x :: ((splitOn 9 s).flatMap (splitOn 32)).headD []) :: ((splitOn 9 s).flatMap (splitOn 32)).tail := by
  by_cases h9 : x = 9
  · simp [splitOn, Blank, h9]
  · rw [splitOn_cons h9]
    cases h : splitOn 9 s with
    | nil => exact absurd h (splitOn_ne_nil 9 s)
    | cons w ws =>
      simp only [List.headD_cons, List.tail_cons, List.flatMap_cons]
      by_cases h32 : x = 32
      · simp [splitOn, Blank, h32]
      · rw [splitOn_cons h32, if_neg (by simp [Blank, h9, h32])]
        cases h' : splitOn 32 w with
        | nil => exact absurd h' (splitOn_ne_nil 32 w)
        | cons v vs => simp

theorem pieces_ne_nil (s : Str) : (splitOn 9 s).flatMap (splitOn 32) ≠ [] := by
  cases s with
  | nil => simp [splitOn]
  | cons x s => rw [pieces_cons]; split <;> simp

theorem pieces_append (a : Str) {c : Nat} (hc : Blank c) (b : Str) :
    (splitOn 9 (a ++ c :: b)).flatMap (splitOn 32) =
      (splitOn 9 a).flatMap (splitOn 32) ++ (splitOn 9 b).flatMap (splitOn 32) := by
  induction a with
  | nil => rw [List.nil_append, pieces_cons, if_pos hc]; simp [splitOn]
  | cons x a ih =>
    rw [List.cons_append, pieces_cons, pieces_cons, ih]
    split
    · simp
    · cases h : (splitOn 9 a).flatMap (splitOn 32) with
      | nil => exact absurd h (pieces_ne_nil a)
      | cons v vs => simp

theorem tokens_append (a : Str) {c : Nat} (hc : Blank c) (b : Str) :
    tokens (a ++ c :: b) = tokens a ++ tokens b := by
  rw [tokens, pieces_append a hc, List.filter_append]; rfl

theorem tokens_whole {w : Str} (hne : w ≠ []) (hw : ∀ c ∈ w, ¬ Blank c) : tokens w = [w] := by
  rw [tokens, splitOn_free (fun h => hw 9 h (.inl rfl))]
  simp [splitOn_free (fun h => hw 32 h (.inr rfl)), hne]

/-- The words of a text: pieces without blanks between blanks or the ends of the text. -/
def IsWord (w s : Str) : Prop := w ≠ [] ∧ (∀ c ∈ w, ¬ Blank c) ∧ ∃ pre post, s = pre ++ w ++ post ∧
  (∀ c, pre.getLast? = some c → Blank c) ∧ (∀ c, post.head? = some c → Blank c)

theorem mem_pieces {s : Str} : ∀ w ∈ (splitOn 9 s).flatMap (splitOn 32), (∀ c ∈ w, ¬ Blank c) ∧
    ∃ pre post, s = pre ++ w ++ post ∧
      (∀ c, pre.getLast? = some c → Blank c) ∧ (∀ c, post.head? = some c → Blank c) := by
  have key : ∀ s : Str, ((∀ c ∈ ((splitOn 9 s).flatMap (splitOn 32)).headD [], ¬ Blank c) ∧
      ∃ post, s = ((splitOn 9 s).flatMap (splitOn 32)).headD [] ++ post ∧ (∀ c, post.head? = some c → Blank c)) ∧
      ∀ w ∈ ((splitOn 9 s).flatMap (splitOn 32)).tail, (∀ c ∈ w, ¬ Blank c) ∧
    ∃ pre post, s = pre ++ w ++ post ∧ pre ≠ [] ∧
      (∀ c, pre.getLast? = some c → Blank c) ∧ (∀ c, post.head? = some c → Blank c) := by
    intro s
    induction s with
    | nil => simp [splitOn]
    | cons x s ih =>
      rw [pieces_cons]
      obtain ⟨⟨h1, post, h2, h3⟩, h4⟩ := ih
      split
      case isTrue hx =>
        refine ⟨⟨by simp, x :: s, by simp, by simpa using hx⟩, ?_⟩
        cases h : (splitOn 9 s).flatMap (splitOn 32) with
        | nil => exact absurd h (pieces_ne_nil s)
        | cons v vs =>
          rw [h] at h1 h2 h4
          simp only [List.headD_cons, List.tail_cons] at h1 h2 h4 ⊢
          intro w hw
          rcases List.mem_cons.1 hw with rfl | hw
          · exact ⟨h1, [x], post, by simp [h2], by simp, by simpa using hx, h3⟩
          · obtain ⟨a, pre, po, e, hn, b, d⟩ := h4 w hw
            refine ⟨a, x :: pre, po, by simp [e], by simp, ?_, d⟩
            intro c hc
            rw [List.getLast?_cons] at hc
            cases hp : pre.getLast? with
            | none => exact absurd (List.getLast?_eq_none_iff.1 hp) hn
            | some y => rw [hp] at hc; exact b c (by simpa [hp] using hc)
      case isFalse hx =>
        simp only [List.headD_cons, List.tail_cons]
        refine ⟨⟨?_, post, by rw [List.cons_append, ← h2], h3⟩, ?_⟩
        · intro c hc
          rcases List.mem_cons.1 hc with rfl | hc
          · exact hx
          · exact h1 c hc
        · intro w hw
          obtain ⟨a, pre, po, e, hn, b, d⟩ := h4 w hw
          refine ⟨a, x :: pre, po, by simp [e], by simp, ?_, d⟩
          intro c hc
          rw [List.getLast?_cons] at hc
          cases hp : pre.getLast? with
          | none => exact absurd (List.getLast?_eq_none_iff.1 hp) hn
          | some y => rw [hp] at hc; exact b c (by simpa [hp] using hc)
  intro w hw
  obtain ⟨⟨h1, post, h2, h3⟩, h4⟩ := key s
  cases h : (splitOn 9 s).flatMap (splitOn 32) with
  | nil => exact absurd h (pieces_ne_nil s)
  | cons v vs =>
    rw [h] at h1 h2 h4 hw
    rcases List.mem_cons.1 hw with rfl | hw
    · exact ⟨h1, [], post, by simpa using h2, by simp, h3⟩
    · obtain ⟨a, pre, po, e, -, b, d⟩ := h4 w hw
      exact ⟨a, pre, po, e, b, d⟩

theorem mem_tokens {w s : Str} : w ∈ tokens s ↔ IsWord w s := by
  constructor
  · intro h
    rw [tokens, List.mem_filter] at h
    obtain ⟨a, b⟩ := mem_pieces w h.1
    exact ⟨by simpa using h.2, a, b⟩
  · rintro ⟨hne, hw, pre, post, rfl, hpre, hpost⟩
    have hmid : w ∈ tokens (w ++ post) := by
      cases post with
      | nil => simp [tokens_whole hne hw]
      | cons c q => rw [tokens_append w (hpost c rfl), tokens_whole hne hw]; simp
    rcases List.eq_nil_or_concat pre with rfl | ⟨p, c, rfl⟩
    · simpa using hmid
    · have : p.concat c ++ w ++ post = p ++ c :: (w ++ post) := by simp
      rw [this, tokens_append p (hpre c (by simp))]
      exact List.mem_append_right _ hmid

theorem allSome_none {α : Type} : ∀ {l : List (Option α)}, allSome l = none ↔ none ∈ l
  | [] => by simp [allSome]
  | none :: l => by simp [allSome]
  | some a :: l => by simp [allSome, allSome_none (l := l)]

end Nisaba.RewriteTester
