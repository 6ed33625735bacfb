import Verif.Model.UniTsv
import Verif.Props.UnicodeStrings
import Verif.Lemmas.RewriteTester
/-!
# C124: tables made from Unicode names
-/
namespace Nisaba.Props

open Nisaba.UniStr Nisaba.UniTsv UniStrSpec

/-- The rows of a table as grammars read it: lines that are not empty and no comments, and in them one or two
fields between tabs. -/
def tsvTableRows (file : List Nat) : List (List (List Nat)) :=
  ((RewriteTester.splitOn 10 file).filter fun l => l ≠ [] ∧ l.head? ≠ some 35).map (RewriteTester.splitOn 9)

/-- The fields of a conversion. -/
def tsvRowOf (p : List Nat × Option (List Nat)) : List (List Nat) := p.1 :: p.2.toList

/-- A text that a field can hold. -/
def TsvClean (s : List Nat) : Prop := 9 ∉ s ∧ 10 ∉ s

/-- The strings of an item can be fields, and the first does not look like a comment. -/
def TsvCleanRow (p : List Nat × Option (List Nat)) : Prop :=
  TsvClean p.1 ∧ p.1.head? ≠ some 35 ∧ ∀ d, p.2 = some d → TsvClean d

namespace UniTsvAux

theorem left_of {α β : Type} {R : α → β → Prop} {l : List α} {l' : List β} (h : List.Forall₂ R l l') :
    ∀ a ∈ l, ∃ b, R a b := by
  induction h with
  | nil => simp
  | cons h1 _ ih => exact fun it hit => (List.mem_cons.1 hit).elim (fun q => q ▸ ⟨_, h1⟩) (ih it)

theorem right_of {α β : Type} {R : α → β → Prop} {l : List α} {l' : List β} (h : List.Forall₂ R l l') :
    ∀ b ∈ l', ∃ a, R a b := by
  induction h with
  | nil => simp
  | cons h1 _ ih => exact fun it hit => (List.mem_cons.1 hit).elim (fun q => q ▸ ⟨_, h1⟩) (ih it)

variable {db : Db} {set : List Name → List Name}

theorem spells_ne : ∀ {ps ns : List Name} {s : List Nat}, Spells db ps ns s → ns ≠ [] → s ≠ []
  | _, [], _, _, h => absurd rfl h
  | _, _ :: _, [], h, _ => by simp [Spells] at h
  | _, _ :: _, _ :: _, _, _ => by simp

theorem stands_ne {ps us : List Name} {raw s : List Nat} (h : Stands db ps us raw s) : s ≠ [] := by
  rcases h with ⟨_, h, rfl⟩ | ⟨h1, h2, _⟩
  · exact h
  · exact spells_ne h2 h1

theorem convert_ne {ps ts : List Name} {it : Item} {s : List Nat} {d : Option (List Nat)}
    (h : convertItem db set ps ts it = .ok (s, d)) : s ≠ [] ∧ ∀ t, d = some t → t ≠ [] := by
  obtain ⟨h1, h2⟩ := (C29_convert ..).1 h
  refine ⟨stands_ne h1, fun t ht => ?_⟩
  rcases h2 with ⟨_, _, h⟩ | ⟨_, t', h, h3⟩
  · simp [h] at ht
  · rw [ht, Option.some.injEq] at h
    exact h ▸ stands_ne h3

theorem line_eq {s : List Nat} {d : Option (List Nat)} (h : ∀ t, d = some t → t ≠ []) :
    line s d = [9].intercalate (tsvRowOf (s, d)) ++ [10] := by
  cases d with
  | none => simp [line, tsvRowOf, List.intercalate]
  | some t =>
    cases t with
    | nil => exact absurd rfl (h [] rfl)
    | cons c cs => simp [line, tsvRowOf, List.intercalate]

theorem loop_ok {m : Message} : ∀ {its : List Item} {i : Nat} {file : List Nat}
    {rs : List (List Nat × Option (List Nat))},
    List.Forall₂ (fun it r => convertItem db set m.prefixes m.toPrefixes it = .ok r) its rs → ∀ rest,
    loop db set m i file (its ++ rest) = loop db set m (i + its.length) (file ++ rs.flatMap fun r => line r.1 r.2) rest
  | [], i, file, [], _, rest => by simp
  | it :: its, i, file, r :: rs, .cons h1 h2, rest => by
    rw [List.cons_append, loop, h1]
    simp only
    rw [loop_ok h2 rest]
    congr 1
    · simp; omega
    · simp

/-- Where the loop ends. -/
theorem loop_cases (m : Message) : ∀ (its : List Item),
    (∃ rs, List.Forall₂ (fun it r => convertItem db set m.prefixes m.toPrefixes it = .ok r) its rs) ∨
    ∃ a x b rs e, its = a ++ x :: b ∧
      List.Forall₂ (fun it r => convertItem db set m.prefixes m.toPrefixes it = .ok r) a rs ∧
      convertItem db set m.prefixes m.toPrefixes x = .error e
  | [] => .inl ⟨[], .nil⟩
  | it :: its => by
    cases h : convertItem db set m.prefixes m.toPrefixes it with
    | error e => exact .inr ⟨[], it, its, [], e, rfl, .nil, h⟩
    | ok r =>
      rcases loop_cases m its with ⟨rs, h1⟩ | ⟨a, x, b, rs, e, h1, h2, h3⟩
      · exact .inl ⟨r :: rs, .cons h h1⟩
      · exact .inr ⟨it :: a, x, b, r :: rs, e, by rw [h1]; rfl, .cons h h2, h3⟩

theorem splitOn_lines : ∀ (ls : List (List Nat)), (∀ l ∈ ls, 10 ∉ l) →
    RewriteTester.splitOn 10 (ls.flatMap fun l => l ++ [10]) = ls ++ [[]]
  | [], _ => by simp [RewriteTester.splitOn]
  | l :: ls, h => by
    have : (l :: ls).flatMap (fun l => l ++ [10]) = l ++ 10 :: ls.flatMap fun l => l ++ [10] := by simp
    rw [this, RewriteTester.splitOn_append (h l (by simp)), splitOn_lines ls fun v hv => h v (by simp [hv])]
    rfl

theorem intercalate_clean {p : List Nat × Option (List Nat)} (h : TsvCleanRow p) (hne : p.1 ≠ []) :
    10 ∉ [9].intercalate (tsvRowOf p) ∧ [9].intercalate (tsvRowOf p) ≠ [] ∧
    ([9].intercalate (tsvRowOf p)).head? ≠ some 35 ∧
    RewriteTester.splitOn 9 ([9].intercalate (tsvRowOf p)) = tsvRowOf p := by
  obtain ⟨s, d⟩ := p
  obtain ⟨⟨h1, h2⟩, h3, h4⟩ := h
  simp only at h1 h2 h3 h4 hne
  refine ⟨?_, ?_, ?_, ?_⟩
  · cases d with
    | none => simpa [tsvRowOf, List.intercalate] using h2
    | some t => simpa [tsvRowOf, List.intercalate, h2] using (h4 t rfl).2
  · cases d <;> simp [tsvRowOf, List.intercalate, hne]
  · cases s with
    | nil => exact absurd rfl hne
    | cons c s => cases d <;> simpa [tsvRowOf, List.intercalate] using h3
  · refine RewriteTester.splitOn_intercalate 9 s d.toList fun v hv => ?_
    rcases List.mem_cons.1 hv with rfl | hv
    · exact h1
    · exact (h4 v (by simpa using hv)).1

theorem rows_of {m : Message} {its : List Item} {rs : List (List Nat × Option (List Nat))}
    (h : List.Forall₂ (fun it r => convertItem db set m.prefixes m.toPrefixes it = .ok r) its rs)
    (hc : ∀ r ∈ rs, TsvCleanRow r) : tsvTableRows (header ++ rs.flatMap fun r => line r.1 r.2) = rs.map tsvRowOf := by
  have hne : ∀ r ∈ rs, r.1 ≠ [] ∧ ∀ t, r.2 = some t → t ≠ [] := by
    intro r hr
    obtain ⟨it, h1⟩ := right_of h r hr
    exact convert_ne h1
  have e1 : header ++ rs.flatMap (fun r => line r.1 r.2) =
      (header.dropLast :: rs.map fun r => [9].intercalate (tsvRowOf r)).flatMap fun l => l ++ [10] := by
    have hh : header = header.dropLast ++ [10] := by simp [header]
    rw [List.flatMap_cons, ← hh, List.flatMap_map]
    congr 1
    simp only [List.flatMap]
    congr 1
    refine List.map_congr_left fun r hr => ?_
    exact line_eq (hne r hr).2
  have hh : 10 ∉ header.dropLast ∧ header.dropLast.head? = some 35 := by decide +kernel
  rw [tsvTableRows, e1, splitOn_lines]
  · rw [List.cons_append, List.filter_cons_of_neg (by simp [hh.2]), List.filter_append,
      List.filter_eq_self.2, List.map_append, List.map_map]
    · have : ([[]] : List (List Nat)).filter (fun l => l ≠ [] ∧ l.head? ≠ some 35) = [] := by decide
      rw [this, List.map_nil, List.append_nil]
      exact List.map_congr_left fun r hr => (intercalate_clean (hc r hr) (hne r hr).1).2.2.2
    · intro l hl
      obtain ⟨r, hr, rfl⟩ := List.mem_map.1 hl
      have := intercalate_clean (hc r hr) (hne r hr).1
      simp [this.2.1, this.2.2.1]
  · intro l hl
    rcases List.mem_cons.1 hl with rfl | hl
    · exact hh.1
    · obtain ⟨r, hr, rfl⟩ := List.mem_map.1 hl
      exact (intercalate_clean (hc r hr) (hne r hr).1).1

end UniTsvAux

open UniTsvAux

/-- C124: the table is complete exactly if every item can be converted, and it has then exactly one row for
each item, in order, with the strings that the item stands for. -/
theorem C124_table_partial (db : Db) (set : List Name → List Name) (m : Message) :
    ((convertFile db set m).2 = .done ↔
      ∀ it ∈ m.items, ∃ r, convertItem db set m.prefixes m.toPrefixes it = .ok r) ∧
    ((convertFile db set m).2 = .done → ∃ rs,
      List.Forall₂ (fun it r => convertItem db set m.prefixes m.toPrefixes it = .ok r) m.items rs ∧
      ((∀ r ∈ rs, TsvCleanRow r) → tsvTableRows (convertFile db set m).1 = rs.map tsvRowOf)) := by
  rcases loop_cases (db := db) (set := set) m m.items with ⟨rs, h⟩ | ⟨a, x, b, rs, e, h1, h2, h3⟩
  · have e := loop_ok h (i := 0) (file := header) []
    rw [List.append_nil, loop] at e
    have hall : ∀ it ∈ m.items, ∃ r, convertItem db set m.prefixes m.toPrefixes it = .ok r := left_of h
    rw [convertFile, e]
    exact ⟨⟨fun _ => hall, fun _ => rfl⟩, fun _ => ⟨rs, h, fun hc => rows_of h hc⟩⟩
  · have e' := loop_ok h2 (i := 0) (file := header) (x :: b)
    rw [← h1, loop, h3] at e'
    have hn : (convertFile db set m).2 ≠ .done := by
      rw [convertFile, e']
      cases e <;> simp
    refine ⟨⟨fun h => absurd h hn, fun h => ?_⟩, fun h => absurd h hn⟩
    obtain ⟨r, hr⟩ := h x (by rw [h1]; simp)
    rw [h3] at hr
    simp at hr

/-- C124: a failure names the first item that cannot be converted, and the file that is left behind has the
rows of the items before it. -/
theorem C124_failure (db : Db) (set : List Name → List Name) (m : Message) (i : Nat)
    (h : (convertFile db set m).2 = .lookupFailed i) :
    ∃ a x b rs, m.items = a ++ x :: b ∧ a.length = i ∧
      List.Forall₂ (fun it r => convertItem db set m.prefixes m.toPrefixes it = .ok r) a rs ∧
      convertItem db set m.prefixes m.toPrefixes x = .error .value ∧
      ((∀ r ∈ rs, TsvCleanRow r) → tsvTableRows (convertFile db set m).1 = rs.map tsvRowOf) := by
  rcases loop_cases (db := db) (set := set) m m.items with ⟨rs, h'⟩ | ⟨a, x, b, rs, e, h1, h2, h3⟩
  · have e := loop_ok h' (i := 0) (file := header) []
    rw [List.append_nil, loop] at e
    rw [convertFile, e] at h
    simp at h
  · have e' := loop_ok h2 (i := 0) (file := header) (x :: b)
    rw [← h1, loop, h3] at e'
    rw [convertFile, e'] at h ⊢
    cases e with
    | type => simp at h
    | value =>
      simp only [Outcome.lookupFailed.injEq] at h
      exact ⟨a, x, b, rs, h1, by omega, h2, h3, fun hc => rows_of h2 hc⟩

/-- Every character that has a name, or an alias of a name, and is no control character has a name. -/
def AllNamed (db : Db) : Prop := ∀ p s c, Names db p s c → (db.name c).isSome = true

namespace UniTsvAux

variable {db : Db} {set : List Name → List Name}

theorem spells_named (hn : AllNamed db) : ∀ {ps ns : List Name} {s : List Nat}, Spells db ps ns s →
    ∀ c ∈ s, (db.name c).isSome = true
  | _, [], [], _ => by simp
  | _, [], _ :: _, h => by simp [Spells] at h
  | _, _ :: _, [], h => by simp [Spells] at h
  | _, _ :: _, _ :: _, h => by
    intro c hc
    rcases List.mem_cons.1 hc with rfl | hc
    · obtain ⟨_, _, _, _, h1, _⟩ := h.1
      exact hn _ _ _ h1
    · exact spells_named hn h.2 c hc

theorem stands_filled (hn : AllNamed db) {ps us : List Name} {raw s : List Nat} (h : Stands db ps us raw s) :
    Stands db ps us s s := by
  rcases h with ⟨h1, h2, h3⟩ | ⟨h1, h2, _⟩
  · exact .inl ⟨h1, h3 ▸ h2, rfl⟩
  · exact .inr ⟨h1, h2, .inr ⟨rfl, spells_named hn h2⟩⟩

theorem fillLoop_ok {α : Type} {f : α → Except Err α} : ∀ {l l' : List α},
    fillLoop f l = .ok l' ↔ List.Forall₂ (fun a b => f a = .ok b) l l'
  | [], l' => by
    simp only [fillLoop, Except.ok.injEq]
    constructor
    · rintro rfl; exact .nil
    · intro h; cases h; rfl
  | a :: l, l' => by
    have ih := fun l' => @fillLoop_ok α f l l'
    simp only [fillLoop]
    cases ha : f a with
    | error e => simp only [reduceCtorEq, false_iff]; intro h; cases h with | cons h1 _ => rw [ha] at h1; cases h1
    | ok b =>
      simp only
      cases hl : fillLoop f l with
      | error e =>
        simp only [reduceCtorEq, false_iff]
        intro h
        cases h with
        | cons _ h2 => rw [← ih, hl] at h2; cases h2
      | ok bs =>
        simp only [Except.ok.injEq]
        constructor
        · rintro rfl; exact .cons ha ((ih bs).1 hl)
        · intro h
          cases h with
          | cons h1 h2 =>
            rw [ha, Except.ok.injEq] at h1
            rw [← ih, hl, Except.ok.injEq] at h2
            rw [h1, h2]

theorem fillItem_ok {m : Message} {a b : Item} (h : fillItem db set m a = .ok b) :
    convertItem db set m.prefixes m.toPrefixes a = .ok (b.raw, some b.toRaw) ∧ b.uname = a.uname ∧
      b.toUname = a.toUname := by
  simp only [fillItem] at h
  split at h
  · rename_i h1
    cases h
    exact ⟨h1, rfl, rfl⟩
  · cases h
  · cases h

theorem convert_filled (hn : AllNamed db) {ps ts : List Name} {a b : Item}
    (h : convertItem db set ps ts a = .ok (b.raw, some b.toRaw)) (h1 : b.uname = a.uname)
    (h2 : b.toUname = a.toUname) : convertItem db set ps ts b = .ok (b.raw, some b.toRaw) := by
  obtain ⟨h3, h4⟩ := (C29_convert ..).1 h
  rw [C29_convert]
  refine ⟨h1 ▸ stands_filled hn h3, ?_⟩
  rcases h4 with ⟨_, _, h4⟩ | ⟨_, t, h4, h5⟩
  · simp at h4
  · rw [Option.some.injEq] at h4
    subst h4
    exact .inr ⟨.inr (stands_ne h5), _, rfl, h2 ▸ stands_filled hn h5⟩

end UniTsvAux

/-- C124: after `_fill_missing_raw` each item has the strings that it stands for and the names it had; filling
again changes nothing, and the table of the filled message is the same.  It succeeds exactly if every item can
be converted and is a mapping. -/
theorem C124_fill_partial (db : Db) (hn : AllNamed db) (set : List Name → List Name) (m : Message) :
    ((∃ m', fill db set m = .ok m') ↔
      ∀ it ∈ m.items, ∃ s d, convertItem db set m.prefixes m.toPrefixes it = .ok (s, some d)) ∧
    ∀ m', fill db set m = .ok m' →
      List.Forall₂ (fun a b => convertItem db set m.prefixes m.toPrefixes a = .ok (b.raw, some b.toRaw) ∧
        b.uname = a.uname ∧ b.toUname = a.toUname) m.items m'.items ∧
      fill db set m' = .ok m' ∧ convertFile db set m' = convertFile db set m := by
  constructor
  · constructor
    · rintro ⟨m', h⟩ it hit
      simp only [fill] at h
      split at h
      · cases h
      · rename_i its hl
        rw [fillLoop_ok] at hl
        obtain ⟨b, hb⟩ : ∃ b, fillItem db set m it = .ok b := left_of hl it hit
        exact ⟨_, _, (fillItem_ok hb).1⟩
    · intro h
      have key : ∀ l : List Item, (∀ it ∈ l, ∃ s d, convertItem db set m.prefixes m.toPrefixes it = .ok (s, some d)) →
          ∃ l', fillLoop (fillItem db set m) l = .ok l' := by
        intro l
        induction l with
        | nil => exact fun _ => ⟨[], rfl⟩
        | cons a l ih =>
          intro h
          obtain ⟨s, d, hs⟩ := h a (by simp)
          obtain ⟨l', hl⟩ := ih fun it hit => h it (by simp [hit])
          exact ⟨_, by rw [fillLoop, fillItem, hs]; simp only; rw [hl]⟩
      obtain ⟨l', hl⟩ := key _ h
      exact ⟨_, by rw [fill, hl]⟩
  · intro m' h
    simp only [fill] at h
    split at h
    · cases h
    · rename_i its hl
      cases h
      rw [fillLoop_ok] at hl
      have h1 := hl.imp fun a b hab => fillItem_ok hab
      have h2 : ∀ b ∈ its, convertItem db set m.prefixes m.toPrefixes b = .ok (b.raw, some b.toRaw) := by
        intro b hb
        obtain ⟨a, h⟩ := right_of h1 b hb
        exact convert_filled hn h.1 h.2.1 h.2.2
      refine ⟨h1, ?_, ?_⟩
      · have : fillLoop (fillItem db set { m with items := its }) its = .ok its := by
          rw [fillLoop_ok]
          refine List.forall₂_same.2 fun b hb => ?_
          rw [fillItem, h2 b hb]
        rw [fill, this]
      · have e1 : List.Forall₂ (fun it r => convertItem db set m.prefixes m.toPrefixes it = .ok r) m.items
            (its.map fun b => (b.raw, some b.toRaw)) := List.forall₂_map_right_iff.2 (h1.imp fun a b hab => hab.1)
        have e2 : List.Forall₂ (fun it r => convertItem db set m.prefixes m.toPrefixes it = .ok r) its
            (its.map fun b => (b.raw, some b.toRaw)) :=
          List.forall₂_map_right_iff.2 (List.forall₂_same.2 fun b hb => h2 b hb)
        have e3 := loop_ok e1 (i := 0) (file := header) []
        have e4 := loop_ok (m := { m with items := its }) e2 (i := 0) (file := header) []
        rw [List.append_nil, loop] at e3 e4
        rw [convertFile, convertFile, e3, e4]

/-- C124 is violated by items that are no mappings, as unicode_strings.proto allows them: the table has a row
for each, but `_fill_missing_raw` fails on them. -/
theorem C124_fill_violated (db : Db) (set : List Name → List Name) (m : Message) (it : Item) (hit : it ∈ m.items)
    (h : it.toUname = [] ∧ it.toRaw = []) : ∃ e, fill db set m = .error e := by
  cases hf : fill db set m with
  | error e => exact ⟨e, rfl⟩
  | ok m' =>
    exfalso
    simp only [fill] at hf
    split at hf
    · cases hf
    · rename_i its hl
      rw [fillLoop_ok] at hl
      obtain ⟨b, hb⟩ : ∃ b, fillItem db set m it = .ok b := left_of hl it hit
      obtain ⟨_, h3⟩ := (C29_convert ..).1 (fillItem_ok hb).1
      rcases h3 with ⟨_, _, h3⟩ | ⟨h3, _⟩
      · simp at h3
      · simp [h.1, h.2] at h3

/-- C124: after `_fill_missing_raw` of letter_languages.py every letter has the string that it stands for, its
names and its languages; filling again changes nothing. -/
theorem C124_letters (db : Db) (hn : AllNamed db) (set : List Name → List Name) (prefixes : List Name)
    (ls ls' : List Letter) (h : fillLetters db set prefixes ls = .ok ls') :
    List.Forall₂ (fun a b => Stands db (set prefixes) a.letter.uname a.letter.raw b.letter.raw ∧
      b.letter = { a.letter with raw := b.letter.raw } ∧ b.languages = a.languages) ls ls' ∧
    fillLetters db set prefixes ls' = .ok ls' := by
  rw [fillLetters, fillLoop_ok] at h
  have key : ∀ a b : Letter, fillLetter db set prefixes a = .ok b →
      (Stands db (set prefixes) a.letter.uname a.letter.raw b.letter.raw ∧
      b.letter = { a.letter with raw := b.letter.raw } ∧ b.languages = a.languages) ∧
      fillLetter db set prefixes b = .ok b := by
    intro a b hab
    simp only [fillLetter] at hab
    split at hab
    · rename_i s d hs
      cases hab
      obtain ⟨h1, h2⟩ := (C29_convert ..).1 hs
      refine ⟨⟨h1, rfl, rfl⟩, ?_⟩
      have : convertItem db set prefixes [] { a.letter with raw := s } = .ok (s, d) := by
        rw [C29_convert]
        exact ⟨stands_filled hn h1, h2⟩
      rw [fillLetter, this]
    · cases hab
  refine ⟨h.imp fun a b hab => (key a b hab).1, ?_⟩
  rw [fillLetters, fillLoop_ok]
  refine List.forall₂_same.2 fun b hb => ?_
  obtain ⟨a, ha⟩ := right_of h b hb
  exact (key a b ha).2

/-! ## Examples -/

/-- A message with a mapping, an item that is no mapping and one that cannot be converted. -/
def exampleMessage : Message where
  prefixes := [[88]]
  toPrefixes := []
  items := [⟨[[65], [66]], [], [], [117]⟩, ⟨[], [118], [], []⟩, ⟨[[90]], [], [], []⟩]

example : (convertFile exampleDb id exampleMessage).2 = .lookupFailed 2 ∧
    tsvTableRows (convertFile exampleDb id exampleMessage).1 = [[[1, 2], [117]], [[118]]] := by decide +kernel

example : TsvCleanRow ([1, 2], some [117]) := ⟨⟨by decide, by decide⟩, by decide, by simp [TsvClean]⟩

example : (convertFile exampleDb id { exampleMessage with items := exampleMessage.items.take 2 }).2 = .done ∧
    fill exampleDb id { exampleMessage with items := exampleMessage.items.take 1 } =
      .ok { exampleMessage with items := [⟨[[65], [66]], [1, 2], [], [117]⟩] } := by
  refine ⟨by decide +kernel, rfl⟩

/-- The database of the examples meets the hypothesis of `C124_fill_partial` and `C124_letters`. -/
example : AllNamed exampleDb := by
  rintro p s c ⟨h, hc⟩
  simp only [exampleDb] at h hc ⊢
  split at h
  · simp at h; subst h; rfl
  · split at h
    · simp at h; subst h; rfl
    · split at h
      · simp at h; subst h; rfl
      · split at h
        · simp at h; subst h; simp at hc
        · split at h
          · simp at h
          · cases h

end Nisaba.Props
