import Verif.Model.SymTab
/-!
# Lemmas on symbol tables that are made at the first request
-/
namespace Nisaba.SymTab

open Nisaba.Grm2

/-! ## One table -/

theorem label_eq_none {t : Table} {s : Str} : t.label s = none ↔ t.entries.any (fun e => e.1 == s) = false := by
  simp [Table.label, List.find?_eq_none]

theorem any_of_label {t : Table} {s : Str} {l : Int} (h : t.label s = some l) :
    t.entries.any (fun e => e.1 == s) = true := by
  cases h' : t.entries.any (fun e => e.1 == s) with
  | true => rfl
  | false => rw [label_eq_none.2 h'] at h; simp at h

theorem add_prefix (t : Table) (s : Str) (k : Int) : t.entries <+: (t.add s k).entries := by
  unfold Table.add
  by_cases h1 : k = -1
  · simp [h1]
  · by_cases h2 : t.entries.any (fun e => e.1 == s) = true
    · rw [if_neg h1, if_pos h2]; exact List.prefix_rfl
    · rw [if_neg h1, if_neg h2]; exact List.prefix_append _ _

theorem label_mono {t u : Table} (h : t.entries <+: u.entries) {s : Str} {l : Int} (hl : t.label s = some l) :
    u.label s = some l := by
  obtain ⟨r, hr⟩ := h
  unfold Table.label at *
  rw [← hr, List.find?_append]
  cases hf : t.entries.find? (fun e => e.1 == s) with
  | none => rw [hf] at hl; simp at hl
  | some e => rw [hf] at hl; simpa using hl

theorem label_add {t : Table} {s : Str} {k : Int} (hk : k ≠ -1) (h : t.label s = none) :
    (t.add s k).label s = some k := by
  have h' := label_eq_none.1 h
  unfold Table.add
  rw [if_neg hk, if_neg (by rw [h']; simp)]
  unfold Table.label at *
  simp only [List.find?_append]
  have : t.entries.find? (fun e => e.1 == s) = none := by simpa using h
  simp [this]

theorem add_held {t : Table} {s : Str} {k l : Int} (h : t.label s = some l) : t.add s k = t := by
  unfold Table.add
  by_cases h1 : k = -1
  · simp [h1]
  · rw [if_neg h1, if_pos (any_of_label h)]

theorem label_of_add {t : Table} {s s' : Str} {k l : Int} (h : (t.add s k).label s' = some l) :
    t.label s' = some l ∨ s' = s ∧ l = k := by
  cases ht : t.label s' with
  | some l' =>
    have := label_mono (add_prefix t s k) ht
    rw [this] at h
    exact .inl h
  | none =>
    right
    unfold Table.add at h
    by_cases h1 : k = -1
    · rw [if_pos h1, ht] at h; simp at h
    · by_cases h2 : t.entries.any (fun e => e.1 == s) = true
      · rw [if_neg h1, if_pos h2, ht] at h; simp at h
      · rw [if_neg h1, if_neg h2] at h
        unfold Table.label at h ht
        simp only [List.find?_append] at h
        have hn : t.entries.find? (fun e => e.1 == s') = none := by simpa using ht
        rw [hn] at h
        by_cases hs : s = s'
        · subst hs; simp at h; exact ⟨rfl, h.symm⟩
        · simp [hs] at h

/-- What every table has that the builder makes. -/
structure Good (text : Nat → Str) (n : Nat) (t : Table) : Prop where
  pre : (List.range n).map (fun c => (text c, (c : Int))) <+: t.entries
  low : n ≤ t.dense
  high : t.dense ≤ t.entries.length

theorem Good.add {text : Nat → Str} {n : Nat} {t : Table} (h : Good text n t) (s : Str) (k : Int) :
    Good text n (t.add s k) := by
  refine ⟨h.pre.trans (add_prefix t s k), ?_, ?_⟩
  · have := h.low
    unfold Table.add
    split
    · exact this
    · split
      · exact this
      · exact Nat.le_trans this (by dsimp only; split <;> omega)
  · have := h.high
    unfold Table.add
    split
    · exact this
    · split
      · exact this
      · dsimp only
        rw [List.length_append, List.length_singleton]
        split <;> omega

theorem generate_eq {text : Nat → Str} : ∀ {n : Nat}, (∀ a b, a < n → b < n → text a = text b → a = b) →
    generate text n = ⟨(List.range n).map (fun c => (text c, (c : Int))), n⟩
  | 0, _ => rfl
  | n + 1, inj => by
    rw [generate, generate_eq (n := n) (fun a b ha hb => inj a b (by omega) (by omega))]
    unfold Table.add
    have h1 : ¬ ((n : Int) = -1) := by omega
    have h2 : ¬ (((List.range n).map (fun c => (text c, (c : Int)))).any (fun e => e.1 == text n) = true) := by
      simp only [List.any_map, List.any_eq_true, Function.comp, List.mem_range]
      rintro ⟨c, hc, he⟩
      have := inj c n (by omega) (by omega) (by simpa using he)
      omega
    rw [if_neg h1, if_neg h2]
    simp [List.range_succ]

theorem Good.generate {text : Nat → Str} {n : Nat} (inj : ∀ a b, a < n → b < n → text a = text b → a = b) :
    Good text n (generate text n) := by
  rw [generate_eq inj]
  exact ⟨List.prefix_rfl, Nat.le_refl _, by simp⟩

theorem Good.symbol {text : Nat → Str} {n : Nat} {t : Table} (h : Good text n t) {c : Nat} (hc : c < n) :
    t.symbol c = some (text c) := by
  obtain ⟨r, hr⟩ := h.pre
  have := h.low
  unfold Table.symbol
  rw [if_pos (by omega), ← hr]
  simp [List.getElem?_append, hc]

theorem label_generate {text : Nat → Str} {n : Nat} (inj : ∀ a b, a < n → b < n → text a = text b → a = b)
    (s : Str) (l : Int) :
    (SymTab.generate text n).label s = some l ↔ ∃ c, c < n ∧ s = text c ∧ l = c := by
  rw [generate_eq inj]
  constructor
  · intro h
    unfold Table.label at h
    simp only [Option.map_eq_some_iff] at h
    obtain ⟨e, he, hl⟩ := h
    have hm := List.mem_of_find?_eq_some he
    have hp := List.find?_some he
    simp only [List.mem_map, List.mem_range] at hm
    obtain ⟨c, hc, rfl⟩ := hm
    exact ⟨c, hc, by simpa using (beq_iff_eq.1 hp).symm, hl.symm⟩
  · rintro ⟨c, hc, rfl, rfl⟩
    unfold Table.label
    simp only [Option.map_eq_some_iff]
    cases hf : ((List.range n).map (fun c => (text c, (c : Int)))).find? (fun e => e.1 == text c) with
    | none =>
      rw [List.find?_eq_none] at hf
      exact absurd (beq_self_eq_true (text c))
        (hf (text c, (c : Int)) (List.mem_map.2 ⟨c, List.mem_range.2 hc, rfl⟩))
    | some e =>
      have hm := List.mem_of_find?_eq_some hf
      have hp := List.find?_some hf
      simp only [List.mem_map, List.mem_range] at hm
      obtain ⟨d, hd, rfl⟩ := hm
      have := inj d c hd hc (by simpa using hp)
      exact ⟨_, rfl, by simp [this]⟩

theorem Good.symbol_add {text : Nat → Str} {n : Nat} {t : Table} (h : Good text n t) {s : Str} {k : Int}
    (hk : k ≠ -1) (hs : t.label s = none) (hf : t.symbol k = none) : (t.add s k).symbol k = some s := by
  have hh := h.high
  have hnot : ¬ (0 ≤ k ∧ k < t.dense) := by
    intro hd
    unfold Table.symbol at hf
    rw [if_pos hd] at hf
    have : k.toNat < t.entries.length := by omega
    simp [List.getElem?_eq_getElem this] at hf
  unfold Table.add
  rw [if_neg hk, if_neg (by rw [label_eq_none.1 hs]; simp)]
  by_cases hd : k = t.entries.length ∧ k = t.dense
  · rw [if_pos hd]
    unfold Table.symbol
    show (if 0 ≤ k ∧ k < ((t.dense + 1 : Nat) : Int) then _ else _) = _
    rw [if_pos (by omega)]
    have : k.toNat = t.entries.length := by omega
    simp [this]
  · rw [if_neg hd]
    unfold Table.symbol
    show (if 0 ≤ k ∧ k < (t.dense : Int) then _ else _) = _
    rw [if_neg hnot]
    simp

theorem symbol_keep {t : Table} {s s' : Str} {k l : Int} (hl : l ≠ k) (hh : t.dense ≤ t.entries.length)
    (h : t.symbol l = some s') : (t.add s k).symbol l = some s' := by
  unfold Table.add
  by_cases h1 : k = -1
  · rw [if_pos h1]; exact h
  · by_cases h2 : t.entries.any (fun e => e.1 == s) = true
    · rw [if_neg h1, if_pos h2]; exact h
    · rw [if_neg h1, if_neg h2]
      unfold Table.symbol at h ⊢
      by_cases hd : 0 ≤ l ∧ l < t.dense
      · rw [if_pos hd] at h
        have hlt : l.toNat < t.entries.length := by omega
        have hd' : 0 ≤ l ∧ l < ((if k = t.entries.length ∧ k = t.dense then t.dense + 1 else t.dense : Nat) : Int) := by
          split <;> omega
        show (if 0 ≤ l ∧ l < _ then _ else _) = _
        rw [if_pos hd', List.getElem?_append_left hlt]
        exact h
      · rw [if_neg hd] at h
        have hd' : ¬ (0 ≤ l ∧ l < ((if k = t.entries.length ∧ k = t.dense then t.dense + 1 else t.dense : Nat) : Int)) := by
          split <;> omega
        show (if 0 ≤ l ∧ l < _ then _ else _) = _
        rw [if_neg hd']
        simpa [Ne.symm hl] using h

/-! ## Calls to one table -/

/-- A table that is made at the first request: `none` is a request, `some` an addition. -/
def play (g : Table) (o : Option Table) : List (Option (Str × Int)) → Option Table
  | [] => o
  | none :: cs => play g (some (o.getD g)) cs
  | some e :: cs => play g (o.map fun t => t.add e.1 e.2) cs

theorem play_append (g : Table) : ∀ (cs ds : List (Option (Str × Int))) (o : Option Table),
    play g o (cs ++ ds) = play g (play g o cs) ds
  | [], _, _ => rfl
  | none :: cs, ds, o => by simp only [List.cons_append, play]; exact play_append g cs ds _
  | some e :: cs, ds, o => by simp only [List.cons_append, play]; exact play_append g cs ds _

theorem play_good {text : Nat → Str} {n : Nat} {g : Table} (hg : Good text n g) :
    ∀ (cs : List (Option (Str × Int))) (o : Option Table), Good text n (o.getD g) →
      Good text n ((play g o cs).getD g)
  | [], _, h => h
  | none :: cs, o, h => play_good hg cs _ (by simpa using h)
  | some e :: cs, none, h => play_good hg cs _ (by simpa using h)
  | some e :: cs, some t, h => play_good hg cs _ (by simpa using h.add e.1 e.2)

theorem play_prefix {g : Table} : ∀ (cs : List (Option (Str × Int))) (o : Option Table),
    (o.getD g).entries <+: ((play g o cs).getD g).entries
  | [], _ => List.prefix_rfl
  | none :: cs, o => by simpa [play] using play_prefix (g := g) cs (some (o.getD g))
  | some e :: cs, none => by simpa [play] using play_prefix (g := g) cs none
  | some e :: cs, some t => by
    have := play_prefix (g := g) cs (some (t.add e.1 e.2))
    simp only [play, Option.map_some, Option.getD_some] at this ⊢
    exact (add_prefix t e.1 e.2).trans this

theorem play_some {g : Table} : ∀ (cs : List (Option (Str × Int))) (t : Table), ∃ u, play g (some t) cs = some u
  | [], t => ⟨t, rfl⟩
  | none :: cs, _ => play_some cs _
  | some _ :: cs, _ => play_some cs _

theorem play_made {g : Table} : ∀ (cs : List (Option (Str × Int))) (o : Option Table), none ∈ cs →
    ∃ u, play g o cs = some u
  | none :: cs, _, _ => play_some cs _
  | some _ :: cs, _, h => by
    have : none ∈ cs := by simpa using h
    exact play_made cs _ this

theorem play_unmade {g : Table} : ∀ (cs : List (Option (Str × Int))), none ∉ cs → play g none cs = none
  | [], _ => rfl
  | none :: _, h => absurd (List.mem_cons_self ..) h
  | some _ :: cs, h => play_unmade cs (fun hm => h (List.mem_cons_of_mem _ hm))

theorem play_only {g : Table} {s : Str} {l : Int} : ∀ (cs : List (Option (Str × Int))) (o : Option Table),
    ((play g o cs).getD g).label s = some l → (o.getD g).label s = some l ∨ some (s, l) ∈ cs
  | [], _, h => .inl h
  | none :: cs, o, h => by
    rcases play_only cs _ h with h | h
    · exact .inl (by simpa using h)
    · exact .inr (List.mem_cons_of_mem _ h)
  | some e :: cs, none, h => by
    rcases play_only cs _ h with h | h
    · exact .inl h
    · exact .inr (List.mem_cons_of_mem _ h)
  | some e :: cs, some t, h => by
    rcases play_only cs _ h with h | h
    · rcases label_of_add h with h | ⟨h1, h2⟩
      · exact .inl h
      · exact .inr (by rw [h1, h2]; exact List.mem_cons_self ..)
    · exact .inr (List.mem_cons_of_mem _ h)

theorem new_good {text : Nat → Str} {n : Nat} {g : Table} (hg : Good text n g) (cs : List (Option (Str × Int))) :
    Good text n ((play g none cs).getD g) := play_good hg cs none hg

theorem new_prefix {g : Table} (cs : List (Option (Str × Int))) : g.entries <+: ((play g none cs).getD g).entries :=
  play_prefix cs none

theorem new_only {g : Table} {s : Str} {l : Int} (cs : List (Option (Str × Int)))
    (h : ((play g none cs).getD g).label s = some l) : g.label s = some l ∨ some (s, l) ∈ cs :=
  play_only cs none h

theorem new_nil {g : Table} : (play g none []).getD g = g := rfl

/-! ## Calls to the builder -/

def toByte : Call → Option (Option (Str × Int))
  | .getByte => some none
  | .addByte s k => some (some (s, k))
  | _ => none

def toUtf8 : Call → Option (Option (Str × Int))
  | .getUtf8 => some none
  | .addUtf8 s k => some (some (s, k))
  | _ => none

theorem foldl_byte (nb nu : Nat) (calls : List Call) : ∀ b : Builder, (calls.foldl (Builder.call nb nu) b).byte =
    play (generate byteSymbol nb) b.byte (calls.filterMap toByte) := by
  induction calls with
  | nil => intro b; rfl
  | cons c cs ih =>
    intro b
    rw [List.foldl_cons, ih]
    cases c with
    | getByte =>
      show play _ _ _ = play _ b.byte (none :: cs.filterMap toByte)
      cases hb : b.byte <;> simp [Builder.call, Builder.getByte, hb, play]
    | getUtf8 =>
      show play _ _ _ = play _ b.byte (cs.filterMap toByte)
      cases hb : b.utf8 <;> simp [Builder.call, Builder.getUtf8, hb]
    | addByte s k =>
      show play _ _ _ = play _ b.byte (some (s, k) :: cs.filterMap toByte)
      cases hb : b.byte <;> simp [Builder.call, Builder.addByte, hb, play]
    | addUtf8 s k =>
      show play _ _ _ = play _ b.byte (cs.filterMap toByte)
      cases hb : b.utf8 <;> simp [Builder.call, Builder.addUtf8, hb]

theorem foldl_utf8 (nb nu : Nat) (calls : List Call) : ∀ b : Builder, (calls.foldl (Builder.call nb nu) b).utf8 =
    play (generate utf8Symbol nu) b.utf8 (calls.filterMap toUtf8) := by
  induction calls with
  | nil => intro b; rfl
  | cons c cs ih =>
    intro b
    rw [List.foldl_cons, ih]
    cases c with
    | getUtf8 =>
      show play _ _ _ = play _ b.utf8 (none :: cs.filterMap toUtf8)
      cases hb : b.utf8 <;> simp [Builder.call, Builder.getUtf8, hb, play]
    | getByte =>
      show play _ _ _ = play _ b.utf8 (cs.filterMap toUtf8)
      cases hb : b.byte <;> simp [Builder.call, Builder.getByte, hb]
    | addUtf8 s k =>
      show play _ _ _ = play _ b.utf8 (some (s, k) :: cs.filterMap toUtf8)
      cases hb : b.utf8 <;> simp [Builder.call, Builder.addUtf8, hb, play]
    | addByte s k =>
      show play _ _ _ = play _ b.utf8 (cs.filterMap toUtf8)
      cases hb : b.byte <;> simp [Builder.call, Builder.addByte, hb]

theorem getByte_eq (nb nu : Nat) (calls : List Call) : ((run nb nu calls).getByte nb).2 =
    (play (generate byteSymbol nb) none (calls.filterMap toByte)).getD (generate byteSymbol nb) := by
  have h := foldl_byte nb nu calls {}
  unfold run Builder.getByte
  cases hb : (calls.foldl (Builder.call nb nu) {}).byte with
  | none => rw [hb] at h; simp [← h]
  | some t => rw [hb] at h; simp [← h]

theorem getUtf8_eq (nb nu : Nat) (calls : List Call) : ((run nb nu calls).getUtf8 nu).2 =
    (play (generate utf8Symbol nu) none (calls.filterMap toUtf8)).getD (generate utf8Symbol nu) := by
  have h := foldl_utf8 nb nu calls {}
  unfold run Builder.getUtf8
  cases hb : (calls.foldl (Builder.call nb nu) {}).utf8 with
  | none => rw [hb] at h; simp [← h]
  | some t => rw [hb] at h; simp [← h]

theorem byteTable_eq (calls : List Call) : byteTable calls =
    (play (generate byteSymbol 256) none (calls.filterMap toByte)).getD (generate byteSymbol 256) :=
  getByte_eq 256 65536 calls

theorem utf8Table_eq (calls : List Call) : utf8Table calls =
    (play (generate utf8Symbol 65536) none (calls.filterMap toUtf8)).getD (generate utf8Symbol 65536) :=
  getUtf8_eq 256 65536 calls

end Nisaba.SymTab
