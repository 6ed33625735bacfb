import Verif.Lemmas.WfGraph
import Verif.Props.Wellformed
/-!
# Well-formed text as the paths of a token graph
-/
namespace Nisaba

/-- Nodes behind the inherent vowel. -/
def wfRest (noInherent : Bool) : List Nat := bif noInherent then [] else [4, 5, 6, 0]

/-- Nodes: 0 between orthographic syllables, 1 behind a consonant, 2 behind its subjoined
consonant, 3 inside a cluster behind a virama, 4 behind a vowel, 5 behind a vowel length sign,
6 behind a coda, 7 behind a final virama. -/
def wfEps (noInherent : Bool) : Nat → List Nat
  | 0 => [0]
  | 1 => 1 :: 2 :: wfRest noInherent
  | 2 => 2 :: wfRest noInherent
  | 3 => [3]
  | 4 => [4, 5, 6, 0]
  | 5 => [5, 6, 0]
  | 6 => [6, 0]
  | 7 => [7, 0]
  | n => [n]

/-- Edges; `join` are further entries that link consonants, `final` further entries that end a
cluster. -/
def wfOut (d : BrahmicData) (join final : List Rule) : Nat → List (List Rule × Nat)
  | 0 => [(d.vowel, 4), (d.consonant, 1), (d.standalone, 0), (d.accept, 0)]
  | 1 => [(d.subjoined, 2)]
  | 2 => [(d.virama, 3), (d.preserve, 3), (join, 3), (d.vowelSign, 4), (d.virama, 7), (final, 7)]
  | 3 => [(d.consonant, 1)]
  | 4 => [(d.vowelLength, 5)]
  | 5 => [(d.coda, 6)]
  | 6 => [(d.deadConsonant, 0)]
  | 7 => [(d.deadConsonant, 0)]
  | _ => []

/-- The graph of well-formed text (with no further entries), see `wellFormed_iff_acc`. -/
def wfGram (d : BrahmicData) (join final : List Rule) : Gram :=
  ⟨wfEps d.noInherentVowel, wfOut d join final⟩

/-- No table entry is empty. -/
def entriesNonempty (d : BrahmicData) : Bool :=
  [d.vowel, d.consonant, d.standalone, d.accept, d.subjoined, d.virama, d.preserve, d.vowelSign,
    d.vowelLength, d.coda, d.deadConsonant, invRows d.preserve].all fun t => t.all fun p => !p.1.isEmpty

theorem entriesNonempty_mem {d : BrahmicData} (h : entriesNonempty d = true) {t : List Rule}
    (ht : t ∈ [d.vowel, d.consonant, d.standalone, d.accept, d.subjoined, d.virama, d.preserve,
      d.vowelSign, d.vowelLength, d.coda, d.deadConsonant, invRows d.preserve]) : LhsNonempty t := by
  intro p hp hnil
  have := List.all_eq_true.1 (List.all_eq_true.1 h t ht) p hp
  simp [hnil] at this

theorem wfEps_trans (b : Bool) {n m k : Nat} (h1 : m ∈ wfEps b n) (h2 : k ∈ wfEps b m) :
    k ∈ wfEps b n := by
  have key : ∀ n ∈ [0, 1, 2, 3, 4, 5, 6, 7], ∀ m ∈ wfEps b n, ∀ k ∈ wfEps b m, k ∈ wfEps b n := by
    cases b <;> decide
  by_cases hn : n < 8
  · refine key n ?_ m h1 k h2
    have : n = 0 ∨ n = 1 ∨ n = 2 ∨ n = 3 ∨ n = 4 ∨ n = 5 ∨ n = 6 ∨ n = 7 := by omega
    simpa using this
  · obtain ⟨j, rfl⟩ : ∃ j, n = j + 8 := ⟨n - 8, by omega⟩
    have : m = j + 8 := by simpa [wfEps] using h1
    subst this
    exact h2

theorem wfGram_closed {d : BrahmicData} (hd : entriesNonempty d = true) {join final : List Rule}
    (hj : LhsNonempty join) (hf : LhsNonempty final) : (wfGram d join final).Closed where
  refl := by
    intro n
    show n ∈ wfEps _ n
    unfold wfEps
    split <;> simp
  trans := wfEps_trans _
  nonempty := by
    intro n e p he hp
    have hm := @entriesNonempty_mem d hd
    simp only [wfGram] at he
    unfold wfOut at he
    split at he <;> simp only [List.mem_cons, List.not_mem_nil, or_false] at he
    · rcases he with rfl | rfl | rfl | rfl <;> exact hm (by simp) p hp
    · subst he; exact hm (by simp) p hp
    · rcases he with rfl | rfl | rfl | rfl | rfl | rfl
      · exact hm (by simp) p hp
      · exact hm (by simp) p hp
      · exact hj p hp
      · exact hm (by simp) p hp
      · exact hm (by simp) p hp
      · exact hf p hp
    all_goals first
      | (subst he; exact hm (by simp) p hp)
      | exact he.elim

theorem wfGram_bad (d : BrahmicData) (join final : List Rule) : (wfGram d join final).Bad 3 where
  eps := rfl
  notEps := by
    intro n hn
    show 3 ∉ wfEps _ n
    unfold wfEps wfRest
    split <;> cases d.noInherentVowel <;> simp_all
    all_goals omega
  leave := by
    intro e he
    simp only [wfGram, wfOut, List.mem_singleton] at he
    subst he; simp
  zero := by decide

/-- The nodes of the graph, without 3. -/
def wfNodes : List Nat := [0, 1, 2, 4, 5, 6, 7]

theorem wfGram_nodes (d : BrahmicData) (join final : List Rule) (n : Nat)
    (h : ∃ y, Acc (wfGram d join final) n y) (hn : n ≠ 3) : n ∈ wfNodes := by
  by_cases h8 : n < 8
  · have : n = 0 ∨ n = 1 ∨ n = 2 ∨ n = 4 ∨ n = 5 ∨ n = 6 ∨ n = 7 := by omega
    simpa [wfNodes] using this
  · obtain ⟨j, rfl⟩ : ∃ j, n = j + 8 := ⟨n - 8, by omega⟩
    obtain ⟨y, hy⟩ := h
    cases hy with
    | nil h0 => simp [wfGram, wfEps] at h0
    | cons h1 h2 _ _ =>
      simp only [wfGram, wfEps, List.mem_singleton] at h1
      subst h1
      simp [wfGram, wfOut] at h2

/-! ## Well-formed text is the language of the graph -/

open Props

section
variable {d : BrahmicData}

private theorem acc_opt {join final : List Rule} {n m : Nat} {t : List Rule} {o s : Str}
    (he : (t, m) ∈ wfOut d join final n) (hm : m ∈ wfEps d.noInherentVowel n)
    (hn : n ∈ wfEps d.noInherentVowel n) (ho : Props.Optional t o)
    (hs : Acc (wfGram d join final) m s) (hd : entriesNonempty d = true) (hj : LhsNonempty join)
    (hf : LhsNonempty final) :
    Acc (wfGram d join final) n (o ++ s) := by
  rcases ho with rfl | ⟨p, hp, rfl⟩
  · exact hs.eps (wfGram_closed hd hj hf) hm
  · exact Acc.cons (m := n) hn he hp hs

theorem acc_of_wellFormed (hd : entriesNonempty d = true) {join final : List Rule}
    (hj : LhsNonempty join) (hf : LhsNonempty final) {s : Str} (h : wellFormed d s) :
    Acc (wfGram d join final) 0 s := by
  rw [C16_grammar] at h
  obtain ⟨ps, rfl, hps⟩ := h
  have z0 : (0 : Nat) ∈ wfEps d.noInherentVowel 0 := by simp [wfEps]
  induction ps with
  | nil => exact Acc.nil z0
  | cons p ps ih =>
    rw [List.flatten_cons]
    have ih := ih fun q hq => hps q (List.mem_cons_of_mem _ hq)
    generalize ps.flatten = rest at ih
    have hG := wfGram_closed hd hj hf
    have dead6 : ∀ dead, Props.Optional d.deadConsonant dead →
        Acc (wfGram d join final) 6 (dead ++ rest) := fun dead h =>
      acc_opt (by simp [wfOut]) (by simp [wfEps]) (by simp [wfEps]) h ih hd hj hf
    have dead7 : ∀ dead, Props.Optional d.deadConsonant dead →
        Acc (wfGram d join final) 7 (dead ++ rest) := fun dead h =>
      acc_opt (by simp [wfOut]) (by simp [wfEps]) (by simp [wfEps]) h ih hd hj hf
    have tail4 : ∀ len coda dead, Props.Optional d.vowelLength len → Props.Optional d.coda coda →
        Props.Optional d.deadConsonant dead →
        Acc (wfGram d join final) 4 (len ++ (coda ++ (dead ++ rest))) := by
      intro len coda dead h1 h2 h3
      refine acc_opt (m := 5) (by simp [wfOut]) (by simp [wfEps]) (by simp [wfEps]) h1 ?_ hd hj hf
      refine acc_opt (m := 6) (by simp [wfOut]) (by simp [wfEps]) (by simp [wfEps]) h2 ?_ hd hj hf
      exact dead6 dead h3
    have cluster : ∀ cl, ClusterSpec d cl → ∀ z, Acc (wfGram d join final) 2 z →
        Acc (wfGram d join final) 0 (cl ++ z) ∧ Acc (wfGram d join final) 3 (cl ++ z) := by
      intro cl hcl
      have first : ∀ c sub z, Listed d.consonant c → Props.Optional d.subjoined sub →
          Acc (wfGram d join final) 2 z → Acc (wfGram d join final) 0 (c ++ (sub ++ z)) ∧
          Acc (wfGram d join final) 3 (c ++ (sub ++ z)) := by
        rintro c sub z ⟨r, hr, rfl⟩ hsub hz
        have h1 : Acc (wfGram d join final) 1 (sub ++ z) :=
          acc_opt (m := 2) (by simp [wfOut]) (by simp [wfEps]) (by simp [wfEps]) hsub hz hd hj hf
        exact ⟨Acc.cons (m := 0) (e := (d.consonant, 1)) z0 (by simp [wfGram, wfOut]) hr h1,
          Acc.cons (m := 3) (e := (d.consonant, 1)) (by simp [wfGram, wfEps])
            (by simp [wfGram, wfOut]) hr h1⟩
      induction hcl with
      | base c sub hc hs =>
        intro z hz
        rw [List.append_assoc]
        exact first c sub z hc hs hz
      | link c sub v rest' hc hs hv _ ih' =>
        intro z hz
        have h3 := (ih' z hz).2
        simp only [List.append_assoc]
        refine first c sub _ hc hs ?_
        rcases hv with ⟨r, hr, rfl⟩ | ⟨r, hr, rfl⟩
        · exact Acc.cons (m := 2) (e := (d.virama, 3)) (by simp [wfGram, wfEps])
            (by simp [wfGram, wfOut]) hr h3
        · exact Acc.cons (m := 2) (e := (d.preserve, 3)) (by simp [wfGram, wfEps])
            (by simp [wfGram, wfOut]) hr h3
    rcases hps p (List.mem_cons_self ..) with h | ⟨r, hr, rfl⟩ | ⟨r, hr, rfl⟩
    · cases h with
      | vowel v len coda dead hv h1 h2 h3 =>
        obtain ⟨r, hr, rfl⟩ := hv
        simp only [List.append_assoc]
        exact Acc.cons (m := 0) (e := (d.vowel, 4)) z0 (by simp [wfGram, wfOut]) hr
          (tail4 len coda dead h1 h2 h3)
      | syllable cl sign len coda dead hc ho hn h1 h2 h3 =>
        simp only [List.append_assoc]
        refine (cluster cl hc _ ?_).1
        have t4 := tail4 len coda dead h1 h2 h3
        by_cases hni : d.noInherentVowel = true
        · obtain ⟨r, hr, rfl⟩ := hn hni
          exact Acc.cons (m := 2) (e := (d.vowelSign, 4)) (by simp [wfGram, wfEps])
            (by simp [wfGram, wfOut]) hr t4
        · refine acc_opt (m := 4) (by simp [wfOut]) ?_ (by simp [wfEps]) ho t4 hd hj hf
          simp [wfEps, wfRest, Bool.eq_false_iff.2 hni]
      | virama cl v dead hc hv hdd =>
        obtain ⟨r, hr, rfl⟩ := hv
        simp only [List.append_assoc]
        refine (cluster cl hc _ ?_).1
        exact Acc.cons (m := 2) (e := (d.virama, 7)) (by simp [wfGram, wfEps])
          (by simp [wfGram, wfOut]) hr (dead7 dead hdd)
    · exact Acc.cons (m := 0) (e := (d.standalone, 0)) z0 (by simp [wfGram, wfOut]) hr ih
    · exact Acc.cons (m := 0) (e := (d.accept, 0)) z0 (by simp [wfGram, wfOut]) hr ih

/-- What follows a vowel. -/
private def Tail4 (d : BrahmicData) (y : Str) : Prop := ∃ len coda dead rest,
  y = len ++ (coda ++ (dead ++ rest)) ∧ Props.Optional d.vowelLength len ∧
    Props.Optional d.coda coda ∧ Props.Optional d.deadConsonant dead ∧ wellFormed d rest

/-- What follows a final virama or a coda. -/
private def Tail7 (d : BrahmicData) (y : Str) : Prop := ∃ dead rest,
  y = dead ++ rest ∧ Props.Optional d.deadConsonant dead ∧ wellFormed d rest

/-- What follows a cluster. -/
private def TailC (d : BrahmicData) (y : Str) : Prop :=
  (∃ sign z, y = sign ++ z ∧ Props.Optional d.vowelSign sign ∧
    (d.noInherentVowel = true → Listed d.vowelSign sign) ∧ Tail4 d z) ∨
  (∃ v z, y = v ++ z ∧ Listed d.virama v ∧ Tail7 d z)

/-- A cluster and what follows it. -/
private def Start (d : BrahmicData) (y : Str) : Prop := ∃ cl z, y = cl ++ z ∧ ClusterSpec d cl ∧ TailC d z

private theorem wellFormed_piece {p rest : Str} (h : AksharaSpec d p ∨ Listed d.standalone p ∨
    Listed d.accept p) (hr : wellFormed d rest) : wellFormed d (p ++ rest) := by
  rw [C16_grammar] at hr ⊢
  obtain ⟨ps, rfl, hps⟩ := hr
  refine ⟨p :: ps, rfl, fun q hq => ?_⟩
  rcases List.mem_cons.1 hq with rfl | hq
  · exact h
  · exact hps q hq

private theorem wellFormed_vowel {v y : Str} (hv : Listed d.vowel v) (hy : Tail4 d y) :
    wellFormed d (v ++ y) := by
  obtain ⟨len, coda, dead, rest, rfl, h1, h2, h3, h4⟩ := hy
  have := wellFormed_piece (Or.inl (AksharaSpec.vowel v len coda dead hv h1 h2 h3)) h4
  simpa only [List.append_assoc] using this

private theorem wellFormed_start {y : Str} (hy : Start d y) : wellFormed d y := by
  obtain ⟨cl, z, rfl, hc, h⟩ := hy
  rcases h with ⟨sign, z, rfl, h1, h2, len, coda, dead, rest, rfl, h3, h4, h5, h6⟩ |
    ⟨v, z, rfl, hv, dead, rest, rfl, h5, h6⟩
  · have := wellFormed_piece (Or.inl (AksharaSpec.syllable cl sign len coda dead hc h1 h2 h3 h4 h5)) h6
    simpa only [List.append_assoc] using this
  · have := wellFormed_piece (Or.inl (AksharaSpec.virama cl v dead hc hv h5)) h6
    simpa only [List.append_assoc] using this

/-- What can be read from the nodes. -/
private def Reads (d : BrahmicData) : Nat → Str → Prop
  | 0, y => wellFormed d y
  | 1, y => ∀ c, Listed d.consonant c → Start d (c ++ y)
  | 2, y => ∀ c sub, Listed d.consonant c → Props.Optional d.subjoined sub →
      Start d (c ++ (sub ++ y))
  | 3, y => Start d y
  | 4, y => Tail4 d y
  | 5, y => ∃ coda z, y = coda ++ z ∧ Props.Optional d.coda coda ∧ Tail7 d z
  | 6, y => Tail7 d y
  | 7, y => Tail7 d y
  | _, _ => False

private theorem reads_eps {n m : Nat} {y : Str} (hm : m ∈ wfEps d.noInherentVowel n)
    (hy : Reads d m y) (hbig : m < 8) : Reads d n y := by
  have r65 : Reads d 6 y → Reads d 5 y := fun h => ⟨[], y, rfl, Or.inl rfl, h⟩
  have r54 : Reads d 5 y → Reads d 4 y := by
    rintro ⟨coda, z, rfl, h, dead, rest, rfl, h3, h4⟩
    exact ⟨[], coda, dead, rest, rfl, Or.inl rfl, h, h3, h4⟩
  have r06 : Reads d 0 y → Reads d 6 y := fun h => ⟨[], y, rfl, Or.inl rfl, h⟩
  have r07 : Reads d 0 y → Reads d 7 y := fun h => ⟨[], y, rfl, Or.inl rfl, h⟩
  have r42 : d.noInherentVowel = false → Reads d 4 y → Reads d 2 y := by
    intro hn h c sub hc hs
    refine ⟨c ++ sub, y, by simp, ClusterSpec.base c sub hc hs, Or.inl ⟨[], y, rfl, Or.inl rfl, ?_, h⟩⟩
    intro e; rw [hn] at e; cases e
  have r21 : Reads d 2 y → Reads d 1 y := fun h c hc => by
    have := h c [] hc (Or.inl rfl)
    simpa using this
  by_cases hn : d.noInherentVowel = true
  · rw [hn] at hm
    unfold wfEps at hm
    split at hm <;> simp [wfRest] at hm
    · subst hm; exact hy
    · rcases hm with rfl | rfl
      · exact hy
      · exact r21 hy
    · subst hm; exact hy
    · subst hm; exact hy
    · rcases hm with rfl | rfl | rfl | rfl
      · exact hy
      · exact r54 hy
      · exact r54 (r65 hy)
      · exact r54 (r65 (r06 hy))
    · rcases hm with rfl | rfl | rfl
      · exact hy
      · exact r65 hy
      · exact r65 (r06 hy)
    · rcases hm with rfl | rfl
      · exact hy
      · exact r06 hy
    · rcases hm with rfl | rfl
      · exact hy
      · exact r07 hy
    · subst hm; exact hy
  · have hn := Bool.eq_false_iff.2 hn
    rw [hn] at hm
    unfold wfEps at hm
    split at hm <;> simp [wfRest] at hm
    · subst hm; exact hy
    · rcases hm with rfl | rfl | rfl | rfl | rfl | rfl
      · exact hy
      · exact r21 hy
      · exact r21 (r42 hn hy)
      · exact r21 (r42 hn (r54 hy))
      · exact r21 (r42 hn (r54 (r65 hy)))
      · exact r21 (r42 hn (r54 (r65 (r06 hy))))
    · rcases hm with rfl | rfl | rfl | rfl | rfl
      · exact hy
      · exact r42 hn hy
      · exact r42 hn (r54 hy)
      · exact r42 hn (r54 (r65 hy))
      · exact r42 hn (r54 (r65 (r06 hy)))
    · subst hm; exact hy
    · rcases hm with rfl | rfl | rfl | rfl
      · exact hy
      · exact r54 hy
      · exact r54 (r65 hy)
      · exact r54 (r65 (r06 hy))
    · rcases hm with rfl | rfl | rfl
      · exact hy
      · exact r65 hy
      · exact r65 (r06 hy)
    · rcases hm with rfl | rfl
      · exact hy
      · exact r06 hy
    · rcases hm with rfl | rfl
      · exact hy
      · exact r07 hy
    · subst hm; exact hy

private theorem reads_of_acc {n : Nat} {y : Str} (h : Acc (wfGram d [] []) n y) : Reads d n y := by
  induction h with
  | nil h0 => exact reads_eps (m := 0) h0 Lang.Star.nil (by omega)
  | @cons n m e p s hm he hp _ ih =>
    have hl : Listed e.1 p.1 := ⟨p, hp, rfl⟩
    have hlt : m < 8 := by
      rcases Nat.lt_or_ge m 8 with h | h
      · exact h
      · obtain ⟨j, rfl⟩ : ∃ j, m = j + 8 := ⟨m - 8, by omega⟩
        simp [wfGram, wfOut] at he
    refine reads_eps (m := m) hm ?_ hlt
    simp only [wfGram] at he
    unfold wfOut at he
    split at he <;> simp only [List.mem_cons, List.not_mem_nil, or_false] at he
    · rcases he with rfl | rfl | rfl | rfl
      · exact wellFormed_vowel hl ih
      · exact wellFormed_start (ih _ hl)
      · exact wellFormed_piece (Or.inr (Or.inl hl)) ih
      · exact wellFormed_piece (Or.inr (Or.inr hl)) ih
    · subst he
      exact fun c hc => ih c _ hc (Or.inr hl)
    · rcases he with rfl | rfl | rfl | rfl | rfl | rfl
      · intro c sub hc hs
        obtain ⟨cl, z, rfl, h1, h2⟩ := (ih : Start d s)
        exact ⟨c ++ sub ++ p.1 ++ cl, z, by simp, ClusterSpec.link c sub _ cl hc hs (Or.inl hl) h1, h2⟩
      · intro c sub hc hs
        obtain ⟨cl, z, rfl, h1, h2⟩ := (ih : Start d s)
        exact ⟨c ++ sub ++ p.1 ++ cl, z, by simp, ClusterSpec.link c sub _ cl hc hs (Or.inr hl) h1, h2⟩
      · simp at hp
      · intro c sub hc hs
        exact ⟨c ++ sub, p.1 ++ s, by simp, ClusterSpec.base c sub hc hs,
          Or.inl ⟨p.1, s, rfl, Or.inr hl, fun _ => hl, ih⟩⟩
      · intro c sub hc hs
        exact ⟨c ++ sub, p.1 ++ s, by simp, ClusterSpec.base c sub hc hs,
          Or.inr ⟨p.1, s, rfl, hl, ih⟩⟩
      · simp at hp
    · subst he
      exact ih _ hl
    · subst he
      obtain ⟨coda, z, rfl, h1, dead, rest, rfl, h2, h3⟩ := ih
      exact ⟨p.1, coda, dead, rest, rfl, Or.inr hl, h1, h2, h3⟩
    · subst he
      exact ⟨p.1, s, rfl, Or.inr hl, ih⟩
    · subst he
      exact ⟨p.1, s, rfl, Or.inr hl, ih⟩
    · subst he
      exact ⟨p.1, s, rfl, Or.inr hl, ih⟩

/-- Well-formed text is the language of the graph. -/
theorem wellFormed_iff_acc (hd : entriesNonempty d = true) (s : Str) :
    wellFormed d s ↔ Acc (wfGram d [] []) 0 s :=
  ⟨acc_of_wellFormed hd (by intro p hp; simp at hp) (by intro p hp; simp at hp),
    fun h => reads_of_acc h⟩

end


/-! ## Checks of the passes of the normalizers -/

/-- Rules that remove one of two equal characters. -/
def dedupRules (M : List Nat) : List Rule := M.map fun c => ([c, c], [c])

/-- The rules of a table in front of each entry of a second table. -/
def beforeRules (rules next : List Rule) : List Rule :=
  rules.flatMap fun p => next.map fun q => (p.1 ++ q.1, p.2 ++ q.1)

/-- The graph in which a preserved joiner sequence can end a cluster. -/
def looseGram (d : BrahmicData) : Gram := wfGram d [] d.preserve

/-- The same with the generated symbols of preserved sequences. -/
def markGram (d : BrahmicData) : Gram := wfGram d (invRows d.preserve) d.preserve

/-- The graph after the removal of the joiners. -/
def genGram (d : BrahmicData) : Gram := wfGram d (invRows d.preserve) []

/-- The rules of a table keep well-formed text. -/
def keepsWf (d : BrahmicData) (join final rules : List Rule) : Bool :=
  rulesOk (wfGram d join final) (places (wfGram d join final) 3 wfNodes) (fun _ => false) rules

theorem keepsWf_acc {d : BrahmicData} (hd : entriesNonempty d = true) {join final : List Rule}
    (hj : LhsNonempty join) (hf : LhsNonempty final) {rules : List Rule}
    (h : keepsWf d join final rules = true) : ∀ p ∈ rules, ∀ x y,
      Acc (wfGram d join final) 0 (x ++ (p.1 ++ y)) → Acc (wfGram d join final) 0 (x ++ (p.2 ++ y)) :=
  fun _ hp _ _ hxy => rulesOk_keeps (wfGram_closed hd hj hf) (wfGram_bad d join final)
    (wfGram_nodes d join final) h hp (fun _ _ => rfl) hxy

/-- All passes of visual normalization behind NFC. -/
def keepsCore (d : BrahmicData) : Bool :=
  keepsWf d [] d.preserve (dedupRules (joiners ++ d.marks)) &&
  (keepsWf d [] d.preserve d.visualRewrite &&
  (keepsWf d (invRows d.preserve) d.preserve (beforeRules d.preserve d.consonant) &&
  (keepsWf d (invRows d.preserve) d.preserve (joiners.map fun c => ([c], [])) &&
  (keepsWf d (invRows d.preserve) [] (invRows d.preserve) &&
   (d.preserve.all fun p => p.1.any isJoiner)))))

theorem lhsNonempty_nil : LhsNonempty [] := by intro p hp; simp at hp

section
variable {d : BrahmicData} (hd : entriesNonempty d = true)
include hd

theorem preserve_nonempty : LhsNonempty d.preserve := entriesNonempty_mem hd (by simp)
theorem inv_nonempty : LhsNonempty (invRows d.preserve) := entriesNonempty_mem hd (by simp)

/-- A rule file whose rules keep well-formed text. -/
theorem applyRules_wellFormed {rules : List Rule} (hne : LhsNonempty rules)
    (h : keepsWf d [] [] rules = true) {s : Str} (hs : wellFormed d s) :
    wellFormed d (applyRules rules s) := by
  rw [wellFormed_iff_acc hd] at hs ⊢
  exact applyRules_keeps (W := Acc (wfGram d [] []) 0) hne
    (keepsWf_acc hd lhsNonempty_nil lhsNonempty_nil h) hs

/-- Core visual normalization of a text in the loose sense gives a well-formed text. -/
theorem core_wellFormed (hok : visualOk d = true) (hne : LhsNonempty d.visualRewrite)
    (h : keepsCore d = true) {s : Str} (hs : Acc (looseGram d) 0 s)
    (hg : ∀ c ∈ coreVisual d (collapse (joiners ++ d.marks) s), ¬ generated c) :
    wellFormed d (coreVisual d (collapse (joiners ++ d.marks) s)) := by
  simp only [keepsCore, Bool.and_eq_true] at h
  obtain ⟨h1, h2, h3, h4, h5, h6⟩ := h
  have pn := preserve_nonempty hd
  have inn := inv_nonempty hd
  have a1 : Acc (looseGram d) 0 (collapse (joiners ++ d.marks) s) := by
    refine collapse_keeps (W := Acc (looseGram d) 0) ?_ [] s hs
    intro c hc x y
    exact keepsWf_acc hd lhsNonempty_nil pn h1 ([c, c], [c]) (List.mem_map_of_mem hc) x y
  have a2 : Acc (looseGram d) 0 (applyRules d.visualRewrite (collapse (joiners ++ d.marks) s)) :=
    applyRules_keeps (W := Acc (looseGram d) 0) hne (keepsWf_acc hd lhsNonempty_nil pn h2) a1
  unfold coreVisual at hg ⊢
  simp only at hg ⊢
  generalize applyRules d.visualRewrite (collapse (joiners ++ d.marks) s) = u at a2 hg ⊢
  have a3 : Acc (markGram d) 0 u := by
    refine Acc.mono (G := looseGram d) (H := markGram d) (ok := fun _ => True) (fun _ _ h => h) ?_ a2 (fun _ _ => trivial)
    intro n e p he hp _
    simp only [looseGram, wfGram] at he
    unfold wfOut at he
    split at he
    case h_3 =>
      simp only [List.mem_cons, List.not_mem_nil, or_false] at he
      rcases he with rfl | rfl | rfl | rfl | rfl | rfl
      · exact ⟨(d.virama, 3), by simp [markGram, wfGram, wfOut], p, hp, rfl, rfl⟩
      · exact ⟨(d.preserve, 3), by simp [markGram, wfGram, wfOut], p, hp, rfl, rfl⟩
      · simp at hp
      · exact ⟨(d.vowelSign, 4), by simp [markGram, wfGram, wfOut], p, hp, rfl, rfl⟩
      · exact ⟨(d.virama, 7), by simp [markGram, wfGram, wfOut], p, hp, rfl, rfl⟩
      · exact ⟨(d.preserve, 7), by simp [markGram, wfGram, wfOut], p, hp, rfl, rfl⟩
    all_goals exact ⟨e, by simpa [markGram, wfGram, wfOut] using he, p, hp, rfl, rfl⟩
  have a4 : Acc (markGram d) 0 (scanC (consCtx d) d.preserve [] 0 u) := by
    refine scanC_keeps (W := Acc (markGram d) 0) pn ?_ [] 0 u a3
    intro p hp x y _ hr hxy
    obtain ⟨c, hc, hcy⟩ := List.any_eq_true.1 hr
    obtain ⟨y', rfl⟩ := isPre_iff.1 hcy
    have := keepsWf_acc hd inn pn h3 (p.1 ++ c.1, p.2 ++ c.1)
      (List.mem_flatMap.2 ⟨p, hp, List.mem_map.2 ⟨c, hc, rfl⟩⟩) x y'
    simp only [List.append_assoc] at this
    exact this hxy
  generalize scanC (consCtx d) d.preserve [] 0 u = v at a4 hg ⊢
  have a5 : Acc (markGram d) 0 (v.filter fun c => !isJoiner c) := by
    refine filter_keeps (W := Acc (markGram d) 0) ?_ [] v a4
    intro c hc x y hxy
    have hj : c ∈ joiners := by
      simp only [isJoiner, Bool.not_eq_false', List.any_eq_true] at hc
      obtain ⟨b, hb, e⟩ := hc
      rw [Nat.eq_of_beq_eq_true e]; exact hb
    exact keepsWf_acc hd inn pn h4 ([c], []) (List.mem_map.2 ⟨c, hj, rfl⟩) x y hxy
  have a6 : Acc (genGram d) 0 (v.filter fun c => !isJoiner c) := by
    refine Acc.mono (G := markGram d) (H := genGram d) (ok := fun c => isJoiner c = false) (fun _ _ h => h) ?_ a5 ?_
    · intro n e p he hp hj
      simp only [markGram, wfGram] at he
      unfold wfOut at he
      split at he
      case h_3 =>
        simp only [List.mem_cons, List.not_mem_nil, or_false] at he
        rcases he with rfl | rfl | rfl | rfl | rfl | rfl
        · exact ⟨(d.virama, 3), by simp [genGram, wfGram, wfOut], p, hp, rfl, rfl⟩
        · exact ⟨(d.preserve, 3), by simp [genGram, wfGram, wfOut], p, hp, rfl, rfl⟩
        · exact ⟨(invRows d.preserve, 3), by simp [genGram, wfGram, wfOut], p, hp, rfl, rfl⟩
        · exact ⟨(d.vowelSign, 4), by simp [genGram, wfGram, wfOut], p, hp, rfl, rfl⟩
        · exact ⟨(d.virama, 7), by simp [genGram, wfGram, wfOut], p, hp, rfl, rfl⟩
        · obtain ⟨c, hc, hcj⟩ := List.any_eq_true.1 (List.all_eq_true.1 h6 p hp)
          rw [hj c hc] at hcj; cases hcj
      all_goals exact ⟨e, by simpa [genGram, wfGram, wfOut] using he, p, hp, rfl, rfl⟩
    · intro c hc
      simpa using (List.mem_filter.1 hc).2
  have a7 : Acc (genGram d) 0 (scan (invRows d.preserve) 0 (v.filter fun c => !isJoiner c)) :=
    scan_keeps (W := Acc (genGram d) 0) inn (keepsWf_acc hd inn lhsNonempty_nil h5) [] 0 _ a6
  rw [wellFormed_iff_acc hd]
  refine Acc.mono (G := genGram d) (H := wfGram d [] []) (ok := fun c => ¬ generated c) (fun _ _ h => h) ?_ a7 hg
  intro n e p he hp hj
  simp only [genGram, wfGram] at he
  unfold wfOut at he
  split at he
  case h_3 =>
    simp only [List.mem_cons, List.not_mem_nil, or_false] at he
    rcases he with rfl | rfl | rfl | rfl | rfl | rfl
    · exact ⟨(d.virama, 3), by simp [wfGram, wfOut], p, hp, rfl, rfl⟩
    · exact ⟨(d.preserve, 3), by simp [wfGram, wfOut], p, hp, rfl, rfl⟩
    · exfalso
      obtain ⟨_, _, g, hpg, hgen⟩ := visualOk_preserve hok (mem_invRows.1 hp)
      simp only at hpg
      exact hj g (by rw [hpg]; simp) hgen
    · exact ⟨(d.vowelSign, 4), by simp [wfGram, wfOut], p, hp, rfl, rfl⟩
    · exact ⟨(d.virama, 7), by simp [wfGram, wfOut], p, hp, rfl, rfl⟩
    · simp at hp
  all_goals exact ⟨e, by simpa [wfGram, wfOut] using he, p, hp, rfl, rfl⟩

end

end Nisaba
