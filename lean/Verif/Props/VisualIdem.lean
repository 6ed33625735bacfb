import Verif.Lemmas.IdemGuru
import Verif.Lemmas.IdemTirh
import Verif.Lemmas.IdemRest
import Verif.Props.Visual
/-!
# Idempotence of Brahmic visual normalization (C14)

The property as stated is false for every script: joiners are removed after the visual rewrites,
so a rewrite (or a de-duplication) that a joiner had blocked applies only in the second pass.
-/
namespace Nisaba.Props

/-- A text of each script that a second normalization changes again. -/
def idemWitnesses : List (BrahmicData × Str) :=
  [(Data.beng, [0x0985, 0x200B, 0x09BE]),
   (Data.bugi, [0x1A17, 0x200B, 0x1A17]),
   (Data.deva, [0x0310, 0x0901]),
   (Data.gujr, [0x0A85, 0x0AC8, 0x0AC7]),
   (Data.guru, [0x0A05, 0x200B, 0x0A3E]),
   (Data.knda, [0x0C89, 0x200B, 0x0CBE]),
   (Data.lepc, [0x1C2E, 0x200B, 0x1C2E]),
   (Data.limb, [0x1928, 0x200B, 0x1928]),
   (Data.mlym, [0x0D07, 0x200B, 0x0D57]),
   (Data.mtei, [0xABE5, 0x200B, 0xABE5]),
   (Data.newa, [0x11400, 0x200B, 0x11435]),
   (Data.orya, [0x0B05, 0x200B, 0x0B3E]),
   (Data.sinh, [0x0D85, 0x200B, 0x0DCF]),
   (Data.sylo, [0xA806, 0x200B, 0xA806]),
   (Data.takr, [0x11680, 0x200B, 0x116AD]),
   (Data.taml, [0x0B82, 0x200B, 0x0B82]),
   (Data.telu, [0x0C12, 0x200B, 0x0C4C]),
   (Data.tglg, [0x1712, 0x200B, 0x1712]),
   (Data.thaa, [0x07A9, 0x200B, 0x07A9]),
   (Data.tirh, [0x11481, 0x200B, 0x114B0])]

/-- C14 is violated in each of the 20 scripts: some text over the script's own alphabet has a
visual normal form that is not its own visual normal form. -/
theorem C14_visual_not_idempotent {d : BrahmicData} (hd : d ∈ Data.scripts) :
    ∃ V, visualNormFst d (sigmaUtf8 d) (joiners ++ d.marks) = some V ∧
      ∃ s t u, V s t ∧ V t u ∧ u ≠ t := by
  have hcheck : (idemWitnesses.all fun w =>
      overB (scriptChars w.1 ++ joiners) w.2 &&
      !(strEq (visualNorm w.1 (visualNorm w.1 w.2)) (visualNorm w.1 w.2))) = true := by
    decide +kernel
  have hall : Data.scripts = idemWitnesses.map (·.1) := rfl
  rw [hall] at hd
  obtain ⟨w, hw, rfl⟩ := List.mem_map.1 hd
  have hd' : w.1 ∈ Data.scripts := by rw [hall]; exact List.mem_map_of_mem hw
  have hc := List.all_eq_true.1 hcheck w hw
  simp only [Bool.and_eq_true, overB_iff] at hc
  have hs : Over (sigmaUtf8 w.1) w.2 := fun c hc' => List.mem_append.1 (hc.1 c hc')
  obtain ⟨V, hV, g, m⟩ := visualNorm_graph hd' (goodSigma_utf8 hd') (order := joiners ++ w.1.marks)
    (fun _ => List.mem_append)
  refine ⟨V, hV, w.2, _, _, (g _ _).2 ⟨hs, rfl⟩, (g _ _).2 ⟨m _ hs, rfl⟩, fun e => ?_⟩
  have h2 := hc.2
  rw [strEq_iff.2 e] at h2
  simp at h2

/-- Scripts for which idempotence on joiner-free text is proved below. -/
def idemScripts : List BrahmicData :=
  [Data.guru, Data.tirh, Data.bugi, Data.lepc, Data.limb, Data.mtei, Data.sylo, Data.takr,
   Data.tglg, Data.thaa]

/-- C14, partial.  For ten scripts, visual normalization of text without joiners is idempotent.
Missing: text with joiners (false, see above); the scripts Deva, Gujr, Knda, Newa, Orya, Taml and
Telu, where it is false also without joiners (`C14_visual_not_idempotent_plain`); Beng, Mlym and
Sinh, where it is open. -/
theorem C14_visual_idempotent_partial {d : BrahmicData} (hd : d ∈ idemScripts) {σ : Nat → Prop}
    (hσ : GoodSigma d σ) {order : List Nat} (ho : MarkOrder d order) {V : Rel}
    (hV : visualNormFst d σ order = some V) {s t : Str} (hst : V s t)
    (hs : ∀ c ∈ s, c ≠ ZWNJ ∧ c ≠ ZWJ ∧ c ≠ ZWS) (u : Str) : V t u ↔ u = t := by
  have hd' : d ∈ Data.scripts ∧ (idemTables d && idemClosed d) = true := by
    simp only [idemScripts, List.mem_cons, List.not_mem_nil, or_false] at hd
    have rest := List.all_eq_true.1 idem_rest
    rcases hd with rfl | rfl | rfl | rfl | rfl | rfl | rfl | rfl | rfl | rfl
    · exact ⟨by simp [Data.scripts], idem_guru⟩
    · exact ⟨by simp [Data.scripts], idem_tirh⟩
    all_goals exact ⟨by simp [Data.scripts], rest _ (by simp)⟩
  obtain ⟨hd1, hd2⟩ := hd'
  rw [Bool.and_eq_true] at hd2
  obtain ⟨_, hV', g, m⟩ := visualNorm_graph hd1 hσ ho
  rw [hV] at hV'; cases hV'
  obtain ⟨hs1, rfl⟩ := (g _ _).1 hst
  have hp : Over plain s := by
    intro c hc
    have := hs c hc
    simp [plain, joiners, this]
  rw [g, visual_idem_plain hd1 hd2.1 hd2.2 hσ hs1 hp]
  exact ⟨fun h => h.2, fun h => ⟨m s hs1, h⟩⟩

/-- Joiner-free witnesses. -/
def plainWitnesses : List (BrahmicData × Str) :=
  [(Data.deva, [0x090D, 0x0310]), (Data.gujr, [0x0A85, 0x0AC8, 0x0AC7]),
   (Data.knda, [0x0CBC, 0x0CBE, 0x0CBC]), (Data.newa, [0x11404, 0x1143E, 0x11435]),
   (Data.orya, [0x0B01, 0x0B13, 0x0B4D, 0x0B13, 0x0B4D, 0x0B2C]),
   (Data.taml, [0x0B85, 0x0BC1, 0x0BBE]), (Data.telu, [0x0C3F, 0x0C55, 0x0C40])]

/-- For seven scripts idempotence fails even on text without joiners. -/
theorem C14_visual_not_idempotent_plain :
    ∀ w ∈ plainWitnesses, w.1 ∈ Data.scripts ∧ ∃ V,
      visualNormFst w.1 (sigmaUtf8 w.1) (joiners ++ w.1.marks) = some V ∧
      (∀ c ∈ w.2, c ∉ joiners) ∧ ∃ t u, V w.2 t ∧ V t u ∧ u ≠ t := by
  have hcheck : (plainWitnesses.all fun w =>
      overB (scriptChars w.1) w.2 && (w.2.all fun c => !isJoiner c) &&
      !(strEq (visualNorm w.1 (visualNorm w.1 w.2)) (visualNorm w.1 w.2))) = true := by
    decide +kernel
  intro w hw
  have hd : w.1 ∈ Data.scripts := by
    simp only [plainWitnesses, List.mem_cons, List.not_mem_nil, or_false] at hw
    rcases hw with rfl | rfl | rfl | rfl | rfl | rfl | rfl <;> simp [Data.scripts]
  have hc := List.all_eq_true.1 hcheck w hw
  simp only [Bool.and_eq_true, overB_iff, List.all_eq_true] at hc
  have hs : Over (sigmaUtf8 w.1) w.2 := fun c hc' => Or.inl (hc.1.1 c hc')
  obtain ⟨V, hV, g, m⟩ := visualNorm_graph hd (goodSigma_utf8 hd) (order := joiners ++ w.1.marks)
    (fun _ => List.mem_append)
  refine ⟨hd, V, hV, ?_, _, _, (g _ _).2 ⟨hs, rfl⟩, (g _ _).2 ⟨m _ hs, rfl⟩, fun e => ?_⟩
  · intro c hc'
    have := hc.1.2 c hc'
    exact plain_iff.2 (by simpa using this)
  · have h2 := hc.2
    rw [strEq_iff.2 e] at h2
    simp at h2

/-- Non-trivial instance of the partial theorem: Gurmukhi text that normalization does change. -/
example : visualNorm Data.guru [0x0A05, 0x0A3E] = [0x0A06] := by decide +kernel
example : Data.guru ∈ idemScripts := by simp [idemScripts]

end Nisaba.Props
