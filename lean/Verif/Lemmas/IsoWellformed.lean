import Verif.Lemmas.IsoScripts
import Verif.Lemmas.NfcBrahmic
import Verif.Props.Wellformed
/-!
# Well-formed texts and the domain of the ISO transducers
-/
namespace Nisaba

namespace RE

/-- Characters of the strings of the language. -/
def chars : RE → List Nat
  | none => []
  | lit w => w
  | alt a b => chars a ++ chars b
  | cat a b => chars a ++ chars b
  | star a => chars a

theorem mem_chars {r : RE} {s : Str} (h : lang r s) : ∀ c ∈ s, c ∈ chars r := by
  induction r generalizing s with
  | none => exact h.elim
  | lit w => simp only [lang] at h; subst h; exact fun c hc => hc
  | alt a b iha ihb =>
    rcases h with h | h
    · exact fun c hc => List.mem_append_left _ (iha h c hc)
    · exact fun c hc => List.mem_append_right _ (ihb h c hc)
  | cat a b iha ihb =>
    obtain ⟨x, y, rfl, hx, hy⟩ := h
    intro c hc
    rcases List.mem_append.1 hc with hc | hc
    · exact List.mem_append_left _ (iha hx c hc)
    · exact List.mem_append_right _ (ihb hy c hc)
  | star a iha =>
    simp only [lang] at h
    induction h with
    | nil => intro c hc; cases hc
    | cons hx _ ih =>
      intro c hc
      rcases List.mem_append.1 hc with hc | hc
      · exact iha hx c hc
      · exact ih c hc

end RE

namespace IsoWf
open Seq WRel Props

/-- The text can be romanized. -/
def Rom (d : BrahmicData) (x : Str) : Prop := ∃ y w, brahmicToIso d x y w

theorem Rom.nil (d : BrahmicData) : Rom d [] := ⟨[], 0, Star.nil⟩

theorem Rom.append {d : BrahmicData} {x x' : Str} (h : Rom d x) (h' : Rom d x') : Rom d (x ++ x') := by
  obtain ⟨y, w, h⟩ := h
  obtain ⟨y', w', h'⟩ := h'
  refine ⟨y ++ y', w + w', ?_⟩
  induction h with
  | nil => simpa using h'
  | cons h _ ih =>
    simp only [List.append_assoc, Nat.add_assoc]
    exact Star.cons h ih

theorem Rom.unit {d : BrahmicData} {x y : Str} {w : Nat} (h : IsoUnit d x y w) : Rom d x :=
  ⟨y, w, Star.one (isoUnits_iff.2 h)⟩

/-- Rows that can be romanized anywhere. -/
def freeRows (d : BrahmicData) : List Rule :=
  d.vowel ++ (d.coda ++ (d.deadConsonant ++ (d.vowelLength ++ (d.standalone ++ (d.vowelSign ++
    (d.virama ++ (Data.commonSymbol ++
      (match d.inherent with | [] => [] | _ :: _ => d.consonant))))))))

theorem rom_free {d : BrahmicData} {r : Rule} (h : r ∈ freeRows d) : Rom d r.1 := by
  simp only [freeRows, List.mem_append] at h
  rcases h with h | h | h | h | h | h | h | h | h
  · exact .unit (.vowel h)
  · exact .unit (.coda h)
  · exact .unit (.dead h)
  · exact .unit (.length h)
  · exact .unit (.standalone h)
  · exact .unit (.dash h)
  · exact .unit (.viramaMark h)
  · exact .unit (.common h)
  · cases hi : d.inherent with
    | nil => rw [hi] at h; cases h
    | cons i is =>
      rw [hi] at h
      exact .unit (.inherent (.core h) (by rw [hi]; exact List.mem_cons_self ..))

/-- The string is a sequence of rows that can be romanized anywhere. -/
def freeB (d : BrahmicData) (x : Str) : Bool := RE.accepts (RE.star (RE.ofRows (freeRows d))) x

theorem rom_freeB {d : BrahmicData} {x : Str} (h : freeB d x = true) : Rom d x := by
  rw [freeB, RE.accepts_iff] at h
  simp only [RE.lang, lang_ofRows] at h
  induction h with
  | nil => exact Rom.nil d
  | cons h _ ih =>
    obtain ⟨y, h⟩ := h
    exact Rom.append (rom_free h) ih

/-- Table check: linking sequences and accepted exceptions can be romanized anywhere, and a script
without inherent vowel has no linking sequences other than the virama. -/
def linksOk (d : BrahmicData) : Bool :=
  d.preserve.all (fun r => freeB d r.1) && d.accept.all (fun r => freeB d r.1) &&
  (match d.inherent with | [] => d.noInherentVowel && d.preserve.isEmpty | _ :: _ => true)

theorem linksOk_all : Data.scripts.all linksOk = true := by decide +kernel

theorem isoCons {d : BrahmicData} {c sub : Str} (hc : Listed d.consonant c)
    (hs : Optional d.subjoined sub) : ∃ y, IsoCons d (c ++ sub) y := by
  obtain ⟨r, hr, rfl⟩ := hc
  rcases hs with rfl | ⟨r', hr', rfl⟩
  · exact ⟨r.2, by simpa using IsoCons.core hr⟩
  · exact ⟨_, IsoCons.sub hr hr'⟩

/-- A cluster is a romanizable text followed by a consonant. -/
theorem cluster_split {d : BrahmicData} (ok : linksOk d = true) {cl : Str} (h : ClusterSpec d cl) :
    ∃ x c y, cl = x ++ c ∧ Rom d x ∧ IsoCons d c y := by
  induction h with
  | base c sub hc hs =>
    obtain ⟨y, hy⟩ := isoCons hc hs
    exact ⟨[], _, y, rfl, Rom.nil d, hy⟩
  | link c sub v rest hc hs hv _ ih =>
    obtain ⟨x, c', y', rfl, hx, hc'⟩ := ih
    obtain ⟨y, hy⟩ := isoCons hc hs
    refine ⟨(c ++ sub ++ v) ++ x, c', y', by simp, Rom.append ?_ hx, hc'⟩
    rcases hv with ⟨r, hr, rfl⟩ | ⟨r, hr, rfl⟩
    · exact .unit (.virama hy hr)
    · simp only [linksOk, Bool.and_eq_true] at ok
      refine Rom.append ?_ (rom_freeB (List.all_eq_true.1 ok.1.1 r hr))
      cases hi : d.inherent with
      | nil =>
        have := ok.2
        simp only [hi, Bool.and_eq_true, List.isEmpty_iff] at this
        rw [this.2] at hr; cases hr
      | cons i is => exact .unit (.inherent hy (by rw [hi]; exact List.mem_cons_self ..))

theorem rom_optional {d : BrahmicData} {rows : List Rule} (h : ∀ r ∈ rows, Rom d r.1) {s : Str}
    (hs : Optional rows s) : Rom d s := by
  rcases hs with rfl | ⟨r, hr, rfl⟩
  · exact Rom.nil d
  · exact h r hr

theorem rom_akshara {d : BrahmicData} (ok : linksOk d = true) {s : Str} (h : AksharaSpec d s) :
    Rom d s := by
  have hl : ∀ r ∈ d.vowelLength, Rom d r.1 := fun r hr => .unit (.length hr)
  have hc : ∀ r ∈ d.coda, Rom d r.1 := fun r hr => .unit (.coda hr)
  have hd : ∀ r ∈ d.deadConsonant, Rom d r.1 := fun r hr => .unit (.dead hr)
  cases h with
  | vowel v len coda dead h1 h2 h3 h4 =>
    obtain ⟨r, hr, rfl⟩ := h1
    exact (((Rom.unit (.vowel hr)).append (rom_optional hl h2)).append (rom_optional hc h3)).append
      (rom_optional hd h4)
  | syllable cl sign len coda dead h1 h2 h2' h3 h4 h5 =>
    refine ((Rom.append ?_ (rom_optional hl h3)).append (rom_optional hc h4)).append
      (rom_optional hd h5)
    obtain ⟨x, c, y, rfl, hx, hy⟩ := cluster_split ok h1
    rw [List.append_assoc]
    refine hx.append ?_
    have sign : ∀ s, Listed d.vowelSign s → Rom d (c ++ s) := by
      rintro s ⟨r, hr, rfl⟩
      exact .unit (.sign hy hr)
    rcases h2 with rfl | h2
    · cases hi : d.inherent with
      | nil =>
        simp only [linksOk, hi, Bool.and_eq_true] at ok
        exact sign _ (h2' ok.2.1)
      | cons i is =>
        rw [List.append_nil]
        exact .unit (.inherent hy (by rw [hi]; exact List.mem_cons_self ..))
    · exact sign _ h2
  | virama cl v dead h1 h2 h3 =>
    refine Rom.append ?_ (rom_optional hd h3)
    obtain ⟨x, c, y, rfl, hx, hy⟩ := cluster_split ok h1
    obtain ⟨r, hr, rfl⟩ := h2
    rw [List.append_assoc]
    exact hx.append (.unit (.virama hy hr))

/-- A well-formed text, taken as it is, can be romanized. -/
theorem rom_wellFormed {d : BrahmicData} (hd : d ∈ Data.scripts) {t : Str} (h : wellFormed d t) :
    Rom d t := by
  have ok := List.all_eq_true.1 linksOk_all d hd
  rw [C16_grammar] at h
  obtain ⟨ps, rfl, hps⟩ := h
  induction ps with
  | nil => exact Rom.nil d
  | cons p ps ih =>
    rw [List.flatten_cons]
    refine Rom.append ?_ (ih fun q hq => hps q (List.mem_cons_of_mem _ hq))
    rcases hps p (List.mem_cons_self ..) with h | ⟨r, hr, rfl⟩ | ⟨r, hr, rfl⟩
    · exact rom_akshara ok h
    · exact .unit (.standalone hr)
    · simp only [linksOk, Bool.and_eq_true] at ok
      exact rom_freeB (List.all_eq_true.1 ok.1.2 r hr)

/-! ## NFC forms of well-formed texts -/

/-- Pair of given characters. -/
def thePair (x y : Nat) : Nat → Nat → Bool := fun a b => Nat.beq a x && Nat.beq b y

/-- Table check: the left-hand side occurs in no well-formed text. -/
def absent (r : RE) (cs : List Nat) (l : Str) : Bool :=
  (l.any fun c => !(cs.any (Nat.beq c))) ||
  (match l with
   | x :: y :: _ => RE.noPair (thePair x y) r
   | _ => false)

theorem absent_ok {r : RE} {l : Str} (h : absent r (RE.chars r) l = true) {s : Str}
    (hs : RE.lang r s) : ¬ l <:+: s := by
  rintro ⟨a, b, rfl⟩
  simp only [absent, Bool.or_eq_true] at h
  rcases h with h | h
  · obtain ⟨c, hc, h⟩ := List.any_eq_true.1 h
    have := RE.mem_chars hs c (by simp [hc])
    have h' : (RE.chars r).any (Nat.beq c) = true :=
      List.any_eq_true.2 ⟨c, this, Nat.beq_refl c⟩
    simp [h'] at h
  · match l, h with
    | x :: y :: l, h =>
      have := RE.noPair_ok _ _ h a (l ++ b) x y (by simpa using hs)
      simp [thePair] at this

/-- Table check: NFC leaves well-formed texts alone. -/
def nfcAbsent (d : BrahmicData) : Bool :=
  d.nfc.all fun p => absent (reWellFormed d) (dedupNat (RE.chars (reWellFormed d))) p.1

/-- Table check: each character of a well-formed text, and each character NFC writes when all
characters of the left-hand side can occur in a well-formed text, can be romanized anywhere. -/
def nfcFree (d : BrahmicData) : Bool :=
  (dedupNat (RE.chars (reWellFormed d))).all (fun c => freeB d [c]) &&
  d.nfc.all fun p => p.2.all fun c => freeB d [c]

theorem absent_dedup {r : RE} {l : Str} (h : absent r (dedupNat (RE.chars r)) l = true) :
    absent r (RE.chars r) l = true := by
  simp only [absent, Bool.or_eq_true] at h ⊢
  rcases h with h | h
  · left
    obtain ⟨c, hc, h⟩ := List.any_eq_true.1 h
    refine List.any_eq_true.2 ⟨c, hc, ?_⟩
    simp only [Bool.not_eq_true', List.any_eq_false] at h ⊢
    exact fun x hx => h x (mem_dedupNat.2 hx)
  · exact Or.inr h

theorem rom_chars {d : BrahmicData} {t : Str} (h : ∀ c ∈ t, Rom d [c]) : Rom d t := by
  induction t with
  | nil => exact Rom.nil d
  | cons c t ih =>
    have := Rom.append (h c (List.mem_cons_self ..)) (ih fun x hx => h x (List.mem_cons_of_mem _ hx))
    simpa using this

theorem rom_scanAll {d : BrahmicData} (h2 : ∀ p ∈ d.nfc, ∀ c ∈ p.2, Rom d [c]) {t : Str}
    (h1 : ∀ c ∈ t, Rom d [c]) : Rom d (applyRules d.nfc t) := by
  refine rom_chars (over_scanAll (σ := fun c => Rom d [c]) ?_ h1)
  exact fun st hst p hp => h2 p (stages_mem hst hp)

/-- Each arc reading SHA has a twin reading SA with nukta. -/
def arcEq (a b : Arc) : Bool :=
  Nat.beq a.src b.src && (Nat.beq a.dst b.dst && (Nat.beq a.wt b.wt &&
    (Nisaba.strEq a.inp b.inp && Nisaba.strEq a.out b.out)))

theorem strEq_true {a b : Str} (h : Nisaba.strEq a b = true) : a = b := by
  induction a generalizing b with
  | nil => cases b with
    | nil => rfl
    | cons y b => simp [Nisaba.strEq] at h
  | cons x a ih => cases b with
    | nil => simp [Nisaba.strEq] at h
    | cons y b =>
      simp only [Nisaba.strEq, Bool.cond_eq_ite] at h
      split at h
      · next hxy => rw [Nat.eq_of_beq_eq_true hxy, ih h]
      · cases h

theorem arcEq_true {a b : Arc} (h : arcEq a b = true) : a = b := by
  simp only [arcEq, Bool.and_eq_true] at h
  obtain ⟨h1, h2, h3, h4, h5⟩ := h
  cases a; cases b
  simp only [Arc.mk.injEq]
  exact ⟨Nat.eq_of_beq_eq_true h1, strEq_true h4, strEq_true h5, Nat.eq_of_beq_eq_true h3,
    Nat.eq_of_beq_eq_true h2⟩

def twin (a : Arc) : Arc := ⟨a.src, a.inp.flatMap shaToSa, a.out, a.wt, a.dst⟩

def twins (A : List Arc) : Bool :=
  A.all fun a => bif a.inp.any isSha then A.any (arcEq (twin a)) else true

theorem guru_twins : twins (isoArcs Data.guru) = true := by decide +kernel

theorem flatMap_noSha {x : Str} (h : x.any isSha = false) : x.flatMap shaToSa = x := by
  induction x with
  | nil => rfl
  | cons c x ih =>
    simp only [List.any_cons, Bool.or_eq_false_iff] at h
    rw [List.flatMap_cons, ih h.2, shaToSa, h.1]; rfl

theorem run_twins {A : List Arc} (h : twins A = true) {p q : Nat} {x y : Str} {w : Nat}
    (hr : Run A p x y w q) : Run A p (x.flatMap shaToSa) y w q := by
  induction hr with
  | nil q => exact Run.nil q
  | @cons a x y w q ha _ ih =>
    rw [List.flatMap_append]
    have : twin a ∈ A := by
      have := List.all_eq_true.1 h a ha
      rw [Bool.cond_eq_ite] at this
      split at this
      · obtain ⟨b, hb, e⟩ := List.any_eq_true.1 this
        rw [arcEq_true e]; exact hb
      · next hn =>
        rw [twin, flatMap_noSha (by simpa using hn)]; exact ha
    exact Run.cons (a := twin a) this ih

/-- Characters of well-formed Gurmukhi texts that NFC changes. -/
theorem guru_chars : ((dedupNat (RE.chars (reWellFormed Data.guru))).all fun c =>
    Nisaba.strEq (applyRules Data.guru.nfc [c]) (shaToSa c)) = true := by decide +kernel

theorem guru_flatMap {t : Str} (h : ∀ c ∈ t, c ∈ RE.chars (reWellFormed Data.guru)) :
    applyRules Data.guru.nfc t = t.flatMap shaToSa := by
  induction t with
  | nil => exact scanAll_nil _
  | cons c t ih =>
    have e := strEq_true (List.all_eq_true.1 guru_chars c
      (mem_dedupNat.2 (h c (List.mem_cons_self ..))))
    have ih := ih fun x hx => h x (List.mem_cons_of_mem _ hx)
    rw [List.flatMap_cons, ← e, ← ih, ← List.singleton_append (l := t)]
    simp only [applyRules]
    exact scanAll_single guru_single _ _

/-- Each script falls under one of the three arguments. -/
theorem nfc_cases {d : BrahmicData} (hd : d ∈ Data.scripts) :
    nfcAbsent d = true ∨ nfcFree d = true ∨ d = Data.guru := by
  simp only [Data.scripts, List.mem_cons, List.not_mem_nil, or_false] at hd
  rcases hd with rfl | rfl | rfl | rfl | rfl | rfl | rfl | rfl | rfl | rfl | rfl | rfl | rfl | rfl |
    rfl | rfl | rfl | rfl | rfl | rfl
  case inr.inr.inr.inr.inl => exact Or.inr (Or.inr rfl)
  all_goals first
    | exact Or.inl (by decide +kernel)
    | exact Or.inr (Or.inl (by decide +kernel))

/-- The NFC form of a well-formed text can be romanized. -/
theorem rom_nfc {d : BrahmicData} (hd : d ∈ Data.scripts) {t : Str} (h : wellFormed d t) :
    Rom d (applyRules d.nfc t) := by
  have hre : RE.lang (reWellFormed d) t := by rw [reWellFormed_eq]; exact h
  rcases nfc_cases hd with hc | hc | rfl
  · have : applyRules d.nfc t = t := scanAll_fixed fun st hst p hp =>
      absent_ok (absent_dedup (List.all_eq_true.1 hc p (stages_mem hst hp))) hre
    rw [this]
    exact rom_wellFormed hd h
  · simp only [nfcFree, Bool.and_eq_true] at hc
    refine rom_scanAll (fun p hp c hcp => ?_) (fun c hct => ?_)
    · exact rom_freeB (List.all_eq_true.1 (List.all_eq_true.1 hc.2 p hp) c hcp)
    · exact rom_freeB (List.all_eq_true.1 hc.1 c (mem_dedupNat.2 (RE.mem_chars hre c hct)))
  · rw [guru_flatMap (RE.mem_chars hre)]
    obtain ⟨y, w, hr⟩ := rom_wellFormed hd h
    exact ⟨y, w, brahmicToIso_iff_run.2 (run_twins guru_twins (brahmicToIso_iff_run.1 hr))⟩

/-- Well-formed texts are over the alphabet of the script. -/
theorem wf_sigma : (Data.scripts.all fun d => (dedupNat (RE.chars (reWellFormed d))).all fun c =>
    (scriptChars d).any (Nat.beq c) || joiners.any (Nat.beq c)) = true := by decide +kernel

theorem wf_over {d : BrahmicData} (hd : d ∈ Data.scripts) {t : Str} (h : wellFormed d t) :
    Over (sigmaUtf8 d) t := by
  have hre : RE.lang (reWellFormed d) t := by rw [reWellFormed_eq]; exact h
  intro c hc
  have := List.all_eq_true.1 (List.all_eq_true.1 wf_sigma d hd) c
    (mem_dedupNat.2 (RE.mem_chars hre c hc))
  simp only [Bool.or_eq_true, List.any_eq_true] at this
  rcases this with ⟨x, hx, e⟩ | ⟨x, hx, e⟩
  · rw [Nat.eq_of_beq_eq_true e]; exact Or.inl hx
  · rw [Nat.eq_of_beq_eq_true e]; exact Or.inr hx

end IsoWf

end Nisaba
