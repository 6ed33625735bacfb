import Verif.Model.Iso
import Verif.Lemmas.Sequential
/-!
# The ISO transducer as a list of arcs

States: 0 between units, 1 after a consonant that a subjoined consonant may follow, 2 after a
consonant that a vowel sign must follow, 3 in a sequence of dotted vowels.
-/
namespace Nisaba
open Seq WRel

def rowArc (p w q : Nat) (r : Rule) : Arc := ⟨p, r.1, r.2, w, q⟩
def preArc (c p w q : Nat) (r : Rule) : Arc := ⟨p, r.1, c :: r.2, w, q⟩

/-- Arcs for a consonant. -/
def consArcs (p : Nat) (rows inh vir : List Rule) : List Arc :=
  rows.flatMap fun r => rowArc p 0 2 r ::
    (inh.flatMap (fun i => [⟨p, r.1, r.2 ++ i.1, 1, 0⟩, ⟨p, r.1, r.2 ++ i.1, 0, 3⟩]) ++
     vir.flatMap (fun v => [⟨p, r.1 ++ v.1, r.2, 1, 0⟩, ⟨p, r.1 ++ v.1, r.2, 0, 3⟩]))

def isoArcs (d : BrahmicData) : List Arc :=
  consArcs 0 d.consonant d.inherent d.virama ++ (
  (match d.subjoined with
   | [] => []
   | _ :: _ => d.consonant.map (rowArc 0 0 1) ++ consArcs 1 d.subjoined d.inherent d.virama) ++ (
  d.vowelSign.map (rowArc 2 0 0) ++ (d.vowelSign.map (rowArc 2 0 3) ++ (
  d.vowel.map (rowArc 0 1 0) ++ (d.vowel.map (rowArc 0 1 3) ++ (
  d.vowel.map (preArc dot 3 0 0) ++ (d.vowel.map (preArc dot 3 0 3) ++ (
  d.vowelSign.map (preArc dash 0 1 0) ++ (d.vowelSign.map (preArc dash 0 1 3) ++ (
  d.coda.map (rowArc 0 1 0) ++ (d.standalone.map (rowArc 0 1 0) ++ (
  d.deadConsonant.map (rowArc 0 0 0) ++ (d.vowelLength.map (rowArc 0 0 0) ++ (
  Data.commonSymbol.map (rowArc 0 0 0) ++
  d.virama.map (fun v => ⟨0, v.1, [breve], 2, 0⟩)))))))))))))))

/-! ## Tables -/

theorem cat_iff {a b : WRel} {x y : Str} {w : Nat} :
    cat a b x y w ↔ ∃ x1 x2 y1 y2 w1 w2, x = x1 ++ x2 ∧ y = y1 ++ y2 ∧ w = w1 + w2 ∧
      a x1 y1 w1 ∧ b x2 y2 w2 := by
  constructor
  · rintro ⟨x1, x2, y1, y2, w1, w2, h1, h2, h3, h4, h5⟩
    exact ⟨x1, x2, y1, y2, w1, w2, h3, h4, h5, h1, h2⟩
  · rintro ⟨x1, x2, y1, y2, w1, w2, h3, h4, h5, h1, h2⟩
    exact ⟨x1, x2, y1, y2, w1, w2, h1, h2, h3, h4, h5⟩

theorem stringFile_iff {rows : List Rule} {x y : Str} {w : Nat} :
    stringFile rows x y w ↔ (x, y) ∈ rows ∧ w = 0 := by
  simp [stringFile, WRel.onEmpty, ofTable]

theorem inputStringFile_iff {rows : List Rule} {x : Str} :
    Lang.inputStringFile rows x ↔ ∃ y, (x, y) ∈ rows := by
  simp only [Lang.inputStringFile, Lang.onEmpty, inputLang]
  exact ⟨fun h => h.elim id (fun h => h.2.elim), Or.inl⟩

/-- A consonant with an optional subjoined consonant. -/
inductive IsoCons (d : BrahmicData) : Str → Str → Prop
  | core {r} (h : r ∈ d.consonant) : IsoCons d r.1 r.2
  | sub {r s} (h : r ∈ d.consonant) (hs : s ∈ d.subjoined) : IsoCons d (r.1 ++ s.1) (r.2 ++ s.2)

theorem consonant_iff {d : BrahmicData} {x y : Str} {w : Nat} :
    cat (stringFile d.consonant) (quesSafe (stringFile d.subjoined)) x y w ↔
      IsoCons d x y ∧ w = 0 := by
  constructor
  · intro h0
    obtain ⟨x1, x2, y1, y2, w1, w2, rfl, rfl, rfl, h1, h2⟩ := cat_iff.1 h0
    obtain ⟨m1, rfl⟩ := stringFile_iff.1 h1
    rcases h2 with h2 | ⟨rfl, rfl, rfl⟩
    · rcases h2 with h2 | ⟨_, rfl, rfl, rfl⟩
      · obtain ⟨m2, rfl⟩ := stringFile_iff.1 h2
        exact ⟨IsoCons.sub m1 m2, rfl⟩
      · exact ⟨by simpa using IsoCons.core m1, rfl⟩
    · exact ⟨by simpa using IsoCons.core m1, rfl⟩
  · rintro ⟨h, rfl⟩
    cases h with
    | @core r h =>
      refine cat_iff.2 ⟨r.1, [], r.2, [], 0, 0, by simp, by simp, rfl, stringFile_iff.2 ⟨h, rfl⟩,
        Or.inr ⟨rfl, rfl, rfl⟩⟩
    | @sub r s h hs =>
      refine cat_iff.2 ⟨r.1, s.1, r.2, s.2, 0, 0, rfl, rfl, rfl, stringFile_iff.2 ⟨h, rfl⟩,
        Or.inl (Or.inl (stringFile_iff.2 ⟨hs, rfl⟩))⟩

/-- Dotted vowels. -/
inductive Dots (d : BrahmicData) : Str → Str → Prop
  | nil : Dots d [] []
  | cons {r x y} (h : r ∈ d.vowel) (k : Dots d x y) : Dots d (r.1 ++ x) (dot :: r.2 ++ y)

theorem Dots.snoc {d : BrahmicData} {x y : Str} (h : Dots d x y) {r} (hr : r ∈ d.vowel) :
    Dots d (x ++ r.1) (y ++ dot :: r.2) := by
  induction h with
  | nil => simpa using Dots.cons hr Dots.nil
  | cons h _ ih => simpa using Dots.cons h ih

/-- One dotted vowel. -/
theorem dotted_iff {d : BrahmicData} {x y : Str} {w : Nat} :
    cat (insert (fun s => s = [dot])) (stringFile d.vowel) x y w ↔
      ∃ r ∈ d.vowel, x = r.1 ∧ y = dot :: r.2 ∧ w = 0 := by
  constructor
  · intro h0
    obtain ⟨x1, x2, y1, y2, w1, w2, rfl, rfl, rfl, ⟨rfl, rfl, rfl⟩, h2⟩ := cat_iff.1 h0
    obtain ⟨m2, rfl⟩ := stringFile_iff.1 h2
    exact ⟨_, m2, rfl, rfl, rfl⟩
  · rintro ⟨r, hr, rfl, rfl, rfl⟩
    refine cat_iff.2 ⟨[], r.1, [dot], r.2, 0, 0, rfl, rfl, rfl, ⟨rfl, rfl, rfl⟩, stringFile_iff.2 ⟨hr, rfl⟩⟩

theorem dots_iff {d : BrahmicData} {x y : Str} {w : Nat} :
    Star (cat (insert (fun s => s = [dot])) (stringFile d.vowel)) x y w ↔ Dots d x y ∧ w = 0 := by
  constructor
  · intro h
    induction h with
    | nil => exact ⟨Dots.nil, rfl⟩
    | cons h _ ih =>
      obtain ⟨r, hr, rfl, rfl, rfl⟩ := dotted_iff.1 h
      obtain ⟨ih, rfl⟩ := ih
      exact ⟨by simpa using Dots.cons hr ih, rfl⟩
  · rintro ⟨h, rfl⟩
    induction h with
    | nil => exact Star.nil
    | @cons r x y hr _ ih =>
      have := Star.cons (dotted_iff.2 ⟨r, hr, rfl, rfl, rfl⟩) ih
      simpa using this

theorem dotsPlus_iff {d : BrahmicData} {x y : Str} {w : Nat} :
    plus (cat (insert (fun s => s = [dot])) (stringFile d.vowel)) x y w ↔
      ∃ r ∈ d.vowel, ∃ x' y', x = r.1 ++ x' ∧ y = dot :: r.2 ++ y' ∧ Dots d x' y' ∧ w = 0 := by
  constructor
  · intro h0
    obtain ⟨x1, x2, y1, y2, w1, w2, rfl, rfl, rfl, h1, h2⟩ := cat_iff.1 h0
    obtain ⟨r, hr, rfl, rfl, rfl⟩ := dotted_iff.1 h1
    obtain ⟨m2, rfl⟩ := dots_iff.1 h2
    exact ⟨r, hr, x2, y2, rfl, rfl, m2, rfl⟩
  · rintro ⟨r, hr, x', y', rfl, rfl, h, rfl⟩
    refine cat_iff.2 ⟨r.1, x', dot :: r.2, y', 0, 0, rfl, rfl, rfl, dotted_iff.2 ⟨r, hr, rfl, rfl, rfl⟩,
      dots_iff.2 ⟨h, rfl⟩⟩

/-- What may stand before dotted vowels, with its weight. -/
inductive DotHead (d : BrahmicData) : Str → Str → Nat → Prop
  | vowel {r} (h : r ∈ d.vowel) : DotHead d r.1 r.2 1
  | dash {r} (h : r ∈ d.vowelSign) : DotHead d r.1 (dash :: r.2) 1
  | sign {x y r} (hc : IsoCons d x y) (h : r ∈ d.vowelSign) : DotHead d (x ++ r.1) (y ++ r.2) 0
  | inherent {x y i} (hc : IsoCons d x y) (h : i ∈ d.inherent) : DotHead d x (y ++ i.1) 0
  | virama {x y v} (hc : IsoCons d x y) (h : v ∈ d.virama) : DotHead d (x ++ v.1) y 0

/-- One unit, without reference to the transducer operations. -/
inductive IsoUnit (d : BrahmicData) : Str → Str → Nat → Prop
  | sign {x y r} (hc : IsoCons d x y) (h : r ∈ d.vowelSign) : IsoUnit d (x ++ r.1) (y ++ r.2) 0
  | inherent {x y i} (hc : IsoCons d x y) (h : i ∈ d.inherent) : IsoUnit d x (y ++ i.1) 1
  | virama {x y v} (hc : IsoCons d x y) (h : v ∈ d.virama) : IsoUnit d (x ++ v.1) y 1
  | vowel {r} (h : r ∈ d.vowel) : IsoUnit d r.1 r.2 1
  | coda {r} (h : r ∈ d.coda) : IsoUnit d r.1 r.2 1
  | dead {r} (h : r ∈ d.deadConsonant) : IsoUnit d r.1 r.2 0
  | length {r} (h : r ∈ d.vowelLength) : IsoUnit d r.1 r.2 0
  | standalone {r} (h : r ∈ d.standalone) : IsoUnit d r.1 r.2 1
  | dash {r} (h : r ∈ d.vowelSign) : IsoUnit d r.1 (dash :: r.2) 1
  | viramaMark {v} (h : v ∈ d.virama) : IsoUnit d v.1 [breve] 2
  | common {r} (h : r ∈ Data.commonSymbol) : IsoUnit d r.1 r.2 0
  | dots {a b w r x y} (hh : DotHead d a b w) (hr : r ∈ d.vowel) (hd : Dots d x y) :
      IsoUnit d (a ++ (r.1 ++ x)) (b ++ (dot :: r.2 ++ y)) w

theorem cat_eps {a : WRel} {x y : Str} {w v : Nat} :
    cat a (eps v) x y w ↔ ∃ w', a x y w' ∧ w = w' + v := by
  constructor
  · intro h0
    obtain ⟨x1, x2, y1, y2, w1, w2, rfl, rfl, rfl, h1, ⟨rfl, rfl, rfl⟩⟩ := cat_iff.1 h0
    exact ⟨w1, by simpa using h1, rfl⟩
  · rintro ⟨w', h, rfl⟩
    refine cat_iff.2 ⟨x, [], y, [], w', v, by simp, by simp, rfl, h, rfl, rfl, rfl⟩

theorem cat_table {a : WRel} {rows : List Rule} {x y : Str} {w : Nat} :
    cat a (stringFile rows) x y w ↔ ∃ x' y', ∃ r ∈ rows, a x' y' w ∧ x = x' ++ r.1 ∧
      y = y' ++ r.2 := by
  constructor
  · intro h0
    obtain ⟨x1, x2, y1, y2, w1, w2, rfl, rfl, rfl, h1, h2⟩ := cat_iff.1 h0
    obtain ⟨m2, rfl⟩ := stringFile_iff.1 h2
    exact ⟨x1, y1, _, m2, h1, rfl, rfl⟩
  · rintro ⟨x', y', r, hr, h, rfl, rfl⟩
    refine cat_iff.2 ⟨x', r.1, y', r.2, w, 0, rfl, rfl, rfl, h, stringFile_iff.2 ⟨hr, rfl⟩⟩

theorem cat_insert {a : WRel} {rows : List Rule} {x y : Str} {w : Nat} :
    cat a (insert (Lang.inputStringFile rows)) x y w ↔ ∃ y', ∃ r ∈ rows, a x y' w ∧
      y = y' ++ r.1 := by
  constructor
  · intro h0
    obtain ⟨x1, x2, y1, y2, w1, w2, rfl, rfl, rfl, h1, ⟨rfl, h2, rfl⟩⟩ := cat_iff.1 h0
    obtain ⟨z, h2⟩ := inputStringFile_iff.1 h2
    exact ⟨y1, _, h2, by simpa using h1, rfl⟩
  · rintro ⟨y', r, hr, h, rfl⟩
    refine cat_iff.2 ⟨x, [], y', r.1, w, 0, by simp, rfl, rfl, h, rfl, inputStringFile_iff.2 ⟨_, hr⟩, rfl⟩

theorem cat_delete {a : WRel} {rows : List Rule} {x y : Str} {w : Nat} :
    cat a (delete (Lang.inputStringFile rows)) x y w ↔ ∃ x', ∃ r ∈ rows, a x' y w ∧
      x = x' ++ r.1 := by
  constructor
  · intro h0
    obtain ⟨x1, x2, y1, y2, w1, w2, rfl, rfl, rfl, h1, ⟨h2, rfl, rfl⟩⟩ := cat_iff.1 h0
    obtain ⟨z, h2⟩ := inputStringFile_iff.1 h2
    exact ⟨x1, _, h2, by simpa using h1, rfl⟩
  · rintro ⟨x', r, hr, h, rfl⟩
    refine cat_iff.2 ⟨x', r.1, y, [], w, 0, rfl, by simp, rfl, h, inputStringFile_iff.2 ⟨_, hr⟩, rfl, rfl⟩

theorem dash_iff {d : BrahmicData} {x y : Str} {w : Nat} :
    cat (insert (fun s => s = [dash])) (stringFile d.vowelSign) x y w ↔
      ∃ r ∈ d.vowelSign, x = r.1 ∧ y = dash :: r.2 ∧ w = 0 := by
  rw [cat_table]
  constructor
  · rintro ⟨x', y', r, hr, ⟨rfl, rfl, rfl⟩, rfl, rfl⟩; exact ⟨r, hr, rfl, rfl, rfl⟩
  · rintro ⟨r, hr, rfl, rfl, rfl⟩; exact ⟨[], [dash], r, hr, ⟨rfl, rfl, rfl⟩, rfl, rfl⟩

theorem cat_dots {d : BrahmicData} {a : WRel} {x y : Str} {w : Nat} :
    cat a (plus (cat (insert (fun s => s = [dot])) (stringFile d.vowel))) x y w ↔
      ∃ x' y', a x' y' w ∧ ∃ r ∈ d.vowel, ∃ x'' y'', Dots d x'' y'' ∧
        x = x' ++ (r.1 ++ x'') ∧ y = y' ++ (dot :: r.2 ++ y'') := by
  constructor
  · intro h0
    obtain ⟨x1, x2, y1, y2, w1, w2, rfl, rfl, rfl, h1, h2⟩ := cat_iff.1 h0
    obtain ⟨r, hr, x'', y'', rfl, rfl, hd, rfl⟩ := dotsPlus_iff.1 h2
    exact ⟨x1, y1, h1, r, hr, x'', y'', hd, rfl, rfl⟩
  · rintro ⟨x', y', h, r, hr, x'', y'', hd, rfl, rfl⟩
    refine cat_iff.2 ⟨x', _, y', _, w, 0, rfl, rfl, rfl, h, dotsPlus_iff.2 ⟨r, hr, x'', y'', rfl, rfl, hd, rfl⟩⟩

theorem isoUnits_iff {d : BrahmicData} {x y : Str} {w : Nat} :
    isoUnits d x y w ↔ IsoUnit d x y w := by
  simp only [isoUnits, unions, List.mem_cons, exists_eq_or_imp, List.not_mem_nil, or_false,
    exists_eq_left, cat_eps, cat_table, consonant_iff, cat_insert,
    cat_delete, cat_dots, stringFile_iff]
  constructor
  · rintro (⟨x', y', r, hr, ⟨hc, rfl⟩, rfl, rfl⟩ | ⟨w', ⟨y', r, hr, ⟨hc, rfl⟩, rfl⟩, rfl⟩ |
      ⟨w', ⟨y', r, hr, ⟨hc, rfl⟩, rfl⟩, rfl⟩ | ⟨w', ⟨hr, rfl⟩, rfl⟩ | ⟨w', ⟨hr, rfl⟩, rfl⟩ |
      ⟨hr, rfl⟩ | ⟨hr, rfl⟩ | ⟨w', ⟨hr, rfl⟩, rfl⟩ | ⟨w', h, rfl⟩ | ⟨w', ⟨h, rfl, rfl⟩, rfl⟩ |
      ⟨hr, rfl⟩ | ⟨w', ⟨x', y', ⟨h, rfl⟩, r, hr, x2, y2, hd, rfl, rfl⟩, rfl⟩ |
      ⟨x', y', ⟨x2, y2, s, hs, ⟨hc, rfl⟩, rfl, rfl⟩, r, hr, x3, y3, hd, rfl, rfl⟩ |
      ⟨x', y', ⟨x2, s, hs, ⟨hc, rfl⟩, rfl⟩, r, hr, x3, y3, hd, rfl, rfl⟩ |
      ⟨x', y', ⟨y2, s, hs, ⟨hc, rfl⟩, rfl⟩, r, hr, x3, y3, hd, rfl, rfl⟩)
    · exact .sign hc hr
    · exact .inherent hc hr
    · exact .virama hc hr
    · exact .vowel hr
    · exact .coda hr
    · exact .dead hr
    · exact .length hr
    · exact .standalone hr
    · obtain ⟨x1, x2, y1, y2, w1, w2, rfl, rfl, rfl, h1, h2⟩ := cat_iff.1 h
      obtain ⟨r, hr, rfl, rfl, rfl⟩ := dash_iff.1 h1
      obtain ⟨m2, rfl⟩ := dots_iff.1 h2
      cases m2 with
      | nil => simpa using IsoUnit.dash hr
      | cons h' k => exact .dots (.dash hr) h' k
    · obtain ⟨z, hz⟩ := inputStringFile_iff.1 h
      exact .viramaMark hz
    · exact .common hr
    · exact .dots (.vowel h) hr hd
    · exact .dots (.sign hc hs) hr hd
    · exact .dots (.virama hc hs) hr hd
    · exact .dots (.inherent hc hs) hr hd
  · intro h
    cases h with
    | sign hc h => exact Or.inl ⟨_, _, _, h, ⟨hc, rfl⟩, rfl, rfl⟩
    | inherent hc h => exact Or.inr (Or.inl ⟨_, ⟨_, _, h, ⟨hc, rfl⟩, rfl⟩, rfl⟩)
    | virama hc h => exact Or.inr (Or.inr (Or.inl ⟨_, ⟨_, _, h, ⟨hc, rfl⟩, rfl⟩, rfl⟩))
    | vowel h => exact Or.inr (Or.inr (Or.inr (Or.inl ⟨_, ⟨h, rfl⟩, rfl⟩)))
    | coda h => exact Or.inr (Or.inr (Or.inr (Or.inr (Or.inl ⟨_, ⟨h, rfl⟩, rfl⟩))))
    | dead h => exact Or.inr (Or.inr (Or.inr (Or.inr (Or.inr (Or.inl ⟨h, rfl⟩)))))
    | length h => exact Or.inr (Or.inr (Or.inr (Or.inr (Or.inr (Or.inr (Or.inl ⟨h, rfl⟩))))))
    | standalone h =>
      iterate 7 apply Or.inr
      exact Or.inl ⟨_, ⟨h, rfl⟩, rfl⟩
    | dash h =>
      iterate 8 apply Or.inr
      exact Or.inl ⟨0, cat_iff.2 ⟨_, [], _, [], 0, 0, (List.append_nil _).symm,
        (List.append_nil _).symm, rfl,
        dash_iff.2 ⟨_, h, rfl, rfl, rfl⟩, Star.nil⟩, rfl⟩
    | viramaMark h =>
      iterate 9 apply Or.inr
      exact Or.inl ⟨_, ⟨inputStringFile_iff.2 ⟨_, h⟩, rfl, rfl⟩, rfl⟩
    | common h =>
      iterate 10 apply Or.inr
      exact Or.inl ⟨h, rfl⟩
    | dots hh hr hd =>
      cases hh with
      | vowel h =>
        iterate 11 apply Or.inr
        exact Or.inl ⟨_, ⟨_, _, ⟨h, rfl⟩, _, hr, _, _, hd, rfl, rfl⟩, rfl⟩
      | dash h =>
        iterate 8 apply Or.inr
        exact Or.inl ⟨0, cat_iff.2 ⟨_, _, _, _, 0, 0, rfl, rfl, rfl,
          dash_iff.2 ⟨_, h, rfl, rfl, rfl⟩, dots_iff.2 ⟨.cons hr hd, rfl⟩⟩, rfl⟩
      | sign hc h =>
        iterate 12 apply Or.inr
        exact Or.inl ⟨_, _, ⟨_, _, _, h, ⟨hc, rfl⟩, rfl, rfl⟩, _, hr, _, _, hd, rfl, rfl⟩
      | virama hc h =>
        iterate 13 apply Or.inr
        exact Or.inl ⟨_, _, ⟨_, _, h, ⟨hc, rfl⟩, rfl⟩, _, hr, _, _, hd, rfl, rfl⟩
      | inherent hc h =>
        iterate 14 apply Or.inr
        exact ⟨_, _, ⟨_, _, h, ⟨hc, rfl⟩, rfl⟩, _, hr, _, _, hd, rfl, rfl⟩

/-! ## Arcs -/

theorem mem_consArcs {p : Nat} {rows inh vir : List Rule} {a : Arc} :
    a ∈ consArcs p rows inh vir ↔ ∃ r ∈ rows, a = ⟨p, r.1, r.2, 0, 2⟩ ∨
      (∃ i ∈ inh, a = ⟨p, r.1, r.2 ++ i.1, 1, 0⟩ ∨ a = ⟨p, r.1, r.2 ++ i.1, 0, 3⟩) ∨
      (∃ v ∈ vir, a = ⟨p, r.1 ++ v.1, r.2, 1, 0⟩ ∨ a = ⟨p, r.1 ++ v.1, r.2, 0, 3⟩) := by
  simp [consArcs, rowArc, List.mem_flatMap]

theorem mem_isoArcs {d : BrahmicData} {a : Arc} : a ∈ isoArcs d ↔
    a ∈ consArcs 0 d.consonant d.inherent d.virama ∨
    (d.subjoined ≠ [] ∧ ((∃ r ∈ d.consonant, a = rowArc 0 0 1 r) ∨
      a ∈ consArcs 1 d.subjoined d.inherent d.virama)) ∨
    (∃ r ∈ d.vowelSign, a = rowArc 2 0 0 r) ∨ (∃ r ∈ d.vowelSign, a = rowArc 2 0 3 r) ∨
    (∃ r ∈ d.vowel, a = rowArc 0 1 0 r) ∨ (∃ r ∈ d.vowel, a = rowArc 0 1 3 r) ∨
    (∃ r ∈ d.vowel, a = preArc dot 3 0 0 r) ∨ (∃ r ∈ d.vowel, a = preArc dot 3 0 3 r) ∨
    (∃ r ∈ d.vowelSign, a = preArc dash 0 1 0 r) ∨ (∃ r ∈ d.vowelSign, a = preArc dash 0 1 3 r) ∨
    (∃ r ∈ d.coda, a = rowArc 0 1 0 r) ∨ (∃ r ∈ d.standalone, a = rowArc 0 1 0 r) ∨
    (∃ r ∈ d.deadConsonant, a = rowArc 0 0 0 r) ∨ (∃ r ∈ d.vowelLength, a = rowArc 0 0 0 r) ∨
    (∃ r ∈ Data.commonSymbol, a = rowArc 0 0 0 r) ∨
    (∃ v ∈ d.virama, a = ⟨0, v.1, [breve], 2, 0⟩) := by
  have hm : ∀ (f : Rule → Arc) (l : List Rule), a ∈ l.map f ↔ ∃ r ∈ l, a = f r := by
    intro f l
    rw [List.mem_map]
    constructor
    · rintro ⟨r, h, rfl⟩; exact ⟨r, h, rfl⟩
    · rintro ⟨r, h, rfl⟩; exact ⟨r, h, rfl⟩
  unfold isoArcs
  simp only [List.mem_append, hm]
  cases d.subjoined with
  | nil => simp
  | cons s l => simp only [List.mem_append, hm, ne_eq, reduceCtorEq, not_false_eq_true, true_and]

/-- Arcs that complete a consonant read up to state `p`. -/
theorem run_cons {d : BrahmicData} {x y : Str} (h : IsoCons d x y) :
    Run (isoArcs d) 0 x y 0 2 ∧
    (∀ i ∈ d.inherent, Run (isoArcs d) 0 x (y ++ i.1) 1 0 ∧ Run (isoArcs d) 0 x (y ++ i.1) 0 3) ∧
    (∀ v ∈ d.virama, Run (isoArcs d) 0 (x ++ v.1) y 1 0 ∧ Run (isoArcs d) 0 (x ++ v.1) y 0 3) := by
  have key : ∀ {p : Nat} {x y : Str} {r : Rule} {rows : List Rule}, r ∈ rows →
      (∀ a ∈ consArcs p rows d.inherent d.virama, a ∈ isoArcs d) →
      Run (isoArcs d) 0 x y 0 p →
      Run (isoArcs d) 0 (x ++ r.1) (y ++ r.2) 0 2 ∧
      (∀ i ∈ d.inherent, Run (isoArcs d) 0 (x ++ r.1) (y ++ r.2 ++ i.1) 1 0 ∧
        Run (isoArcs d) 0 (x ++ r.1) (y ++ r.2 ++ i.1) 0 3) ∧
      (∀ v ∈ d.virama, Run (isoArcs d) 0 (x ++ r.1 ++ v.1) (y ++ r.2) 1 0 ∧
        Run (isoArcs d) 0 (x ++ r.1 ++ v.1) (y ++ r.2) 0 3) := by
    intro p x y r rows hr hsub hrun
    refine ⟨?_, fun i hi => ⟨?_, ?_⟩, fun v hv => ⟨?_, ?_⟩⟩
    · simpa using hrun.trans (Run.single (hsub _ (mem_consArcs.2 ⟨r, hr, Or.inl rfl⟩)))
    · simpa using hrun.trans (Run.single (hsub _
        (mem_consArcs.2 ⟨r, hr, Or.inr (Or.inl ⟨i, hi, Or.inl rfl⟩)⟩)))
    · simpa using hrun.trans (Run.single (hsub _
        (mem_consArcs.2 ⟨r, hr, Or.inr (Or.inl ⟨i, hi, Or.inr rfl⟩)⟩)))
    · simpa using hrun.trans (Run.single (hsub _
        (mem_consArcs.2 ⟨r, hr, Or.inr (Or.inr ⟨v, hv, Or.inl rfl⟩)⟩)))
    · simpa using hrun.trans (Run.single (hsub _
        (mem_consArcs.2 ⟨r, hr, Or.inr (Or.inr ⟨v, hv, Or.inr rfl⟩)⟩)))
  cases h with
  | core h =>
    simpa using key h (fun a ha => mem_isoArcs.2 (Or.inl ha)) (Run.nil 0)
  | @sub r s h hs =>
    have hne : d.subjoined ≠ [] := by intro h; rw [h] at hs; simp at hs
    refine key hs (fun a ha => mem_isoArcs.2 (Or.inr (Or.inl ⟨hne, Or.inr ha⟩))) ?_
    exact Run.single (a := rowArc 0 0 1 r)
      (mem_isoArcs.2 (Or.inr (Or.inl ⟨hne, Or.inl ⟨r, h, rfl⟩⟩)))

theorem run_dotHead {d : BrahmicData} {x y : Str} {w : Nat} (h : DotHead d x y w) :
    Run (isoArcs d) 0 x y w 3 := by
  cases h with
  | @vowel r h =>
    refine Run.single (a := rowArc 0 1 3 r) (mem_isoArcs.2 ?_)
    iterate 5 apply Or.inr
    exact Or.inl ⟨r, h, rfl⟩
  | @dash r h =>
    refine Run.single (a := preArc dash 0 1 3 r) (mem_isoArcs.2 ?_)
    iterate 9 apply Or.inr
    exact Or.inl ⟨r, h, rfl⟩
  | @sign x y r hc h =>
    refine (run_cons hc).1.trans (Run.single (a := rowArc 2 0 3 r) (mem_isoArcs.2 ?_))
    iterate 3 apply Or.inr
    exact Or.inl ⟨r, h, rfl⟩
  | inherent hc h => exact ((run_cons hc).2.1 _ h).2
  | virama hc h => exact ((run_cons hc).2.2 _ h).2

theorem run_dots {d : BrahmicData} {x y : Str} (h : Dots d x y) {r} (hr : r ∈ d.vowel) :
    Run (isoArcs d) 3 (r.1 ++ x) (dot :: r.2 ++ y) 0 0 := by
  induction h generalizing r with
  | nil =>
    have : preArc dot 3 0 0 r ∈ isoArcs d := by
      refine mem_isoArcs.2 ?_
      iterate 6 apply Or.inr
      exact Or.inl ⟨r, hr, rfl⟩
    simpa [preArc] using Run.single this
  | cons h _ ih =>
    have : preArc dot 3 0 3 r ∈ isoArcs d := by
      refine mem_isoArcs.2 ?_
      iterate 7 apply Or.inr
      exact Or.inl ⟨r, hr, rfl⟩
    simpa [preArc] using (Run.single this).trans (ih h)

theorem run_unit {d : BrahmicData} {x y : Str} {w : Nat} (h : IsoUnit d x y w) :
    Run (isoArcs d) 0 x y w 0 := by
  cases h with
  | @sign x y r hc h =>
    refine (run_cons hc).1.trans (Run.single (a := rowArc 2 0 0 r) (mem_isoArcs.2 ?_))
    iterate 2 apply Or.inr
    exact Or.inl ⟨r, h, rfl⟩
  | inherent hc h => exact ((run_cons hc).2.1 _ h).1
  | virama hc h => exact ((run_cons hc).2.2 _ h).1
  | @vowel r h =>
    refine Run.single (a := rowArc 0 1 0 r) (mem_isoArcs.2 ?_)
    iterate 4 apply Or.inr
    exact Or.inl ⟨r, h, rfl⟩
  | @coda r h =>
    refine Run.single (a := rowArc 0 1 0 r) (mem_isoArcs.2 ?_)
    iterate 10 apply Or.inr
    exact Or.inl ⟨r, h, rfl⟩
  | @dead r h =>
    refine Run.single (a := rowArc 0 0 0 r) (mem_isoArcs.2 ?_)
    iterate 12 apply Or.inr
    exact Or.inl ⟨r, h, rfl⟩
  | @length r h =>
    refine Run.single (a := rowArc 0 0 0 r) (mem_isoArcs.2 ?_)
    iterate 13 apply Or.inr
    exact Or.inl ⟨r, h, rfl⟩
  | @standalone r h =>
    refine Run.single (a := rowArc 0 1 0 r) (mem_isoArcs.2 ?_)
    iterate 11 apply Or.inr
    exact Or.inl ⟨r, h, rfl⟩
  | @dash r h =>
    refine Run.single (a := preArc dash 0 1 0 r) (mem_isoArcs.2 ?_)
    iterate 8 apply Or.inr
    exact Or.inl ⟨r, h, rfl⟩
  | @viramaMark v h =>
    refine Run.single (a := ⟨0, v.1, [breve], 2, 0⟩) (mem_isoArcs.2 ?_)
    iterate 15 apply Or.inr
    exact ⟨v, h, rfl⟩
  | @common r h =>
    refine Run.single (a := rowArc 0 0 0 r) (mem_isoArcs.2 ?_)
    iterate 14 apply Or.inr
    exact Or.inl ⟨r, h, rfl⟩
  | dots hh hr hd => exact (run_dotHead hh).trans (run_dots hd hr)

theorem Star.one {a : WRel} {x y : Str} {w : Nat} (h : a x y w) : Star a x y w := by
  simpa using Star.cons h Star.nil

theorem Star.unit {d : BrahmicData} {x y x' y' : Str} {w w' : Nat} (h : IsoUnit d x y w)
    (k : Star (isoUnits d) x' y' w') : Star (isoUnits d) (x ++ x') (y ++ y') (w + w') :=
  Star.cons (isoUnits_iff.2 h) k

/-- What completes a text from each state. -/
def Completes (d : BrahmicData) (p : Nat) (x y : Str) (w : Nat) : Prop :=
  (p = 0 → brahmicToIso d x y w) ∧
  (p = 1 → ∀ r ∈ d.consonant, brahmicToIso d (r.1 ++ x) (r.2 ++ y) w) ∧
  (p = 2 → ∀ a b, IsoCons d a b → brahmicToIso d (a ++ x) (b ++ y) w) ∧
  (p = 3 → ∀ a b v s t, DotHead d a b v → Dots d s t →
    brahmicToIso d (a ++ (s ++ x)) (b ++ (t ++ y)) (v + w))

theorem completes_cons {d : BrahmicData} {p : Nat} {rows : List Rule} {a : Arc}
    (ha : a ∈ consArcs p rows d.inherent d.virama) {x y : Str} {w : Nat}
    (h : Completes d a.dst x y w) {c o : Str}
    (hc : ∀ r ∈ rows, IsoCons d (c ++ r.1) (o ++ r.2)) :
    brahmicToIso d (c ++ (a.inp ++ x)) (o ++ (a.out ++ y)) (a.wt + w) := by
  obtain ⟨r, hr, rfl | ⟨i, hi, rfl | rfl⟩ | ⟨v, hv, rfl | rfl⟩⟩ := mem_consArcs.1 ha
  · have := h.2.2.1 rfl _ _ (hc r hr)
    simpa [List.append_assoc] using this
  · have := Star.unit (.inherent (hc r hr) hi) (h.1 rfl)
    simpa [List.append_assoc, brahmicToIso] using this
  · have := h.2.2.2 rfl _ _ _ _ _ (.inherent (hc r hr) hi) .nil
    simpa [List.append_assoc] using this
  · have := Star.unit (.virama (hc r hr) hv) (h.1 rfl)
    simpa [List.append_assoc, brahmicToIso] using this
  · have := h.2.2.2 rfl _ _ _ _ _ (.virama (hc r hr) hv) .nil
    simpa [List.append_assoc] using this

theorem completes_run {d : BrahmicData} {p q : Nat} {x y : Str} {w : Nat}
    (h : Run (isoArcs d) p x y w q) (hq : q = 0) : Completes d p x y w := by
  induction h with
  | nil q =>
    subst hq
    exact ⟨fun _ => Star.nil, fun h => by simp [rowArc, preArc] at h, fun h => by simp [rowArc, preArc] at h,
      fun h => by simp [rowArc, preArc] at h⟩
  | @cons a x y w q ha _ ih =>
    have ih := ih hq
    have only0 : ∀ {a : Arc}, a.src = 0 →
        brahmicToIso d (a.inp ++ x) (a.out ++ y) (a.wt + w) →
        Completes d a.src (a.inp ++ x) (a.out ++ y) (a.wt + w) := by
      intro a h1 h2
      rw [h1]
      exact ⟨fun _ => h2, fun h => by simp [rowArc, preArc] at h, fun h => by simp [rowArc, preArc] at h,
        fun h => by simp [rowArc, preArc] at h⟩
    have unit0 : ∀ {r : Rule} {v : Nat}, a = ⟨0, r.1, r.2, v, 0⟩ → IsoUnit d r.1 r.2 v →
        Completes d a.src (a.inp ++ x) (a.out ++ y) (a.wt + w) := by
      rintro r v rfl hu
      exact only0 rfl (Star.unit hu (ih.1 rfl))
    have head0 : ∀ {r : Rule} {v : Nat}, a = ⟨0, r.1, r.2, v, 3⟩ → DotHead d r.1 r.2 v →
        Completes d a.src (a.inp ++ x) (a.out ++ y) (a.wt + w) := by
      rintro r v rfl hu
      refine only0 rfl ?_
      simpa using ih.2.2.2 rfl _ _ _ _ _ hu .nil
    rcases mem_isoArcs.1 ha with h | ⟨hne, ⟨r, hr, rfl⟩ | h⟩ | ⟨r, hr, rfl⟩ | ⟨r, hr, rfl⟩ |
      ⟨r, hr, h⟩ | ⟨r, hr, h⟩ | ⟨r, hr, rfl⟩ | ⟨r, hr, rfl⟩ | ⟨r, hr, h⟩ | ⟨r, hr, h⟩ |
      ⟨r, hr, h⟩ | ⟨r, hr, h⟩ | ⟨r, hr, h⟩ | ⟨r, hr, h⟩ | ⟨r, hr, h⟩ | ⟨v, hv, h⟩
    · have hs : a.src = 0 := by
        obtain ⟨r, hr, rfl | ⟨i, hi, rfl | rfl⟩ | ⟨v, hv, rfl | rfl⟩⟩ := mem_consArcs.1 h <;> rfl
      refine only0 hs ?_
      simpa using completes_cons h ih (c := []) (o := []) (fun r hr => by simpa using IsoCons.core hr)
    · refine only0 rfl ?_
      have := ih.2.1 rfl r hr
      simpa [rowArc] using this
    · have hs : a.src = 1 := by
        obtain ⟨r, hr, rfl | ⟨i, hi, rfl | rfl⟩ | ⟨v, hv, rfl | rfl⟩⟩ := mem_consArcs.1 h <;> rfl
      rw [hs]
      refine ⟨fun h => by simp [rowArc, preArc] at h, fun _ r hr => ?_, fun h => by simp [rowArc, preArc] at h,
        fun h => by simp [rowArc, preArc] at h⟩
      exact completes_cons h ih (fun s hs => IsoCons.sub hr hs)
    · refine ⟨fun h => by simp [rowArc, preArc] at h, fun h => by simp [rowArc, preArc] at h, fun _ a b hc => ?_,
        fun h => by simp [rowArc, preArc] at h⟩
      have := Star.unit (.sign hc hr) (ih.1 rfl)
      simpa [rowArc, brahmicToIso] using this
    · refine ⟨fun h => by simp [rowArc, preArc] at h, fun h => by simp [rowArc, preArc] at h, fun _ a b hc => ?_,
        fun h => by simp [rowArc, preArc] at h⟩
      have := ih.2.2.2 rfl _ _ _ _ _ (.sign hc hr) .nil
      simpa [rowArc] using this
    · exact unit0 h (.vowel hr)
    · exact head0 h (.vowel hr)
    · refine ⟨fun h => by simp [rowArc, preArc] at h, fun h => by simp [rowArc, preArc] at h,
        fun h => by simp [rowArc, preArc] at h, fun _ a b v s t hh hd => ?_⟩
      cases hd with
      | nil =>
        have := Star.unit (.dots hh hr .nil) (ih.1 rfl)
        simpa [preArc, brahmicToIso] using this
      | cons hr' hd' =>
        have := Star.unit (.dots hh hr' (hd'.snoc hr)) (ih.1 rfl)
        simpa [preArc, brahmicToIso] using this
    · refine ⟨fun h => by simp [rowArc, preArc] at h, fun h => by simp [rowArc, preArc] at h,
        fun h => by simp [rowArc, preArc] at h, fun _ a b v s t hh hd => ?_⟩
      have := ih.2.2.2 rfl _ _ _ _ _ hh (hd.snoc hr)
      simpa [preArc] using this
    · exact unit0 (r := (r.1, dash :: r.2)) h (.dash hr)
    · exact head0 (r := (r.1, dash :: r.2)) h (.dash hr)
    · exact unit0 h (.coda hr)
    · exact unit0 h (.standalone hr)
    · exact unit0 h (.dead hr)
    · exact unit0 h (.length hr)
    · exact unit0 h (.common hr)
    · exact unit0 (r := (v.1, [breve])) h (IsoUnit.viramaMark (v := v) hv)

/-- The transducer of the code and the list of arcs have the same paths. -/
theorem brahmicToIso_iff_run {d : BrahmicData} {x y : Str} {w : Nat} :
    brahmicToIso d x y w ↔ Run (isoArcs d) 0 x y w 0 := by
  constructor
  · intro h
    induction h with
    | nil => exact Run.nil 0
    | cons h _ ih => exact (run_unit (isoUnits_iff.1 h)).trans ih
  · intro h
    exact (completes_run h rfl).1 rfl

end Nisaba
