import Verif.Model.ThingValue
/-!
# Values of things and `is_equal` (C130)
-/
namespace Nisaba.Props
open Nisaba.ThingValue
variable {K F : Type}

/-- What is used of Python and Pynini: no object has an attribute with the empty name, and `==` and
`pyn.equal` are reflexive and symmetric. -/
structure ThingEnv (env : Env K F) : Prop where
  noName : ∀ o, env.attr o [] = none
  kRefl : ∀ k, env.kEq k k = true
  kSymm : ∀ k l, env.kEq k l = env.kEq l k
  fRefl : ∀ f, env.equal f f = true
  fSymm : ∀ f g, env.equal f g = env.equal g f

/-- C130, the value of a new thing: the thing itself if no object is given; the object if no
attribute is given or the object lacks it; the attribute otherwise.  In particular the attribute
`value` copies the value of another thing. -/
theorem C130_value (env : Env K F) (h : ThingEnv env) (id : Nat) (al tx at_ : Str) (v w : Obj K F)
    (i : Nat) (al' tx' : Str) (u : Option (Obj K F)) :
    (isNothing v = true → valueOf (mkThing env id al tx v at_) = mkThing env id al tx v at_) ∧
    (isNothing v = false → valueOf (mkThing env id al tx v []) = v) ∧
    (isNothing v = false → (∀ j a t x, v ≠ .thing j a t x) →
      (env.attr v at_ = none → valueOf (mkThing env id al tx v at_) = v) ∧
      (env.attr v at_ = some w → valueOf (mkThing env id al tx v at_) = w)) ∧
    valueOf (mkThing env id al tx (.thing i al' tx' u) (lit "value")) = valueOf (.thing i al' tx' u) ∧
    valueOf (mkThing env id al tx (.thing i al' tx' u) (lit "alias")) = .str al' ∧
    valueOf (mkThing env id al tx (.thing i al' tx' u) (lit "text")) = .str tx' := by
  refine ⟨?_, ?_, ?_, by rfl, by rfl, by rfl⟩
  · intro hv
    simp [mkThing, hv, valueOf]
  · intro hv
    simp only [mkThing, hv, Bool.not_false, if_true, valueOf, Option.getD_some]
    cases v with
    | thing j a t x =>
      have e : ([] : Str) ≠ lit "alias" ∧ ([] : Str) ≠ lit "text" ∧ ([] : Str) ≠ lit "value" := by
        decide
      simp only [getAttr]
      rw [if_neg e.1, if_neg e.2.1, if_neg e.2.2, h.noName]
      rfl
    | _ => simp [getAttr, h.noName]
  · intro hv hne
    have e : getAttr env v at_ = (env.attr v at_).getD v := by
      cases v with
      | thing j a t x => exact absurd rfl (hne j a t x)
      | _ => rfl
    simp only [mkThing, hv, Bool.not_false, if_true, valueOf, Option.getD_some, e]
    exact ⟨fun h => by rw [h]; rfl, fun h => by rw [h]; rfl⟩

/-- C130: `is_equal` is symmetric, also in the errors it raises. -/
theorem C130_symm (env : Env K F) (h : ThingEnv env) (a b : Obj K F) :
    isEqual env a b = isEqual env b a := by
  have hp : ∀ x y : Obj K F, pynEqual env x y = pynEqual env y x := by
    intro x y
    cases x <;> cases y <;> simp only [pynEqual] <;> rw [h.fSymm]
  have hq : ∀ x y : Obj K F, pyEq env x y = pyEq env y x := by
    intro x y
    cases x <;> cases y <;> simp only [pyEq, hp] <;> first | rw [h.kSymm] | rw [Bool.beq_comm]
  unfold isEqual
  rw [Bool.or_comm (isFst b), Bool.or_comm (!isFstLike b), Bool.and_comm (isString env b),
    Bool.or_comm (isNothing (valueOf b)), hp b a, hq (valueOf b) (valueOf a)]
  split
  · split
    · rfl
    · split
      · cases ha : strOfFstlike env a with
        | ok s =>
          cases hb : strOfFstlike env b with
          | ok t => simp only [Except.ok.injEq]; rw [Bool.beq_comm]
          | error e => rfl
        | error e =>
          cases hb : strOfFstlike env b with
          | ok t => rfl
          | error e' =>
            have key : ∀ (o : Obj K F) (e : Err), isString env o = true →
                strOfFstlike env o ≠ .error e := by
              intro o e ho
              cases o with
              | fst f =>
                simp only [isString] at ho
                obtain ⟨s, hs⟩ := Option.isSome_iff_exists.1 ho
                simp [strOfFstlike, hs]
              | str s => simp [strOfFstlike]
              | _ => simp [isString] at ho
            rename_i hs
            rw [Bool.and_eq_true] at hs
            exact absurd ha (key a e hs.1)
      · rfl
  · rfl

/-- C130: an object is equal to itself exactly if its value is not a `Nothing`. -/
theorem C130_refl (env : Env K F) (h : ThingEnv env) (a : Obj K F) :
    isEqual env a a = .ok (!isNothing (valueOf a)) := by
  have hq : ∀ x : Obj K F, pyEq env x x = .ok true := by
    intro x
    cases x <;> simp [pyEq, pynEqual, h.kRefl, h.fRefl]
  cases a with
  | fst f =>
    simp only [isEqual, isFst, isFstLike, isString, strOfFstlike, pynEqual, valueOf, isNothing, h.fRefl]
    cases env.string f <;> simp
  | _ =>
    simp only [isEqual, isFst, Bool.or_self, Bool.false_eq_true, if_false, hq]
    split
    · next h => simp [h]
    · next h => simp [h]

/-- C130: an object whose value is a `Nothing` is equal to no object. -/
theorem C130_nothing (env : Env K F) (a b : Obj K F) (h : isNothing (valueOf a) = true) :
    isEqual env a b = .ok false ∧ isEqual env b a = .ok false := by
  have ha : isFstLike a = false := by
    cases a with
    | fst f => simp [valueOf, isNothing] at h
    | str s => simp [valueOf, isNothing] at h
    | _ => rfl
  have ha' : isFst a = false := by
    cases a with
    | fst f => simp [isFstLike] at ha
    | _ => rfl
  unfold isEqual
  constructor
  · cases hb : isFst b <;> simp [ha, ha', hb, h]
  · cases hb : isFst b <;> simp [ha, ha', hb, h]

/-- An object that is a string, or a thing whose value is a string. -/
def HasStr (o : Obj K F) (s : Str) : Prop :=
  o = .str s ∨ ∃ i al tx, o = .thing i al tx (some (.str s))

/-- An Fst or a string that spells `s`. -/
def Spells (env : Env K F) (o : Obj K F) (s : Str) : Prop :=
  o = .str s ∨ ∃ f, o = .fst f ∧ env.string f = some s

/-- C130: strings and things whose values are strings are compared by these strings; strings and Fsts
by the strings they spell; things that are their own values by identity. -/
theorem C130_text (env : Env K F) (a b : Obj K F) (s t : Str) (i j : Nat) (al tx al' tx' : Str) :
    (HasStr a s → HasStr b t → (isEqual env a b = .ok true ↔ s = t)) ∧
    (Spells env a s → Spells env b t → (isEqual env a b = .ok true ↔ s = t)) ∧
    (isEqual env (.thing i al tx none : Obj K F) (.thing j al' tx' none) = .ok true ↔ i = j) := by
  refine ⟨?_, ?_, ?_⟩
  · rintro (rfl | ⟨_, _, _, rfl⟩) (rfl | ⟨_, _, _, rfl⟩) <;>
      simp [isEqual, isFst, valueOf, isNothing, pyEq]
  · rintro (rfl | ⟨f, rfl, hf⟩) (rfl | ⟨g, rfl, hg⟩)
    · simp [isEqual, isFst, valueOf, isNothing, pyEq]
    · simp [isEqual, isFst, isFstLike, isString, strOfFstlike, hg]
    · simp [isEqual, isFst, isFstLike, isString, strOfFstlike, hf]
    · simp [isEqual, isFst, isFstLike, isString, strOfFstlike, hf, hg]
  · simp [isEqual, isFst, valueOf, isNothing, pyEq]

/-- No Fst, neither the object nor its value. -/
def NoFst (o : Obj K F) : Prop := isFst o = false ∧ isFst (valueOf o) = false

/-- C130: `is_equal` is transitive on objects that are neither Fsts nor things with an Fst as value.
Missing: Fsts, see `C130_trans_violated`. -/
theorem C130_trans_partial (env : Env K F) (ht : ∀ k l m, env.kEq k l = true → env.kEq l m = true →
    env.kEq k m = true) (a b c : Obj K F) (ha : NoFst a) (hb : NoFst b) (hc : NoFst c)
    (hab : isEqual env a b = .ok true) (hbc : isEqual env b c = .ok true) :
    isEqual env a c = .ok true := by
  have key : ∀ x y : Obj K F, isFst x = false → isFst y = false → isEqual env x y = .ok true →
      isNothing (valueOf x) = false ∧ isNothing (valueOf y) = false ∧
        pyEq env (valueOf x) (valueOf y) = .ok true := by
    intro x y hx hy h
    simp only [isEqual, hx, hy, Bool.or_self, Bool.false_eq_true, if_false] at h
    split at h
    · simp at h
    · next hn =>
      simp only [Bool.or_eq_true, not_or, Bool.not_eq_true] at hn
      refine ⟨hn.1, hn.2, ?_⟩
      split at h
      · next r hr => rw [hr, h]
      · cases h
  obtain ⟨n1, n2, e1⟩ := key a b ha.1 hb.1 hab
  obtain ⟨_, n3, e2⟩ := key b c hb.1 hc.1 hbc
  have e3 : pyEq env (valueOf a) (valueOf c) = .ok true := by
    have fa := ha.2
    have fb := hb.2
    have fc := hc.2
    revert e1 e2 fa fb fc
    generalize valueOf a = x
    generalize valueOf b = y
    generalize valueOf c = z
    intro e1 e2 fa fb fc
    cases x <;> cases y <;> simp_all [pyEq, isFst] <;> cases z <;> simp_all [pyEq, isFst]
    exact ht _ _ _ e1 e2
  simp [isEqual, ha.1, hc.1, n1, n3, e3]

/-- The environment of the examples: other objects are numbers, Fsts are strings or the Fst `none`
without a string. -/
def thingEnv : Env Nat (Option Str) where
  kEq := fun k l => k == l
  attr := fun _ _ => none
  string := id
  equal := fun f g => f == g
  compile := some

theorem thingEnv_ok : ThingEnv thingEnv where
  noName := fun _ => rfl
  kRefl := by simp [thingEnv]
  kSymm := by intro k l; simp only [thingEnv]; rw [Bool.beq_comm]
  fRefl := by simp [thingEnv]
  fSymm := by intro f g; simp only [thingEnv]; rw [Bool.beq_comm]

/-- A thing, a thing with its value and the value itself are equal. -/
example : isEqual thingEnv (mkThing thingEnv 1 [97] [] (.other 7) []) (.other 7) = .ok true ∧
    isEqual thingEnv (.other 7)
      (mkThing thingEnv 2 [98] [] (mkThing thingEnv 1 [97] [] (.other 7) []) (lit "value")) = .ok true ∧
    NoFst (mkThing thingEnv 1 [97] [] (.other 7) []) := ⟨by rfl, by rfl, by rfl, by rfl⟩

/-- C130, the property does not hold for Fsts: a thing whose value is a string equals the string, the
string equals the Fst that spells it, but the thing does not equal the Fst. -/
theorem C130_trans_violated (env : Env K F) (i : Nat) (al tx s : Str) (f : F)
    (hf : env.string f = some s) :
    isEqual env (.thing i al tx (some (.str s))) (.str s) = .ok true ∧
    isEqual env (.str s) (.fst f) = .ok true ∧
    isEqual env (.thing i al tx (some (.str s))) (.fst f) = .ok false := by
  refine ⟨?_, ?_, ?_⟩
  · simp [isEqual, isFst, valueOf, isNothing, pyEq]
  · simp [isEqual, isFst, isFstLike, isString, strOfFstlike, hf]
  · simp [isEqual, isFst, isFstLike]

example : thingEnv.string (some [97]) = some [97] := rfl

/-- C130, the documented rule does not hold for Fsts: a thing made from an Fst has this Fst as its
value but does not equal it, and its comparison with a thing made from an object that is neither a
string nor an Fst raises an error. -/
theorem C130_fst_value_violated (env : Env K F) (h : ThingEnv env) (i j : Nat) (al tx al' tx' : Str)
    (f : F) (k : K) :
    valueOf (mkThing env i al tx (.fst f) []) = .fst f ∧
    isEqual env (.fst f) (.fst f) = .ok true ∧
    isEqual env (mkThing env i al tx (.fst f) []) (.fst f) = .ok false ∧
    isEqual env (mkThing env i al tx (.fst f) []) (mkThing env j al' tx' (.other k) []) =
      .error .typeError := by
  refine ⟨(C130_value env h i al tx [] (.fst f) (.fst f) 0 [] [] none).2.1 rfl, ?_, ?_, ?_⟩
  · rw [C130_refl env h]; rfl
  · simp [isEqual, isFst, isFstLike, mkThing]
  · have e1 : mkThing env i al tx (.fst f) [] = .thing i al tx (some (.fst f)) := by
      simp [mkThing, isNothing, getAttr, h.noName]
    have e2 : mkThing env j al' tx' (.other k) [] = .thing j al' tx' (some (.other k)) := by
      simp [mkThing, isNothing, getAttr, h.noName]
    rw [e1, e2]
    simp [isEqual, isFst, valueOf, isNothing, pyEq, pynEqual]

end Nisaba.Props
