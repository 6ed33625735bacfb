import Verif.Model.Acronym
import Verif.Lemmas.NtDfa
/-!
# natural_translit: references to inventories

The model of the attributes of the inventories is total: an unknown name gives a default.  The grammars
refer to defined names only.
-/
namespace Nisaba.Props
open Nisaba Nisaba.NT

/-- The attributes of `GRAPHEME_INVENTORY` that `Model/NtBrahmic.lean` and `Model/Acronym.lean` refer to. -/
def grRefs : List Str := [
  a!"A", a!"AA", a!"AA_I", a!"AI", a!"AI_I", a!"ANS", a!"AU", a!"AU_I", a!"A_I", a!"B", a!"BH",
  a!"C", a!"CH", a!"CND", a!"EE", a!"G", a!"H", a!"J", a!"NA", a!"NY", a!"OO", a!"OO_I", a!"PH",
  a!"RD", a!"RDH", a!"RR", a!"SH", a!"SS", a!"T", a!"TIP", a!"U", a!"U_I", a!"V", a!"YY"]

/-- The attributes of `PHONEME_INVENTORY` of the Brahmic scripts. -/
def phRefs : List Str := [
  a!"A", a!"AE", a!"ASP", a!"A_I", a!"A_U", a!"B", a!"D", a!"DD", a!"DI", a!"DURH", a!"D_ZH",
  a!"E", a!"EC", a!"EH", a!"F", a!"G", a!"H", a!"I", a!"K", a!"L", a!"LL", a!"M", a!"N", a!"NG",
  a!"NI", a!"NN", a!"NSL", a!"NY", a!"O", a!"OH", a!"P", a!"R", a!"RD", a!"RRU", a!"RT", a!"S",
  a!"SH", a!"SIL", a!"SS", a!"SYL", a!"T", a!"TI", a!"TT", a!"U", a!"VU", a!"V_PRN", a!"V_TNT",
  a!"Y", a!"Z", a!"ZH"]

/-- The attributes of `TRANSLIT_INVENTORY`. -/
def trRefs : List Str := [
  a!"A", a!"C", a!"D", a!"DEL", a!"E", a!"G", a!"H", a!"I", a!"N", a!"O", a!"R", a!"S", a!"S_AA",
  a!"S_AI", a!"S_AU", a!"S_CH", a!"S_II", a!"S_SH", a!"T", a!"W"]

set_option maxRecDepth 100000 in
/-- Every reference is the alias of an item. -/
theorem refs_defined :
    (∀ a ∈ grRefs, ∃ c ∈ Brh.CHAR, c.alias = a) ∧ (∀ a ∈ phRefs, ∃ p ∈ Psa.PHONEMES, p.alias = a) ∧
      ∀ a ∈ trRefs, ∃ c ∈ Ltn.CHARS, c.alias = a := by
  have h : (grRefs.all fun a => Brh.CHAR.any fun c => seq c.alias a) = true := by decide +kernel
  have k : (phRefs.all fun a => Psa.PHONEMES.any fun p => seq p.alias a) = true := by decide +kernel
  have t : (trRefs.all fun a => Ltn.CHARS.any fun c => seq c.alias a) = true := by decide +kernel
  refine ⟨fun a ha => ?_, fun a ha => ?_, fun a ha => ?_⟩
  · obtain ⟨c, hc, he⟩ := List.any_eq_true.1 (List.all_eq_true.1 h a ha); exact ⟨c, hc, seq_eq.1 he⟩
  · obtain ⟨c, hc, he⟩ := List.any_eq_true.1 (List.all_eq_true.1 k a ha); exact ⟨c, hc, seq_eq.1 he⟩
  · obtain ⟨c, hc, he⟩ := List.any_eq_true.1 (List.all_eq_true.1 t a ha); exact ⟨c, hc, seq_eq.1 he⟩

example : a!"VCL" ∉ grRefs ∧ a!"CND" ∈ grRefs := by decide

end Nisaba.Props
