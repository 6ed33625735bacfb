import Verif.Model.Tables
import Mathlib.Analysis.SpecialFunctions.Log.Basic
/-!
# Model of the weight normalisation in the C++ tools

Scores are real numbers in place of `double`; rounding, overflow and underflow are left out.
-/
namespace Nisaba.Softmax

/-- calculate_error_rate.cc:183-189 `GetNormalizer`. -/
noncomputable def getNormalizer (scores : List ℝ) : ℝ :=
  -Real.log (scores.foldl (fun expSum s => expSum + Real.exp (-s)) 0)

/-- calculate_error_rate.cc:193-209 `WriteCands`: the probabilities returned; the output to the file
is left out. -/
noncomputable def writeCands (scores : List ℝ) : List ℝ :=
  scores.map (fun s => Real.exp (-s + getNormalizer scores))

/-- Loop of `NormAndPairList` (kbest-full-string-util.cc:188-191) and of `GetOutputs`
(kbest-full-string-util.cc:252-265). -/
noncomputable def totLoop : ℝ → List ℝ → ℝ
  | tot, [] => tot
  | tot, s :: l => totLoop (-Real.log (Real.exp (-tot) + Real.exp (-s))) l

/-- kbest-full-string-util.cc:179-199 `NormAndPairList` for one list.  `none` is the failing check on
an empty list. -/
noncomputable def normAndPair {α : Type} (cands : List (α × ℝ)) : Option (List (α × ℝ)) :=
  match cands with
  | [] => none
  | c :: cs =>
    let tot := totLoop c.2 (cs.map (·.2))
    some ((c :: cs).map (fun p => (p.1, p.2 - tot)))

/-- kbest-full-string-util.cc:251-271, end of `GetOutputs`: path costs are normalised.  The result is
empty when there is no path. -/
noncomputable def getOutputsNorm {α : Type} (paths : List (α × ℝ)) : List (α × ℝ) :=
  match paths with
  | [] => []
  | c :: cs =>
    let tot := totLoop c.2 (cs.map (·.2))
    (c :: cs).map (fun p => (p.1, p.2 - tot))

end Nisaba.Softmax
