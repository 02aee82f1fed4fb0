import Mathlib.Analysis.SpecialFunctions.Log.Basic
import Mathlib.Analysis.Real.Sqrt

/-! The loss of one pair of an image and a text: the negative logarithm of the probability of the right answer to the question
"do they belong together?", where the model's probability of "yes" is `exp l / (1 + exp l)`. -/

namespace Verif.ContrastiveSpec

/-- Probability of the answer "yes" with logit `l`. -/
noncomputable def yes (l : ℝ) : ℝ := Real.exp l / (1 + Real.exp l)

/-- Loss of a pair. -/
noncomputable def pairLoss (together : Bool) (l : ℝ) : ℝ :=
  if together then -Real.log (yes l) else -Real.log (1 - yes l)

/-- Euclidean norm. -/
noncomputable def length2 {D : Nat} (z : Fin D → ℝ) : ℝ := Real.sqrt (∑ d, z d ^ 2)

end Verif.ContrastiveSpec
