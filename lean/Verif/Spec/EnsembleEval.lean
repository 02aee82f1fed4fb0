import Mathlib.Analysis.SpecialFunctions.Exp
import Mathlib.Algebra.BigOperators.Fin

/-! Probabilities of single models and of ensembles, from the definitions. -/

namespace Verif.EnsembleEvalSpec

variable {C : Nat}

/-- Probability of class `c` of a model with mutually exclusive classes. -/
noncomputable def softmaxProb (x : Fin C → ℝ) (c : Fin C) : ℝ := Real.exp (x c) / ∑ j, Real.exp (x j)

/-- Probability of label `c` of a model with independent labels. -/
noncomputable def sigmoidProb (x : Fin C → ℝ) (c : Fin C) : ℝ := 1 / (1 + Real.exp (-(x c)))

/-- The arithmetic mean. -/
noncomputable def mean (l : List ℝ) : ℝ := l.sum / l.length

/-- The entries of the members for example `b`: the one of member `e` is at position `b * E + e`. -/
def members {α : Type} (E : Nat) (rows : List α) (b : Nat) : List α := (List.range E).filterMap fun e => rows[b * E + e]?

end Verif.EnsembleEvalSpec
