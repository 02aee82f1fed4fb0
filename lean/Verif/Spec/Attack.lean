import Mathlib.Analysis.Real.Sqrt
import Mathlib.Data.Finset.Card

/-! What the statistics of an attack mean, in terms of single examples and sets of experts. -/

namespace Verif.AttackSpec

/-- The examples of a batch that are not fake.  Without a mask all are real. -/
def real {X : Type} : List X × Option (List Bool) → List X
  | (xs, none) => xs
  | ([], some _) => []
  | (_ :: _, some []) => []
  | (x :: xs, some (b :: v)) => if b then x :: real (xs, some v) else real (xs, some v)

/-- The experts used for a token: those with a positive weight. -/
noncomputable def used (w : List ℝ) : Finset Nat :=
  open Classical in (Finset.range w.length).filter fun e => 0 < w.getD e 0

/-- The intersection over union of two sets of experts; 0 if both are empty. -/
noncomputable def iou (s t : Finset Nat) : ℝ := ((s ∩ t).card : ℝ) / (s ∪ t).card

end Verif.AttackSpec
