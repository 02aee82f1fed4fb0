import Verif.Model.FewshotAction
import Verif.Model.TrainStep

/-!
Model of the step that computes the features of a batch for the few-shot evaluation (vmoe/evaluate/fewshot.py:280-291), with the
random keys of `Model/TrainStep`.
-/

namespace Verif.FewshotStep

open Verif TrainStep

variable {A X : Type} {D : Nat}

/-- A batch: image, label and mask of every example (vmoe/evaluate/fewshot.py:270-271). -/
abbrev Batch (X : Type) := List (X × Int × Bool)

/-- `_fewshot_step` (vmoe/evaluate/fewshot.py:280-291).  `apply_fn` gives the features of the images; its second result is not
used. -/
def fewshotStep (apply : A → List X → Rngs → List (Fin D → ℝ)) (vars : A) (state : Rngs) (batch : Batch X) :
    Rngs × List ((Fin D → ℝ) × Int × Bool) :=
  let rngs := slice state 0
  let nextRngs := slice state 1
  let features := apply vars (batch.map (·.1)) rngs
  (nextRngs, List.zip features (batch.map (·.2)))

end Verif.FewshotStep
