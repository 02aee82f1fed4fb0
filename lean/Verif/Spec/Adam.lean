import Verif.Props.OptimizerFull

/-! The update of Adam with decoupled weight decay, in closed form: from all gradients so far, without moments and corrections. -/

namespace Verif.AdamSpec

open Verif FlatDict Optimizer TreeSpec RulesSpec

/-- The sum of the entries, with weights that fall by the factor `b` from an entry to the one before. -/
noncomputable def fading (b : ℝ) (xs : List ℝ) : ℝ :=
  ∑ j ∈ Finset.range xs.length, b ^ (xs.length - 1 - j) * xs.getD j 0

/-- The mean of the entries with these weights. -/
noncomputable def ewma (b : ℝ) (xs : List ℝ) : ℝ := fading b xs / ∑ j ∈ Finset.range xs.length, b ^ j

/-- The mean of the gradients over the square root of the mean of their squares. -/
noncomputable def direction (b1 b2 eps epsRoot : ℝ) (xs : List ℝ) : ℝ :=
  ewma b1 xs / (Real.sqrt (ewma b2 (xs.map (· ^ 2)) + epsRoot) + eps)

/-- The entry number `i` of a parameter. -/
def entry (u : Params) (path : List Key) (i : Nat) : ℝ := ((leafOf u path).getD []).getD i 0

/-- Update number `n` with the gradients `g`: after scaling and clipping they are `u`; before, they were `us`; the parameters `p`
become `p'`. -/
def AdamStep (search : List Char → Key → Bool) (c : Config) (b1 b2 eps epsRoot : ℝ) (lr : Schedule.Sched) (n : Nat)
    (us : List Params) (g u p p' : Params) : Prop :=
  ∃ scaled, SameShape g scaled ∧ SameShape g u ∧ SameShape p p' ∧
    (∀ path t k, leafOf g path = some t → FirstRule search c.gradientScale 1 (join path) k →
      leafOf scaled path = some (t.map (k * ·))) ∧
    Clipped c.clipGlobalNorm c.clipAbsolute scaled u ∧
    ∀ path tp, leafOf p path = some tp → ∃ tp', leafOf p' path = some tp' ∧ tp'.length = tp.length ∧
      (FrozenIs search c.frozenPattern c.trainablePattern (join path) → tp' = tp) ∧
      (¬ FrozenIs search c.frozenPattern c.trainablePattern (join path) → ∀ w, DecayIs search c.weightDecay (join path) w →
        ∀ i < tp.length, tp'.getD i 0 = tp.getD i 0 -
          lr n * (direction b1 b2 eps epsRoot ((us ++ [u]).map fun u => entry u path i) + w * tp.getD i 0))

/-- The parameters after these gradients, which after scaling and clipping are the second list. -/
inductive AdamRun (search : List Char → Key → Bool) (c : Config) (b1 b2 eps epsRoot : ℝ) (lr : Schedule.Sched) (p0 : Params) :
    List Params → List Params → Params → Prop
  | start : AdamRun search c b1 b2 eps epsRoot lr p0 [] [] p0
  | step (gs us : List Params) (g u p p' : Params) : AdamRun search c b1 b2 eps epsRoot lr p0 gs us p →
      AdamStep search c b1 b2 eps epsRoot lr gs.length us g u p p' →
      AdamRun search c b1 b2 eps epsRoot lr p0 (gs ++ [g]) (us ++ [u]) p'

end Verif.AdamSpec
