import Mathlib.Probability.CDF
import Mathlib.Probability.Distributions.Gaussian.Real

/-!
The noise of the routers: the distribution that `jax.random.normal` draws from and `jax.scipy.stats.norm.cdf`
(vmoe/nn/routing.py:94-95, 179).
-/

namespace Verif.LoadNoise

open MeasureTheory ProbabilityTheory

/-- The distribution of one entry of `jax.random.normal(key, shape)`: standard normal (vmoe/nn/routing.py:94-95).  That the
entries are real numbers and independent is a simplification. -/
noncomputable def normal : Measure ℝ := gaussianReal 0 1

/-- `jax.scipy.stats.norm.cdf` (vmoe/nn/routing.py:179), over the real numbers. -/
noncomputable def normCdf (x : ℝ) : ℝ := cdf normal x

/-- The distribution of a new draw of the noise of all items and experts of a group (vmoe/nn/routing.py:94-95). -/
noncomputable def fresh (S E : Nat) : Measure (Fin S → Fin E → ℝ) := Measure.pi fun _ => Measure.pi fun _ => normal

end Verif.LoadNoise
