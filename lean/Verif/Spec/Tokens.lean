import Verif.Spec.Routing
import Mathlib.Analysis.Complex.Exponential
import Mathlib.Data.Fin.Basic
import Mathlib.Algebra.BigOperators.Fin

/-!
Specification of token grouping and of softmax gates, independent of the code: tokens are numbered
sequence after sequence; group `g` holds the tokens number `g*S, ..., g*S + S - 1`.
-/

namespace Verif.Spec

/-- Number of token `t` of sequence `b`, when sequences have `T` tokens. -/
def tokenNumber (T b t : Nat) : Nat := b * T + t

/-- Reading a token by its number. -/
def tokenOf {M : Type*} [Inhabited M] {B T : Nat} (x : Fin B → Fin T → M) (n : Nat) : M :=
  if h : n / T < B ∧ n % T < T then x ⟨n / T, h.1⟩ ⟨n % T, h.2⟩ else default

/-- Exponential weights normalized to sum one. -/
noncomputable def expWeights {E : Nat} (l : Fin E → ℝ) (e : Fin E) : ℝ :=
  Real.exp (l e) / ∑ e', Real.exp (l e')

/-- Gates of the `s`-th token of group `g`: normalized exponentials of the products with the gating
kernel plus `sigma` times noise. -/
noncomputable def tokenGates {B T H E : Nat} (S : Nat) (kernel : Fin H → Fin E → ℝ) (sigma : ℝ)
    (z : Nat → Nat → Nat → ℝ) (x : Fin B → Fin T → Fin H → ℝ) (g : Nat) (s : Fin S) : Fin E → ℝ :=
  expWeights (fun e => (∑ h, tokenOf x (g * S + s) h * kernel h e) + sigma * z g s e)

end Verif.Spec
