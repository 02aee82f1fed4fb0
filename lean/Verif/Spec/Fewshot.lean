import Verif.Model.Fewshot
import Mathlib.LinearAlgebra.Matrix.Symmetric

/-! What few-shot evaluation should compute, in terms of the examples. -/

namespace Verif.FewshotSpec

open Verif Matrix

variable {D C : Nat}

/-- Contract of `jnp.linalg.eigh`: an orthogonal matrix of eigenvectors that diagonalizes the symmetric matrix. -/
def EighOk (eigh : Fewshot.EighFn) : Prop :=
  ∀ n (A : Matrix (Fin n) (Fin n) ℝ), A.IsSymm →
    (eigh n A).2ᵀ * (eigh n A).2 = 1 ∧ A = (eigh n A).2 * diagonal (eigh n A).1 * (eigh n A).2ᵀ

/-- Mean of a feature over the examples. -/
noncomputable def featMean (train : List ((Fin D → ℝ) × Int)) (d : Fin D) : ℝ :=
  (train.map fun e => e.1 d).sum / train.length

/-- Standard deviation of a feature over the examples, plus 1e-5. -/
noncomputable def featStd (train : List ((Fin D → ℝ) × Int)) (d : Fin D) : ℝ :=
  Real.sqrt ((train.map fun e => (e.1 d - featMean train d) ^ 2).sum / train.length) + 1e-5

/-- The linear function with weights `w` (the last one belongs to the constant 100), applied to standardized features. -/
noncomputable def linear (train : List ((Fin D → ℝ) × Int)) (w : Matrix (Fin (D + 1)) (Fin C) ℝ) (f : Fin D → ℝ) (c : Fin C) : ℝ :=
  ∑ d : Fin D, (f d - featMean train d) / featStd train d * w d.castSucc c + 100 * w (Fin.last D) c

/-- The regularized least squares objective: the targets are 1 for the class of the example and -1 for all others. -/
noncomputable def objective (train : List ((Fin D → ℝ) × Int)) (l2 : ℝ) (w : Matrix (Fin (D + 1)) (Fin C) ℝ) : ℝ :=
  (train.map fun e => ∑ c, (linear train w e.1 c - if e.2 = ((c : Nat) : Int) then 1 else -1) ^ 2).sum + l2 * ∑ d, ∑ c, w d c ^ 2

end Verif.FewshotSpec

namespace Verif.FewshotSpec

open Verif

variable {D : Nat}

/-- What the representation function returns for the batches one after the other, handing on the state. -/
def trace {σ β ρ : Type} (fn : σ → β → σ × ρ) : σ → List β → List ρ
  | _, [] => []
  | s, b :: bs => (fn s b).2 :: trace fn (fn s b).1 bs

/-- Examples in `l` with label `c`. -/
def ofClass (l : List ((Fin D → ℝ) × Int)) (c : Nat) : Nat := l.countP fun e => e.2 = (c : Int)

/-- Contract of `np.argsort`: the positions, ordered by value. -/
def ArgsortOk (argsort : List ℝ → List Nat) : Prop :=
  ∀ l, (argsort l).Perm (List.range l.length) ∧ (argsort l).Pairwise fun i j => l.getD i 0 ≤ l.getD j 0

/-- Contract of the permutations of the random generator. -/
def PermOk (perm : Nat → List Nat → List Nat) : Prop := ∀ c l, (perm c l).Perm l

end Verif.FewshotSpec
