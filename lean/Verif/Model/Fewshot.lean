import Mathlib.LinearAlgebra.Matrix.Notation
import Mathlib.Data.Matrix.Mul
import Mathlib.Analysis.Real.Sqrt
import Verif.Model.PyErr
import Verif.Model.PyDict
import Verif.Model.EnsembleEval

/-!
Few-shot evaluation (vmoe/evaluate/fewshot.py).  Numbers are reals.  `np.random`'s permutations, `jnp.linalg.eigh` and
`np.argsort` are parameters; their contracts are hypotheses of the theorems.
-/

namespace Verif.Fewshot

open Verif Matrix

variable {D : Nat}

/-- An example after the representation was computed: features and label (vmoe/evaluate/fewshot.py:272-273). -/
abbrev Example (D : Nat) := (Fin D → ℝ) × Int

/-- `_compute_representation` (vmoe/evaluate/fewshot.py:260-277).  `fn` is the representation function: it gives the next
state, and the features, the label and the mask of every example of the batch (arrays of the same length). -/
def computeRepresentation {σ β : Type} (fn : σ → β → σ × List ((Fin D → ℝ) × Int × Bool)) (state : σ) (batches : List β) :
    Except PyErr (σ × List (Example D)) :=
  let (state, chunks) := batches.foldl (fun (state, chunks) batch =>
    let (state, rows) := fn state batch
    (state, chunks ++ [(rows.filter fun r => r.2.2).map fun r => (r.1, r.2.1)])) (state, ([] : List (List (Example D))))
  if chunks.isEmpty then .error .valueError else .ok (state, chunks.flatten)

/-- `np.where(tr_labels == c)[0]` (vmoe/evaluate/fewshot.py:246). -/
def whereLabel (examples : List (Example D)) (c : Nat) : List Nat :=
  (List.range examples.length).filter fun i => examples[i]?.any fun e => e.2 = (c : Int)

/-- `indices[:shot]`; a negative number drops from the end (vmoe/evaluate/fewshot.py:249). -/
def sliceTo (l : List Nat) (shot : Int) : List Nat :=
  if 0 ≤ shot then l.take shot.toNat else l.take (l.length - shot.natAbs)

/-- `class_indices` (vmoe/evaluate/fewshot.py:244-246); `perm c l` is the permutation that the generator gives for the `c`-th
class. -/
def classIndices (perm : Nat → List Nat → List Nat) (examples : List (Example D)) (numClasses : Nat) : List (List Nat) :=
  (List.range numClasses).map fun c => perm c (whereLabel examples c)

/-- `all_idx` (vmoe/evaluate/fewshot.py:249-250); concatenating nothing raises `ValueError`. -/
def allIdx (classIndices : List (List Nat)) (shot : Int) : Except PyErr (List Nat) :=
  if classIndices.isEmpty then .error .valueError else .ok (classIndices.map fun l => sliceTo l shot).flatten

/-- `tr_features[all_idx], tr_labels[all_idx]` (vmoe/evaluate/fewshot.py:251). -/
def select (examples : List (Example D)) (idx : List Nat) : Except PyErr (List (Example D)) :=
  idx.mapM fun i => match examples[i]? with
    | some e => .ok e
    | none => .error .indexError

/-- `jnp.mean(x, axis=0)` (vmoe/evaluate/fewshot.py:379). -/
noncomputable def colMean {N : Nat} (x : Matrix (Fin N) (Fin D) ℝ) (d : Fin D) : ℝ := (∑ i, x i d) / N

/-- `jnp.std(x, axis=0) + 1e-5` (vmoe/evaluate/fewshot.py:380). -/
noncomputable def colStd {N : Nat} (x : Matrix (Fin N) (Fin D) ℝ) (d : Fin D) : ℝ :=
  Real.sqrt ((∑ i, (x i d - colMean x d) ^ 2) / N) + 1e-5

/-- `(x - mean) / std`, and the padding with `BIAS_CONSTANT` (vmoe/evaluate/fewshot.py:381-384 and 357-358; the constant is
defined in line 44). -/
noncomputable def whiten {N : Nat} (mean std : Fin D → ℝ) (x : Matrix (Fin N) (Fin D) ℝ) : Matrix (Fin N) (Fin (D + 1)) ℝ :=
  fun i => Fin.snoc (α := fun _ => ℝ) (fun d => (x i d - mean d) / std d) 100

/-- `2.0 * jax.nn.one_hot(y, num_classes) - 1.0` (vmoe/evaluate/fewshot.py:387). -/
noncomputable def targets {N : Nat} (y : Fin N → Int) (C : Nat) : Matrix (Fin N) (Fin C) ℝ :=
  fun i c => 2 * (if y i = (c : Nat) then 1 else 0) - 1

/-- The cached values (vmoe/evaluate/fewshot.py:417); `K` is the size of the decomposed matrix. -/
structure Cache (D C : Nat) where
  K : Nat
  eigs : Fin K → ℝ
  rhs : Matrix (Fin K) (Fin C) ℝ
  lhs : Matrix (Fin (D + 1)) (Fin K) ℝ
  mean : Fin D → ℝ
  std : Fin D → ℝ

/-- A function like `jnp.linalg.eigh`: eigenvalues and the matrix of eigenvectors (used in
vmoe/evaluate/fewshot.py:409 and 413). -/
abbrev EighFn := ∀ n : Nat, Matrix (Fin n) (Fin n) ℝ → (Fin n → ℝ) × Matrix (Fin n) (Fin n) ℝ

/-- `_precompute_cache` (vmoe/evaluate/fewshot.py:376-418). -/
noncomputable def precomputeCache (eigh : EighFn) {N : Nat} (x : Matrix (Fin N) (Fin D) ℝ) (y : Fin N → Int) (C : Nat) :
    Cache D C :=
  let mean := colMean x
  let std := colStd x
  let x := whiten mean std x
  let y := targets y C
  if N ≥ D + 1 then
    let (eigs, q) := eigh _ (xᵀ * x)
    { K := D + 1, eigs, rhs := qᵀ * (xᵀ * y), lhs := q, mean, std }
  else
    let (eigs, q) := eigh _ (x * xᵀ)
    { K := N, eigs, rhs := qᵀ * y, lhs := xᵀ * q, mean, std }

/-- `w` in `_eig_fewshot_acc_fn` (vmoe/evaluate/fewshot.py:360-367). -/
noncomputable def weights {C : Nat} (cache : Cache D C) (l2 : ℝ) : Matrix (Fin (D + 1)) (Fin C) ℝ :=
  let scaling := fun k => 1 / (cache.eigs k + l2)
  (Matrix.of fun d k => cache.lhs d k * scaling k) * cache.rhs

/-- The predictions in `_eig_fewshot_acc_fn` (vmoe/evaluate/fewshot.py:357-358, 370); `none` stands for the error of an
argmax over no classes. -/
noncomputable def predict {C T : Nat} (cache : Cache D C) (x : Matrix (Fin T) (Fin D) ℝ) (l2 : ℝ) (t : Fin T) :
    Option (Fin C) :=
  EnsembleEval.argmax ((whiten cache.mean cache.std x * weights cache l2) t)

/-- `_eig_fewshot_acc_fn` (vmoe/evaluate/fewshot.py:354-371). -/
noncomputable def accuracy {C T : Nat} (cache : Cache D C) (x : Matrix (Fin T) (Fin D) ℝ) (y : Fin T → Int) (l2 : ℝ) : ℝ :=
  (∑ t, if (predict cache x l2 t).map (fun c : Fin C => ((c : Nat) : Int)) = some (y t) then (1 : ℝ) else 0) / T

/-- Features as a matrix (vmoe/evaluate/fewshot.py:251). -/
def featuresOf (l : List (Example D)) : Matrix (Fin l.length) (Fin D) ℝ := fun i => (l[i]).1

/-- Labels as a vector (vmoe/evaluate/fewshot.py:251). -/
def labelsOf (l : List (Example D)) : Fin l.length → Int := fun i => (l[i]).2

/-- One result: accuracy on the test set after training on `train` (vmoe/evaluate/fewshot.py:252-255). -/
noncomputable def score (eigh : EighFn) (C : Nat) (train test : List (Example D)) (l2 : ℝ) : ℝ :=
  accuracy (precomputeCache eigh (featuresOf train) (labelsOf train) C) (featuresOf test) (labelsOf test) l2

/-- `_compute_fewshot_metrics` (vmoe/evaluate/fewshot.py:227-257), after the two calls of `_compute_representation`. -/
noncomputable def fewshotMetrics (eigh : EighFn) (perm : Nat → List Nat → List Nat) (shots : List Int) (l2Regs : List ℝ)
    (numClasses : Nat) (train test : List (Example D)) : Except PyErr (PyDict (Int × ℝ) ℝ) :=
  let classes := classIndices perm train numClasses
  shots.foldlM (fun results shot => do
    let idx ← allIdx classes shot
    let xy ← select train idx
    .ok (l2Regs.foldl (fun results l2 => PyDict.set results (shot, l2) (score eigh numClasses xy test l2)) results)) []

/-- `np.argsort(np.argsort(...))` for the accuracies of one data set (vmoe/evaluate/fewshot.py:304-305). -/
noncomputable def ranks (argsort : List ℝ → List Nat) (accs : List ℝ) : List Nat :=
  argsort ((argsort accs).map fun (n : Nat) => (n : ℝ))

/-- `np.argmax` of a list: first position of the largest value; `ValueError` for an empty list (used in
vmoe/evaluate/fewshot.py:306). -/
noncomputable def argmaxList (l : List ℝ) : Except PyErr Nat :=
  match EnsembleEval.argmax (fun i : Fin l.length => l[i]) with
  | some i => .ok i
  | none => .error .valueError

/-- The iteration of `_find_best_l2_reg` for one number of shots (vmoe/evaluate/fewshot.py:302-306); `accs` has, for every data
set, the accuracies with the regularizations.  The result is the position in `l2_regs`.  Without data sets NumPy's mean is
NaN and the first regularization is chosen. -/
noncomputable def bestL2 (argsort : List ℝ → List Nat) (numRegs : Nat) (accs : List (List ℝ)) : Except PyErr Nat :=
  let regRanks := accs.map (ranks argsort)
  if numRegs = 0 then .error .valueError
  else if accs.isEmpty then .ok 0
  else argmaxList ((List.range numRegs).map fun j =>
    (regRanks.map fun r => ((r.getD j 0 : Nat) : ℝ)).sum / regRanks.length)

/-- `_find_best_l2_reg` (vmoe/evaluate/fewshot.py:294-307). -/
noncomputable def findBestL2 {ν : Type} (argsort : List ℝ → List Nat) (allResults : PyDict ν (PyDict (Int × ℝ) ℝ))
    (shots : List Int) (l2Regs : List ℝ) : Except PyErr (PyDict Int ℝ) :=
  shots.foldlM (fun best shot => do
    let accs ← allResults.mapM fun nr => l2Regs.mapM fun l2 => match PyDict.get? nr.2 (shot, l2) with
      | some a => .ok a
      | none => .error .keyError
    let j ← bestL2 argsort l2Regs.length accs
    match l2Regs[j]? with
    | some l2 => .ok (PyDict.set best shot l2)
    | none => .error .indexError) []

end Verif.Fewshot
