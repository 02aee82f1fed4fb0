import Verif.Model.NdArray
import Verif.Model.Summarizer

/-!
The transformations used to initialize a model from a checkpoint (vmoe/initialization/rules.py:226-381).  Arrays have
entries of any type.  `scipy.ndimage.zoom` and the square root of floats are parameters.
-/

namespace Verif.InitRules

open Verif
open _root_.Verif.Summarizer (resolveAxis)

variable {α : Type}

/-- The elements of a list at positions that are not in `axes`, counted from `i` (used in vmoe/initialization/rules.py:249). -/
def dropAxes (axes : List Nat) : Nat → List Nat → List Nat
  | _, [] => []
  | i, d :: ds => if i ∈ axes then dropAxes axes (i + 1) ds else d :: dropAxes axes (i + 1) ds

/-- The shape with `n` axes, counted from `i`, with size one in `axes` and the sizes of `shape` elsewhere (used in
vmoe/initialization/rules.py:249). -/
def insertOnes (axes : List Nat) : Nat → Nat → List Nat → List Nat
  | 0, _, _ => []
  | n + 1, i, shape =>
    if i ∈ axes then 1 :: insertOnes axes n (i + 1) shape
    else match shape with
      | [] => []
      | d :: ds => d :: insertOnes axes n (i + 1) ds

/-- `jnp.expand_dims(x, axis=axes)` (vmoe/initialization/rules.py:249). -/
def expandDims (x : NdArray α) (axes : List Int) : Except PyErr (NdArray α) := do
  let ndim := x.shape.length + axes.length
  let l ← axes.mapM (resolveAxis ndim)
  if l.Nodup then return ⟨insertOnes l ndim 0 x.shape, fun idx => x.get (dropAxes l 0 idx)⟩
  else throw .valueError

/-- `output[a] = r` for a list and an index that may be negative (vmoe/initialization/rules.py:257). -/
def setItem (output : List Nat) (a : Int) (r : Nat) : Except PyErr (List Nat) :=
  match resolveAxis output.length a with
  | .ok i => .ok (output.set i r)
  | .error _ => .error .indexError

/-- The loop of `_make_reps` (vmoe/initialization/rules.py:256-257); `safe_zip` raises when one of the lists ends first, see
`Verif.SafeZip`. -/
def makeRepsLoop : List Nat → List Int → List Nat → Except PyErr (List Nat)
  | output, [], [] => .ok output
  | output, a :: axes, r :: reps => do
    let output ← setItem output a r
    makeRepsLoop output axes reps
  | _, _, _ => .error .runtimeError

/-- `_make_reps(ndim)` (vmoe/initialization/rules.py:252-258); a single axis and number of repetitions are lists of one. -/
def makeReps (axes : List Int) (reps : List Nat) (ndim : Nat) : Except PyErr (List Nat) :=
  makeRepsLoop (List.replicate ndim 1) axes reps

/-- `jnp.tile(x, reps)` with one number for each axis (vmoe/initialization/rules.py:250). -/
def tile (x : NdArray α) (reps : List Nat) : NdArray α :=
  ⟨List.zipWith (· * ·) reps x.shape, fun idx => x.get (List.zipWith (· % ·) idx x.shape)⟩

/-- `ExpandTileTransformation.__call__` (vmoe/initialization/rules.py:248-250). -/
def expandTile (x : NdArray α) (axes : List Int) (reps : List Nat) : Except PyErr (NdArray α) := do
  let y ← expandDims x axes
  let r ← makeReps axes reps y.shape.length
  return tile y r

/-- `ReshapeTransformation.__call__` (vmoe/initialization/rules.py:265-266); `none` stands for `-1`; JAX raises
`TypeError`. -/
def reshape (x : NdArray α) (shape : List (Option Nat)) : Except PyErr (NdArray α) :=
  match x.reshape shape with
  | .ok y => .ok y
  | .error _ => .error .typeError

/-- `SqueezeTransformation.__call__` (vmoe/initialization/rules.py:273-274). -/
def squeeze (x : NdArray α) (axis : Int) : Except PyErr (NdArray α) := do
  let a ← resolveAxis x.shape.length axis
  if x.shape.getD a 0 = 1 then return ⟨x.shape.eraseIdx a, fun idx => x.get (idx.insertIdx a 0)⟩
  else throw .valueError

/-- `StackTransformation.__call__` (vmoe/initialization/rules.py:286-287); JAX raises `ValueError` for no arrays or arrays
of different shapes. -/
def stack (xs : List (NdArray α)) (axis : Int) : Except PyErr (NdArray α) :=
  match xs with
  | [] => .error .valueError
  | x :: xs =>
    if ∀ y ∈ xs, y.shape = x.shape then do
      let a ← resolveAxis (x.shape.length + 1) axis
      return ⟨x.shape.insertIdx a (xs.length + 1), fun idx => ((x :: xs).getD (idx.getD a 0) x).get (idx.eraseIdx a)⟩
    else .error .valueError

/-- `ZoomTransformation.__call__` (vmoe/initialization/rules.py:319-325).  `zoom x shape` is the result of
`scipy.ndimage.zoom`, which `jax.pure_callback` requires to have this shape; it fails if the numbers of axes differ. -/
def zoomTo (zoom : NdArray α → List Nat → NdArray α) (source : NdArray α) (target : List Nat) : Except PyErr (NdArray α) :=
  if 0 ∈ source.shape.take target.length then .error .zeroDivisionError
  else if source.shape.length ≠ target.length then .error .runtimeError
  else .ok (zoom source target)

/-- `_get_tok_and_grid_shape` (vmoe/initialization/rules.py:331-343) of an array of shape `(_, num_tokens, hidden)`; `sqrt n`
is `int(math.sqrt(n))`. -/
def tokAndGrid (sqrt : Nat → Nat) (numTokens hidden : Nat) : Except PyErr (Bool × List Nat) :=
  let s := sqrt numTokens
  if numTokens ≠ s ^ 2 ∧ numTokens ≠ s ^ 2 + 1 then .error .valueError
  else if s ^ 2 = numTokens then .ok (false, [1, s, s, hidden])
  else .ok (true, [1, s, s, hidden])

/-- `source[:, a:b, :]` (vmoe/initialization/rules.py:358,372,378) for an array with three axes and `a ≤ b`. -/
def tokens (x : NdArray α) (a b : Nat) : NdArray α :=
  ⟨[x.shape.getD 0 0, b - a, x.shape.getD 2 0], fun idx => x.get [idx.getD 0 0, idx.getD 1 0 + a, idx.getD 2 0]⟩

/-- `jnp.concatenate([x, y], axis=1)` (vmoe/initialization/rules.py:379) for arrays of three axes with the same first and
last sizes. -/
def concatTokens (x y : NdArray α) : NdArray α :=
  ⟨[x.shape.getD 0 0, x.shape.getD 1 0 + y.shape.getD 1 0, x.shape.getD 2 0], fun idx =>
    if idx.getD 1 0 < x.shape.getD 1 0 then x.get idx
    else y.get [idx.getD 0 0, idx.getD 1 0 - x.shape.getD 1 0, idx.getD 2 0]⟩

/-- `VitZoomTransformation.__call__` (vmoe/initialization/rules.py:345-381).  `target` is `none` when only the shape of the
target is known, and then `noise` is the new token. -/
def vitZoom (sqrt : Nat → Nat) (zoom : NdArray α → List Nat → NdArray α) (noise : NdArray α) (source : NdArray α)
    (target : Option (NdArray α)) (targetShape : List Nat) : Except PyErr (NdArray α) :=
  match source.shape, targetShape with
  | [s0, sn, sh], [t0, tn, th] =>
    if s0 ≠ 1 then .error .valueError
    else if t0 ≠ 1 then .error .valueError
    else if sh ≠ th then .error .valueError
    else do
      let (sourceHasTok, sourceGrid) ← tokAndGrid sqrt sn sh
      let emb ← reshape (if sourceHasTok then tokens source 1 sn else source) (sourceGrid.map some)
      let (targetHasTok, targetGrid) ← tokAndGrid sqrt tn th
      let out ← zoomTo zoom emb targetGrid
      let out ← reshape out [some 1, none, some (out.shape.getLastD 0)]
      if targetHasTok then
        if sourceHasTok then return concatTokens (tokens source 0 1) out
        else match target with
          | none => return concatTokens noise out
          | some t => return concatTokens (tokens t 0 1) out
      else return out
  | _, _ => .error .valueError

end Verif.InitRules
