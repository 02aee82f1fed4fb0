import Verif.Model.PyErr
import Mathlib.Analysis.SpecialFunctions.Pow.Real
import Mathlib.Analysis.SpecialFunctions.Trigonometric.Basic
import Mathlib.Algebra.BigOperators.Fin

/-!
Model of `EncoderMoe.add_position_emb` and `VisionTransformerMoe.__call__`
(vmoe/nn/vit_moe.py:266-383), and of `TextTransformer.__call__` and `apply_pooling`
(vmoe/projects/contrastive/models.py:61-108).

Numbers are reals instead of floats.  A sequence is the list of its token vectors and a batch is the
list of its sequences.  The encoder, the attention pooling `MapHead`, the `pre_logits` layer and the
linear head are functions with their parameters inside.
-/

namespace Verif.Vit

open Verif

/-- A vector of `c` features (last axis of the arrays of vmoe/nn/vit_moe.py:335-383). -/
abbrev Vec (c : Nat) := Fin c → ℝ

/-- An image of `H` rows, `W` columns and `D` channels, one item of `inputs`
(vmoe/nn/vit_moe.py:335). -/
abbrev Image (H W D : Nat) := Fin H → Fin W → Fin D → ℝ

/-- The dictionary `position_emb`; a field is `none` if the key is missing
(vmoe/nn/vit_moe.py:269-286). -/
structure PosEmb where
  name : Option (List Char) := none
  h : Option Nat := none
  w : Option Nat := none
  temperature : Option ℝ := none

/-- `DEFAULT_SINCOS2D_TEMPERATURE` (vmoe/nn/vit_moe.py:226). -/
def defaultTemperature : ℝ := 10000

/-- `omega` at index `d`, with `q = c // 4` (vmoe/nn/vit_moe.py:289-290). -/
noncomputable def omega (temperature : ℝ) (q d : Nat) : ℝ :=
  1 / temperature ^ ((d : ℝ) / ((q : ℝ) - 1))

/-- Row `k` of `posembed`: `y` and `x` are the flattened coordinates of the grid, and the four arrays
are concatenated along the last axis (vmoe/nn/vit_moe.py:287-298). -/
noncomputable def posembedRow (temperature : ℝ) (w q k : Nat) : List ℝ :=
  let y : ℝ := (k / w : Nat)
  let x : ℝ := (k % w : Nat)
  (List.range q).map (fun d => Real.sin (x * omega temperature q d)) ++
  ((List.range q).map (fun d => Real.cos (x * omega temperature q d)) ++
  ((List.range q).map (fun d => Real.sin (y * omega temperature q d)) ++
  (List.range q).map (fun d => Real.cos (y * omega temperature q d))))

/-- `posembed` as a sequence of `h * w` vectors (vmoe/nn/vit_moe.py:287-298).  Only used if `c` is a
multiple of 4, so that every row has `c` entries. -/
noncomputable def posembed (temperature : ℝ) (h w c : Nat) : List (Vec c) :=
  (List.range (h * w)).map fun k ch => (posembedRow temperature w (c / 4) k).getD ch 0

/-- `EncoderMoe.add_position_emb` on one sequence (vmoe/nn/vit_moe.py:267-308).  `pe` is the parameter
of `AddPositionEmbs`, a sequence of the length of the input (lines 274-276; the layer is part of
vision_transformer).  `position_emb` is the attribute of the module, which may be `None`. -/
noncomputable def addPositionEmb {c : Nat} (position_emb : Option PosEmb) (pe : List (Vec c))
    (inputs : List (Vec c)) : Except PyErr (List (Vec c)) :=
  let pos : PosEmb := position_emb.getD {}
  let name := pos.name.getD "learned".toList
  if name = "none".toList then .ok inputs
  else if name = "learned".toList then .ok (List.zipWith (· + ·) inputs pe)
  else if name = "sincos2d".toList then
    match pos.h, pos.w with
    | none, _ => .error .keyError
    | some _, none => .error .keyError
    | some h, some w =>
      if c % 4 ≠ 0 ∨ c < 8 then .error .valueError
      else
        let temperature := pos.temperature.getD defaultTemperature
        let emb := posembed temperature h w c
        if inputs.length = h * w then .ok (List.zipWith (· + ·) inputs emb)
        else if inputs.length = h * w + 1 then
          .ok (inputs.take 1 ++ List.zipWith (· + ·) (inputs.drop 1) emb)
        else .error .valueError
  else .error .valueError

/-- Size of one axis after a convolution with `padding='VALID'` and stride equal to the kernel size
(vmoe/nn/vit_moe.py:337-339; flax `nn.Conv`).  The sizes are assumed positive. -/
def convSize (size patch : Nat) : Nat := if size < patch then 0 else (size - patch) / patch + 1

/-- Value of a pixel; a convolution without padding never reads outside of the image
(vmoe/nn/vit_moe.py:337-339). -/
noncomputable def pixel {H W D : Nat} (img : Image H W D) (r s : Nat) (d : Fin D) : ℝ :=
  if h : r < H ∧ s < W then img ⟨r, h.1⟩ ⟨s, h.2⟩ d else 0

/-- Parameters of `VisionTransformerMoe` (vmoe/nn/vit_moe.py:337-339,351,363-366,370-372,376-380):
the convolution, the class token, the attention pooling, the `pre_logits` layer (`Dense` and `tanh`,
or the identity) and the head, a `Dense` layer that depends on the number of classes. -/
structure Params (ph pw D c r : Nat) where
  kernel : Fin ph → Fin pw → Fin D → Fin c → ℝ
  bias : Fin c → ℝ
  cls : Vec c
  mapHead : List (Vec c) → Vec c
  preLogits : Vec c → Vec r
  head : Nat → Vec r → List ℝ

variable {ph pw D c r : Nat} {M : Type*}

/-- `nn.Conv` with stride equal to the kernel size, at position `(i, j)` of the grid
(vmoe/nn/vit_moe.py:337-339). -/
noncomputable def conv {H W : Nat} (p : Params ph pw D c r) (img : Image H W D) (i j : Nat) : Vec c :=
  fun f => (∑ u : Fin ph, ∑ v : Fin pw, ∑ d : Fin D,
    pixel img (i * ph + u) (j * pw + v) d * p.kernel u v d f) + p.bias f

/-- The sequence of tokens of an image: the grid is flattened by rows (vmoe/nn/vit_moe.py:348), and
the class token comes first if there is one (vmoe/nn/vit_moe.py:350-353). -/
noncomputable def tokens {H W : Nat} (p : Params ph pw D c r) (classifier : List Char)
    (img : Image H W D) : List (Vec c) :=
  let h := convSize H ph
  let w := convSize W pw
  let x := (List.range (h * w)).map (fun k => conv p img (k / w) (k % w))
  if classifier = "token".toList then p.cls :: x else x

/-- `encoder_kwargs['position_emb']`: the outer `none` is a missing key and `some none` the value
`None`, which has no method `get` (vmoe/nn/vit_moe.py:342-346). -/
def encoderPosEmb (position_emb : Option (Option PosEmb)) (h w : Nat) :
    Except PyErr (Option (Option PosEmb)) :=
  match position_emb with
  | none => .ok none
  | some none => .error .attributeError
  | some (some pos) =>
    if pos.name = some "sincos2d".toList then .ok (some (some { pos with h := some h, w := some w }))
    else .ok (some (some pos))

/-- Average of the tokens (vmoe/nn/vit_moe.py:361, vmoe/projects/contrastive/models.py:99). -/
noncomputable def mean (x : List (Vec c)) : Vec c := fun f => (x.map (fun t => t f)).sum / x.length

/-- Result of `__call__`: the logits, or the representation if there are no classes
(vmoe/nn/vit_moe.py:374-383, vmoe/projects/contrastive/models.py:83-92). -/
inductive Out (r : Nat) where
  | logits (x : List (List ℝ))
  | features (x : List (Vec r))

/-- The part after the pooling: `if self.num_classes` is false for `None` and for 0
(vmoe/nn/vit_moe.py:374-383, vmoe/projects/contrastive/models.py:83-92). -/
noncomputable def finish (head : Nat → Vec r → List ℝ) (num_classes : Option Nat) (x : List (Vec r)) :
    Out r :=
  match num_classes with
  | none => .features x
  | some 0 => .features x
  | some (n + 1) => .logits (x.map (head (n + 1)))

/-- `VisionTransformerMoe.__call__` (vmoe/nn/vit_moe.py:335-383).  `enc` is the encoder; its first
argument is the option `position_emb`, missing or present.  A sequence without tokens has no first
token; the model uses the zero vector there. -/
noncomputable def visionTransformer {H W : Nat} (p : Params ph pw D c r) (classifier : List Char)
    (num_classes : Option Nat) (position_emb : Option (Option PosEmb))
    (enc : Option (Option PosEmb) → List (List (Vec c)) → Except PyErr (List (List (Vec c)) × M))
    (inputs : List (Image H W D)) : Except PyErr (Out r × M) :=
  match encoderPosEmb position_emb (convSize H ph) (convSize W pw) with
  | .error err => .error err
  | .ok pos =>
    match enc pos (inputs.map (tokens p classifier)) with
    | .error err => .error err
    | .ok (x, metrics) =>
      let pooled : Except PyErr (List (Vec c)) :=
        if classifier = "token".toList ∨ classifier = "0".toList then .ok (x.map (·.headD 0))
        else if classifier = "gap".toList then .ok (x.map mean)
        else if classifier = "map".toList then .ok (x.map p.mapHead)
        else .error .valueError
      match pooled with
      | .error err => .error err
      | .ok y => .ok (finish p.head num_classes (y.map p.preLogits), metrics)

/-- Largest value of every feature (vmoe/projects/contrastive/models.py:100).  A sequence without
tokens gives zero here (`max` raises an error). -/
noncomputable def maximum (x : List (Vec c)) : Vec c := fun f =>
  match x with
  | [] => 0
  | t :: ts => ts.foldl (fun m s => max m (s f)) (t f)

/-- `TextTransformer.apply_pooling` (vmoe/projects/contrastive/models.py:95-108). -/
noncomputable def applyPooling (pool_type : List Char) (mapHead : List (Vec c) → Vec c)
    (x : List (List (Vec c))) : Except PyErr (List (Vec c)) :=
  if pool_type = "last".toList then .ok (x.map (·.getLastD 0))
  else if pool_type = "first".toList then .ok (x.map (·.headD 0))
  else if pool_type = "gap".toList then .ok (x.map mean)
  else if pool_type = "gmp".toList then .ok (x.map maximum)
  else if pool_type = "map".toList then .ok (x.map mapHead)
  else .error .notImplementedError

/-- `TextTransformer.__call__` (vmoe/projects/contrastive/models.py:62-92).  `embedding` is the table
of `nn.Embed` (lines 68-70), total because out of range values are not modelled.  -/
noncomputable def textTransformer (embedding : Nat → Vec c) (pool_type : List Char)
    (num_classes : Option Nat) (mapHead : List (Vec c) → Vec c) (head : Nat → Vec c → List ℝ)
    (position_emb : Option (Option PosEmb))
    (enc : Option (Option PosEmb) → List (List (Vec c)) → Except PyErr (List (List (Vec c)) × M))
    (text : List (List Nat)) : Except PyErr (Out c × M) :=
  let x := text.map (·.map embedding)
  let run : Except PyErr (Out c × M) :=
    match enc position_emb x with
    | .error err => .error err
    | .ok (x, metrics) =>
      match applyPooling pool_type mapHead x with
      | .error err => .error err
      | .ok y => .ok (finish head num_classes y, metrics)
  match position_emb with
  | none => run
  | some none => .error .attributeError
  | some (some pos) => if pos.name = some "sincos2d".toList then .error .valueError else run

end Verif.Vit
