import Verif.Model.PyDict
import Verif.Model.PyErr

/-!
How modules are built from configuration dictionaries: `create_router`
(vmoe/nn/vit_moe.py:76-88, vmoe/nn/vit_moe_ensemble.py:47-56), `create_split_rngs`
(vmoe/nn/vit_moe.py:90-99), the MLP classes of the encoder (vmoe/nn/vit_moe.py:234-260), `partialclass`
(vmoe/utils.py:112-123), `create_flax_model` (vmoe/train/trainer.py:233-241) and the tower classes of
`TwoTower` (vmoe/projects/contrastive/models.py:119-135).

Option values form an arbitrary type `V` into which strings are embedded by `str`.  `parse_call` is
modelled in `Verif.Model.ParseCall`; here it is an arbitrary function of the option value.
-/

namespace Verif.Config

open Verif PyDict

/-- Python strings, such as the keys of a model config (vmoe/train/trainer.py:235,239). -/
abbrev Str := List Char

variable {V : Type}

/-- A Flax module class, a dataclass (e.g. vmoe/nn/routing.py:45-53): its fields with the default
values.  Every module also accepts the keyword `name` (default None); the keyword `parent` is not
modelled. -/
structure Cls (V : Type) where
  id : Nat
  fields : List (Str × Option V)

/-- `f(**a, **b)` (e.g. vmoe/nn/vit_moe.py:78,87-88): TypeError if a keyword is given twice. -/
def kwMerge (a b : PyDict Str V) : Except PyErr (PyDict Str V) :=
  if (keys a).any (fun k => k ∈ keys b) then .error .typeError else .ok (a ++ b)

/-- `a | b`, `{**a, **b}` and `a.update(b)` (e.g. vmoe/nn/vit_moe.py:88,236; vmoe/utils.py:120): the
second dictionary wins. -/
def update (a b : PyDict Str V) : PyDict Str V := b.foldl (fun d kv => set d kv.1 kv.2) a

/-- `d.pop(k)` (e.g. vmoe/nn/vit_moe.py:84,237): the dictionary without the key. -/
def remove (d : PyDict Str V) (k : Str) : PyDict Str V := d.filter (fun kv => kv.1 ≠ k)

/-- The value of one field in the generated `__init__` (e.g. called in vmoe/nn/vit_moe.py:87). -/
def fieldValue (args : PyDict Str V) (kwargs : PyDict Str V) (f : Str × Option V) :
    Except PyErr (Str × V) :=
  match get? args f.1 with
  | some v => .ok (f.1, v)
  | none =>
    match get? kwargs f.1 with
    | some v => .ok (f.1, v)
    | none =>
      match f.2 with
      | some v => .ok (f.1, v)
      | none => .error .typeError

/-- The dataclass constructor (e.g. called in vmoe/nn/vit_moe.py:87): positional arguments are the
first fields; TypeError for too many, for a field given twice, for an unknown keyword, and for a field
without value.  Returns the attributes; `name` is stored beside the fields. -/
def construct (none_ : V) (c : Cls V) (args : List V) (kwargs : PyDict Str V) :
    Except PyErr (PyDict Str V) :=
  if c.fields.length < args.length then .error .typeError
  else
    let pos := (keys c.fields).zip args
    if (keys pos).any (fun k => k ∈ keys kwargs) then .error .typeError
    else if (keys kwargs).any (fun k => k ∉ keys c.fields ∧ k ≠ "name".toList) then .error .typeError
    else
      match c.fields.mapM (fieldValue pos kwargs) with
      | .error err => .error err
      | .ok attrs => .ok (set attrs "name".toList ((get? kwargs "name".toList).getD none_))

/-- What `parse_call` returns: class, positional and keyword arguments (vmoe/utils.py:109). -/
structure Call (V : Type) where
  cls : Cls V
  args : List V
  kwargs : PyDict Str V

/-- Environment: embedding of strings and None into option values, and `parse_call` with the default
module of the caller (vmoe/utils.py:59-109). -/
structure Env (V : Type) where
  str : Str → V
  none_ : V
  parse : V → Except PyErr (Call V)

/-- Attributes of `MlpMoeBlock` that reach its router (vmoe/nn/vit_moe.py:68-73). -/
structure Block (V : Type) where
  numExperts : V
  deterministic : V
  router : Option (PyDict Str V)
  dtype : V

/-- `dict(num_experts=..., **(self.router or {}))` and the default for `deterministic`
(vmoe/nn/vit_moe.py:78-82, vmoe/nn/vit_moe_ensemble.py:49-53). -/
def routerKwargs (b : Block V) : Except PyErr (PyDict Str V) :=
  match kwMerge [("num_experts".toList, b.numExperts)] (b.router.getD []) with
  | .error err => .error err
  | .ok kw => .ok (set kw "deterministic".toList
      ((get? kw "deterministic".toList).getD b.deterministic))

/-- `MlpMoeBlock.create_router` (vmoe/nn/vit_moe.py:76-88). -/
def createRouter (env : Env V) (b : Block V) : Except PyErr (Cls V × PyDict Str V) :=
  match routerKwargs b with
  | .error err => .error err
  | .ok kw =>
    let name := (get? kw "name".toList).getD (env.str "NoisyTopExpertsPerItemRouter".toList)
    let kw := remove kw "name".toList
    match env.parse name with
    | .error err => .error err
    | .ok call =>
      match kwMerge [("dtype".toList, b.dtype), ("name".toList, env.str "Router".toList)]
          (update call.kwargs kw) with
      | .error err => .error err
      | .ok kw => (construct env.none_ call.cls call.args kw).map (fun a => (call.cls, a))

/-- `_parse` (vmoe/nn/vit_moe_ensemble.py:31-34); `none` is None. -/
def parseSize : Option Int → Except PyErr Int
  | none => .error .valueError
  | some n => if n ≤ 0 then .error .valueError else .ok n

/-- `create_router` of the ensemble block (vmoe/nn/vit_moe_ensemble.py:47-56); `num` embeds integers
and `cls` is `NoisyTopExpertsPerItemEnsembleRouter`. -/
def createEnsembleRouter (env : Env V) (num : Int → V) (cls : Cls V) (size : Option Int) (b : Block V) :
    Except PyErr (PyDict Str V) :=
  match routerKwargs b with
  | .error err => .error err
  | .ok kw =>
    match parseSize size with
    | .error err => .error err
    | .ok n =>
      let kw := set kw "ensemble_size".toList (num n)
      match kwMerge [("dtype".toList, b.dtype), ("name".toList, env.str "Router".toList)] kw with
      | .error err => .error err
      | .ok kw => construct env.none_ cls [] kw

/-- `split_rngs`: a boolean or the names of the generators to split (vmoe/nn/vit_moe.py:74). -/
inductive SplitRngs where
  | all (b : Bool)
  | names (l : List Str)

/-- `create_split_rngs` (vmoe/nn/vit_moe.py:90-99). -/
def createSplitRngs : SplitRngs → PyDict Str Bool
  | .all b => [("params".toList, b), ("dropout".toList, b)]
  | .names l => [("params".toList, decide ("params".toList ∈ l)),
      ("dropout".toList, decide ("dropout".toList ∈ l))]

/-- `partialclass` followed by a call with keywords (vmoe/utils.py:112-123): call keywords win. -/
def callPartial (none_ : V) (cls : Cls V) (base kwargs : PyDict Str V) : Except PyErr (PyDict Str V) :=
  construct none_ cls [] (update base kwargs)

/-- Attributes of the encoder that reach its MLPs (vmoe/nn/vit_moe.py:216-223). -/
structure Encoder (V : Type) where
  mlpDim : V
  dropoutRate : V
  deterministic : V
  dtype : V
  moe : Option (PyDict Str V)

/-- `dense_mlp_params` and the class for dense blocks (vmoe/nn/vit_moe.py:234-235,239-240). -/
def denseParams (e : Encoder V) : PyDict Str V :=
  [("mlp_dim".toList, e.mlpDim), ("dropout_rate".toList, e.dropoutRate)]

/-- `moe_mlp_params` without `layers`, and the keyword `name='Moe'` for the class of MoE blocks
(vmoe/nn/vit_moe.py:236-242; the same in vmoe/nn/vit_moe_ensemble.py:88-99). -/
def moeParams (env : Env V) (e : Encoder V) : Except PyErr (PyDict Str V) :=
  kwMerge (remove (update (denseParams e) (e.moe.getD [])) "layers".toList)
    [("name".toList, env.str "Moe".toList)]

/-- Attributes of the MLP in an MoE block (vmoe/nn/vit_moe.py:178,241-242,255-256): the encoder block
calls the class with `dtype` and `deterministic` of the encoder. -/
def moeMlp (env : Env V) (cls : Cls V) (e : Encoder V) : Except PyErr (PyDict Str V) :=
  match moeParams env e with
  | .error err => .error err
  | .ok base => callPartial env.none_ cls base
      [("dtype".toList, e.dtype), ("deterministic".toList, e.deterministic)]

/-- Attributes of the MLP in a dense block (vmoe/nn/vit_moe.py:178,239-240,258-259). -/
def denseMlp (env : Env V) (cls : Cls V) (e : Encoder V) : Except PyErr (PyDict Str V) :=
  callPartial env.none_ cls (denseParams e ++ [("name".toList, env.str "Mlp".toList)])
    [("dtype".toList, e.dtype), ("deterministic".toList, e.deterministic)]

/-- Attributes of the encoder that reach its blocks (vmoe/nn/vit_moe.py:217-223). -/
structure BlockOptions (V : Type) where
  numHeads : V
  dropoutRate : V
  attentionDropoutRate : V
  attentionQkNorm : V
  deterministic : V
  dtype : V

/-- `encoder_block_cls` called with name and MLP class (vmoe/nn/vit_moe.py:243-250,255-259). -/
def encoderBlock (env : Env V) (cls : Cls V) (o : BlockOptions V) (name mlp : V) :
    Except PyErr (PyDict Str V) :=
  callPartial env.none_ cls
    [("num_heads".toList, o.numHeads), ("dropout_rate".toList, o.dropoutRate),
     ("attention_dropout_rate".toList, o.attentionDropoutRate),
     ("attention_qk_norm".toList, o.attentionQkNorm), ("deterministic".toList, o.deterministic),
     ("dtype".toList, o.dtype)]
    [("name".toList, name), ("mlp_block".toList, mlp)]

/-- The same in `EncoderMoeEnsemble` (vmoe/nn/vit_moe_ensemble.py:100-106,115-119), which does not pass
`attention_qk_norm`. -/
def encoderBlockEnsemble (env : Env V) (cls : Cls V) (o : BlockOptions V) (name mlp : V) :
    Except PyErr (PyDict Str V) :=
  callPartial env.none_ cls
    [("num_heads".toList, o.numHeads), ("dropout_rate".toList, o.dropoutRate),
     ("attention_dropout_rate".toList, o.attentionDropoutRate),
     ("deterministic".toList, o.deterministic), ("dtype".toList, o.dtype)]
    [("name".toList, name), ("mlp_block".toList, mlp)]

/-- `create_flax_model` (vmoe/train/trainer.py:233-241): result, and the dictionary that the caller
holds afterwards: `config.pop` changes a plain dictionary, while a `ConfigDict` (`isConfigDict`) is
copied before. -/
def createFlaxModel (env : Env V) (isConfigDict : Bool) (config : PyDict Str V) (deterministic : V) :
    Except PyErr (Cls V × PyDict Str V) × PyDict Str V :=
  match get? config "name".toList with
  | none => (.error .keyError, config)
  | some name =>
    let rest := remove config "name".toList
    let after := if isConfigDict then config else rest
    (match env.parse name with
     | .error err => .error err
     | .ok call =>
       match kwMerge call.kwargs rest with
       | .error err => .error err
       | .ok kw =>
         match kwMerge kw [("deterministic".toList, deterministic)] with
         | .error err => .error err
         | .ok kw => (construct env.none_ call.cls call.args kw).map (fun a => (call.cls, a)),
     after)

/-- `image_model_class` / `text_model_class` called with `name`
(vmoe/projects/contrastive/models.py:119-135,148,155); `default` is the default class name, `tower` is `img`
or `txt`. -/
def createTower (env : Env V) (default tower : Str) (options : PyDict Str V) (deterministic : V) :
    Except PyErr (Cls V × PyDict Str V) :=
  match env.parse ((get? options "name".toList).getD (env.str default)) with
  | .error err => .error err
  | .ok call =>
    match kwMerge (update call.kwargs (remove options "name".toList))
        [("deterministic".toList, deterministic)] with
    | .error err => .error err
    | .ok kw => (construct env.none_ call.cls call.args
        (update kw [("name".toList, env.str tower)])).map (fun a => (call.cls, a))

end Verif.Config
