import Verif.Model.FineTune

/-! Which parameters of a checkpoint the fine-tuning configurations use, and how.  Only the names of the configurations are used. -/

namespace Verif.FineTuneSpec

open Verif FlatDict FineTune

/-- The parameter is not restored: its name contains `head`, or, for V-MoE-S/32, `pre_logits/`. -/
def Dropped (run : Run) (name : Key) : Prop :=
  "head".toList <:+: name ∨ (run = .s32 ∧ "pre_logits/".toList <:+: name)

/-- The parameter is a position embedding: its name ends in `/pos_embedding`. -/
def Position (name : Key) : Prop := "/pos_embedding".toList <:+ name

/-- The parameter is one of a router, and routers are reshaped. -/
def Router (run : Run) (name : Key) : Prop := run = .eee ∧ "/Moe/Router/dense/".toList <:+: name

/-- The parameters that are restored as they are. -/
def Plain (run : Run) (name : Key) : Prop := ¬ Dropped run name ∧ ¬ Position name ∧ ¬ Router run name

end Verif.FineTuneSpec
