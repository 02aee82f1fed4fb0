import Verif.Model.NdArray

/-!
How the experts of a MoE layer read their parameters from the arrays of the model (vmoe/nn/vit_moe.py:110-119,
vmoe/moe.py:434-439).
-/

namespace Verif.Upcycling

open Verif

/-- The parameter of expert `e` in an array with one copy per expert along axis 0 (`variable_axes={'params': 0, ...}`,
vmoe/nn/vit_moe.py:113, vmoe/moe.py:434-439). -/
def expertOf {α : Type} (x : NdArray α) (e : Nat) : NdArray α := ⟨x.shape.tail, fun idx => x.get (e :: idx)⟩

end Verif.Upcycling
