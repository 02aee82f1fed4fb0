import Mathlib.Data.Finset.Lattice.Fold
import Mathlib.Data.Fintype.Basic
import Mathlib.Order.Fin.Basic

/-!
Specification of routing, independent of the implementation: who asks for which expert, who
has priority, which slot a request gets.  Nothing here refers to the model of the code.
-/

namespace Verif.Spec

variable {R : Type*} [LinearOrder R] {S E : Nat}

/-- Position of expert `e` in the preference list of item `s`: the number of experts that item
`s` prefers to `e` (strictly larger gate, or same gate and lower index). -/
def choiceRank (gates : Fin S → Fin E → R) (s : Fin S) (e : Fin E) : Nat :=
  (Finset.univ.filter (fun e' : Fin E =>
    gates s e < gates s e' ∨ (gates s e' = gates s e ∧ e' < e))).card

/-- Item `s` asks for expert `e` when it is among its `K` preferred ones. -/
def Requests (gates : Fin S → Fin E → R) (K : Nat) (s : Fin S) (e : Fin E) : Prop :=
  choiceRank gates s e < K

instance (gates : Fin S → Fin E → R) (K : Nat) (s : Fin S) (e : Fin E) :
    Decidable (Requests gates K s e) := by unfold Requests; infer_instance

/-- Largest gate of an item. -/
def topGate (hE : 0 < E) (gates : Fin S → Fin E → R) (s : Fin S) : R :=
  Finset.univ.sup' ⟨⟨0, hE⟩, Finset.mem_univ _⟩ (gates s)

/-- Item order: plain order, or (batch priority) decreasing largest gate, ties in plain order. -/
def ItemBefore (hE : 0 < E) (batchPriority : Bool) (gates : Fin S → Fin E → R) (s' s : Fin S) :
    Prop :=
  if batchPriority then
    topGate hE gates s < topGate hE gates s' ∨ (topGate hE gates s' = topGate hE gates s ∧ s' < s)
  else s' < s

instance (hE : 0 < E) (bp : Bool) (gates : Fin S → Fin E → R) (s' s : Fin S) :
    Decidable (ItemBefore hE bp gates s' s) := by unfold ItemBefore; infer_instance

/-- The request of `s'` for `e` has priority over the request of `s` for `e`: better choice
rank, or same rank and earlier item. -/
def HigherPriority (hE : 0 < E) (batchPriority : Bool) (gates : Fin S → Fin E → R) (e : Fin E)
    (s' s : Fin S) : Prop :=
  choiceRank gates s' e < choiceRank gates s e ∨
    (choiceRank gates s' e = choiceRank gates s e ∧ ItemBefore hE batchPriority gates s' s)

instance (hE : 0 < E) (bp : Bool) (gates : Fin S → Fin E → R) (e : Fin E) (s' s : Fin S) :
    Decidable (HigherPriority hE bp gates e s' s) := by unfold HigherPriority; infer_instance

/-- Slot of the request of `s` for `e`: how many requests for `e` have higher priority. -/
def slot (hE : 0 < E) (batchPriority : Bool) (gates : Fin S → Fin E → R) (K : Nat)
    (s : Fin S) (e : Fin E) : Nat :=
  (Finset.univ.filter (fun s' : Fin S =>
    Requests gates K s' e ∧ HigherPriority hE batchPriority gates e s' s)).card

/-- The request of `s` for `e` exists and fits in the buffer of the expert. -/
def Kept (hE : 0 < E) (batchPriority : Bool) (gates : Fin S → Fin E → R) (K capacity : Nat)
    (s : Fin S) (e : Fin E) : Prop :=
  Requests gates K s e ∧ slot hE batchPriority gates K s e < capacity

instance (hE : 0 < E) (bp : Bool) (gates : Fin S → Fin E → R) (K capacity : Nat) (s : Fin S)
    (e : Fin E) : Decidable (Kept hE bp gates K capacity s e) := by unfold Kept; infer_instance

/-- Position of item `s` in the preference list of expert `e` (expert choice). -/
def itemRank (gates : Fin S → Fin E → R) (s : Fin S) (e : Fin E) : Nat :=
  (Finset.univ.filter (fun s' : Fin S =>
    gates s e < gates s' e ∨ (gates s' e = gates s e ∧ s' < s))).card

end Verif.Spec
