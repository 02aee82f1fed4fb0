import Verif.Model.TrainLoop

/-! Specification of training histories. -/

namespace Verif.TrainSpec

open Verif.TrainLoop

variable {P B : Type}

/-- `s` results from the initial state by one update for each batch of several runs, where every run processes its
batches from the beginning of an iterator. -/
def Applied (cfg : Config P B) (supply : List B → Prop) (s : TS P) : Prop :=
  ∃ runs : List (List B), (∀ r ∈ runs, ∃ bs, supply bs ∧ r <+: bs) ∧
    s.params = runs.flatten.foldl cfg.update cfg.init.params ∧ s.step = cfg.init.step + runs.flatten.length

end Verif.TrainSpec
