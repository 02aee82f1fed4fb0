import Verif.Model.Hooks

/-! When a hook should run (C85). -/

namespace Verif.Hooks

variable {P B M : Type}

/-- The steps at which the configuration asks for a run: the multiples of `every_steps`, the given steps, and always the first
and the last step. -/
def Due (c : HookConfig) (first last s : Nat) : Prop :=
  (∃ n ∈ c.everySteps, n ∣ s) ∨ s ∈ c.onSteps ∨ s = first ∨ s = last

/-- More than `every_secs` have passed since the last run, or since the first step if there was none. -/
def Elapsed (c : HookConfig) (clock : Nat → ℚ) (runs : Nat → Bool) (first s : Nat) : Prop :=
  ∃ secs ∈ c.everySecs, ∃ s', first ≤ s' ∧ s' < s ∧ (s' = first ∨ runs s' = true) ∧
    (∀ x, s' < x → x < s → runs x = false) ∧ clock s - clock s' > secs

/-- The parameters after some batches. -/
def after (update : P → B → P × M) (p : P) (bs : List B) : P := bs.foldl (fun p b => (update p b).1) p

end Verif.Hooks
