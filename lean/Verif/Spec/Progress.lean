import Verif.Model.Progress

/-!
What the metrics of a progress report are, independently of how they are flattened.
-/

namespace Verif.Progress

open Verif FlatDict

/-- The leaf of a nested dict under a path of keys. -/
def leafAt {V : Type} : List Key → Tree V → Option V
  | [], .leaf v => some v
  | k :: p, .node items => (PyDict.get? items k).bind (leafAt p)
  | _, _ => none

mutual
/-- The keys of every dict are distinct, as they are in Python. -/
def IsDict {V : Type} : Tree V → Prop
  | .leaf _ => True
  | .node items => AreDicts items
/-- The same for the items of a dict. -/
def AreDicts {V : Type} : List (Key × Tree V) → Prop
  | [] => True
  | (k, t) :: l => k ∉ PyDict.keys l ∧ IsDict t ∧ AreDicts l
end

/-- No two metrics have the same name when their keys are joined. -/
def NamesDiffer {V : Type} (metrics : PyDict Key (Tree V)) : Prop :=
  ∀ p q : List Key, ∀ v w : V, leafAt p (.node metrics) = some v → leafAt q (.node metrics) = some w → join p = join q → p = q

/-- The names that a report uses for itself: the memory if it is measured, and the time of every part. -/
def Reserved (memory : Option ℚ) (parts : PyDict Key ℚ) (name : Key) : Prop :=
  memory ≠ none ∧ name = "host_memory_mb".toList ∨ ∃ k ∈ PyDict.keys parts, name = "uptime_".toList ++ k

end Verif.Progress
