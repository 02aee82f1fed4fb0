import Verif.Model.ExampleStorage

/-! What was stored, in terms of the calls only. -/

namespace Verif.ExampleStorageSpec

open Verif ExampleStorage

/-- The arrays given for `key` in the calls of `store`, in their order. -/
def given {Row : Type} (key : Key) : List (Call Row) → List (List Row)
  | [] => []
  | .write :: calls => given key calls
  | .store _ arrays :: calls => (arrays.filterMap fun kv => if kv.1 = key then some kv.2 else none) ++ given key calls

end Verif.ExampleStorageSpec
