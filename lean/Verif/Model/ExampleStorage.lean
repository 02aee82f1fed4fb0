import Verif.Model.PyDict
import Verif.Model.PyErr

/-!
`ExampleStorage` (vmoe/projects/adversarial_attacks/lib.py:44-76).  An array is a list of rows; that the rows of the arrays
of one key have one shape and type is assumed, as `np.concatenate` requires.
-/

namespace Verif.ExampleStorage

open Verif

/-- Names of arrays (vmoe/projects/adversarial_attacks/lib.py:63). -/
abbrev Key := List Char

variable {Row : Type}

/-- The attributes of `ExampleStorage` (vmoe/projects/adversarial_attacks/lib.py:48-52).  `file` is what was written to
the file, if it was written: the arrays of an `npz` file (lib.py:86-95). -/
structure Storage (Row : Type) where
  transferEvery : Int
  data : PyDict Key (List (List Row))
  temp : PyDict Key (List (List Row))
  file : Option (PyDict Key (List Row))

/-- `__init__` (vmoe/projects/adversarial_attacks/lib.py:48-52). -/
def create (transferEvery : Int) : Storage Row := { transferEvery, data := [], temp := [], file := none }

/-- `d[key]` of a `defaultdict(list)` (vmoe/projects/adversarial_attacks/lib.py:51-52). -/
def getList (d : PyDict Key (List (List Row))) (k : Key) : List (List Row) := (PyDict.get? d k).getD []

/-- `_transfer` (vmoe/projects/adversarial_attacks/lib.py:54-57); replacing the value of an existing key while iterating does
not disturb the iteration. -/
def transfer (s : Storage Row) : Storage Row :=
  s.temp.foldl (fun s kv => { s with data := PyDict.set s.data kv.1 (getList s.data kv.1 ++ kv.2),
                                     temp := PyDict.set s.temp kv.1 [] }) s

/-- `store` (vmoe/projects/adversarial_attacks/lib.py:63-67); `step % 0` raises `ZeroDivisionError`, after the values were
appended. -/
def store (s : Storage Row) (step : Int) (arrays : PyDict Key (List Row)) : Storage Row × Option PyErr :=
  let s := { s with temp := arrays.foldl (fun t kv => PyDict.set t kv.1 (getList t kv.1 ++ [kv.2])) s.temp }
  if s.transferEvery = 0 then (s, some .zeroDivisionError)
  else if step % s.transferEvery = 0 then (transfer s, none) else (s, none)

/-- `write` (vmoe/projects/adversarial_attacks/lib.py:69-76); `np.concatenate` of no arrays raises `ValueError`. -/
def write (s : Storage Row) : Except PyErr (Storage Row) :=
  let s := transfer s
  if s.data.isEmpty then .ok s
  else if s.data.any (·.2.isEmpty) then .error .valueError
  else .ok { s with file := some (s.data.map fun kv => (kv.1, kv.2.flatten)) }

end Verif.ExampleStorage

namespace Verif.ExampleStorage

open Verif

/-- A call of one of the methods (vmoe/projects/adversarial_attacks/lib.py:63-76). -/
inductive Call (Row : Type) where
  | store (step : Int) (arrays : PyDict Key (List Row))
  | write

/-- Any sequence of calls (vmoe/projects/adversarial_attacks/lib.py:63-76); an exception ends it. -/
def run {Row : Type} (s : Storage Row) (calls : List (Call Row)) : Except PyErr (Storage Row) :=
  calls.foldlM (fun s c => match c with
    | .store step arrays => match store s step arrays with
      | (s, none) => .ok s
      | (_, some e) => .error e
    | .write => write s) s

end Verif.ExampleStorage
