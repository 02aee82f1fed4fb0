import Verif.Model.Partitioning
import Verif.Model.PyStr
import Mathlib.Data.Nat.Log

/-!
Model of the coordinates of devices and of the table of the logical mesh in the logs (vmoe/partitioning.py:184-203, 318-356).
-/

namespace Verif.MeshLog

open Verif Verif.Partitioning

/-- A device (vmoe/partitioning.py:184-203): platform, id, process, and for a TPU the optional attributes `core_on_chip` and `coords`. -/
structure Device where
  tpu : Bool
  id : Nat
  process : Nat
  core : Option Nat
  coords : Option (List Nat)

/-- `get_device_coords_tpu` (vmoe/partitioning.py:196-203). -/
def getDeviceCoordsTpu (d : Device) : Except PyErr (List Nat) :=
  if d.tpu then
    match d.core, d.coords with
    | some c, some l => .ok (c :: l)
    | _, _ => .error .assertionError
  else .error .assertionError

/-- `get_device_coords` (vmoe/partitioning.py:184-188), on a machine with this number of local devices. -/
def getDeviceCoords (localCount : Nat) (d : Device) : Except PyErr (List Nat) :=
  if d.tpu then getDeviceCoordsTpu d else .ok (getDeviceCoordsOther localCount d.id d.process)

/-- `_ndig` (vmoe/partitioning.py:324-325), with the exact logarithm; `int(-inf)` raises. -/
def ndig (x : Nat) : Except PyErr Nat := if x = 0 then .error .overflowError else .ok (Nat.log 10 x + 1)

/-- `'{:>w}'.format(n)` (vmoe/partitioning.py:328-330, 340). -/
def rjust (w n : Nat) : List Char := List.replicate (w - (PyStr.natStr n).length) ' ' ++ PyStr.natStr n

/-- `np.max(np.asarray(coords), axis=0)` (vmoe/partitioning.py:329): raises without devices, and for rows of different lengths. -/
def colMax (coords : List (List Nat)) : Except PyErr (List Nat) :=
  match coords with
  | [] => .error .valueError
  | c :: cs =>
    if cs.all (fun x => x.length == c.length) then .ok (cs.foldl (fun m x => List.zipWith max m x) c)
    else .error .valueError

/-- `', '.join(...)` and `' '.join(...)` (vmoe/partitioning.py:332, 350). -/
def join (sep : List Char) : List (List Char) → List Char
  | [] => []
  | [s] => s
  | s :: t :: rest => s ++ sep ++ join sep (t :: rest)

/-- `'(' + ', '.join(f.format(c) for c, f in zip(coord, coord_fmt)) + ')'` (vmoe/partitioning.py:331-334). -/
def coordStr (widths coord : List Nat) : List Char :=
  '(' :: join [',', ' '] (List.zipWith (fun c w => rjust w c) coord widths) ++ [')']

/-- `process_index_fmt.format` (vmoe/partitioning.py:340-342). -/
def processStr (w p : Nat) : List Char := '[' :: rjust w p ++ [']']

/-- The indices of the devices in each row of the table (vmoe/partitioning.py:343-350, 354): a mesh with one axis is a column; there is no
table for more axes. -/
def rowIndices : List Nat → Option (List (List (List Nat)))
  | [n] => some ((List.range n).map fun i => [[i]])
  | [r, c] => some ((List.range r).map fun i => (List.range c).map fun j => [i, j])
  | _ => none

/-- `row` (vmoe/partitioning.py:349-350). -/
def row (cell : List Nat → List Char) (indices : List (List Nat)) : List Char := join [' '] (indices.map cell)

/-- The border of the table (vmoe/partitioning.py:353, 356). -/
def border (n : Nat) : List Char := ['+', '-'] ++ List.replicate n '-' ++ ['-', '+']

/-- The table (vmoe/partitioning.py:351-356). -/
def table (rows : List (List Char)) : List (List Char) :=
  let n := (rows.headD []).length
  "Logical device mesh:".toList :: border n :: rows.map (fun r => ['|', ' '] ++ r ++ [' ', '|']) ++ [border n]

/-- `log_logical_mesh` (vmoe/partitioning.py:318-356) without its first two lines (names and sizes of the axes).  Flattening the devices and giving the
list of strings the shape of the mesh (vmoe/partitioning.py:327, 336) keeps each string at the index of its device. -/
def logLogicalMesh (localCount : Nat) (mesh : NdArray Device) : Except PyErr (List (List Char)) := do
  let devices := (allIndices mesh.shape).map mesh.get
  let coords ← devices.mapM (getDeviceCoords localCount)
  let maxCoord ← colMax coords
  let widths ← maxCoord.mapM fun mc => ndig (mc + 1)
  let maxProcess ← rowMax (devices.map Device.process)
  let pwidth ← ndig (maxProcess + 1)
  let cell := fun idx =>
    coordStr widths ((getDeviceCoords localCount (mesh.get idx)).toOption.getD []) ++ processStr pwidth (mesh.get idx).process
  match rowIndices mesh.shape with
  | none => return []
  | some rows => return table (rows.map (row cell))

end Verif.MeshLog
