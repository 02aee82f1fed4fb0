import Verif.Model.PyErr

/-!
Model of `SafeZipIterator`, `safe_zip` and `safe_map` (vmoe/utils.py:126-165).

An iterator is the list of the elements it has still to give (finite iterators; the elements of all
iterators have one type).
-/

namespace Verif.SafeZip

open Verif

/-- The `for` loop of `__next__` (vmoe/utils.py:144-150).  `stop` says whether some iterator has
ended already.  Returns the elements, whether some iterator ended, and the iterators afterwards; after
the `break` the remaining iterators are untouched. -/
def nextLoop {α : Type} : Bool → List (List α) → List α × Bool × List (List α)
  | stop, [] => ([], stop, [])
  | stop, (x :: xs) :: rest =>
    if stop then ([x], true, xs :: rest)
    else
      let (els, s, its) := nextLoop stop rest
      (x :: els, s, xs :: its)
  | _, [] :: rest =>
    let (els, s, its) := nextLoop true rest
    (els, s, [] :: its)

/-- `SafeZipIterator.__next__` (vmoe/utils.py:141-156): the tuple or the exception, and the
iterators afterwards. `SafeZipIteratorError` is a RuntimeError. -/
def next {α : Type} (its : List (List α)) : Except PyErr (List α) × List (List α) :=
  let (els, stop, its') := nextLoop false its
  if stop && !els.isEmpty then (.error .runtimeError, its')
  else if els.isEmpty then (.error .stopIteration, its')
  else (.ok els, its')

/-- A consumer that calls `next` on `safe_zip` at most `n` times, until an exception
(vmoe/utils.py:138-165): the tuples it got and the exception, if any. -/
def zipRun {α : Type} : Nat → List (List α) → List (List α) × Option PyErr
  | 0, _ => ([], none)
  | n + 1, its =>
    match next its with
    | (.ok t, its') =>
      let (out, e) := zipRun n its'
      (t :: out, e)
    | (.error e, _) => ([], some e)

/-- `safe_map` consumed at most `n` times: a generator over `SafeZipIterator`, whose `for` loop turns
StopIteration into its own end (vmoe/utils.py:159-161). -/
def mapRun {α β : Type} (f : List α → β) : Nat → List (List α) → List β × Option PyErr
  | 0, _ => ([], none)
  | n + 1, its =>
    match next its with
    | (.ok t, its') =>
      let (out, e) := mapRun f n its'
      (f t :: out, e)
    | (.error e, _) => ([], some e)

end Verif.SafeZip
