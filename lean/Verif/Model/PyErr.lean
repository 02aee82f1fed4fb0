/-!
Python exceptions as values.  Only the exception class is kept; messages are dropped.
-/

namespace Verif

/-- Exception classes raised by the modelled code (explicitly, e.g. vmoe/moe.py:242, or by the
Python operations it performs). -/
inductive PyErr where
  | valueError
  | typeError
  | keyError
  | indexError
  | attributeError
  | zeroDivisionError
  | fileNotFoundError
  | assertionError
  | alreadyExistsError
  | overflowError
  | stopIteration
  | runtimeError
  | notImplementedError
  | syntaxError
  | importError
  deriving DecidableEq, Repr

end Verif
