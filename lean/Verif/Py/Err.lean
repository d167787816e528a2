/-! Python exceptions as values. -/

namespace Verif.Py

/-- The exception classes the modelled code can raise. -/
inductive PyErr
  | valueError
  | keyError
  | indexError
  | typeError
  | attributeError
  | zeroDivisionError
  | overflowError
  | recursionError
  | runtimeError
  | fileNotFoundError
  | structError
  | notImplementedError
  | stopIteration
  | osError
  | zstdError
  | hexError
  | pwnError
deriving DecidableEq, Repr

end Verif.Py
