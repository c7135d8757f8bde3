/-!
Python exceptions as values.  Used by every model file: a function of `/repo` that can raise is
modelled as a function into `Except PyErr`.
-/
namespace Metku

/-- The exception classes that the modelled code can raise
    (built-in Python/numpy classes; no line of `/repo` defines them). -/
inductive PyErr
  | indexError | keyError | valueError | typeError | attributeError | nameError
  | zeroDivision | linAlgError | unboundLocal | assertion
  deriving DecidableEq, Repr

end Metku
