/-!
# Outcomes of a Python call

Not a model of a particular file: the exceptions shared by the models of the Python modules. A call is
`Except PyExc α`.
-/
namespace Verif

/-- Exceptions raised by the modelled Python code -/
inductive PyExc where
  | typeError
  | attributeError
  | valueError
  | runtimeError
  | assertionError
  | indexError
  | notImplementedError
  | osError
  | timeoutError
  | keyboardInterrupt
  | zeroDivisionError
  deriving DecidableEq, Repr

/-- What a generator has yielded, and the exception it ended with, if any -/
structure Yielded (α : Type) where
  items : List α
  ended : Option PyExc
  deriving DecidableEq, Repr

end Verif
