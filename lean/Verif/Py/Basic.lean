/-!
# Python level vocabulary

Exceptions are values (`Except PyErr α`). Only the exception class is kept, not its message.
-/

namespace Legwork

/-- Python exception classes raised (explicitly or implicitly) by the modelled code. -/
inductive PyErr
  | ValueError
  | TypeError
  | KeyError
  | IndexError
  | AttributeError
  | AssertionError
  | FileExistsError
  | FileNotFoundError
  | OSError
  | NotImplementedError
  | UnitConversionError
  | ImportError
  | UnboundLocalError
  deriving DecidableEq, Repr

end Legwork
