/-!
# Shared vocabulary of the model

Python exceptions are values: a function that may raise returns `Except Err α`.
-/

namespace Resistics

/-- The exception classes raised by the modelled code.
`value`, `type`, `key`, `index`, `zeroDiv`, `notImpl`, `assertion`, `unbound`, `attribute` are Python built-ins; the others are in
/repo/resistics/errors.py:8-198; `os` is any `OSError`.  `other` is any exception of code that is a parameter of the model.
Simplification: messages are not modelled. -/
inductive Err where
  | value | type | key | index | zeroDiv | notImpl | assertion | unbound | attribute
  | pathNotFound | notFile | notDir | write
  | metaRead | projPathNotFound | projCreate | projLoad
  | measNotFound | siteNotFound
  | timeRead | chanNotFound | calFileNotFound | calRead | procRun
  | read | os
  | other
  deriving DecidableEq, Repr, Inhabited

end Resistics
