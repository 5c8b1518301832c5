/-!
# Python exceptions

The exceptions the modelled code can raise.  A modelled function that can raise returns
`Except PyErr α`.  The constructors name the exception class only; messages are dropped.
-/
namespace CM

/-- Exception classes raised by the modelled code.
* `error` is the inner class `Error` of the half-space classes
  (`/repo/ContactMechanics/FFTElasticHalfSpace.py:70-72`),
* `incompatibleResolution` is `IncompatibleResolutionError`
  (`/repo/ContactMechanics/Systems.py`),
* `freeBoundaryError` is `FreeFFTElasticHalfSpace.FreeBoundaryError`,
* `systemExit` is the exception `sys.exit` raises,
* `exception` is the built-in base class `Exception` itself,
* the others are Python built-ins. -/
inductive PyErr where
  | error
  | incompatibleResolution
  | incompatibleFormulation
  | freeBoundaryError
  | valueError
  | typeError
  | indexError
  | zeroDivision
  | attributeError
  | unboundLocal
  | nameError
  | runtimeError
  | keyError
  | assertionError
  | notImplemented
  | systemExit
  | exception
  deriving DecidableEq, Repr, Inhabited

end CM
