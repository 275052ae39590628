import Verif.Model.Prelude

/-!
# Replaying the unit tests of the crate on the model

The modules under `Verif/Conformance` are not proofs of properties and no property relies on them. They are tests
of the *model*: the deterministic unit tests of the crate, transcribed assertion by assertion, with the calls
replaced by the functions of the model. The crate's own tests pass on the crate, so a model that failed one of them
would not be a model of the crate. Every replay is evaluated by the kernel (`decide +kernel`), in both build
profiles (the tree tests in the debug profile only), and the module does not build if one fails. The modules import
each other only so that they are built one after the other, to keep the memory of the build low.

Tests that draw from a random number generator are not replayed. Where a test loops over more cases than the kernel
evaluates in reasonable time, the comment says which of them are replayed.
-/

namespace Vers.Conformance

/-- `assert_eq!(a, b)`. -/
def ck {α : Type} [DecidableEq α] (a b : α) : R Unit := if a = b then .ok () else .error .assertion

/-- `assert_eq!` on the value of a call. -/
def ckR {α : Type} [DecidableEq α] (a : R α) (b : α) : R Unit := a >>= fun x => ck x b

/-- `assert!(std::panic::catch_unwind(..).is_err())`, and `#[should_panic]`. -/
def panics {α : Type} : R α → R Unit
  | .error .ub | .error .fuel | .ok _ => .error .assertion
  | .error _ => .ok ()

/-- `(a..b).for_each(f)`. -/
def forRange (a b : Nat) (f : Nat → R Unit) : R Unit := (List.range' a (b - a)).forM f

/-- `option.unwrap()` or `result.expect(..)`. -/
def expect {α : Type} (x : R (Option α)) : R α := x >>= fun o => unwrapR o

end Vers.Conformance
