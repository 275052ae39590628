/-!
# Common modelling vocabulary

Shared by all model files: 64-bit words, panics, checked vector access and checked subtraction.
These definitions model the Rust language primitives that the code in `/repo/src` uses.
-/

namespace Vers

/-- A Rust `u64`, e.g. the limbs of a bit vector, src/bit_vec/mod.rs:63. -/
abbrev Word := BitVec 64

/-- The ways in which the Rust code can panic.
`ub` is not a Rust panic: it marks an access of the `unsafe` code outside of the memory it may access (undefined
behaviour); C68 proves that it does not occur.
`fuel` is not a Rust panic: it marks a `while` loop that did not terminate within the bound the model
passed; every theorem proves that it does not occur. -/
inductive Panic where
  | oob          -- slice index out of bounds
  | overflow     -- arithmetic over/underflow (debug builds)
  | assertion    -- `assert!` / `debug_assert!`
  | unwrap       -- `unwrap` on `None`
  | unreachable  -- `unreachable!`
  | divZero      -- division or remainder by zero
  | ub           -- access out of bounds in `unsafe` code
  | fuel
deriving DecidableEq, Repr

/-- Result of a Rust computation: a value or a panic. -/
abbrev R (α : Type) := Except Panic α

instance {α : Type} [DecidableEq α] : DecidableEq (R α)
  | .ok a, .ok b => if h : a = b then isTrue (by rw [h]) else isFalse (by intro h'; cases h'; exact h rfl)
  | .error a, .error b =>
    if h : a = b then isTrue (by rw [h]) else isFalse (by intro h'; cases h'; exact h rfl)
  | .ok _, .error _ => isFalse (by intro h; cases h)
  | .error _, .ok _ => isFalse (by intro h; cases h)

/-- The build profile. In a debug build, arithmetic overflow, shifts by at least the bit width and failing
`debug_assert!`s panic. In a release build (`debug = false`), arithmetic wraps around, shift distances are
reduced modulo the bit width and `debug_assert!`s are not compiled. Everything else is the same in both
profiles. The model is generic in the profile. -/
class Profile where
  debug : Bool

/-- There are two profiles, so a decidable statement about both can be decided. -/
instance {p : Profile → Prop} [∀ P, Decidable (p P)] : Decidable (∀ P, p P) :=
  decidable_of_iff (p ⟨true⟩ ∧ p ⟨false⟩)
    ⟨fun h P => match P with | ⟨true⟩ => h.1 | ⟨false⟩ => h.2, fun h => ⟨h _, h _⟩⟩

/-- Result of an overflowing operation: a panic in debug builds, the wrapped value `x` in release builds. -/
def wrapR [Profile] {α : Type} (x : α) : R α := if Profile.debug then .error .overflow else .ok x

/-- `v[i]` on a Rust slice, e.g. src/trees/mmt.rs:123: panics if out of bounds. -/
def idx {α : Type} (l : List α) (i : Nat) : R α :=
  match l[i]? with
  | some a => .ok a
  | none => .error .oob

/-- `v[i] = a` on a Rust slice, e.g. src/trees/mmt.rs:63: panics if out of bounds. -/
def setIdx {α : Type} (l : List α) (i : Nat) (a : α) : R (List α) :=
  if i < l.length then .ok (l.set i a) else .error .oob

/-- `a - b` on `usize`, e.g. src/trees/bp/mod.rs:166: overflows if `b > a`. -/
def subR [Profile] (a b : Nat) : R Nat := if b ≤ a then .ok (a - b) else wrapR ((2 ^ 64 + a - b) % 2 ^ 64)

/-- `a + b` on `usize`, with overflow, e.g. src/trees/bp/mod.rs:384. -/
def addU [Profile] (a b : Nat) : R Nat := if a + b < 2 ^ 64 then .ok (a + b) else wrapR ((a + b) % 2 ^ 64)

/-- `a * b` on `usize`, with overflow, e.g. src/elias_fano/mod.rs:114. -/
def mulU [Profile] (a b : Nat) : R Nat := if a * b < 2 ^ 64 then .ok (a * b) else wrapR (a * b % 2 ^ 64)

/-- `assert!(c)`, e.g. src/elias_fano/mod.rs:110. -/
def assertR (c : Prop) [Decidable c] : R Unit := if c then .ok () else .error .assertion

/-- `debug_assert!(c)`, e.g. src/trees/bp/mod.rs:383. -/
def dassertR [Profile] (c : Prop) [Decidable c] : R Unit :=
  if c then .ok () else if Profile.debug then .error .assertion else .ok ()

/-- `opt.unwrap()`, e.g. src/trees/mmt.rs:262. -/
def unwrapR {α : Type} (o : Option α) : R α :=
  match o with
  | some a => .ok a
  | none => .error .unwrap

/-- `s[..n]` as a prefix slice, e.g. src/bit_vec/fast_rs_vec/mod.rs:478: panics if `n > s.len()`. -/
def prefixR {α : Type} (l : List α) (n : Nat) : R (List α) :=
  if n ≤ l.length then .ok (l.take n) else .error .oob

/-- `s[a..b]`, e.g. src/bit_vec/fast_rs_vec/select.rs:70: panics if `a > b` or `b > s.len()`. -/
def sliceR {α : Type} (l : List α) (a b : Nat) : R (List α) :=
  if a ≤ b ∧ b ≤ l.length then .ok ((l.take b).drop a) else .error .oob

/-- Number of `j < n` with `f j`; used to define the bit-counting intrinsics. -/
def cnt (f : Nat → Bool) : Nat → Nat
  | 0 => 0
  | n + 1 => cnt f n + (f n).toNat

/-- `u64::count_ones`, e.g. src/bit_vec/fast_rs_vec/select.rs:360. -/
def popcount (w : Word) : Nat := cnt w.getLsbD 64

/-- `u64::count_zeros`, e.g. src/bit_vec/fast_rs_vec/select.rs:138. -/
def popcountZ (w : Word) : Nat := popcount (~~~w)

/-- First `j` in `i, i+1, ..., i+n-1` with `f j`, or `i + n`. -/
def firstFrom (f : Nat → Bool) : Nat → Nat → Nat
  | i, 0 => i
  | i, n + 1 => if f i then i else firstFrom f (i + 1) n

/-- `u64::trailing_zeros` (64 for the zero word), e.g. src/bit_vec/fast_rs_vec/select.rs:366. -/
def ctz (w : Word) : Nat := firstFrom w.getLsbD 0 64

/-- A bit as a `u64`: 0 or 1; the result of `get_unchecked`, src/bit_vec/mod.rs:1067-1069. -/
def b2w (b : Bool) : Word := if b then 1#64 else 0#64

end Vers
