import Verif.Abs
import Verif.SpecIter
import Verif.Model.Unwind

/-!
# Specification of calls whose panics are caught

A caller wraps every call in `catch_unwind` and goes on with the same object.
-/

namespace Vers.Spec

/-- The call has succeeded with the new object and the result, or it has panicked and the object is as before. -/
def settle {σ α : Type} (s : σ) : R (σ × α) → R α × σ
  | .ok (s', a) => (.ok a, s')
  | .error e => (.error e, s)

/-- A sequence of calls, each of which may panic: the results and panics, and the object at the end. -/
def attempts {σ ι α : Type} (call : ι → Mut σ α) : σ → List ι → List (R α) × σ
  | s, [] => ([], s)
  | s, c :: cs =>
    let p := call c s
    let q := attempts call p.2 cs
    (p.1 :: q.1, q.2)

/-- The results `rs` of the calls `cs` are those of `step` from the state `l`, except that some calls have panicked; those
are as if they had not been made. -/
def Tolerated {ι β γ : Type} (step : γ → ι → β × γ) : γ → List ι → List (R β) → Prop
  | _, [], [] => True
  | l, c :: cs, .ok b :: rs => b = (step l c).1 ∧ Tolerated step (step l c).2 cs rs
  | l, _ :: cs, .error _ :: rs => Tolerated step l cs rs
  | _, _, _ => False

/-- One call on an iterator with the remaining elements `l`, if `nth` and `nth_back` with too large an argument return
`None` without consuming the remaining elements (as the element iterators do, see C20 and C26). -/
def keepStep {α : Type} (l : List α) : IterOp → IterOut α × List α
  | .nth n => if n ≤ l.length then iterStep l (.nth n) else (.item none, l)
  | .nthBack n => if n ≤ l.length then iterStep l (.nthBack n) else (.item none, l)
  | op => iterStep l op

/-- A call of a method of a bit vector that takes `&mut self`; `mask f g o` is `apply_mask_*` with the operation `f` on
words, which acts on bits as `g`. -/
inductive BitCall (Vec : Type) where
  | append (b : Bool)
  | appendBit (w : Word)
  | appendWord (w : Word)
  | appendBits (w : Word) (n : Nat)
  | dropLast (n : Nat)
  | set (i : Nat) (x : Word)
  | flip (i : Nat)
  | extendBitvec (o : Vec)
  | extend (os : List Vec)
  | mask (f : Word → Word → Word) (g : Bool → Bool → Bool) (o : Vec)

/-- The call on a plain list of bits: whether the result is `Ok`, and the list afterwards; `none` if the method is documented
to panic (`append_bits` with more than 64 bits, `flip_bit` out of range). -/
def bitStep (l : List Bool) : BitCall BV → Option (Bool × List Bool)
  | .append b => some (true, l ++ [b])
  | .appendBit w => some (true, l ++ [decide (w.toNat % 2 = 1)])
  | .appendWord w => some (true, l ++ natToBits 64 w.toNat)
  | .appendBits w n => if n ≤ 64 then some (true, l ++ natToBits n w.toNat) else none
  | .dropLast n => some (true, l.take (l.length - n))
  | .set i x => some (decide (i < l.length), l.set i (decide (x.toNat % 2 = 1)))
  | .flip i => if i < l.length then some (true, l.modify i (fun b => !b)) else none
  | .extendBitvec o => some (true, l ++ o.bits)
  | .extend os => some (true, l ++ os.flatMap BV.bits)
  | .mask _ g o => some (decide (l.length = o.bits.length), if l.length = o.bits.length then List.zipWith g l o.bits else l)

/-- A sequence of calls on a plain list; a call that panics leaves the list as it is. -/
def bitRun : List Bool → List (BitCall BV) → List (Option Bool) × List Bool
  | l, [] => ([], l)
  | l, c :: cs =>
    match bitStep l c with
    | some (b, l') => let q := bitRun l' cs; (some b :: q.1, q.2)
    | none => let q := bitRun l cs; (none :: q.1, q.2)

/-- The arguments: `append_bits` is not called with width 0 (see C02), vectors given as arguments are well-formed, and the
operation on words acts bit by bit. -/
def BitCall.Valid : BitCall BV → Prop
  | .appendBits _ n => 1 ≤ n
  | .extendBitvec o => o.WF
  | .extend os => ∀ o ∈ os, o.WF
  | .mask f g o => Bitwise f g ∧ o.WF
  | _ => True

end Vers.Spec
