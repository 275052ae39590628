import Verif.Model.CapacityBuild
import Verif.Proofs.Capacity
import Verif.Proofs.Space
import Verif.Proofs.BitVecOps3

/-! # The memory of bit vectors during construction -/

set_option linter.unusedSimpArgs false

namespace Vers
open Spec

namespace Buf
variable {α β : Type}

/-- `x` has on the buffer the effect that `f` has on the vector if it does not panic, the number of limbs does not decrease, and
the limbs stay in place if there is room for those at the end -/
structure Follows (x : Mut Buf α) (f : BV → R (α × BV)) : Prop where
  all : ∀ (b : Buf) a v', f b.vec = .ok (a, v') → ∃ b', x b = (.ok a, b') ∧ b'.vec = v' ∧
    b.vec.data.length ≤ v'.data.length ∧ (v'.data.length ≤ b.cap → b'.cap = b.cap ∧ b'.moves = b.moves)

theorem Follows.bind {x : Mut Buf α} {f : BV → R (α × BV)} {y : α → Mut Buf β} {g : α → BV → R (β × BV)} (h : Follows x f)
    (k : ∀ a, Follows (y a) (g a)) : Follows (x >>= y) (fun v => do let p ← f v; g p.1 p.2) := by
  constructor
  intro b c v'' hv
  obtain ⟨⟨a, v'⟩, h1, h2⟩ := bind_eq_ok.mp hv
  obtain ⟨b', e1, rfl, e3, e4⟩ := h.all b a v' h1
  obtain ⟨b'', k1, k2, k3, k4⟩ := (k a).all b' c v'' h2
  refine ⟨b'', by rw [Mut.bind_ok e1]; exact k1, k2, Nat.le_trans e3 k3, fun hc => ?_⟩
  obtain ⟨m1, m2⟩ := e4 (Nat.le_trans k3 hc)
  obtain ⟨m3, m4⟩ := k4 (by rw [m1]; exact hc)
  exact ⟨m3.trans m1, m4.trans m2⟩

theorem Follows.pure (a : α) : Follows (Pure.pure a) (fun v => .ok (a, v)) := by
  constructor
  intro b a' v' h
  cases h
  exact ⟨b, rfl, rfl, Nat.le_refl _, fun _ => ⟨rfl, rfl⟩⟩

theorem Follows.lift (x : R α) : Follows (Mut.lift x) (fun v => do let a ← x; .ok (a, v)) := by
  constructor
  intro b a v' h
  obtain ⟨a', rfl, h⟩ := bind_eq_ok.mp h
  cases h
  exact ⟨b, rfl, rfl, Nat.le_refl _, fun _ => ⟨rfl, rfl⟩⟩

theorem Follows.congr {x : Mut Buf α} {f g : BV → R (α × BV)} (h : Follows x f) (e : ∀ v, f v = g v) : Follows x g := by
  have : f = g := funext e
  rw [← this]; exact h

/-- a method without result -/
abbrev unit (f : BV → R BV) : BV → R (Unit × BV) := fun v => do let v' ← f v; .ok ((), v')

theorem Follows.of_grows {x : Mut Buf Unit} {y : Mut BV Unit} (h : Grows x y) {f : BV → R BV}
    (e : ∀ v, y v = done v (f v)) : Follows x (unit f) := by
  constructor
  intro b a v' hv
  obtain ⟨w, h1, h2⟩ := bind_eq_ok.mp hv
  cases h2
  obtain ⟨g1, g2, g3, g4⟩ := h.all b
  rw [e, h1] at g1 g2
  have g2' : (x b).2.vec = v' := g2
  rw [g2'] at g3 g4
  exact ⟨(x b).2, Prod.ext g1 rfl, g2', g3, g4⟩

theorem Follows.appendBits (A : Alloc) (w : Word) (n : Nat) : Follows (appendBitsK A w n) (unit fun v => v.appendBits w n) :=
  Follows.of_grows (Grows.appendBits A w n) fun v => BV.appendBitsM_eq v w n

theorem Grows.appendBitsUnchecked (A : Alloc) (w : Word) (n : Nat) :
    Grows (appendBitsUncheckedK A w n) (BV.appendBitsUncheckedM w n) := by
  refine Grows.get fun v => Grows.bind ?_ fun _ => Grows.grow _
  unfold storeUncheckedK BV.storeUncheckedM
  split
  · exact Grows.push A w
  · exact (Grows.limb ..).bind fun _ => Grows.pushIf ..

theorem Follows.appendBitsUnchecked (A : Alloc) (w : Word) (n : Nat) :
    Follows (appendBitsUncheckedK A w n) (unit fun v => v.appendBitsUnchecked w n) :=
  Follows.of_grows (Grows.appendBitsUnchecked A w n) fun v => BV.appendBitsUncheckedM_eq v w n

theorem Follows.packPad (A : Alloc) (m : Nat) : ∀ fuel rest, Follows (packPadK A m fuel rest) (unit fun v => BV.packPad m fuel v rest) := by
  intro fuel
  induction fuel with
  | zero =>
    intro rest
    cases rest with
    | zero => exact Follows.pure ()
    | succ r => exact ⟨fun b a v' h => by cases h⟩
  | succ fuel ih =>
    intro rest
    cases rest with
    | zero => exact Follows.pure ()
    | succ r =>
      refine ((Follows.appendBits A 0#64 (min (r + 1) m)).bind fun _ => ih (r + 1 - m)).congr fun v => ?_
      simp only [unit, BV.packPad, bind_assoc, ok_bind]

theorem Follows.packWord (A : Alloc) (m : Nat) (w : Word) (n : Nat) :
    Follows (packWordK A m w n) (unit fun v => BV.packWord m v w n) := by
  unfold packWordK BV.packWord
  split
  · exact Follows.appendBits A w n
  · refine ((Follows.appendBits A w m).bind fun _ => Follows.packPad A m n (n - m)).congr fun v => ?_
    simp only [unit, bind_assoc, ok_bind]

theorem Follows.packLoop (A : Alloc) (m n : Nat) : ∀ ws, Follows (packLoopK A m n ws) (unit fun v => BV.packLoop m v n ws) := by
  intro ws
  induction ws with
  | nil => exact Follows.pure ()
  | cons w ws ih =>
    refine ((Follows.packWord A m w n).bind fun _ => ih).congr fun v => ?_
    simp only [unit, BV.packLoop, bind_assoc, ok_bind]

theorem Follows.splitLoop (A : Alloc) (d : List Word) : ∀ n i, Follows (splitLoopK A d i n) (unit fun v => BV.splitLoop d v i n) := by
  intro n
  induction n with
  | zero => intro i; exact Follows.pure ()
  | succ n ih =>
    intro i
    refine ((Follows.lift (idx d i)).bind fun w => (Follows.appendBitsUnchecked A w 64).bind fun _ => ih (i + 1)).congr fun v => ?_
    simp only [unit, BV.splitLoop, bind_assoc, ok_bind]

/-- `splitRight` for a second vector that is not empty -/
def splitFrom (v : BV) (at_ otherLen : Nat) (r : BV) : R BV :=
  if at_ / 64 = v.len / 64 then do
    let w ← idx v.data (at_ / 64)
    r.appendBitsUnchecked (w >>> (at_ % 64)) otherLen
  else do
    let p ← (if at_ % 64 > 0 then do
        let w ← idx v.data (at_ / 64)
        let other ← r.appendBitsUnchecked (w >>> (at_ % 64)) (64 - at_ % 64)
        pure (other, at_ / 64 + 1)
      else pure (r, at_ / 64) : R (BV × Nat))
    let other ← BV.splitLoop v.data p.1 p.2 (v.len / 64 - p.2)
    if v.len % 64 > 0 then do
      let w ← idx v.data (v.len / 64)
      other.appendBitsUnchecked w (v.len % 64)
    else pure other

theorem splitFrom_new (v : BV) (at_ otherLen : Nat) : splitFrom v at_ otherLen BV.new = v.splitRight at_ otherLen := rfl

theorem Follows.splitRight (A : Alloc) (v : BV) (at_ otherLen : Nat) :
    Follows (splitRightK A v at_ otherLen) (unit (splitFrom v at_ otherLen)) := by
  unfold splitRightK splitFrom
  split
  · refine ((Follows.lift (idx v.data (at_ / 64))).bind fun w => Follows.appendBitsUnchecked A _ otherLen).congr fun r => ?_
    simp only [unit, bind_assoc, ok_bind]
  · have h1 : Follows (splitFirstK A v at_) (fun r => do
        let p ← (if at_ % 64 > 0 then do
            let w ← idx v.data (at_ / 64)
            let other ← r.appendBitsUnchecked (w >>> (at_ % 64)) (64 - at_ % 64)
            Pure.pure (other, at_ / 64 + 1)
          else Pure.pure (r, at_ / 64) : R (BV × Nat))
        .ok (p.2, p.1)) := by
      unfold splitFirstK
      split
      · refine ((Follows.lift (idx v.data (at_ / 64))).bind fun w => (Follows.appendBitsUnchecked A _ _).bind fun _ =>
          Follows.pure (at_ / 64 + 1)).congr fun r => ?_
        simp only [unit, bind_assoc, ok_bind, pure_eq_ok]
      · exact (Follows.pure (at_ / 64)).congr fun r => by simp only [ok_bind, pure_eq_ok]
    have h2 : Follows (splitLastK A v) (unit fun r => if v.len % 64 > 0 then do
          let w ← idx v.data (v.len / 64)
          r.appendBitsUnchecked w (v.len % 64)
        else Pure.pure r) := by
      unfold splitLastK
      split
      · refine ((Follows.lift (idx v.data (v.len / 64))).bind fun w => Follows.appendBitsUnchecked A _ _).congr fun r => ?_
        simp only [unit, bind_assoc, ok_bind]
      · exact Follows.pure ()
    refine (h1.bind fun n => (Follows.splitLoop A v.data (v.len / 64 - n) n).bind fun _ => h2).congr fun r => ?_
    simp only [unit, bind_assoc, ok_bind]

variable [Profile]

theorem Follows.fill (A : Alloc) (z : Word) (w : Nat) : ∀ (xs : List Word) (u : BV) (i : Nat),
    Follows (EF.fillLoopK A z w u i xs) (fun l => EF.fillLoop z w u l i xs) := by
  intro xs
  induction xs with
  | nil => intro u i; exact Follows.pure u
  | cons x xs ih =>
    intro u i
    refine ((Follows.lift (subW x z)).bind fun (word : Word) => (Follows.lift (addU (word >>> w).toNat i)).bind fun p =>
      (Follows.lift (addU p 1)).bind fun p => (Follows.lift (u.flipBitUnchecked p)).bind fun u =>
      (Follows.appendBitsUnchecked A (word &&& ((1#64 <<< w) - 1#64)) w).bind fun _ => ih u (i + 1)).congr fun l => ?_
    simp only [unit, EF.fillLoop, bind_assoc, ok_bind]

end Buf
end Vers
