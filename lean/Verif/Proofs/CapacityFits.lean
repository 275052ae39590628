import Verif.Proofs.CapacityBuild

/-! # The limbs fit into the memory -/

set_option linter.unusedSimpArgs false

namespace Vers
open Spec

/-- `x` does not add limbs -/
structure BV.Steady {α : Type} (x : Mut BV α) : Prop where
  all : ∀ v, (x v).2.data.length ≤ v.data.length

namespace BV.Steady
variable {α β : Type}

theorem bind {x : Mut BV α} {f : α → Mut BV β} (h : Steady x) (k : ∀ a, Steady (f a)) : Steady (x >>= f) := by
  constructor
  intro v
  rcases hx : x v with ⟨r, v'⟩
  have h1 := h.all v
  rw [hx] at h1
  cases r with
  | error e => rw [Mut.bind_error hx]; exact h1
  | ok a => rw [Mut.bind_ok hx]; exact Nat.le_trans ((k a).all v') h1

theorem pure (a : α) : Steady (Pure.pure a) := ⟨fun _ => Nat.le_refl _⟩
theorem lift (x : R α) : Steady (Mut.lift x) := ⟨fun _ => Nat.le_refl _⟩
theorem get : Steady (Mut.get : Mut BV BV) := ⟨fun _ => Nat.le_refl _⟩
theorem grow (n : Nat) : Steady (BV.growM n) := ⟨fun _ => Nat.le_refl _⟩

theorem limb (i : Nat) (f : Word → Word) : Steady (BV.limbM i f) := by
  constructor
  intro v
  by_cases hi : i < v.data.length
  · rw [BV.limbM_ok hi]; simp
  · rw [BV.limbM_error hi]

theorem dropLast (n : Nat) : Steady (BV.dropLastM n) := by
  constructor
  intro v
  unfold BV.dropLastM
  rw [Mut.get_bind]
  split
  · exact Nat.zero_le _
  · show (if _ then _ else _ : List Word).length ≤ _
    split
    · rw [List.length_take]; omega
    · exact Nat.le_refl _

theorem set (i : Nat) (x : Word) : Steady (BV.setM i x) := by
  refine Steady.get.bind fun v => ?_
  split
  · exact Steady.pure _
  · exact (limb ..).bind fun _ => Steady.pure _

theorem flip (i : Nat) : Steady (BV.flipBitM i) := Steady.get.bind fun _ => (Steady.lift _).bind fun _ => limb ..

theorem maskLoop (f : Word → Word → R Word) (mask : List Word) : ∀ n i, Steady (BV.maskLoopM f mask i n) := by
  intro n
  induction n with
  | zero => intro i; exact Steady.pure ()
  | succ n ih =>
    intro i
    exact Steady.get.bind fun _ => (Steady.lift _).bind fun _ => (Steady.lift _).bind fun _ => (Steady.lift _).bind fun _ =>
      (limb ..).bind fun _ => ih _

theorem mask (f : Word → Word → R Word) (o : BV) : Steady (BV.applyMaskM f o) := by
  refine Steady.get.bind fun v => ?_
  split
  · exact Steady.pure _
  · exact (maskLoop ..).bind fun _ => Steady.pure _

end BV.Steady

namespace Buf
variable {α β : Type}

/-- the limbs fit into the memory before and after `x`, and the capacity changes only by a move -/
structure Honest (x : Mut Buf α) : Prop where
  all : ∀ b : Buf, b.vec.data.length ≤ b.cap → (x b).2.vec.data.length ≤ (x b).2.cap ∧ b.moves ≤ (x b).2.moves ∧
    ((x b).2.moves = b.moves → (x b).2.cap = b.cap)

theorem Honest.bind {x : Mut Buf α} {f : α → Mut Buf β} (h : Honest x) (k : ∀ a, Honest (f a)) : Honest (x >>= f) := by
  constructor
  intro b hb
  rcases hx : x b with ⟨r, b'⟩
  have h1 := h.all b hb
  rw [hx] at h1
  cases r with
  | error e => rw [Mut.bind_error hx]; exact h1
  | ok a =>
    rw [Mut.bind_ok hx]
    obtain ⟨a1, a2, a3⟩ := h1
    obtain ⟨k1, k2, k3⟩ := (k a).all b' a1
    refine ⟨k1, Nat.le_trans a2 k2, fun e => ?_⟩
    have a2' : b.moves ≤ b'.moves := a2
    exact (k3 (by omega)).trans (a3 (by show b'.moves = b.moves; omega))

theorem Honest.pure (a : α) : Honest (Pure.pure a) := ⟨fun _ h => ⟨h, Nat.le_refl _, fun _ => rfl⟩⟩
theorem Honest.lift (x : R α) : Honest (Mut.lift x) := ⟨fun _ h => ⟨h, Nat.le_refl _, fun _ => rfl⟩⟩
theorem Honest.get : Honest getK := ⟨fun _ h => ⟨h, Nat.le_refl _, fun _ => rfl⟩⟩

theorem Honest.keep {x : Mut BV α} (h : BV.Steady x) : Honest (keepK x) :=
  ⟨fun b hb => ⟨Nat.le_trans (h.all b.vec) hb, Nat.le_refl _, fun _ => rfl⟩⟩

section
variable {A : Alloc} (hA : A.Valid)
include hA

theorem Honest.ensure (n : Nat) : Honest (Mut.modify fun b => b.ensure A n) := by
  constructor
  intro b hb
  show (b.ensure A n).vec.data.length ≤ (b.ensure A n).cap ∧ b.moves ≤ (b.ensure A n).moves ∧
    ((b.ensure A n).moves = b.moves → (b.ensure A n).cap = b.cap)
  unfold Buf.ensure
  split
  · exact ⟨hb, Nat.le_refl _, fun _ => rfl⟩
  · have := hA.grow b.cap n
    exact ⟨by show b.vec.data.length ≤ A.grow b.cap n; omega, Nat.le_succ _, fun e => by simp at e⟩

theorem Honest.push (w : Word) : Honest (pushK A w) := by
  constructor
  intro b hb
  have e : (pushK A w b).2 = ⟨⟨b.vec.data ++ [w], b.vec.len⟩, (b.ensure A (b.vec.data.length + 1)).cap,
      (b.ensure A (b.vec.data.length + 1)).moves, (b.ensure A (b.vec.data.length + 1)).copied⟩ := by
    unfold pushK
    rw [Mut.modify_bind]
    simp [keepK, Mut.part, BV.pushM, Mut.modify, ensure_vec]
  have h1 := ensure_room hA (b.vec.data.length + 1) b
  obtain ⟨-, h2, h3⟩ := (Honest.ensure hA (b.vec.data.length + 1)).all b hb
  rw [e]
  exact ⟨by simp only [List.length_append, List.length_singleton]; exact h1, h2, h3⟩

theorem Honest.pushIf (c : Prop) [Decidable c] (w : Word) : Honest (pushIfK A c w) := by
  unfold pushIfK
  split
  · exact Honest.push hA w
  · exact Honest.pure ()

theorem Honest.append (bit : Bool) : Honest (appendK A bit) :=
  Honest.get.bind fun _ => (Honest.pushIf hA ..).bind fun _ => (Honest.keep (BV.Steady.limb ..)).bind fun _ =>
    Honest.keep (BV.Steady.grow _)

theorem Honest.appendBit (w : Word) : Honest (appendBitK A w) :=
  Honest.get.bind fun _ => (Honest.pushIf hA ..).bind fun _ => (Honest.keep (BV.Steady.limb ..)).bind fun _ =>
    Honest.keep (BV.Steady.grow _)

theorem Honest.store (n : Nat) (w : Word) (more : Prop) [Decidable more] : Honest (storeK A n w more) := by
  unfold storeK
  split
  · exact Honest.push hA w
  · exact (Honest.keep (BV.Steady.limb ..)).bind fun _ => (Honest.keep (BV.Steady.limb ..)).bind fun _ => Honest.pushIf hA ..

theorem Honest.appendWord (w : Word) : Honest (appendWordK A w) :=
  Honest.get.bind fun _ => (Honest.store hA ..).bind fun _ => Honest.keep (BV.Steady.grow _)

theorem Honest.appendBits (w : Word) (n : Nat) : Honest (appendBitsK A w n) :=
  (Honest.lift _).bind fun _ => Honest.get.bind fun _ => (Honest.store hA ..).bind fun _ => Honest.keep (BV.Steady.grow _)

theorem Honest.appendBitsUnchecked (w : Word) (n : Nat) : Honest (appendBitsUncheckedK A w n) := by
  refine Honest.get.bind fun v => Honest.bind ?_ fun _ => Honest.keep (BV.Steady.grow _)
  unfold storeUncheckedK
  split
  · exact Honest.push hA w
  · exact (Honest.keep (BV.Steady.limb ..)).bind fun _ => Honest.pushIf hA ..

theorem Honest.extendLoop (other : List Word) : ∀ n i, Honest (extendLoopK A other i n) := by
  intro n
  induction n with
  | zero => intro i; exact Honest.pure ()
  | succ n ih => intro i; exact (Honest.lift _).bind fun _ => (Honest.appendBits hA ..).bind fun _ => ih _

theorem Honest.extendBitvec (other : BV) : Honest (extendBitvecK A other) := by
  refine Honest.get.bind fun v => (Honest.lift _).bind fun _ => (Honest.ensure hA _).bind fun _ =>
    (Honest.extendLoop hA ..).bind fun _ => ?_
  unfold extendLastK
  split
  · exact (Honest.lift _).bind fun _ => Honest.appendBits hA ..
  · exact Honest.pure ()

theorem Honest.extend : ∀ os, Honest (extendK A os)
  | [] => Honest.pure ()
  | o :: os => (Honest.extendBitvec hA o).bind fun _ => Honest.extend os

theorem Honest.packPad (m : Nat) : ∀ fuel rest, Honest (packPadK A m fuel rest) := by
  intro fuel
  induction fuel with
  | zero =>
    intro rest
    cases rest with
    | zero => exact Honest.pure ()
    | succ r => exact Honest.lift _
  | succ fuel ih =>
    intro rest
    cases rest with
    | zero => exact Honest.pure ()
    | succ r => exact (Honest.appendBits hA ..).bind fun _ => ih _

theorem Honest.packLoop (m n : Nat) : ∀ ws, Honest (packLoopK A m n ws)
  | [] => Honest.pure ()
  | w :: ws => by
    refine Honest.bind ?_ fun _ => Honest.packLoop m n ws
    unfold packWordK
    split
    · exact Honest.appendBits hA ..
    · exact (Honest.appendBits hA ..).bind fun _ => Honest.packPad hA ..

theorem Honest.fill [Profile] (z : Word) (w : Nat) : ∀ (xs : List Word) (u : BV) (i : Nat), Honest (EF.fillLoopK A z w u i xs)
  | [], u, _ => Honest.pure u
  | _ :: xs, _, _ => (Honest.lift _).bind fun _ => (Honest.lift _).bind fun _ => (Honest.lift _).bind fun _ =>
      (Honest.lift _).bind fun _ => (Honest.appendBitsUnchecked hA ..).bind fun _ => Honest.fill z w xs _ _

end

/-- a vector that has outgrown its memory was moved -/
theorem Honest.moved {x : Mut Buf α} (h : Honest x) {b : Buf} (hb : b.vec.data.length ≤ b.cap)
    (hl : b.cap < (x b).2.vec.data.length) : b.moves < (x b).2.moves := by
  obtain ⟨h1, h2, h3⟩ := h.all b hb
  rcases Nat.lt_or_ge b.moves (x b).2.moves with h4 | h4
  · exact h4
  · have := h3 (by omega)
    omega

end Buf
end Vers
