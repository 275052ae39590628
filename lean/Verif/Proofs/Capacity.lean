import Verif.Model.Capacity
import Verif.Proofs.Unwind

/-! # The memory of bit vectors -/

set_option linter.unusedSimpArgs false

namespace Vers
open Spec

namespace Buf
variable {α β : Type}

/-- the effect of `x` on the buffer is that of `y` on the vector, the number of limbs does not decrease, and the limbs stay in
place if there is room for those at the end -/
structure Grows (x : Mut Buf α) (y : Mut BV α) : Prop where
  all : ∀ b : Buf,
  (x b).1 = (y b.vec).1 ∧ (x b).2.vec = (y b.vec).2 ∧ b.vec.data.length ≤ (x b).2.vec.data.length ∧
  ((x b).2.vec.data.length ≤ b.cap → (x b).2.cap = b.cap ∧ (x b).2.moves = b.moves)

theorem Grows.bind {x : Mut Buf α} {y : Mut BV α} {f : α → Mut Buf β} {g : α → Mut BV β} (h : Grows x y)
    (k : ∀ a, Grows (f a) (g a)) : Grows (x >>= f) (y >>= g) := by
  constructor
  intro b
  obtain ⟨h1, h2, h3, h4⟩ := h.all b
  rcases hx : x b with ⟨r, b'⟩
  rcases hy : y b.vec with ⟨r', v'⟩
  rw [hx, hy] at h1 h2
  simp only at h1 h2
  subst h1
  rw [hx] at h3 h4
  cases r with
  | error e => rw [Mut.bind_error hx, Mut.bind_error hy]; exact ⟨rfl, h2, h3, h4⟩
  | ok a =>
    rw [Mut.bind_ok hx, Mut.bind_ok hy]
    obtain ⟨k1, k2, k3, k4⟩ := (k a).all b'
    rw [h2] at k1 k2
    refine ⟨k1, k2, Nat.le_trans h3 k3, fun hc => ?_⟩
    obtain ⟨e1, e2⟩ := h4 (Nat.le_trans k3 hc)
    obtain ⟨e3, e4⟩ := k4 (by rw [e1]; exact hc)
    exact ⟨e3.trans e1, e4.trans e2⟩

theorem Grows.pure (a : α) : Grows (Pure.pure a) (Pure.pure a) := ⟨fun _ => ⟨rfl, rfl, Nat.le_refl _, fun _ => ⟨rfl, rfl⟩⟩⟩

theorem Grows.lift (x : R α) : Grows (Mut.lift x) (Mut.lift x) := ⟨fun _ => ⟨rfl, rfl, Nat.le_refl _, fun _ => ⟨rfl, rfl⟩⟩⟩

theorem Grows.get {f : BV → Mut Buf β} {g : BV → Mut BV β} (k : ∀ v, Grows (f v) (g v)) : Grows (getK >>= f) (Mut.get >>= g) :=
  Grows.bind (x := getK) (y := Mut.get) ⟨fun _ => ⟨rfl, rfl, Nat.le_refl _, fun _ => ⟨rfl, rfl⟩⟩⟩ k

theorem Grows.keep {x : Mut BV α} (h : ∀ v, v.data.length ≤ (x v).2.data.length) : Grows (keepK x) x :=
  ⟨fun b => ⟨rfl, rfl, h b.vec, fun _ => ⟨rfl, rfl⟩⟩⟩

theorem Grows.limb (i : Nat) (f : Word → Word) : Grows (keepK (BV.limbM i f)) (BV.limbM i f) := by
  apply Grows.keep
  intro v
  by_cases h : i < v.data.length
  · rw [BV.limbM_ok h]; simp
  · rw [BV.limbM_error h]; exact Nat.le_refl _

theorem Grows.grow (n : Nat) : Grows (keepK (BV.growM n)) (BV.growM n) := Grows.keep fun _ => Nat.le_refl _

theorem Grows.push (A : Alloc) (w : Word) : Grows (pushK A w) (BV.pushM w) := by
  constructor
  intro b
  unfold pushK
  rw [Mut.modify_bind]
  unfold ensure
  split
  · exact ⟨rfl, rfl, by simp [keepK, Mut.part, BV.pushM], fun _ => ⟨rfl, rfl⟩⟩
  · refine ⟨rfl, rfl, by simp [keepK, Mut.part, BV.pushM], fun hc => ?_⟩
    simp [keepK, Mut.part, BV.pushM] at hc
    omega

theorem Grows.pushIf (A : Alloc) (c : Prop) [Decidable c] (w : Word) : Grows (pushIfK A c w) (BV.pushIfM c w) := by
  unfold pushIfK BV.pushIfM
  split
  · exact Grows.push A w
  · exact Grows.pure ()

theorem Grows.append (A : Alloc) (bit : Bool) : Grows (appendK A bit) (BV.appendM bit) :=
  Grows.get fun _ => (Grows.pushIf ..).bind fun _ => (Grows.limb ..).bind fun _ => Grows.grow _

theorem Grows.appendBit (A : Alloc) (w : Word) : Grows (appendBitK A w) (BV.appendBitM w) :=
  Grows.get fun _ => (Grows.pushIf ..).bind fun _ => (Grows.limb ..).bind fun _ => Grows.grow _

theorem Grows.store (A : Alloc) (n : Nat) (w : Word) (more : Prop) [Decidable more] :
    Grows (storeK A n w more) (BV.storeM n w more) := by
  unfold storeK BV.storeM
  split
  · exact Grows.push A w
  · exact (Grows.limb ..).bind fun _ => (Grows.limb ..).bind fun _ => Grows.pushIf ..

theorem Grows.appendWord (A : Alloc) (w : Word) : Grows (appendWordK A w) (BV.appendWordM w) :=
  Grows.get fun _ => (Grows.store ..).bind fun _ => Grows.grow _

theorem Grows.appendBits (A : Alloc) (w : Word) (n : Nat) : Grows (appendBitsK A w n) (BV.appendBitsM w n) :=
  (Grows.lift _).bind fun _ => Grows.get fun _ => (Grows.store ..).bind fun _ => Grows.grow _

theorem Grows.extendLoop (A : Alloc) (other : List Word) : ∀ n i, Grows (extendLoopK A other i n) (BV.extendLoopM other i n) := by
  intro n
  induction n with
  | zero => intro i; exact Grows.pure ()
  | succ n ih => intro i; exact (Grows.lift _).bind fun _ => (Grows.appendBits ..).bind fun _ => ih _

theorem Grows.extendLast (A : Alloc) (other : BV) : Grows (extendLastK A other) (BV.extendLastM other) := by
  unfold extendLastK BV.extendLastM
  split
  · exact (Grows.lift _).bind fun _ => Grows.appendBits ..
  · exact Grows.pure ()

/-- the part of `extend_bitvec` behind `reserve` -/
theorem Grows.extendTail (A : Alloc) (o : BV) :
    Grows (do extendLoopK A o.data 0 (o.len / 64); extendLastK A o) (do BV.extendLoopM o.data 0 (o.len / 64); BV.extendLastM o) :=
  (Grows.extendLoop ..).bind fun _ => Grows.extendLast ..

theorem ensure_vec (A : Alloc) (n : Nat) (b : Buf) : (b.ensure A n).vec = b.vec := by
  unfold ensure; split <;> rfl

theorem ensure_room {A : Alloc} (hA : A.Valid) (n : Nat) (b : Buf) : n ≤ (b.ensure A n).cap := by
  unfold ensure
  split
  · assumption
  · exact hA.grow _ _

theorem ensure_moves (A : Alloc) (n : Nat) (b : Buf) : (b.ensure A n).moves ≤ b.moves + 1 := by
  unfold ensure; split <;> simp

theorem ensure_eq {A : Alloc} {n : Nat} {b : Buf} (h : n ≤ b.cap) : b.ensure A n = b := by
  unfold ensure; rw [if_pos h]

/-- the effect of `extend_bitvec` -/
theorem extendBitvecK_spec [Profile] {A : Alloc} (hA : A.Valid) {b : Buf} (h : b.vec.WF) {o : BV} (ho : o.WF) :
    ∃ b', extendBitvecK A o b = (.ok (), b') ∧ BV.extendBitvecM o b.vec = (.ok (), b'.vec) ∧ b'.vec.WF ∧
      b'.vec.bits = b.vec.bits ++ o.bits ∧ b'.moves ≤ b.moves + 1 ∧
      (b'.vec.data.length ≤ b.cap → b'.cap = b.cap ∧ b'.moves = b.moves) := by
  obtain ⟨v', h1, h2, h3⟩ := BV.extendBitvec_refines h ho
  have hM := BV.extendBitvecM_eq (v := b.vec) (o := o) (by unfold BV.WF at h; omega) (by unfold BV.WF at ho; omega)
  rw [h1] at hM
  have hM' : BV.extendBitvecM o b.vec = (.ok (), v') := hM
  have hr : b.vec.data.length ≤ (b.vec.len + o.len + 63) / 64 := by unfold BV.WF at h; omega
  have hl : v'.len = b.vec.len + o.len := by
    have := congrArg List.length h3
    simpa using this
  have hd : v'.data.length = (b.vec.len + o.len + 63) / 64 := by rw [← hl]; exact h2
  obtain ⟨t1, t2, t3, t4⟩ := (Grows.extendTail A o).all (b.ensure A ((b.vec.len + o.len + 63) / 64))
  have e : extendBitvecK A o b = (do extendLoopK A o.data 0 (o.len / 64); extendLastK A o : Mut Buf Unit)
      (b.ensure A ((b.vec.len + o.len + 63) / 64)) := by
    unfold extendBitvecK BV.reserveR
    rw [Mut.bind_ok (show getK b = (.ok b.vec, b) from rfl), if_pos hr, Mut.lift_ok_bind, Mut.modify_bind]
  have e' : BV.extendBitvecM o b.vec = (do BV.extendLoopM o.data 0 (o.len / 64); BV.extendLastM o : Mut BV Unit) b.vec := by
    unfold BV.extendBitvecM BV.reserveR
    rw [Mut.get_bind, if_pos hr, Mut.lift_ok_bind]
  rw [ensure_vec, ← e', hM'] at t1 t2
  rw [← e] at t1 t2 t3 t4
  refine ⟨(extendBitvecK A o b).2, Prod.ext t1 rfl, by rw [t2]; exact hM', by rw [t2]; exact h2, by rw [t2]; exact h3, ?_, ?_⟩
  · obtain ⟨-, k⟩ := t4 (by rw [t2]; show v'.data.length ≤ _; rw [hd]; exact ensure_room hA _ _)
    rw [k]; exact ensure_moves _ _ _
  · intro hc
    rw [t2] at hc
    have hc' : (b.vec.len + o.len + 63) / 64 ≤ b.cap := by rw [← hd]; exact hc
    rw [ensure_eq hc'] at t4
    exact t4 (by rw [t2]; exact hc)

/-! ## Amortised growth -/

/-- the capacity has doubled with each move, and the last move was for at most `L` limbs -/
structure Room (L : Nat) (b : Buf) : Prop where
  double : b.moves = 0 ∨ 2 ^ b.moves ≤ 2 * b.cap
  last : 2 ^ b.moves ≤ 4 * L + 1
  fits : b.vec.data.length ≤ b.cap
  paid : b.copied ≤ b.cap
  total : b.copied ≤ 2 * L

/-- a statement that does not add limbs -/
theorem Room.keep {L : Nat} {b : Buf} (h : Room L b) {v : BV} (hv : v.data.length ≤ b.vec.data.length) :
    Room L ⟨v, b.cap, b.moves, b.copied⟩ := ⟨h.double, h.last, Nat.le_trans hv h.fits, h.paid, h.total⟩

/-- `x` keeps this if it ends with at most `L` limbs -/
structure Amortised (x : Mut Buf α) : Prop where
  mono : ∀ b : Buf, b.vec.data.length ≤ (x b).2.vec.data.length
  room : ∀ L (b : Buf), (x b).2.vec.data.length ≤ L → Room L b → Room L (x b).2

theorem Amortised.bind {x : Mut Buf α} {f : α → Mut Buf β} (h : Amortised x) (k : ∀ a, Amortised (f a)) :
    Amortised (x >>= f) := by
  constructor
  · intro b
    rcases hx : x b with ⟨r, b'⟩
    have h1 := h.mono b
    rw [hx] at h1
    cases r with
    | error e => rw [Mut.bind_error hx]; exact h1
    | ok a => rw [Mut.bind_ok hx]; exact Nat.le_trans h1 ((k a).mono b')
  · intro L b hL hR
    rcases hx : x b with ⟨r, b'⟩
    have h1 := h.room L b
    rw [hx] at h1
    cases r with
    | error e => rw [Mut.bind_error hx] at hL ⊢; exact h1 hL hR
    | ok a =>
      rw [Mut.bind_ok hx] at hL ⊢
      exact (k a).room L b' hL (h1 (Nat.le_trans ((k a).mono b') hL) hR)

theorem Amortised.pure (a : α) : Amortised (Pure.pure a) := ⟨fun _ => Nat.le_refl _, fun _ _ _ h => h⟩

theorem Amortised.lift (x : R α) : Amortised (Mut.lift x) := ⟨fun _ => Nat.le_refl _, fun _ _ _ h => h⟩

theorem Amortised.get : Amortised getK := ⟨fun _ => Nat.le_refl _, fun _ _ _ h => h⟩

theorem Amortised.limb (i : Nat) (f : Word → Word) : Amortised (keepK (BV.limbM i f)) :=
  ⟨fun b => ((Grows.limb i f).all b).2.2.1, fun _ b _ h => h.keep (by
    by_cases hi : i < b.vec.data.length
    · rw [BV.limbM_ok hi]; simp
    · rw [BV.limbM_error hi]; exact Nat.le_refl _)⟩

theorem Amortised.grow (n : Nat) : Amortised (keepK (BV.growM n)) := ⟨fun _ => Nat.le_refl _, fun _ _ _ h => h.keep (Nat.le_refl _)⟩

/-- a move for at most `L` limbs -/
theorem Room.ensure {A : Alloc} (hA : A.Valid) (h2 : ∀ c n, 2 * c ≤ A.grow c n) {L n : Nat} {b : Buf} (h : Room L b)
    (hn : n ≤ L) : Room L (b.ensure A n) := by
  unfold Buf.ensure
  split
  · exact h
  · have e1 := hA.grow b.cap n
    have e2 := h2 b.cap n
    obtain ⟨a, c, f, p, t⟩ := h
    refine ⟨?_, ?_, ?_, ?_, ?_⟩
    · refine Or.inr ?_
      show 2 ^ (b.moves + 1) ≤ 2 * A.grow b.cap n
      rw [Nat.pow_succ]
      rcases a with a | a
      · rw [a]; omega
      · omega
    · show 2 ^ (b.moves + 1) ≤ 4 * L + 1
      rw [Nat.pow_succ]
      rcases a with a | a
      · rw [a]; omega
      · omega
    · show b.vec.data.length ≤ A.grow b.cap n
      omega
    · show b.copied + b.vec.data.length ≤ A.grow b.cap n
      omega
    · show b.copied + b.vec.data.length ≤ 2 * L
      omega

section
variable {A : Alloc} (hA : A.Valid) (h2 : ∀ c n, 2 * c ≤ A.grow c n)
include hA h2

theorem Amortised.push (w : Word) : Amortised (pushK A w) := by
  refine ⟨fun b => ((Grows.push A w).all b).2.2.1, fun L b hL hR => ?_⟩
  have e : (pushK A w b).2.vec.data.length = b.vec.data.length + 1 := by
    unfold pushK
    rw [Mut.modify_bind]
    simp [keepK, Mut.part, BV.pushM, ensure_vec]
  rw [e] at hL
  have := hR.ensure hA h2 hL
  have hr := ensure_room hA (b.vec.data.length + 1) b
  have hv : (pushK A w b).2 = ⟨(pushK A w b).2.vec, (b.ensure A (b.vec.data.length + 1)).cap,
      (b.ensure A (b.vec.data.length + 1)).moves, (b.ensure A (b.vec.data.length + 1)).copied⟩ := by
    unfold pushK; rw [Mut.modify_bind]; rfl
  rw [hv]
  exact ⟨this.double, this.last, by simp only; rw [e]; exact hr, this.paid, this.total⟩

theorem Amortised.pushIf (c : Prop) [Decidable c] (w : Word) : Amortised (pushIfK A c w) := by
  unfold pushIfK
  split
  · exact Amortised.push hA h2 w
  · exact Amortised.pure ()

theorem Amortised.append (bit : Bool) : Amortised (appendK A bit) :=
  Amortised.get.bind fun _ => (Amortised.pushIf hA h2 ..).bind fun _ => (Amortised.limb ..).bind fun _ => Amortised.grow _

theorem Amortised.appendBit (w : Word) : Amortised (appendBitK A w) :=
  Amortised.get.bind fun _ => (Amortised.pushIf hA h2 ..).bind fun _ => (Amortised.limb ..).bind fun _ => Amortised.grow _

theorem Amortised.store (n : Nat) (w : Word) (more : Prop) [Decidable more] : Amortised (storeK A n w more) := by
  unfold storeK
  split
  · exact Amortised.push hA h2 w
  · exact (Amortised.limb ..).bind fun _ => (Amortised.limb ..).bind fun _ => Amortised.pushIf hA h2 ..

theorem Amortised.appendWord (w : Word) : Amortised (appendWordK A w) :=
  Amortised.get.bind fun _ => (Amortised.store hA h2 ..).bind fun _ => Amortised.grow _

theorem Amortised.appendBits (w : Word) (n : Nat) : Amortised (appendBitsK A w n) :=
  (Amortised.lift _).bind fun _ => Amortised.get.bind fun _ => (Amortised.store hA h2 ..).bind fun _ => Amortised.grow _

theorem Amortised.extendLoop (other : List Word) : ∀ n i, Amortised (extendLoopK A other i n) := by
  intro n
  induction n with
  | zero => intro i; exact Amortised.pure ()
  | succ n ih => intro i; exact (Amortised.lift _).bind fun _ => (Amortised.appendBits hA h2 ..).bind fun _ => ih _

theorem Amortised.extendLast (other : BV) : Amortised (extendLastK A other) := by
  unfold extendLastK
  split
  · exact (Amortised.lift _).bind fun _ => Amortised.appendBits hA h2 ..
  · exact Amortised.pure ()

variable [Profile]

theorem extendBitvecK_room {b : Buf} (h : b.vec.WF) {o : BV} (ho : o.WF) {L : Nat} (hR : Room L b)
    (hL : (extendBitvecK A o b).2.vec.data.length ≤ L) : Room L (extendBitvecK A o b).2 := by
  obtain ⟨b', g1, -, g3, g4, -, -⟩ := extendBitvecK_spec hA h ho
  have hl : b'.vec.len = b.vec.len + o.len := by
    have := congrArg List.length g4
    simpa using this
  have hL' : (b.vec.len + o.len + 63) / 64 ≤ L := by
    rw [g1] at hL
    rw [← hl, ← show b'.vec.data.length = _ from g3]; exact hL
  have hr : b.vec.data.length ≤ (b.vec.len + o.len + 63) / 64 := by unfold BV.WF at h; omega
  have e : extendBitvecK A o b = (do extendLoopK A o.data 0 (o.len / 64); extendLastK A o : Mut Buf Unit)
      (b.ensure A ((b.vec.len + o.len + 63) / 64)) := by
    unfold extendBitvecK BV.reserveR
    rw [Mut.bind_ok (show getK b = (.ok b.vec, b) from rfl), if_pos hr, Mut.lift_ok_bind, Mut.modify_bind]
  rw [e] at hL ⊢
  exact ((Amortised.extendLoop hA h2 ..).bind fun _ => Amortised.extendLast hA h2 o).room L _ hL (hR.ensure hA h2 hL')

end

end Buf
end Vers
