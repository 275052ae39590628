import Verif.Proofs.Capacity
import Verif.SpecCapacity
import Verif.Props.Unwind

/-!
# Property C82: reallocations of bit vectors

`Buf` (Verif/Model/Capacity.lean) is a bit vector together with the capacity of its vector of limbs and the number of
reallocations. `A` is the strategy of the allocator, of which only the guarantees of the standard library are assumed.
-/

set_option linter.unusedSimpArgs false

namespace Vers

variable [Profile]
open Spec

/-- The call of a method of a bit vector, as `BV.callM`, with the memory. -/
def Buf.callK (A : Alloc) : BitCall BV → Mut Buf Bool
  | .append b => do Buf.appendK A b; pure true
  | .appendBit w => do Buf.appendBitK A w; pure true
  | .appendWord w => do Buf.appendWordK A w; pure true
  | .appendBits w n => do Buf.appendBitsK A w n; pure true
  | .dropLast n => Buf.keepK (do BV.dropLastM n; pure true)
  | .set i x => Buf.keepK (BV.setM i x)
  | .flip i => Buf.keepK (do BV.flipBitM i; pure true)
  | .extendBitvec o => do Buf.extendBitvecK A o; pure true
  | .extend os => do Buf.extendK A os; pure true
  | .mask f _ o => Buf.keepK (BV.applyMaskM (fun a b => .ok (f a b)) o)

namespace Buf

/-- `extend` with several vectors: at most one reallocation for each, and none if there is room for all. -/
theorem extendK_spec {A : Alloc} (hA : A.Valid) : ∀ (os : List BV) {b : Buf}, b.vec.WF → (∀ o ∈ os, o.WF) →
    ∃ b', extendK A os b = (.ok (), b') ∧ BV.extendM os b.vec = (.ok (), b'.vec) ∧ b'.vec.WF ∧
      b'.vec.bits = b.vec.bits ++ os.flatMap BV.bits ∧ b'.moves ≤ b.moves + os.length ∧
      (b'.vec.data.length ≤ b.cap → b'.cap = b.cap ∧ b'.moves = b.moves) := by
  intro os
  induction os with
  | nil => intro b h _; exact ⟨b, rfl, rfl, h, by simp, by simp, fun _ => ⟨rfl, rfl⟩⟩
  | cons o os ih =>
    intro b h ho
    obtain ⟨b1, g1, g2, g3, g4, g5, g6⟩ := extendBitvecK_spec hA h (ho o (by simp))
    obtain ⟨b2, k1, k2, k3, k4, k5, k6⟩ := ih g3 (fun o' h' => ho o' (by simp [h']))
    refine ⟨b2, ?_, ?_, k3, by rw [k4, g4]; simp, by simp; omega, fun hc => ?_⟩
    · unfold extendK; rw [Mut.bind_ok g1]; exact k1
    · unfold BV.extendM; rw [Mut.bind_ok g2]; exact k2
    · have hle : b1.vec.data.length ≤ b2.vec.data.length := by
        have e := congrArg List.length k4
        simp only [BV.length_bits, List.length_append] at e
        unfold BV.WF at g3 k3
        omega
      obtain ⟨e1, e2⟩ := g6 (Nat.le_trans hle hc)
      obtain ⟨e3, e4⟩ := k6 (by rw [e1]; exact hc)
      exact ⟨e3.trans e1, e4.trans e2⟩

/-- a call acts on the vector as without the memory, and does not move the limbs if there is room for those at the end -/
theorem callK_eq {A : Alloc} (hA : A.Valid) {b : Buf} (h : b.vec.WF) {c : BitCall BV} (hc : c.Valid) :
    (callK A c b).1 = (BV.callM c b.vec).1 ∧ (callK A c b).2.vec = (BV.callM c b.vec).2 ∧
    ((callK A c b).2.vec.data.length ≤ b.cap → (callK A c b).2.cap = b.cap ∧ (callK A c b).2.moves = b.moves) := by
  have tail : ∀ {x : Mut Buf Unit} {y : Mut BV Unit}, Grows x y →
      ((do x; pure true : Mut Buf Bool) b).1 = ((do y; pure true : Mut BV Bool) b.vec).1 ∧
      ((do x; pure true : Mut Buf Bool) b).2.vec = ((do y; pure true : Mut BV Bool) b.vec).2 ∧
      (((do x; pure true : Mut Buf Bool) b).2.vec.data.length ≤ b.cap →
        ((do x; pure true : Mut Buf Bool) b).2.cap = b.cap ∧ ((do x; pure true : Mut Buf Bool) b).2.moves = b.moves) :=
    fun g => ⟨((g.bind fun _ => Grows.pure true).all b).1, ((g.bind fun _ => Grows.pure true).all b).2.1,
      ((g.bind fun _ => Grows.pure true).all b).2.2.2⟩
  cases c with
  | append x => exact tail (Grows.append A x)
  | appendBit w => exact tail (Grows.appendBit A w)
  | appendWord w => exact tail (Grows.appendWord A w)
  | appendBits w n => exact tail (Grows.appendBits A w n)
  | dropLast n => exact ⟨rfl, rfl, fun _ => ⟨rfl, rfl⟩⟩
  | set i x => exact ⟨rfl, rfl, fun _ => ⟨rfl, rfl⟩⟩
  | flip i => exact ⟨rfl, rfl, fun _ => ⟨rfl, rfl⟩⟩
  | mask f g o => exact ⟨rfl, rfl, fun _ => ⟨rfl, rfl⟩⟩
  | extendBitvec o =>
    obtain ⟨b', g1, g2, -, -, -, g6⟩ := extendBitvecK_spec hA h hc
    simp only [callK, BV.callM]
    rw [Mut.bind_ok g1, Mut.bind_ok g2]
    exact ⟨rfl, rfl, g6⟩
  | extend os =>
    obtain ⟨b', g1, g2, -, -, -, g6⟩ := extendK_spec hA os h hc
    simp only [callK, BV.callM]
    rw [Mut.bind_ok g1, Mut.bind_ok g2]
    exact ⟨rfl, rfl, g6⟩

end Buf

namespace Buf

/-- `extend` moves the limbs only as often as the capacity can double -/
theorem extendK_room {A : Alloc} (hA : A.Valid) (h2 : ∀ c n, 2 * c ≤ A.grow c n) {L : Nat} : ∀ (os : List BV) {b : Buf},
    b.vec.WF → (∀ o ∈ os, o.WF) → Room L b → (extendK A os b).2.vec.data.length ≤ L → Room L (extendK A os b).2 := by
  intro os
  induction os with
  | nil => intro b _ _ hR _; exact hR
  | cons o os ih =>
    intro b h ho hR hL
    obtain ⟨b1, g1, -, g3, -, -, -⟩ := extendBitvecK_spec hA h (ho o (by simp))
    obtain ⟨b2, k1, -, k3, k4, -, -⟩ := extendK_spec hA os g3 (fun o' h' => ho o' (by simp [h']))
    have e : extendK A (o :: os) b = extendK A os b1 := by
      show (extendBitvecK A o >>= fun _ => extendK A os) b = _
      rw [Mut.bind_ok g1]
    rw [e] at hL ⊢
    have hle : b1.vec.data.length ≤ b2.vec.data.length := by
      have e := congrArg List.length k4
      simp only [BV.length_bits, List.length_append] at e
      unfold BV.WF at g3 k3
      omega
    refine ih g3 (fun o' h' => ho o' (by simp [h'])) ?_ hL
    have := extendBitvecK_room hA h2 h (ho o (by simp)) hR
    rw [g1] at this
    rw [k1] at hL
    exact this (Nat.le_trans hle hL)

/-- a call moves the limbs only as often as the capacity can double -/
theorem callK_room {A : Alloc} (hA : A.Valid) (h2 : ∀ c n, 2 * c ≤ A.grow c n) {L : Nat} {b : Buf} (h : b.vec.WF)
    {c : BitCall BV} (hc : c.Valid) (hR : Room L b) (hL : (callK A c b).2.vec.data.length ≤ L) :
    Room L (callK A c b).2 := by
  have tail : ∀ {x : Mut Buf Unit}, Amortised x → ((do x; pure true : Mut Buf Bool) b).2.vec.data.length ≤ L →
      Room L ((do x; pure true : Mut Buf Bool) b).2 :=
    fun g hL => (g.bind fun _ => Amortised.pure true).room L b hL hR
  have less : (∀ {r l'}, bitStep b.vec.bits c = some (r, l') → l'.length ≤ b.vec.bits.length) →
      (BV.callM c b.vec).2.data.length ≤ b.vec.data.length := by
    intro hs
    rcases BV.callM_spec h hc with ⟨r, l', v', h1, e, w, h4⟩ | ⟨_, _, e⟩
    · have := hs h1
      rw [← h4, BV.length_bits, BV.length_bits] at this
      rw [e]
      show v'.data.length ≤ _
      unfold BV.WF at h w
      omega
    · rw [e]; exact Nat.le_refl _
  cases c with
  | append x => exact tail (Amortised.append hA h2 x) hL
  | appendBit w => exact tail (Amortised.appendBit hA h2 w) hL
  | appendWord w => exact tail (Amortised.appendWord hA h2 w) hL
  | appendBits w n => exact tail (Amortised.appendBits hA h2 w n) hL
  | dropLast n => exact hR.keep (less fun hs => by simp [bitStep] at hs; rw [← hs.2]; simp)
  | set i x => exact hR.keep (less fun hs => by simp [bitStep] at hs; rw [← hs.2]; simp)
  | flip i => exact hR.keep (less fun hs => by simp [bitStep] at hs; rw [← hs.2.2]; simp)
  | mask f g o =>
    refine hR.keep (less fun hs => ?_)
    simp only [bitStep, Option.some.injEq, Prod.mk.injEq] at hs
    rw [← hs.2]
    split
    · rw [List.length_zipWith]; exact Nat.min_le_left _ _
    · exact Nat.le_refl _
  | extendBitvec o =>
    obtain ⟨b', g1, -⟩ := extendBitvecK_spec hA h hc
    have := extendBitvecK_room hA h2 h hc hR (L := L)
    simp only [callK] at hL ⊢
    rw [Mut.bind_ok g1] at hL ⊢
    rw [g1] at this
    exact this hL
  | extend os =>
    obtain ⟨b', g1, -⟩ := extendK_spec hA os h hc
    have := extendK_room hA h2 (L := L) os h hc hR
    simp only [callK] at hL ⊢
    rw [Mut.bind_ok g1] at hL ⊢
    rw [g1] at this
    exact this hL

end Buf

/-- Every call has the result of the vector without the memory, and leaves the same vector; it moves the limbs only if the
vector afterwards needs more limbs than there was room for. -/
theorem C82_call {A : Alloc} (hA : A.Valid) {b : Buf} (h : b.vec.WF) {c : BitCall BV} (hc : c.Valid) :
    (Buf.callK A c b).1 = (BV.callM c b.vec).1 ∧ (Buf.callK A c b).2.vec = (BV.callM c b.vec).2 ∧
    (((Buf.callK A c b).2.vec.len + 63) / 64 ≤ b.cap → (Buf.callK A c b).2.moves = b.moves) := by
  obtain ⟨h1, h2, h3⟩ := Buf.callK_eq hA h hc
  refine ⟨h1, h2, fun hl => (h3 ?_).2⟩
  have hw : (Buf.callK A c b).2.vec.WF := by
    rw [h2]
    rcases BV.callM_spec h hc with ⟨_, _, v', _, e, w, _⟩ | ⟨_, _, e⟩
    · rw [e]; exact w
    · rw [e]; exact h
  rw [show (Buf.callK A c b).2.vec.data.length = _ from hw]
  exact hl

/-- an allocator that doubles the capacity -/
def doubling : Alloc := ⟨id, fun c n => max (2 * c) n⟩

omit [Profile] in
theorem doubling_valid : doubling.Valid := ⟨fun _ => Nat.le_refl _, fun _ _ => Nat.le_max_right _ _⟩

example := C82_call doubling_valid (b := ⟨BV.fromOnes 70, 2, 5, 0⟩) (by decide) (c := .appendWord 7#64) trivial

/-- `extend_bitvec` reallocates at most once, whatever the capacity, and `extend` at most once for each vector. -/
theorem C82_extend {A : Alloc} (hA : A.Valid) {b : Buf} (h : b.vec.WF) :
    (∀ o : BV, o.WF → ∃ b', Buf.extendBitvecK A o b = (.ok (), b') ∧ b'.vec.bits = b.vec.bits ++ o.bits ∧
      b'.moves ≤ b.moves + 1) ∧
    (∀ os : List BV, (∀ o ∈ os, o.WF) → ∃ b', Buf.extendK A os b = (.ok (), b') ∧
      b'.vec.bits = b.vec.bits ++ os.flatMap BV.bits ∧ b'.moves ≤ b.moves + os.length) := by
  refine ⟨fun o ho => ?_, fun os ho => ?_⟩
  · obtain ⟨b', h1, -, -, h4, h5, -⟩ := Buf.extendBitvecK_spec hA h ho
    exact ⟨b', h1, h4, h5⟩
  · obtain ⟨b', h1, -, -, h4, h5, -⟩ := Buf.extendK_spec hA os h ho
    exact ⟨b', h1, h4, h5⟩

/-- a vector without spare capacity, extended by 500 bits -/
example := (C82_extend doubling_valid (b := ⟨BV.fromOnes 70, 2, 0, 0⟩) (by decide)).1 (BV.fromOnes 500) (by decide)

/-- Partial: widths of `append_bits` are at least 1, see `C82_append_nothing_defect`. A vector that was created with a capacity
of `c` bits is not reallocated by any sequence of calls during which it holds at most `c` bits. -/
theorem C82_with_capacity_partial {A : Alloc} (hA : A.Valid) (c : Nat) (cs : List (BitCall BV)) (hc : ∀ x ∈ cs, x.Valid)
    (hw : Within c [] cs) :
    (attempts (Buf.callK A) (Buf.withCapacity A c) cs).2.moves = 0 ∧
    (attempts (Buf.callK A) (Buf.withCapacity A c) cs).2.vec.bits = (bitRun [] cs).2 := by
  have key : ∀ (cs : List (BitCall BV)) (b : Buf), b.vec.WF → c / 64 + 1 ≤ b.cap → (∀ x ∈ cs, x.Valid) →
      Within c b.vec.bits cs →
      (attempts (Buf.callK A) b cs).2.moves = b.moves ∧ (attempts (Buf.callK A) b cs).2.vec.bits = (bitRun b.vec.bits cs).2 := by
    intro cs
    induction cs with
    | nil => intro b _ _ _ _; exact ⟨rfl, rfl⟩
    | cons x cs ih =>
      intro b h hb hv hw
      obtain ⟨e1, e2, e3⟩ := Buf.callK_eq hA h (hv x (by simp))
      have fits : ∀ {v : BV}, v.WF → v.bits.length ≤ c → v.data.length ≤ b.cap := by
        intro v h1 h2
        rw [BV.length_bits] at h2
        unfold BV.WF at h1
        omega
      have first : ∀ l, Within c l cs → l.length ≤ c := by
        intro l hl
        cases cs with
        | nil => exact hl
        | cons _ _ => exact hl.1
      rcases BV.callM_spec h (hv x (by simp)) with ⟨r, l', v', h1, h2, h3, h4⟩ | ⟨e, h1, h2⟩
      · have hw' : Within c l' cs := by have := hw.2; rw [h1] at this; exact this
        have hv' : (Buf.callK A x b).2.vec = v' := by rw [e2, h2]
        obtain ⟨m1, m2⟩ := e3 (by rw [hv']; exact fits h3 (by rw [h4]; exact first l' hw'))
        obtain ⟨k1, k2⟩ := ih (Buf.callK A x b).2 (by rw [hv']; exact h3) (by rw [m1]; exact hb)
          (fun y hy => hv y (by simp [hy])) (by rw [hv', h4]; exact hw')
        simp only [attempts, bitRun, h1]
        rw [k1, k2, m2, hv', h4]
        exact ⟨rfl, rfl⟩
      · have hw' : Within c b.vec.bits cs := by have := hw.2; rw [h1] at this; exact this
        have hv' : (Buf.callK A x b).2.vec = b.vec := by rw [e2, h2]
        obtain ⟨m1, m2⟩ := e3 (by rw [hv']; exact fits h (first _ hw'))
        obtain ⟨k1, k2⟩ := ih (Buf.callK A x b).2 (by rw [hv']; exact h) (by rw [m1]; exact hb)
          (fun y hy => hv y (by simp [hy])) (by rw [hv']; exact hw')
        simp only [attempts, bitRun, h1]
        rw [k1, k2, m2, hv']
        exact ⟨rfl, rfl⟩
  exact key cs (Buf.withCapacity A c) BV.wf_new (hA.first _) hc hw

example := C82_with_capacity_partial doubling_valid 200
  [.appendWord 5#64, .appendBits 5#64 64, .extendBitvec (BV.fromOnes 72), .dropLast 30, .appendBits 1#64 30, .flip 500]
  (by simp [BitCall.Valid]; decide) (by simp [Within, bitStep, BV.length_bits, BV.fromOnes])

/-- Partial: widths of `append_bits` are at least 1. With an allocator that at least doubles the capacity, as that of the standard library does, a vector that starts empty and
holds at most `c` bits at any time is moved at most 2 + log₂ (number of limbs for `c` bits) times, whatever the calls, and these moves
copy at most twice the number of limbs for `c` bits in total. -/
theorem C82_growth_partial {A : Alloc} (hA : A.Valid) (h2 : ∀ c n, 2 * c ≤ A.grow c n) {c : Nat} (cs : List (BitCall BV))
    (hc : ∀ x ∈ cs, x.Valid) (hw : Within c [] cs) :
    (attempts (Buf.callK A) Buf.new cs).2.moves ≤ Nat.log2 ((c + 63) / 64) + 2 ∧
    (attempts (Buf.callK A) Buf.new cs).2.copied ≤ 2 * ((c + 63) / 64) ∧
    (attempts (Buf.callK A) Buf.new cs).2.vec.bits = (bitRun [] cs).2 := by
  have key : ∀ (cs : List (BitCall BV)) (b : Buf), b.vec.WF → Buf.Room ((c + 63) / 64) b → (∀ x ∈ cs, x.Valid) →
      Within c b.vec.bits cs →
      Buf.Room ((c + 63) / 64) (attempts (Buf.callK A) b cs).2 ∧
        (attempts (Buf.callK A) b cs).2.vec.bits = (bitRun b.vec.bits cs).2 := by
    intro cs
    induction cs with
    | nil => intro b _ hR _ _; exact ⟨hR, rfl⟩
    | cons x cs ih =>
      intro b h hR hv hw
      obtain ⟨e1, e2, -⟩ := Buf.callK_eq hA h (hv x (by simp))
      have fits : ∀ {v : BV}, v.WF → v.bits.length ≤ c → v.data.length ≤ (c + 63) / 64 := by
        intro v h1 h2
        rw [BV.length_bits] at h2
        unfold BV.WF at h1
        omega
      have first : ∀ l, Within c l cs → l.length ≤ c := by
        intro l hl
        cases cs with
        | nil => exact hl
        | cons _ _ => exact hl.1
      rcases BV.callM_spec h (hv x (by simp)) with ⟨r, l', v', h1, h3, h4, h5⟩ | ⟨e, h1, h3⟩
      · have hw' : Within c l' cs := by have := hw.2; rw [h1] at this; exact this
        have hv' : (Buf.callK A x b).2.vec = v' := by rw [e2, h3]
        have hR' := Buf.callK_room hA h2 h (hv x (by simp)) hR (by rw [hv']; exact fits h4 (by rw [h5]; exact first l' hw'))
        obtain ⟨k1, k2⟩ := ih (Buf.callK A x b).2 (by rw [hv']; exact h4) hR' (fun y hy => hv y (by simp [hy]))
          (by rw [hv', h5]; exact hw')
        simp only [attempts, bitRun, h1]
        refine ⟨k1, ?_⟩
        rw [k2, hv', h5]
      · have hw' : Within c b.vec.bits cs := by have := hw.2; rw [h1] at this; exact this
        have hv' : (Buf.callK A x b).2.vec = b.vec := by rw [e2, h3]
        have hR' := Buf.callK_room hA h2 h (hv x (by simp)) hR (by rw [hv']; exact fits h (first _ hw'))
        obtain ⟨k1, k2⟩ := ih (Buf.callK A x b).2 (by rw [hv']; exact h) hR' (fun y hy => hv y (by simp [hy]))
          (by rw [hv']; exact hw')
        simp only [attempts, bitRun, h1]
        refine ⟨k1, ?_⟩
        rw [k2, hv']
  obtain ⟨k1, k2⟩ := key cs Buf.new BV.wf_new ⟨Or.inl rfl, by simp [Buf.new], Nat.le_refl _, Nat.le_refl _, Nat.zero_le _⟩ hc hw
  refine ⟨?_, k1.total, k2⟩
  refine Decidable.byContradiction fun hn => ?_
  have a1 := k1.last
  have a2 : 2 ^ (Nat.log2 ((c + 63) / 64) + 3) ≤ 2 ^ (attempts (Buf.callK A) Buf.new cs).2.moves :=
    Nat.pow_le_pow_right (by omega) (by omega)
  have a3 := Nat.lt_log2_self (n := (c + 63) / 64)
  rw [Nat.pow_add] at a2
  rw [Nat.pow_succ] at a3
  omega

/-- three moves for 1000 bits -/
example := C82_growth_partial doubling_valid (fun _ _ => Nat.le_max_left _ _) (c := 1000)
  [.appendWord 5#64, .appendBits 5#64 64, .extendBitvec (BV.fromOnes 500), .dropLast 300, .appendBits 1#64 30, .flip 500]
  (by simp [BitCall.Valid]; decide) (by simp [Within, bitStep, BV.length_bits, BV.fromOnes])

omit [Profile] in
/-- Defect (a consequence of `C02_append_bits_zero_defect`): appending nothing often enough to a vector that was created with
any capacity reallocates it, although it never holds a bit. -/
theorem C82_append_nothing_defect (A : Alloc) (c : Nat) (w : Word) :
    ∃ n, 0 < (attempts (Buf.callK A) (Buf.withCapacity A c) (List.replicate n (.appendBits w 0))).2.moves ∧
      (attempts (Buf.callK A) (Buf.withCapacity A c) (List.replicate n (.appendBits w 0))).2.vec.bits = [] := by
  have call : ∀ b : Buf, b.vec.len = 0 → Buf.callK A (.appendBits w 0) b =
      (.ok true, ⟨⟨b.vec.data ++ [w], 0⟩, (b.ensure A (b.vec.data.length + 1)).cap, (b.ensure A (b.vec.data.length + 1)).moves,
        (b.ensure A (b.vec.data.length + 1)).copied⟩) := by
    intro b hb
    have hv := Buf.ensure_vec A (b.vec.data.length + 1) b
    rcases he : b.ensure A (b.vec.data.length + 1) with ⟨v, cap, moves, copied⟩
    rw [he] at hv
    simp only at hv
    subst hv
    simp only [Buf.callK, Buf.appendBitsK, Buf.storeK, assertR]
    rw [Mut.bind_ok (s' := ⟨⟨b.vec.data ++ [w], 0⟩, cap, moves, copied⟩) (a := ())]
    · rfl
    · simp only [Nat.zero_le, decide_true, if_true]
      rw [Mut.lift_ok_bind, Mut.bind_ok (show Buf.getK b = (.ok b.vec, b) from rfl), hb,
        Mut.bind_ok (s' := ⟨⟨b.vec.data ++ [w], b.vec.len⟩, cap, moves, copied⟩) (a := ())]
      · rw [hb]; rfl
      · rw [if_pos (by simp)]
        unfold Buf.pushK
        rw [Mut.modify_bind, he]; rfl
  have stay : ∀ n (b : Buf), b.vec.len = 0 →
      (attempts (Buf.callK A) b (List.replicate n (.appendBits w 0))).2.vec.len = 0 ∧
      b.moves ≤ (attempts (Buf.callK A) b (List.replicate n (.appendBits w 0))).2.moves := by
    intro n
    induction n with
    | zero => intro b hb; exact ⟨hb, Nat.le_refl _⟩
    | succ n ih =>
      intro b hb
      simp only [List.replicate_succ, attempts, call b hb]
      obtain ⟨k1, k2⟩ := ih ⟨⟨b.vec.data ++ [w], 0⟩, (b.ensure A (b.vec.data.length + 1)).cap,
        (b.ensure A (b.vec.data.length + 1)).moves,
        (b.ensure A (b.vec.data.length + 1)).copied⟩ rfl
      refine ⟨k1, Nat.le_trans ?_ k2⟩
      show b.moves ≤ (b.ensure A (b.vec.data.length + 1)).moves
      unfold Buf.ensure; split <;> simp
  have move : ∀ d (b : Buf), b.vec.len = 0 → b.vec.data.length + d = b.cap →
      b.moves < (attempts (Buf.callK A) b (List.replicate (d + 1) (.appendBits w 0))).2.moves := by
    intro d
    induction d with
    | zero =>
      intro b hb hd
      simp only [List.replicate_succ, List.replicate_zero, attempts, call b hb]
      unfold Buf.ensure
      rw [if_neg (by omega)]; simp
    | succ d ih =>
      intro b hb hd
      rw [List.replicate_succ]
      simp only [attempts, call b hb]
      have := ih ⟨⟨b.vec.data ++ [w], 0⟩, (b.ensure A (b.vec.data.length + 1)).cap,
        (b.ensure A (b.vec.data.length + 1)).moves,
        (b.ensure A (b.vec.data.length + 1)).copied⟩ rfl (by
          rw [Buf.ensure_eq (by omega)]; simp; omega)
      rw [Buf.ensure_eq (by omega)] at this ⊢
      exact this
  refine ⟨A.first (c / 64 + 1) + 1, move _ (Buf.withCapacity A c) rfl (by simp [Buf.withCapacity, BV.new]), ?_⟩
  have := (stay (A.first (c / 64 + 1) + 1) (Buf.withCapacity A c) rfl).1
  unfold BV.bits
  rw [this]; rfl

example : (attempts (Buf.callK doubling) (Buf.withCapacity doubling 100) (List.replicate 3 (.appendBits 5#64 0))).2 =
    ⟨⟨[5#64, 5#64, 5#64], 0⟩, 4, 1, 2⟩ := by decide +revert +kernel

omit [Profile] in
/-- appending single bits does not move the limbs if there is room for all -/
theorem Buf.appendBitListK_spec (A : Alloc) : ∀ (ws : List Word) (b : Buf), b.vec.WF →
    (b.vec.len + ws.length + 63) / 64 ≤ b.cap →
    ∃ b', Buf.appendBitListK A ws b = (.ok (), b') ∧ b'.moves = b.moves ∧ BV.appendBitList b.vec ws = .ok b'.vec := by
  intro ws
  induction ws with
  | nil => intro b _ _; exact ⟨b, rfl, rfl, rfl⟩
  | cons w ws ih =>
    intro b h hl
    obtain ⟨v', r1, r2, r3⟩ := C02_append_bit h w
    have hlen : v'.len = b.vec.len + 1 := by have := congrArg List.length r3; simpa using this
    have hM := BV.appendBitM_eq (v := b.vec) (by unfold BV.WF at h; omega) w
    rw [r1] at hM
    obtain ⟨g1, g2, -, g4⟩ := (Buf.Grows.appendBit A w).all b
    rw [hM] at g1 g2
    have g2' : (Buf.appendBitK A w b).2.vec = v' := g2
    obtain ⟨m1, m2⟩ := g4 (by
      rw [g2']; unfold BV.WF at r2; rw [r2, hlen]; simp only [List.length_cons] at hl; omega)
    obtain ⟨b', k1, k2, k3⟩ := ih (Buf.appendBitK A w b).2 (by rw [g2']; exact r2) (by
      rw [g2', m1, hlen]; simp only [List.length_cons] at hl; omega)
    refine ⟨b', ?_, k2.trans m2, ?_⟩
    · unfold Buf.appendBitListK
      rw [Mut.bind_ok (s' := (Buf.appendBitK A w b).2) (a := ()) (Prod.ext g1 rfl)]
      exact k1
    · unfold BV.appendBitList
      rw [r1, ok_bind, ← g2']; exact k3

omit [Profile] in
/-- `from_bits` and its variants allocate the limbs once: the vector is never reallocated during the construction. -/
theorem C82_from_bits {A : Alloc} (hA : A.Valid) (bits : List Word) :
    ∃ b, Buf.fromBitsK A bits = (.ok (), b) ∧ b.moves = 0 ∧ BV.fromBits bits = .ok b.vec := by
  have := hA.first (bits.length / 64 + 1)
  obtain ⟨b, h1, h2, h3⟩ := Buf.appendBitListK_spec A bits (Buf.withCapacity A bits.length) BV.wf_new (by
    simp only [Buf.withCapacity, BV.new]; omega)
  exact ⟨b, h1, h2, h3⟩

example := C82_from_bits doubling_valid (List.replicate 100 3#64)

omit [Profile] in
/-- A tree builder that was created with a capacity of `n` nodes never reallocates its vector while at most `n` nodes are
entered and left. -/
theorem C82_builder {A : Alloc} (hA : A.Valid) (n : Nat) (walk : List Bool) (h : walk.length ≤ 2 * n) :
    ∃ b, Buf.walkK A walk (Buf.builderK A n) = (.ok (), b) ∧ b.moves = 0 ∧ b.vec.bits = walk := by
  have e : ∀ (l : List Bool) (b : Buf), Buf.walkK A l b = Buf.appendBitListK A (l.map fun x => if x then 1#64 else 0#64) b := by
    intro l
    induction l with
    | nil => intro b; rfl
    | cons x l ih =>
      intro b
      have : Buf.walkK A l = Buf.appendBitListK A (l.map fun x => if x then 1#64 else 0#64) := funext ih
      cases x <;> simp only [Buf.walkK, Buf.appendBitListK, List.map_cons, this] <;> rfl
  have := hA.first (n * 2 / 64 + 1)
  obtain ⟨b, h1, h2, h3⟩ := Buf.appendBitListK_spec A (walk.map fun x => if x then 1#64 else 0#64) (Buf.builderK A n) BV.wf_new (by
    simp only [Buf.builderK, Buf.withCapacity, BV.new, List.length_map]; omega)
  refine ⟨b, by rw [e]; exact h1, h2, ?_⟩
  obtain ⟨v, v1, v2, v3⟩ := C01_from_bits (walk.map fun x => if x then 1#64 else 0#64)
  have h3' : BV.fromBits (walk.map fun x => if x then 1#64 else 0#64) = .ok b.vec := h3
  rw [v1] at h3'
  cases h3'
  rw [v3, List.map_map]
  conv => rhs; rw [← List.map_id walk]
  apply List.map_congr_left
  intro x _
  cases x <;> rfl

example := C82_builder doubling_valid 3 [true, true, false, true, false, false] (by decide)

end Vers
