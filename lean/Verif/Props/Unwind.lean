import Verif.Proofs.Unwind
import Verif.Props.BitVec
import Verif.Props.GenIter
import Verif.Props.EliasFano
import Verif.Props.Wavelet

/-!
# Property C81: a call that panics leaves the object as it was

A caller catches the panic (`catch_unwind`) and goes on with the object. The methods are modelled statement by statement
(Verif/Model/Unwind.lean); `attempts` (Verif/SpecUnwind.lean) makes a sequence of calls and catches their panics.
-/

set_option linter.unusedSimpArgs false

namespace Vers

variable [Profile]
open Spec

/-! ## Bit vectors -/

/-- The call of a method of a bit vector; the result of a method that returns nothing is `true`. -/
def BV.callM : BitCall BV → Mut BV Bool
  | .append b => do BV.appendM b; pure true
  | .appendBit w => do BV.appendBitM w; pure true
  | .appendWord w => do BV.appendWordM w; pure true
  | .appendBits w n => do BV.appendBitsM w n; pure true
  | .dropLast n => do BV.dropLastM n; pure true
  | .set i x => BV.setM i x
  | .flip i => do BV.flipBitM i; pure true
  | .extendBitvec o => do BV.extendBitvecM o; pure true
  | .extend os => do BV.extendM os; pure true
  | .mask f _ o => BV.applyMaskM (fun a b => .ok (f a b)) o

/-- The panic or the result of a call, without the kind of the panic. -/
def resultOf : R Bool → Option Bool
  | .ok b => some b
  | .error _ => none

omit [Profile] in
theorem BV.done_of {x : Mut BV Unit} {v : BV} {r : R BV} {l : List Bool} (h : x v = done v r) (hr : Refines r l) :
    ∃ v', (do x; pure true : Mut BV Bool) v = (.ok true, v') ∧ v'.WF ∧ v'.bits = l := by
  obtain ⟨v', h1, h2, h3⟩ := hr
  refine ⟨v', ?_, h2, h3⟩
  rw [Mut.bind_ok (s' := v') (a := ()) (by rw [h, h1]; rfl)]; rfl

theorem BV.callM_spec {v : BV} (h : v.WF) {c : BitCall BV} (hc : c.Valid) :
    (∃ b l' v', bitStep v.bits c = some (b, l') ∧ BV.callM c v = (.ok b, v') ∧ v'.WF ∧ v'.bits = l') ∨
    (∃ e, bitStep v.bits c = none ∧ BV.callM c v = (.error e, v)) := by
  have he : v.len ≤ 64 * v.data.length := by unfold BV.WF at h; omega
  cases c with
  | append b =>
    obtain ⟨v', h1, h2⟩ := BV.done_of (BV.appendM_eq he b) (C02_append h b)
    exact Or.inl ⟨_, _, v', rfl, h1, h2⟩
  | appendBit w =>
    obtain ⟨v', h1, h2⟩ := BV.done_of (BV.appendBitM_eq he w) (C02_append_bit h w)
    exact Or.inl ⟨_, _, v', rfl, h1, h2⟩
  | appendWord w =>
    obtain ⟨v', h1, h2⟩ := BV.done_of (BV.appendWordM_eq v w) (C02_append_word h w)
    exact Or.inl ⟨_, _, v', rfl, h1, h2⟩
  | appendBits w n =>
    obtain ⟨k1, k2⟩ := C02_append_bits_partial h w n hc
    by_cases hn : n ≤ 64
    · obtain ⟨v', h1, h2⟩ := BV.done_of (BV.appendBitsM_eq v w n) (k1 hn)
      exact Or.inl ⟨_, _, v', by simp only [bitStep]; rw [if_pos hn], h1, h2⟩
    · refine Or.inr ⟨.assertion, by simp only [bitStep]; rw [if_neg hn], ?_⟩
      simp only [BV.callM]
      rw [Mut.bind_error (s' := v) (e := .assertion)]
      rw [BV.appendBitsM_eq, k2 (by omega)]; rfl
  | dropLast n =>
    refine Or.inl ⟨_, _, v.dropLast n, rfl, ?_, C06_drop_last h n⟩
    simp only [BV.callM]
    rw [Mut.bind_ok (BV.dropLastM_eq v n)]; rfl
  | set i x =>
    obtain ⟨k1, k2⟩ := C03_set h i x
    by_cases hi : i < v.len
    · obtain ⟨v', g1, g2, g3⟩ := k1 hi
      refine Or.inl ⟨_, _, v', rfl, ?_, g2, g3⟩
      simp only [BV.callM]
      rw [BV.setM_eq, g1]; simp [doneOpt, settle, Except.map, hi]
    · refine Or.inl ⟨_, _, v, rfl, ?_, h, by rw [List.set_eq_of_length_le (by simp; omega)]⟩
      simp only [BV.callM]
      rw [BV.setM_eq, k2 (by omega)]; simp [doneOpt, settle, Except.map, hi]
  | flip i =>
    obtain ⟨k1, k2⟩ := C03_flip_bit h i
    by_cases hi : i < v.len
    · obtain ⟨v', h1, h2⟩ := BV.done_of (BV.flipBitM_eq v i) (k1 hi)
      exact Or.inl ⟨_, _, v', by simp only [bitStep]; rw [if_pos (by simpa using hi)], h1, h2⟩
    · refine Or.inr ⟨.assertion, by simp only [bitStep]; rw [if_neg (by simpa using hi)], ?_⟩
      simp only [BV.callM]
      rw [Mut.bind_error (s' := v) (e := .assertion)]
      rw [BV.flipBitM_eq, k2 (by omega)]; rfl
  | extendBitvec o =>
    have ho : o.len ≤ 64 * o.data.length := by unfold BitCall.Valid BV.WF at hc; omega
    obtain ⟨v', h1, h2⟩ := BV.done_of (BV.extendBitvecM_eq he ho) (C06_extend_bitvec h hc)
    exact Or.inl ⟨_, _, v', rfl, h1, h2⟩
  | extend os =>
    obtain ⟨v', g1, g2⟩ := C06_extend h os hc
    refine Or.inl ⟨_, _, v', rfl, ?_, g2⟩
    simp only [BV.callM]
    rw [Mut.bind_ok (BV.extendM_eq os v v' he (fun o ho => by
      have := hc o ho; unfold BV.WF at this; omega) g1)]; rfl
  | mask f g o =>
    obtain ⟨k1, k2⟩ := C10_apply_mask hc.1 h hc.2
    by_cases hl : v.len = o.len
    · obtain ⟨v', g1, g2, g3⟩ := k1 hl
      refine Or.inl ⟨_, _, v', rfl, ?_, g2, by rw [if_pos (by simpa using hl)]; exact g3⟩
      simp only [BV.callM]
      rw [BV.applyMaskM_eq (by have := hc.2; unfold BV.WF at this h; omega), g1]
      simp [doneOpt, settle, Except.map, hl]
    · refine Or.inl ⟨_, _, v, rfl, ?_, h, by rw [if_neg (by simpa using hl)]⟩
      simp only [BV.callM]
      unfold BV.applyMaskM
      rw [Mut.get_bind, if_pos hl]
      simp [hl]

/-- Partial: widths of `append_bits` are at least 1 (see `C81_surplus_mask_defect`) and the custom operation of a mask does
not panic (see `C81_custom_mask`). For every well-formed vector and every sequence of calls whose panics are caught: a call
panics exactly if the documentation says so, and the results and the final content are those of a plain list on which the
panicking calls were not made. -/
theorem C81_bit_vec_partial {v : BV} (h : v.WF) (cs : List (BitCall BV)) (hc : ∀ c ∈ cs, c.Valid) :
    (attempts BV.callM v cs).1.map resultOf = (bitRun v.bits cs).1 ∧
    (attempts BV.callM v cs).2.WF ∧ (attempts BV.callM v cs).2.bits = (bitRun v.bits cs).2 := by
  induction cs generalizing v with
  | nil => exact ⟨rfl, h, rfl⟩
  | cons c cs ih =>
    have ih' := fun {v : BV} (h : v.WF) => ih h (fun c' h' => hc c' (by simp [h']))
    rcases BV.callM_spec h (hc c (by simp)) with ⟨b, l', v', h1, h2, h3, h4⟩ | ⟨e, h1, h2⟩
    · obtain ⟨k1, k2, k3⟩ := ih' h3
      simp only [attempts, bitRun, h1, h2, List.map_cons]
      rw [k1, h4]
      exact ⟨rfl, k2, by rw [k3, h4]⟩
    · obtain ⟨k1, k2, k3⟩ := ih' h
      simp only [attempts, bitRun, h1, h2, List.map_cons]
      rw [k1]
      exact ⟨rfl, k2, k3⟩

example := C81_bit_vec_partial (v := BV.fromOnes 70) (by decide)
  [.appendBits 5#64 65, .append false, .flip 80, .flip 70, .extend [BV.fromZeros 3], .mask (· ||| ·) (· || ·) (BV.fromOnes 3)]
  (by simp [BitCall.Valid, bitwise_or]; decide)

/-- A flip out of range between two calls, on a vector of 70 ones: the calls before and after take effect. -/
example : bitRun [true, false] [.flip 7, .flip 1, .appendBits 0#64 65, .append false] =
    ([none, some true, none, some true], [true, true, false]) := by decide

omit [Profile] in
/-- A single call on any vector with enough limbs for its bits (also with more, as `append_bits` with width 0 leaves it): the
new vector is as the model of the method says, or there is a panic and the vector is as it was. -/
theorem C81_call {v : BV} (h : v.len ≤ 64 * v.data.length) :
    (∀ b, BV.appendM b v = settle v ((v.append b).map fun v' => (v', ()))) ∧
    (∀ w, BV.appendBitM w v = settle v ((v.appendBit w).map fun v' => (v', ()))) ∧
    (∀ w, BV.appendWordM w v = settle v ((v.appendWord w).map fun v' => (v', ()))) ∧
    (∀ w n, BV.appendBitsM w n v = settle v ((v.appendBits w n).map fun v' => (v', ()))) ∧
    (∀ w n, BV.appendBitsUncheckedM w n v = settle v ((v.appendBitsUnchecked w n).map fun v' => (v', ()))) ∧
    (∀ n, BV.dropLastM n v = (.ok (), v.dropLast n)) ∧
    (∀ i x, BV.setM i x v = settle v ((v.set i x).map fun o => (o.getD v, o.isSome))) ∧
    (∀ i x, BV.setUncheckedM i x v = settle v ((v.setUnchecked i x).map fun v' => (v', ()))) ∧
    (∀ i, BV.flipBitM i v = settle v ((v.flipBit i).map fun v' => (v', ()))) ∧
    (∀ i, BV.flipBitUncheckedM i v = settle v ((v.flipBitUnchecked i).map fun v' => (v', ()))) ∧
    (∀ o : BV, o.len ≤ 64 * o.data.length →
      BV.extendBitvecM o v = settle v ((v.extendBitvec o).map fun v' => (v', ()))) :=
  ⟨BV.appendM_eq h, BV.appendBitM_eq h, BV.appendWordM_eq v, BV.appendBitsM_eq v, BV.appendBitsUncheckedM_eq v,
    BV.dropLastM_eq v, BV.setM_eq v, BV.setUncheckedM_eq v, BV.flipBitM_eq v, BV.flipBitUncheckedM_eq v,
    fun _ ho => BV.extendBitvecM_eq h ho⟩

/-- A vector with one limb too many: `extend_bitvec` by an empty vector panics (in `reserve`). -/
example : BV.extendBitvecM BV.new ⟨[3#64, 0#64], 2⟩ = (.error .overflow, ⟨[3#64, 0#64], 2⟩) := by rfl

omit [Profile] in
/-- If the operation given to `apply_mask_custom` panics at some limb, the bits of the limbs before it are combined and the
others are as they were; the vector is well-formed. (If it does not panic, all bits are combined.) -/
theorem C81_custom_mask {f : Word → Word → R Word} {g : Bool → Bool → Bool}
    (hf : ∀ a b w, f a b = .ok w → ∀ i, i < 64 → w.getLsbD i = g (a.getLsbD i) (b.getLsbD i))
    {v mask : BV} (hv : v.WF) (hm : mask.WF) (hl : v.len = mask.len) :
    ∃ k v' r, BV.applyMaskM f mask v = (r, v') ∧ v'.WF ∧
      v'.bits = List.zipWith g (v.bits.take (64 * k)) (mask.bits.take (64 * k)) ++ v.bits.drop (64 * k) ∧
      (r = .ok true ∧ v.len ≤ 64 * k ∨ ∃ e a b, f a b = .error e ∧ r = .error e ∧ 64 * k < v.len) := by
  have hv' := hv
  unfold BV.WF at hv' hm
  obtain ⟨k, v', r, g1, -, g3, g4, g5, g6, g7, g8⟩ :=
    BV.maskLoopM_spec f mask.data v.data.length 0 v (by omega) (by omega)
  have hbits : v'.bits = List.zipWith g (v.bits.take (64 * k)) (mask.bits.take (64 * k)) ++ v.bits.drop (64 * k) := by
    apply List.ext_getElem?
    intro i
    rw [BV.bits_getElem?, g4]
    by_cases hi : i < v.len
    · rw [if_pos hi]
      have h1 : i / 64 < v.data.length := by omega
      have h2 : i / 64 < mask.data.length := by omega
      have h3 : i / 64 < v'.data.length := by omega
      by_cases hk : i < 64 * k
      · rw [List.getElem?_append_left (by simp; omega), List.getElem?_zipWith, List.getElem?_take, List.getElem?_take,
          if_pos hk, if_pos hk, BV.bits_getElem?, BV.bits_getElem?, if_pos hi, if_pos (by omega)]
        simp only
        congr 1
        have := hf _ _ _ (g6 (i / 64) h1 h2 h3 (by omega) (by omega)) (i % 64) (by omega)
        rw [lbit_eq_of_some (List.getElem?_eq_getElem h3), this, lbit_eq_of_some (List.getElem?_eq_getElem h1),
          lbit_eq_of_some (List.getElem?_eq_getElem h2)]
      · rw [List.getElem?_append_right (by simp; omega), List.getElem?_drop, BV.bits_getElem?]
        simp only [List.length_zipWith, List.length_take, BV.length_bits]
        rw [show 64 * k + (i - min (min (64 * k) v.len) (min (64 * k) mask.len)) = i by omega, if_pos hi]
        congr 1
        rw [lbit_eq_of_some (List.getElem?_eq_getElem h3), lbit_eq_of_some (List.getElem?_eq_getElem h1),
          g7 (i / 64) h1 h3 (by omega)]
    · rw [if_neg hi, List.getElem?_eq_none]
      simp; omega
  have hwf : v'.WF := by unfold BV.WF; omega
  rcases g8 with ⟨a, b⟩ | ⟨h1, h2, e, a, b, c⟩
  · refine ⟨k, v', .ok true, ?_, hwf, hbits, Or.inl ⟨rfl, by omega⟩⟩
    unfold BV.applyMaskM
    rw [Mut.get_bind, if_neg (by simpa using hl), Mut.bind_ok (by rw [g1, b])]; rfl
  · refine ⟨k, v', .error e, ?_, hwf, hbits, Or.inr ⟨e, _, _, b, rfl, by omega⟩⟩
    unfold BV.applyMaskM
    rw [Mut.get_bind, if_neg (by simpa using hl), Mut.bind_error (by rw [g1, c])]

/-- An operation that panics unless the first word is all ones: the first 64 of 70 bits are combined, the last 6 are not. -/
example : BV.applyMaskM (fun a b => if a = BitVec.allOnes 64 then .ok (a ^^^ b) else .error .unwrap) (BV.fromOnes 70)
    (BV.fromOnes 64 |>.appendBits 5#64 6 |>.toOption.getD BV.new) = (.error .unwrap, ⟨[0#64, 5#64], 70⟩) := by decide +kernel

omit [Profile] in
theorem BV.maskLoopM_short (f : Word → Word → Word) (mask : List Word) : ∀ n i (v : BV) (d : List Word),
    i + n = mask.length → mask.length < v.data.length → BV.maskLoop f mask i n v.data = .ok d →
      BV.maskLoopM (fun a b => .ok (f a b)) mask i (n + 1) v = (.error .oob, ⟨d, v.len⟩) := by
  intro n
  induction n with
  | zero =>
    intro i v d hi hm h
    cases h
    unfold BV.maskLoopM
    rw [Mut.get_bind, idx_of_lt (by omega), Mut.lift_ok_bind, BV.idx_error (d := mask) (by omega), Mut.lift_error_bind]
  | succ n ih =>
    intro i v d hi hm h
    unfold BV.maskLoop at h
    obtain ⟨a, h1, h⟩ := bind_eq_ok.mp h
    obtain ⟨b, h2, h⟩ := bind_eq_ok.mp h
    obtain ⟨d', h3, h⟩ := bind_eq_ok.mp h
    have hl : i < v.data.length := by omega
    rw [BV.setIdx_ok hl] at h3
    cases h3
    unfold BV.maskLoopM
    rw [Mut.get_bind, h1, Mut.lift_ok_bind, h2, Mut.lift_ok_bind, Mut.lift_ok_bind, Mut.bind_ok (BV.limbM_ok hl _)]
    exact ih (i + 1) ⟨v.data.set i (f a b), v.len⟩ d (by omega) (by simpa using hm) h

omit [Profile] in
theorem BV.maskLoop_append (f : Word → Word → Word) (mask t : List Word) : ∀ n i (d d' : List Word),
    BV.maskLoop f mask i n d = .ok d' → BV.maskLoop f mask i n (d ++ t) = .ok (d' ++ t) := by
  intro n
  induction n with
  | zero => intro i d d' h; cases h; rfl
  | succ n ih =>
    intro i d d' h
    unfold BV.maskLoop at h ⊢
    obtain ⟨a, h1, h⟩ := bind_eq_ok.mp h
    obtain ⟨b, h2, h⟩ := bind_eq_ok.mp h
    obtain ⟨e, h3, h⟩ := bind_eq_ok.mp h
    have hl : i < d.length := by
      unfold setIdx at h3; split at h3
      · assumption
      · cases h3
    have ha : a = d[i] := by rw [idx_of_lt hl] at h1; cases h1; rfl
    rw [BV.setIdx_ok hl] at h3
    cases h3
    rw [idx_of_lt (by simp; omega), ok_bind, h2, ok_bind, BV.setIdx_ok (by simp; omega), ok_bind,
      List.getElem_append_left hl, ← ha, List.set_append_left _ _ hl]
    exact ih _ _ _ h

omit [Profile] in
/-- Defect: after `append_bits(w, 0)` on a vector whose length is a multiple of 64 (which does not change its bits),
applying a mask of the same length panics, and the panic comes after all bits have been changed. -/
theorem C81_surplus_mask_defect {f : Word → Word → Word} {g : Bool → Bool → Bool} (hf : Bitwise f g) {v mask : BV}
    (hv : v.WF) (hm : mask.WF) (hl : v.len = mask.len) (ha : v.len % 64 = 0) (w : Word) :
    ∃ v1 v2, v.appendBits w 0 = .ok v1 ∧ v1.bits = v.bits ∧
      BV.applyMaskM (fun a b => .ok (f a b)) mask v1 = (.error .oob, v2) ∧
      v2.bits = List.zipWith g v.bits mask.bits := by
  obtain ⟨v1, _, e1, e2, _⟩ := C02_append_bits_zero_defect hv w ha
  have e3 : v1 = ⟨v.data ++ [w], v.len⟩ := by
    unfold BV.appendBits assertR at e1
    simp only [Nat.zero_le, decide_true, if_true, ok_bind, ha] at e1
    cases e1; rfl
  obtain ⟨u, u1, u2, u3⟩ := (C10_apply_mask hf hv hm).1 hl
  unfold BV.applyMask at u1
  rw [if_neg (by simpa using hl)] at u1
  obtain ⟨d, d1, d2⟩ := bind_eq_ok.mp u1
  cases d2
  unfold BV.WF at hv hm u2
  simp only at u2
  refine ⟨v1, ⟨d ++ [w], v.len⟩, e1, e2, ?_, ?_⟩
  · subst e3
    unfold BV.applyMaskM
    rw [Mut.get_bind, if_neg (by simpa using hl)]
    simp only [List.length_append, List.length_singleton]
    rw [Mut.bind_error (BV.maskLoopM_short f mask.data v.data.length 0 ⟨v.data ++ [w], v.len⟩ (d ++ [w]) (by omega)
      (by simp; omega) (BV.maskLoop_append f mask.data [w] _ _ _ _ d1))]
  · rw [← u3]
    apply BV.bits_ext (by simp)
    intro i hi
    have hi : i < v.len := hi
    simp only
    rw [lbit_push, if_neg (by omega)]

/-- 64 ones, `append_bits(_, 0)`, and a mask of 64 ones with xor: a panic, and 64 zeros. -/
example := C81_surplus_mask_defect bitwise_xor (v := BV.fromOnes 64) (mask := BV.fromOnes 64) (by decide) (by decide) rfl
  (by decide) 7#64

/-! ## Iterators, in debug builds

In release builds the arithmetic that panics wraps around instead, see C68. -/

/-- For every vector and every sequence of calls of `next`, `next_back`, `nth`, `nth_back` and `len` with any arguments, whose
panics are caught: every call answers like a list consumed from both ends, where `nth` and `nth_back` with too large an
argument return `None` and consume nothing (C20), or it panics and is as if it had not been made. -/
theorem C81_elements (hd : Profile.debug = true) {v : BV} (h : v.WF) (hl : v.len < 2 ^ 64) (ops : List IterOp) :
    Tolerated keepStep (v.bits.map b2w) ops (attempts (GenIter.stepM v.vecOps) (GenIter.new v.vecOps) ops).1 :=
  have hr := vecOps_repr h hl
  tolerated_of_sim (rel := GenIter.Rel (v.bits.map b2w)) (fun _ _ op hrel => GenIter.stepM_spec hd hr hrel op) ops _ _
    (GenIter.new_rel hr)

example (hd : Profile.debug = true) := C81_elements hd (v := BV.fromOnes 70) (by decide) (by decide)
  [.next, .nth (2 ^ 64 - 1), .nextBack, .nth 100, .len]

/-- The same for the positions of the bits, in ascending order, of a rank/select vector (`iter0`, `iter1`); the calls that
panic are described by C19. -/
theorem C81_select (hd : Profile.debug = true) {v : BV} (h : v.WF) (zero : Bool) :
    ∃ rs it, RsVec.fromBitVec v = .ok rs ∧ SelIter.new rs zero = .ok it ∧ ∀ ops,
      Tolerated iterStep (positions (!zero) v.bits) ops (attempts (SelIter.stepM rs zero) it ops).1 := by
  obtain ⟨rs, h1, h2, h3, h4⟩ := fromBitVec_inv h
  obtain ⟨it, i1, i2, -⟩ := SelIter.new_rel (zero := zero) h2
  rw [bits_of_from h3 h4] at i2
  exact ⟨rs, it, h1, i1, fun ops => tolerated_of_sim (rel := SelIter.Rel rs zero)
    (fun _ _ op hrel => SelIter.stepM_spec hd h2 hrel op) ops _ _ i2⟩

example (hd : Profile.debug = true) := C81_select hd (v := BV.fromOnes 70) (by decide) false

/-- The same for the iterator of an Elias-Fano vector. -/
theorem C81_elias_fano (hd : Profile.debug = true) {fl : Nat → Nat} (hfl : LogLike fl) {data : List Word}
    (hs : Sorted data) (hl : data.length < 2 ^ 60) :
    ∃ ef it, EF.fromSlice fl data = .ok ef ∧ EfIter.new ef = .ok it ∧ ∀ ops,
      Tolerated keepStep data ops (attempts (EfIter.stepM ef) it ops).1 := by
  obtain ⟨ef, ps, e1, h, _⟩ := fromSlice_holds hfl hs hl
  obtain ⟨it, i1, i2⟩ := EfIter.new_rel h
  exact ⟨ef, it, e1, i1, fun ops => tolerated_of_sim (rel := EfIter.Rel ef data ps)
    (fun _ _ op hrel => EfIter.stepM_spec hd h hrel op) ops _ _ i2⟩

example (hd : Profile.debug = true) := C81_elias_fano hd logLike_ceilLog2 (data := efExample)
  (by simp [Sorted, efExample]) (by decide)

open WM in
/-- The same for the iterators of a wavelet matrix over numbers, in original and in ascending order. -/
theorem C81_wavelet (hd : Profile.debug = true) {m : WM} {k : Nat} {vals : List Nat} (h : Built m k vals)
    (hn : vals.length < 2 ^ 64) (hk : k ≤ 64) :
    (∃ l : List Word, l.map BitVec.toNat = vals ∧ ∀ ops,
      Tolerated keepStep l ops (attempts (GenIter.stepM m.numOps) (GenIter.new m.numOps) ops).1) ∧
    (∃ l : List Word, l.map BitVec.toNat = sorted vals ∧ ∀ ops,
      Tolerated keepStep l ops (attempts (GenIter.stepM m.sortedNumOps) (GenIter.new m.sortedNumOps) ops).1) := by
  have hs := built_stores h
  constructor
  · obtain ⟨l, l1, l2⟩ := reprNum hs hk hn
    exact ⟨l, l2, fun ops => tolerated_of_sim (rel := GenIter.Rel l)
      (fun _ _ op hrel => GenIter.stepM_spec hd l1 hrel op) ops _ _ (GenIter.new_rel l1)⟩
  · obtain ⟨l, l1, l2⟩ := reprSortedNum hs hk hn
    exact ⟨l, l2, fun ops => tolerated_of_sim (rel := GenIter.Rel l)
      (fun _ _ op hrel => GenIter.stepM_spec hd l1 hrel op) ops _ _ (GenIter.new_rel l1)⟩

open WM in
example (hd : Profile.debug = true) : ∃ m, fromSlice [5#64, 1#64, 7#64, 1#64] 3 = .ok m ∧ ∃ l : List Word,
    l.map BitVec.toNat = [5, 1, 7, 1] ∧
    ∀ ops, Tolerated keepStep l ops (attempts (GenIter.stepM m.numOps) (GenIter.new m.numOps) ops).1 := by
  obtain ⟨m, m1, m2⟩ := C31_from_slice (k := 3) (by omega) (by omega) [5#64, 1#64, 7#64, 1#64]
  exact ⟨m, m1, (C81_wavelet hd m2 (by decide) (by omega)).1⟩

end Vers
