import Verif.Proofs.BitVecOps4

/-!
# Properties C01–C11: the plain bit vector and its masks

`v.bits` (Verif/Abs.lean) is the list of bits a vector holds, `v.WF` the representation invariant that
every vector built through the API has (C11), `Refines r l` says that the operation does not panic and
yields a well-formed vector holding exactly `l`.
-/

set_option linter.unusedSimpArgs false

namespace Vers

variable [Profile]
open Spec

/-! ## C01 constructors -/

omit [Profile] in
theorem C01_from_zeros (n : Nat) :
    (BV.fromZeros n).WF ∧ (BV.fromZeros n).bits = List.replicate n false :=
  ⟨BV.wf_fromZeros n, BV.bits_fromZeros n⟩

example : (BV.fromZeros 70).WF ∧ (BV.fromZeros 70).bits = List.replicate 70 false := C01_from_zeros 70

omit [Profile] in
theorem C01_from_ones (n : Nat) :
    (BV.fromOnes n).WF ∧ (BV.fromOnes n).bits = List.replicate n true :=
  ⟨BV.wf_fromOnes n, BV.bits_fromOnes n⟩

example : (BV.fromOnes 70).WF ∧ (BV.fromOnes 70).bits = List.replicate 70 true := C01_from_ones 70

omit [Profile] in
theorem C01_from_bits (ws : List Word) :
    Refines (BV.fromBits ws) (ws.map fun w => decide (w.toNat % 2 = 1)) := by
  have h := BV.appendBitList_refines BV.wf_new ws
  have e : (fun w : Word => w.getLsbD 0) = fun w => decide (w.toNat % 2 = 1) := by
    funext w; rw [← BitVec.testBit_toNat, Nat.testBit_zero]
  rw [e] at h
  simpa [BV.fromBits] using h

example : Refines (BV.fromBits [3#64, 2#64]) [true, false] := C01_from_bits _

omit [Profile] in
theorem C01_from_bools (bs : List Bool) : Refines (BV.fromBools bs) bs := by
  have h := BV.appendBoolList_refines BV.wf_new bs
  simpa [BV.fromBools] using h

example : Refines (BV.fromBools (List.replicate 65 true)) (List.replicate 65 true) := C01_from_bools _

omit [Profile] in
theorem C01_from_limbs (ws : List Word) :
    (BV.fromLimbs ws).WF ∧ (BV.fromLimbs ws).len = 64 * ws.length ∧
    ∀ i j, j < 64 → i < ws.length →
      (BV.fromLimbs ws).bits[64 * i + j]? = ws[i]?.map fun w => w.toNat.testBit j := by
  refine ⟨BV.wf_fromLimbs ws, by simp [BV.fromLimbs, Nat.mul_comm], ?_⟩
  intro i j hj hi
  rw [BV.bits_getElem?, if_pos (by simp [BV.fromLimbs]; omega)]
  simp only [BV.fromLimbs]
  rw [lbit_word hj, List.getElem?_eq_getElem hi]
  simp [BitVec.testBit_toNat]

example : (BV.fromOnes 70).bits.length = 70 ∧ (BV.fromOnes 70).data = [BitVec.allOnes 64, 63#64] := by
  decide
example : Refines (BV.fromBits [3#64, 2#64, 1#64]) [true, false, true] := C01_from_bits _

/-! ## C02 append -/

omit [Profile] in
theorem C02_append {v : BV} (h : v.WF) (b : Bool) : Refines (v.append b) (v.bits ++ [b]) :=
  BV.append_refines h b

omit [Profile] in
theorem C02_append_bit {v : BV} (h : v.WF) (w : Word) :
    Refines (v.appendBit w) (v.bits ++ [decide (w.toNat % 2 = 1)]) := by
  have := BV.appendBit_refines h w
  rwa [← BitVec.testBit_toNat, Nat.testBit_zero] at this

example : Refines ((BV.fromOnes 70).appendBit 3#64) ((BV.fromOnes 70).bits ++ [true]) :=
  C02_append_bit (v := BV.fromOnes 70) (by decide) 3#64

omit [Profile] in
theorem C02_append_word {v : BV} (h : v.WF) (w : Word) :
    Refines (v.appendWord w) (v.bits ++ natToBits 64 w.toNat) := BV.appendWord_refines h w

example := C02_append_word (v := (BV.fromOnes 70).dropLast 3) (by decide) 5#64

omit [Profile] in
/-- Partial: the width 0 is excluded, see `C02_append_bits_zero_defect`. -/
theorem C02_append_bits_partial {v : BV} (h : v.WF) (w : Word) (n : Nat) (hn : 1 ≤ n) :
    (n ≤ 64 → Refines (v.appendBits w n) (v.bits ++ natToBits n w.toNat)) ∧
    (64 < n → v.appendBits w n = .error .assertion) :=
  ⟨fun h' => BV.appendBits_refines h w n hn h', fun h' => BV.appendBits_panic v w n h'⟩

example : Refines ((BV.fromOnes 70).appendBits 5#64 3) ((BV.fromOnes 70).bits ++ [true, false, true]) :=
  (C02_append_bits_partial (v := BV.fromOnes 70) (by decide) 5#64 3 (by decide)).1 (by decide)

omit [Profile] in
/-- Width 0 on a vector whose length is not a multiple of 64 is a no-op on the content. -/
theorem C02_append_bits_zero_unaligned {v : BV} (h : v.WF) (w : Word) (ha : v.len % 64 ≠ 0) :
    Refines (v.appendBits w 0) v.bits := by
  have hlt : v.len / 64 < v.data.length := by unfold BV.WF at h; omega
  unfold BV.appendBits
  rw [assertR_true (by omega), ok_bind, if_neg ha, idx_of_lt hlt, ok_bind]
  simp only
  rw [setIdx_of_lt hlt, ok_bind, if_neg (by omega)]
  refine ⟨_, rfl, ?_, ?_⟩
  · unfold BV.WF at *; simpa using h
  · apply BV.bits_ext (by simp)
    intro i hi
    rw [lbit_set hlt]
    split
    · rename_i hi2
      have hi : i < v.len := hi
      have hc := BV.clearHigh_getLsbD h ha (i % 64)
      rw [BitVec.getLsbD_or, hc, BitVec.getLsbD_shiftLeft]
      have h1 : i % 64 < v.len % 64 := by omega
      simp [h1]
      congr 1; omega
    · rfl

example : Refines ((BV.fromOnes 70).appendBits 5#64 0) (BV.fromOnes 70).bits :=
  C02_append_bits_zero_unaligned (v := BV.fromOnes 70) (by decide) 5#64 (by decide)

omit [Profile] in
/-- Defect: `append_bits(w, 0)` on a vector whose length is a multiple of 64 pushes a limb without
growing the vector, on every such vector. If a 1 is appended afterwards, `count_ones` misses it: the content
is right, but the count is that of the vector before. -/
theorem C02_append_bits_zero_defect {v : BV} (h : v.WF) (w : Word) (ha : v.len % 64 = 0) :
    ∃ v1 v2, v.appendBits w 0 = .ok v1 ∧ v1.bits = v.bits ∧ ¬v1.WF ∧
      v1.append true = .ok v2 ∧ v2.bits = v.bits ++ [true] ∧ v2.countOnes = .ok (v.bits.count true) := by
  have hd : v.data.length = v.len / 64 := by unfold BV.WF at h; omega
  have hc := BV.countOnes_eq h
  unfold BV.countOnes at hc
  rw [prefixR_of_le (by omega), ok_bind, if_neg (by omega), List.take_of_length_le (by omega)] at hc
  have hlb : ∀ (t : List Word) (i : Nat), i < v.len → lbit (v.data ++ t) i = lbit v.data i := by
    intro t i hi
    unfold lbit
    rw [List.getElem?_append_left (by omega)]
  refine ⟨⟨v.data ++ [w], v.len + 0⟩, ⟨v.data ++ [w ||| 1#64, 0#64], v.len + 1⟩, ?_, ?_, ?_, ?_, ?_, ?_⟩
  · unfold BV.appendBits
    rw [assertR_true (by omega), ok_bind, if_pos ha]; rfl
  · apply List.ext_getElem?
    intro i
    rw [BV.bits_getElem?, BV.bits_getElem?, Nat.add_zero]
    by_cases hi : i < v.len
    · rw [if_pos hi, if_pos hi, hlb _ i hi]
    · rw [if_neg hi, if_neg hi]
  · unfold BV.WF
    simp only [List.length_append, List.length_singleton]
    omega
  · unfold BV.append
    simp only [Nat.add_zero]
    rw [if_pos ha, ha, List.append_assoc, idx_of_some (a := w) (by
      rw [List.getElem?_append_right (by omega), hd, Nat.sub_self]; rfl), ok_bind, setIdx_of_lt (by simp; omega), ok_bind,
      List.set_append_right _ _ (by omega), hd, Nat.sub_self]
    rfl
  · apply List.ext_getElem?
    intro i
    rw [BV.bits_getElem?, List.getElem?_append, BV.length_bits, BV.bits_getElem?]
    by_cases hi : i < v.len
    · rw [if_pos (by simp only; omega), if_pos hi, if_pos hi, hlb _ i hi]
    · rw [if_neg hi]
      by_cases he : i = v.len
      · subst he
        rw [if_pos (by simp only; omega), Nat.sub_self]
        simp only
        unfold lbit
        rw [List.getElem?_append_right (by omega), hd, Nat.sub_self, ha]
        simp
      · rw [if_neg (by simp only; omega), List.getElem?_eq_none (by simp; omega)]
  · unfold BV.countOnes
    simp only
    rw [prefixR_of_le (by simp; omega), ok_bind, if_pos (by omega), List.take_append_of_le_length (by omega),
      List.take_of_length_le (by omega)]
    have hl : (v.data ++ [w ||| 1#64, 0#64]).getLast? = some 0#64 := by simp
    rw [hl, unwrapR_some, ok_bind, BitVec.zero_and]
    have hp : popcount 0#64 = 0 := by decide
    rw [hp]
    exact hc

example : (BV.fromOnes 128).WF ∧ (BV.fromOnes 128).len % 64 = 0 := by decide

omit [Profile] in
/-- The unchecked append is correct on vectors without junk beyond the end, for words without junk
beyond the width. -/
theorem C02_append_bits_unchecked {v : BV} (h : v.WF) (hc : v.Clean) (w : Word) (n : Nat)
    (hn : 1 ≤ n) (hn' : n ≤ 64) (hw : w.toNat < 2 ^ n) :
    ∃ v', v.appendBitsUnchecked w n = .ok v' ∧ v'.WF ∧ v'.Clean ∧
      v'.bits = v.bits ++ natToBits n w.toNat := by
  obtain ⟨v', h1, h2, h3, h4⟩ := BV.appendBitsUnchecked_refines h hc w n hn hn'
  refine ⟨v', h1, h2, h4 ?_, h3⟩
  intro i hi
  rw [← BitVec.testBit_toNat]
  exact Nat.testBit_lt_two_pow (Nat.lt_of_lt_of_le hw (Nat.pow_le_pow_right (by omega) hi))

omit [Profile] in
/-- The documented caveat is real: with junk beyond the width, later unchecked appends see it. -/
theorem C02_append_bits_unchecked_junk :
    (do let v ← BV.new.appendBitsUnchecked 3#64 1
        let v ← v.appendBitsUnchecked 0#64 1
        v.isBitSet 1) = .ok (some true) := by decide

example : (BV.fromOnes 70).WF ∧ (BV.fromOnes 70).len % 64 ≠ 0 := by decide
/-- a vector with junk in its last limb, to which the theorems apply -/
example : ((BV.fromOnes 70).dropLast 3).WF ∧
    ((BV.fromOnes 70).dropLast 3).data = [BitVec.allOnes 64, 63#64] := by decide

/-! ## C03 set and flip -/

omit [Profile] in
theorem C03_set {v : BV} (h : v.WF) (i : Nat) (x : Word) :
    (i < v.len → ∃ v', v.set i x = .ok (some v') ∧ v'.WF ∧
      v'.bits = v.bits.set i (decide (x.toNat % 2 = 1))) ∧
    (v.len ≤ i → v.set i x = .ok none) := by
  constructor
  · intro hi
    obtain ⟨v', h1, h2, -, h3⟩ := BV.setUnchecked_eq h hi x
    refine ⟨v', ?_, h2, ?_⟩
    · unfold BV.set; rw [if_neg (by omega), h1]; rfl
    · rw [h3, ← BitVec.testBit_toNat, Nat.testBit_zero]
  · intro hi
    unfold BV.set; rw [if_pos (by omega)]; rfl

omit [Profile] in
theorem C03_flip_bit {v : BV} (h : v.WF) (i : Nat) :
    (i < v.len → Refines (v.flipBit i) (v.bits.modify i (fun b => !b))) ∧
    (v.len ≤ i → v.flipBit i = .error .assertion) := by
  constructor
  · intro hi
    obtain ⟨v', h1, h2, -, h3⟩ := BV.flipBitUnchecked_eq h hi
    refine ⟨v', ?_, h2, h3⟩
    unfold BV.flipBit; rw [assertR_true hi, ok_bind, h1]
  · intro hi
    unfold BV.flipBit; rw [assertR_false (by omega)]; rfl

example := (C03_flip_bit (v := BV.fromOnes 70) (by decide) 69).1 (by decide)
example : (BV.fromOnes 70).flipBit 70 = .error .assertion :=
  (C03_flip_bit (v := BV.fromOnes 70) (by decide) 70).2 (by decide)

omit [Profile] in
/-- `set_unchecked` / `flip_bit_unchecked` agree with the checked versions in range. -/
theorem C03_unchecked {v : BV} (h : v.WF) (i : Nat) (x : Word) (hi : i < v.len) :
    Refines (v.setUnchecked i x) (v.bits.set i (decide (x.toNat % 2 = 1))) ∧
    Refines (v.flipBitUnchecked i) (v.bits.modify i (fun b => !b)) := by
  obtain ⟨v', h1, h2, -, h3⟩ := BV.setUnchecked_eq h hi x
  obtain ⟨w', g1, g2, -, g3⟩ := BV.flipBitUnchecked_eq h hi
  refine ⟨⟨v', h1, h2, ?_⟩, ⟨w', g1, g2, g3⟩⟩
  rw [h3, ← BitVec.testBit_toNat, Nat.testBit_zero]

example : (BV.fromOnes 70).WF ∧ 69 < (BV.fromOnes 70).len := by decide

/-! ## C04 reading -/

omit [Profile] in
theorem C04_is_bit_set {v : BV} (h : v.WF) (i : Nat) : v.isBitSet i = .ok v.bits[i]? :=
  BV.isBitSet_eq h i

omit [Profile] in
theorem C04_get {v : BV} (h : v.WF) (i : Nat) :
    v.get i = .ok (v.bits[i]?.map fun b => if b then 1#64 else 0#64) := BV.get_eq h i

example : (BV.fromOnes 70).get 69 = .ok (some 1#64) ∧ (BV.fromOnes 70).get 70 = .ok none :=
  ⟨(C04_get (v := BV.fromOnes 70) (by decide) 69).trans (by decide),
    (C04_get (v := BV.fromOnes 70) (by decide) 70).trans (by decide)⟩

/-- `get_bits` is `None` exactly when the request is empty, wider than a word or reaches past the end;
otherwise it is the number whose binary digits are the requested bits, least significant first. Partial:
the end of the request must be a `usize`, see `C04_get_bits_overflow_defect`. -/
theorem C04_get_bits_partial {v : BV} (h : v.WF) (pos n : Nat) :
    ((n = 0 ∨ 64 < n ∨ v.len < pos + n ∧ pos + n < 2 ^ 64) → v.getBits pos n = .ok none) ∧
    (1 ≤ n → n ≤ 64 → pos + n ≤ v.len → pos + n < 2 ^ 64 → ∃ w : Word, v.getBits pos n = .ok (some w) ∧
      w.toNat = bitsToNat ((v.bits.drop pos).take n)) :=
  ⟨BV.getBits_none, fun h1 h2 h3 h4 => BV.getBits_ok h h1 h2 h3 h4⟩

example := (C04_get_bits_partial (v := BV.fromOnes 70) (by decide) 60 10).2 (by decide) (by decide) (by decide) (by decide)
example : (BV.fromOnes 70).getBits 61 10 = .ok none :=
  (C04_get_bits_partial (v := BV.fromOnes 70) (by decide) 61 10).1 (.inr (.inr (by decide)))

/-- Defect: the bounds check of `get_bits` computes `pos + len`, so a request past the end whose end
exceeds `usize::MAX` panics instead of returning `None`, on every vector. -/
theorem C04_get_bits_overflow_defect (hd : Profile.debug = true) (v : BV) (pos n : Nat) (h1 : 1 ≤ n) (h2 : n ≤ 64)
    (h3 : 2 ^ 64 ≤ pos + n) : v.getBits pos n = .error .overflow := BV.getBits_overflow hd h1 h2 h3

example : 1 ≤ 1 ∧ 1 ≤ 64 ∧ 2 ^ 64 ≤ (2 ^ 64 - 1) + 1 := by decide

example : (BV.fromLimbs [5#64, 7#64]).getBits 62 5 = .ok (some 28#64) := by decide +revert +kernel

/-! ## C05 packing -/

omit [Profile] in
/-- Packing stores each element in exactly `b` bits (truncated or zero-extended), in order.
`m` is the element width (8, 16, 32 or 64). Partial: `b = 0` is excluded (see
`C05_pack_zero_defect`). -/
theorem C05_pack_partial (m : Nat) (hm : m = 8 ∨ m = 16 ∨ m = 32 ∨ m = 64) (ws : List Word)
    (hw : ∀ w ∈ ws, w.toNat < 2 ^ m) (b : Nat) (hb : 1 ≤ b) :
    Refines (BV.packSequence m ws b) (ws.flatMap fun w => natToBits b w.toNat) := by
  have := BV.packLoop_refines (m := m) (by omega) (by omega) b hb ws hw BV.wf_new
  simpa [BV.packSequence] using this

omit [Profile] in
theorem flatMap_drop_take {α β : Type} (f : α → List β) (b : Nat) (l : List α)
    (hf : ∀ a ∈ l, (f a).length = b) (i : Nat) :
    ((l.flatMap f).drop (i * b)).take b = (l[i]?.map f).getD [] := by
  induction l generalizing i with
  | nil => simp
  | cons a l ih =>
    have ha := hf a (by simp)
    cases i with
    | zero => simp [← ha]
    | succ i =>
      have := ih (fun x hx => hf x (by simp [hx])) i
      rw [List.flatMap_cons, Nat.succ_mul, Nat.add_comm, ← List.drop_drop, ← ha,
        List.drop_left, ha]
      simpa using this

/-- Round trip: `unpack_element(i, b)` returns element `i` modulo `2^b`, and `None` past the end. Partial:
`b = 0` is excluded, and the end of the element must be a `usize`, see `C05_unpack_overflow_defect`. -/
theorem C05_unpack_partial (m : Nat) (hm : m = 8 ∨ m = 16 ∨ m = 32 ∨ m = 64) (ws : List Word)
    (hw : ∀ w ∈ ws, w.toNat < 2 ^ m) (b : Nat) (hb : 1 ≤ b) (hb' : b ≤ 64) :
    ∃ v, BV.packSequence m ws b = .ok v ∧ v.len = ws.length * b ∧
      ∀ i, i * b + b < 2 ^ 64 → v.unpackElement i b = .ok (ws[i]?.map fun w => BitVec.ofNat 64 (w.toNat % 2 ^ b)) := by
  obtain ⟨v, h1, h2, h3⟩ := C05_pack_partial m hm ws hw b hb
  have hlen : v.len = ws.length * b := by
    have := congrArg List.length h3
    rw [BV.length_bits] at this
    rw [this]
    clear this hw h1 h3
    induction ws with
    | nil => simp
    | cons w ws ih => simp only [List.flatMap_cons, List.length_append, length_natToBits, ih,
        List.length_cons, Nat.succ_mul]; omega
  refine ⟨v, h1, hlen, ?_⟩
  intro i hov
  unfold BV.unpackElement
  rw [mulU_of_lt (by omega), ok_bind]
  by_cases hi : i < ws.length
  · have hle : i * b + b ≤ v.len := by
      rw [hlen, ← Nat.succ_mul]; exact Nat.mul_le_mul_right b hi
    obtain ⟨w, g1, g2⟩ := BV.getBits_ok h2 hb hb' hle hov
    rw [g1, List.getElem?_eq_getElem hi]
    simp only [Option.map_some]
    congr 2
    apply BitVec.eq_of_toNat_eq
    rw [g2, h3, flatMap_drop_take _ b _ (by simp), List.getElem?_eq_getElem hi]
    simp only [Option.map_some, Option.getD_some, bitsToNat_natToBits, BitVec.toNat_ofNat]
    rw [Nat.mod_eq_of_lt (b := 2 ^ 64)]
    exact Nat.lt_of_le_of_lt (Nat.mod_le _ _) (ws[i]).isLt
  · rw [BV.getBits_none, List.getElem?_eq_none (by omega)]
    · rfl
    · have : ws.length * b ≤ i * b := Nat.mul_le_mul_right b (by omega)
      omega

example := C05_unpack_partial 8 (by decide) [200#64, 3#64] (by simp) 10 (by decide) (by decide)

/-- Defect: an index for which `index * bits` (or the end of the element) exceeds `usize::MAX` panics
instead of returning `None`, on every vector. -/
theorem C05_unpack_overflow_defect (hd : Profile.debug = true) (v : BV) (i b : Nat) (hb : 1 ≤ b) (hb' : b ≤ 64)
    (h : 2 ^ 64 ≤ i * b + b) : v.unpackElement i b = .error .overflow := by
  unfold BV.unpackElement
  rcases Nat.lt_or_ge (i * b) (2 ^ 64) with h1 | h1
  · rw [mulU_of_lt h1, ok_bind, BV.getBits_overflow hd hb hb' h]
  · rw [mulU_overflow hd h1]; rfl

example (hd : Profile.debug = true) : (BV.fromOnes 70).unpackElement (2 ^ 61) 10 = .error .overflow :=
  C05_unpack_overflow_defect hd _ (2 ^ 61) 10 (by decide) (by decide) (by omega)

/-- `unpack_element_unchecked` agrees with `unpack_element` on every element of a packed sequence. -/
theorem C05_unpack_unchecked (v : BV) (i b : Nat) (hb : 1 ≤ b) (hb' : b ≤ 64) (h : i * b + b ≤ v.len)
    (hl : v.len < 2 ^ 64) :
    v.unpackElement i b = (do let w ← v.unpackElementUnchecked i b; pure (some w)) := by
  unfold BV.unpackElement BV.unpackElementUnchecked
  rw [mulU_of_lt (by omega), ok_bind, ok_bind]
  unfold BV.getBits
  rw [if_neg (by omega), addU_of_lt (by omega), ok_bind, if_neg (by omega)]

example : (2 ^ 61) * 10 + 10 ≥ 2 ^ 64 ∧ 1 * 10 + 10 ≤ (BV.fromOnes 20).len := by decide

omit [Profile] in
/-- Defect (consequence of `C02_append_bits_zero_defect`): packing any non-empty sequence with 0 bits per
element stores all the elements as limbs of a vector of length 0; `count_ones` is 0 after a 1 is appended. -/
theorem C05_pack_zero_defect (m : Nat) {ws : List Word} (hne : ws ≠ []) :
    ∃ v1 v2, BV.packSequence m ws 0 = .ok v1 ∧ v1.len = 0 ∧ v1.data = ws ∧
      v1.append true = .ok v2 ∧ v2.bits = [true] ∧ v2.countOnes = .ok 0 := by
  have key : ∀ (l : List Word) (d : List Word), BV.packLoop m ⟨d, 0⟩ 0 l = .ok ⟨d ++ l, 0⟩ := by
    intro l
    induction l with
    | nil => intro d; rw [List.append_nil]; rfl
    | cons x l ih =>
      intro d
      unfold BV.packLoop BV.packWord
      rw [if_pos (Nat.zero_le _)]
      unfold BV.appendBits
      simp only [Nat.zero_mod]
      rw [assertR_true (by omega), ok_bind, if_pos True.intro, pure_eq_ok, ok_bind, ih]
      simp
  obtain ⟨x, ws, rfl⟩ : ∃ x l, ws = x :: l := by
    cases ws with
    | nil => exact absurd rfl hne
    | cons x l => exact ⟨x, l, rfl⟩
  refine ⟨⟨x :: ws, 0⟩, ⟨(x ||| 1#64) :: (ws ++ [0#64]), 1⟩, key _ _, rfl, rfl, ?_, ?_, ?_⟩
  · unfold BV.append
    simp [idx, setIdx, ok_bind, pure_eq_ok]
  · show [lbit _ 0] = [true]
    unfold lbit
    simp
  · unfold BV.countOnes
    simp only
    have hl : ((x ||| 1#64) :: (ws ++ [0#64])).getLast? = some 0#64 := by
      rw [List.getLast?_cons, List.getLast?_append]; simp
    rw [prefixR_of_le (by simp), ok_bind, if_pos (by omega), hl, unwrapR_some, ok_bind, BitVec.zero_and]
    rfl

example : [1#64, 2#64] ≠ [] := by decide

example : BV.packSequence 8 [200#64, 3#64] 10 =
    .ok ⟨[BitVec.ofNat 64 (200 + 3 * 1024)], 20⟩ := by decide

/-! ## C06 drop_last, split, extend -/

omit [Profile] in
theorem C06_drop_last {v : BV} (h : v.WF) (n : Nat) :
    (v.dropLast n).WF ∧ (v.dropLast n).bits = v.bits.take (v.bits.length - n) :=
  ⟨BV.dropLast_wf h n, by rw [BV.dropLast_bits, BV.length_bits]⟩

theorem C06_split_at {v : BV} (h : v.WF) (at_ : Nat) :
    (at_ ≤ v.len → ∃ l r, v.splitAt at_ = .ok (some (l, r)) ∧ l.WF ∧ r.WF ∧
      l.bits = v.bits.take at_ ∧ r.bits = v.bits.drop at_) ∧
    (v.len < at_ → v.splitAt at_ = .ok none) := by
  constructor
  · intro ha
    obtain ⟨l, r, h1, h2⟩ := BV.splitAtUnchecked_refines h ha
    refine ⟨l, r, ?_, h2⟩
    unfold BV.splitAt; rw [if_neg (by omega), h1]; rfl
  · intro ha
    unfold BV.splitAt; rw [if_pos (by omega)]; rfl

example := (C06_split_at (v := BV.fromOnes 130) (by decide) 65).1 (by decide)
example : (BV.fromOnes 130).splitAt 131 = .ok none := (C06_split_at (v := BV.fromOnes 130) (by decide) 131).2 (by decide)

theorem C06_extend_bitvec {v o : BV} (hv : v.WF) (ho : o.WF) :
    Refines (v.extendBitvec o) (v.bits ++ o.bits) := BV.extendBitvec_refines hv ho

example := C06_extend_bitvec (v := (BV.fromOnes 70).dropLast 3) (o := BV.fromOnes 130) (by decide) (by decide)

theorem C06_extend {v : BV} (hv : v.WF) (os : List BV) (ho : ∀ o ∈ os, o.WF) :
    Refines (v.extend os) (v.bits ++ os.flatMap BV.bits) := BV.extend_refines hv os ho

example := C06_extend (v := BV.fromOnes 70) (by decide) [BV.fromZeros 3, (BV.fromOnes 70).dropLast 3] (by decide)

/-- Splitting anywhere and extending the left part by the right part restores the content. -/
theorem C06_split_extend_round_trip {v : BV} (h : v.WF) (at_ : Nat) (ha : at_ ≤ v.len) :
    ∃ l r, v.splitAt at_ = .ok (some (l, r)) ∧ Refines (l.extendBitvec r) v.bits := by
  obtain ⟨l, r, h1, h2, h3, h4, h5⟩ := (C06_split_at h at_).1 ha
  refine ⟨l, r, h1, ?_⟩
  have := C06_extend_bitvec h2 h3
  rwa [h4, h5, List.take_append_drop] at this

example : (BV.fromOnes 130).WF ∧ 65 ≤ (BV.fromOnes 130).len := by decide

/-! ## C07 counting -/

omit [Profile] in
theorem C07_count_ones {v : BV} (h : v.WF) : v.countOnes = .ok (v.bits.count true) :=
  BV.countOnes_eq h

theorem C07_count_zeros {v : BV} (h : v.WF) : v.countZeros = .ok (v.bits.count false) :=
  BV.countZeros_eq h

example : ((BV.fromOnes 70).dropLast 3).countOnes = .ok 67 := by decide +kernel

/-! ## C08 equality and hash -/

/-- Partial: `==` is content equality whenever the length is not a positive multiple of 64
(see `C08_eq_defect`). -/
theorem C08_eq_partial {v w : BV} (hv : v.WF) (hw : w.WF) (hl : v.len % 64 ≠ 0 ∨ v.len = 0) :
    v.eq w = .ok (decide (v.bits = w.bits)) := by
  rw [BV.eq_eqKey hv hw]
  congr 1
  rw [decide_eq_decide, BV.eqKey_iff hv hw, BV.bits_eq_iff]
  have : (if v.len % 64 = 0 then v.len - 64 else v.len) = v.len := by
    split <;> omega
  rw [this]

/-- What `==` really decides, for every pair of vectors: equal lengths and equal bits, except that
the last 64 bits are not compared when the length is a positive multiple of 64. -/
theorem C08_eq_exact {v w : BV} (hv : v.WF) (hw : w.WF) :
    v.eq w = .ok (decide (v.bits.length = w.bits.length ∧
      (if v.len % 64 = 0 then v.bits.take (v.len - 64) = w.bits.take (v.len - 64)
       else v.bits = w.bits))) := by
  rw [BV.eq_eqKey hv hw]
  congr 1
  rw [decide_eq_decide, BV.eqKey_iff hv hw]
  simp only [BV.length_bits]
  by_cases hl : v.len = w.len
  · simp only [hl, true_and]
    by_cases hm : w.len % 64 = 0
    · rw [if_pos hm, if_pos hm]
      constructor
      · intro h
        apply List.ext_getElem?
        intro i
        rw [List.getElem?_take, List.getElem?_take]
        split
        · rename_i hi
          rw [BV.bits_getElem?, BV.bits_getElem?, if_pos (by omega), if_pos (by omega), h i hi]
        · rfl
      · intro h i hi
        have := congrArg (fun l => l[i]?) h
        simp only [List.getElem?_take, if_pos hi, BV.bits_getElem?, hl,
          if_pos (show i < w.len by omega)] at this
        exact Option.some.inj this
    · rw [if_neg hm, if_neg hm, BV.bits_eq_iff]
      simp [hl]
  · simp [hl]

example := C08_eq_exact (v := BV.fromOnes 70) (w := BV.fromZeros 70) (by decide) (by decide)

/-- Equality never distinguishes vectors with the same content, and never panics. -/
theorem C08_eq_of_same_content {v w : BV} (hv : v.WF) (hw : w.WF) (h : v.bits = w.bits) :
    v.eq w = .ok true := by
  rw [C08_eq_exact hv hw, h]
  have : v.bits.length = w.bits.length := by rw [h]
  simp

example : ((BV.fromOnes 70).dropLast 3).eq (BV.fromOnes 67) = .ok true :=
  C08_eq_of_same_content (by decide) (by decide) (by decide)

/-- Equal vectors hash equally: `==` holds iff the two vectors feed the same data to the hasher. -/
theorem C08_hash {v w : BV} (hv : v.WF) (hw : w.WF) :
    ∃ kv kw, v.hashInput = .ok kv ∧ w.hashInput = .ok kw ∧ v.eq w = .ok (decide (kv = kw)) :=
  ⟨_, _, BV.hashInput_eq hv, BV.hashInput_eq hw, BV.eq_eqKey hv hw⟩

example := C08_hash (v := (BV.fromOnes 70).dropLast 3) (w := BV.fromOnes 67) (by decide) (by decide)

/-- Defect: two vectors of length 64 with different content compare equal. -/
theorem C08_eq_defect :
    (BV.fromZeros 64).eq (BV.fromOnes 64) = .ok true ∧
      (BV.fromZeros 64).bits ≠ (BV.fromOnes 64).bits := by decide +revert +kernel

example : (BV.fromOnes 70).WF ∧ (BV.fromOnes 70).len % 64 ≠ 0 := by decide

/-- The defect in general: in every vector whose length is a positive multiple of 64, flipping one of the last 64
bits gives a vector with different content that compares equal. -/
theorem C08_last_limb_defect {v : BV} (hv : v.WF) (hm : v.len % 64 = 0) {i : Nat} (h1 : v.len - 64 ≤ i)
    (h2 : i < v.len) : ∃ w, v.flipBit i = .ok w ∧ w.bits ≠ v.bits ∧ v.eq w = .ok true ∧ w.eq v = .ok true := by
  obtain ⟨w, hw, hw', hb⟩ := (C03_flip_bit hv i).1 h2
  have hlen : w.len = v.len := by
    rw [← BV.length_bits, hb, List.length_modify, BV.length_bits]
  have htake : w.bits.take (v.len - 64) = v.bits.take (v.len - 64) := by
    apply List.ext_getElem?
    intro j
    rw [List.getElem?_take, List.getElem?_take]
    split
    · have hne : i ≠ j := by omega
      rw [hb, List.getElem?_modify]; simp [hne]
    · rfl
  refine ⟨w, hw, fun h => ?_, ?_, ?_⟩
  · have := congrArg (fun l => l[i]?) (hb.symm.trans h)
    simp only [List.getElem?_modify, if_true] at this
    rw [List.getElem?_eq_getElem (by rw [BV.length_bits]; exact h2)] at this
    simp at this
  · rw [C08_eq_exact hv hw', decide_eq_true]
    exact ⟨by rw [BV.length_bits, BV.length_bits, hlen], by rw [if_pos hm, htake]⟩
  · rw [C08_eq_exact hw' hv, decide_eq_true]
    exact ⟨by rw [BV.length_bits, BV.length_bits, hlen], by rw [hlen, if_pos hm, htake]⟩

example : (BV.fromOnes 128).WF ∧ (BV.fromOnes 128).len % 64 = 0 ∧ (BV.fromOnes 128).len - 64 ≤ 100 ∧
    100 < (BV.fromOnes 128).len := by decide

/-- `==` is an equivalence relation, as `Eq` promises. -/
theorem C08_equivalence {u v w : BV} (hu : u.WF) (hv : v.WF) (hw : w.WF) :
    u.eq u = .ok true ∧ (u.eq v = .ok true → v.eq u = .ok true) ∧
      (u.eq v = .ok true → v.eq w = .ok true → u.eq w = .ok true) := by
  rw [BV.eq_eqKey hu hu, BV.eq_eqKey hu hv, BV.eq_eqKey hv hu, BV.eq_eqKey hv hw, BV.eq_eqKey hu hw]
  simp only [Except.ok.injEq, decide_eq_true_eq]
  exact ⟨trivial, fun h => h.symm, fun h h' => h.trans h'⟩

example : (BV.fromOnes 70).WF ∧ (BV.fromZeros 64).WF ∧ (BV.fromOnes 64).WF := by decide

/-! ## C09 lazy masks -/

omit [Profile] in
theorem C09_new (v mask : BV) (f : Word → Word → Word) :
    (Masked.new v mask f).isSome ↔ v.len = mask.len := by
  unfold Masked.new; split <;> simp_all

omit [Profile] in
/-- Content of the masked vector: the bitwise combination. -/
theorem C09_to_bit_vec {v mask : BV} (hv : v.WF) (hm : mask.WF) {f : Word → Word → Word}
    {g : Bool → Bool → Bool} (hf : Bitwise f g) {m : Masked} (h : Masked.new v mask f = some m) :
    m.toBitVec.WF ∧ m.toBitVec.bits = List.zipWith g v.bits mask.bits := by
  unfold Masked.new at h
  split at h
  · cases h
  · rename_i hl
    cases h
    have hl : v.len = mask.len := by simpa using hl
    exact ⟨Masked.toBitVec_wf hv hm hl, Masked.toBitVec_bits (m := ⟨v, mask, f⟩) hf hv hm hl⟩

example := C09_to_bit_vec (v := BV.fromOnes 70) (mask := BV.fromZeros 70) (by decide) (by decide) bitwise_xor rfl

/-- Every query on the masked vector answers as on the bitwise combination. Partial: `get_bits` is
restricted to widths below 64 or aligned positions (see `C09_get_bits_defect`). -/
theorem C09_queries_partial {v mask : BV} (hv : v.WF) (hm : mask.WF) {f : Word → Word → Word}
    {g : Bool → Bool → Bool} (hf : Bitwise f g) {m : Masked} (h : Masked.new v mask f = some m) :
    let c := List.zipWith g v.bits mask.bits
    (∀ i, m.isBitSet i = .ok c[i]?) ∧
    (∀ i, m.get i = .ok (c[i]?.map fun b => if b then 1#64 else 0#64)) ∧
    (∀ pos n, n < 64 ∨ pos % 64 = 0 →
      ((n = 0 ∨ 64 < n ∨ c.length < pos + n ∧ pos + n < 2 ^ 64) → m.getBits pos n = .ok none) ∧
      (1 ≤ n → n ≤ 64 → pos + n ≤ c.length → pos + n < 2 ^ 64 → ∃ w : Word, m.getBits pos n = .ok (some w) ∧
        w.toNat = bitsToNat ((c.drop pos).take n))) ∧
    m.countOnes = .ok (c.count true) ∧ m.countZeros = .ok (c.count false) := by
  obtain ⟨hw, hb⟩ := C09_to_bit_vec hv hm hf h
  unfold Masked.new at h
  split at h
  · cases h
  · rename_i hl
    cases h
    have hl : v.len = mask.len := by simpa using hl
    simp only
    rw [← hb]
    have hlen : (Masked.toBitVec ⟨v, mask, f⟩).len = v.len := rfl
    refine ⟨?_, ?_, ?_, ?_, ?_⟩
    · intro i; rw [Masked.isBitSet_eq hv hm hl, BV.isBitSet_eq hw]
    · intro i; rw [Masked.get_eq hv hm hl, C04_get hw]
    · intro pos n hn
      rw [BV.length_bits]
      by_cases hp : pos + n < 2 ^ 64
      · rw [Masked.getBits_eq hv hm hl pos n hn (Or.inl hp)]
        exact C04_get_bits_partial hw pos n
      · refine ⟨fun hor => ?_, fun _ _ _ h => absurd h hp⟩
        unfold Masked.getBits
        rw [if_pos (by omega)]; rfl
    · rw [Masked.countOnes_eq hv hm hl, BV.countOnes_eq hw]
    · unfold Masked.countZeros
      rw [Masked.countOnes_eq hv hm hl]
      exact BV.countZeros_eq hw

example := C09_queries_partial (v := BV.fromOnes 70) (mask := BV.fromZeros 70) (by decide) (by decide) bitwise_or rfl

omit [Profile] in
/-- `mask_or`, `mask_and`, `mask_xor` are bitwise. -/
theorem C09_operators : Bitwise (· ||| ·) (· || ·) ∧ Bitwise (· &&& ·) (· && ·) ∧
    Bitwise (· ^^^ ·) (· ^^ ·) := ⟨bitwise_or, bitwise_and, bitwise_xor⟩

example : (true ^^ true) = false ∧ (5#64 ^^^ 3#64) = 6#64 := by decide

/-- Defect: a 64-bit read at an unaligned position inside any masked vector returns 0, whatever the bits
are. -/
theorem C09_get_bits_defect {v mask : BV} (hv : v.WF) (hm : mask.WF) {f : Word → Word → Word} {m : Masked}
    (h : Masked.new v mask f = some m) {pos : Nat} (ha : pos % 64 ≠ 0) (hp : pos + 64 ≤ v.len) (hl : v.len < 2 ^ 64) :
    m.getBits pos 64 = .ok (some 0#64) := by
  unfold Masked.new at h
  split at h
  · cases h
  · rename_i hlen
    cases h
    have hlen : v.len = mask.len := by simpa using hlen
    unfold BV.WF at hv hm
    unfold Masked.getBits Masked.getBitsUnchecked
    simp only
    rw [if_neg (by omega), addU_of_lt (by omega), ok_bind, if_neg (by omega), dassertR_true (by omega), ok_bind,
      (Masked.limb_eq (by simp only; omega) (by simp only; omega)).1, ok_bind]
    simp only [addU_of_lt (show pos % 64 + 64 < 2 ^ 64 by omega), ok_bind]
    rw [if_neg (by omega), if_neg (by omega), (Masked.limb_eq (by simp only; omega) (by simp only; omega)).1, ok_bind]
    have : (1#64 <<< (64 % 64)) - 1#64 = 0#64 := by decide
    rw [this, BitVec.and_zero]; rfl

/-- a case in which all the bits read are 1 -/
example : ∃ m, Masked.new (BV.fromOnes 128) (BV.fromOnes 128) (· &&& ·) = some m ∧ (BV.fromOnes 128).WF ∧
    1 % 64 ≠ 0 ∧ 1 + 64 ≤ (BV.fromOnes 128).len ∧ (BV.fromOnes 128).len < 2 ^ 64 ∧
    (BV.fromOnes 128).getBits 1 64 = .ok (some (BitVec.allOnes 64)) :=
  ⟨_, rfl, by decide +revert, by decide +revert, by decide +revert, by decide +revert, by decide +revert +kernel⟩

example : ∃ m, Masked.new (BV.fromOnes 70) (BV.fromZeros 70) (· ^^^ ·) = some m := ⟨_, rfl⟩

/-! ## C10 eager masks -/

omit [Profile] in
/-- `apply_mask_*` yields exactly the collected lazy mask, for every word function. -/
theorem C10_eq_lazy (f : Word → Word → Word) {v mask : BV} (hv : v.WF) (hm : mask.WF) :
    BV.applyMask f v mask = .ok ((Masked.new v mask f).map Masked.toBitVec) :=
  BV.applyMask_eq f hv hm

omit [Profile] in
theorem C10_apply_mask {f : Word → Word → Word} {g : Bool → Bool → Bool} (hf : Bitwise f g)
    {v mask : BV} (hv : v.WF) (hm : mask.WF) :
    (v.len = mask.len → ∃ v', BV.applyMask f v mask = .ok (some v') ∧ v'.WF ∧
      v'.bits = List.zipWith g v.bits mask.bits) ∧
    (v.len ≠ mask.len → BV.applyMask f v mask = .ok none) := by
  constructor
  · intro hl
    have hn : Masked.new v mask f = some ⟨v, mask, f⟩ := by
      unfold Masked.new; rw [if_neg (by simpa using hl)]
    obtain ⟨h1, h2⟩ := C09_to_bit_vec hv hm hf hn
    exact ⟨_, by rw [C10_eq_lazy f hv hm, hn]; rfl, h1, h2⟩
  · intro hl
    unfold BV.applyMask; rw [if_pos hl]; rfl

example : (BV.fromOnes 70).WF ∧ (BV.fromZeros 70).WF := by decide

/-! ## C11 every history -/

/-- A history of calls that builds a vector (vectors used as arguments have their own history). -/
inductive Hist where
  | new
  | fromZeros (n : Nat)
  | fromOnes (n : Nat)
  | fromBits (ws : List Word)
  | fromBools (bs : List Bool)
  | fromLimbs (ws : List Word)
  | pack (m : Nat) (ws : List Word) (b : Nat)
  | append (h : Hist) (b : Bool)
  | appendBit (h : Hist) (w : Word)
  | appendWord (h : Hist) (w : Word)
  | appendBits (h : Hist) (w : Word) (n : Nat)
  | dropLast (h : Hist) (n : Nat)
  | set (h : Hist) (i : Nat) (x : Word)
  | flip (h : Hist) (i : Nat)
  | extend (h o : Hist)
  | splitLeft (h : Hist) (at_ : Nat)
  | splitRight (h : Hist) (at_ : Nat)
  | mask (f : Word → Word → Word) (g : Bool → Bool → Bool) (h m : Hist)

namespace Hist

/-- Executes the history with the modelled code. A call that returns `Err` leaves its vector as is. -/
def run : Hist → R BV
  | new => pure BV.new
  | fromZeros n => pure (BV.fromZeros n)
  | fromOnes n => pure (BV.fromOnes n)
  | fromBits ws => BV.fromBits ws
  | fromBools bs => BV.fromBools bs
  | fromLimbs ws => pure (BV.fromLimbs ws)
  | pack m ws b => BV.packSequence m ws b
  | append h b => do let v ← h.run; v.append b
  | appendBit h w => do let v ← h.run; v.appendBit w
  | appendWord h w => do let v ← h.run; v.appendWord w
  | appendBits h w n => do let v ← h.run; v.appendBits w n
  | dropLast h n => do let v ← h.run; pure (v.dropLast n)
  | set h i x => do let v ← h.run; let r ← v.set i x; pure (r.getD v)
  | flip h i => do let v ← h.run; v.flipBit i
  | extend h o => do let v ← h.run; let w ← o.run; v.extendBitvec w
  | splitLeft h a => do let v ← h.run; let r ← v.splitAt a; pure ((r.map Prod.fst).getD v)
  | splitRight h a => do let v ← h.run; let r ← v.splitAt a; pure ((r.map Prod.snd).getD v)
  | mask f _ h m => do
    let v ← h.run; let w ← m.run; let r ← BV.applyMask f v w; pure (r.getD v)

/-- The same history on a plain list of bits. -/
def spec : Hist → List Bool
  | new => []
  | fromZeros n => List.replicate n false
  | fromOnes n => List.replicate n true
  | fromBits ws => ws.map fun w => decide (w.toNat % 2 = 1)
  | fromBools bs => bs
  | fromLimbs ws => ws.flatMap fun w => natToBits 64 w.toNat
  | pack _ ws b => ws.flatMap fun w => natToBits b w.toNat
  | append h b => h.spec ++ [b]
  | appendBit h w => h.spec ++ [decide (w.toNat % 2 = 1)]
  | appendWord h w => h.spec ++ natToBits 64 w.toNat
  | appendBits h w n => h.spec ++ natToBits n w.toNat
  | dropLast h n => h.spec.take (h.spec.length - n)
  | set h i x => h.spec.set i (decide (x.toNat % 2 = 1))
  | flip h i => h.spec.modify i (fun b => !b)
  | extend h o => h.spec ++ o.spec
  | splitLeft h a => h.spec.take a
  | splitRight h a => if a ≤ h.spec.length then h.spec.drop a else h.spec
  | mask _ g h m =>
    if h.spec.length = m.spec.length then List.zipWith g h.spec m.spec else h.spec

/-- The documented domain: widths between 1 and 64, flips in range, element values that fit the element
type, mask functions that act bitwise. -/
def Valid : Hist → Prop
  | new | fromZeros _ | fromOnes _ | fromBits _ | fromBools _ | fromLimbs _ => True
  | pack m ws b => (m = 8 ∨ m = 16 ∨ m = 32 ∨ m = 64) ∧ (∀ w ∈ ws, w.toNat < 2 ^ m) ∧ 1 ≤ b
  | append h _ | appendBit h _ | appendWord h _ | dropLast h _ | set h _ _ => h.Valid
  | appendBits h _ n => h.Valid ∧ 1 ≤ n ∧ n ≤ 64
  | flip h i => h.Valid ∧ i < h.spec.length
  | extend h o => h.Valid ∧ o.Valid
  | splitLeft h _ | splitRight h _ => h.Valid
  | mask f g h m => Bitwise f g ∧ h.Valid ∧ m.Valid

end Hist

/-- Every history in the documented domain runs without panic and yields exactly the bits that the same
history yields on a plain list. -/
theorem C11_history (h : Hist) (hv : h.Valid) : Refines h.run h.spec := by
  induction h with
  | new => exact ⟨_, rfl, BV.wf_new, rfl⟩
  | fromZeros n => exact ⟨_, rfl, C01_from_zeros n⟩
  | fromOnes n => exact ⟨_, rfl, C01_from_ones n⟩
  | fromBits ws => exact C01_from_bits ws
  | fromBools bs => exact C01_from_bools bs
  | fromLimbs ws => exact ⟨_, rfl, BV.wf_fromLimbs ws, BV.bits_fromLimbs ws⟩
  | pack m ws b => exact C05_pack_partial m hv.1 ws hv.2.1 b hv.2.2
  | append h b ih =>
    obtain ⟨v, h1, h2, h3⟩ := ih hv
    simp only [Hist.run, Hist.spec, h1, ok_bind, ← h3]
    exact C02_append h2 b
  | appendBit h w ih =>
    obtain ⟨v, h1, h2, h3⟩ := ih hv
    simp only [Hist.run, Hist.spec, h1, ok_bind, ← h3]
    exact C02_append_bit h2 w
  | appendWord h w ih =>
    obtain ⟨v, h1, h2, h3⟩ := ih hv
    simp only [Hist.run, Hist.spec, h1, ok_bind, ← h3]
    exact C02_append_word h2 w
  | appendBits h w n ih =>
    obtain ⟨v, h1, h2, h3⟩ := ih hv.1
    simp only [Hist.run, Hist.spec, h1, ok_bind, ← h3]
    exact (C02_append_bits_partial h2 w n hv.2.1).1 hv.2.2
  | dropLast h n ih =>
    obtain ⟨v, h1, h2, h3⟩ := ih hv
    simp only [Hist.run, Hist.spec, h1, ok_bind, ← h3]
    exact ⟨_, rfl, C06_drop_last h2 n⟩
  | set h i x ih =>
    obtain ⟨v, h1, h2, h3⟩ := ih hv
    simp only [Hist.run, Hist.spec, h1, ok_bind, ← h3]
    by_cases hi : i < v.len
    · obtain ⟨v', g1, g2, g3⟩ := (C03_set h2 i x).1 hi
      rw [g1]; exact ⟨v', rfl, g2, g3⟩
    · rw [(C03_set h2 i x).2 (by omega)]
      exact ⟨v, rfl, h2, by rw [List.set_eq_of_length_le (by simp; omega)]⟩
  | flip h i ih =>
    obtain ⟨v, h1, h2, h3⟩ := ih hv.1
    have hi := hv.2
    rw [← h3, BV.length_bits] at hi
    simp only [Hist.run, Hist.spec, h1, ok_bind, ← h3]
    exact (C03_flip_bit h2 i).1 hi
  | extend h o ih ih' =>
    obtain ⟨v, h1, h2, h3⟩ := ih hv.1
    obtain ⟨w, g1, g2, g3⟩ := ih' hv.2
    simp only [Hist.run, Hist.spec, h1, g1, ok_bind, ← h3, ← g3]
    exact C06_extend_bitvec h2 g2
  | splitLeft h a ih =>
    obtain ⟨v, h1, h2, h3⟩ := ih hv
    simp only [Hist.run, Hist.spec, h1, ok_bind, ← h3]
    by_cases ha : a ≤ v.len
    · obtain ⟨l, r, g1, g2, g3, g4, g5⟩ := (C06_split_at h2 a).1 ha
      rw [g1]; exact ⟨l, rfl, g2, g4⟩
    · rw [(C06_split_at h2 a).2 (by omega)]
      exact ⟨v, rfl, h2, by rw [List.take_of_length_le (by simp; omega)]⟩
  | splitRight h a ih =>
    obtain ⟨v, h1, h2, h3⟩ := ih hv
    simp only [Hist.run, Hist.spec, h1, ok_bind, ← h3]
    by_cases ha : a ≤ v.len
    · obtain ⟨l, r, g1, g2, g3, g4, g5⟩ := (C06_split_at h2 a).1 ha
      rw [g1, if_pos (by simpa using ha)]; exact ⟨r, rfl, g3, g5⟩
    · rw [(C06_split_at h2 a).2 (by omega), if_neg (by simpa using ha)]
      exact ⟨v, rfl, h2, rfl⟩
  | mask f g h m ih ih' =>
    obtain ⟨v, h1, h2, h3⟩ := ih hv.2.1
    obtain ⟨w, g1, g2, g3⟩ := ih' hv.2.2
    simp only [Hist.run, Hist.spec, h1, g1, ok_bind, ← h3, ← g3, BV.length_bits]
    by_cases hl : v.len = w.len
    · obtain ⟨v', k1, k2, k3⟩ := (C10_apply_mask hv.1 h2 g2).1 hl
      rw [k1, if_pos hl]; exact ⟨v', rfl, k2, k3⟩
    · rw [(C10_apply_mask hv.1 h2 g2).2 hl, if_neg hl]
      exact ⟨v, rfl, h2, rfl⟩

/-- After every history, all observers answer as on the plain list. -/
theorem C11_observers (h : Hist) (hv : h.Valid) :
    ∃ v, h.run = .ok v ∧ v.len = h.spec.length ∧ v.isEmpty = h.spec.isEmpty ∧
      (∀ i, v.isBitSet i = .ok h.spec[i]?) ∧
      (∀ i, v.get i = .ok (h.spec[i]?.map fun b => if b then 1#64 else 0#64)) ∧
      (∀ pos n, 1 ≤ n → n ≤ 64 → pos + n ≤ h.spec.length → pos + n < 2 ^ 64 → ∃ w : Word,
        v.getBits pos n = .ok (some w) ∧ w.toNat = bitsToNat ((h.spec.drop pos).take n)) ∧
      v.countOnes = .ok (h.spec.count true) ∧ v.countZeros = .ok (h.spec.count false) := by
  obtain ⟨v, h1, h2, h3⟩ := C11_history h hv
  rw [← h3]
  refine ⟨v, h1, by simp, ?_, C04_is_bit_set h2, C04_get h2, ?_, C07_count_ones h2,
    C07_count_zeros h2⟩
  · have : v.bits.isEmpty = decide (v.bits.length = 0) := by cases v.bits <;> simp
    rw [this, BV.length_bits]
    rfl
  · intro pos n a b c d
    exact (C04_get_bits_partial h2 pos n).2 a b (by simpa using c) d

example : (Hist.mask (· ||| ·) (· || ·) (.appendBits (.dropLast (.fromOnes 70) 3) 5#64 64)
    (.flip (.fromZeros 131) 130)).Valid :=
  ⟨bitwise_or, ⟨trivial, by omega, by omega⟩, trivial, by simp [Hist.spec]⟩

end Vers
