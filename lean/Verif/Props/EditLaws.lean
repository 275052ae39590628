import Verif.Props.BitVec

/-! # C90: writes to a bit vector are read back, and undone by the opposite writes

Only the functions of the library are mentioned in the laws. Two vectors have the same content if their lengths and the
results of `is_bit_set` are the same. -/

namespace Vers

open Spec

variable [Profile]

section
omit [Profile]

/-- Specification: two bit vectors that no read of a single bit distinguishes. -/
def SameContent (v w : BV) : Prop := v.len = w.len ∧ ∀ i, v.isBitSet i = w.isBitSet i

theorem sameContent_of_bits {v w : BV} (hv : v.WF) (hw : w.WF) (h : v.bits = w.bits) : SameContent v w := by
  refine ⟨?_, fun i => by rw [C04_is_bit_set hv, C04_is_bit_set hw, h]⟩
  rw [← BV.length_bits v, ← BV.length_bits w, h]

/-- C90: a bit that was written is read back, the other bits and the length are the same; writes to different positions can
be exchanged, and of two writes to the same position the second one counts; writing what is there changes nothing. -/
theorem C90_set {v : BV} (h : v.WF) {i : Nat} (hi : i < v.len) (x : Word) :
    ∃ a, v.set i x = .ok (some a) ∧ a.len = v.len ∧ a.isBitSet i = .ok (some (decide (x.toNat % 2 = 1))) ∧
      (∀ j, j ≠ i → a.isBitSet j = v.isBitSet j) ∧
      (v.get i = .ok (some x) → SameContent a v) ∧
      (∀ y, ∃ b c, a.set i y = .ok (some b) ∧ v.set i y = .ok (some c) ∧ SameContent b c) ∧
      ∀ j y, j < v.len → j ≠ i → ∃ b c d, a.set j y = .ok (some b) ∧ v.set j y = .ok (some c) ∧
        c.set i x = .ok (some d) ∧ SameContent b d := by
  obtain ⟨a, a1, a2, a3⟩ := (C03_set h i x).1 hi
  have al : a.len = v.len := by rw [← BV.length_bits a, a3, List.length_set, BV.length_bits]
  refine ⟨a, a1, al, ?_, fun j hj => ?_, fun hx => ?_, fun y => ?_, fun j y hj hne => ?_⟩
  · rw [C04_is_bit_set a2, a3, List.getElem?_set_self (by rw [BV.length_bits]; exact hi)]
  · rw [C04_is_bit_set a2, C04_is_bit_set h, a3, List.getElem?_set_ne (by omega)]
  · refine sameContent_of_bits a2 h ?_
    rw [a3]
    rw [C04_get h, List.getElem?_eq_getElem (by rw [BV.length_bits]; exact hi)] at hx
    have hx := Except.ok.inj hx
    simp only [Option.map_some, Option.some.injEq] at hx
    apply List.ext_getElem? fun j => ?_
    by_cases hj : i = j
    · subst hj
      have hl : i < v.bits.length := by rw [BV.length_bits]; exact hi
      rw [List.getElem?_set_self hl, List.getElem?_eq_getElem hl, ← hx]
      cases v.bits[i] <;> simp
    · rw [List.getElem?_set_ne hj]
  · obtain ⟨b, b1, b2, b3⟩ := (C03_set a2 i y).1 (by omega)
    obtain ⟨c, c1, c2, c3⟩ := (C03_set h i y).1 hi
    exact ⟨b, c, b1, c1, sameContent_of_bits b2 c2 (by rw [b3, a3, c3, List.set_set])⟩
  · obtain ⟨b, b1, b2, b3⟩ := (C03_set a2 j y).1 (by omega)
    obtain ⟨c, c1, c2, c3⟩ := (C03_set h j y).1 hj
    obtain ⟨d, d1, d2, d3⟩ := (C03_set c2 i x).1 (by rw [← BV.length_bits c, c3, List.length_set, BV.length_bits]; exact hi)
    exact ⟨b, c, d, b1, c1, d1, sameContent_of_bits b2 d2 (by rw [b3, a3, d3, c3, List.set_comm _ _ (by omega)])⟩

example := C90_set (v := BV.fromOnes 70) (by decide) (i := 69) (by decide) 2#64

theorem count_modify_not : ∀ {l : List Bool} {i : Nat} (h : i < l.length),
    (l.modify i (fun b => !b)).count true + (if l[i] then 1 else 0) = l.count true + (if l[i] then 0 else 1)
  | b :: l, 0, _ => by cases b <;> simp
  | b :: l, i + 1, h => by
    have := count_modify_not (l := l) (i := i) (by simpa using h)
    simp only [List.modify_succ_cons, List.count_cons, List.getElem_cons_succ]
    omega

/-- C90: a flipped bit is the other one, the other bits and the length are the same, the number of ones changes by one, a
second flip restores the content, and flips can be exchanged. -/
theorem C90_flip {v : BV} (h : v.WF) {i : Nat} (hi : i < v.len) :
    ∃ a b, v.flipBit i = .ok a ∧ v.isBitSet i = .ok (some b) ∧ a.len = v.len ∧ a.isBitSet i = .ok (some !b) ∧
      (∀ j, j ≠ i → a.isBitSet j = v.isBitSet j) ∧
      (∃ n, v.countOnes = .ok (if b then n + 1 else n) ∧ a.countOnes = .ok (if b then n else n + 1)) ∧
      (∃ c, a.flipBit i = .ok c ∧ SameContent c v) ∧
      ∀ j, j < v.len → ∃ c d e, a.flipBit j = .ok c ∧ v.flipBit j = .ok d ∧ d.flipBit i = .ok e ∧ SameContent c e := by
  obtain ⟨a, a1, a2, a3⟩ := (C03_flip_bit h i).1 hi
  have hl : i < v.bits.length := by rw [BV.length_bits]; exact hi
  have al : a.len = v.len := by rw [← BV.length_bits a, a3, List.length_modify, BV.length_bits]
  refine ⟨a, v.bits[i], a1, by rw [C04_is_bit_set h, List.getElem?_eq_getElem hl], al, ?_, fun j hj => ?_, ?_, ?_,
    fun j hj => ?_⟩
  · rw [C04_is_bit_set a2, a3, List.getElem?_modify, List.getElem?_eq_getElem hl]
    simp
  · rw [C04_is_bit_set a2, C04_is_bit_set h, a3, List.getElem?_modify]
    simp [Ne.symm hj]
  · rw [C07_count_ones h, C07_count_ones a2, a3]
    have := count_modify_not hl
    by_cases hb : v.bits[i] = true
    · simp only [hb, if_true] at this ⊢
      exact ⟨v.bits.count true - 1, by congr 1; omega, by congr 1; omega⟩
    · simp only [hb] at this ⊢
      exact ⟨v.bits.count true, by simp, by simp at this ⊢; omega⟩
  · obtain ⟨c, c1, c2, c3⟩ := (C03_flip_bit a2 i).1 (by omega)
    refine ⟨c, c1, sameContent_of_bits c2 h ?_⟩
    rw [c3, a3]
    apply List.ext_getElem? fun j => ?_
    simp only [List.getElem?_modify]
    cases v.bits[j]? <;> by_cases hj : i = j <;> simp [hj]
  · obtain ⟨c, c1, c2, c3⟩ := (C03_flip_bit a2 j).1 (by omega)
    obtain ⟨d, d1, d2, d3⟩ := (C03_flip_bit h j).1 hj
    obtain ⟨e, e1, e2, e3⟩ := (C03_flip_bit d2 i).1 (by rw [← BV.length_bits d, d3, List.length_modify, BV.length_bits]; exact hi)
    refine ⟨c, d, e, c1, d1, e1, sameContent_of_bits c2 e2 ?_⟩
    rw [c3, a3, e3, d3]
    apply List.ext_getElem? fun k => ?_
    simp only [List.getElem?_modify]
    by_cases hj : i = k <;> by_cases hk : j = k <;> simp [hj, hk]

example := C90_flip (v := (BV.fromOnes 70).dropLast 3) (by decide) (i := 66) (by decide)

end

/-- C90: `drop_last` removes what was appended, and `split_at` separates it again; the number of ones is the sum; extending
by a third vector can be done first or last. -/
theorem C90_append {v o : BV} (h : v.WF) (ho : o.WF) :
    (∀ b, ∃ a, v.append b = .ok a ∧ SameContent (a.dropLast 1) v ∧ a.isBitSet v.len = .ok (some b)) ∧
    (∀ w, ∃ a, v.appendWord w = .ok a ∧ SameContent (a.dropLast 64) v) ∧
    (∀ w n, 1 ≤ n → n ≤ 64 → ∃ a, v.appendBits w n = .ok a ∧ SameContent (a.dropLast n) v) ∧
    ∃ a, v.extendBitvec o = .ok a ∧ a.len = v.len + o.len ∧ SameContent (a.dropLast o.len) v ∧
      (∃ l r, a.splitAt v.len = .ok (some (l, r)) ∧ SameContent l v ∧ SameContent r o) ∧
      (∃ m n, v.countOnes = .ok m ∧ o.countOnes = .ok n ∧ a.countOnes = .ok (m + n)) ∧
      ∀ p : BV, p.WF → ∃ b c d, a.extendBitvec p = .ok b ∧ o.extendBitvec p = .ok c ∧ v.extendBitvec c = .ok d ∧
        SameContent b d := by
  have drop : ∀ {a : BV} {t : List Bool}, a.WF → a.bits = v.bits ++ t → SameContent (a.dropLast t.length) v := by
    intro a t ha e
    refine sameContent_of_bits (C06_drop_last ha _).1 h ?_
    rw [(C06_drop_last ha _).2, e]
    simp
  refine ⟨fun b => ?_, fun w => ?_, fun w n h1 h2 => ?_, ?_⟩
  · obtain ⟨a, a1, a2, a3⟩ := C02_append h b
    refine ⟨a, a1, drop a2 a3, ?_⟩
    rw [C04_is_bit_set a2, a3, ← BV.length_bits v]
    simp
  · obtain ⟨a, a1, a2, a3⟩ := C02_append_word h w
    have := drop a2 a3
    rw [length_natToBits] at this
    exact ⟨a, a1, this⟩
  · obtain ⟨a, a1, a2, a3⟩ := (C02_append_bits_partial h w n h1).1 h2
    have := drop a2 a3
    rw [length_natToBits] at this
    exact ⟨a, a1, this⟩
  · obtain ⟨a, a1, a2, a3⟩ := C06_extend_bitvec h ho
    have al : a.len = v.len + o.len := by
      rw [← BV.length_bits a, a3, List.length_append, BV.length_bits, BV.length_bits]
    refine ⟨a, a1, al, ?_, ?_, ?_, fun p hp => ?_⟩
    · have := drop a2 a3
      rwa [BV.length_bits] at this
    · obtain ⟨l, r, l1, l2, l3, l4, l5⟩ := (C06_split_at a2 v.len).1 (by omega)
      refine ⟨l, r, l1, sameContent_of_bits l2 h ?_, sameContent_of_bits l3 ho ?_⟩
      · rw [l4, a3, ← BV.length_bits v, List.take_left]
      · rw [l5, a3, ← BV.length_bits v, List.drop_left]
    · exact ⟨_, _, C07_count_ones h, C07_count_ones ho, by rw [C07_count_ones a2, a3, List.count_append]⟩
    · obtain ⟨b, b1, b2, b3⟩ := C06_extend_bitvec a2 hp
      obtain ⟨c, c1, c2, c3⟩ := C06_extend_bitvec ho hp
      obtain ⟨d, d1, d2, d3⟩ := C06_extend_bitvec h c2
      exact ⟨b, c, d, b1, c1, d1, sameContent_of_bits b2 d2 (by rw [b3, a3, d3, c3, List.append_assoc])⟩

example := C90_append (v := (BV.fromOnes 70).dropLast 3) (o := BV.fromOnes 130) (by decide) (by decide)

/-- C90: `get_bits` reads what `append_bits` appended, and no other read of bits that were there before changes. -/
theorem C90_read_back {v : BV} (h : v.WF) (w : Word) {n : Nat} (h1 : 1 ≤ n) (h2 : n ≤ 64) (hl : v.len + n < 2 ^ 64) :
    ∃ a, v.appendBits w n = .ok a ∧
      (∃ x, a.getBits v.len n = .ok (some x) ∧ x.toNat = w.toNat % 2 ^ n) ∧
      ∀ pos k, pos + k ≤ v.len → a.getBits pos k = v.getBits pos k := by
  obtain ⟨a, a1, a2, a3⟩ := (C02_append_bits_partial h w n h1).1 h2
  have al : a.len = v.len + n := by
    rw [← BV.length_bits a, a3, List.length_append, BV.length_bits, length_natToBits]
  refine ⟨a, a1, ?_, fun pos k hk => ?_⟩
  · obtain ⟨x, x1, x2⟩ := (C04_get_bits_partial a2 v.len n).2 h1 h2 (by omega) hl
    refine ⟨x, x1, ?_⟩
    rw [x2, a3, ← BV.length_bits v, List.drop_left, List.take_of_length_le (by simp),
      bitsToNat_natToBits]
  · by_cases hb : k = 0 ∨ 64 < k
    · rw [(C04_get_bits_partial a2 pos k).1 (by omega), (C04_get_bits_partial h pos k).1 (by omega)]
    · obtain ⟨x, x1, x2⟩ := (C04_get_bits_partial a2 pos k).2 (by omega) (by omega) (by omega) (by omega)
      obtain ⟨y, y1, y2⟩ := (C04_get_bits_partial h pos k).2 (by omega) (by omega) (by omega) (by omega)
      rw [x1, y1, BitVec.eq_of_toNat_eq (x := x) (y := y)]
      rw [x2, y2, a3, List.drop_append_of_le_length (by rw [BV.length_bits]; omega), List.take_append_of_le_length]
      rw [List.length_drop, BV.length_bits]; omega

example := C90_read_back (v := BV.fromOnes 70) (by decide) 5#64 (n := 60) (by decide) (by decide) (by decide)

omit [Profile] in
/-- C90: applying a mask with exclusive or twice restores the content; applying the same mask with "and" or "or" twice is
the same as once, and the order of two masks does not matter. -/
theorem C90_masks {v m : BV} (hv : v.WF) (hm : m.WF) (hl : v.len = m.len) :
    (∃ a b, BV.applyMask (· ^^^ ·) v m = .ok (some a) ∧ BV.applyMask (· ^^^ ·) a m = .ok (some b) ∧ SameContent b v) ∧
    (∀ f : Word → Word → Word, f = (· &&& ·) ∨ f = (· ||| ·) →
      ∃ a b, BV.applyMask f v m = .ok (some a) ∧ BV.applyMask f a m = .ok (some b) ∧ SameContent b a) ∧
    ∀ f : Word → Word → Word, f = (· &&& ·) ∨ f = (· ||| ·) ∨ f = (· ^^^ ·) → ∀ p : BV, p.WF → v.len = p.len →
      ∃ a b c d, BV.applyMask f v m = .ok (some a) ∧ BV.applyMask f a p = .ok (some b) ∧
        BV.applyMask f v p = .ok (some c) ∧ BV.applyMask f c m = .ok (some d) ∧ SameContent b d := by
  have app : ∀ {f : Word → Word → Word} {g : Bool → Bool → Bool}, Bitwise f g → ∀ {x y : BV}, x.WF → y.WF → x.len = y.len →
      ∃ a, BV.applyMask f x y = .ok (some a) ∧ a.WF ∧ a.len = x.len ∧ a.bits = List.zipWith g x.bits y.bits := by
    intro f g hf x y hx hy hxy
    obtain ⟨a, a1, a2, a3⟩ := (C10_apply_mask hf hx hy).1 hxy
    refine ⟨a, a1, a2, ?_, a3⟩
    rw [← BV.length_bits a, a3, List.length_zipWith, BV.length_bits, BV.length_bits]; omega
  obtain ⟨hor, hand, hxor⟩ := C09_operators
  have twice : ∀ {f : Word → Word → Word} {g : Bool → Bool → Bool}, Bitwise f g → (∀ x y, g (g x y) y = g x y) →
      ∃ a b, BV.applyMask f v m = .ok (some a) ∧ BV.applyMask f a m = .ok (some b) ∧ SameContent b a := by
    intro f g hf hg
    obtain ⟨a, a1, a2, a3, a4⟩ := app hf hv hm hl
    obtain ⟨b, b1, b2, b3, b4⟩ := app hf a2 hm (by omega)
    refine ⟨a, b, a1, b1, sameContent_of_bits b2 a2 ?_⟩
    rw [b4, a4]
    apply List.ext_getElem? fun i => ?_
    simp only [List.getElem?_zipWith]
    cases v.bits[i]? <;> cases m.bits[i]? <;> simp [hg]
  have swap : ∀ {f : Word → Word → Word} {g : Bool → Bool → Bool}, Bitwise f g → (∀ x y z, g (g x y) z = g (g x z) y) →
      ∀ p : BV, p.WF → v.len = p.len →
      ∃ a b c d, BV.applyMask f v m = .ok (some a) ∧ BV.applyMask f a p = .ok (some b) ∧
        BV.applyMask f v p = .ok (some c) ∧ BV.applyMask f c m = .ok (some d) ∧ SameContent b d := by
    intro f g hf hg p hp hlp
    obtain ⟨a, a1, a2, a3, a4⟩ := app hf hv hm hl
    obtain ⟨b, b1, b2, b3, b4⟩ := app hf a2 hp (by omega)
    obtain ⟨c, c1, c2, c3, c4⟩ := app hf hv hp hlp
    obtain ⟨d, d1, d2, d3, d4⟩ := app hf c2 hm (by omega)
    refine ⟨a, b, c, d, a1, b1, c1, d1, sameContent_of_bits b2 d2 ?_⟩
    rw [b4, a4, d4, c4]
    apply List.ext_getElem? fun i => ?_
    simp only [List.getElem?_zipWith]
    cases v.bits[i]? <;> cases m.bits[i]? <;> cases p.bits[i]? <;> simp
    exact hg _ _ _
  refine ⟨?_, ?_, ?_⟩
  · obtain ⟨a, a1, a2, a3, a4⟩ := app hxor hv hm hl
    obtain ⟨b, b1, b2, b3, b4⟩ := app hxor a2 hm (by omega)
    refine ⟨a, b, a1, b1, sameContent_of_bits b2 hv ?_⟩
    rw [b4, a4]
    apply List.ext_getElem? fun i => ?_
    simp only [List.getElem?_zipWith]
    have e : v.bits.length = m.bits.length := by rw [BV.length_bits, BV.length_bits, hl]
    by_cases hi : i < v.bits.length
    · rw [List.getElem?_eq_getElem hi, List.getElem?_eq_getElem (by omega)]
      simp
    · rw [List.getElem?_eq_none (by omega)]
  · rintro f (rfl | rfl)
    · exact twice hand (by decide)
    · exact twice hor (by decide)
  · rintro f (rfl | rfl | rfl)
    · exact swap hand (by decide)
    · exact swap hor (by decide)
    · exact swap hxor (by decide)

example := C90_masks (v := (BV.fromOnes 70).dropLast 3) (m := BV.fromZeros 67) (by decide) (by decide) (by decide)

end Vers
