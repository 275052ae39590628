import Verif.Proofs.RsQuery
import Verif.Proofs.BitVecOps3
import Verif.Model.EliasFano
import Verif.AbsEf

/-! # Construction of the Elias-Fano vector -/

set_option linter.unusedSimpArgs false

namespace Vers

variable [Profile]
open Spec

/-! ## words and naturals -/

theorem addW_of_lt {a b : Word} (h : a.toNat + b.toNat < 2 ^ 64) :
    ∃ c, addW a b = .ok c ∧ c.toNat = a.toNat + b.toNat := by
  refine ⟨a + b, by unfold addW; rw [if_pos h], ?_⟩
  rw [BitVec.toNat_add, Nat.mod_eq_of_lt h]

theorem subW_of_le {a b : Word} (h : b.toNat ≤ a.toNat) :
    ∃ c, subW a b = .ok c ∧ c.toNat = a.toNat - b.toNat := by
  refine ⟨a - b, by unfold subW; rw [if_pos h], ?_⟩
  rw [BitVec.toNat_sub_of_le (by rw [BitVec.le_def]; exact h)]

omit [Profile] in
theorem toNat_ofNat_lt {a : Nat} (h : a < 2 ^ 64) : (BitVec.ofNat 64 a).toNat = a := by
  rw [BitVec.toNat_ofNat, Nat.mod_eq_of_lt h]

omit [Profile] in
theorem shr_toNat (x : Word) (w : Nat) : (x >>> w).toNat = x.toNat / 2 ^ w := by
  rw [BitVec.toNat_ushiftRight, Nat.shiftRight_eq_div_pow]

omit [Profile] in
theorem mask_toNat {w : Nat} (hw : w < 64) : ((1#64 <<< w) - 1#64).toNat = 2 ^ w - 1 := by
  have h2 : (2:Nat) ^ w < 2 ^ 64 := Nat.pow_lt_pow_right (by omega) hw
  have h3 : 0 < (2:Nat) ^ w := Nat.pos_of_ne_zero (by simp)
  rw [BitVec.toNat_sub_of_le]
  · simp [BitVec.toNat_shiftLeft, Nat.shiftLeft_eq, Nat.mod_eq_of_lt h2]
  · rw [BitVec.le_def]
    simp [BitVec.toNat_shiftLeft, Nat.shiftLeft_eq, Nat.mod_eq_of_lt h2]
    omega

omit [Profile] in
theorem and_mask_toNat (x : Word) {w : Nat} (hw : w < 64) :
    (x &&& ((1#64 <<< w) - 1#64)).toNat = x.toNat % 2 ^ w := by
  rw [BitVec.toNat_and, mask_toNat hw, Nat.and_two_pow_sub_one_eq_mod]

omit [Profile] in
theorem combine_toNat {u l w : Nat} (hl : l < 2 ^ w) (h : u * 2 ^ w + l < 2 ^ 64) :
    ((BitVec.ofNat 64 u <<< w) ||| BitVec.ofNat 64 l).toNat = u * 2 ^ w + l := by
  have hp : 0 < 2 ^ w := Nat.pos_of_ne_zero (by simp)
  have hu : u ≤ u * 2 ^ w := Nat.le_mul_of_pos_right _ hp
  rw [BitVec.toNat_or, BitVec.toNat_shiftLeft, toNat_ofNat_lt (by omega), toNat_ofNat_lt (by omega),
    Nat.shiftLeft_eq, Nat.mod_eq_of_lt (by omega), Nat.mul_comm, ← Nat.two_pow_add_eq_or_of_lt hl]

/-! ## counting -/

omit [Profile] in
/-- Number of set positions below `P`, when the set positions are enumerated by `p`. -/
theorem cnt_of_enum {f : Nat → Bool} {p : Nat → Nat} {n : Nat}
    (hmono : ∀ i j, i < j → j < n → p i < p j) :
    ∀ (k P : Nat), (∀ x, x < P → (f x = true ↔ ∃ i, i < n ∧ x = p i)) → k ≤ n →
      (∀ i, i < k → p i < P) → (∀ i, k ≤ i → i < n → P ≤ p i) → cnt f P = k := by
  intro k
  induction k with
  | zero =>
    intro P hf _ _ h2
    apply cnt_eq_zero
    intro i hi
    cases hfi : f i with
    | false => rfl
    | true =>
      obtain ⟨j, h3, h4⟩ := (hf i hi).mp hfi
      have := h2 j (by omega) h3
      omega
  | succ k ih =>
    intro P hf hk h1 h2
    have hp := h1 k (by omega)
    have e1 : cnt f (p k) = k := by
      apply ih (p k) (fun x hx => hf x (by omega)) (by omega) (fun i hi => hmono i k hi (by omega))
      intro i h3 h4
      rcases Nat.eq_or_lt_of_le h3 with h5 | h5
      · subst h5; exact Nat.le_refl _
      · exact Nat.le_of_lt (hmono k i h5 h4)
    have e2 : f (p k) = true := (hf _ hp).mpr ⟨k, by omega, rfl⟩
    obtain ⟨m, hm⟩ := Nat.exists_eq_add_of_le (show p k + 1 ≤ P by omega)
    rw [hm, cnt_add, cnt_succ, e1, e2]
    have : cnt (fun j => f (p k + 1 + j)) m = 0 := by
      apply cnt_eq_zero
      intro i hi
      cases hfi : f (p k + 1 + i) with
      | false => rfl
      | true =>
        obtain ⟨j, h3, h4⟩ := (hf _ (by omega)).mp hfi
        rcases Nat.lt_or_ge k j with h5 | h5
        · have := h2 j (by omega) h3; omega
        · rcases Nat.eq_or_lt_of_le h5 with h6 | h6
          · subst h6; omega
          · have := hmono j k h6 (by omega); omega
    rw [this]; rfl

omit [Profile] in
/-- A predicate that holds on a prefix only. -/
theorem exists_split {n : Nat} {f : Nat → Prop} (h : ∀ i j, i ≤ j → j < n → f j → f i) :
    ∃ k, k ≤ n ∧ ∀ i, i < n → (f i ↔ i < k) := by
  classical
  induction n with
  | zero => exact ⟨0, by omega, fun i hi => by omega⟩
  | succ n ih =>
    obtain ⟨k, h1, h2⟩ := ih (fun i j a b => h i j a (by omega))
    by_cases hn : f n
    · refine ⟨n + 1, by omega, fun i hi => ⟨fun _ => hi, fun _ => h i n (by omega) (by omega) hn⟩⟩
    · refine ⟨k, by omega, fun i hi => ?_⟩
      rcases Nat.lt_or_ge i n with h3 | h3
      · exact h2 i h3
      · have : i = n := by omega
        subst this
        exact ⟨fun h => absurd h hn, fun h => by omega⟩

/-! ## the invariant -/

/-- `ef` stores the non-decreasing values `zero + D i`, `i < n`. -/
structure EF.Inv (ef : EF) (n : Nat) (D : Nat → Nat) : Prop where
  pos : 0 < n
  len : ef.len = n
  w : ef.lowerLen < 64
  mono : ∀ i j, i ≤ j → j < n → D i ≤ D j
  d0 : D 0 = 0
  bound : ∀ i, i < n → ef.zero.toNat + D i < 2 ^ 64
  max : ef.max.toNat = ef.zero.toNat + D (n - 1)
  up : ef.upper.Inv
  ulen : ef.upper.len = 2 + n + D (n - 1) / 2 ^ ef.lowerLen
  ulim : 2 + n + D (n - 1) / 2 ^ ef.lowerLen < 2 ^ 64
  ubit : ∀ p, p < ef.upper.len →
    (lbit ef.upper.data p = true ↔ ∃ i, i < n ∧ p = D i / 2 ^ ef.lowerLen + i + 1)
  low : ∀ i, i < n → ef.lowAt i = .ok (BitVec.ofNat 64 (D i % 2 ^ ef.lowerLen))

omit [Profile] in
theorem windowsSorted_iff (l : List Word) : EF.windowsSorted l = true ↔ Sorted l := by
  unfold Sorted
  induction l with
  | nil => simp [EF.windowsSorted]
  | cons a l ih =>
    cases l with
    | nil => simp [EF.windowsSorted]
    | cons b l =>
      simp only [EF.windowsSorted, Bool.and_eq_true, ih, decide_eq_true_eq]
      constructor
      · intro ⟨h1, h2⟩
        refine List.pairwise_cons.mpr ⟨?_, h2⟩
        intro c hc
        rcases List.mem_cons.mp hc with h3 | h3
        · subst h3; exact h1
        · have := (List.pairwise_cons.mp h2).1 c h3
          rw [BitVec.le_def] at *; omega
      · intro h
        obtain ⟨h1, h2⟩ := List.pairwise_cons.mp h
        exact ⟨h1 b (by simp), h2⟩

/-- lower half: state after the first `i` elements -/
structure LowInv (v : BV) (w i : Nat) (D : Nat → Nat) : Prop where
  wf : 1 ≤ w → v.WF ∧ v.Clean ∧ v.len = i * w ∧
    ∀ k, k < i → ∀ j, j < w → lbit v.data (k * w + j) = (D k).testBit j
  zero : w = 0 → v.len = 0 ∧ (1 ≤ i → 1 ≤ v.data.length)

omit [Profile] in
theorem lowInv_step {v : BV} {w i : Nat} {D : Nat → Nat} (h : LowInv v w i D) (hw : w < 64)
    {x : Word} (hx : x.toNat = D i) :
    ∃ v', v.appendBitsUnchecked (x &&& ((1#64 <<< w) - 1#64)) w = .ok v' ∧ LowInv v' w (i + 1) D := by
  by_cases h0 : w = 0
  · subst h0
    obtain ⟨h1, h2⟩ := h.zero rfl
    unfold BV.appendBitsUnchecked
    rw [if_pos (by rw [h1])]
    exact ⟨_, rfl, ⟨fun h => by omega, fun _ => ⟨by simp [h1], fun _ => by simp⟩⟩⟩
  · obtain ⟨h1, h2, h3, h4⟩ := h.wf (by omega)
    obtain ⟨v', g1, g2, g3, g4⟩ := BV.appendBitsUnchecked_refines h1 h2 (x &&& ((1#64 <<< w) - 1#64)) w
      (by omega) (by omega)
    have hlen : v'.len = (i + 1) * w := by
      have := congrArg List.length g3
      simp at this
      rw [this, h3, Nat.succ_mul]
    refine ⟨v', g1, ⟨fun _ => ⟨g2, g4 ?_, hlen, ?_⟩, fun h => by omega⟩⟩
    · intro j hj
      rw [BitVec.getLsbD_and, mask_getLsbD w j hw]
      simp; omega
    · intro k hk j hj
      have hb : ∀ q, q < v'.len → v'.bits[q]? = some (lbit v'.data q) := by
        intro q hq; rw [BV.bits_getElem?, if_pos hq]
      have hq : k * w + j < v'.len := by
        rw [hlen]
        calc k * w + j < k * w + w := by omega
          _ = (k + 1) * w := by rw [Nat.succ_mul]
          _ ≤ (i + 1) * w := Nat.mul_le_mul_right _ (by omega)
      have := hb _ hq
      rw [g3] at this
      rcases Nat.lt_or_ge k i with hki | hki
      · have hlt : k * w + j < v.len := by
          rw [h3]
          calc k * w + j < k * w + w := by omega
            _ = (k + 1) * w := by rw [Nat.succ_mul]
            _ ≤ i * w := Nat.mul_le_mul_right _ (by omega)
        rw [List.getElem?_append_left (by simpa using hlt), BV.bits_getElem?, if_pos hlt] at this
        rw [← Option.some.inj this]
        exact h4 k hki j hj
      · have : k = i := by omega
        subst this
        rw [List.getElem?_append_right (by simp [h3])] at this
        simp only [BV.length_bits, h3, Nat.add_sub_cancel_left] at this
        rw [BV.natToBits_word _ _ _ hj] at this
        have := Option.some.inj this
        rw [← this, BitVec.getLsbD_and, mask_getLsbD w j hw, ← hx, BitVec.testBit_toNat]
        simp [hj]

theorem lowAt_of_inv {v : BV} {w n : Nat} {D : Nat → Nat} (h : LowInv v w n D) (hw : w < 64)
    (hn : 0 < n) {i : Nat} (hi : i < n) :
    v.getBitsUnchecked (i * w) w = .ok (BitVec.ofNat 64 (D i % 2 ^ w)) := by
  unfold BV.getBitsUnchecked
  by_cases h0 : w = 0
  · subst h0
    obtain ⟨h1, h2⟩ := h.zero rfl
    have := h2 hn
    obtain ⟨r, r1, r2⟩ := BV.getBitsRaw_eq (d := v.data) (pos := i * 0) (n := 0) (by omega) (by omega)
      (by omega)
    rw [r1]
    congr 1
    apply BitVec.eq_of_getLsbD_eq
    intro j hj
    rw [r2]; simp [Nat.mod_one]
  · obtain ⟨h1, h2, h3, h4⟩ := h.wf (by omega)
    have hle : i * w + w ≤ n * w := by
      rw [← Nat.succ_mul]; exact Nat.mul_le_mul_right _ (by omega)
    have hd : i * w + w ≤ 64 * v.data.length := by unfold BV.WF at h1; omega
    obtain ⟨r, r1, r2⟩ := BV.getBitsRaw_eq (d := v.data) (pos := i * w) (n := w) (by omega) hd (by omega)
    rw [r1]
    congr 1
    apply BitVec.eq_of_getLsbD_eq
    intro j hj
    rw [r2, BitVec.getLsbD_ofNat, Nat.testBit_mod_two_pow]
    by_cases hjw : j < w
    · rw [h4 i hi j hjw]; simp [hjw, hj]
    · simp [hjw]

/-- upper half: state after the first `i` elements -/
structure UpInv (v : BV) (w m i : Nat) (D : Nat → Nat) : Prop where
  wf : v.WF
  len : v.len = m
  bit : ∀ p, p < m → (lbit v.data p = true ↔ ∃ k, k < i ∧ p = D k / 2 ^ w + k + 1)

omit [Profile] in
theorem upInv_step {v : BV} {w m i n : Nat} {D : Nat → Nat} (h : UpInv v w m i D)
    (mono : ∀ i j, i ≤ j → j < n → D i ≤ D j) (hi : i < n) (hm : D i / 2 ^ w + i + 1 < m)
    {x : Word} (hx : x.toNat = D i) :
    (x >>> w).toNat + i + 1 < m ∧
      ∃ v', v.flipBitUnchecked ((x >>> w).toNat + i + 1) = .ok v' ∧ UpInv v' w m (i + 1) D := by
  rw [shr_toNat, hx]
  obtain ⟨v', g1, g2, g3, g4⟩ := BV.flipBitUnchecked_eq h.wf (i := D i / 2 ^ w + i + 1) (by rw [h.len]; exact hm)
  refine ⟨hm, v', g1, g2, by rw [g3, h.len], ?_⟩
  intro p hp
  have e : some (lbit v'.data p) = (v.bits.modify (D i / 2 ^ w + i + 1) (fun b => !b))[p]? := by
    rw [← g4, BV.bits_getElem?, if_pos (by rw [g3, h.len]; exact hp)]
  rw [List.getElem?_modify, BV.bits_getElem?, if_pos (by rw [h.len]; exact hp)] at e
  have hbit := h.bit p hp
  by_cases hpe : D i / 2 ^ w + i + 1 = p
  · simp only [if_pos hpe, Option.map_some, Option.map_eq_map, Option.some.injEq] at e
    have hf : lbit v.data p = false := by
      cases hb : lbit v.data p with
      | false => rfl
      | true =>
        obtain ⟨k, h1, h2⟩ := hbit.mp hb
        have := Nat.div_le_div_right (c := 2 ^ w) (mono k i (by omega) hi)
        omega
    rw [hf] at e
    simp only [Bool.not_false] at e
    rw [e]
    exact ⟨fun _ => ⟨i, by omega, hpe.symm⟩, fun _ => rfl⟩
  · simp only [if_neg hpe, Option.map_some, Option.map_eq_map, id_eq, Option.some.injEq] at e
    rw [e, hbit]
    constructor
    · rintro ⟨k, h1, h2⟩; exact ⟨k, by omega, h2⟩
    · rintro ⟨k, h1, h2⟩
      rcases Nat.lt_or_ge k i with h3 | h3
      · exact ⟨k, h3, h2⟩
      · have : k = i := by omega
        subst this; omega

theorem fillLoop_eq {w m n : Nat} {D : Nat → Nat} {z : Word} (hw : w < 64) (hm64 : m < 2 ^ 64)
    (mono : ∀ i j, i ≤ j → j < n → D i ≤ D j) (hm : ∀ i, i < n → D i / 2 ^ w + i + 1 < m) :
    ∀ (xs : List Word) (i : Nat) (u l : BV), i + xs.length = n → UpInv u w m i D → LowInv l w i D →
      (∀ j x, xs[j]? = some x → x.toNat = z.toNat + D (i + j)) →
      ∃ u' l', EF.fillLoop z w u l i xs = .ok (u', l') ∧ UpInv u' w m n D ∧ LowInv l' w n D := by
  intro xs
  induction xs with
  | nil => intro i u l hi hu hl _; exact ⟨u, l, rfl, by simpa [← hi] using hu, by simpa [← hi] using hl⟩
  | cons x xs ih =>
    intro i u l hi hu hl hx
    have hx0 := hx 0 x rfl
    simp only [Nat.add_zero] at hx0
    simp only [List.length_cons] at hi
    obtain ⟨d, d1, d2⟩ := subW_of_le (a := x) (b := z) (by omega)
    have d3 : d.toNat = D i := by omega
    obtain ⟨u0, u', u1, u2⟩ := upInv_step hu mono (by omega) (hm i (by omega)) d3
    obtain ⟨l', l1, l2⟩ := lowInv_step hl hw d3
    unfold EF.fillLoop
    rw [d1, ok_bind, addU_of_lt (by omega), ok_bind, addU_of_lt (by omega), ok_bind, u1, ok_bind, l1, ok_bind]
    refine ih (i + 1) u' l' (by omega) u2 l2 ?_
    intro j y hy
    have := hx (j + 1) y (by simpa using hy)
    rw [this]; congr 2; omega

omit [Profile] in
theorem sorted_le {l : List Word} (h : Sorted l) {i j : Nat} (hij : i ≤ j) (hj : j < l.length) :
    (l[i]'(by omega)).toNat ≤ (l[j]).toNat := by
  rcases Nat.eq_or_lt_of_le hij with h1 | h1
  · subst h1; exact Nat.le_refl _
  · have := List.pairwise_iff_getElem.mp h i j (by omega) hj h1
    rwa [BitVec.le_def] at this

/-- the stored differences -/
def efD (data : List Word) (i : Nat) : Nat := (data[i]?.getD 0#64).toNat - (data[0]?.getD 0#64).toNat

omit [Profile] in
theorem efD_add {data : List Word} (h : Sorted data) {i : Nat} (hi : i < data.length) :
    (data[0]'(by omega)).toNat + efD data i = data[i].toNat := by
  unfold efD
  rw [List.getElem?_eq_getElem hi, List.getElem?_eq_getElem (show 0 < data.length by omega)]
  have := sorted_le h (i := 0) (by omega) hi
  simp only [Option.getD_some]; omega

omit [Profile] in
/-- the sizes computed by `from_slice` do not overflow -/
theorem LogLike.sizes {fl : Nat → Nat} (hfl : LogLike fl) {n b w : Nat} (hn : n < 2 ^ 60) (hb : b < 2 ^ 64)
    (h1 : fl (Nat.max b 2) ≤ w + fl (Nat.max n 2)) (h2 : w + fl (Nat.max n 2) ≤ 64) :
    2 + n + b / 2 ^ w < 2 ^ 64 ∧ n * w < 2 ^ 64 := by
  have hn2 : Nat.max n 2 < 2 ^ 60 := Nat.max_lt.mpr ⟨hn, by omega⟩
  have hb2 : Nat.max b 2 < 2 ^ 64 := Nat.max_lt.mpr ⟨hb, by omega⟩
  have a1 := hfl.lower (Nat.max b 2) (Nat.le_max_right _ _) hb2
  have a2 := hfl.lower (Nat.max n 2) (Nat.le_max_right _ _) (by omega)
  have a3 := hfl.upper (Nat.max n 2) (Nat.le_max_right _ _) (by omega)
  have hbm : b ≤ Nat.max b 2 := Nat.le_max_left _ _
  have hnm : n ≤ Nat.max n 2 := Nat.le_max_left _ _
  generalize fl (Nat.max n 2) = k at *
  generalize fl (Nat.max b 2) = l at *
  constructor
  · have e : (2 : Nat) ^ (l + 1) ≤ 2 ^ (k + 1) * 2 ^ w := by
      rw [← Nat.pow_add]; exact Nat.pow_le_pow_right (by omega) (by omega)
    have : b / 2 ^ w ≤ 2 ^ (k + 1) := by
      apply Nat.div_le_of_le_mul
      rw [Nat.mul_comm]; omega
    have e2 : (2 : Nat) ^ (k + 1) = 2 ^ k * 2 := Nat.pow_succ ..
    omega
  · rcases Nat.lt_or_ge k 58 with hk | hk
    · have : (2 : Nat) ^ (k + 1) ≤ 2 ^ 58 := Nat.pow_le_pow_right (by omega) (by omega)
      have : n * w ≤ 2 ^ 58 * 63 ∨ w = 64 := by
        rcases Nat.lt_or_ge w 64 with h | h
        · exact Or.inl (Nat.mul_le_mul (by omega) (by omega))
        · exact Or.inr (by omega)
      rcases this with h | h
      · omega
      · have : k = 0 := by omega
        subst this; subst h
        omega
    · have : n * w ≤ 2 ^ 60 * 6 := Nat.mul_le_mul (by omega) (by omega)
      omega

theorem fromSlice_inv {fl : Nat → Nat} (hfl : LogLike fl) {data : List Word} (hs : Sorted data)
    (hne : data ≠ []) (hl : data.length < 2 ^ 60) :
    ∃ ef, EF.fromSlice fl data = .ok ef ∧ ef.Inv data.length (efD data) ∧ some ef.zero = data[0]? := by
  have hn : 0 < data.length := List.length_pos_iff.mpr hne
  unfold EF.fromSlice
  rw [if_neg hne]
  unfold EF.fromNonEmpty
  rw [dassertR_true ((windowsSorted_iff _).mpr hs), ok_bind, idx_of_lt hn, ok_bind,
    idx_of_lt (show data.length - 1 < data.length by omega), ok_bind]
  have hD := fun i (hi : i < data.length) => efD_add hs hi
  have mono : ∀ i j, i ≤ j → j < data.length → efD data i ≤ efD data j := by
    intro i j hij hj
    have h1 := hD i (by omega)
    have h2 := hD j hj
    have h3 := sorted_le hs hij hj
    omega
  have hlast := hD (data.length - 1) (by omega)
  obtain ⟨b, b1, b2⟩ := subW_of_le (a := data[data.length - 1]) (b := data[0]) (by omega)
  have b3 : b.toNat = efD data (data.length - 1) := by omega
  rw [b1, ok_bind]
  have e1 : fl (Nat.max data.length 2) ≤ fl (data.length + 2) :=
    hfl.step _ (by omega) (by omega)
  have e2 : 1 ≤ fl (Nat.max data.length 2) := hfl.pos _ (Nat.le_max_right _ _)
    (Nat.max_lt.mpr ⟨by omega, by omega⟩)
  have e3 : fl (Nat.max b.toNat 2) ≤ 64 := hfl.le _ (Nat.max_lt.mpr ⟨b.isLt, by omega⟩)
  have e4 : fl (data.length + 2) ≤ 64 := hfl.le _ (by omega)
  have e5 : fl (data.length + 2) ≤ Nat.max (fl (Nat.max b.toNat 2)) (fl (data.length + 2)) :=
    Nat.le_max_right _ _
  have e6 : Nat.max (fl (Nat.max b.toNat 2)) (fl (data.length + 2)) ≤ 64 := Nat.max_le.mpr ⟨e3, e4⟩
  have e7 : fl (Nat.max b.toNat 2) ≤ Nat.max (fl (Nat.max b.toNat 2)) (fl (data.length + 2)) :=
    Nat.le_max_left _ _
  rw [subR_of_le (by omega), ok_bind]
  generalize hw : Nat.max (fl (Nat.max b.toNat 2)) (fl (data.length + 2)) - fl (Nat.max data.length 2) = w
  have hw64 : w < 64 := by omega
  rw [assertR_true hw64, ok_bind, shr_toNat, b3]
  have hm : ∀ i, i < data.length →
      efD data i / 2 ^ w + i + 1 < 2 + data.length + efD data (data.length - 1) / 2 ^ w := by
    intro i hi
    have := Nat.div_le_div_right (c := 2 ^ w) (mono i (data.length - 1) (by omega) (by omega))
    omega
  obtain ⟨hs1, hs2⟩ := hfl.sizes (n := data.length) (b := efD data (data.length - 1)) (w := w) hl
    (by rw [← b3]; exact b.isLt) (by rw [← b3]; omega) (by omega)
  rw [addU_of_lt hs1, ok_bind, mulU_of_lt hs2, ok_bind]
  have u0 : UpInv (BV.fromZeros (2 + data.length + efD data (data.length - 1) / 2 ^ w)) w
      (2 + data.length + efD data (data.length - 1) / 2 ^ w) 0 (efD data) := by
    refine ⟨BV.wf_fromZeros _, rfl, ?_⟩
    intro p hp
    have h := BV.bits_getElem? (BV.fromZeros (2 + data.length + efD data (data.length - 1) / 2 ^ w)) p
    have hp' : p < (BV.fromZeros (2 + data.length + efD data (data.length - 1) / 2 ^ w)).len := hp
    rw [BV.bits_fromZeros, if_pos hp', List.getElem?_replicate, if_pos hp] at h
    rw [← Option.some.inj h]
    simp
  have l0 : LowInv BV.new w 0 (efD data) := by
    refine ⟨fun _ => ⟨BV.wf_new, BV.clean_new, by simp [BV.new], fun k hk => by omega⟩,
      fun _ => ⟨rfl, fun h => by omega⟩⟩
  obtain ⟨u, l, g1, g2, g3⟩ := fillLoop_eq (z := data[0]) hw64 hs1 mono hm data 0 _ _ (by omega) u0 l0 (by
    intro j x hx
    obtain ⟨hj, rfl⟩ := List.getElem?_eq_some_iff.mp hx
    rw [Nat.zero_add, hD j hj])
  rw [g1, ok_bind]
  obtain ⟨rs, r1, r2, r3, r4⟩ := fromBitVec_inv g2.wf
  rw [r1, ok_bind]
  refine ⟨_, rfl, ?_, by simp⟩
  constructor
  · exact hn
  · rfl
  · exact hw64
  · exact mono
  · simp [efD]
  · intro i hi
    have := hD i hi
    have := data[i].isLt
    simp only; omega
  · simp only; omega
  · exact r2
  · simp only; rw [r4, g2.len]
  · exact hs1
  · intro p hp
    simp only at hp ⊢
    rw [r3]
    exact g2.bit p (by rw [r4, g2.len] at hp; exact hp)
  · intro i hi
    unfold EF.lowAt
    have := Nat.mul_le_mul_right w (Nat.le_of_lt hi)
    rw [mulU_of_lt (by simp only; omega), ok_bind]
    exact lowAt_of_inv g3 hw64 hn hi

end Vers
