import Verif.Proofs.RsEq
import Verif.Proofs.IterSim

/-!
# Properties C12–C19 and C53: the rank/select vector

All theorems start from an arbitrary well-formed bit vector `v` (every vector built through the API is
one, C11) and speak about the result of `RsVec::from_bit_vec(v)`. The vector may hold junk bits beyond
its end. `rank true`/`select true` are `rank0`/`select0`, `rank false`/`select false` are
`rank1`/`select1`.
-/

set_option linter.unusedSimpArgs false

namespace Vers

variable [Profile]
open Spec

/-! ## C12 construction -/

theorem C12_preserves_bits_partial {v : BV} (h : v.WF) :
    ∃ rs, RsVec.fromBitVec v = .ok rs ∧ rs.len = v.len ∧ rs.intoBitVec = v ∧
      ∀ i, rs.get i = .ok (v.bits[i]?.map b2w) := by
  obtain ⟨rs, h1, h2, h3, h4⟩ := fromBitVec_inv h
  have e : rs.intoBitVec = v := by cases v; simp [RsVec.intoBitVec, h3, h4]
  refine ⟨rs, h1, h4, e, ?_⟩
  intro i
  have := BV.get_eq h i
  rw [← this, ← e]
  rfl

example : ((BV.fromOnes 70).dropLast 3).WF := by decide

/-! ## C13 rank -/

omit [Profile] in
theorem bits_of_from {v : BV} {rs : RsVec} (h3 : rs.data = v.data) (h4 : rs.len = v.len) :
    rs.intoBitVec = v := by cases v; simp [RsVec.intoBitVec, h3, h4]

theorem C13_rank_partial {v : BV} (h : v.WF) :
    ∃ rs, RsVec.fromBitVec v = .ok rs ∧
      ∀ i, rs.rank true i = .ok (rank false v.bits i) ∧ rs.rank false i = .ok (rank true v.bits i) := by
  obtain ⟨rs, h1, h2, h3, h4⟩ := fromBitVec_inv h
  refine ⟨rs, h1, fun i => ?_⟩
  have key : ∀ b, C rs.data b (min i rs.len) = rank b v.bits i := by
    intro b
    unfold rank
    rw [h3, h4]
    by_cases hi : i ≤ v.len
    · rw [Nat.min_eq_left hi, BV.count_take_bits v b i hi]; rfl
    · rw [Nat.min_eq_right (by omega), List.take_of_length_le (by simp; omega), BV.count_bits_eq_cnt]; rfl
  rw [RsVec.rank_eq h2, RsVec.rank_eq h2]
  simp [key]

/-- `select0` depends on the length and the number of ones only through the comparison at the start. -/
theorem select_zero_congr (rs : RsVec) (l r : Nat) {k : Nat} (hk : ¬ rs.rank0 ≤ k) :
    RsVec.select { rs with len := l, rank1 := r } true k = rs.select true k := by
  have e1 : ∀ n a b, RsVec.searchSuperBin { rs with len := l, rank1 := r } true k n a b
      = rs.searchSuperBin true k n a b := by
    intro n
    induction n with
    | zero => intro a b; rfl
    | succ n ih => intro a b; unfold RsVec.searchSuperBin; simp only [ih]; rfl
  have e2 : ∀ n a, RsVec.searchSuperLin { rs with len := l, rank1 := r } true k n a = rs.searchSuperLin true k n a := by
    intro n
    induction n with
    | zero => intro a; rfl
    | succ n ih => intro a; unfold RsVec.searchSuperLin; simp only [ih]; rfl
  have e3 : ∀ k b n a, RsVec.searchBlockStep { rs with len := l, rank1 := r } true k b a n
      = rs.searchBlockStep true k b a n := by
    intro k b n
    induction n with
    | nil => intro a; rfl
    | cons x n ih => intro a; unfold RsVec.searchBlockStep; simp only [ih]; rfl
  have e4 : ∀ b n a k, RsVec.searchWordStep { rs with len := l, rank1 := r } true b n a k
      = rs.searchWordStep true b n a k := by
    intro b n
    induction n with
    | zero => intro a k; rfl
    | succ n ih => intro a k; unfold RsVec.searchWordStep; simp only [ih]
  unfold RsVec.select RsVec.selectSuper RsVec.searchSuper RsVec.searchBlock RsVec.searchWord
  simp only [if_true, ge_iff_le, if_neg hk, e1, e2, e3, e4]
  rfl

/-- The vector after `append_bits(w, 0)` on an aligned length, and the rank structure over it. -/
theorem append_zero_rs {v : BV} (h : v.WF) (w : Word) (ha : v.len % 64 = 0) :
    ∃ v1, v.appendBits w 0 = .ok v1 ∧ v1.bits = v.bits ∧
      (Profile.debug = true → v.bits.count true < (List.range 64).countP (fun i => !w.getLsbD i) →
        RsVec.fromBitVec v1 = .error .overflow) ∧
      (Profile.debug = false ∨ (List.range 64).countP (fun i => !w.getLsbD i) ≤ v.bits.count true →
        ∃ rs, RsVec.fromBitVec v1 = .ok rs ∧
          (∀ i, v.len ≤ i →
            rs.rank true i = .ok (v.bits.count false + (List.range 64).countP (fun i => !w.getLsbD i))) ∧
          ∀ k, k < (List.range 64).countP (fun i => !w.getLsbD i) →
            ∃ q, rs.select true (v.bits.count false + k) = .ok (v.len + q) ∧
              IsSelect false ((List.range 64).map w.getLsbD) k q) := by
  have hd : v.data.length = v.len / 64 := by unfold BV.WF at h; omega
  have hu : (⟨v.data ++ [w], v.len + 64⟩ : BV).WF := by
    unfold BV.WF at h ⊢; simp only [List.length_append, List.length_singleton]; omega
  have hlb : ∀ i, i < v.len → lbit (v.data ++ [w]) i = lbit v.data i := by
    intro i hi
    unfold lbit
    rw [List.getElem?_append_left (by omega)]
  obtain ⟨rs, r1, r2, r3, r4⟩ := fromBitVec_inv hu
  have hz : rs.rank0 = v.bits.count false + (List.range 64).countP (fun i => !w.getLsbD i) := by
    rw [r2.r0, r3, r4, BV.count_bits_eq_cnt, ← cnt_eq_countP_range]
    unfold C
    rw [cnt_add]
    congr 1
    · apply cnt_congr
      intro i hi
      rw [hlb i hi]
    · apply cnt_congr
      intro i hi
      have : (v.len + i) / 64 = v.data.length := by omega
      unfold lbit
      rw [this, List.getElem?_append_right (by omega), show (v.len + i) % 64 = i by omega]
      simp
  have hc : v.bits.count true + v.bits.count false = v.len := by
    have := BV.count_true_add_false v.bits
    simpa using this
  have key := fromBitVec_long (v := ⟨v.data ++ [w], v.len⟩) (u := ⟨v.data ++ [w], v.len + 64⟩) rfl ha
    (show (v.len + 64) % 64 = 0 by omega) r1
  refine ⟨⟨v.data ++ [w], v.len⟩, ?_, ?_, ?_, ?_⟩
  · unfold BV.appendBits
    rw [assertR_true (by omega), ok_bind, if_pos ha]; rfl
  · apply List.ext_getElem?
    intro i
    rw [BV.bits_getElem?, BV.bits_getElem?]
    by_cases hi : i < v.len
    · rw [if_pos hi, if_pos hi, hlb i hi]
    · rw [if_neg hi, if_neg hi]
  · intro hd hlt
    rw [key, subR_overflow hd (by simp only; omega)]; rfl
  · intro hr
    have : ∃ r, subR v.len rs.rank0 = .ok r := by
      by_cases hle : rs.rank0 ≤ v.len
      · exact ⟨_, subR_of_le hle⟩
      · rcases hr with hr | hr
        · unfold subR; rw [if_neg hle, wrapR_release hr]; exact ⟨_, rfl⟩
        · omega
    obtain ⟨r, hr⟩ := this
    refine ⟨{ rs with len := v.len, rank1 := r }, ?_, ?_⟩
    · rw [key]; simp only; rw [hr, ok_bind]; rfl
    · refine ⟨fun i hi => ?_, fun k hk => ?_⟩
      · unfold RsVec.rank
        rw [if_pos (by simpa using hi), if_pos rfl, hz]; rfl
      · have e := bits_of_from r3 r4
        have hlt : v.bits.count false + k < C rs.data false rs.len := by rw [← r2.r0, hz]; omega
        obtain ⟨p, p1, p2, p3⟩ := RsVec.select_eq r2 true hlt
        have hs := SelIter.isSelect_of_isPos p2 p3
        rw [e] at hs
        have hw : (⟨v.data ++ [w], v.len + 64⟩ : BV).bits = v.bits ++ (List.range 64).map w.getLsbD := by
          apply List.ext_getElem?
          intro i
          rw [BV.bits_getElem?]
          by_cases hi : i < v.len
          · rw [List.getElem?_append_left (by simpa using hi), BV.bits_getElem?, if_pos hi,
              if_pos (by simp only; omega), hlb i hi]
          · rw [List.getElem?_append_right (by simp; omega)]
            by_cases h2 : i < v.len + 64
            · rw [if_pos (by simpa using h2), List.getElem?_map, List.getElem?_range (by simp; omega)]
              unfold lbit
              have : i / 64 = v.data.length := by omega
              rw [this, List.getElem?_append_right (by omega), show i % 64 = i - v.len by omega]
              simp
            · rw [if_neg (by simpa using h2), List.getElem?_eq_none (by simp; omega)]
        rw [hw] at hs
        obtain ⟨s1, s2⟩ := hs
        have hge : v.len ≤ p := by
          apply Decidable.byContradiction
          intro hlt
          have e1 : ((v.bits ++ (List.range 64).map w.getLsbD).take p).count false ≤ v.bits.count false := by
            rw [List.take_append_of_le_length (by simp; omega)]
            exact List.Sublist.count_le _ (List.take_sublist _ _)
          have e2 : p < v.bits.length := by simp; omega
          have e3 : v.bits[p]? = some false := by
            rw [List.getElem?_append_left e2] at s1; exact s1
          have e4 : (v.bits.take (p + 1)).count false = (v.bits.take p).count false + 1 := by
            rw [List.take_add_one, e3]; simp
          have e5 : (v.bits.take (p + 1)).count false ≤ v.bits.count false :=
            List.Sublist.count_le _ (List.take_sublist _ _)
          rw [List.take_append_of_le_length (by omega)] at s2
          simp only [Bool.not_true] at s2
          omega
        refine ⟨p - v.len, ?_, ?_, ?_⟩
        · rw [show v.len + (p - v.len) = p by omega, ← p1]
          have hlt' : ¬ rs.rank0 ≤ v.bits.count false + k := by omega
          exact select_zero_congr rs _ _ hlt'
        · rw [List.getElem?_append_right (by simpa using hge)] at s1
          simpa using s1
        · rw [List.take_append, List.count_append, List.take_of_length_le (by simpa using hge)] at s2
          simp only [BV.length_bits, Bool.not_true] at s2
          omega

/-- Defect: after `append_bits(w, 0)` on a vector whose length is a multiple of 64 (see
`C02_append_bits_zero_defect`) the content is unchanged, but the rank structure counts the zeros of `w` on top: `rank0`
is too large from the end of the vector on. If the zeros of `w` outnumber the ones of the vector, a debug build panics
on construction already (`C12_append_zero_defect`). -/
theorem C13_append_zero_defect {v : BV} (h : v.WF) (w : Word) (ha : v.len % 64 = 0)
    (hr : Profile.debug = false ∨ (List.range 64).countP (fun i => !w.getLsbD i) ≤ v.bits.count true) :
    ∃ v1 rs, v.appendBits w 0 = .ok v1 ∧ v1.bits = v.bits ∧ RsVec.fromBitVec v1 = .ok rs ∧ ∀ i, v.len ≤ i →
      rs.rank true i = .ok (v.bits.count false + (List.range 64).countP (fun i => !w.getLsbD i)) := by
  obtain ⟨v1, h1, h2, -, h3⟩ := append_zero_rs h w ha
  obtain ⟨rs, r1, r2, -⟩ := h3 hr
  exact ⟨v1, rs, h1, h2, r1, r2⟩

example : ∃ v : BV, v.WF ∧ v.len % 64 = 0 ∧ 0 < (List.range 64).countP (fun i => !(3#64).getLsbD i) ∧
    (List.range 64).countP (fun i => !(3#64).getLsbD i) ≤ v.bits.count true :=
  ⟨BV.fromOnes 64, by decide, by decide, by decide, by decide⟩

/-- Defect: in debug builds the construction panics on a vector whose content was not touched by `append_bits(w, 0)`, if
`w` has more zeros than the vector has ones. -/
theorem C12_append_zero_defect (hd : Profile.debug = true) {v : BV} (h : v.WF) (w : Word) (ha : v.len % 64 = 0)
    (hw : v.bits.count true < (List.range 64).countP (fun i => !w.getLsbD i)) :
    ∃ v1, v.appendBits w 0 = .ok v1 ∧ v1.bits = v.bits ∧ RsVec.fromBitVec v1 = .error .overflow := by
  obtain ⟨v1, h1, h2, h3, -⟩ := append_zero_rs h w ha
  exact ⟨v1, h1, h2, h3 hd hw⟩

example : ∃ v : BV, v.WF ∧ v.len % 64 = 0 ∧ v.bits.count true < (List.range 64).countP (fun i => !(3#64).getLsbD i) :=
  ⟨BV.fromZeros 64, by decide, by decide, by decide⟩

/-! ## C14 select -/

/-- `select` with exactly the specified result, for both kinds of bits. -/
theorem C14_select_partial {v : BV} (h : v.WF) :
    ∃ rs, RsVec.fromBitVec v = .ok rs ∧ ∀ zero k,
      (k < v.bits.count (!zero) → ∃ p, rs.select zero k = .ok p ∧ IsSelect (!zero) v.bits k p) ∧
      (v.bits.count (!zero) ≤ k → rs.select zero k = .ok v.len) := by
  obtain ⟨rs, h1, h2, h3, h4⟩ := fromBitVec_inv h
  have e := bits_of_from h3 h4
  have hc : ∀ zero, v.bits.count (!zero) = C rs.data (!zero) rs.len := by
    intro zero; rw [BV.count_bits_eq_cnt, h3, h4]; rfl
  refine ⟨rs, h1, fun zero k => ⟨fun hk => ?_, fun hk => ?_⟩⟩
  · obtain ⟨p, p1, p2, p3⟩ := RsVec.select_eq h2 zero (by rw [← hc]; exact hk)
    exact ⟨p, p1, by rw [← e]; exact SelIter.isSelect_of_isPos p2 p3⟩
  · rw [RsVec.select_ge h2 zero (by rw [← hc]; exact hk), h4]

/-- Defect: after `append_bits(w, 0)` on a vector whose length is a multiple of 64, `select0` answers ranks beyond the
zeros of the vector with the zeros of `w`, at positions behind the end, instead of returning the length. -/
theorem C14_append_zero_defect {v : BV} (h : v.WF) (w : Word) (ha : v.len % 64 = 0)
    (hr : Profile.debug = false ∨ (List.range 64).countP (fun i => !w.getLsbD i) ≤ v.bits.count true) :
    ∃ v1 rs, v.appendBits w 0 = .ok v1 ∧ v1.bits = v.bits ∧ RsVec.fromBitVec v1 = .ok rs ∧
      ∀ k, k < (List.range 64).countP (fun i => !w.getLsbD i) →
        ∃ q, rs.select true (v.bits.count false + k) = .ok (v.len + q) ∧
          IsSelect false ((List.range 64).map w.getLsbD) k q := by
  obtain ⟨v1, h1, h2, -, h3⟩ := append_zero_rs h w ha
  obtain ⟨rs, r1, -, r2⟩ := h3 hr
  exact ⟨v1, rs, h1, h2, r1, r2⟩

example : ∃ v : BV, v.WF ∧ v.len % 64 = 0 ∧ 0 < (List.range 64).countP (fun i => !(3#64).getLsbD i) ∧
    (List.range 64).countP (fun i => !(3#64).getLsbD i) ≤ v.bits.count true :=
  ⟨BV.fromOnes 64, by decide, by decide, by decide, by decide⟩

omit [Profile] in
/-- The specified position is unique, so `C14_select_partial` determines the result. -/
theorem C14_select_unique {b : Bool} {l : List Bool} {k p q : Nat} (hp : IsSelect b l k p)
    (hq : IsSelect b l k q) : p = q := by
  have h1 := positions_getElem? hp
  rw [positions_getElem? hq] at h1
  exact (Option.some.inj h1).symm

/-! ## C15 rank and select are inverse -/

theorem C15_inverse {v : BV} (h : v.WF) :
    ∃ rs, RsVec.fromBitVec v = .ok rs ∧
      (∀ zero p, v.bits[p]? = some (!zero) → (do let k ← rs.rank zero p; rs.select zero k) = .ok p) ∧
      (∀ zero k, k < v.bits.count (!zero) → (do let p ← rs.select zero k; rs.rank zero p) = .ok k) ∧
      (∀ i, ∃ a b, rs.rank true i = .ok a ∧ rs.rank false i = .ok b ∧ a + b = min i v.len) := by
  obtain ⟨rs, h1, h2, h3, h4⟩ := fromBitVec_inv h
  have e := bits_of_from h3 h4
  have hc : ∀ zero, v.bits.count (!zero) = C rs.data (!zero) rs.len := by
    intro zero; rw [BV.count_bits_eq_cnt, h3, h4]; rfl
  refine ⟨rs, h1, ?_, ?_, ?_⟩
  · intro zero p hp
    rw [BV.bits_getElem?] at hp
    by_cases hl : p < v.len
    · rw [if_pos hl] at hp
      have hp : lbit v.data p = !zero := Option.some.inj hp
      rw [RsVec.rank_eq h2, ok_bind, Nat.min_eq_left (by omega)]
      have hpos : RsVec.IsPos rs.data (!zero) (C rs.data (!zero) p) p := ⟨by rw [h3]; exact hp, rfl⟩
      have hlt : C rs.data (!zero) p < C rs.data (!zero) rs.len :=
        cnt_lt_of_true (by omega) (by simp [hpos.1])
      obtain ⟨q, q1, q2, -⟩ := RsVec.select_eq h2 zero hlt
      rw [q1, RsVec.isPos_unique q2 hpos]
    · rw [if_neg hl] at hp; cases hp
  · intro zero k hk
    obtain ⟨p, p1, p2, p3⟩ := RsVec.select_eq h2 zero (by rw [← hc]; exact hk)
    rw [p1, ok_bind, RsVec.rank_eq h2, Nat.min_eq_left (by omega), p2.2]
  · intro i
    refine ⟨_, _, RsVec.rank_eq h2 true i, RsVec.rank_eq h2 false i, ?_⟩
    have := C_compl rs.data (min i rs.len)
    simp only [Bool.not_true, Bool.not_false]
    omega

example := C15_inverse (v := (BV.fromOnes 70).dropLast 3) (by decide)

/-! ## C16 get_bits -/

/-- Partial: the width 0 is excluded, and the end of the request must be a `usize`, see
`C16_get_bits_overflow_defect`. -/
theorem C16_get_bits_partial {v : BV} (h : v.WF) :
    ∃ rs, RsVec.fromBitVec v = .ok rs ∧ ∀ pos n, 1 ≤ n →
      (n ≤ 64 ∧ pos + n ≤ v.len ∧ pos + n < 2 ^ 64 →
        ∃ w, rs.getBits pos n = .ok (some w) ∧ w.toNat = bitsToNat ((v.bits.drop pos).take n)) ∧
      (64 < n ∨ v.len < pos + n ∧ pos + n < 2 ^ 64 → rs.getBits pos n = .ok none) := by
  obtain ⟨rs, h1, h2, h3, h4⟩ := fromBitVec_inv h
  refine ⟨rs, h1, fun pos n hn => ⟨fun ⟨hn2, hp, hov⟩ => ?_, fun hor => ?_⟩⟩
  · obtain ⟨w, w1, w2⟩ := BV.getBits_ok h hn hn2 hp hov
    refine ⟨w, ?_, w2⟩
    unfold BV.getBits BV.getBitsUnchecked at w1
    rw [if_neg (by omega), addU_of_lt hov, ok_bind, if_neg (by omega)] at w1
    unfold RsVec.getBits RsVec.getBitsUnchecked
    rw [if_neg (by omega), addU_of_lt hov, ok_bind, if_neg (by omega), h3]
    exact w1
  · unfold RsVec.getBits
    by_cases h64 : n > 64
    · rw [if_pos h64]; rfl
    · rw [if_neg h64, addU_of_lt (by omega), ok_bind, if_pos (by omega)]; rfl

example := C16_get_bits_partial (v := (BV.fromOnes 70).dropLast 3) (by decide)

/-- Defect: as for the plain vector, a request whose end exceeds `usize::MAX` panics instead of returning
`None`, on every vector. -/
theorem C16_get_bits_overflow_defect (hd : Profile.debug = true) (rs : RsVec) (pos n : Nat) (hn : n ≤ 64) (h : 2 ^ 64 ≤ pos + n) :
    rs.getBits pos n = .error .overflow := by
  unfold RsVec.getBits
  rw [if_neg (by omega), addU_overflow hd h]; rfl

example : 1 ≤ 64 ∧ 2 ^ 64 ≤ (2 ^ 64 - 1) + 1 := by decide

/-- Width 0 returns `Some(0)`, unless the position is the end of a vector whose length is a multiple of
64. -/
theorem C16_get_bits_zero_inside {v : BV} (h : v.WF) :
    ∃ rs, RsVec.fromBitVec v = .ok rs ∧ ∀ pos, pos < 2 ^ 64 → pos ≤ v.len → (pos = v.len → v.len % 64 ≠ 0) →
      rs.getBits pos 0 = .ok (some 0#64) := by
  obtain ⟨rs, h1, h2, h3, h4⟩ := fromBitVec_inv h
  refine ⟨rs, h1, fun pos hov hp hp2 => ?_⟩
  have hd : pos < 64 * v.data.length := by
    unfold BV.WF at h
    by_cases hl : pos = v.len
    · have := hp2 hl; omega
    · omega
  obtain ⟨w, w1, w2⟩ := BV.getBitsRaw_toNat (d := v.data) (pos := pos) (n := 0) (by omega) (by omega) hd
  unfold RsVec.getBits RsVec.getBitsUnchecked
  rw [if_neg (by omega), addU_of_lt (by omega), ok_bind, if_neg (by omega), h3, w1]
  have : w = 0#64 := by apply BitVec.eq_of_toNat_eq; simpa [bitsToNat] using w2
  rw [this]; rfl

/-- Defect: width 0 at the end of a vector whose length is a multiple of 64 passes the bounds check and
panics, on every such vector. -/
theorem C16_get_bits_zero_defect {v : BV} (h : v.WF) (ha : v.len % 64 = 0) (hl : v.len < 2 ^ 64) :
    ∃ rs, RsVec.fromBitVec v = .ok rs ∧ rs.getBits v.len 0 = .error .oob := by
  obtain ⟨rs, h1, -, h3, h4⟩ := fromBitVec_inv h
  refine ⟨rs, h1, ?_⟩
  unfold BV.WF at h
  unfold RsVec.getBits RsVec.getBitsUnchecked BV.getBitsRaw
  rw [if_neg (by omega), addU_of_lt (by omega), ok_bind, if_neg (by omega), dassertR_true (by omega), ok_bind, h3]
  unfold idx
  rw [List.getElem?_eq_none (by omega)]; rfl

example : (BV.fromOnes 64).WF ∧ (BV.fromOnes 64).len % 64 = 0 ∧ (BV.fromOnes 64).len < 2 ^ 64 := by decide

/-! ## C17 equality -/

theorem C17_equality {v w : BV} (h : v.WF) (h' : w.WF) :
    ∃ a b, RsVec.fromBitVec v = .ok a ∧ RsVec.fromBitVec w = .ok b ∧
      a.fullEquals b = .ok (decide (v.bits = w.bits)) ∧
      RsVec.sparseEquals true a b = .ok (decide (v.bits = w.bits)) ∧
      RsVec.sparseEquals false a b = .ok (decide (v.bits = w.bits)) ∧
      a.eq b = .ok (decide (v.bits = w.bits)) := by
  obtain ⟨a, h1, h2, h3, h4⟩ := fromBitVec_inv h
  obtain ⟨b, g1, g2, g3, g4⟩ := fromBitVec_inv h'
  refine ⟨a, b, h1, g1, ?_⟩
  rw [RsVec.fullEquals_eq h2 g2, RsVec.sparseEquals_eq h2 g2, RsVec.sparseEquals_eq h2 g2,
    RsVec.eq_eq h2 g2, bits_of_from h3 h4, bits_of_from g3 g4]
  exact ⟨rfl, rfl, rfl, rfl⟩

/-- two different representations of the same bits, to which the theorem applies -/
example : ((BV.fromOnes 70).dropLast 3).WF ∧ (BV.fromOnes 67).WF ∧
    ((BV.fromOnes 70).dropLast 3) ≠ BV.fromOnes 67 ∧
    ((BV.fromOnes 70).dropLast 3).bits = (BV.fromOnes 67).bits := by decide

/-! ## C18 select iterators: next, next_back, len under all interleavings -/

/-- The calls covered by C18. -/
def Plain : IterOp → Prop
  | .next | .nextBack | .len => True
  | _ => False

/-- For every vector, both kinds of bits and every sequence of `next`, `next_back` and `len` calls, the
iterator returns what a list of the positions consumed from both ends returns. -/
theorem C18_interleavings {v : BV} (h : v.WF) (zero : Bool) :
    ∃ rs it, RsVec.fromBitVec v = .ok rs ∧ SelIter.new rs zero = .ok it ∧
      ∀ ops : List IterOp, (∀ op ∈ ops, Plain op) →
        execute (SelIter.step rs zero) it ops = .ok (iterRun (positions (!zero) v.bits) ops) := by
  obtain ⟨rs, h1, h2, h3, h4⟩ := fromBitVec_inv h
  obtain ⟨it, i1, i2, -⟩ := SelIter.new_rel (zero := zero) h2
  rw [bits_of_from h3 h4] at i2
  refine ⟨rs, it, h1, i1, fun ops hops => ?_⟩
  refine execute_of_sim (rel := SelIter.Rel rs zero) (ok := fun _ op => Plain op) ?_ ops it _ i2
    (callsOk_of_forall (p := Plain) (fun _ _ h => h) ops _ hops)
  intro s l op hr hop
  cases op with
  | next =>
    obtain ⟨it', g1, g2⟩ := SelIter.next_rel h2 hr
    exact ⟨it', by simp only [SelIter.step]; rw [g1]; rfl, g2⟩
  | nextBack =>
    obtain ⟨it', g1, g2⟩ := SelIter.nextBack_rel h2 hr
    exact ⟨it', by simp only [SelIter.step]; rw [g1]; rfl, g2⟩
  | len => exact ⟨s, by simp only [SelIter.step, SelIter.len_rel hr]; rfl, hr⟩
  | nth n => exact hop.elim
  | nthBack n => exact hop.elim

omit [Profile] in
/-- What the position list of the specification is. -/
theorem C18_positions_spec (b : Bool) (l : List Bool) (k p : Nat) :
    (positions b l)[k]? = some p ↔ IsSelect b l k p := by
  constructor
  · intro h
    have hk : k < l.count b := by
      rw [← length_positions]; exact (List.getElem?_eq_some_iff.mp h).1
    have hc := count_take_eq_cnt l b (fun i => l[i]?.getD false)
      (fun i hi => by rw [List.getElem?_eq_getElem hi]; rfl)
    have hfull := hc l.length (Nat.le_refl _)
    rw [List.take_length] at hfull
    rw [hfull] at hk
    obtain ⟨q, q1, q2, q3⟩ := exists_of_lt_cnt hk
    have hs : IsSelect b l k q := by
      refine ⟨?_, by rw [hc q (by omega)]; exact q3⟩
      rw [List.getElem?_eq_getElem q1] at q2 ⊢
      simpa using q2
    have := positions_getElem? hs
    rw [h] at this
    cases this
    exact hs
  · exact positions_getElem?

example : positions true [true, false, true, true] = [0, 2, 3] ∧
    iterRun [0, 2, 3] [.nextBack, .next, .len, .next, .next, .nextBack] =
      [.item (some 3), .item (some 0), .num 1, .item (some 2), .item none, .item none] := by decide

/-! ## C19 nth, nth_back, last -/

/-- A call of `nth_back(n)` is only made if more than `n` elements of `all` remain, or none, or if the first
one has been taken. -/
def NthBackOk (all l : List Nat) : IterOp → Prop
  | .nthBack n => n < l.length ∨ l = [] ∨ l.head? ≠ all.head?
  | _ => True

omit [Profile] in
theorem SelIter.nthBack_cond {rs : RsVec} {zero : Bool} {s : SelIter} {l : List Nat} {n : Nat}
    (hr : SelIter.Rel rs zero s l) (hop : NthBackOk (positions (!zero) rs.intoBitVec.bits) l (.nthBack n)) :
    n < l.length ∨ s.nextRankBack = none ∨ 0 < s.nextRank := by
  by_cases hnil : l = []
  · right
    cases hb : s.nextRankBack with
    | none => exact Or.inl rfl
    | some x =>
      right
      have h1 := SelIter.len_rel hr
      have h2 := SelIter.len_eq s
      have h3 : s.upTo = x + 1 := by simp [SelIter.upTo, hb]
      rw [hnil, List.length_nil] at h1
      omega
  rcases hop with hop | hop | hop
  · exact Or.inl hop
  · exact absurd hop hnil
  · right; right
    apply Nat.pos_of_ne_zero
    intro h0
    apply hop
    have hl := hr.2
    rw [h0, List.drop_zero] at hl
    cases hu : s.upTo with
    | zero =>
      rw [hu, List.take_zero] at hl
      exact absurd hl hnil
    | succ u =>
      rw [hl, hu, List.head?_eq_getElem?, List.head?_eq_getElem?, List.getElem?_take, if_pos (by omega)]

theorem SelIter.step_ok {rs : RsVec} (h : rs.Inv) {zero : Bool} (s : SelIter) (l : List Nat) (op : IterOp)
    (hr : SelIter.Rel rs zero s l) (hop : NthBackOk (positions (!zero) rs.intoBitVec.bits) l op) :
    ∃ s', SelIter.step rs zero s op = .ok (s', (iterStep l op).1) ∧ SelIter.Rel rs zero s' (iterStep l op).2 := by
  cases op with
  | next =>
    obtain ⟨it', g1, g2⟩ := SelIter.next_rel h hr
    exact ⟨it', by simp only [SelIter.step]; rw [g1]; rfl, g2⟩
  | nextBack =>
    obtain ⟨it', g1, g2⟩ := SelIter.nextBack_rel h hr
    exact ⟨it', by simp only [SelIter.step]; rw [g1]; rfl, g2⟩
  | len => exact ⟨s, by simp only [SelIter.step, SelIter.len_rel hr]; rfl, hr⟩
  | nth n =>
    obtain ⟨it', g1, g2⟩ := SelIter.nth_rel h hr n
    exact ⟨it', by simp only [SelIter.step]; rw [g1]; rfl, g2⟩
  | nthBack n =>
    obtain ⟨it', g1, g2⟩ := SelIter.nthBack_rel h hr n (SelIter.nthBack_cond hr hop)
    exact ⟨it', by simp only [SelIter.step]; rw [g1]; rfl, g2⟩

/-- Partial: `nth_back(n)` is restricted to calls with more than `n` elements remaining, unless the first
element has been taken from the front or nothing remains; otherwise the code panics, see
`C19_nth_back_defect`. Sequences of all calls; `nth n` (`nth_back n`) removes `n+1`
elements and returns the last one removed (`Spec.nth_eq_next`, `Spec.nthBack_eq_nextBack`). -/
theorem C19_calls_partial {v : BV} (h : v.WF) (zero : Bool) :
    ∃ rs it, RsVec.fromBitVec v = .ok rs ∧ SelIter.new rs zero = .ok it ∧
      ∀ ops : List IterOp, CallsOk (NthBackOk (positions (!zero) v.bits)) (positions (!zero) v.bits) ops →
        execute (SelIter.step rs zero) it ops = .ok (iterRun (positions (!zero) v.bits) ops) := by
  obtain ⟨rs, h1, h2, h3, h4⟩ := fromBitVec_inv h
  obtain ⟨it, i1, i2, -⟩ := SelIter.new_rel (zero := zero) h2
  have hs := SelIter.step_ok h2 (zero := zero)
  rw [bits_of_from h3 h4] at i2 hs
  exact ⟨rs, it, h1, i1, fun ops hops => execute_of_sim (rel := SelIter.Rel rs zero) hs ops it _ i2 hops⟩

/-- `last` of a fresh iterator, and `last` after any number of `next` calls by `nth`. -/
theorem C19_last {v : BV} (h : v.WF) (zero : Bool) :
    ∃ rs it, RsVec.fromBitVec v = .ok rs ∧ SelIter.new rs zero = .ok it ∧
      it.last rs zero = .ok (positions (!zero) v.bits).getLast? ∧
      ∀ n, ∃ it', it.nth rs zero n = .ok (it', (positions (!zero) v.bits)[n]?) ∧
        it'.last rs zero = .ok ((positions (!zero) v.bits).drop (n + 1)).getLast? := by
  obtain ⟨rs, h1, h2, h3, h4⟩ := fromBitVec_inv h
  obtain ⟨it, i1, i2, -⟩ := SelIter.new_rel (zero := zero) h2
  rw [bits_of_from h3 h4] at i2
  refine ⟨rs, it, h1, i1, SelIter.last_rel h2 i2, fun n => ?_⟩
  obtain ⟨it', g1, g2⟩ := SelIter.nth_rel h2 i2 n
  exact ⟨it', g1, SelIter.last_rel h2 g2⟩

example := C19_last (v := (BV.fromOnes 70).dropLast 3) (by decide) true

/-- Defect: in all the cases that `C19_calls_partial` leaves out, `nth_back(n)` panics (a subtraction
underflows) instead of returning `None`: on every vector and after every sequence of calls, if elements
remain, the first one among them, but not more than `n`. -/
theorem C19_nth_back_defect (hd : Profile.debug = true) {v : BV} (h : v.WF) (zero : Bool) :
    ∃ rs it, RsVec.fromBitVec v = .ok rs ∧ SelIter.new rs zero = .ok it ∧
      ∀ ops : List IterOp, CallsOk (NthBackOk (positions (!zero) v.bits)) (positions (!zero) v.bits) ops →
        ∀ n, ¬NthBackOk (positions (!zero) v.bits) (iterRest (positions (!zero) v.bits) ops) (.nthBack n) →
          ∃ it', reach (SelIter.step rs zero) it ops = .ok it' ∧ it'.nthBack rs zero n = .error .overflow := by
  obtain ⟨rs, h1, h2, h3, h4⟩ := fromBitVec_inv h
  obtain ⟨it, i1, i2, -⟩ := SelIter.new_rel (zero := zero) h2
  have hs := SelIter.step_ok h2 (zero := zero)
  have hb := bits_of_from h3 h4
  rw [hb] at i2 hs
  refine ⟨rs, it, h1, i1, fun ops hops n hn => ?_⟩
  obtain ⟨it', g1, g2⟩ := reach_of_sim (rel := SelIter.Rel rs zero) hs ops it _ i2 hops
  refine ⟨it', g1, ?_⟩
  generalize iterRest (positions (!zero) v.bits) ops = l at hn g2
  simp only [NthBackOk, not_or, Nat.not_lt, ne_eq, Classical.not_not] at hn
  obtain ⟨n1, n2, n3⟩ := hn
  refine SelIter.nthBack_panic hd g2 ?_ n2 n1
  have hl := g2.2
  rw [hb] at hl
  apply Classical.byContradiction
  intro h0
  have hsorted := (positionsFrom_sorted (!zero) v.bits 0).1
  cases l with
  | nil => exact n2 rfl
  | cons x l =>
    have hx : (positions (!zero) v.bits)[it'.nextRank]? = some x := by
      have := congrArg (·[0]?) hl
      simp only [List.getElem?_cons_zero, List.getElem?_drop, Nat.add_zero, List.getElem?_take] at this
      split at this
      · exact this.symm
      · cases this
    rw [List.head?_cons, List.head?_eq_getElem?] at n3
    obtain ⟨b1, b2⟩ := List.getElem?_eq_some_iff.mp hx
    obtain ⟨a1, a2⟩ := List.getElem?_eq_some_iff.mp n3.symm
    have := List.pairwise_iff_getElem.mp hsorted 0 it'.nextRank a1 b1 (by omega)
    unfold positions at a2 b2
    omega

/-- a fresh iterator, one after a call of `next`, and one from whose end an element was taken -/
example : CallsOk (NthBackOk [0, 2, 3, 5]) [0, 2, 3, 5] [.nthBack 1, .nth 0, .nthBack 9, .nth 7] ∧
    ¬NthBackOk [0, 2, 3, 5] (iterRest [0, 2, 3, 5] [.nextBack, .len]) (.nthBack 3) := by
  simp [CallsOk, iterStep, iterRest, NthBackOk]

/-! ## C53 SIMD -/

theorem C53_simd_select {v : BV} (h : v.WF) :
    ∃ rs, RsVec.fromBitVec v = .ok rs ∧ ∀ zero k, rs.selectSimd zero k = rs.select zero k := by
  obtain ⟨rs, h1, h2, -, -⟩ := fromBitVec_inv h
  exact ⟨rs, h1, fun zero k => RsVec.selectSimd_eq h2 zero k⟩

/-- The select iterators of a SIMD build answer every sequence of calls exactly like the scalar ones, including
the calls that panic. -/
theorem C53_simd_iterators {v : BV} (h : v.WF) (zero : Bool) :
    ∃ rs it, RsVec.fromBitVec v = .ok rs ∧ SelIter.new rs zero = .ok it ∧
      (∀ ops, Profile.debug = true ∨ CallsOk (NthBackOk (positions (!zero) v.bits)) (positions (!zero) v.bits) ops →
        execute (SelIter.stepSimd rs zero) it ops = execute (SelIter.step rs zero) it ops) ∧
      it.last rs zero true = it.last rs zero := by
  obtain ⟨rs, h1, h2, h3, h4⟩ := fromBitVec_inv h
  obtain ⟨it, i1, i2, -⟩ := SelIter.new_rel (zero := zero) h2
  refine ⟨rs, it, h1, i1, fun ops hops => ?_, SelIter.last_simd h2 i2.1⟩
  rcases hops with hd | hops
  · exact SelIter.execute_simd hd h2 ops it i2.1
  · have hs := SelIter.step_ok h2 (zero := zero)
    have hs' : ∀ s l op, SelIter.Rel rs zero s l → NthBackOk (positions (!zero) rs.intoBitVec.bits) l op →
        ∃ s', SelIter.stepSimd rs zero s op = .ok (s', (iterStep l op).1) ∧
          SelIter.Rel rs zero s' (iterStep l op).2 := fun s l op hr hop => by
      rw [(SelIter.step_simd h2 hr.1 op (fun n hn => by
        subst hn
        rw [SelIter.len_rel hr]
        exact Or.inr (SelIter.nthBack_cond hr hop))).1]
      exact hs s l op hr hop
    rw [bits_of_from h3 h4] at i2 hs hs'
    rw [execute_of_sim (rel := SelIter.Rel rs zero) hs ops it _ i2 hops,
      execute_of_sim (rel := SelIter.Rel rs zero) hs' ops it _ i2 hops]

example := C53_simd_iterators (v := (BV.fromOnes 70).dropLast 3) (by decide) true

/-- So do the equality tests, which compare long vectors through the select iterators. -/
theorem C53_simd_equality {v w : BV} (h : v.WF) (g : w.WF) :
    ∃ a b, RsVec.fromBitVec v = .ok a ∧ RsVec.fromBitVec w = .ok b ∧ a.eq b true = .ok (decide (v.bits = w.bits)) ∧
      ∀ zero, RsVec.sparseEquals zero a b true = .ok (decide (v.bits = w.bits)) := by
  obtain ⟨a, h1, h2, h3, h4⟩ := fromBitVec_inv h
  obtain ⟨b, g1, g2, g3, g4⟩ := fromBitVec_inv g
  refine ⟨a, b, h1, g1, ?_, fun zero => ?_⟩
  · rw [RsVec.eq_simd h2, RsVec.eq_eq h2 g2, bits_of_from h3 h4, bits_of_from g3 g4]
  · rw [RsVec.sparseEquals_simd h2, RsVec.sparseEquals_eq h2 g2, bits_of_from h3 h4, bits_of_from g3 g4]

example := C53_simd_equality (v := (BV.fromOnes 70).dropLast 3) (w := BV.fromOnes 67) (by decide) (by decide)

end Vers
