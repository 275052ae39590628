import Verif.Props.QueryLaws
import Verif.Props.Rmq

/-! # C91: answers are monotone in the query

The laws that a search over positions, ranks or values with these functions relies on. -/

namespace Vers

open Spec

variable [Profile]

section

omit [Profile]

theorem rank_mono_step (b : Bool) (l : List Bool) {i j : Nat} (h : i ≤ j) :
    rank b l i ≤ rank b l j ∧ rank b l j ≤ rank b l i + (j - i) := by
  unfold rank
  have e : l.take j = l.take i ++ (l.take j).drop i := by
    conv => lhs; rw [← List.take_append_drop i (l.take j)]
    rw [List.take_take, Nat.min_eq_left h]
  have := List.count_le_length (a := b) (l := (l.take j).drop i)
  rw [e, List.count_append]
  rw [List.length_drop, List.length_take] at this
  omega

theorem select_lt_iff {b : Bool} {l : List Bool} {k s p : Nat} (h : IsSelect b l k s) : s < p ↔ k < rank b l p := by
  obtain ⟨h1, h2⟩ := h
  obtain ⟨h3, h4⟩ := List.getElem?_eq_some_iff.mp h1
  constructor
  · intro hp
    have := (rank_mono_step b l (show s + 1 ≤ p by omega)).1
    have e : rank b l (s + 1) = k + 1 := by
      unfold rank
      rw [List.take_succ_eq_append_getElem h3, List.count_append, h2, h4]
      simp
    omega
  · intro hk
    apply Nat.lt_of_not_le
    intro hp
    have := (rank_mono_step b l hp).1
    unfold rank at *
    omega

end

/-- C91: ranks do not decrease with the position and grow by at most one per position; the `k`-th one (zero) is before
position `p` iff the rank of `p` is greater than `k`; the positions of the ones (zeros) are strictly increasing, and at least as
far apart as their ranks. -/
theorem C91_rank_select {v : BV} (h : v.WF) :
    ∃ rs, RsVec.fromBitVec v = .ok rs ∧ ∀ zero,
      (∀ i j, i ≤ j → ∃ a b, rs.rank zero i = .ok a ∧ rs.rank zero j = .ok b ∧ a ≤ b ∧ b ≤ a + (j - i)) ∧
      (∀ k p, p ≤ v.len → ∃ r s, rs.rank zero p = .ok r ∧ rs.select zero k = .ok s ∧ (s < p ↔ k < r)) ∧
      ∀ k l, k ≤ l → ∃ p q, rs.select zero k = .ok p ∧ rs.select zero l = .ok q ∧ p ≤ q ∧ q ≤ v.len ∧
        (q < v.len → p + (l - k) ≤ q) := by
  obtain ⟨rs, h1, h2⟩ := C13_rank_partial h
  obtain ⟨rs', h1', h3⟩ := C14_select_partial h
  cases h1.symm.trans h1'
  have rk : ∀ zero i, rs.rank zero i = .ok (rank (!zero) v.bits i) := by
    intro zero i
    cases zero
    · exact (h2 i).2
    · exact (h2 i).1
  refine ⟨rs, h1, fun zero => ⟨fun i j hij => ⟨_, _, rk _ _, rk _ _, rank_mono_step _ _ hij⟩, fun k p hp => ?_,
    fun k l hkl => ?_⟩⟩
  · by_cases hk : k < v.bits.count (!zero)
    · obtain ⟨s, s1, s2⟩ := (h3 zero k).1 hk
      exact ⟨_, s, rk _ _, s1, select_lt_iff s2⟩
    · refine ⟨_, _, rk _ _, (h3 zero k).2 (by omega), ?_⟩
      have := List.Sublist.count_le (!zero) (List.take_sublist p v.bits)
      unfold rank
      omega
  · by_cases hl : l < v.bits.count (!zero)
    · obtain ⟨p, p1, p2⟩ := (h3 zero k).1 (by omega)
      obtain ⟨q, q1, q2⟩ := (h3 zero l).1 hl
      have hq : q < v.len := by rw [← BV.length_bits]; exact (List.getElem?_eq_some_iff.mp q2.1).1
      have hpq : p ≤ q := by
        apply Nat.le_of_not_lt
        intro hlt
        have := (select_lt_iff q2 (p := p)).mp hlt
        have := p2.2
        unfold rank at *
        omega
      refine ⟨p, q, p1, q1, hpq, by omega, fun _ => ?_⟩
      have h4 := (rank_mono_step (!zero) v.bits hpq).2
      have h5 := p2.2
      have h6 := q2.2
      unfold rank at h4
      omega
    · obtain ⟨p, p1, p2⟩ : ∃ p, rs.select zero k = .ok p ∧ p ≤ v.len := by
        by_cases hk : k < v.bits.count (!zero)
        · obtain ⟨p, p1, p2⟩ := (h3 zero k).1 hk
          exact ⟨p, p1, by rw [← BV.length_bits]; exact Nat.le_of_lt (List.getElem?_eq_some_iff.mp p2.1).1⟩
        · exact ⟨_, (h3 zero k).2 (by omega), Nat.le_refl _⟩
      exact ⟨p, _, p1, (h3 zero l).2 (by omega), p2, Nat.le_refl _, by omega⟩

example := C91_rank_select (v := (BV.fromOnes 70).dropLast 3) (by decide)

/-- C91: in an Elias-Fano vector, elements do not decrease with the index, ranks do not decrease with the value, and the element
at `i` is smaller than `x` iff the rank of `x` is greater than `i`; predecessors and successors do not decrease with the
value and enclose it. -/
theorem C91_elias_fano {fl : Nat → Nat} (hfl : LogLike fl) {data : List Word} (hs : Sorted data)
    (hl : data.length < 2 ^ 60) :
    ∃ ef, EF.fromSlice fl data = .ok ef ∧
      (∀ i j x y, i ≤ j → ef.get i = .ok (some x) → ef.get j = .ok (some y) → x ≤ y) ∧
      (∀ x y, x ≤ y → ∃ a b, ef.rank x = .ok a ∧ ef.rank y = .ok b ∧ a ≤ b) ∧
      (∀ i x y, ef.get i = .ok (some y) → ∃ r, ef.rank x = .ok r ∧ (y < x ↔ i < r.toNat)) ∧
      (∀ x y a b, x ≤ y → ef.predecessor x = .ok (some a) → ef.predecessor y = .ok (some b) → a ≤ b) ∧
      (∀ x y a b, x ≤ y → ef.successor x = .ok (some a) → ef.successor y = .ok (some b) → a ≤ b) ∧
      (∀ x y, x ≤ y → ef.predecessor y = .ok none → ef.predecessor x = .ok none) ∧
      (∀ x y, x ≤ y → ef.successor x = .ok none → ef.successor y = .ok none) ∧
      ∀ x a, (ef.predecessor x = .ok (some a) → a ≤ x) ∧ (ef.successor x = .ok (some a) → x ≤ a) := by
  obtain ⟨ef, h1, -, h2⟩ := C21_get hfl hs hl
  obtain ⟨ef', h1', h3⟩ := C22_predecessor hfl hs hl
  cases h1.symm.trans h1'
  obtain ⟨ef', h1', h4⟩ := C23_successor hfl hs hl
  cases h1.symm.trans h1'
  obtain ⟨ef', h1', h5⟩ := C24_rank hfl hs hl
  cases h1.symm.trans h1'
  have pr : ∀ {x o}, ef.predecessor x = .ok o → IsPredecessor data x o := by
    intro x o ho
    obtain ⟨o', o1, o2⟩ := h3 x
    rw [ho] at o1
    cases Except.ok.inj o1
    exact o2
  have su : ∀ {x o}, ef.successor x = .ok o → IsSuccessor data x o := by
    intro x o ho
    obtain ⟨o', o1, o2⟩ := h4 x
    rw [ho] at o1
    cases Except.ok.inj o1
    exact o2
  refine ⟨ef, h1, fun i j x y hij hx hy => ?_, fun x y hxy => ?_, fun i x y hy => ?_, fun x y a b hxy ha hb => ?_,
    fun x y a b hxy ha hb => ?_, fun x y hxy hy => ?_, fun x y hxy hx => ?_, fun x a => ⟨fun ha => (pr ha).2.1, fun ha => (su ha).2.1⟩⟩
  · rw [h2] at hx hy
    obtain ⟨hi, rfl⟩ := List.getElem?_eq_some_iff.mp (Except.ok.inj hx)
    obtain ⟨hj, rfl⟩ := List.getElem?_eq_some_iff.mp (Except.ok.inj hy)
    rcases Nat.lt_or_eq_of_le hij with h | h
    · exact List.pairwise_iff_getElem.mp hs _ _ hi hj h
    · subst h; simp [BitVec.le_def]
  · obtain ⟨a, a1, a2⟩ := h5 x
    obtain ⟨b, b1, b2⟩ := h5 y
    refine ⟨a, b, a1, b1, ?_⟩
    rw [BitVec.le_def, a2, b2]
    refine List.countP_mono_left fun z _ hz => ?_
    simp only [decide_eq_true_eq, BitVec.lt_def, BitVec.le_def] at *
    omega
  · rw [h2] at hy
    obtain ⟨hi, rfl⟩ := List.getElem?_eq_some_iff.mp (Except.ok.inj hy)
    obtain ⟨r, r1, r2⟩ := h5 x
    exact ⟨r, r1, by rw [r2]; exact lt_iff_countP hs i hi⟩
  · have p := pr ha
    refine (pr hb).2.2 a p.1 ?_
    have := p.2.1
    simp only [BitVec.le_def] at *
    omega
  · have p := su hb
    refine (su ha).2.2 b p.1 ?_
    have := p.2.1
    simp only [BitVec.le_def] at *
    omega
  · obtain ⟨o, o1, o2⟩ := h3 x
    cases o with
    | none => exact o1
    | some a =>
      have := pr hy a o2.1
      have := o2.2.1
      simp only [BitVec.le_def, BitVec.lt_def] at *
      omega
  · obtain ⟨o, o1, o2⟩ := h4 y
    cases o with
    | none => exact o1
    | some a =>
      have := su hx a o2.1
      have := o2.2.1
      simp only [BitVec.le_def, BitVec.lt_def] at *
      omega

example := C91_elias_fano logLike_ceilLog2 (data := efExample) (by simp [Sorted, efExample]) (by decide)

/-- C91: in a wavelet matrix (elements of at most 64 bits) the quantiles of a range do not decrease, and the median of a non-empty
range is between minimum and maximum. -/
theorem C91_wavelet {m : WM} {k : Nat} {vals : List Nat} (h : WM.Built m k vals) (hk : k ≤ 64) {s e : Nat} (hse : s < e)
    (he : e ≤ m.len) :
    (∀ i j, i ≤ j → j < e - s → ∃ x y, m.quantileU64 s e i = .ok (some x) ∧ m.quantileU64 s e j = .ok (some y) ∧ x ≤ y) ∧
    ∃ x y z, m.rangeMinU64 s e = .ok (some x) ∧ m.rangeMedianU64 s e = .ok (some y) ∧ m.rangeMaxU64 s e = .ok (some z) ∧
      x ≤ y ∧ y ≤ z := by
  have hlen := (C31_access h).1
  rw [hlen] at he
  obtain ⟨q1, q2⟩ := (C35_quantile_partial h (s := s) (e := e) (by omega)).2.2 hk
  obtain ⟨q3, q4⟩ := (C35_max_median h s e).2.2 hk
  have hb : (between vals s e).length = e - s := WM.between_length he
  have hn : (sorted (between vals s e)).length = e - s := by rw [WM.sorted_length, hb]
  have get : ∀ {r : R (Option Word)} {i : Nat}, i < e - s → ResU64 r (sorted (between vals s e))[i]? →
      ∃ x, r = .ok (some x) ∧ ∃ hi, x.toNat = (sorted (between vals s e))[i]'hi := by
    intro r i hi hr
    obtain ⟨o, o1, o2⟩ := hr
    rw [List.getElem?_eq_getElem (by omega)] at o2
    obtain ⟨x, rfl, hx⟩ := Option.map_eq_some_iff.mp o2
    exact ⟨x, o1, by omega, hx⟩
  have mono : ∀ {i j : Nat} (hi : i < (sorted (between vals s e)).length) (hj : j < (sorted (between vals s e)).length), i ≤ j →
      (sorted (between vals s e))[i] ≤ (sorted (between vals s e))[j] := by
    intro i j hi hj hij
    rcases Nat.lt_or_eq_of_le hij with h | h
    · exact List.pairwise_iff_getElem.mp (WM.sorted_pairwise _) _ _ hi hj h
    · subst h; exact Nat.le_refl _
  constructor
  · intro i j hij hj
    have qi := q1 i
    have qj := q1 j
    rw [if_pos (by omega)] at qi qj
    obtain ⟨x, x1, x2, x3⟩ := get (by omega) qi
    obtain ⟨y, y1, y2, y3⟩ := get hj qj
    exact ⟨x, y, x1, y1, by rw [BitVec.le_def, x3, y3]; exact mono _ _ hij⟩
  · rw [if_pos (by omega)] at q2 q3 q4
    rw [← WM.sorted_first] at q2
    rw [← WM.sorted_last, hb] at q3
    obtain ⟨x, x1, x2, x3⟩ := get (by omega) q2
    obtain ⟨z, z1, z2, z3⟩ := get (by omega) q3
    obtain ⟨y, y1, y2, y3⟩ := get (by omega) q4
    refine ⟨x, y, z, x1, y1, z1, ?_, ?_⟩
    · rw [BitVec.le_def, x3, y3]; exact mono _ _ (by omega)
    · rw [BitVec.le_def, y3, z3]; exact mono _ _ (by omega)

example : ∃ m, WM.fromSlice [5#64, 1#64, 7#64, 1#64, 4#64] 3 = .ok m ∧
    ∃ x y z, m.rangeMinU64 1 4 = .ok (some x) ∧ m.rangeMedianU64 1 4 = .ok (some y) ∧ m.rangeMaxU64 1 4 = .ok (some z) ∧
      x ≤ y ∧ y ≤ z := by
  obtain ⟨m, m1, m2⟩ := C31_from_slice (k := 3) (by omega) (by omega) [5#64, 1#64, 7#64, 1#64, 4#64]
  exact ⟨m, m1, (C91_wavelet m2 (by omega) (s := 1) (e := 4) (by omega) (by rw [(C31_access m2).1]; decide)).2⟩

/-- Specification: the laws of a function `q` that gives the position of a minimum between two positions. A range of one
element has its minimum there; a minimum of two adjacent ranges is a minimum of the union; the minimum of a part is not
smaller, and not greater if the part contains the position found. -/
structure RmqLaws (data : List Word) (q : Nat → Nat → R Nat) : Prop where
  one : ∀ i, i < data.length → q i i = .ok i
  union : ∀ i j k, i ≤ j → j < k → k < data.length → ∃ a b c x y z, q i j = .ok a ∧ q (j + 1) k = .ok b ∧ q i k = .ok c ∧
    data[a]? = some x ∧ data[b]? = some y ∧ data[c]? = some z ∧ z.toNat = min x.toNat y.toNat
  part : ∀ i i' j' j, i ≤ i' → i' ≤ j' → j' ≤ j → j < data.length → ∃ a b x y, q i j = .ok a ∧ q i' j' = .ok b ∧
    data[a]? = some x ∧ data[b]? = some y ∧ x ≤ y ∧ (i' ≤ a → a ≤ j' → x = y)

omit [Profile] in
theorem rmqLaws_of {data : List Word} {q : Nat → Nat → R Nat}
    (H : ∀ i j, i ≤ j → j < data.length → ∃ m, q i j = .ok m ∧ IsRangeMin data i j m) : RmqLaws data q where
  one i hi := by
    obtain ⟨m, m1, m2, m3, -⟩ := H i i (Nat.le_refl _) hi
    rw [m1, show m = i by omega]
  union i j k hij hjk hk := by
    obtain ⟨a, a1, a2, a3, x, x1, x2⟩ := H i j hij (by omega)
    obtain ⟨b, b1, b2, b3, y, y1, y2⟩ := H (j + 1) k (by omega) hk
    obtain ⟨c, c1, c2, c3, z, z1, z2⟩ := H i k (by omega) hk
    refine ⟨a, b, c, x, y, z, a1, b1, c1, x1, y1, z1, ?_⟩
    have h1 := z2 a x (by omega) (by omega) x1
    have h2 := z2 b y (by omega) (by omega) y1
    by_cases hc : c ≤ j
    · have := x2 c z c2 hc z1
      omega
    · have := y2 c z (by omega) c3 z1
      omega
  part i i' j' j h1 h2 h3 h4 := by
    obtain ⟨a, a1, a2, a3, x, x1, x2⟩ := H i j (by omega) h4
    obtain ⟨b, b1, b2, b3, y, y1, y2⟩ := H i' j' h2 (by omega)
    have hxy := x2 b y (by omega) (by omega) y1
    refine ⟨a, b, x, y, a1, b1, x1, y1, hxy, fun ha hb => ?_⟩
    exact BitVec.eq_of_toNat_eq (Nat.le_antisymm hxy (y2 a x ha hb x1))

/-- C91: range minimum queries, `BinaryRmq`. -/
theorem C91_binary_rmq {data : List Word} (hlen : data.length < 2 ^ 32) :
    ∃ s, BinRmq.fromVec data = .ok s ∧ RmqLaws data s.rangeMin := by
  obtain ⟨s, s1, -, s2⟩ := C28_range_min hlen
  exact ⟨s, s1, rmqLaws_of s2⟩

example := C91_binary_rmq (data := [4#64, 10#64, 3#64, 11#64]) (by decide)

/-- C91: range minimum queries, `FastRmq`. Partial: at most `2^39 - 128` elements (`C29_construction_defect`). -/
theorem C91_fast_rmq_partial {data : List Word} (hlen : data.length ≤ 2 ^ 39 - 128) :
    ∃ s, FastRmq.fromVec data = .ok s ∧ RmqLaws data s.rangeMin := by
  obtain ⟨s, s1, -, s2⟩ := C29_range_min_partial hlen
  exact ⟨s, s1, rmqLaws_of s2⟩

example := C91_fast_rmq_partial (data := rmqExample) (by simp [rmqExample])

end Vers
