import Verif.Proofs.RmqFast

set_option linter.unusedSimpArgs false

/-! # C28-C30: range minimum queries -/

namespace Vers

variable [Profile]

open Spec

/-- Construction succeeds on every vector with fewer than `2^32` elements and leaves the data as it is;
every query with `i <= j < len` returns the position of a minimum of `data[i..=j]`. -/
theorem C28_range_min {data : List Word} (hlen : data.length < 2 ^ 32) :
    ∃ s, BinRmq.fromVec data = .ok s ∧ s.data = data ∧
      ∀ i j, i ≤ j → j < data.length → ∃ m, s.rangeMin i j = .ok m ∧ IsRangeMin data i j m := by
  obtain ⟨s, s1, s2⟩ := BinRmq.fromVec_ok hlen
  refine ⟨s, s1, s2.data_eq, fun i j hij hj => ?_⟩
  obtain ⟨m, m1, m2⟩ := s2.rangeMin hij hj
  exact ⟨m, m1, m2.isRangeMin hj⟩

example := C28_range_min (data := [4#64, 10#64, 3#64, 11#64]) (by decide)

/-- The documented panic: inputs with `2^32` elements or more are rejected. -/
theorem C28_too_long {data : List Word} (hlen : 2 ^ 32 ≤ data.length) :
    BinRmq.fromVec data = .error .assertion := by
  unfold BinRmq.fromVec
  rw [assertR_false (by omega)]
  rfl

example : [4#64, 10#64, 3#64, 11#64, 2#64, 12#64].length < 2 ^ 32 := by decide

example : (do
    let s ← BinRmq.fromVec [4#64, 10#64, 3#64, 11#64, 2#64, 12#64]
    let a ← s.rangeMin 0 3
    let b ← s.rangeMin 1 5
    pure (a, b)) = .ok (2, 4) := by decide +revert +kernel

/-- Construction succeeds on every vector with at most `2^39 - 128` elements and leaves the data as it is;
every query with `i <= j < len` returns the position of a minimum of `data[i..=j]`.
Missing for the full property: longer inputs, see `C29_construction_defect`. -/
theorem C29_range_min_partial {data : List Word} (hlen : data.length ≤ 2 ^ 39 - 128) :
    ∃ s, FastRmq.fromVec data = .ok s ∧ s.data = data ∧
      ∀ i j, i ≤ j → j < data.length → ∃ m, s.rangeMin i j = .ok m ∧ IsRangeMin data i j m := by
  obtain ⟨s, s1, s2⟩ := FastRmq.fromVec_ok hlen
  refine ⟨s, s1, s2.data_eq, fun i j hij hj => ?_⟩
  obtain ⟨m, m1, m2⟩ := s2.rangeMin hij hj
  exact ⟨m, m1, m2.isRangeMin hj⟩

/-- The documentation promises construction for up to `2^40` elements, but the table over the block minima
rejects its input as soon as there are `2^32` blocks: construction panics for every longer vector. -/
theorem C29_construction_defect {data : List Word} (h : 2 ^ 39 - 128 < data.length) :
    FastRmq.fromVec data = .error .assertion := FastRmq.fromVec_too_long h

/-- A concrete vector with four blocks. -/
def rmqExample : List Word := (List.range 400).map fun i => BitVec.ofNat 64 ((i * i * 7 + 300 * i) % 1009)

example : rmqExample.length ≤ 2 ^ 39 - 128 := by simp [rmqExample]

example : (do
    let s ← FastRmq.fromVec rmqExample
    let a ← s.rangeMin 3 90
    let b ← s.rangeMin 3 399
    pure (a, b)) = .ok (15, 291) := by decide +revert +kernel

/-- The clamped bounds of a non-empty range. -/
theorem bounds_eq {n : Nat} (hn : 0 < n) {a b : Bnd} (h : ∃ t, t < 2 ^ 64 ∧ InRange a b t) :
    ∃ i j, startBound n a = .ok i ∧ endBound n b = .ok j ∧ i ≤ j ∧ j < n ∧
      ((∃ t, t < n ∧ InRange a b t) → ∀ t, t < n → (InRange a b t ↔ i ≤ t ∧ t ≤ j)) ∧
      ((∀ t, t < n → ¬ InRange a b t) → i = n - 1) := by
  obtain ⟨t, t1, t2, t3⟩ := h
  have hlo : ∃ s, startBound n a = .ok (min s (n - 1)) ∧
      ∀ t, FromStart a t ↔ s ≤ t := by
    unfold startBound
    rw [subR_of_le hn]
    cases a with
    | included i => exact ⟨i, rfl, fun t => Iff.rfl⟩
    | excluded i =>
      simp only [FromStart] at t2 ⊢
      rw [addU_of_lt (by omega)]
      exact ⟨i + 1, rfl, fun t => by omega⟩
    | unbounded => exact ⟨0, rfl, fun t => by simp [FromStart]⟩
  have hhi : ∃ e, endBound n b = .ok (min e (n - 1)) ∧
      (∀ t, t < n → (UpToEnd b t ↔ t ≤ e)) ∧
      (t ≤ e ∨ n - 1 ≤ e) := by
    unfold endBound
    cases b with
    | included i =>
      rw [subR_of_le hn]
      exact ⟨i, rfl, fun t _ => Iff.rfl, Or.inl t3⟩
    | excluded i =>
      simp only [UpToEnd] at t3 ⊢
      rw [subR_of_le (by omega), subR_of_le hn]
      exact ⟨i - 1, rfl, fun t _ => by omega, by omega⟩
    | unbounded =>
      rw [subR_of_le hn]
      exact ⟨n - 1, rfl, fun t ht => by simp [UpToEnd]; omega, by omega⟩
  obtain ⟨s, s1, s2⟩ := hlo
  obtain ⟨e, e1, e2, e3⟩ := hhi
  have hst := (s2 t).mp t2
  refine ⟨_, _, s1, e1, by omega, by omega, ?_, ?_⟩
  · rintro ⟨u, u1, u2, u3⟩ v hv
    have := (s2 u).mp u2
    unfold InRange
    rw [s2 v, e2 v hv]
    omega
  · intro h
    by_contra hc
    have h1 : s < n := by omega
    refine h s h1 ⟨(s2 s).mpr (Nat.le_refl _), (e2 s h1).mpr ?_⟩
    omega

/-- The result of a query with range operators: for a range that meets the data, the position of a
minimum of the elements in the range; for a range behind the data, the last position. -/
def RangeQueryOk (data : List Word) (a b : Bnd) (m : Nat) : Prop :=
  m < data.length ∧
  ((∃ t, t < data.length ∧ InRange a b t) → InRange a b m ∧
    ∀ t x y, InRange a b t → data[m]? = some x → data[t]? = some y → x.toNat ≤ y.toNat) ∧
  ((∀ t, t < data.length → ¬ InRange a b t) → m = data.length - 1)

omit [Profile] in
theorem rangeQueryOk_of {data : List Word} {a b : Bnd} {i j m : Nat} (hj : j < data.length)
    (h1 : (∃ t, t < data.length ∧ InRange a b t) →
      ∀ t, t < data.length → (InRange a b t ↔ i ≤ t ∧ t ≤ j))
    (h2 : (∀ t, t < data.length → ¬ InRange a b t) → i = data.length - 1)
    (h : MinOn (ev data) i j m) : RangeQueryOk data a b m := by
  have hm : m < data.length := by have := h.2.1; omega
  refine ⟨hm, fun hex => ⟨((h1 hex) m hm).mpr ⟨h.1, h.2.1⟩, ?_⟩, ?_⟩
  · intro t x y ht hx hy
    have htl : t < data.length := by
      by_contra hc
      rw [List.getElem?_eq_none (by omega)] at hy
      cases hy
    have hr := ((h1 hex) t htl).mp ht
    have := h.2.2 t hr.1 hr.2
    rw [ev_of_lt hm, ev_of_lt htl] at this
    rw [List.getElem?_eq_getElem hm] at hx
    rw [List.getElem?_eq_getElem htl] at hy
    injection hx with hx
    injection hy with hy
    rw [← hx, ← hy]
    exact this
  · intro hne
    have := h2 hne
    have := h.1
    have := h.2.1
    omega

/-- `BinaryRmq::range_min_with_range` on a non-empty structure, for every non-empty range of indices.
Missing for the full property: empty and reversed ranges, see `C30_binary_defect`. -/
theorem C30_binary_partial {data : List Word} (hlen : data.length < 2 ^ 32) (hn : data ≠ []) :
    ∃ s, BinRmq.fromVec data = .ok s ∧ ∀ a b, (∃ t, t < 2 ^ 64 ∧ InRange a b t) →
      ∃ m, s.rangeMinWithRange a b = .ok m ∧ RangeQueryOk data a b m := by
  obtain ⟨s, s1, s2⟩ := BinRmq.fromVec_ok hlen
  refine ⟨s, s1, fun a b h => ?_⟩
  obtain ⟨i, j, h1, h2, h3, h4, h5, h6⟩ := bounds_eq (List.length_pos_iff.mpr hn) h
  obtain ⟨m, m1, m2⟩ := s2.rangeMin h3 h4
  refine ⟨m, ?_, rangeQueryOk_of h4 h5 h6 m2⟩
  unfold BinRmq.rangeMinWithRange
  rw [s2.data_eq, h1, h2]
  exact m1

/-- `FastRmq::range_min_with_range` on a non-empty structure, for every non-empty range of indices.
Missing for the full property: empty and reversed ranges, see `C30_fast_defect`. -/
theorem C30_fast_partial {data : List Word} (hlen : data.length ≤ 2 ^ 39 - 128) (hn : data ≠ []) :
    ∃ s, FastRmq.fromVec data = .ok s ∧ ∀ a b, (∃ t, t < 2 ^ 64 ∧ InRange a b t) →
      ∃ m, s.rangeMinWithRange a b = .ok m ∧ RangeQueryOk data a b m := by
  obtain ⟨s, s1, s2⟩ := FastRmq.fromVec_ok hlen
  refine ⟨s, s1, fun a b h => ?_⟩
  obtain ⟨i, j, h1, h2, h3, h4, h5, h6⟩ := bounds_eq (List.length_pos_iff.mpr hn) h
  obtain ⟨m, m1, m2⟩ := s2.rangeMin h3 h4
  refine ⟨m, ?_, rangeQueryOk_of h4 h5 h6 m2⟩
  unfold FastRmq.rangeMinWithRange
  rw [s2.data_eq, h1, h2]
  exact m1

example : ∃ t, t < 2 ^ 64 ∧ InRange (.included 2) (.excluded 5) t := ⟨2, by decide, by simp [InRange, FromStart, UpToEnd]⟩
example : ∃ t, t < 2 ^ 64 ∧ InRange (.excluded 2) .unbounded t := ⟨3, by decide, by simp [InRange, FromStart, UpToEnd]⟩

/-- The value of a bound is a `usize`. -/
def BndFits : Bnd → Prop
  | .included i => i < 2 ^ 64
  | .excluded i => i < 2 ^ 64
  | .unbounded => True

/-- What the clamping makes of an empty or reversed range. -/
theorem bounds_empty (hd : Profile.debug = true) {n : Nat} (hn : 0 < n) {a b : Bnd} (ha : BndFits a) (hb : BndFits b)
    (h : ∀ t, t < 2 ^ 64 → ¬InRange a b t) :
    (a = .excluded 18446744073709551615 ∧ startBound n a = .error .overflow) ∨
    (a ≠ .excluded 18446744073709551615 ∧ ∃ i, startBound n a = .ok i ∧
      (b = .excluded 0 ∧ endBound n b = .error .overflow ∨
       ∃ j, endBound n b = .ok j ∧ i < n ∧ (UpToEnd b (n - 1) → i = n - 1 ∧ j = n - 1) ∧
        (¬UpToEnd b (n - 1) → j < i))) := by
  by_cases hmax : a = .excluded 18446744073709551615
  · left
    refine ⟨hmax, ?_⟩
    subst hmax
    unfold startBound
    dsimp only
    rw [addU_overflow hd (by omega)]; rfl
  right
  refine ⟨hmax, ?_⟩
  have hlo : ∃ s, s < 2 ^ 64 ∧ startBound n a = .ok (min s (n - 1)) ∧ ∀ t, FromStart a t ↔ s ≤ t := by
    unfold startBound
    rw [subR_of_le hn]
    cases a with
    | included i => exact ⟨i, ha, rfl, fun t => Iff.rfl⟩
    | excluded i =>
      simp only [FromStart, BndFits] at ha ⊢
      have : i ≠ 18446744073709551615 := fun h => hmax (by rw [h])
      rw [addU_of_lt (by omega)]
      exact ⟨i + 1, by omega, rfl, fun t => by omega⟩
    | unbounded => exact ⟨0, by omega, rfl, fun t => by simp [FromStart]⟩
  obtain ⟨s, s0, s1, s2⟩ := hlo
  refine ⟨_, s1, ?_⟩
  by_cases hz : b = .excluded 0
  · left
    subst hz
    refine ⟨rfl, ?_⟩
    unfold endBound
    dsimp only
    rw [subR_overflow hd (by omega)]; rfl
  right
  have hs : ¬UpToEnd b s := fun hc => h s s0 ⟨(s2 s).mpr (Nat.le_refl _), hc⟩
  unfold endBound
  rw [subR_of_le hn]
  cases b with
  | included e =>
    simp only [UpToEnd] at hs ⊢
    exact ⟨_, rfl, by omega, by omega, by omega⟩
  | excluded e =>
    simp only [UpToEnd] at hs ⊢
    have : e ≠ 0 := fun h => hz (by rw [h])
    rw [subR_of_le (by omega)]
    exact ⟨_, rfl, by omega, by omega, by omega⟩
  | unbounded => exact absurd trivial hs

/-- The documentation promises that only an empty structure panics. What happens on the empty and reversed
ranges, exactly: if the range lies behind the last element, the result is the last index; every other one
panics (a subtraction or addition overflows), on every structure. -/
theorem C30_binary_defect (hd : Profile.debug = true) {data : List Word} (hlen : data.length < 2 ^ 32) (hn : data ≠ []) :
    ∃ s, BinRmq.fromVec data = .ok s ∧ ∀ a b, BndFits a → BndFits b → (∀ t, t < 2 ^ 64 → ¬InRange a b t) →
      (UpToEnd b (data.length - 1) ∧ a ≠ .excluded 18446744073709551615 →
        s.rangeMinWithRange a b = .ok (data.length - 1)) ∧
      (¬(UpToEnd b (data.length - 1) ∧ a ≠ .excluded 18446744073709551615) →
        s.rangeMinWithRange a b = .error .overflow) := by
  have hl := List.length_pos_iff.mpr hn
  obtain ⟨s, s1, s2⟩ := BinRmq.fromVec_ok hlen
  refine ⟨s, s1, fun a b ha hb h => ?_⟩
  unfold BinRmq.rangeMinWithRange
  rw [s2.data_eq]
  rcases bounds_empty hd hl ha hb h with ⟨h1, h2⟩ | ⟨h1, i, h2, ⟨h3, h4⟩ | ⟨j, h4, h5, h6, h7⟩⟩
  · exact ⟨fun hc => absurd h1 hc.2, fun _ => by rw [h2]; rfl⟩
  · refine ⟨fun hc => ?_, fun _ => by rw [h2, ok_bind, h4]; rfl⟩
    rw [h3] at hc
    exact absurd hc.1 (Nat.not_lt_zero _)
  · rw [h2, ok_bind, h4, ok_bind]
    constructor
    · rintro ⟨hc, -⟩
      obtain ⟨rfl, rfl⟩ := h6 hc
      obtain ⟨m, m1, m2⟩ := s2.rangeMin (Nat.le_refl (data.length - 1)) (by omega)
      have := m2.1
      have := m2.2.1
      rw [m1]; congr 1; omega
    · intro hc
      have hji := h7 (fun hu => hc ⟨hu, h1⟩)
      unfold BinRmq.rangeMin
      simp only [subR_overflow hd hji]
      rfl

example : (∀ t, t < 2 ^ 64 → ¬InRange (.included 3) (.excluded 3) t) ∧ ¬UpToEnd (.excluded 3) (5 - 1) ∧
    (∀ t, t < 2 ^ 64 → ¬InRange (.included 9) (.included 8) t) ∧ UpToEnd (.included 8) (5 - 1) := by
  simp only [InRange, FromStart, UpToEnd]
  exact ⟨by omega, by omega, by omega, by omega⟩

/-- The same for `FastRmq`: ranges with end bound `Excluded(0)` or start bound `Excluded(usize::MAX)` panic,
those behind the last element give the last index, on every structure. Of the others, the empty range `2..2`
panics on a structure with 128 descending elements; for all those inside a block see `C30_fast_empty_defect`. -/
theorem C30_fast_defect (hd : Profile.debug = true) :
    (∀ data : List Word, data.length ≤ 2 ^ 39 - 128 → data ≠ [] →
      ∃ s, FastRmq.fromVec data = .ok s ∧ ∀ a b, BndFits a → BndFits b → (∀ t, t < 2 ^ 64 → ¬InRange a b t) →
        (UpToEnd b (data.length - 1) ∧ a ≠ .excluded 18446744073709551615 →
          s.rangeMinWithRange a b = .ok (data.length - 1)) ∧
        (b = .excluded 0 ∨ a = .excluded 18446744073709551615 → s.rangeMinWithRange a b = .error .overflow)) ∧
    (do
      let s ← FastRmq.fromVec ((List.range 128).map fun i => BitVec.ofNat 64 (200 - i))
      s.rangeMinWithRange (.included 2) (.excluded 2)) = .error .unwrap := by
  constructor
  · intro data hlen hn
    have hl := List.length_pos_iff.mpr hn
    obtain ⟨s, s1, s2⟩ := FastRmq.fromVec_ok hlen
    refine ⟨s, s1, fun a b ha hb h => ?_⟩
    unfold FastRmq.rangeMinWithRange
    rw [s2.data_eq]
    rcases bounds_empty hd hl ha hb h with ⟨h1, h2⟩ | ⟨h1, i, h2, ⟨h3, h4⟩ | ⟨j, h4, h5, h6, h7⟩⟩
    · exact ⟨fun hc => absurd h1 hc.2, fun _ => by rw [h2]; rfl⟩
    · refine ⟨fun hc => ?_, fun _ => by rw [h2, ok_bind, h4]; rfl⟩
      rw [h3] at hc
      exact absurd hc.1 (Nat.not_lt_zero _)
    · rw [h2, ok_bind, h4, ok_bind]
      constructor
      · rintro ⟨hc, -⟩
        obtain ⟨rfl, rfl⟩ := h6 hc
        obtain ⟨m, m1, m2⟩ := s2.rangeMin (Nat.le_refl (data.length - 1)) (by omega)
        have := m2.1
        have := m2.2.1
        rw [m1]; congr 1; omega
      · rintro (rfl | hc)
        · unfold endBound at h4
          dsimp only at h4
          rw [subR_overflow hd (by omega)] at h4
          cases h4
        · exact absurd hc h1
  · decide +revert +kernel

/-- Empty and reversed ranges `i..k` with `k <= i` inside a block of 128 elements of a `FastRmq`, in every build: if some
element of the block from `k - 1` to before `i` is smaller than everything behind it in the block, the query returns
the position behind the minimum of the block from `k - 1` on, which is not in the range. Otherwise it panics. -/
theorem C30_fast_empty_defect {data : List Word} (hlen : data.length ≤ 2 ^ 39 - 128) {i k : Nat} (hk : 0 < k)
    (hki : k ≤ i) (hblock : i / 128 = (k - 1) / 128) (hfull : (i / 128 + 1) * 128 ≤ data.length) :
    ∃ s, FastRmq.fromVec data = .ok s ∧
      ((∃ x, k - 1 ≤ x ∧ x < i ∧ ∀ t a b, x < t → t < (i / 128 + 1) * 128 → data[x]? = some a → data[t]? = some b →
          a.toNat < b.toNat) →
        ∃ x, s.rangeMinWithRange (.included i) (.excluded k) = .ok (x + 1) ∧ x < i ∧
          IsRangeMin data (k - 1) ((i / 128 + 1) * 128 - 1) x) ∧
      (¬(∃ x, k - 1 ≤ x ∧ x < i ∧ ∀ t a b, x < t → t < (i / 128 + 1) * 128 → data[x]? = some a →
          data[t]? = some b → a.toNat < b.toNat) →
        s.rangeMinWithRange (.included i) (.excluded k) = .error (if i = k then .unwrap else .oob)) := by
  obtain ⟨s, s1, s2⟩ := FastRmq.fromVec_ok hlen
  have hq : s.rangeMinWithRange (.included i) (.excluded k) = s.inBlock i (k - 1) := by
    unfold FastRmq.rangeMinWithRange startBound endBound
    rw [s2.data_eq]
    simp only [pure_eq_ok, ok_bind, subR_of_le (show 1 ≤ k from hk), subR_of_le (show 1 ≤ data.length by omega)]
    rw [show min i (data.length - 1) = i by omega, show min (k - 1) (data.length - 1) = k - 1 by omega]
    unfold FastRmq.rangeMin
    rw [if_pos hblock]
  have hiff : (∃ x, k - 1 ≤ x ∧ x < i ∧ ∀ t a b, x < t → t < (i / 128 + 1) * 128 → data[x]? = some a →
      data[t]? = some b → a.toNat < b.toNat) ↔
      ∃ x, k - 1 ≤ x ∧ x < i ∧ ∀ t, x < t → t < (i / 128 + 1) * 128 → ev data x < ev data t := by
    constructor
    · rintro ⟨x, x1, x2, x3⟩
      refine ⟨x, x1, x2, fun t t1 t2 => ?_⟩
      rw [ev_of_lt (show x < data.length by omega), ev_of_lt (show t < data.length by omega)]
      exact x3 t _ _ t1 t2 (List.getElem?_eq_getElem _) (List.getElem?_eq_getElem _)
    · rintro ⟨x, x1, x2, x3⟩
      refine ⟨x, x1, x2, fun t a b t1 t2 ha hb => ?_⟩
      have := x3 t t1 t2
      rw [ev_of_lt (show x < data.length by omega), ev_of_lt (show t < data.length by omega)] at this
      rw [List.getElem?_eq_getElem (show x < data.length by omega)] at ha
      rw [List.getElem?_eq_getElem (show t < data.length by omega)] at hb
      injection ha with ha
      injection hb with hb
      rwa [← ha, ← hb]
  obtain ⟨g1, g2⟩ := s2.inBlock_reversed (i := i) (j := k - 1) (by omega) hblock hfull
  refine ⟨s, s1, fun hx => ?_, fun hx => ?_⟩
  · obtain ⟨x, x1, x2, x3⟩ := g1 (hiff.mp hx)
    exact ⟨x, by rw [hq, x1], x2, x3.isRangeMin (by omega)⟩
  · rw [hq, g2 (fun hc => hx (hiff.mpr hc))]
    clear hx g1 g2 hiff
    congr 1
    by_cases e : i = k
    · rw [if_pos e, if_pos (by omega)]
    · rw [if_neg e, if_neg (by omega)]

example : (112 / 128 = (100 - 1) / 128) ∧ (112 / 128 + 1) * 128 ≤ rmqExample.length := by
  simp [rmqExample]

example : (do
    let s ← FastRmq.fromVec rmqExample
    pure (s.rangeMinWithRange (.included 109) (.excluded 109), s.rangeMinWithRange (.included 112) (.excluded 100),
      s.rangeMinWithRange (.included 90) (.excluded 90), s.rangeMinWithRange (.included 100) (.excluded 88))) =
    .ok (.ok 109, .ok 109, .error .unwrap, .error .oob) := by decide +revert +kernel

/-- Reversed ranges that reach back into an earlier block do not panic if the block of the start is complete: `FastRmq`
returns a minimum of the two pieces `i..` up to the end of its block and from the start of the block of `j` up to `j`,
although the range `i..=j` is empty. -/
theorem C30_fast_reversed_defect {data : List Word} (hlen : data.length ≤ 2 ^ 39 - 128) {i j : Nat}
    (hblock : j / 128 < i / 128) (hfull : (i / 128 + 1) * 128 ≤ data.length) :
    ∃ s, FastRmq.fromVec data = .ok s ∧ ∃ x y m, s.rangeMinWithRange (.included i) (.included j) = .ok m ∧
      IsRangeMin data i ((i / 128 + 1) * 128 - 1) x ∧ IsRangeMin data (j / 128 * 128) j y ∧
      ((m = x ∧ ∀ a b, data[x]? = some a → data[y]? = some b → a.toNat ≤ b.toNat) ∨
        (m = y ∧ ∀ a b, data[x]? = some a → data[y]? = some b → b.toNat < a.toNat)) := by
  obtain ⟨s, s1, s2⟩ := FastRmq.fromVec_ok hlen
  refine ⟨s, s1, ?_⟩
  obtain ⟨x, x1, x2⟩ := s2.leftMin hfull
  obtain ⟨y, y1, y2⟩ := s2.rightMin (j := j) (by omega)
  have hx := x2.2.1
  have hy := y2.2.1
  refine ⟨x, y, if ev data x ≤ ev data y then x else y, ?_, x2.isRangeMin (by omega), y2.isRangeMin (by omega), ?_⟩
  · unfold FastRmq.rangeMinWithRange startBound endBound
    rw [s2.data_eq]
    simp only [pure_eq_ok, ok_bind, subR_of_le (show 1 ≤ data.length by omega)]
    rw [show min i (data.length - 1) = i by omega, show min j (data.length - 1) = j by omega]
    unfold FastRmq.rangeMin
    rw [if_neg (by omega), x1, ok_bind, y1, ok_bind, if_neg (by omega), s2.data_eq, minBy_eq (by omega) (by omega)]
  · rw [ev_of_lt (show x < data.length by omega), ev_of_lt (show y < data.length by omega)]
    rw [List.getElem?_eq_getElem (show x < data.length by omega), List.getElem?_eq_getElem (show y < data.length by omega)]
    by_cases hc : data[x].toNat ≤ data[y].toNat
    · left
      rw [if_pos hc]
      refine ⟨rfl, fun a b ha hb => ?_⟩
      cases ha; cases hb; exact hc
    · right
      rw [if_neg hc]
      refine ⟨rfl, fun a b ha hb => ?_⟩
      cases ha; cases hb; omega

example : (7 / 128 < 130 / 128) ∧ (130 / 128 + 1) * 128 ≤ (List.replicate 300 (0#64)).length := by
  rw [List.length_replicate]; decide

/-- Reversed ranges that start in a last block with `d` missing elements and reach back into an earlier block: one of
the two compared positions is a minimum `y` of the start of the block of `j` up to `j`. The other one, which should be a
minimum of `i` up to the end, is `i` itself, or a minimum from `i - d` on moved by `d` positions. If it is moved behind
the last element, the query panics, otherwise it returns one of the two, although the range is empty. -/
theorem C30_fast_reversed_last_defect {data : List Word} (hlen : data.length ≤ 2 ^ 39 - 128) {i j d : Nat}
    (hi : i < data.length) (hd : data.length + d = (i / 128 + 1) * 128) (hblock : j / 128 < i / 128) :
    ∃ s, FastRmq.fromVec data = .ok s ∧ ∃ x y, IsRangeMin data (j / 128 * 128) j y ∧
      (i % 128 < d → x = i) ∧
      (d ≤ i % 128 → ∃ z, x = z + d ∧ IsRangeMin data (i - d) (data.length - 1) z) ∧
      (data.length ≤ x → s.rangeMinWithRange (.included i) (.included j) = .error .oob) ∧
      (∀ a b, data[x]? = some a → data[y]? = some b →
        s.rangeMinWithRange (.included i) (.included j) = .ok (if a.toNat ≤ b.toNat then x else y)) := by
  obtain ⟨s, s1, s2⟩ := FastRmq.fromVec_ok hlen
  obtain ⟨g1, g2⟩ := s2.leftMin_last hi hd
  obtain ⟨y, y1, y2⟩ := s2.rightMin (j := j) (by omega)
  have hy := y2.2.1
  have hx : ∃ x, s.leftMin i = .ok x ∧ (i % 128 < d → x = i) ∧
      (d ≤ i % 128 → ∃ z, x = z + d ∧ IsRangeMin data (i - d) (data.length - 1) z) := by
    by_cases hc : i % 128 < d
    · exact ⟨i, g1 hc, fun _ => rfl, fun h => absurd hc (by omega)⟩
    · obtain ⟨z, z1, z2⟩ := g2 (by omega)
      exact ⟨z + d, z1, fun h => absurd h hc, fun _ => ⟨z, rfl, z2.isRangeMin (by omega)⟩⟩
  obtain ⟨x, x1, x2, x3⟩ := hx
  have hq : s.rangeMinWithRange (.included i) (.included j) = minBy data x y := by
    unfold FastRmq.rangeMinWithRange startBound endBound
    rw [s2.data_eq]
    simp only [pure_eq_ok, ok_bind, subR_of_le (show 1 ≤ data.length by omega)]
    rw [show min i (data.length - 1) = i by omega, show min j (data.length - 1) = j by omega]
    unfold FastRmq.rangeMin
    rw [if_neg (by omega), x1, ok_bind, y1, ok_bind, if_neg (by omega), s2.data_eq]
  refine ⟨s, s1, x, y, y2.isRangeMin (by omega), x2, x3, fun hc => ?_, fun a b ha hb => ?_⟩
  · rw [hq]
    unfold minBy
    rw [idx_of_ge hc]; rfl
  · obtain ⟨hx', hx2⟩ := List.getElem?_eq_some_iff.mp ha
    obtain ⟨hy', hy2⟩ := List.getElem?_eq_some_iff.mp hb
    rw [hq, minBy_eq hx' hy', ev_of_lt hx', ev_of_lt hy', hx2, hy2]

/-- Empty and reversed ranges `i..k` with `k <= i` inside a last block with `d` missing elements, in every build. If
`k - 1` is one of the first `d` positions of the block, the query returns `k`. Otherwise, if some element at `x` is
smaller than everything behind it, where `x + d` is between `k - 1` and `i`, the query returns the position of the
minimum from `k - 1 - d` on, moved by `d + 1`. In all other cases it panics. -/
theorem C30_fast_empty_last_defect {data : List Word} (hlen : data.length ≤ 2 ^ 39 - 128) {i k d : Nat} (hk : 0 < k)
    (hki : k ≤ i) (hi : i < data.length) (hd : data.length + d = (i / 128 + 1) * 128)
    (hblock : i / 128 = (k - 1) / 128) :
    ∃ s, FastRmq.fromVec data = .ok s ∧
      ((k - 1) % 128 < d → s.rangeMinWithRange (.included i) (.excluded k) = .ok k) ∧
      (d ≤ (k - 1) % 128 →
        (∃ x, k - 1 ≤ x + d ∧ x + d < i ∧ ∀ t a b, x < t → data[x]? = some a → data[t]? = some b →
          a.toNat < b.toNat) →
        ∃ x, s.rangeMinWithRange (.included i) (.excluded k) = .ok (x + d + 1) ∧ x + d < i ∧
          IsRangeMin data (k - 1 - d) (data.length - 1) x) ∧
      (d ≤ (k - 1) % 128 →
        ¬(∃ x, k - 1 ≤ x + d ∧ x + d < i ∧ ∀ t a b, x < t → data[x]? = some a → data[t]? = some b →
          a.toNat < b.toNat) →
        s.rangeMinWithRange (.included i) (.excluded k) = .error (if i = k then .unwrap else .oob)) := by
  obtain ⟨s, s1, s2⟩ := FastRmq.fromVec_ok hlen
  have hq : s.rangeMinWithRange (.included i) (.excluded k) = s.inBlock i (k - 1) := by
    unfold FastRmq.rangeMinWithRange startBound endBound
    rw [s2.data_eq]
    simp only [pure_eq_ok, ok_bind, subR_of_le (show 1 ≤ k from hk), subR_of_le (show 1 ≤ data.length by omega)]
    rw [show min i (data.length - 1) = i by omega, show min (k - 1) (data.length - 1) = k - 1 by omega]
    unfold FastRmq.rangeMin
    rw [if_pos hblock]
  have hiff : (∃ x, k - 1 ≤ x + d ∧ x + d < i ∧ ∀ t a b, x < t → data[x]? = some a → data[t]? = some b →
      a.toNat < b.toNat) ↔
      ∃ x, k - 1 ≤ x + d ∧ x + d < i ∧ ∀ t, x < t → t < data.length → ev data x < ev data t := by
    constructor
    · rintro ⟨x, x1, x2, x3⟩
      refine ⟨x, x1, x2, fun t t1 t2 => ?_⟩
      rw [ev_of_lt (show x < data.length by omega), ev_of_lt t2]
      exact x3 t _ _ t1 (List.getElem?_eq_getElem _) (List.getElem?_eq_getElem _)
    · rintro ⟨x, x1, x2, x3⟩
      refine ⟨x, x1, x2, fun t a b t1 ha hb => ?_⟩
      obtain ⟨hx', hx2⟩ := List.getElem?_eq_some_iff.mp ha
      obtain ⟨ht', ht2⟩ := List.getElem?_eq_some_iff.mp hb
      have := x3 t t1 ht'
      rwa [ev_of_lt hx', ev_of_lt ht', hx2, ht2] at this
  obtain ⟨g0, g1, g2⟩ := s2.inBlock_reversed_last (i := i) (j := k - 1) (d := d) (by omega) hblock hi hd
  refine ⟨s, s1, fun h0 => ?_, fun h0 hx => ?_, fun h0 hx => ?_⟩
  · rw [hq, g0 h0, Nat.sub_add_cancel hk]
  · obtain ⟨x, x1, x2, x3⟩ := g1 h0 (hiff.mp hx)
    exact ⟨x, by rw [hq, x1], x2, x3.isRangeMin (by omega)⟩
  · rw [hq, g2 h0 (fun hc => hx (hiff.mpr hc))]
    clear hx g0 g1 g2 hiff
    congr 1
    by_cases e : i = k
    · rw [if_pos e, if_pos (by omega)]
    · rw [if_neg e, if_neg (by omega)]

example := C30_fast_empty_last_defect (data := [7#64, 3#64, 9#64, 5#64]) (by decide) (i := 3) (k := 2) (d := 124) (by decide)
  (by decide) (by decide) (by decide) (by decide)

/-- Starts behind the end are moved to the last element first, so the theorems above cover all starts. -/
theorem C30_fast_clamp (s : FastRmq) (i : Nat) (b : Bnd) (h0 : s.data ≠ []) (h : s.data.length ≤ i) :
    s.rangeMinWithRange (.included i) b = s.rangeMinWithRange (.included (s.data.length - 1)) b := by
  unfold FastRmq.rangeMinWithRange startBound
  have := List.length_pos_iff.mpr h0
  simp only [pure_eq_ok, ok_bind, subR_of_le (show 1 ≤ s.data.length by omega)]
  rw [Nat.min_eq_right (show s.data.length - 1 ≤ i by omega), Nat.min_self]

example : (5 < 100) ∧ 100 + 28 = (5 / 128 + 1) * 128 ∧ 5 / 128 = (4 - 1) / 128 ∧ (4 - 1) % 128 < 28 := by decide
example : (250 < 253) ∧ 253 + 3 = (250 / 128 + 1) * 128 ∧ 7 / 128 < 250 / 128 ∧ 3 ≤ 250 % 128 := by decide
example : (do
    let s ← FastRmq.fromVec [7#64, 3#64, 9#64, 5#64]
    pure (s.rangeMinWithRange (.included 3) (.excluded 2), s.rangeMinWithRange (.included 2) (.excluded 2))) =
    .ok (.ok 2, .ok 2) := by decide +revert +kernel

end Vers
