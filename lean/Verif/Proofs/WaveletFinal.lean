import Verif.Proofs.WaveletPc
import Verif.Proofs.GenIter

/-!
# Helpers for the wavelet matrix: constructors and checked queries
-/

set_option linter.unusedSimpArgs false

namespace Vers.WM

variable [Profile]
open Spec Vers

omit [Profile] in
theorem setIdx_ok {α : Type} {l l' : List α} {i : Nat} {x : α} (h : setIdx l i x = .ok l') : l'.length = l.length := by
  unfold setIdx at h
  split at h
  · injection h with h; subst h; simp
  · simp at h

omit [Profile] in
theorem countLoop_ok {k : Nat} {lookup : Nat → Nat → R Word} {elem : Nat → R Word} {h0 : List Nat} {v0 : BV} :
    ∀ {n : Nat} {s : List Nat × BV}, countLoop k lookup elem n (h0, v0) = .ok s →
    s.1.length = h0.length ∧ ∀ i, i < n → ∃ w, elem i = .ok w ∧ w.toNat < h0.length
  | 0, s, h => by
    simp only [countLoop, pure_eq_ok] at h
    injection h with h
    subst h
    exact ⟨rfl, by intro i hi; omega⟩
  | n + 1, s, h => by
    simp only [countLoop] at h
    obtain ⟨s1, e1, h⟩ := bind_eq_ok.mp h
    obtain ⟨x, e2, h⟩ := bind_eq_ok.mp h
    obtain ⟨c, e3, h⟩ := bind_eq_ok.mp h
    obtain ⟨hist, e4, h⟩ := bind_eq_ok.mp h
    obtain ⟨p, e5, h⟩ := bind_eq_ok.mp h
    obtain ⟨b, e6, h⟩ := bind_eq_ok.mp h
    obtain ⟨v, e7, h⟩ := bind_eq_ok.mp h
    simp only [pure_eq_ok] at h
    injection h with h
    obtain ⟨g1, g2⟩ := countLoop_ok e1
    have hl := setIdx_ok e4
    refine ⟨by rw [← h]; simp only; omega, ?_⟩
    intro i hi
    by_cases hin : i = n
    · subst hin
      refine ⟨x, e2, ?_⟩
      rcases Nat.lt_or_ge x.toNat s1.1.length with h' | h'
      · omega
      · rw [idx_of_ge h'] at e3; simp at e3
    · exact g2 i (by omega)

omit [Profile] in
theorem assertR_ok {p : Prop} [Decidable p] {u : Unit} (h : assertR p = .ok u) : p := by
  unfold assertR at h
  split at h
  · assumption
  · simp at h

omit [Profile] in
theorem histLoop_short {hist : List Nat} (hl : hist.length = 1) : ∀ n, histLoop (n + 1) hist = .error .oob
  | 0 => by
    simp only [histLoop, pure_eq_ok, ok_bind]
    rw [idx_of_lt (by omega), ok_bind, idx_of_ge (by omega)]; rfl
  | n + 1 => by
    rw [histLoop, histLoop_short hl n]; rfl

/-- with a width of 64 the histogram is too short in release builds -/
theorem prefixCounting_64 (n : Nat) (lookup : Nat → Nat → R Word) (elem : Nat → R Word) :
    ∃ e, prefixCounting 64 n lookup elem = .error e ∧ (Profile.debug = true → e = .overflow) := by
  unfold prefixCounting
  rw [if_neg (by omega)]
  by_cases hd : Profile.debug = true
  · rw [wrapR_debug hd]
    exact ⟨_, rfl, fun _ => rfl⟩
  · rw [wrapR_release (by simpa using hd), ok_bind]
    cases hc : countLoop 64 lookup elem n (List.replicate (2 ^ (64 % 64)) 0, BV.fromZeros n) with
    | error e => exact ⟨e, rfl, fun h => absurd h hd⟩
    | ok s =>
      have hl := (countLoop_ok hc).1
      refine ⟨.oob, ?_, fun h => absurd h hd⟩
      rw [ok_bind, show 64 - 1 = 62 + 1 from rfl, pcLevels,
        show 2 ^ (62 + 1) = (2 ^ (62 + 1) - 1) + 1 from rfl, histLoop_short (by simpa using hl)]
      rfl

theorem prefixCounting_ok {k n : Nat} {lookup : Nat → Nat → R Word} {elem : Nat → R Word} {m : WM} (hk : k ≤ 64)
    (h : prefixCounting k n lookup elem = .ok m) : k < 64 ∧ ∀ i, i < n → ∃ w, elem i = .ok w ∧ w.toNat < 2 ^ k := by
  by_cases h64 : k = 64
  · subst h64
    obtain ⟨e, e1, _⟩ := prefixCounting_64 n lookup elem
    rw [e1] at h
    cases h
  unfold prefixCounting at h
  rw [if_pos (by omega), ok_bind] at h
  obtain ⟨s, e1, h⟩ := bind_eq_ok.mp h
  have := (countLoop_ok e1).2
  simp only [List.length_replicate] at this
  exact ⟨by omega, this⟩

theorem fromSlicePc_ok {seq : List Word} {k : Nat} {m : WM} (h : fromSlicePc seq k = .ok m) :
    k < 64 ∧ ∀ x ∈ seq, x.toNat < 2 ^ k := by
  unfold fromSlicePc at h
  obtain ⟨_, e, h⟩ := bind_eq_ok.mp h
  obtain ⟨h1, h2⟩ := prefixCounting_ok (assertR_ok e) h
  refine ⟨h1, ?_⟩
  intro x hx
  obtain ⟨i, hi, rfl⟩ := List.mem_iff_getElem.mp hx
  obtain ⟨w, w1, w2⟩ := h2 i hi
  rw [idx_of_lt hi] at w1
  injection w1 with w1
  rw [w1]; exact w2

omit [Profile] in
theorem checkMultiple_ok {len k : Nat} {u : Unit} (h : checkMultiple len k = .ok u) : 1 ≤ k ∧ len % k = 0 := by
  unfold checkMultiple at h
  split at h
  · simp at h
  · exact ⟨by omega, assertR_ok h⟩

omit [Profile] in
theorem ok_inj' {α : Type} {a b : α} {r : R α} (h1 : r = .ok a) (h2 : r = .ok b) : a = b := by
  rw [h1] at h2; injection h2

theorem built_stores {m : WM} {k : Nat} {S : List Nat} (h : Built m k S) : Stores m k S := by
  cases h with
  | slice hk h =>
    rename_i seq
    have hk' : k ≤ 64 := by
      have h' := h
      unfold fromSlice at h'
      obtain ⟨_, e, _⟩ := bind_eq_ok.mp h'
      exact assertR_ok e
    obtain ⟨vs, v1, v2, v3⟩ := fromSlice_levels seq hk'
    obtain ⟨m', m1, m2⟩ := stores_of_levels hk v2 v3
    rw [← v1] at m1
    rw [ok_inj' h m1]; exact m2
  | packed hw h =>
    rename_i v
    have hk : 1 ≤ k ∧ v.len % k = 0 := by
      have h' := h
      unfold fromBitVec at h'
      obtain ⟨_, e, _⟩ := bind_eq_ok.mp h'
      exact checkMultiple_ok e
    obtain ⟨vs, v1, v2, v3⟩ := fromBitVec_levels hw hk.1 hk.2
    obtain ⟨m', m1, m2⟩ := stores_of_levels hk.1 v2 v3
    rw [← v1] at m1
    rw [ok_inj' h m1]; exact m2
  | slicePc hk h =>
    rename_i seq
    obtain ⟨hk', hx⟩ := fromSlicePc_ok h
    obtain ⟨vs, v1, v2, v3⟩ := fromSlicePc_levels seq hk hk' hx
    obtain ⟨m', m1, m2⟩ := stores_of_levels hk v2 v3
    rw [← v1] at m1
    rw [ok_inj' h m1]; exact m2
  | packedPc hw h =>
    rename_i v
    have hk : (1 ≤ k ∧ v.len % k = 0) ∧ k < 64 := by
      have h' := h
      unfold fromBitVecPc at h'
      obtain ⟨_, e, h'⟩ := bind_eq_ok.mp h'
      obtain ⟨_, e', h'⟩ := bind_eq_ok.mp h'
      exact And.intro (checkMultiple_ok e) (prefixCounting_ok (assertR_ok e') h').1
    obtain ⟨vs, v1, v2, v3⟩ := fromBitVecPc_levels hw hk.1.1 hk.2 hk.1.2
    obtain ⟨m', m1, m2⟩ := stores_of_levels hk.1.1 v2 v3
    rw [← v1] at m1
    rw [ok_inj' h m1]; exact m2

variable {m : WM} {k : Nat} {S : List Nat}

theorem Stores.bp (h : Stores m k S) : m.bitsPer = k := h.bits

/-! ## Access -/

theorem getValue_eq (h : Stores m k S) (i : Nat) : ResBV k (m.getValue i) S[i]? := by
  unfold getValue
  rw [h.len]
  by_cases hi : i < S.length
  · rw [if_neg (by have := h.ne; simp [this]; omega)]
    have hx : S[i]? = some S[i] := List.getElem?_eq_getElem hi
    rw [hx]
    exact resBV_some (getValueUnchecked_eq h hx)
  · rw [if_pos (by right; omega), List.getElem?_eq_none (by omega)]
    exact resBV_none k

theorem getU64_eq (h : Stores m k S) (hk : k ≤ 64) (i : Nat) : ResU64 (m.getU64 i) S[i]? := by
  unfold getU64
  rw [h.len, h.bp]
  by_cases hi : i < S.length
  · rw [if_neg (by have := h.ne; simp [this]; omega)]
    have hx : S[i]? = some S[i] := List.getElem?_eq_getElem hi
    rw [hx]
    exact resU64_some (getU64Unchecked_eq h hk hx)
  · rw [if_pos (by right; right; omega), List.getElem?_eq_none (by omega)]
    exact resU64_none

theorem getU64_wide (h : Stores m k S) (hk : 64 < k) (i : Nat) : m.getU64 i = .ok none := by
  unfold getU64
  rw [h.bp, if_pos (by left; omega)]; rfl

/-! ## Rank -/

/-- what `rank_range` answers -/
def rankSpec (S : List Nat) (c s e : Nat) : R (Option Nat) :=
  if s ≤ e then .ok (some ((between S s e).count c))
  else if (between S e s).count c = 0 then .ok (some 0)
  else wrapR (some (2 ^ 64 - (between S e s).count c))

theorem rankGen_spec (h : Stores m k S) {read : Nat → R Word} {c : Nat} (hr : Reads read k 0 c) {s e : Nat}
    (hs : s ≤ S.length) (he : e ≤ S.length) :
    (do let r ← m.rankGen read s e; pure (some r) : R (Option Nat)) = rankSpec S c s e := by
  unfold rankSpec
  rcases Nat.lt_or_ge e s with hse | hse
  · rw [if_neg (by omega), rankGen_reversed h hr (by omega) hs]
    by_cases h0 : (between S e s).count c = 0
    · rw [if_pos h0, if_pos h0]; rfl
    · rw [if_neg h0, if_neg h0, Nat.mod_eq_of_lt (by omega), wrapR_map]
  · rw [if_pos hse, rankGen_eq h hr hse he]; rfl

theorem rankRange_eq (h : Stores m k S) {sym : BV} (hw : sym.WF) (hl : sym.len = k) (s e : Nat) :
    m.rankRange s e sym = if s ≥ S.length ∨ e > S.length then .ok none else rankSpec S (bitsToNat sym.bits) s e := by
  unfold rankRange rankRangeUnchecked
  rw [h.len, h.bp]
  by_cases hb : s ≥ S.length ∨ e > S.length
  · rw [if_pos hb, if_pos (by omega)]; rfl
  · rw [if_neg hb, if_neg (by omega)]
    exact rankGen_spec h (reads_BV hw hl) (by omega) (by omega)

theorem rankRangeU64_eq (h : Stores m k S) (hk : k ≤ 64) (sym : Word) (s e : Nat) :
    m.rankRangeU64 s e sym = if s ≥ S.length ∨ e > S.length then .ok none else rankSpec S (sym.toNat % 2 ^ k) s e := by
  unfold rankRangeU64 rankRangeU64Unchecked
  rw [h.len, h.bp]
  by_cases hb : s ≥ S.length ∨ e > S.length
  · rw [if_pos hb, if_pos (by omega)]; rfl
  · rw [if_neg hb, if_neg (by omega)]
    exact rankGen_spec h (reads_U64 sym hk) (by omega) (by omega)

theorem rankOffset_eq (h : Stores m k S) {sym : BV} (hw : sym.WF) (hl : sym.len = k) (o i : Nat) :
    m.rankOffset o i sym = if o > i ∨ o ≥ S.length ∨ i > S.length then .ok none
      else .ok (some ((between S o i).count (bitsToNat sym.bits))) := by
  unfold rankOffset rankOffsetUnchecked rankRangeUnchecked
  rw [h.len, h.bp]
  by_cases hb : o > i ∨ o ≥ S.length ∨ i > S.length
  · rw [if_pos hb, if_pos (by omega)]; rfl
  · rw [if_neg hb, if_neg (by omega), rankGen_eq h (reads_BV hw hl) (by omega) (by omega)]; rfl

theorem rankOffsetU64_eq (h : Stores m k S) (hk : k ≤ 64) (sym : Word) (o i : Nat) :
    m.rankOffsetU64 o i sym = if o > i ∨ o ≥ S.length ∨ i > S.length then .ok none
      else .ok (some ((between S o i).count (sym.toNat % 2 ^ k))) := by
  unfold rankOffsetU64 rankOffsetU64Unchecked rankRangeU64Unchecked
  rw [h.len, h.bp]
  by_cases hb : o > i ∨ o ≥ S.length ∨ i > S.length
  · rw [if_pos hb, if_pos (by omega)]; rfl
  · rw [if_neg hb, if_neg (by omega), rankGen_eq h (reads_U64 sym hk) (by omega) (by omega)]; rfl

omit [Profile] in
theorem between_zero (S : List Nat) (i : Nat) : between S 0 i = S.take i := by simp [between]

theorem rank_eq (h : Stores m k S) {sym : BV} (hw : sym.WF) (hl : sym.len = k) (i : Nat) :
    m.rank i sym = if i > S.length then .ok none else .ok (some ((S.take i).count (bitsToNat sym.bits))) := by
  unfold rank rankUnchecked rankRangeUnchecked
  rw [h.len, h.bp]
  by_cases hb : i > S.length
  · rw [if_pos hb, if_pos (by omega)]; rfl
  · rw [if_neg hb, if_neg (by omega), rankGen_eq h (reads_BV hw hl) (by omega) (by omega), between_zero]; rfl

theorem rankU64_eq (h : Stores m k S) (hk : k ≤ 64) (sym : Word) (i : Nat) :
    m.rankU64 i sym = if i > S.length then .ok none else .ok (some ((S.take i).count (sym.toNat % 2 ^ k))) := by
  unfold rankU64 rankU64Unchecked rankRangeU64Unchecked
  rw [h.len, h.bp]
  by_cases hb : i > S.length
  · rw [if_pos hb, if_pos (by omega)]; rfl
  · rw [if_neg hb, if_neg (by omega), rankGen_eq h (reads_U64 sym hk) (by omega) (by omega), between_zero]; rfl

/-! ## Select -/

theorem selectGen_or (h : Stores m k S) {read : Nat → R Word} {c : Nat} (hr : Reads read k 0 c) {o : Nat} (r : Nat)
    (ho : o ≤ S.length) :
    (2 ^ 64 ≤ S.length + r ∧ (Profile.debug = true → m.selectGen read o r = .error .overflow)) ∨
    ((r < (between S o S.length).count c → ∃ p, m.selectGen read o r = .ok p ∧ IsNth S c o r p) ∧
     ((between S o S.length).count c ≤ r → ∃ p, m.selectGen read o r = .ok p ∧ S.length ≤ p)) := by
  rw [← h.bits] at hr
  obtain ⟨β, b0, b1, b2⟩ := down_up m.data S 0 c h.good hr
  have e0 := between_count S c ho
  rw [List.take_length] at e0
  by_cases hov : β + (S.take o).count c + r < 2 ^ 64
  · right
    have hadd : addU (β + (S.take o).count c) r = .ok (β + ((S.take o).count c + r)) := by
      unfold addU; rw [if_pos hov, Nat.add_assoc]
    have hs : m.selectGen read o r = selectUp read m.data 0 (β + ((S.take o).count c + r)) := by
      unfold selectGen
      rw [b1 o ho, ok_bind, hadd, ok_bind]
    rw [hs]
    refine ⟨fun hlt => ?_, fun hge => ?_⟩
    · obtain ⟨q, q1, q2, q3⟩ := (b2 ((S.take o).count c + r)).1 (by omega)
      exact ⟨q, q1, between_of_take q2 q3⟩
    · exact (b2 ((S.take o).count c + r)).2 (by omega)
  · left
    refine ⟨by omega, fun hd => ?_⟩
    unfold selectGen
    rw [b1 o ho, ok_bind, addU_overflow hd (by omega)]; rfl

/-- `r` is the answer of a select query for the occurrence number `n` of `c` from position `o`. -/
def SelectRes (S : List Nat) (c o n : Nat) (r : R (Option Nat)) : Prop :=
  (∃ p, r = .ok (some p) ∧ IsNth S c o n p) ∨ (r = .ok none ∧ (between S o S.length).count c ≤ n)

theorem selectGen_res (h : Stores m k S) {read : Nat → R Word} {c : Nat} (hr : Reads read k 0 c) {o : Nat} (r : Nat)
    (ho : o ≤ S.length) :
    (2 ^ 64 ≤ S.length + r ∧ (Profile.debug = true →
      (do let p ← m.selectGen read o r; pure (m.ifInside p)) = .error .overflow)) ∨
    SelectRes S c o r (do let p ← m.selectGen read o r; pure (m.ifInside p)) := by
  rcases selectGen_or h hr r ho with ⟨h1, h2⟩ | ⟨h1, h2⟩
  · left; exact ⟨h1, fun hd => by rw [h2 hd]; rfl⟩
  · right
    rcases Nat.lt_or_ge r ((between S o S.length).count c) with hlt | hge
    · obtain ⟨p, p1, p2⟩ := h1 hlt
      left
      refine ⟨p, ?_, p2⟩
      have hp : p < S.length := by
        rcases Nat.lt_or_ge p S.length with h' | h'
        · exact h'
        · have := p2.2.1; rw [List.getElem?_eq_none h'] at this; simp at this
      rw [p1, ok_bind, ifInside, if_pos (by rw [h.len]; exact hp)]; rfl
    · obtain ⟨p, p1, p2⟩ := h2 hge
      right
      refine ⟨?_, hge⟩
      rw [p1, ok_bind, ifInside, if_neg (by rw [h.len]; omega)]; rfl

theorem selectOffset_in (h : Stores m k S) {sym : BV} (hl : sym.len = k) {o : Nat} (ho : o < S.length) (r : Nat) :
    m.selectOffset o r sym = (do let p ← m.selectGen (readBV k sym) o r; pure (m.ifInside p)) := by
  unfold selectOffset selectOffsetUnchecked
  rw [h.len, h.bp, if_neg (by omega)]

theorem selectOffsetU64_in (h : Stores m k S) (hk : k ≤ 64) (sym : Word) {o : Nat} (ho : o < S.length) (r : Nat) :
    m.selectOffsetU64 o r sym = (do let p ← m.selectGen (readU64 k sym) o r; pure (m.ifInside p)) := by
  unfold selectOffsetU64 selectOffsetU64Unchecked
  rw [h.len, h.bp, if_neg (by omega)]

theorem select_in (h : Stores m k S) {sym : BV} (hl : sym.len = k) (r : Nat) :
    m.select r sym = (do let p ← m.selectGen (readBV k sym) 0 r; pure (m.ifInside p)) := by
  unfold select selectUnchecked selectOffsetUnchecked
  rw [h.bp, if_pos hl]

theorem selectU64_in (h : Stores m k S) (hk : k ≤ 64) (sym : Word) (r : Nat) :
    m.selectU64 r sym = (do let p ← m.selectGen (readU64 k sym) 0 r; pure (m.ifInside p)) := by
  unfold selectU64 selectU64Unchecked selectOffsetU64Unchecked
  rw [h.bp, if_neg (by omega)]

/-! ## Quantiles -/

omit [Profile] in
theorem between_length {S : List Nat} {s e : Nat} (he : e ≤ S.length) : (between S s e).length = e - s := by
  simp [between]; omega

omit [Profile] in
theorem sorted_length (B : List Nat) : (sorted B).length = B.length := (sorted_perm B).length_eq

omit [Profile] in
theorem sorted_eq_of {l l' : List Nat} (hp : l'.Perm l) (hs : l'.Pairwise (· ≤ ·)) : sorted l = l' :=
  ((sorted_perm l).trans hp.symm).eq_of_pairwise (le := (· ≤ ·)) (fun _ _ _ _ h1 h2 => Nat.le_antisymm h1 h2)
    (sorted_pairwise l) hs

theorem quantile_eq (h : Stores m k S) {s e : Nat} (hs : s ≤ e) (j : Nat) :
    ResBV k (m.quantile s e j) (if s ≥ S.length ∨ e > S.length then none else (sorted (between S s e))[j]?) := by
  unfold quantile
  rw [h.len]
  by_cases hb : s ≥ S.length ∨ e > S.length
  · rw [if_pos hb, if_pos hb]; exact resBV_none k
  · rw [if_neg hb, if_neg hb, subR_of_le hs, ok_bind]
    have hlen := between_length (s := s) (show e ≤ S.length by omega)
    by_cases hj : j < e - s
    · rw [if_neg (by omega)]
      obtain ⟨t, x, h1, h2, h3⟩ := quantile_of h hs (by omega) hj
      rw [sorted_getElem? h3]
      exact resBV_some ⟨t, h1, h2⟩
    · rw [if_pos (by omega), List.getElem?_eq_none (by rw [sorted_length, hlen]; omega)]
      exact resBV_none k

theorem quantileU64_eq (h : Stores m k S) (hk : k ≤ 64) {s e : Nat} (hs : s ≤ e) (j : Nat) :
    ResU64 (m.quantileU64 s e j) (if s ≥ S.length ∨ e > S.length then none else (sorted (between S s e))[j]?) := by
  unfold quantileU64
  rw [h.len, h.bp]
  by_cases hb : s ≥ S.length ∨ e > S.length
  · rw [if_pos hb, if_pos (by omega)]; exact resU64_none
  · rw [if_neg hb, if_neg (by omega), subR_of_le hs, ok_bind]
    have hlen := between_length (s := s) (show e ≤ S.length by omega)
    by_cases hj : j < e - s
    · rw [if_neg (by omega)]
      obtain ⟨t, x, h1, h2, h3⟩ := quantileU64_of h hk hs (by omega) hj
      rw [sorted_getElem? h3]
      exact resU64_some ⟨t, h1, h2⟩
    · rw [if_pos (by omega), List.getElem?_eq_none (by rw [sorted_length, hlen]; omega)]
      exact resU64_none

omit [Profile] in
theorem between_all (S : List Nat) : between S 0 S.length = S := by simp [between]

theorem getSorted_eq (h : Stores m k S) (i : Nat) : ResBV k (m.getSorted i) (sorted S)[i]? := by
  unfold getSorted getSortedUnchecked
  rw [h.len]
  by_cases hi : i < S.length
  · rw [if_neg (by omega)]
    obtain ⟨t, x, h1, h2, h3⟩ := quantile_of h (s := 0) (Nat.zero_le _) (Nat.le_refl _) (show i < S.length - 0 by omega)
    rw [between_all] at h3
    rw [sorted_getElem? h3]
    exact resBV_some ⟨t, h1, h2⟩
  · rw [if_pos (by omega), List.getElem?_eq_none (by rw [sorted_length]; omega)]
    exact resBV_none k

theorem getSortedU64_eq (h : Stores m k S) (hk : k ≤ 64) (i : Nat) : ResU64 (m.getSortedU64 i) (sorted S)[i]? := by
  unfold getSortedU64 getSortedU64Unchecked
  rw [h.len, h.bp]
  by_cases hi : i < S.length
  · rw [if_neg (by omega)]
    obtain ⟨t, x, h1, h2, h3⟩ := quantileU64_of h hk (s := 0) (Nat.zero_le _) (Nat.le_refl _) (show i < S.length - 0 by omega)
    rw [between_all] at h3
    rw [sorted_getElem? h3]
    exact resU64_some ⟨t, h1, h2⟩
  · rw [if_pos (by omega), List.getElem?_eq_none (by rw [sorted_length]; omega)]
    exact resU64_none

omit [Profile] in
theorem sorted_first (B : List Nat) : (sorted B)[0]? = B.min? := by
  have hp := sorted_perm B
  have hs := sorted_pairwise B
  cases hB : sorted B with
  | nil =>
    have : B = [] := by rw [hB] at hp; exact hp.symm.eq_nil
    subst this; rfl
  | cons x xs =>
    rw [hB] at hp hs
    symm
    apply min?_eq
    · exact hp.mem_iff.mp (by simp)
    · intro y hy
      have := hp.mem_iff.mpr hy
      rcases List.mem_cons.mp this with rfl | h
      · exact Nat.le_refl _
      · exact (List.pairwise_cons.mp hs).1 y h

omit [Profile] in
theorem sorted_last (B : List Nat) : (sorted B)[B.length - 1]? = B.max? := by
  have hp := sorted_perm B
  have hs := sorted_pairwise B
  have hl := sorted_length B
  by_cases hB : B = []
  · subst hB
    rw [List.eq_nil_of_length_eq_zero hl]; rfl
  · have hpos := List.length_pos_iff.mpr hB
    rw [List.getElem?_eq_getElem (by omega)]
    symm
    apply max?_eq
    · exact hp.mem_iff.mp (List.getElem_mem _)
    · intro y hy
      obtain ⟨i, hi, rfl⟩ := List.mem_iff_getElem.mp (hp.mem_iff.mpr hy)
      rcases Nat.lt_or_ge i (B.length - 1) with h | h
      · exact (List.pairwise_iff_getElem.mp hs) i (B.length - 1) hi (by omega) h
      · have : i = B.length - 1 := by omega
        subst this; exact Nat.le_refl _

omit [Profile] in
theorem between_empty {S : List Nat} {s e : Nat} (h : e ≤ s) : between S s e = [] := by
  unfold between
  apply List.drop_eq_nil_of_le
  simp; omega

omit [Profile] in
theorem between_out {S : List Nat} {s e : Nat} (h : S.length ≤ s) : between S s e = [] := by
  unfold between
  apply List.drop_eq_nil_of_le
  simp; omega

/-- the answer of a query about the non-empty range `s .. e` -/
def inRange (S : List Nat) (s e : Nat) (o : Option Nat) : Option Nat := if e ≤ s ∨ e > S.length then none else o

theorem rangeMin_eq (h : Stores m k S) {s e : Nat} (hs : s ≤ e) :
    ResBV k (m.rangeMin s e) (inRange S s e (between S s e).min?) := by
  have := quantile_eq h hs 0
  rw [sorted_first] at this
  unfold rangeMin inRange
  by_cases h1 : s ≥ S.length ∨ e > S.length
  · rw [if_pos h1] at this
    rw [if_pos (by omega)]; exact this
  · rw [if_neg h1] at this
    by_cases h2 : e ≤ s
    · rw [between_empty h2] at this
      rw [if_pos (by omega)]; exact this
    · rw [if_neg (by omega)]; exact this

theorem rangeMinU64_eq (h : Stores m k S) (hk : k ≤ 64) {s e : Nat} (hs : s ≤ e) :
    ResU64 (m.rangeMinU64 s e) (inRange S s e (between S s e).min?) := by
  have := quantileU64_eq h hk hs 0
  rw [sorted_first] at this
  unfold rangeMinU64 inRange
  by_cases h1 : s ≥ S.length ∨ e > S.length
  · rw [if_pos h1] at this
    rw [if_pos (by omega)]; exact this
  · rw [if_neg h1] at this
    by_cases h2 : e ≤ s
    · rw [between_empty h2] at this
      rw [if_pos (by omega)]; exact this
    · rw [if_neg (by omega)]; exact this

theorem rangeMax_eq (h : Stores m k S) (s e : Nat) :
    ResBV k (m.rangeMax s e) (inRange S s e (between S s e).max?) := by
  unfold rangeMax inRange
  by_cases h2 : e ≤ s
  · rw [if_pos h2, if_pos (by omega)]; exact resBV_none k
  · rw [if_neg h2]
    have := quantile_eq h (show s ≤ e by omega) (e - s - 1)
    by_cases h1 : s ≥ S.length ∨ e > S.length
    · rw [if_pos h1] at this
      rw [if_pos (by omega)]; exact this
    · rw [if_neg h1] at this
      have hl := sorted_last (between S s e)
      rw [between_length (by omega)] at hl
      rw [if_neg (by omega), ← hl]; exact this

theorem rangeMaxU64_eq (h : Stores m k S) (hk : k ≤ 64) (s e : Nat) :
    ResU64 (m.rangeMaxU64 s e) (inRange S s e (between S s e).max?) := by
  unfold rangeMaxU64 inRange
  by_cases h2 : e ≤ s
  · rw [if_pos h2, if_pos (by omega)]; exact resU64_none
  · rw [if_neg h2]
    have := quantileU64_eq h hk (show s ≤ e by omega) (e - s - 1)
    by_cases h1 : s ≥ S.length ∨ e > S.length
    · rw [if_pos h1] at this
      rw [if_pos (by omega)]; exact this
    · rw [if_neg h1] at this
      have hl := sorted_last (between S s e)
      rw [between_length (by omega)] at hl
      rw [if_neg (by omega), ← hl]; exact this

theorem rangeMedian_eq (h : Stores m k S) (s e : Nat) :
    ResBV k (m.rangeMedian s e) (inRange S s e (sorted (between S s e))[(e - s - 1) / 2]?) := by
  unfold rangeMedian inRange
  by_cases h2 : e ≤ s
  · rw [if_pos h2, if_pos (by omega)]; exact resBV_none k
  · rw [if_neg h2]
    have := quantile_eq h (show s ≤ e by omega) ((e - 1 - s) / 2)
    by_cases h1 : s ≥ S.length ∨ e > S.length
    · rw [if_pos h1] at this
      rw [if_pos (by omega)]; exact this
    · rw [if_neg h1] at this
      rw [if_neg (by omega), show e - s - 1 = e - 1 - s by omega]; exact this

theorem rangeMedianU64_eq (h : Stores m k S) (hk : k ≤ 64) (s e : Nat) :
    ResU64 (m.rangeMedianU64 s e) (inRange S s e (sorted (between S s e))[(e - s - 1) / 2]?) := by
  unfold rangeMedianU64 inRange
  rw [h.len, h.bp]
  by_cases h2 : e ≤ s ∨ e > S.length
  · rw [if_pos (by omega), if_pos h2]; exact resU64_none
  · rw [if_neg (by omega)]
    have := quantileU64_eq h hk (show s ≤ e by omega) ((e - 1 - s) / 2)
    rw [if_neg (by omega)] at this
    rw [if_neg (by omega), show e - s - 1 = e - 1 - s by omega]; exact this

/-! ## Predecessor and successor -/

theorem isEmpty_eq (h : Stores m k S) : m.isEmpty = decide (S = []) := by
  have h1 := h.len
  have h2 := h.ne
  unfold isEmpty
  obtain ⟨data⟩ := m
  cases data with
  | nil => simp at h2
  | cons rs rest => 
    simp only [len] at h1 ⊢
    cases S <;> simp [h1]

omit [Profile] in
theorem between_ne {S : List Nat} {s e : Nat} (h : s < e) (he : e ≤ S.length) : between S s e ≠ [] := by
  intro h0
  have := between_length (s := s) he
  rw [h0] at this; simp at this; omega

theorem predecessor_eq (h : Stores m k S) {sym : BV} (hw : sym.WF) (hl : sym.len = k) (s e : Nat) :
    ResBV k (m.predecessor s e sym) (inRange S s e ((between S s e).filter (· ≤ bitsToNat sym.bits)).max?) := by
  unfold predecessor inRange
  rw [isEmpty_eq h, h.len, h.bp]
  by_cases hb : e ≤ s ∨ e > S.length
  · rw [if_pos hb, if_pos (by rcases hb with hb | hb <;> simp [hb])]; exact resBV_none k
  · rw [if_neg hb, if_neg (by
      have : S ≠ [] := by intro h0; rw [h0] at hb; simp at hb; omega
      simp [this]; omega)]
    have hr := reads_BV hw hl
    rw [← h.bits] at hr
    have := predLoop_eq (searchOk_BV h sym) m.data S (between S s e) 0 s e 0 (bitsToNat sym.bits) (BV.fromZeros k)
      ⟨BV.fromZeros k, none, none⟩ none rfl (by omega) h.good rfl (Seg.of_take (by omega) (by omega))
      (between_ne (by omega) (by omega)) (by simpa only [searchBV, h.bp, h.bits] using hr)
      (holdsBV_init k) ⟨none, rfl, trivial⟩
    obtain ⟨o, o1, o2⟩ := this
    refine resBV_rep ⟨o, o1, ?_⟩
    rw [h.bits] at o2
    simp only [Nat.zero_mul, orElse, upTo, Nat.zero_add] at o2
    cases hm : ((between S s e).filter (· ≤ bitsToNat sym.bits)).max? <;> rw [hm] at o2 <;> exact o2

theorem successor_eq (h : Stores m k S) {sym : BV} (hw : sym.WF) (hl : sym.len = k) (s e : Nat) :
    ResBV k (m.successor s e sym) (inRange S s e ((between S s e).filter (bitsToNat sym.bits ≤ ·)).min?) := by
  unfold successor inRange
  rw [isEmpty_eq h, h.len, h.bp]
  by_cases hb : e ≤ s ∨ e > S.length
  · rw [if_pos hb, if_pos (by rcases hb with hb | hb <;> simp [hb])]; exact resBV_none k
  · rw [if_neg hb, if_neg (by
      have : S ≠ [] := by intro h0; rw [h0] at hb; simp at hb; omega
      simp [this]; omega)]
    have hr := reads_BV hw hl
    rw [← h.bits] at hr
    have := succLoop_eq (searchOk_BV h sym) m.data S (between S s e) 0 s e 0 (bitsToNat sym.bits) (BV.fromZeros k)
      ⟨BV.fromZeros k, none, none⟩ none rfl (by omega) h.good rfl (Seg.of_take (by omega) (by omega))
      (between_ne (by omega) (by omega)) (by simpa only [searchBV, h.bp, h.bits] using hr)
      (holdsBV_init k) ⟨none, rfl, trivial⟩
    obtain ⟨o, o1, o2⟩ := this
    refine resBV_rep ⟨o, o1, ?_⟩
    rw [h.bits] at o2
    simp only [Nat.zero_mul, orElse, downTo, Nat.zero_add] at o2
    cases hm : ((between S s e).filter (bitsToNat sym.bits ≤ ·)).min? <;> rw [hm] at o2 <;> exact o2

theorem predecessorU64_eq (h : Stores m k S) (hk : k ≤ 64) (sym : Word) (s e : Nat) :
    ResU64 (m.predecessorU64 s e sym) (inRange S s e ((between S s e).filter (· ≤ sym.toNat % 2 ^ k)).max?) := by
  unfold predecessorU64 inRange
  rw [isEmpty_eq h, h.len, h.bp]
  by_cases hb : e ≤ s ∨ e > S.length
  · rw [if_pos hb, if_pos (by rcases hb with hb | hb <;> simp [hb])]; exact resU64_none
  · rw [if_neg hb, if_neg (by
      have : S ≠ [] := by intro h0; rw [h0] at hb; simp at hb; omega
      simp [this]; omega)]
    have hr := reads_U64 sym hk
    rw [← h.bits] at hr
    have := predLoop_eq (searchOk_U64 h hk sym) m.data S (between S s e) 0 s e 0 (sym.toNat % 2 ^ m.data.length) 0#64
      ⟨0#64, none, none⟩ none rfl (by omega) h.good rfl (Seg.of_take (by omega) (by omega))
      (between_ne (by omega) (by omega)) (by simpa only [searchU64, h.bp, h.bits] using hr)
      ⟨rfl, by simp⟩ ⟨none, rfl, trivial⟩
    obtain ⟨o, o1, o2⟩ := this
    refine resU64_rep (k := k) ⟨o, o1, ?_⟩
    rw [h.bits] at o2
    simp only [Nat.zero_mul, orElse, upTo, Nat.zero_add] at o2
    cases hm : ((between S s e).filter (· ≤ sym.toNat % 2 ^ k)).max? <;> rw [hm] at o2 <;> exact o2

theorem successorU64_eq (h : Stores m k S) (hk : k ≤ 64) (sym : Word) (s e : Nat) :
    ResU64 (m.successorU64 s e sym) (inRange S s e ((between S s e).filter (sym.toNat % 2 ^ k ≤ ·)).min?) := by
  unfold successorU64 inRange
  rw [isEmpty_eq h, h.len, h.bp]
  by_cases hb : e ≤ s ∨ e > S.length
  · rw [if_pos hb, if_pos (by rcases hb with hb | hb <;> simp [hb])]; exact resU64_none
  · rw [if_neg hb, if_neg (by
      have : S ≠ [] := by intro h0; rw [h0] at hb; simp at hb; omega
      simp [this]; omega)]
    have hr := reads_U64 sym hk
    rw [← h.bits] at hr
    have := succLoop_eq (searchOk_U64 h hk sym) m.data S (between S s e) 0 s e 0 (sym.toNat % 2 ^ m.data.length) 0#64
      ⟨0#64, none, none⟩ none rfl (by omega) h.good rfl (Seg.of_take (by omega) (by omega))
      (between_ne (by omega) (by omega)) (by simpa only [searchU64, h.bp, h.bits] using hr)
      ⟨rfl, by simp⟩ ⟨none, rfl, trivial⟩
    obtain ⟨o, o1, o2⟩ := this
    refine resU64_rep (k := k) ⟨o, o1, ?_⟩
    rw [h.bits] at o2
    simp only [Nat.zero_mul, orElse, downTo, Nat.zero_add] at o2
    cases hm : ((between S s e).filter (sym.toNat % 2 ^ k ≤ ·)).min? <;> rw [hm] at o2 <;> exact o2

/-! ## Iterators -/

omit [Profile] in
theorem repr_of {α : Type} (ops : VecOps α) (n : Nat) (hn : n < 2 ^ 64) (hl : ops.len = n)
    (h1 : ∀ i, n ≤ i → ops.get i = .ok none)
    (h2 : ∀ i, i < n → ∃ t, ops.getUnchecked i = .ok t ∧ ops.get i = .ok (some t)) :
    ∃ l : List α, GenIter.Repr ops l ∧ l.length = n := by
  have key : ∀ j, j ≤ n → ∃ l : List α, l.length = j ∧
      ∀ i x, l[i]? = some x → ops.getUnchecked i = .ok x ∧ ops.get i = .ok (some x) := by
    intro j
    induction j with
    | zero => intro _; exact ⟨[], rfl, by simp⟩
    | succ j ih =>
      intro hj
      obtain ⟨l, l1, l2⟩ := ih (by omega)
      obtain ⟨t, t1, t2⟩ := h2 j (by omega)
      refine ⟨l ++ [t], by simp [l1], ?_⟩
      intro i x hx
      rcases Nat.lt_or_ge i j with hi | hi
      · rw [List.getElem?_append_left (by omega)] at hx
        exact l2 i x hx
      · rw [List.getElem?_append_right (by omega)] at hx
        have h0 : i - l.length = 0 := by
          rcases Nat.eq_zero_or_pos (i - l.length) with h | h
          · exact h
          · rw [List.getElem?_eq_none (by simp only [List.length_singleton]; omega)] at hx; simp at hx
        rw [h0] at hx
        simp at hx
        have : i = j := by omega
        subst this; subst hx
        exact ⟨t1, t2⟩
  obtain ⟨l, l1, l2⟩ := key n (Nat.le_refl n)
  refine ⟨l, ⟨by omega, by omega, ?_, fun i x hx => (l2 i x hx).1⟩, l1⟩
  intro i
  rcases Nat.lt_or_ge i n with hi | hi
  · rw [List.getElem?_eq_getElem (by omega)]
    exact (l2 i _ (List.getElem?_eq_getElem (by omega))).2
  · rw [List.getElem?_eq_none (by omega)]
    exact h1 i hi

omit [Profile] in
theorem reprBV {ops : VecOps BV} {L : List Nat} (hn : L.length < 2 ^ 64) (hl : ops.len = L.length)
    (h1 : ∀ i, ResBV k (ops.get i) L[i]?)
    (h2 : ∀ i x, L[i]? = some x → ops.get i = (do let t ← ops.getUnchecked i; pure (some t))) :
    ∃ l : List BV, GenIter.Repr ops l ∧ l.map BV.bits = L.map (natToBits k) ∧ ∀ v ∈ l, v.WF := by
  obtain ⟨l, r1, r2⟩ := repr_of ops L.length hn hl
    (by
      intro i hi
      obtain ⟨ov, o1, o2, _⟩ := h1 i
      rw [List.getElem?_eq_none hi] at o2
      cases ov with
      | none => exact o1
      | some v => simp at o2)
    (by
      intro i hi
      have hx : L[i]? = some L[i] := List.getElem?_eq_getElem hi
      obtain ⟨ov, o1, o2, _⟩ := h1 i
      rw [hx] at o2
      rw [h2 i _ hx] at o1
      obtain ⟨t, t1, t2⟩ := bind_eq_ok.mp o1
      refine ⟨t, t1, ?_⟩
      rw [h2 i _ hx, t1]; rfl)
  have hel : ∀ i : Nat, l[i]?.map BV.bits = L[i]?.map (natToBits k) ∧ ∀ v : BV, v ∈ l[i]? → v.WF := by
    intro i
    obtain ⟨ov, o1, o2, o3⟩ := h1 i
    rw [r1.get i] at o1
    injection o1 with o1
    subst o1
    exact ⟨o2, o3⟩
  refine ⟨l, r1, ?_, ?_⟩
  · apply List.ext_getElem?
    intro i
    rw [List.getElem?_map, List.getElem?_map]
    exact (hel i).1
  · intro v hv
    obtain ⟨i, hi, rfl⟩ := List.mem_iff_getElem.mp hv
    exact (hel i).2 _ (by simp [hi])

omit [Profile] in
theorem reprU64 {ops : VecOps Word} {L : List Nat} (hn : L.length < 2 ^ 64) (hl : ops.len = L.length)
    (h1 : ∀ i, ResU64 (ops.get i) L[i]?)
    (h2 : ∀ i x, L[i]? = some x → ops.get i = (do let t ← ops.getUnchecked i; pure (some t))) :
    ∃ l : List Word, GenIter.Repr ops l ∧ l.map BitVec.toNat = L := by
  obtain ⟨l, r1, r2⟩ := repr_of ops L.length hn hl
    (by
      intro i hi
      obtain ⟨ov, o1, o2⟩ := h1 i
      rw [List.getElem?_eq_none hi] at o2
      cases ov with
      | none => exact o1
      | some v => simp at o2)
    (by
      intro i hi
      have hx : L[i]? = some L[i] := List.getElem?_eq_getElem hi
      obtain ⟨ov, o1, o2⟩ := h1 i
      rw [h2 i _ hx] at o1
      obtain ⟨t, t1, t2⟩ := bind_eq_ok.mp o1
      refine ⟨t, t1, ?_⟩
      rw [h2 i _ hx, t1]; rfl)
  refine ⟨l, r1, ?_⟩
  apply List.ext_getElem?
  intro i
  rw [List.getElem?_map]
  obtain ⟨ov, o1, o2⟩ := h1 i
  rw [r1.get i] at o1
  injection o1 with o1
  rw [o1]; exact o2

omit [Profile] in
theorem lt_of_getElem? {L : List Nat} {i x : Nat} (h : L[i]? = some x) : i < L.length := by
  rcases Nat.lt_or_ge i L.length with h' | h'
  · exact h'
  · rw [List.getElem?_eq_none h'] at h; simp at h

theorem reprValue (h : Stores m k S) (hn : S.length < 2 ^ 64) :
    ∃ l : List BV, GenIter.Repr m.valueOps l ∧ l.map BV.bits = S.map (natToBits k) ∧ ∀ v ∈ l, v.WF :=
  reprBV hn h.len (getValue_eq h) (by
    intro i x hx
    have := lt_of_getElem? hx
    simp only [valueOps, getValue]
    rw [if_neg (by have := h.ne; simp [this, h.len]; omega)])

theorem reprNum (h : Stores m k S) (hk : k ≤ 64) (hn : S.length < 2 ^ 64) :
    ∃ l : List Word, GenIter.Repr m.numOps l ∧ l.map BitVec.toNat = S :=
  reprU64 hn h.len (getU64_eq h hk) (by
    intro i x hx
    have := lt_of_getElem? hx
    simp only [numOps, getU64]
    rw [if_neg (by have := h.ne; simp [this, h.len, h.bp]; omega)])

theorem reprSorted (h : Stores m k S) (hn : S.length < 2 ^ 64) :
    ∃ l : List BV, GenIter.Repr m.sortedOps l ∧ l.map BV.bits = (sorted S).map (natToBits k) ∧ ∀ v ∈ l, v.WF :=
  reprBV (by rw [sorted_length]; exact hn) (by rw [sorted_length]; exact h.len) (getSorted_eq h) (by
    intro i x hx
    have := lt_of_getElem? hx
    rw [sorted_length] at this
    simp only [sortedOps, getSorted]
    rw [if_neg (by rw [h.len]; omega)])

theorem reprSortedNum (h : Stores m k S) (hk : k ≤ 64) (hn : S.length < 2 ^ 64) :
    ∃ l : List Word, GenIter.Repr m.sortedNumOps l ∧ l.map BitVec.toNat = sorted S :=
  reprU64 (by rw [sorted_length]; exact hn) (by rw [sorted_length]; exact h.len) (getSortedU64_eq h hk) (by
    intro i x hx
    have := lt_of_getElem? hx
    rw [sorted_length] at this
    simp only [sortedNumOps, getSortedU64]
    rw [if_neg (by rw [h.len, h.bp]; omega)])

end Vers.WM
