import Verif.Proofs.RsBuild

/-! # rank and select of `RsVec` -/

set_option linter.unusedSimpArgs false

namespace Vers

variable [Profile]
namespace RsVec

variable {rs : RsVec}

theorem superBefore_eq (h : rs.Inv) (zero : Bool) {s : Nat} (hs : s < rs.supers.length) :
    rs.superBefore zero s = .ok (C rs.data (!zero) (8192 * s)) := by
  unfold superBefore
  rw [idx_of_some (h.sval s hs), ok_bind]
  cases zero with
  | true => rfl
  | false =>
    have h1 := C_compl rs.data (8192 * s)
    simp only [Bool.false_eq_true, if_false, Bool.not_false]
    rw [subR_of_le (by omega)]; congr 1; omega

omit [Profile] in
/-- ones and zeros in a window -/
theorem C_window (d : List Word) {i j : Nat} (h : i ≤ j) :
    (C d true j - C d true i) + (C d false j - C d false i) = j - i := by
  have h1 := C_compl d i
  have h2 := C_compl d j
  have h3 := C_mono d true h
  have h4 := C_mono d false h
  omega

theorem rankBlockBefore_eq (h : rs.Inv) (zero : Bool) {j : Nat} (hj : j < rs.blocks.length) :
    rs.rankBlockBefore zero j = .ok (C rs.data (!zero) (512 * j) - C rs.data (!zero) (8192 * (j / 16))) := by
  unfold rankBlockBefore
  rw [idx_of_some (h.bval j hj), ok_bind]
  cases zero with
  | true => rfl
  | false =>
    have h1 := C_window rs.data (i := 8192 * (j / 16)) (j := 512 * j) (by omega)
    simp only [Bool.false_eq_true, if_false, Bool.not_false]
    rw [subR_of_le (by omega)]; congr 1; omega

theorem blockBefore_eq (h : rs.Inv) (zero : Bool) {s j : Nat} (hj : j < rs.blocks.length)
    (hs : j / 16 = s) :
    rs.blockBefore zero (s * 16) j = .ok (C rs.data (!zero) (512 * j) - C rs.data (!zero) (8192 * s)) := by
  unfold blockBefore
  rw [idx_of_some (h.bval j hj), ok_bind, hs]
  cases zero with
  | true => rfl
  | false =>
    have h1 := C_window rs.data (i := 8192 * s) (j := 512 * j) (by omega)
    simp only [Bool.false_eq_true, if_false, Bool.not_false]
    rw [subR_of_le (by omega), ok_bind, subR_of_le (by omega)]; congr 1; omega

omit [Profile] in
theorem rankWords_eq (zero : Bool) (d : List Word) (a n : Nat) (h : a + n ≤ d.length) :
    rankWords zero ((d.take (a + n)).drop a) = C d (!zero) (64 * (a + n)) - C d (!zero) (64 * a) := by
  unfold rankWords
  induction n with
  | zero => simp
  | succ n ih =>
    have ih := ih (by omega)
    have hm := C_mono d (!zero) (i := 64 * a) (j := 64 * (a + n)) (by omega)
    have hlt : a + n < d.length := by omega
    have e : (d.take (a + (n + 1))).drop a = (d.take (a + n)).drop a ++ [d[a + n]] := by
      rw [show a + (n + 1) = a + n + 1 by omega, List.take_add_one, List.getElem?_eq_getElem hlt,
        List.drop_append_of_le_length (by simp; omega)]
      rfl
    rw [e, List.map_append, List.sum_append, ih]
    have := C_full_word hlt zero
    simp only [List.map_cons, List.map_nil, List.sum_cons, List.sum_nil, pc] at this ⊢
    rw [show a + (n + 1) = a + n + 1 by omega, this]
    omega

theorem rank_eq (h : rs.Inv) (zero : Bool) (pos : Nat) :
    rs.rank zero pos = .ok (C rs.data (!zero) (min pos rs.len)) := by
  unfold rank
  have hwf := h.wf
  have hsl := h.slen
  have hbl := h.blen
  by_cases hp : pos ≥ rs.len
  · rw [if_pos hp, Nat.min_eq_right hp]
    cases zero with
    | true => simp [h.r0]
    | false => simp [h.r1]
  · rw [if_neg hp, Nat.min_eq_left (by omega)]
    simp only
    rw [superBefore_eq h zero (by omega), ok_bind, rankBlockBefore_eq h zero (by omega), ok_bind,
      sliceR_of_le (by omega) (by omega), ok_bind]
    have hi : pos / 64 < rs.data.length := by omega
    rw [idx_of_lt hi, ok_bind]
    have e1 : rankWords zero ((rs.data.take (pos / 64)).drop (pos / 512 * 512 / 64)) =
        C rs.data (!zero) (64 * (pos / 64)) - C rs.data (!zero) (512 * (pos / 512)) := by
      have := rankWords_eq zero rs.data (pos / 512 * 512 / 64) (pos / 64 - pos / 512 * 512 / 64) (by omega)
      rw [show pos / 512 * 512 / 64 + (pos / 64 - pos / 512 * 512 / 64) = pos / 64 by omega] at this
      rw [this]; congr 2; omega
    have e2 : popcount ((if zero = true then ~~~rs.data[pos / 64] else rs.data[pos / 64]) &&&
        ((1#64 <<< (pos % 64)) - 1#64)) = cnt (fun i => rs.data[pos / 64].getLsbD i == !zero) (pos % 64) := by
      rw [BV.popcount_masked _ _ (by omega)]
      apply cnt_congr
      intro i hi
      cases zero with
      | true =>
        simp only [if_true, BitVec.getLsbD_not, Bool.not_true]
        have : i < 64 := by omega
        cases rs.data[pos / 64].getLsbD i <;> simp [this]
      | false =>
        simp only [Bool.false_eq_true, if_false, Bool.not_false]
        cases rs.data[pos / 64].getLsbD i <;> rfl
    rw [e1, e2]
    have e3 := C_word hi (!zero) (show pos % 64 ≤ 64 by omega)
    rw [show 64 * (pos / 64) + pos % 64 = pos by omega] at e3
    rw [e3]
    have m1 := C_mono rs.data (!zero) (i := 8192 * (pos / 512 / 16)) (j := 512 * (pos / 512)) (by omega)
    have m2 := C_mono rs.data (!zero) (i := 512 * (pos / 512)) (j := 64 * (pos / 64)) (by omega)
    rw [show pos / 8192 = pos / 512 / 16 by omega, pure_eq_ok]
    congr 1
    omega

/-! ## select -/

/-- Super block `s` contains the searched bit, or a later one does. -/
theorem searchSuperBin_eq (h : rs.Inv) (zero : Bool) (r : Nat) :
    ∀ (fuel s upper : Nat), upper - s < fuel → s ≤ upper → upper < rs.supers.length →
      C rs.data (!zero) (8192 * s) ≤ r →
      ∃ s', rs.searchSuperBin zero r fuel s upper = .ok s' ∧ s' < rs.supers.length ∧
        C rs.data (!zero) (8192 * s') ≤ r := by
  intro fuel
  induction fuel with
  | zero => intro s upper h1; omega
  | succ fuel ih =>
    intro s upper hf hsu hu hc
    unfold searchSuperBin
    rw [subR_of_le hsu, ok_bind]
    by_cases hd : upper - s > 8
    · rw [if_pos hd]
      simp only
      have hm : s + (upper - s) / 2 < rs.supers.length := by omega
      have hkey : ∃ z, rs.searchSuperKey zero (s + (upper - s) / 2) = .ok z ∧
          C rs.data (!zero) (8192 * (s + (upper - s) / 2)) ≤ z := by
        unfold searchSuperKey
        rw [idx_of_some (h.sval _ hm), ok_bind]
        cases zero with
        | true => exact ⟨_, rfl, by simp⟩
        | false =>
          have := C_compl rs.data (8192 * (s + (upper - s) / 2))
          simp only [Bool.false_eq_true, if_false, Bool.not_false]
          rw [subR_of_le (by omega)]
          exact ⟨_, rfl, by omega⟩
      obtain ⟨z, hz1, hz2⟩ := hkey
      rw [hz1, ok_bind]
      by_cases hzr : z ≤ r
      · rw [if_pos hzr]
        exact ih _ _ (by omega) (by omega) hu (by omega)
      · rw [if_neg hzr]
        exact ih _ _ (by omega) (by omega) (by omega) hc
    · rw [if_neg hd]
      exact ⟨s, rfl, by omega, hc⟩

/-- `s` is the super block of the bit with rank `r` -/
def IsSuper (rs : RsVec) (zero : Bool) (r s : Nat) : Prop :=
  s < rs.supers.length ∧ C rs.data (!zero) (8192 * s) ≤ r ∧
    (s + 1 < rs.supers.length → r < C rs.data (!zero) (8192 * (s + 1)))

theorem searchSuperLin_eq (h : rs.Inv) (zero : Bool) (r : Nat) :
    ∀ (fuel s : Nat), rs.supers.length - s < fuel → s < rs.supers.length →
      C rs.data (!zero) (8192 * s) ≤ r →
      ∃ s', rs.searchSuperLin zero r fuel s = .ok s' ∧ IsSuper rs zero r s' := by
  intro fuel
  induction fuel with
  | zero => intro s h1; omega
  | succ fuel ih =>
    intro s hf hs hc
    unfold searchSuperLin
    by_cases hl : rs.supers.length > s + 1
    · rw [if_pos hl, superBefore_eq h zero (by omega), ok_bind]
      by_cases hz : C rs.data (!zero) (8192 * (s + 1)) ≤ r
      · rw [if_pos hz]; exact ih (s + 1) (by omega) (by omega) hz
      · rw [if_neg hz]; exact ⟨s, rfl, hs, hc, fun _ => by omega⟩
    · rw [if_neg hl]; exact ⟨s, rfl, hs, hc, fun h => by omega⟩

omit [Profile] in
theorem supers_pos (h : rs.Inv) {b : Bool} {r : Nat} (hr : r < C rs.data b rs.len) :
    0 < rs.supers.length := by
  have := C_le rs.data b rs.len
  have h1 := h.wf
  have h2 := h.slen
  omega

/-- `search_super_block` started at the select hint, or at any super block not beyond it -/
theorem searchSuper_eq (h : rs.Inv) (zero : Bool) {r : Nat} (hr : r < C rs.data (!zero) rs.len)
    {e : Nat × Nat} (he : rs.selects[r / 8192]? = some e) :
    ∃ s, rs.searchSuper zero (prj zero e) r = .ok s ∧ IsSuper rs zero r s := by
  have hpos := supers_pos h hr
  obtain ⟨e1, e2, h1, h2, h3, h4, h5⟩ := (h.sel zero).ok (r / 8192) (by apply Nat.div_le_div_right; omega)
  rw [he] at h1; cases h1
  unfold searchSuper
  rw [idx_of_some h2, ok_bind]
  obtain ⟨s, g1, g2, g3⟩ := searchSuperBin_eq h zero r (rs.supers.length + 1) (prj zero e) (prj zero e2)
    (by omega) h3 (by omega) (by omega)
  rw [g1, ok_bind]
  exact searchSuperLin_eq h zero r _ s (by omega) g2 g3

theorem selectSuper_eq (h : rs.Inv) (zero : Bool) {r : Nat} (hr : r < C rs.data (!zero) rs.len) :
    ∃ s, rs.selectSuper zero r = .ok s ∧ IsSuper rs zero r s := by
  have hpos := supers_pos h hr
  obtain ⟨e1, e2, h1, h2, h3, h4, h5⟩ := (h.sel zero).ok (r / 8192) (by apply Nat.div_le_div_right; omega)
  unfold selectSuper
  rw [idx_of_some h1, ok_bind]
  simp only
  by_cases hl : rs.supers.length > prj zero e1 + 1
  · rw [if_pos hl, superBefore_eq h zero (by omega), ok_bind]
    by_cases hz : C rs.data (!zero) (8192 * (prj zero e1 + 1)) ≤ r
    · rw [if_pos hz]; exact searchSuper_eq h zero hr h1
    · rw [if_neg hz]; exact ⟨_, rfl, by omega, by omega, fun _ => by omega⟩
  · rw [if_neg hl]; exact ⟨_, rfl, by omega, by omega, fun _ => by omega⟩

/-- `j` is the block of the bit with rank `r` -/
def IsBlock (rs : RsVec) (zero : Bool) (r j : Nat) : Prop :=
  j < rs.blocks.length ∧ C rs.data (!zero) (512 * j) ≤ r ∧
    (j + 1 < rs.blocks.length → r < C rs.data (!zero) (512 * (j + 1)))

/-- One pass of the unrolled binary search: the window `[j, j + 2^n)` keeps the answer. -/
theorem searchBlockStep_eq (h : rs.Inv) (zero : Bool) {r s : Nat} (hsr : C rs.data (!zero) (8192 * s) ≤ r) :
    ∀ (n j : Nat) (bs : List Nat), bs = ((List.range n).map fun i => 2 ^ i).reverse → j / 16 = s →
      j + 2 ^ n ≤ 16 * (s + 1) →
      j < rs.blocks.length → C rs.data (!zero) (512 * j) ≤ r →
      (j + 2 ^ n < rs.blocks.length → r < C rs.data (!zero) (512 * (j + 2 ^ n))) →
      ∃ j', rs.searchBlockStep zero (r - C rs.data (!zero) (8192 * s)) (s * 16) j bs = .ok j' ∧
        IsBlock rs zero r j' ∧ j' / 16 = s := by
  intro n
  induction n with
  | zero =>
    intro j bs hbs hj hw hl hc hn
    subst hbs
    exact ⟨j, rfl, ⟨hl, hc, by simpa using hn⟩, hj⟩
  | succ n ih =>
    intro j bs hbs hj hw hl hc hn
    have hp : 0 < 2 ^ n := Nat.pos_of_ne_zero (by simp)
    have hp2 : 2 ^ (n + 1) = 2 ^ n + 2 ^ n := by rw [Nat.pow_succ]; omega
    rw [List.range_succ, List.map_append, List.reverse_append] at hbs
    simp only [List.map_cons, List.map_nil, List.reverse_cons, List.reverse_nil, List.nil_append,
      List.singleton_append] at hbs
    subst hbs
    unfold searchBlockStep
    by_cases hb : rs.blocks.length > j + 2 ^ n
    · rw [if_pos hb]
      have hdiv : (j + 2 ^ n) / 16 = s := by omega
      have hm := C_mono rs.data (!zero) (i := 8192 * s) (j := 512 * (j + 2 ^ n)) (by omega)
      rw [blockBefore_eq h zero hb hdiv, ok_bind]
      by_cases hz : r - C rs.data (!zero) (8192 * s) ≥
          C rs.data (!zero) (512 * (j + 2 ^ n)) - C rs.data (!zero) (8192 * s)
      · rw [if_pos hz]
        refine ih _ _ rfl hdiv (by omega) hb (by omega) ?_
        intro hlt
        rw [show j + 2 ^ n + 2 ^ n = j + 2 ^ (n + 1) by omega] at hlt ⊢
        exact hn hlt
      · rw [if_neg hz]
        exact ih _ _ rfl hj (by omega) hl hc (fun _ => by omega)
    · rw [if_neg hb]
      exact ih _ _ rfl hj (by omega) hl hc (fun hlt => by omega)

theorem searchBlock_eq (h : rs.Inv) (zero : Bool) {r s : Nat} (hs : IsSuper rs zero r s) :
    ∃ j, rs.searchBlock zero (r - C rs.data (!zero) (8192 * s)) (s * 16) = .ok j ∧
      IsBlock rs zero r j ∧ j / 16 = s := by
  obtain ⟨h1, h2, h3⟩ := hs
  have hsl := h.slen
  have hbl := h.blen
  unfold searchBlock
  apply searchBlockStep_eq h zero h2 4 (s * 16) _ (by decide) (by omega) (by omega) (by omega)
  · rw [show 512 * (s * 16) = 8192 * s by omega]; exact h2
  · intro hlt
    rw [show 512 * (s * 16 + 2 ^ 4) = 8192 * (s + 1) by omega]
    exact h3 (by omega)

/-- the selected position, in terms of the limb counts -/
def IsPos (d : List Word) (b : Bool) (r p : Nat) : Prop := lbit d p = b ∧ C d b p = r

omit [Profile] in
theorem isPos_lt {d : List Word} {b : Bool} {r p n : Nat} (h : IsPos d b r p) (hr : r < C d b n) : p < n := by
  rcases Nat.lt_or_ge p n with h' | h'
  · exact h'
  · have := C_mono d b h'
    have := h.2
    omega

omit [Profile] in
theorem isPos_unique {d : List Word} {b : Bool} {r p q : Nat} (h : IsPos d b r p) (h' : IsPos d b r q) :
    p = q := by
  apply cnt_inj (f := fun j => lbit d j == b)
  · simp [h.1]
  · simp [h'.1]
  · exact h.2.trans h'.2.symm

theorem selectInWord_pos {d : List Word} {k r : Nat} (zero : Bool) (hk : k < d.length)
    (hr : C d (!zero) (64 * k) ≤ r) (hr2 : r < C d (!zero) (64 * (k + 1))) :
    ∃ p, selectInWord (r - C d (!zero) (64 * k)) (if zero then ~~~d[k] else d[k]) = .ok p ∧
      IsPos d (!zero) r (64 * k + p) := by
  have hw := C_full_word hk zero
  have hlt : r - C d (!zero) (64 * k) < popcount (if zero then ~~~d[k] else d[k]) := by
    have : popcount (if zero then ~~~d[k] else d[k]) = pc zero d[k] := by
      unfold pc popcountZ; cases zero <;> rfl
    omega
  obtain ⟨p, h1, h2, h3, h4⟩ := selectInWord_eq hlt
  have hfun : ∀ i, i < 64 → (if zero then ~~~d[k] else d[k]).getLsbD i = (d[k].getLsbD i == !zero) := by
    intro i hi
    cases zero with
    | true => simp only [if_true, BitVec.getLsbD_not, Bool.not_true]; cases d[k].getLsbD i <;> simp [hi]
    | false => simp only [Bool.false_eq_true, if_false, Bool.not_false]; cases d[k].getLsbD i <;> rfl
  refine ⟨p, h1, ?_, ?_⟩
  · rw [hfun p h2] at h3
    rw [lbit_word h2, List.getElem?_eq_getElem hk]
    simpa using h3
  · rw [C_word hk _ (by omega), ← cnt_congr (fun i hi => hfun i (by omega)), h4]
    omega

theorem searchWordStep_eq {zero : Bool} {r j : Nat} (hr : r < C rs.data (!zero) (64 * rs.data.length)) :
    ∀ (steps n : Nat), steps + n = 7 → C rs.data (!zero) (64 * (8 * j + n)) ≤ r →
      r < C rs.data (!zero) (64 * (8 * j + 8)) →
      ∃ p, rs.searchWordStep zero j steps n (r - C rs.data (!zero) (64 * (8 * j + n))) = .ok p ∧
        IsPos rs.data (!zero) r p := by
  intro steps
  have hlt : ∀ n, C rs.data (!zero) (64 * (8 * j + n)) ≤ r → 8 * j + n < rs.data.length := by
    intro n hn
    rcases Nat.lt_or_ge (8 * j + n) rs.data.length with h' | h'
    · exact h'
    · have := C_mono rs.data (!zero) (i := 64 * rs.data.length) (j := 64 * (8 * j + n)) (by omega)
      omega
  induction steps with
  | zero =>
    intro n hn hc hc2
    have hl := hlt n hc
    have hn7 : n = 7 := by omega
    unfold searchWordStep
    rw [show j * 512 / 64 + n = 8 * j + n by omega, idx_of_lt hl, ok_bind]
    obtain ⟨p, hp1, hp2⟩ := selectInWord_pos (r := r) zero hl hc
      (by rw [show 8 * j + n + 1 = 8 * j + 8 by omega]; exact hc2)
    rw [hp1, ok_bind]
    exact ⟨_, rfl, by rw [show j * 512 + 64 * n + p = 64 * (8 * j + n) + p by omega]; exact hp2⟩
  | succ steps ih =>
    intro n hn hc hc2
    have hl := hlt n hc
    have hw := C_full_word hl zero
    unfold searchWordStep
    rw [show j * 512 / 64 + n = 8 * j + n by omega, idx_of_lt hl, ok_bind]
    simp only
    have hpc : (if zero = true then popcountZ rs.data[8 * j + n] else popcount rs.data[8 * j + n]) =
        pc zero rs.data[8 * j + n] := rfl
    rw [hpc]
    by_cases hz : pc zero rs.data[8 * j + n] ≤ r - C rs.data (!zero) (64 * (8 * j + n))
    · rw [if_pos hz]
      have := ih (n + 1) (by omega) (by rw [← Nat.add_assoc, hw]; omega) hc2
      rw [← Nat.add_assoc (8 * j), hw, ← Nat.sub_sub] at this
      exact this
    · rw [if_neg hz]
      obtain ⟨p, hp1, hp2⟩ := selectInWord_pos (r := r) zero hl hc (by omega)
      rw [hp1, ok_bind]
      exact ⟨_, rfl, by rw [show j * 512 + 64 * n + p = 64 * (8 * j + n) + p by omega]; exact hp2⟩

theorem searchWord_eq (h : rs.Inv) {zero : Bool} {r j : Nat} (hr : r < C rs.data (!zero) rs.len)
    (hj : IsBlock rs zero r j) :
    ∃ p, rs.searchWord zero (r - C rs.data (!zero) (512 * j)) j = .ok p ∧ IsPos rs.data (!zero) r p := by
  have hwf := h.wf
  have hbl := h.blen
  obtain ⟨h1, h2, h3⟩ := hj
  have hr' : r < C rs.data (!zero) (64 * rs.data.length) :=
    Nat.lt_of_lt_of_le hr (C_mono _ _ (by omega))
  have := searchWordStep_eq (j := j) hr' 7 0 (by omega)
    (by rw [show 64 * (8 * j + 0) = 512 * j by omega]; exact h2)
  rw [show 64 * (8 * j + 0) = 512 * j by omega] at this
  apply this
  rw [show 64 * (8 * j + 8) = 512 * (j + 1) by omega]
  by_cases hlt : j + 1 < rs.blocks.length
  · exact h3 hlt
  · exact Nat.lt_of_lt_of_le hr' (C_mono _ _ (by omega))

omit [Profile] in
theorem rankTotal_eq (h : rs.Inv) (zero : Bool) :
    (if zero then rs.rank0 else rs.rank1) = C rs.data (!zero) rs.len := by
  cases zero with
  | true => simp [h.r0]
  | false => simp [h.r1]

theorem select_of_super (h : rs.Inv) (zero : Bool) {r : Nat} (hr : r < C rs.data (!zero) rs.len)
    {s budget : Nat} (s1 : rs.selectSuper zero r budget = .ok s) (s2 : IsSuper rs zero r s) :
    ∃ p, rs.select zero r budget = .ok p ∧ IsPos rs.data (!zero) r p ∧ p < rs.len := by
  unfold select
  rw [rankTotal_eq h, if_neg (by omega)]
  rw [s1, ok_bind, superBefore_eq h zero s2.1, ok_bind, subR_of_le s2.2.1, ok_bind]
  obtain ⟨j, j1, j2, j3⟩ := searchBlock_eq h zero s2
  have hm := C_mono rs.data (!zero) (i := 8192 * s) (j := 512 * j) (by omega)
  have := j2.2.1
  rw [j1, ok_bind, blockBefore_eq h zero j2.1 j3, ok_bind, subR_of_le (by omega), ok_bind]
  rw [show r - C rs.data (!zero) (8192 * s) - (C rs.data (!zero) (512 * j) - C rs.data (!zero) (8192 * s)) =
    r - C rs.data (!zero) (512 * j) by omega]
  obtain ⟨p, p1, p2⟩ := searchWord_eq h hr j2
  exact ⟨p, p1, p2, isPos_lt p2 hr⟩

theorem select_eq (h : rs.Inv) (zero : Bool) {r : Nat} (hr : r < C rs.data (!zero) rs.len) :
    ∃ p, rs.select zero r = .ok p ∧ IsPos rs.data (!zero) r p ∧ p < rs.len := by
  obtain ⟨s, s1, s2⟩ := selectSuper_eq h zero hr
  exact select_of_super h zero hr s1 s2

theorem select_ge (h : rs.Inv) (zero : Bool) {r : Nat} (hr : C rs.data (!zero) rs.len ≤ r) :
    rs.select zero r = .ok rs.len := by
  unfold select
  rw [rankTotal_eq h, if_pos (by omega)]; rfl

end RsVec
end Vers
