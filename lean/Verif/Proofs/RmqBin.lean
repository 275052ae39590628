import Verif.Proofs.Base
import Verif.Model.Rmq
import Verif.SpecRmq
import Mathlib.Tactic.Linarith
import Mathlib.Tactic.Ring

set_option linter.unusedSimpArgs false

/-! # Proofs about the binary RMQ -/

namespace Vers

variable [Profile]

/-- the element at `t` as a number -/
def ev (data : List Word) (t : Nat) : Nat := (data.getD t 0#64).toNat

omit [Profile] in
theorem ev_of_lt {data : List Word} {t : Nat} (h : t < data.length) : ev data t = data[t].toNat := by
  simp [ev, List.getD_eq_getElem?_getD, List.getElem?_eq_getElem h]

/-- `m` is in `[i, j]` and minimizes `d` there -/
def MinOn (d : Nat → Nat) (i j m : Nat) : Prop := i ≤ m ∧ m ≤ j ∧ ∀ t, i ≤ t → t ≤ j → d m ≤ d t

omit [Profile] in
theorem MinOn.isRangeMin {data : List Word} {i j m : Nat} (h : MinOn (ev data) i j m)
    (hj : j < data.length) : Spec.IsRangeMin data i j m := by
  obtain ⟨h1, h2, h3⟩ := h
  have hm : m < data.length := by omega
  refine ⟨h1, h2, data[m], by rw [List.getElem?_eq_getElem hm], fun t y h4 h5 h6 => ?_⟩
  have ht : t < data.length := by omega
  rw [List.getElem?_eq_getElem ht] at h6
  have := h3 t h4 h5
  rw [ev_of_lt hm, ev_of_lt ht] at this
  injection h6 with h6
  rw [← h6]; exact this

omit [Profile] in
theorem minBy_eq {data : List Word} {a b : Nat} (ha : a < data.length) (hb : b < data.length) :
    minBy data a b = .ok (if ev data a ≤ ev data b then a else b) := by
  unfold minBy
  rw [idx_of_lt ha, idx_of_lt hb]
  simp only [ok_bind, pure_eq_ok]
  rw [ev_of_lt ha, ev_of_lt hb]
  by_cases h : data[a] ≤ data[b]
  · rw [if_pos h, if_pos (BitVec.le_def.mp h)]
  · rw [if_neg h, if_neg (fun h' => h (BitVec.le_def.mpr h'))]

omit [Profile] in
/-- combining minima of two ranges that cover the range -/
theorem MinOn.union {d : Nat → Nat} {i j i1 j1 i2 j2 a b : Nat} (h1 : MinOn d i1 j1 a)
    (h2 : MinOn d i2 j2 b) (hi1 : i ≤ i1) (hj1 : j1 ≤ j) (hi2 : i ≤ i2) (hj2 : j2 ≤ j)
    (hc : ∀ t, i ≤ t → t ≤ j → (i1 ≤ t ∧ t ≤ j1) ∨ (i2 ≤ t ∧ t ≤ j2)) :
    MinOn d i j (if d a ≤ d b then a else b) := by
  obtain ⟨a1, a2, a3⟩ := h1
  obtain ⟨b1, b2, b3⟩ := h2
  refine ⟨by split <;> omega, by split <;> omega, fun t ht1 ht2 => ?_⟩
  rcases hc t ht1 ht2 with ⟨h, h'⟩ | ⟨h, h'⟩
  · have := a3 t h h'
    split <;> omega
  · have := b3 t h h'
    split <;> omega

omit [Profile] in
theorem log2Ceil_le (n : Nat) : n ≤ 2 ^ log2Ceil n := by
  unfold log2Ceil
  split
  · simpa using by assumption
  · have := Nat.lt_log2_self (n := n - 1)
    omega

omit [Profile] in
theorem lt_of_lt_log2Ceil {n k : Nat} (h : k < log2Ceil n) : 2 ^ k < n := by
  unfold log2Ceil at h
  split at h
  · omega
  · have h1 : 2 ^ Nat.log2 (n - 1) ≤ n - 1 := Nat.log2_self_le (by omega)
    have h2 : 2 ^ k ≤ 2 ^ Nat.log2 (n - 1) := Nat.pow_le_pow_right (by omega) (by omega)
    omega

namespace BinRmq

omit [Profile] in
theorem flat_lt {n rl j k : Nat} (hj : j < n) (hk : k < rl) : j * rl + k < n * rl := by
  have : (j + 1) * rl ≤ n * rl := Nat.mul_le_mul_right _ hj
  rw [Nat.add_mul] at this
  omega

omit [Profile] in
theorem flat_inj {rl j k j' k' : Nat} (hk : k < rl) (hk' : k' < rl) (h : j * rl + k = j' * rl + k') :
    j = j' ∧ k = k' := by
  rcases Nat.lt_trichotomy j j' with h1 | h1 | h1
  · have : (j + 1) * rl ≤ j' * rl := Nat.mul_le_mul_right _ h1
    rw [Nat.add_mul] at this
    omega
  · subst h1; omega
  · have : (j' + 1) * rl ≤ j * rl := Nat.mul_le_mul_right _ h1
    rw [Nat.add_mul] at this
    omega

/-- entry `(j, k)` of the table is valid -/
def CellOk (data : List Word) (res : List Nat) (rl j k : Nat) : Prop :=
  ∃ r, res[j * rl + k]? = some r ∧ j + r < data.length ∧
    (j + 2 ^ k ≤ data.length → MinOn (ev data) j (j + 2 ^ k - 1) (j + r))

omit [Profile] in
theorem cell_of {data : List Word} {res : List Nat} {rl j k : Nat} (h : CellOk data res rl j k) :
    ∃ a, cell res rl j k = .ok a ∧ j ≤ a ∧ a < data.length ∧
      (j + 2 ^ k ≤ data.length → MinOn (ev data) j (j + 2 ^ k - 1) a) := by
  obtain ⟨r, h1, h2, h3⟩ := h
  refine ⟨r + j, ?_, by omega, by omega, ?_⟩
  · unfold cell
    rw [idx_of_some h1]
    rfl
  · rw [Nat.add_comm r j]; exact h3

theorem argMin_eq {data : List Word} {res : List Nat} {rl i j : Nat} (hj : j < data.length)
    (hi : 2 ^ i < data.length) (hc : ∀ j, j < data.length → CellOk data res rl j i) :
    ∃ a, argMin data res rl i j = .ok a ∧ j ≤ a ∧ a < data.length ∧
      (j + 2 ^ (i + 1) ≤ data.length → MinOn (ev data) j (j + 2 ^ (i + 1) - 1) a) := by
  have hp : 0 < 2 ^ i := Nat.two_pow_pos i
  have hs : 2 ^ (i + 1) = 2 ^ i + 2 ^ i := by rw [Nat.pow_succ]; omega
  unfold argMin
  by_cases h : j + 2 ^ i < data.length
  · rw [if_pos h]
    obtain ⟨a, a1, a2, a3, a4⟩ := cell_of (hc j hj)
    obtain ⟨b, b1, b2, b3, b4⟩ := cell_of (hc _ h)
    unfold argMinHead
    rw [a1, b1]
    simp only [ok_bind]
    rw [idx_of_lt a3, idx_of_lt b3]
    simp only [ok_bind]
    refine ⟨if ev data a < ev data b then a else b, ?_, ?_, ?_, ?_⟩
    · rw [ev_of_lt a3, ev_of_lt b3]
      by_cases hx : data[a] < data[b]
      · rw [if_pos hx, if_pos (BitVec.lt_def.mp hx)]; rfl
      · rw [if_neg hx, if_neg (fun h' => hx (BitVec.lt_def.mpr h'))]; rfl
    · split <;> omega
    · split <;> omega
    · intro hl
      have := MinOn.union (i := j) (j := j + 2 ^ (i + 1) - 1) (b4 (by omega)) (a4 (by omega)) (by omega) (by omega) (by omega)
        (by omega) (by intro t _ _; omega)
      have e : (if ev data a < ev data b then a else b) = if ev data b ≤ ev data a then b else a := by
        split <;> split <;> first | rfl | omega
      rw [e]; exact this
  · rw [if_neg h, subR_of_le (by omega)]
    simp only [ok_bind]
    rw [subR_of_le (by omega)]
    simp only [ok_bind]
    rw [if_neg (by omega)]
    exact ⟨j, rfl, by omega, hj, by intro; omega⟩

/-- columns up to `k` are valid -/
def ColsOk (data : List Word) (res : List Nat) (rl k : Nat) : Prop :=
  res.length = data.length * rl ∧ ∀ k', k' ≤ k → ∀ j, j < data.length → CellOk data res rl j k'

theorem step_eq {data : List Word} {res : List Nat} {rl i j : Nat} (hj : j < data.length)
    (hlen : data.length < 2 ^ 32) (hrl : i + 1 < rl)
    (hi : 2 ^ i < data.length) (hc : ColsOk data res rl i) :
    ∃ res', step data rl i j res = .ok res' ∧ ColsOk data res' rl i ∧ CellOk data res' rl j (i + 1) ∧
      (∀ j', j' ≠ j → res'[j' * rl + (i + 1)]? = res[j' * rl + (i + 1)]?) := by
  obtain ⟨a, a1, a2, a3, a4⟩ := argMin_eq hj hi (hc.2 i (by omega))
  have hin : j * rl + (i + 1) < res.length := by rw [hc.1]; exact flat_lt hj hrl
  have hmod : (a - j) % 2 ^ 32 = a - j := Nat.mod_eq_of_lt (by omega)
  refine ⟨res.set (j * rl + (i + 1)) (a - j), ?_, ⟨by simpa using hc.1, ?_⟩, ?_, ?_⟩
  · unfold step
    rw [a1]
    simp only [ok_bind]
    rw [subR_of_le a2]
    simp only [ok_bind]
    rw [Nat.add_assoc, setIdx_of_lt hin, hmod]
  · intro k' hk' j' hj'
    obtain ⟨r, h1, h2⟩ := hc.2 k' hk' j' hj'
    refine ⟨r, ?_, h2⟩
    rw [List.getElem?_set_ne, h1]
    intro h
    have := flat_inj (by omega) (by omega) h
    omega
  · refine ⟨a - j, ?_, by omega, ?_⟩
    · rw [List.getElem?_set_self hin]
    · rw [Nat.add_sub_cancel' a2]; exact a4
  · intro j' hne
    rw [List.getElem?_set_ne]
    intro h
    have := flat_inj (by omega) (by omega) h
    omega

theorem inner_eq {data : List Word} {res : List Nat} {rl i : Nat}
    (hlen : data.length < 2 ^ 32) (hrl : i + 1 < rl)
    (hi : 2 ^ i < data.length) (hc : ColsOk data res rl i) : ∀ n, n ≤ data.length →
    ∃ res', inner data rl i n res = .ok res' ∧ ColsOk data res' rl i ∧
      ∀ j, j < n → CellOk data res' rl j (i + 1) := by
  intro n
  induction n with
  | zero => intro _; exact ⟨res, rfl, hc, by intro j hj; omega⟩
  | succ n ih =>
    intro hn
    obtain ⟨res1, h1, h2, h3⟩ := ih (by omega)
    obtain ⟨res2, g1, g2, g3, g4⟩ := step_eq (j := n) (by omega) hlen hrl hi h2
    refine ⟨res2, ?_, g2, ?_⟩
    · unfold inner
      rw [h1]
      simp only [ok_bind]
      exact g1
    · intro j hj
      by_cases e : j = n
      · subst e; exact g3
      · obtain ⟨r, r1, r2⟩ := h3 j (by omega)
        exact ⟨r, by rw [g4 j e, r1], r2⟩

theorem outer_eq {data : List Word} {res : List Nat} {rl : Nat}
    (hlen : data.length < 2 ^ 32) (hc : ColsOk data res rl 0) (hrl : rl = log2Ceil data.length + 1) :
    ∀ n, n ≤ log2Ceil data.length →
    ∃ res', outer data rl n res = .ok res' ∧ ColsOk data res' rl n := by
  intro n
  induction n with
  | zero => intro _; exact ⟨res, rfl, hc⟩
  | succ n ih =>
    intro hn
    obtain ⟨res1, h1, h2⟩ := ih (by omega)
    obtain ⟨res2, g1, g2, g3⟩ := inner_eq hlen (by omega) (lt_of_lt_log2Ceil (by omega)) h2 data.length (by omega)
    refine ⟨res2, ?_, g2.1, ?_⟩
    · unfold outer
      rw [h1]
      simp only [ok_bind]
      exact g1
    · intro k' hk' j hj
      by_cases e : k' = n + 1
      · subst e; exact g3 j hj
      · exact g2.2 k' (by omega) j hj

omit [Profile] in
theorem initCol_eq {len rl : Nat} (hrl : 0 < rl) : ∀ n, n ≤ len →
    initCol rl n (List.replicate (len * rl) 0) = .ok (List.replicate (len * rl) 0) := by
  intro n
  induction n with
  | zero => intro _; rfl
  | succ n ih =>
    intro hn
    unfold initCol
    rw [ih (by omega)]
    simp only [ok_bind]
    have : n * rl < (List.replicate (len * rl) 0).length := by
      have := flat_lt (n := len) (j := n) (rl := rl) (k := 0) (by omega) hrl
      simpa using this
    rw [setIdx_of_lt this]
    congr 1
    apply List.ext_getElem?
    intro i
    by_cases e : n * rl = i
    · subst e
      rw [List.getElem?_set_self this, List.getElem?_eq_getElem this]
      simp
    · rw [List.getElem?_set_ne e]

/-- the structure built by `from_vec` -/
structure Ok (s : BinRmq) (data : List Word) : Prop where
  data_eq : s.data = data
  cols : ColsOk data s.results (log2Ceil data.length + 1) (log2Ceil data.length)

theorem fromVec_ok {data : List Word} (hlen : data.length < 2 ^ 32) :
    ∃ s, fromVec data = .ok s ∧ Ok s data := by
  have h0 : ColsOk data (List.replicate (data.length * (log2Ceil data.length + 1)) 0)
      (log2Ceil data.length + 1) 0 := by
    refine ⟨by simp, ?_⟩
    intro k' hk' j hj
    obtain rfl : k' = 0 := by omega
    refine ⟨0, ?_, by omega, ?_⟩
    · have := flat_lt (n := data.length) (j := j) (rl := log2Ceil data.length + 1) (k := 0) hj (by omega)
      simp [List.getElem?_replicate]
      omega
    · intro h
      refine ⟨by omega, by omega, ?_⟩
      intro t h1 h2
      have : t = j := by simp at h2; omega
      subst this; exact Nat.le_refl _
  obtain ⟨res, h1, h2⟩ := outer_eq hlen h0 rfl _ (Nat.le_refl _)
  refine ⟨⟨data, res⟩, ?_, rfl, h2⟩
  unfold fromVec
  rw [assertR_true hlen]
  simp only [ok_bind]
  rw [initCol_eq (by omega) _ (Nat.le_refl _)]
  simp only [ok_bind]
  rw [h1]
  rfl

theorem Ok.rangeMin {s : BinRmq} {data : List Word} (h : Ok s data) {i j : Nat} (hij : i ≤ j)
    (hj : j < data.length) : ∃ m, s.rangeMin i j = .ok m ∧ MinOn (ev data) i j m := by
  obtain ⟨rfl, h2⟩ := h
  have hk : 2 ^ Nat.log2 (j - i) ≤ j - i + 1 ∧ j - i < 2 * 2 ^ Nat.log2 (j - i) := by
    by_cases e : j - i = 0
    · rw [e]; decide
    · have := Nat.log2_self_le e
      have h3 := Nat.lt_log2_self (n := j - i)
      rw [Nat.pow_succ] at h3
      omega
  have hk2 : Nat.log2 (j - i) ≤ log2Ceil s.data.length := by
    by_cases e : j - i = 0
    · rw [e]; simp
    · have := Nat.log2_self_le e
      by_contra hc
      have h5 := log2Ceil_le s.data.length
      have : 2 ^ log2Ceil s.data.length < 2 ^ Nat.log2 (j - i) := Nat.pow_lt_pow_right (by omega) (by omega)
      omega
  have hp : 0 < 2 ^ Nat.log2 (j - i) := Nat.two_pow_pos _
  generalize hg : Nat.log2 (j - i) = k at *
  obtain ⟨a, a1, a2, a3, a4⟩ := cell_of (h2.2 k hk2 i (by omega))
  obtain ⟨b, b1, b2, b3, b4⟩ := cell_of (h2.2 k hk2 (j - (2 ^ k - 1)) (by omega))
  refine ⟨_, ?_, MinOn.union (a4 (by omega)) (b4 (by omega)) (by omega) (by omega) (by omega) (by omega)
    (by intro t _ _; omega)⟩
  unfold BinRmq.rangeMin
  rw [subR_of_le hij]
  simp only [ok_bind]
  rw [hg, a1]
  simp only [ok_bind]
  rw [subR_of_le (by omega)]
  simp only [ok_bind]
  rw [b1]
  simp only [ok_bind]
  exact minBy_eq a3 b3

end BinRmq

end Vers
