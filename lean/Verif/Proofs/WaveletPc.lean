import Verif.Proofs.WaveletBuild

/-!
# Helpers for the wavelet matrix: construction by prefix counting
-/

set_option linter.unusedSimpArgs false

namespace Vers

variable [Profile]

omit [Profile] in
theorem setIdx_getElem? {α : Type} {l l' : List α} {i : Nat} {x : α} (h : setIdx l i x = .ok l') (j : Nat) :
    l'[j]? = if i = j then (if j < l.length then some x else none) else l[j]? := by
  unfold setIdx at h
  split at h
  · injection h with h
    subst h
    rw [List.getElem?_set]
    split
    · rename_i h1 h2; subst h2; simp [h1]
    · rfl
  · simp at h

namespace WM
open Spec

/-! ## Bit reversal -/

omit [Profile] in
theorem revBits_lt {l : Nat} (hl : l ≤ 64) (h : Nat) : revBits l h < 2 ^ l := by
  unfold revBits
  rw [BitVec.toNat_ushiftRight, Nat.shiftRight_eq_div_pow, Nat.div_lt_iff_lt_mul (Nat.two_pow_pos _), ← Nat.pow_add]
  rw [show l + (64 - l) = 64 by omega]
  exact BitVec.isLt _

omit [Profile] in
theorem revBits_testBit {l : Nat} (hl : l ≤ 64) (h j : Nat) :
    (revBits l h).testBit j = (decide (j < l) && h.testBit (l - 1 - j)) := by
  unfold revBits
  rw [BitVec.testBit_toNat, BitVec.getLsbD_ushiftRight, BitVec.getLsbD_reverse, BitVec.getMsbD_eq_getLsbD,
    BitVec.getLsbD_ofNat]
  by_cases hj : j < l
  · rw [show 64 - 1 - (64 - l + j) = l - 1 - j by omega]
    have h1 : 64 - l + j < 64 := by omega
    have h2 : l - 1 - j < 64 := by omega
    simp [h1, h2, hj]
  · have h1 : ¬ (64 - l + j < 64) := by omega
    simp [h1, hj]

omit [Profile] in
theorem revBits_revBits {l : Nat} (hl : l ≤ 64) {h : Nat} (hh : h < 2 ^ l) : revBits l (revBits l h) = h := by
  apply Nat.eq_of_testBit_eq
  intro j
  rw [revBits_testBit hl, revBits_testBit hl]
  by_cases hj : j < l
  · rw [show l - 1 - (l - 1 - j) = j by omega]
    have : l - 1 - j < l := by omega
    simp [hj, this]
  · have : h.testBit j = false :=
      Nat.testBit_lt_two_pow (Nat.lt_of_lt_of_le hh (Nat.pow_le_pow_right (by omega) (by omega)))
    simp [hj, this]

omit [Profile] in
theorem revBits_inj {l : Nat} (hl : l ≤ 64) {a b : Nat} (ha : a < 2 ^ l) (hb : b < 2 ^ l) (h : revBits l a = revBits l b) : a = b := by
  rw [← revBits_revBits hl ha, h, revBits_revBits hl hb]

omit [Profile] in
theorem revBits_zero {l : Nat} (hl : l ≤ 64) : revBits l 0 = 0 := by
  apply Nat.eq_of_testBit_eq
  intro j
  rw [revBits_testBit hl]
  simp

omit [Profile] in
theorem revBits_succ_lo {l : Nat} (hl : l + 1 ≤ 64) {h : Nat} (hh : h < 2 ^ l) : revBits (l + 1) h = 2 * revBits l h := by
  apply Nat.eq_of_testBit_eq
  intro j
  rw [revBits_testBit hl]
  cases j with
  | zero =>
    rw [Nat.testBit_zero]
    have : h.testBit l = false := Nat.testBit_lt_two_pow hh
    simp [this]
  | succ j =>
    rw [Nat.testBit_succ, Nat.mul_div_cancel_left _ (by omega), revBits_testBit (by omega)]
    rw [show l + 1 - 1 - (j + 1) = l - 1 - j by omega]
    simp

omit [Profile] in
theorem revBits_succ_hi {l : Nat} (hl : l + 1 ≤ 64) {h : Nat} (hh : h < 2 ^ l) : revBits (l + 1) (2 ^ l + h) = 2 * revBits l h + 1 := by
  apply Nat.eq_of_testBit_eq
  intro j
  rw [revBits_testBit hl]
  cases j with
  | zero =>
    rw [Nat.testBit_zero]
    have : (2 ^ l + h).testBit l = true := by
      rw [Nat.testBit_two_pow_add_eq, Nat.testBit_lt_two_pow hh]; rfl
    simp [this]
  | succ j =>
    rw [Nat.testBit_succ, show (2 * revBits l h + 1) / 2 = revBits l h by omega, revBits_testBit (by omega)]
    rw [show l + 1 - 1 - (j + 1) = l - 1 - j by omega]
    by_cases hj : j < l
    · rw [Nat.testBit_two_pow_add_gt (by omega)]
      simp [hj]
    · simp [hj]

/-! ## Buckets -/

omit [Profile] in
theorem flatMap_congr' {α β : Type} {l : List α} {f g : α → List β} (h : ∀ a ∈ l, f a = g a) :
    l.flatMap f = l.flatMap g := by
  unfold List.flatMap
  rw [List.map_congr_left h]

/-- the indices with the key `c`, in order -/
def bucket (n : Nat) (key : Nat → Nat) (c : Nat) : List Nat := (List.range n).filter (fun i => key i == c)

/-- the buckets of the first `h` keys in bit-reversed order -/
def blocks (n l : Nat) (key : Nat → Nat) (h : Nat) : List Nat :=
  (List.range h).flatMap (fun g => bucket n key (revBits l g))

omit [Profile] in
theorem blocks_succ (n l : Nat) (key : Nat → Nat) (h : Nat) :
    blocks n l key (h + 1) = blocks n l key h ++ bucket n key (revBits l h) := by
  simp [blocks, List.range_succ]

omit [Profile] in
theorem bucket_succ (n : Nat) (key : Nat → Nat) (c : Nat) :
    (bucket (n + 1) key c).length = (bucket n key c).length + if key n = c then 1 else 0 := by
  unfold bucket
  rw [List.range_succ, List.filter_append, List.length_append]
  congr 1
  by_cases h : key n = c <;> simp [h]

omit [Profile] in
theorem bucket_get {n : Nat} {key : Nat → Nat} : ∀ {j : Nat}, j < n →
    (bucket n key (key j))[(bucket j key (key j)).length]? = some j := by
  intro j hj
  have : List.range n = List.range j ++ (j :: (List.range' (j + 1) (n - j - 1))) := by
    rw [← List.range'_succ, show n - j - 1 + 1 = n - j by omega, List.range_eq_range', List.range_eq_range',
      show n = j + (n - j) by omega, ← List.range'_append_1]
    simp
  unfold bucket
  rw [this, List.filter_append, List.getElem?_append_right (by omega)]
  simp

omit [Profile] in
theorem blocks_split {n l : Nat} {key : Nat → Nat} {h H : Nat} (hh : h < H) :
    ∃ C, blocks n l key H = blocks n l key h ++ bucket n key (revBits l h) ++ C := by
  induction H with
  | zero => omega
  | succ H ih =>
    rw [blocks_succ]
    rcases Nat.lt_or_ge h H with h1 | h1
    · obtain ⟨C, hC⟩ := ih h1
      exact ⟨C ++ bucket n key (revBits l H), by rw [hC]; simp⟩
    · have : h = H := by omega
      subst this
      exact ⟨[], by simp⟩

omit [Profile] in
theorem bucket_half (key : Nat → Nat) (c : Nat) : ∀ n,
    (bucket n key (2 * c)).length + (bucket n key (2 * c + 1)).length = (bucket n (fun i => key i / 2) c).length
  | 0 => rfl
  | n + 1 => by
    have ih := bucket_half key c n
    simp only [bucket_succ]
    by_cases h0 : key n = 2 * c
    · have h1 : ¬ (key n = 2 * c + 1) := by omega
      have h2 : key n / 2 = c := by omega
      simp only [h2, if_pos h0, if_neg h1, if_true]; omega
    · by_cases h1 : key n = 2 * c + 1
      · have h2 : key n / 2 = c := by omega
        simp only [h2, if_neg h0, if_pos h1, if_true]; omega
      · have h2 : ¬ (key n / 2 = c) := by omega
        simp only [if_neg h0, if_neg h1, if_neg h2]; omega

/-! ## The permutation of a level -/

/-- The order of the elements on a level -/
def perm (k n : Nat) (val : Nat → Nat) : Nat → List Nat
  | 0 => List.range n
  | l + 1 => (perm k n val l).filter (fun p => !(val p).testBit (k - l - 1)) ++
      (perm k n val l).filter (fun p => (val p).testBit (k - l - 1))

omit [Profile] in
theorem perm_perm (k n : Nat) (val : Nat → Nat) : ∀ l, (perm k n val l).Perm (List.range n)
  | 0 => List.Perm.refl _
  | l + 1 => by
    refine List.Perm.trans ?_ (perm_perm k n val l)
    rw [perm]
    refine List.Perm.trans List.perm_append_comm ?_
    exact List.filter_append_perm (fun p => (val p).testBit (k - l - 1)) _

omit [Profile] in
theorem key_succ {k l x : Nat} (hl : l < k) : x >>> (k - (l + 1)) = 2 * (x >>> (k - l)) + (x.testBit (k - l - 1)).toNat := by
  have e : k - l = (k - (l + 1)) + 1 := by omega
  rw [e, show k - (l + 1) + 1 - 1 = k - (l + 1) by omega, Nat.shiftRight_add, Nat.toNat_testBit,
    Nat.shiftRight_eq_div_pow x, Nat.shiftRight_eq_div_pow _ 1]
  omega

omit [Profile] in
theorem perm_blocks {k n : Nat} {val : Nat → Nat} (hv : ∀ i, i < n → val i < 2 ^ k) (hk : k ≤ 64) : ∀ l, l ≤ k →
    perm k n val l = blocks n l (fun i => val i >>> (k - l)) (2 ^ l)
  | 0, _ => by
    rw [perm, Nat.pow_zero, show (1 : Nat) = 0 + 1 from rfl, blocks_succ]
    unfold blocks bucket
    rw [revBits_zero (by omega), List.range_zero, List.flatMap_nil, List.nil_append]
    symm
    apply List.filter_eq_self.mpr
    intro i hi
    have := hv i (by simpa using hi)
    simp [Nat.shiftRight_eq_div_pow, Nat.div_eq_of_lt this]
  | l + 1, h => by
    have ih := perm_blocks hv hk l (by omega)
    rw [perm, ih]
    have split : ∀ b : Bool, (blocks n l (fun i => val i >>> (k - l)) (2 ^ l)).filter
        (fun p => (val p).testBit (k - l - 1) == b) =
        (List.range (2 ^ l)).flatMap (fun g => bucket n (fun i => val i >>> (k - (l + 1))) (2 * revBits l g + b.toNat)) := by
      intro b
      unfold blocks
      rw [List.filter_flatMap]
      congr 1
      funext g
      unfold bucket
      rw [List.filter_filter]
      congr 1
      funext i
      simp only []
      rw [key_succ (show l < k by omega)]
      have hbt : ((val i).testBit (k - l - 1)).toNat ≤ 1 := Bool.toNat_le _
      have hb1 : b.toNat ≤ 1 := Bool.toNat_le _
      rw [Bool.eq_iff_iff]
      simp only [Bool.and_eq_true, beq_iff_eq]
      constructor
      · rintro ⟨h1, h2⟩; rw [h1, h2]
      · intro h1
        have h2 : ((val i).testBit (k - l - 1)).toNat = b.toNat := by omega
        refine ⟨?_, by omega⟩
        revert h2
        cases (val i).testBit (k - l - 1) <;> cases b <;> simp
    have e0 : (fun p => !(val p).testBit (k - l - 1)) = (fun p => (val p).testBit (k - l - 1) == false) := by
      funext p; simp
    have e1 : (fun p => (val p).testBit (k - l - 1)) = (fun p => (val p).testBit (k - l - 1) == true) := by
      funext p; simp
    rw [e0, e1, split false, split true]
    unfold blocks
    rw [show 2 ^ (l + 1) = 2 ^ l + 2 ^ l by rw [Nat.pow_succ]; omega, List.range_add, List.flatMap_append]
    congr 1
    · apply flatMap_congr'
      intro g hg
      rw [revBits_succ_lo (by omega) (by simpa using hg)]
      rfl
    · rw [List.flatMap_map]
      apply flatMap_congr'
      intro g hg
      rw [revBits_succ_hi (by omega) (by simpa using hg)]
      rfl

/-! ## The loops -/

omit [Profile] in
theorem histLoop_eq {hist : List Nat} : ∀ (N : Nat), 2 * N ≤ hist.length →
    ∃ hist', histLoop N hist = .ok hist' ∧ hist'.length = hist.length ∧
      (∀ c, c < N → hist'[c]? = some ((hist[2 * c]?.getD 0) + (hist[2 * c + 1]?.getD 0))) ∧
      (∀ c, N ≤ c → hist'[c]? = hist[c]?)
  | 0, _ => ⟨hist, rfl, rfl, by intro c h; omega, fun _ _ => rfl⟩
  | N + 1, h => by
    obtain ⟨h1, e1, l1, lo1, hi1⟩ := histLoop_eq (hist := hist) N (by omega)
    simp only [histLoop]
    rw [e1, ok_bind]
    have g0 : h1[2 * N]? = some (hist[2 * N]?.getD 0) := by
      rw [hi1 _ (by omega), List.getElem?_eq_getElem (by omega)]; rfl
    have g1 : h1[2 * N + 1]? = some (hist[2 * N + 1]?.getD 0) := by
      rw [hi1 _ (by omega), List.getElem?_eq_getElem (by omega)]; rfl
    rw [idx_of_some g0, ok_bind, idx_of_some g1, ok_bind, setIdx_of_lt (by omega)]
    refine ⟨_, rfl, by simp [l1], ?_, ?_⟩
    · intro c hc
      rw [List.getElem?_set]
      split
      · rename_i hcN; subst hcN; rw [if_pos (by omega)]
      · exact lo1 c (by omega)
    · intro c hc
      rw [List.getElem?_set, if_neg (by omega)]
      exact hi1 c (by omega)

omit [Profile] in
theorem borderLoop_eq {n l : Nat} {key : Nat → Nat} {hist : List Nat} (hl : l ≤ 64)
    (hh : ∀ c, c < 2 ^ l → hist[c]? = some (bucket n key c).length) {b0 : List Nat} (hb : 2 ^ l ≤ b0.length) (hz : b0[0]? = some 0) :
    ∀ (N : Nat), N < 2 ^ l → ∃ b, borderLoop l hist N b0 = .ok b ∧ b.length = b0.length ∧
      ∀ h, h ≤ N → b[revBits l h]? = some (blocks n l key h).length
  | 0, _ => ⟨b0, rfl, rfl, by
      intro h hh0
      have : h = 0 := by omega
      subst this
      rw [revBits_zero hl, hz]; rfl⟩
  | N + 1, hN => by
    obtain ⟨b, e1, e2, e3⟩ := borderLoop_eq hl hh hb hz N (by omega)
    have r1 := revBits_lt hl N
    have r2 := revBits_lt hl (N + 1)
    simp only [borderLoop]
    rw [e1, ok_bind, idx_of_some (e3 N (by omega)), ok_bind, idx_of_some (hh _ r1), ok_bind, setIdx_of_lt (by omega)]
    refine ⟨_, rfl, by simp [e2], ?_⟩
    intro h hle
    rw [List.getElem?_set]
    split
    · rename_i he
      have := revBits_inj hl hN (show h < 2 ^ l by omega) he
      subst this
      rw [if_pos (by omega), blocks_succ, List.length_append]
    · rename_i hne
      have : h ≠ N + 1 := by intro e; subst e; exact hne rfl
      exact e3 h (by omega)

/-- where the element `j` is placed -/
def place (n l : Nat) (key : Nat → Nat) (j : Nat) : Nat :=
  (blocks n l key (revBits l (key j))).length + (bucket j key (key j)).length

omit [Profile] in
theorem place_get {n l : Nat} {key : Nat → Nat} (hl : l ≤ 64) {j : Nat} (hj : j < n) (hk : key j < 2 ^ l) :
    (blocks n l key (2 ^ l))[place n l key j]? = some j := by
  obtain ⟨C, hC⟩ := blocks_split (n := n) (l := l) (key := key) (revBits_lt hl (key j))
  have hb := bucket_get (key := key) hj
  have hlt : (bucket j key (key j)).length < (bucket n key (key j)).length := by
    rcases Nat.lt_or_ge (bucket j key (key j)).length (bucket n key (key j)).length with h | h
    · exact h
    · rw [List.getElem?_eq_none h] at hb; simp at hb
  rw [hC, revBits_revBits hl hk]
  unfold place
  rw [List.append_assoc, List.getElem?_append_right (by omega), Nat.add_sub_cancel_left,
    List.getElem?_append_left hlt, hb]

omit [Profile] in
theorem placeLoop_eq {k n l : Nat} {lookup : Nat → Nat → R Word} {elem : Nat → R Word} {val : Nat → Nat} {b0 : List Nat}
    (hl : l ≤ 64) (hlk : 1 ≤ l ∧ l < k) (hv : ∀ i, i < n → val i < 2 ^ k)
    (hlook : ∀ p b, p < n → b < k → lookup p b = .ok (b2w ((val p).testBit b)))
    (helem : ∀ p, p < n → ∃ w, elem p = .ok w ∧ w.toNat = val p)
    (hb0 : ∀ h, h < 2 ^ l → b0[revBits l h]? = some (blocks n l (fun i => val i >>> (k - l)) h).length)
    (hlen : (blocks n l (fun i => val i >>> (k - l)) (2 ^ l)).length = n) :
    ∀ (i : Nat), i ≤ n → ∃ b v, placeLoop k l lookup elem i (b0, BV.fromZeros n) = .ok (b, v) ∧ b.length = b0.length ∧
      v.WF ∧ v.Clean ∧ v.len = n ∧
      (∀ c, c < 2 ^ l → b[c]? = some ((blocks n l (fun i => val i >>> (k - l)) (revBits l c)).length +
        (bucket i (fun i => val i >>> (k - l)) c).length)) ∧
      (∀ j, j < i → v.bits[place n l (fun i => val i >>> (k - l)) j]? = some ((val j).testBit (k - l - 1)))
  | 0, _ => by
    refine ⟨b0, BV.fromZeros n, rfl, rfl, BV.wf_fromZeros n, BV.clean_fromZeros n, rfl, ?_, by intro j h; omega⟩
    intro c hc
    have := hb0 (revBits l c) (revBits_lt hl c)
    rw [revBits_revBits hl hc] at this
    rw [this]; rfl
  | i + 1, hi => by
    obtain ⟨b, v, e1, e2, e3, e4, e5, e6, e7⟩ :=
      placeLoop_eq hl hlk hv hlook helem hb0 hlen i (by omega)
    obtain ⟨w, w1, w2⟩ := helem i (by omega)
    have hkey : val i >>> (k - l) < 2 ^ l := by
      rw [Nat.shiftRight_eq_div_pow, Nat.div_lt_iff_lt_mul (Nat.two_pow_pos _), ← Nat.pow_add,
        show l + (k - l) = k by omega]
      exact hv i (by omega)
    have hpl : ∀ j, j < n → (blocks n l (fun i => val i >>> (k - l)) (2 ^ l))[place n l (fun i => val i >>> (k - l)) j]? = some j := by
      intro j hj
      refine place_get hl hj ?_
      rw [Nat.shiftRight_eq_div_pow, Nat.div_lt_iff_lt_mul (Nat.two_pow_pos _), ← Nat.pow_add,
        show l + (k - l) = k by omega]
      exact hv j hj
    have hplt : place n l (fun i => val i >>> (k - l)) i < n := by
      have := hpl i (by omega)
      rcases Nat.lt_or_ge (place n l (fun i => val i >>> (k - l)) i) (blocks n l (fun i => val i >>> (k - l)) (2 ^ l)).length with h | h
      · rw [hlen] at h; exact h
      · rw [List.getElem?_eq_none h] at this; simp at this
    obtain ⟨v', v1, v2, v3, v4, v5⟩ := BV.setUnchecked_clean e3 e4
      (show place n l (fun i => val i >>> (k - l)) i < v.len by omega) (b2w ((val i).testBit (k - l - 1)))
    simp only [placeLoop]
    rw [e1, ok_bind, hlook i _ (by omega) (by omega), ok_bind, w1, ok_bind]
    simp only [w2]
    have hbi := e6 _ hkey
    have hblt : val i >>> (k - l) < b.length := by
      rcases Nat.lt_or_ge (val i >>> (k - l)) b.length with h | h
      · exact h
      · rw [List.getElem?_eq_none h] at hbi; simp at hbi
    rw [idx_of_some hbi, ok_bind]
    rw [show (blocks n l (fun i => val i >>> (k - l)) (revBits l (val i >>> (k - l)))).length +
        (bucket i (fun i => val i >>> (k - l)) (val i >>> (k - l))).length = place n l (fun i => val i >>> (k - l)) i from rfl]
    rw [v1, ok_bind, setIdx_of_lt hblt, ok_bind]
    refine ⟨_, v', rfl, by simp [e2], v2, v3, by omega, ?_, ?_⟩
    · intro c hc
      rw [List.getElem?_set, bucket_succ]
      by_cases h : val i >>> (k - l) = c
      · subst h
        rw [if_pos rfl, if_pos hblt, if_pos rfl]
        simp only [place]; congr 1
      · rw [if_neg h, if_neg h]
        exact e6 c hc
    · intro j hj
      rw [v5, List.getElem?_set]
      by_cases hji : j = i
      · subst hji
        rw [if_pos rfl, if_pos (by rw [BV.length_bits]; omega), b2w_getLsbD]; simp
      · have hne : place n l (fun i => val i >>> (k - l)) i ≠ place n l (fun i => val i >>> (k - l)) j := by
          intro h
          have h1 := hpl i (by omega)
          rw [h, hpl j (by omega)] at h1
          injection h1 with h1
          exact hji h1
        rw [if_neg hne]
        exact e7 j (by omega)

omit [Profile] in
theorem countLoop_eq {k n : Nat} {lookup : Nat → Nat → R Word} {elem : Nat → R Word} {val : Nat → Nat}
    (hk : 1 ≤ k) (hv : ∀ i, i < n → val i < 2 ^ k)
    (hlook : ∀ p b, p < n → b < k → lookup p b = .ok (b2w ((val p).testBit b)))
    (helem : ∀ p, p < n → ∃ w, elem p = .ok w ∧ w.toNat = val p) :
    ∀ (i : Nat), i ≤ n → ∃ hist v, countLoop k lookup elem i (List.replicate (2 ^ k) 0, BV.fromZeros n) = .ok (hist, v) ∧
      hist.length = 2 ^ k ∧ v.WF ∧ v.Clean ∧ v.len = n ∧
      (∀ c, c < 2 ^ k → hist[c]? = some (bucket i val c).length) ∧
      (∀ j, j < i → v.bits[j]? = some ((val j).testBit (k - 1)))
  | 0, _ => by
    refine ⟨_, _, rfl, by simp, BV.wf_fromZeros n, BV.clean_fromZeros n, rfl, ?_, by intro j h; omega⟩
    intro c hc
    simp [hc, bucket]
  | i + 1, hi => by
    obtain ⟨hist, v, e1, e2, e3, e4, e5, e6, e7⟩ := countLoop_eq hk hv hlook helem i (by omega)
    obtain ⟨w, w1, w2⟩ := helem i (by omega)
    obtain ⟨v', v1, v2, v3, v4, v5⟩ := BV.setUnchecked_clean e3 e4 (show i < v.len by omega) (b2w ((val i).testBit (k - 1)))
    simp only [countLoop]
    rw [e1, ok_bind, w1, ok_bind]
    simp only [w2]
    have hvi := hv i (by omega)
    rw [idx_of_some (e6 _ hvi), ok_bind, setIdx_of_lt (by omega), ok_bind, firstLevel, if_neg (by omega),
      ok_bind, hlook i _ (by omega) (by omega), ok_bind, v1, ok_bind]
    refine ⟨_, v', rfl, by simp [e2], v2, v3, by omega, ?_, ?_⟩
    · intro c hc
      rw [List.getElem?_set, bucket_succ]
      by_cases h : val i = c
      · rw [if_pos h, if_pos (by omega), if_pos h, h]
      · rw [if_neg h, if_neg h]
        exact e6 c hc
    · intro j hj
      rw [v5, List.getElem?_set]
      by_cases hji : i = j
      · subst hji
        rw [if_pos rfl, if_pos (by rw [BV.length_bits]; omega), b2w_getLsbD]; simp
      · rw [if_neg hji]
        exact e7 j (by omega)

omit [Profile] in
theorem bits_of_places {n : Nat} {p : List Nat} {v : BV} {f : Nat → Bool} {pl : Nat → Nat} (hp : p.Perm (List.range n))
    (hlen : v.len = n) (hpl : ∀ j, j < n → p[pl j]? = some j) (hb : ∀ j, j < n → v.bits[pl j]? = some (f j)) :
    v.bits = p.map f := by
  have hl : p.length = n := by simpa using hp.length_eq
  have hnd : p.Nodup := hp.nodup_iff.mpr List.nodup_range
  apply List.ext_getElem?
  intro q
  rcases Nat.lt_or_ge q n with hq | hq
  · have hm : p[q]'(by omega) ∈ List.range n := hp.mem_iff.mp (List.getElem_mem _)
    have hj := List.mem_range.mp hm
    have h1 := hpl _ hj
    have hlt : pl (p[q]'(by omega)) < p.length := by
      rcases Nat.lt_or_ge (pl (p[q]'(by omega))) p.length with h | h
      · exact h
      · rw [List.getElem?_eq_none h] at h1; simp at h1
    rw [List.getElem?_eq_getElem hlt] at h1
    injection h1 with h1
    have h2 : pl (p[q]'(by omega)) = q := (List.getElem_inj hnd).mp h1
    have h3 := hb _ hj
    rw [h2] at h3
    rw [h3, List.getElem?_map, List.getElem?_eq_getElem (by omega)]
    rfl
  · rw [List.getElem?_eq_none (by rw [BV.length_bits]; omega), List.getElem?_eq_none (by simp; omega)]

omit [Profile] in
theorem pcLevels_eq {k n : Nat} {lookup : Nat → Nat → R Word} {elem : Nat → R Word} {val : Nat → Nat}
    (hk : k ≤ 64) (hv : ∀ i, i < n → val i < 2 ^ k)
    (hlook : ∀ p b, p < n → b < k → lookup p b = .ok (b2w ((val p).testBit b)))
    (helem : ∀ p, p < n → ∃ w, elem p = .ok w ∧ w.toNat = val p) :
    ∀ (l : Nat) (hist borders : List Nat) (acc : List BV), l + 1 ≤ k → hist.length = 2 ^ k → borders.length = 2 ^ k →
    (∀ c, c < 2 ^ (l + 1) → hist[c]? = some (bucket n (fun i => val i >>> (k - (l + 1))) c).length) →
    acc.length = k - (l + 1) → GoodV acc ((perm k n val (l + 1)).map (val · % 2 ^ (k - (l + 1)))) →
    ∃ vs, pcLevels k n lookup elem l hist borders acc = .ok vs ∧ vs.length = k - 1 ∧
      GoodV vs ((perm k n val 1).map (val · % 2 ^ (k - 1)))
  | 0, _, _, acc, _, _, _, _, h1, h2 => ⟨acc, rfl, h1, h2⟩
  | l + 1, hist, borders, acc, hl, hhl, hbl, hh, ha, hg => by
    have hpow : (2 : Nat) ^ (l + 1 + 1) ≤ 2 ^ k := Nat.pow_le_pow_right (by omega) hl
    have hpow' : (2 : Nat) ^ (l + 1 + 1) = 2 * 2 ^ (l + 1) := by rw [Nat.pow_succ (n := 2) (m := l + 1)]; omega
    have hpos : 0 < 2 ^ (l + 1) := Nat.two_pow_pos _
    simp only [pcLevels]
    obtain ⟨h1, a1, a2, a3, _⟩ := histLoop_eq (hist := hist) (2 ^ (l + 1)) (by omega)
    rw [a1, ok_bind, setIdx_of_lt (by omega), ok_bind]
    have hh1 : ∀ c, c < 2 ^ (l + 1) → h1[c]? = some (bucket n (fun i => val i >>> (k - (l + 1))) c).length := by
      intro c hc
      rw [a3 c hc, hh _ (by omega), hh _ (by omega)]
      have := bucket_half (fun i => val i >>> (k - (l + 1 + 1))) c n
      simp only [Option.getD_some]
      rw [this]
      have : (fun i => val i >>> (k - (l + 1 + 1)) / 2) = (fun i => val i >>> (k - (l + 1))) := by
        funext i
        rw [show k - (l + 1) = k - (l + 1 + 1) + 1 by omega, Nat.shiftRight_add]
        rfl
      rw [this]
    obtain ⟨b, b1, b2, b3⟩ := borderLoop_eq (l := l + 1) (by omega) hh1 (b0 := borders.set 0 0) (by simp; omega)
      (by rw [List.getElem?_set, if_pos rfl, if_pos (by omega)]) (2 ^ (l + 1) - 1) (by omega)
    rw [b1, ok_bind]
    have hblocks := perm_blocks hv hk (l + 1) (by omega)
    have hperm := perm_perm k n val (l + 1)
    have hlen : (blocks n (l + 1) (fun i => val i >>> (k - (l + 1))) (2 ^ (l + 1))).length = n := by
      rw [← hblocks]; simpa using hperm.length_eq
    obtain ⟨b', v, c1, c2, c3, c4, c5, c6, c7⟩ := placeLoop_eq (l := l + 1) (by omega) ⟨by omega, by omega⟩ hv hlook helem
      (b0 := b) (fun h hh => b3 h (by omega)) hlen n (Nat.le_refl n)
    rw [c1, ok_bind]
    have hbits : v.bits = (perm k n val (l + 1)).map (fun p => (val p).testBit (k - (l + 1) - 1)) := by
      refine bits_of_places hperm c5 (pl := place n (l + 1) (fun i => val i >>> (k - (l + 1)))) ?_ c7
      intro j hj
      rw [hblocks]
      refine place_get (by omega) hj ?_
      rw [Nat.shiftRight_eq_div_pow, Nat.div_lt_iff_lt_mul (Nat.two_pow_pos _), ← Nat.pow_add,
        show l + 1 + (k - (l + 1)) = k by omega]
      exact hv j hj
    refine pcLevels_eq hk hv hlook helem l h1 b' (v :: acc) (by omega) (by omega) (by simp at b2; omega) hh1
      (by simp [ha]; omega) ⟨?_, ?_, ?_⟩
    · rw [ha, show k - (l + 1 + 1) + 1 = k - (l + 1) by omega]
      intro x hx
      simp only [List.mem_map] at hx
      obtain ⟨p, _, rfl⟩ := hx
      exact Nat.mod_lt _ (Nat.two_pow_pos _)
    · refine ⟨c3, c4, ?_⟩
      have := top_perm val (k - (l + 1 + 1)) (perm k n val (l + 1))
      rw [show k - (l + 1 + 1) + 1 = k - (l + 1) by omega] at this
      rw [ha, this, hbits, show k - (l + 1) - 1 = k - (l + 1 + 1) by omega]
    · have e1 := lo_perm val (k - (l + 1 + 1)) (perm k n val (l + 1))
      have e2 := hi_perm val (k - (l + 1 + 1)) (perm k n val (l + 1))
      rw [show k - (l + 1 + 1) + 1 = k - (l + 1) by omega] at e1 e2
      rw [ha, e1, e2, ← List.map_append]
      have : perm k n val (l + 1 + 1) = (perm k n val (l + 1)).filter (fun p => !(val p).testBit (k - (l + 1 + 1))) ++
          (perm k n val (l + 1)).filter (fun p => (val p).testBit (k - (l + 1 + 1))) := by
        rw [perm, show k - (l + 1) - 1 = k - (l + 1 + 1) by omega]
      rw [← this]
      exact hg

/-- The counting construction, up to the levels. -/
theorem pc_levels {k n : Nat} {lookup : Nat → Nat → R Word} {elem : Nat → R Word} {val : Nat → Nat}
    (hk1 : 1 ≤ k) (hk : k < 64) (hv : ∀ i, i < n → val i < 2 ^ k)
    (hlook : ∀ p b, p < n → b < k → lookup p b = .ok (b2w ((val p).testBit b)))
    (helem : ∀ p, p < n → ∃ w, elem p = .ok w ∧ w.toNat = val p) :
    ∃ vs, prefixCounting k n lookup elem = (do let data ← buildAll vs; pure ⟨data⟩) ∧ vs.length = k ∧
      GoodV vs ((List.range n).map (val · % 2 ^ k)) := by
  obtain ⟨hist, v, e1, e2, e3, e4, e5, e6, e7⟩ := countLoop_eq hk1 hv hlook helem n (Nat.le_refl n)
  obtain ⟨vs, s1, s2, s3⟩ := pcLevels_eq (by omega) hv hlook helem (k - 1) hist (List.replicate (2 ^ k) 0) [] (by omega)
    e2 (by simp) (by
      intro c hc
      rw [show k - 1 + 1 = k by omega] at hc ⊢
      simpa using e6 c hc) (by simp; omega) (by
      rw [show k - 1 + 1 = k by omega, Nat.sub_self]
      intro x hx
      simp [Nat.mod_one] at hx
      omega)
  refine ⟨v :: vs, ?_, by simp [s2]; omega, ?_⟩
  · unfold prefixCounting
    rw [if_pos hk, ok_bind, e1, ok_bind, s1, ok_bind, List.take_of_length_le (by simp [s2]; omega)]
  · have hbits : v.bits = (List.range n).map (fun p => (val p).testBit (k - 1)) :=
      bits_of_places (List.Perm.refl _) e5 (pl := id) (by intro j hj; simp [hj]) e7
    refine ⟨?_, ?_, ?_⟩
    · rw [s2, show k - 1 + 1 = k by omega]
      intro x hx
      simp only [List.mem_map] at hx
      obtain ⟨p, _, rfl⟩ := hx
      exact Nat.mod_lt _ (Nat.two_pow_pos _)
    · have := top_perm val (k - 1) (List.range n)
      rw [show k - 1 + 1 = k by omega] at this
      rw [s2, this]
      exact ⟨e3, e4, hbits⟩
    · have f1 := lo_perm val (k - 1) (List.range n)
      have f2 := hi_perm val (k - 1) (List.range n)
      rw [show k - 1 + 1 = k by omega] at f1 f2
      rw [s2, f1, f2, ← List.map_append]
      exact s3

theorem fromSlicePc_levels (seq : List Word) {k : Nat} (hk1 : 1 ≤ k) (hk : k < 64) (hx : ∀ x ∈ seq, x.toNat < 2 ^ k) :
    ∃ vs, fromSlicePc seq k = (do let data ← buildAll vs; pure ⟨data⟩) ∧ vs.length = k ∧
      GoodV vs (seq.map (·.toNat % 2 ^ k)) := by
  obtain ⟨vs, h1, h2, h3⟩ := pc_levels (k := k) (n := seq.length) (lookup := sliceLookup seq) (elem := idx seq)
    (val := fun p => (seq[p]?.getD 0#64).toNat) hk1 hk
    (fun i hi => by simp only [List.getElem?_eq_getElem hi, Option.getD_some]; exact hx _ (List.getElem_mem hi))
    (fun p b hp hb => sliceLookup_eq (by omega) hp hb)
    (fun p hp => ⟨seq[p], idx_of_lt hp, by simp [hp]⟩)
  rw [map_range_getD] at h3
  exact ⟨vs, by unfold fromSlicePc; rw [assertR_true (by omega), ok_bind, h1], h2, h3⟩

theorem fromBitVecPc_levels {v : BV} (hv : v.WF) {k : Nat} (hk : 1 ≤ k) (hk' : k < 64) (hd : v.len % k = 0) :
    ∃ vs, fromBitVecPc v k = (do let data ← buildAll vs; pure ⟨data⟩) ∧ vs.length = k ∧
      GoodV vs (chunks k v.bits) := by
  obtain ⟨vs, h1, h2, h3⟩ := pc_levels (k := k) (n := v.len / k) (lookup := bvLookup v k)
    (elem := fun e => v.getBitsUnchecked (e * k) k)
    (val := chunk k v) hk hk' (fun i _ => chunk_lt i) (fun p b hp hb => bvLookup_eq hv hp hb)
    (fun p hp => by
      have hb := chunk_bound hp
      obtain ⟨w, w1, w2⟩ := BV.getBitsRaw_toNat (d := v.data) (pos := p * k) (n := k) (by omega) (by unfold BV.WF at hv; omega) (by unfold BV.WF at hv; omega)
      refine ⟨w, w1, ?_⟩
      rw [w2, BV.map_lbit_eq_drop_take _ _ _ hb]
      rfl)
  rw [chunks_eq] at h3
  refine ⟨vs, ?_, h2, h3⟩
  unfold fromBitVecPc checkMultiple
  rw [if_neg (by omega), assertR_true hd, ok_bind, assertR_true (by omega), ok_bind, h1]

end WM
end Vers
