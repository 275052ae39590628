import Verif.Proofs.Excess
import Verif.Proofs.BitVecOps2
import Verif.Proofs.RmqBin

set_option linter.unusedSimpArgs false

/-! # Construction of the min-max tree -/

namespace Vers

variable [Profile]
open Spec

theorem addI_of {a b : Int} (h : (a + b).natAbs ≤ 9223372036854775807) : addI a b = .ok (a + b) := by
  unfold addI; rw [if_pos (by omega)]

theorem subI_of {a b : Int} (h : (a - b).natAbs ≤ 9223372036854775807) : subI a b = .ok (a - b) := by
  unfold subI; rw [if_pos (by omega)]

namespace MMT

/-! ## The complete binary tree behind the heap -/

/-- First leaf and number of leaves below heap index `x` in a complete tree with `2 ^ K` leaves. -/
def rng (K : Nat) : Nat → Nat × Nat
  | 0 => (0, 2 ^ K)
  | x + 1 =>
    if x % 2 = 0 then ((rng K (x / 2)).1, (rng K (x / 2)).2 / 2)
    else ((rng K (x / 2)).1 + (rng K (x / 2)).2 / 2, (rng K (x / 2)).2 / 2)
termination_by x => x
decreasing_by all_goals omega

omit [Profile] in
theorem rng_left (K x : Nat) : rng K (2 * x + 1) = ((rng K x).1, (rng K x).2 / 2) := by
  rw [rng, if_pos (by omega), show 2 * x / 2 = x by omega]

omit [Profile] in
theorem rng_right (K x : Nat) :
    rng K (2 * x + 2) = ((rng K x).1 + (rng K x).2 / 2, (rng K x).2 / 2) := by
  rw [show 2 * x + 2 = (2 * x + 1) + 1 by omega, rng, if_neg (by omega), show (2 * x + 1) / 2 = x by omega]

omit [Profile] in
theorem rng_form (K : Nat) : ∀ (d p : Nat), d ≤ K → p < 2 ^ d →
    rng K (2 ^ d - 1 + p) = (p * 2 ^ (K - d), 2 ^ (K - d))
  | 0, p, _, hp => by
    have : p = 0 := by simpa using hp
    subst this; simp [rng]
  | d + 1, p, hd, hp => by
    have h2 : 2 ^ (d + 1) = 2 * 2 ^ d := by rw [Nat.pow_succ]; omega
    have hpos : 0 < 2 ^ d := Nat.pow_pos (by omega)
    have ih := rng_form K d (p / 2) (by omega) (by omega)
    have hk : 2 ^ (K - d) = 2 * 2 ^ (K - (d + 1)) := by
      rw [show K - d = (K - (d + 1)) + 1 by omega, Nat.pow_succ]; omega
    have hk2 : 2 ^ (K - d) / 2 = 2 ^ (K - (d + 1)) := by omega
    by_cases hpe : p % 2 = 0
    · rw [show 2 ^ (d + 1) - 1 + p = 2 * (2 ^ d - 1 + p / 2) + 1 by omega, rng_left, ih]
      simp only [hk2]
      congr 1
      rw [hk, ← Nat.mul_assoc, show p / 2 * 2 = p by omega]
    · rw [show 2 ^ (d + 1) - 1 + p = 2 * (2 ^ d - 1 + p / 2) + 2 by omega, rng_right, ih]
      simp only [hk2]
      congr 1
      rw [hk, ← Nat.mul_assoc, ← Nat.succ_mul, show (p / 2 * 2).succ = p by omega]

omit [Profile] in
theorem exists_form (x : Nat) : ∃ d p, p < 2 ^ d ∧ x = 2 ^ d - 1 + p := by
  refine ⟨Nat.log2 (x + 1), x + 1 - 2 ^ Nat.log2 (x + 1), ?_, ?_⟩
  · have h1 := Nat.lt_log2_self (n := x + 1)
    rw [Nat.pow_succ] at h1
    have h2 := Nat.log2_self_le (n := x + 1) (by omega)
    omega
  · have h2 := Nat.log2_self_le (n := x + 1) (by omega)
    have : 0 < 2 ^ Nat.log2 (x + 1) := Nat.pow_pos (by omega)
    omega

omit [Profile] in
/-- An inner node has an even number of leaves below it. -/
theorem rng_inner {K x : Nat} (h : x < 2 ^ K - 1) : ∃ w, 0 < w ∧ (rng K x).2 = 2 * w := by
  obtain ⟨d, p, hp, rfl⟩ := exists_form x
  have hd : d < K := by
    apply Classical.byContradiction
    intro hd
    have := Nat.pow_le_pow_right (n := 2) (by omega) (by omega : K ≤ d)
    omega
  rw [rng_form K d p (by omega) hp]
  refine ⟨2 ^ (K - (d + 1)), Nat.pow_pos (by omega), ?_⟩
  show 2 ^ (K - d) = _
  rw [show K - d = (K - (d + 1)) + 1 by omega, Nat.pow_succ]; omega

omit [Profile] in
theorem rng_leaf {K j : Nat} (h : j < 2 ^ K) : rng K (2 ^ K - 1 + j) = (j, 1) := by
  rw [rng_form K K j (Nat.le_refl _) h]; simp

/-- The positions below a heap index. -/
def lo (K bs x : Nat) : Nat := (rng K x).1 * bs
def hi (K bs x : Nat) : Nat := ((rng K x).1 + (rng K x).2) * bs

omit [Profile] in
theorem lo_root (K bs : Nat) : lo K bs 0 = 0 := by simp [lo, rng]
omit [Profile] in
theorem hi_root (K bs : Nat) : hi K bs 0 = 2 ^ K * bs := by simp [hi, rng]

omit [Profile] in
theorem lo_left (K bs x : Nat) : lo K bs (2 * x + 1) = lo K bs x := by simp [lo, rng_left]

omit [Profile] in
theorem hi_left (K bs x : Nat) : hi K bs (2 * x + 1) = lo K bs (2 * x + 2) := by
  simp [hi, lo, rng_left, rng_right]

omit [Profile] in
theorem hi_right {K bs x : Nat} (h : x < 2 ^ K - 1) : hi K bs (2 * x + 2) = hi K bs x := by
  obtain ⟨w, -, hw⟩ := rng_inner h
  simp only [hi, rng_right, hw]
  congr 1; omega

omit [Profile] in
theorem lo_lt_mid {K bs x : Nat} (hbs : 0 < bs) (h : x < 2 ^ K - 1) :
    lo K bs x < lo K bs (2 * x + 2) := by
  obtain ⟨w, hw0, hw⟩ := rng_inner h
  simp only [lo, rng_right, hw]
  exact Nat.mul_lt_mul_of_pos_right (by omega) hbs

omit [Profile] in
theorem mid_lt_hi {K bs x : Nat} (hbs : 0 < bs) (h : x < 2 ^ K - 1) :
    lo K bs (2 * x + 2) < hi K bs x := by
  obtain ⟨w, hw0, hw⟩ := rng_inner h
  simp only [lo, hi, rng_right, hw]
  exact Nat.mul_lt_mul_of_pos_right (by omega) hbs

omit [Profile] in
theorem lo_leaf {K bs j : Nat} (h : j < 2 ^ K) : lo K bs (2 ^ K - 1 + j) = j * bs := by
  simp [lo, rng_leaf h]

omit [Profile] in
theorem hi_leaf {K bs j : Nat} (h : j < 2 ^ K) : hi K bs (2 ^ K - 1 + j) = (j + 1) * bs := by
  simp [hi, rng_leaf h]

/-- The correct contents of a heap cell. -/
def hv (b : List Bool) (K bs x : Nat) : ExcessNode := segNode (sec b (lo K bs x) (hi K bs x))

/-- Every cell of the heap is correct; `L` leaves are present. -/
structure Ok (b : List Bool) (bs K L : Nat) (nodes : List ExcessNode) : Prop where
  hK : 1 ≤ K
  hL : 1 ≤ L
  hL2 : L ≤ 2 ^ K
  hL3 : 2 ^ (K - 1) ≤ L
  hL4 : L = 1 → K = 1
  hL5 : 2 ≤ L → 2 ^ (K - 1) < L
  bs_pos : 0 < bs
  cover : b.length ≤ L * bs
  last : (L - 1) * bs < b.length
  len : nodes.length = 2 ^ K - 1 + L
  cells : ∀ x, x < nodes.length → nodes[x]? = some (hv b K bs x)

/-! ## Leaves -/

/-- The accumulator describes the positions `a, ..., i - 1`. -/
def AccOk (b : List Bool) (a i : Nat) (st : LeafAcc) : Prop :=
  st.total = excess (sec b a i) ∧
    (a = i → st.minE = 9223372036854775807 ∧ st.maxE = -9223372036854775808) ∧
    (a < i → st.minE = minPre (sec b a i) ∧ st.maxE = maxPre (sec b a i))

/-- The leaves of the blocks before `q` are stored, the other cells are untouched. -/
def LeavesOk (b : List Bool) (bs ni L q : Nat) (nodes : List ExcessNode) : Prop :=
  nodes.length = L + ni ∧
    ∀ x, x < L + ni → nodes[x]? =
      some (if ni ≤ x ∧ x < ni + q then segNode (sec b ((x - ni) * bs) ((x - ni + 1) * bs))
        else ExcessNode.default)

theorem accOk_step {b : List Bool} {a i : Nat} {st : LeafAcc} {x : Bool} (h : AccOk b a i st)
    (hai : a ≤ i) (hx : b[i]? = some x) (hb : b.length ≤ 9223372036854775807) (nodes : List ExcessNode) :
    addI st.total (sgn x) = .ok (excess (sec b a (i + 1))) ∧
    AccOk b a (i + 1) ⟨nodes, excess (sec b a (i + 1)), min st.minE (excess (sec b a (i + 1))),
      max st.maxE (excess (sec b a (i + 1)))⟩ := by
  obtain ⟨h1, h2, h3⟩ := h
  have hi := (List.getElem?_eq_some_iff.mp hx).1
  have e1 := sec_succ hai hx
  have e2 : excess (sec b a (i + 1)) = st.total + sgn x := by
    rw [e1, excess_append, excess_singleton, h1]
  have e3 := excess_natAbs_le (sec b a (i + 1))
  rw [length_sec] at e3
  refine ⟨?_, rfl, by omega, fun _ => ?_⟩
  · rw [e2, addI_of (by omega)]
  · by_cases ha : a = i
    · obtain ⟨g1, g2⟩ := h2 ha
      subst ha
      rw [g1, g2, e1, sec_self]
      simp only [List.nil_append, excess_singleton, minPre, maxPre]
      have := sgn_cases x
      omega
    · obtain ⟨g1, g2⟩ := h3 (by omega)
      have hne : sec b a i ≠ [] := sec_ne_nil (by omega) (by omega)
      have k1 := minPre_append hne [x]
      have k2 := maxPre_append hne [x]
      rw [← e1] at k1 k2
      simp only [minPre, maxPre] at k1 k2
      dsimp only
      rw [k1, k2, g1, g2, e2, h1]
      simp

theorem leafFlush_eq {b : List Bool} {bs ni L i : Nat} {st : LeafAcc} (hbs : 0 < bs) (hi : 0 < i)
    (hL : i / bs < L)
    (ha : AccOk b ((i - 1) / bs * bs) i st) (hl : LeavesOk b bs ni L ((i - 1) / bs) st.nodes) :
    ∃ st', leafFlush bs ni st i = .ok st' ∧ AccOk b (i / bs * bs) i st' ∧
      LeavesOk b bs ni L (i / bs) st'.nodes := by
  unfold leafFlush
  have hdm := Nat.div_add_mod i bs
  have hm := Nat.mod_lt i hbs
  rw [Nat.mul_comm] at hdm
  by_cases h : i % bs = 0
  · rw [if_pos ⟨hi, h⟩]
    have hq : 0 < i / bs := by
      apply Nat.pos_of_ne_zero; intro h0; rw [h0] at hdm; omega
    have hq' : (i - 1) / bs = i / bs - 1 := by
      apply Nat.div_eq_of_lt_le
      · have : (i / bs - 1) * bs + bs = i / bs * bs := by
          rw [← Nat.succ_mul]; congr 1; omega
        omega
      · rw [show i / bs - 1 + 1 = i / bs by omega]; omega
    obtain ⟨l1, l2⟩ := hl
    obtain ⟨a1, a2, a3⟩ := ha
    rw [subR_of_le (by omega), ok_bind, setIdx_of_lt (by rw [l1]; omega), ok_bind]
    refine ⟨_, rfl, ⟨?_, fun _ => ⟨rfl, rfl⟩, fun h => ?_⟩, ?_, ?_⟩
    · rw [show i / bs * bs = i by omega, sec_self]; rfl
    · omega
    · simp [LeafAcc.fresh, l1]
    · intro x hx
      simp only [LeafAcc.fresh]
      have hlt : (i - 1) / bs * bs < i := by
        rw [hq']
        have : (i / bs - 1) * bs + bs = i / bs * bs := by
          rw [← Nat.succ_mul]; congr 1; omega
        omega
      obtain ⟨a3, a4⟩ := a3 hlt
      rw [List.getElem?_set]
      by_cases hxe : ni + i / bs - 1 = x
      · rw [if_pos hxe, if_pos (by omega), if_pos (by omega)]
        rw [show x - ni = i / bs - 1 by omega, show i / bs - 1 + 1 = i / bs by omega]
        rw [show i / bs * bs = i by omega]
        rw [hq'] at a1 a3 a4
        rw [a1, a3, a4]; rfl
      · rw [if_neg hxe, l2 x hx, hq']
        by_cases hc : ni ≤ x ∧ x < ni + i / bs
        · rw [if_pos hc, if_pos (by omega)]
        · rw [if_neg hc, if_neg (by omega)]
  · rw [if_neg (by simp [h])]
    have hq' : (i - 1) / bs = i / bs := by
      apply Nat.div_eq_of_lt_le
      · omega
      · rw [Nat.succ_mul]; omega
    rw [hq'] at ha hl
    exact ⟨st, rfl, ha, hl⟩

omit [Profile] in
theorem isBitSetUnchecked_eq {v : BV} {i : Nat} (h : v.WF) (hi : i < v.len) :
    ∃ x, v.bits[i]? = some x ∧ v.isBitSetUnchecked i = .ok x := by
  refine ⟨lbit v.data i, by rw [BV.bits_getElem?, if_pos hi], ?_⟩
  unfold BV.isBitSetUnchecked
  rw [BV.getUnchecked_eq (BV.lt_of_wf h hi), ok_bind]
  cases lbit v.data i <;> rfl

theorem leafLoop_eq {v : BV} (hw : v.WF) {bs ni L : Nat} (hbs : 0 < bs) (hv : v.len ≤ L * bs)
    (hb : v.len ≤ 9223372036854775807) : ∀ i, i ≤ v.len → 0 < i →
    ∃ st, leafLoop v bs ni i (LeafAcc.fresh (List.replicate (L + ni) ExcessNode.default)) = .ok st ∧
      AccOk v.bits ((i - 1) / bs * bs) i st ∧ LeavesOk v.bits bs ni L ((i - 1) / bs) st.nodes := by
  intro i
  induction i with
  | zero => intro _ h; omega
  | succ i ih =>
    intro hi _
    rw [Nat.add_sub_cancel]
    have hlen : v.bits.length = v.len := BV.length_bits v
    obtain ⟨x, x1, x2⟩ := isBitSetUnchecked_eq hw (i := i) (by omega)
    have pre : ∃ st st', leafLoop v bs ni i (LeafAcc.fresh (List.replicate (L + ni) ExcessNode.default)) = .ok st ∧
        leafFlush bs ni st i = .ok st' ∧ AccOk v.bits (i / bs * bs) i st' ∧
        LeavesOk v.bits bs ni L (i / bs) st'.nodes := by
      by_cases h0 : i = 0
      · subst h0
        refine ⟨_, _, rfl, by unfold leafFlush; rw [if_neg (by omega)]; rfl, ?_, ?_⟩
        · rw [show 0 / bs * bs = 0 by simp]
          exact ⟨by rw [sec_self]; rfl, fun _ => ⟨rfl, rfl⟩, by omega⟩
        · refine ⟨by simp [LeafAcc.fresh], ?_⟩
          intro x hx
          simp only [LeafAcc.fresh]
          rw [if_neg (by simp), List.getElem?_replicate, if_pos hx]
      · obtain ⟨st, s1, s2, s3⟩ := ih (by omega) (by omega)
        have hL : i / bs < L := by
          rw [Nat.div_lt_iff_lt_mul hbs]; omega
        obtain ⟨st', t1, t2, t3⟩ := leafFlush_eq hbs (by omega) hL s2 s3
        exact ⟨st, st', s1, t1, t2, t3⟩
    obtain ⟨st, st', s1, s2, s3, s4⟩ := pre
    have hle : i / bs * bs ≤ i := Nat.div_mul_le_self i bs
    obtain ⟨a1, a2⟩ := accOk_step s3 hle x1 (by omega) st'.nodes
    refine ⟨_, ?_, a2, s4⟩
    rw [leafLoop, s1, ok_bind]
    unfold leafStep
    rw [s2, ok_bind, x2, ok_bind, a1, ok_bind]
    rfl

/-! ## Inner levels -/

theorem combine_eq {a b : List Bool} (h : a = [] → b = []) (hl : a.length + b.length ≤ 9223372036854775807) :
    combine (segNode a) (segNode b) = .ok (segNode (a ++ b)) := by
  unfold combine segNode
  have h1 := excess_natAbs_le a
  have h2 := excess_natAbs_le b
  have h3 := minPre_natAbs_le b
  have h4 := maxPre_natAbs_le b
  simp only []
  rw [addI_of (by omega), ok_bind, addI_of (by omega), ok_bind, addI_of (by omega), ok_bind]
  by_cases ha : a = []
  · have hb := h ha
    subst ha hb
    rfl
  · rw [minPre_append ha, maxPre_append ha, excess_append]
    rfl

/-- A cell from the two cells below it. -/
theorem hv_combine {b : List Bool} {K bs x : Nat} (hbs : 0 < bs) (hb : b.length ≤ 9223372036854775807)
    (hx : x < 2 ^ K - 1) :
    combine (hv b K bs (2 * x + 1)) (hv b K bs (2 * x + 2)) = .ok (hv b K bs x) := by
  unfold hv
  rw [lo_left, hi_left, hi_right hx]
  have h1 := lo_lt_mid hbs hx
  have h2 := mid_lt_hi hbs hx
  rw [combine_eq, sec_append _ (by omega) (by omega)]
  · intro h
    have := length_sec b (lo K bs x) (lo K bs (2 * x + 2))
    rw [h] at this
    simp at this
    apply sec_nil; omega
  · rw [length_sec, length_sec]; omega

omit [Profile] in
theorem hv_copy {b : List Bool} {K bs x : Nat} (hbs : 0 < bs) (hx : x < 2 ^ K - 1)
    (h : b.length ≤ lo K bs (2 * x + 2)) : hv b K bs (2 * x + 1) = hv b K bs x := by
  unfold hv
  rw [lo_left, hi_left]
  have h2 := mid_lt_hi hbs hx
  rw [sec_end h, sec_end (by omega)]

omit [Profile] in
theorem hv_empty {b : List Bool} {K bs x : Nat} (h : b.length ≤ lo K bs x) :
    hv b K bs x = ExcessNode.default := by
  unfold hv
  rw [sec_nil (by omega), segNode_nil]

/-- Cells `a, ..., c - 1` and those from `e` on are correct, the others are untouched. -/
def Cells (b : List Bool) (K bs a c e N : Nat) (nodes : List ExcessNode) : Prop :=
  nodes.length = N ∧ ∀ x, x < N → nodes[x]? =
    some (if (a ≤ x ∧ x < c) ∨ e ≤ x then hv b K bs x else ExcessNode.default)

theorem levelStep_eq {b : List Bool} {K bs L d i : Nat} {nodes : List ExcessNode} (hbs : 0 < bs)
    (hb : b.length ≤ 9223372036854775807) (hd : d < K) (hi : i < 2 ^ d) (hL : L ≤ 2 ^ K)
    (hcov : b.length ≤ L * bs)
    (h : Cells b K bs (2 ^ d - 1) (2 ^ d - 1 + i) (2 ^ (d + 1) - 1) (2 ^ K - 1 + L) nodes) :
    ∃ nodes', levelStep (2 ^ d - 1) nodes i = .ok nodes' ∧
      Cells b K bs (2 ^ d - 1) (2 ^ d - 1 + (i + 1)) (2 ^ (d + 1) - 1) (2 ^ K - 1 + L) nodes' := by
  obtain ⟨h1, h2⟩ := h
  have p1 : 2 ^ (d + 1) = 2 * 2 ^ d := by rw [Nat.pow_succ]; omega
  have p2 : 2 ^ (d + 1) ≤ 2 ^ K := Nat.pow_le_pow_right (by omega) hd
  have p0 : 0 < 2 ^ d := Nat.pow_pos (by omega)
  unfold levelStep
  have hx : 2 ^ d - 1 + i < 2 ^ K - 1 := by omega
  generalize hxe : 2 ^ d - 1 + i = x at *
  rw [show x * 2 + 1 = 2 * x + 1 by omega, show x * 2 + 2 = 2 * x + 2 by omega]
  -- storing the correct value yields the claim
  have store : ∃ nodes', setIdx nodes x (hv b K bs x) = .ok nodes' ∧
      Cells b K bs (2 ^ d - 1) (2 ^ d - 1 + (i + 1)) (2 ^ (d + 1) - 1) (2 ^ K - 1 + L) nodes' := by
    refine ⟨_, setIdx_of_lt (by omega), by simp [h1], ?_⟩
    intro y hy
    rw [List.getElem?_set]
    by_cases hxy : x = y
    · subst hxy
      rw [if_pos rfl, if_pos (by omega), if_pos (by omega)]
    · rw [if_neg hxy, h2 y hy]
      by_cases hc : ((2 ^ d - 1 ≤ y ∧ y < x) ∨ 2 ^ (d + 1) - 1 ≤ y)
      · rw [if_pos hc, if_pos (by omega)]
      · rw [if_neg hc, if_neg (by omega)]
  -- cells beyond the heap are beyond the sequence
  have beyond : ∀ y, 2 ^ K - 1 + L ≤ y → y ≤ 2 * x + 2 → b.length ≤ lo K bs y := by
    intro y hy hy2
    rw [show y = 2 ^ K - 1 + (y - (2 ^ K - 1)) by omega, lo_leaf (by omega)]
    exact Nat.le_trans hcov (Nat.mul_le_mul_right _ (by omega))
  by_cases c1 : 2 * x + 1 < nodes.length
  · rw [if_pos c1]
    have e1 := h2 (2 * x + 1) (by omega)
    rw [if_pos (by omega)] at e1
    by_cases c2 : 2 * x + 2 < nodes.length
    · rw [if_pos c2]
      have e2 := h2 (2 * x + 2) (by omega)
      rw [if_pos (by omega)] at e2
      rw [idx_of_some e1, ok_bind, idx_of_some e2, ok_bind, hv_combine hbs hb hx, ok_bind]
      exact store
    · rw [if_neg c2, idx_of_some e1, ok_bind, hv_copy hbs hx (beyond _ (by omega) (by omega))]
      exact store
  · rw [if_neg c1]
    refine ⟨nodes, rfl, h1, ?_⟩
    intro y hy
    rw [h2 y hy]
    by_cases hc : ((2 ^ d - 1 ≤ y ∧ y < x) ∨ 2 ^ (d + 1) - 1 ≤ y)
    · rw [if_pos hc, if_pos (by omega)]
    · rw [if_neg hc]
      by_cases hxy : y = x
      · subst hxy
        rw [if_pos (by omega), hv_empty]
        have := beyond (2 * y + 1) (by omega) (by omega)
        rw [lo_left] at this
        exact this
      · rw [if_neg (by omega)]

theorem levelLoop_eq {b : List Bool} {K bs L d : Nat} {nodes : List ExcessNode} (hbs : 0 < bs)
    (hb : b.length ≤ 9223372036854775807) (hd : d < K) (hL : L ≤ 2 ^ K) (hcov : b.length ≤ L * bs)
    (h : Cells b K bs (2 ^ d - 1) (2 ^ d - 1) (2 ^ (d + 1) - 1) (2 ^ K - 1 + L) nodes) :
    ∀ i, i ≤ 2 ^ d → ∃ nodes', levelLoop (2 ^ d - 1) i nodes = .ok nodes' ∧
      Cells b K bs (2 ^ d - 1) (2 ^ d - 1 + i) (2 ^ (d + 1) - 1) (2 ^ K - 1 + L) nodes' := by
  intro i
  induction i with
  | zero => intro _; exact ⟨nodes, rfl, h⟩
  | succ i ih =>
    intro hi
    obtain ⟨n1, g1, g2⟩ := ih (by omega)
    obtain ⟨n2, k1, k2⟩ := levelStep_eq hbs hb hd (by omega) hL hcov g2
    exact ⟨n2, by rw [levelLoop, g1, ok_bind, k1], k2⟩

theorem levels_eq {b : List Bool} {K bs L : Nat} (hbs : 0 < bs)
    (hb : b.length ≤ 9223372036854775807) (hL : L ≤ 2 ^ K) (hcov : b.length ≤ L * bs) :
    ∀ (d fuel : Nat) (nodes : List ExcessNode), d < K → d < fuel →
      Cells b K bs 0 0 (2 ^ (d + 1) - 1) (2 ^ K - 1 + L) nodes →
      ∃ nodes', levels fuel (2 ^ d) (2 ^ d - 1) nodes = .ok nodes' ∧
        Cells b K bs 0 0 0 (2 ^ K - 1 + L) nodes' := by
  intro d
  induction d with
  | zero =>
    intro fuel nodes hd hf h
    cases fuel with
    | zero => omega
    | succ fuel =>
      obtain ⟨n1, g1, g2⟩ := levelLoop_eq hbs hb hd hL hcov h 1 (by simp)
      refine ⟨n1, ?_, g2.1, ?_⟩
      · rw [levels]
        simp only [Nat.pow_zero] at g1 ⊢
        rw [g1, ok_bind, if_pos trivial]; rfl
      · intro x hx
        have := g2.2 x hx
        rw [if_pos (by simp; omega)] at this
        rw [this, if_pos (by omega)]
  | succ d ih =>
    intro fuel nodes hd hf h
    have p1 : 2 ^ (d + 1) = 2 * 2 ^ d := by rw [Nat.pow_succ]; omega
    have p0 : 0 < 2 ^ d := Nat.pow_pos (by omega)
    cases fuel with
    | zero => omega
    | succ fuel =>
      have h' : Cells b K bs (2 ^ (d + 1) - 1) (2 ^ (d + 1) - 1) (2 ^ (d + 1 + 1) - 1) (2 ^ K - 1 + L) nodes := by
        refine ⟨h.1, fun x hx => ?_⟩
        rw [h.2 x hx]
        by_cases hc : 2 ^ (d + 1 + 1) - 1 ≤ x
        · rw [if_pos (by omega), if_pos (by omega)]
        · rw [if_neg (by omega), if_neg (by omega)]
      obtain ⟨n1, g1, g2⟩ := levelLoop_eq hbs hb hd hL hcov h' (2 ^ (d + 1)) (Nat.le_refl _)
      have p3 : 2 ^ (d + 1 + 1) = 2 * 2 ^ (d + 1) := by rw [Nat.pow_succ]; omega
      obtain ⟨n2, k1, k2⟩ := ih fuel n1 (by omega) (by omega) (by
        refine ⟨g2.1, fun x hx => ?_⟩
        rw [g2.2 x hx]
        by_cases hc : 2 ^ (d + 1) - 1 ≤ x
        · rw [if_pos (by omega), if_pos (by omega)]
        · rw [if_neg (by omega), if_neg (by omega)])
      refine ⟨n2, ?_, k2⟩
      rw [levels, g1, ok_bind, if_neg (by omega), subR_of_le (by omega), ok_bind]
      rw [show 2 ^ (d + 1) / 2 = 2 ^ d by omega, show 2 ^ (d + 1) - 1 - 2 ^ d = 2 ^ d - 1 by omega]
      exact k1

/-- The heap that `excess_tree` builds. -/
theorem excessTree_ok {v : BV} (hw : v.WF) {bs : Nat} (hbs : 0 < bs) (hne : 0 < v.len)
    (hb : v.len ≤ 9223372036854775807) :
    ∃ t K L, excessTree v bs = .ok t ∧ Ok v.bits bs K L t.nodes := by
  have hlen : v.bits.length = v.len := BV.length_bits v
  obtain ⟨L, hLe⟩ : ∃ L, L = (v.len + bs - 1) / bs := ⟨_, rfl⟩
  have hcov : v.len ≤ L * bs := by
    have h1 := Nat.div_add_mod (v.len + bs - 1) bs
    have h2 := Nat.mod_lt (v.len + bs - 1) hbs
    rw [Nat.mul_comm, ← hLe] at h1
    omega
  have hL1 : 1 ≤ L := by
    rw [hLe, Nat.le_div_iff_mul_le hbs]; omega
  have hlast : (L - 1) * bs < v.len := by
    have h1 := Nat.div_add_mod (v.len + bs - 1) bs
    rw [Nat.mul_comm, ← hLe] at h1
    have : (L - 1) * bs + bs = L * bs := by rw [← Nat.succ_mul]; congr 1; omega
    omega
  have hc1 := log2Ceil_le L
  -- the number of levels
  obtain ⟨K, hK⟩ : ∃ K, K = max 1 (log2Ceil L) := ⟨_, rfl⟩
  have hni : max 1 (2 ^ log2Ceil L - 1) = 2 ^ K - 1 := by
    by_cases h0 : log2Ceil L = 0
    · rw [hK, h0]; rfl
    · have : 2 ^ 1 ≤ 2 ^ log2Ceil L := Nat.pow_le_pow_right (by omega) (by omega)
      rw [hK, Nat.max_eq_right (by omega : 1 ≤ log2Ceil L), Nat.max_eq_right (by omega)]
  have hsize : max 1 (nextPow2 L / 2) = 2 ^ (K - 1) := by
    unfold nextPow2
    by_cases h0 : log2Ceil L = 0
    · rw [hK, h0]; rfl
    · have : 2 ^ log2Ceil L = 2 * 2 ^ (log2Ceil L - 1) := by
        rw [show log2Ceil L = (log2Ceil L - 1) + 1 by omega, Nat.pow_succ, Nat.add_sub_cancel]; omega
      have : 0 < 2 ^ (log2Ceil L - 1) := Nat.pow_pos (by omega)
      rw [hK, Nat.max_eq_right (by omega : 1 ≤ log2Ceil L), Nat.max_eq_right (by omega)]
      omega
  have hK1 : 1 ≤ K := by omega
  have p1 : 2 ^ K = 2 * 2 ^ (K - 1) := by
    rw [show K = (K - 1) + 1 by omega, Nat.pow_succ, Nat.add_sub_cancel]; omega
  have p0 : 0 < 2 ^ (K - 1) := Nat.pow_pos (by omega)
  have hL2 : L ≤ 2 ^ K := by
    have : 2 ^ log2Ceil L ≤ 2 ^ K := Nat.pow_le_pow_right (by omega) (by omega)
    omega
  have hL4 : L = 1 → K = 1 := by
    intro h; rw [hK, h]; rfl
  have hL5 : 2 ≤ L → 2 ^ (K - 1) < L := by
    intro h
    apply lt_of_lt_log2Ceil
    have : log2Ceil L ≠ 0 := by
      intro h0; rw [h0] at hc1; simp at hc1; omega
    omega
  have hL3 : 2 ^ (K - 1) ≤ L := by
    by_cases h : 2 ≤ L
    · have := hL5 h; omega
    · have := hL4 (by omega); rw [this]; simpa using hL1
  obtain ⟨st, s1, s2, s3⟩ := leafLoop_eq hw (ni := 2 ^ K - 1) hbs hcov hb v.len (Nat.le_refl _) hne
  have hq : (v.len - 1) / bs = L - 1 := by
    apply Nat.div_eq_of_lt_le
    · omega
    · rw [show L - 1 + 1 = L by omega]; omega
  rw [hq] at s2 s3
  obtain ⟨a1, -, a3⟩ := s2
  obtain ⟨a3, a4⟩ := a3 hlast
  have hstart : Cells v.bits K bs 0 0 (2 ^ (K - 1 + 1) - 1) (2 ^ K - 1 + L)
      (st.nodes.set (2 ^ K - 1 + L - 1) ⟨st.total, st.minE, st.maxE⟩) := by
    refine ⟨by rw [List.length_set, s3.1]; omega, ?_⟩
    intro x hx
    rw [show K - 1 + 1 = K by omega, List.getElem?_set]
    by_cases hxe : 2 ^ K - 1 + L - 1 = x
    · rw [if_pos hxe, if_pos (by rw [s3.1]; omega), if_pos (by omega), a1, a3, a4]
      unfold hv
      rw [← hxe, show 2 ^ K - 1 + L - 1 = 2 ^ K - 1 + (L - 1) by omega, lo_leaf (by omega), hi_leaf (by omega),
        show L - 1 + 1 = L by omega]
      rw [sec_end (by omega : v.bits.length ≤ L * bs), sec_end (by omega : v.bits.length ≤ v.len)]
      rfl
    · rw [if_neg hxe, s3.2 x (by omega)]
      by_cases hc : 2 ^ K - 1 ≤ x
      · rw [if_pos (by omega), if_pos (by omega)]
        unfold hv
        obtain ⟨j, rfl⟩ : ∃ j, x = 2 ^ K - 1 + j := ⟨x - (2 ^ K - 1), by omega⟩
        rw [lo_leaf (by omega), hi_leaf (by omega), Nat.add_sub_cancel_left]
      · rw [if_neg (by omega), if_neg (by omega)]
  obtain ⟨n1, g1, g2⟩ := levels_eq hbs (by omega) hL2 (by omega) (K - 1) (2 ^ (K - 1) + 1) _ (by omega)
    (by have := Nat.lt_two_pow_self (n := K - 1); omega) hstart
  refine ⟨⟨n1⟩, K, L, ?_, ⟨hK1, hL1, hL2, hL3, hL4, hL5, hbs, by omega, by omega, g2.1, ?_⟩⟩
  · unfold excessTree
    rw [if_neg (by simp [BV.isEmpty]; omega)]
    unfold divCeilR
    rw [if_neg (by omega), ok_bind, ← hLe]
    simp only [hni, hsize]
    rw [s1, ok_bind, subR_of_le (by omega), ok_bind, setIdx_of_lt (by rw [s3.1]; omega), ok_bind,
      subR_of_le (by omega), ok_bind, show 2 ^ K - 1 - 2 ^ (K - 1) = 2 ^ (K - 1) - 1 by omega, g1, ok_bind]
    rfl
  · intro x hx
    have := g2.2 x (by rw [← g2.1]; exact hx)
    rw [this, if_pos (by omega)]

end MMT
end Vers
