import Verif.Proofs.Time
import Verif.Proofs.TimeTree
import Verif.Proofs.EfLen
import Verif.Props.RsVec
import Verif.Props.Space

/-! # Properties C60 to C62: the number of steps of the queries

C60: select on a bit vector.

`rs.select zero k b` is `select0`/`select1` with a budget: each of its two loops may evaluate its condition at
most `b` times, and the query fails with `.fuel` if a loop needs more. Everything else in a query is a constant
number of steps, so the smallest budget that suffices is the running time of the query up to a constant.

C61: predecessor and successor. `ef.predecessor x s b` has a budget `s` for its select queries and `b` for the loop
of its binary search; everything else is a constant number of steps.

C62: the parenthesis tree. The last argument of the queries is a budget for the number of levels of the min-max tree
that are visited on the way up, and on the way down. The rest of a query is a constant number of rank queries and at
most two scans of one block for each of its (at most two) searches. -/

set_option linter.unusedSimpArgs false

namespace Vers

variable [Profile]
open RsVec Spec

/-- C60 for zeros, when there are at least `8192 * (k / 8192 + 1)` of them: the query is correct with a budget
logarithmic in the length. The property is false for all other queries (`C60_select_linear_defect`). -/
theorem C60_select0_log_partial {v : BV} (h : v.WF) :
    ∃ rs, RsVec.fromBitVec v = .ok rs ∧ ∀ k, 8192 * (k / 8192 + 1) ≤ v.bits.count false →
      ∃ p, rs.select true k (Nat.log2 (v.len / 8192 + 1) + 9) = .ok p ∧ IsSelect false v.bits k p := by
  obtain ⟨rs, h1, h2, h3, h4⟩ := fromBitVec_inv h
  have e := bits_of_from h3 h4
  have hc : v.bits.count false = C rs.data false rs.len := by
    rw [BV.count_bits_eq_cnt, h3, h4]; rfl
  refine ⟨rs, h1, fun k hk => ?_⟩
  have hlog : v.len / 8192 + 1 < 2 ^ (Nat.log2 (v.len / 8192 + 1) + 1) := Nat.lt_log2_self
  have hlog' : 2 ^ (Nat.log2 (v.len / 8192 + 1) + 1) ≤ 2 ^ (Nat.log2 (v.len / 8192 + 1) + 9 + 2) :=
    Nat.pow_le_pow_right (by omega) (by omega)
  have hl : rs.supers.length ≤ v.len / 8192 + 1 := by
    have := h2.slen
    have := h2.wf
    omega
  rw [hc] at hk
  obtain ⟨s, s1, s2⟩ := selectSuper_log h2 hk (show 9 ≤ Nat.log2 (v.len / 8192 + 1) + 9 by omega) (by omega)
  obtain ⟨p, p1, p2, p3⟩ := select_of_super h2 true (by simp only [Bool.not_true]; omega) s1 s2
  exact ⟨p, p1, by rw [← e]; exact SelIter.isSelect_of_isPos p2 p3⟩

/-- One million zeros: the position of every zero up to the last multiple of 8192 is found. -/
example := C60_select0_log_partial (BV.wf_fromZeros 1000000)

omit [Profile] in
theorem isPos_of_isSelect {v : BV} {rs : RsVec} (h3 : rs.data = v.data) (h4 : rs.len = v.len) {b : Bool} {r p : Nat}
    (hp : IsSelect b v.bits r p) : IsPos rs.data b r p ∧ p < rs.len := by
  have hl : p < v.len := by
    rw [← BV.length_bits]; exact (List.getElem?_eq_some_iff.mp hp.1).1
  have g1 := hp.1
  rw [BV.bits_getElem?, if_pos hl] at g1
  have g2 := hp.2
  rw [BV.count_take_bits _ _ _ (by omega)] at g2
  rw [← h3] at g1 g2
  exact ⟨⟨by simpa using g1, g2⟩, by omega⟩

/-- C60, upper bound for every query: a budget suffices that is logarithmic in the length plus the number of super
blocks (of 8192 bits) between the result `p` and the last bit `q` before the select block of the rank. This is linear
in the length if these are far apart, and cannot be improved by more than the logarithm
(`C60_select_linear_defect`). -/
theorem C60_select_distance_partial {v : BV} (h : v.WF) :
    ∃ rs, RsVec.fromBitVec v = .ok rs ∧ ∀ zero k p q, IsSelect (!zero) v.bits k p →
      ((k < 8192 ∧ q = 0) ∨ (8192 ≤ k ∧ IsSelect (!zero) v.bits (8192 * (k / 8192) - 1) q)) →
      rs.select zero k (p / 8192 - q / 8192 + Nat.log2 (v.len / 8192 + 1) + 1) = .ok p := by
  obtain ⟨rs, h1, h2, h3, h4⟩ := fromBitVec_inv h
  refine ⟨rs, h1, fun zero k p q hp hq => ?_⟩
  obtain ⟨p1, p2⟩ := isPos_of_isSelect h3 h4 hp
  have hl : rs.supers.length ≤ v.len / 8192 + 1 := by
    have := h2.slen
    have := h2.wf
    omega
  have hlog : v.len / 8192 + 1 < 2 ^ (Nat.log2 (v.len / 8192 + 1) + 1) := Nat.lt_log2_self
  have hlog' : 2 ^ (Nat.log2 (v.len / 8192 + 1) + 1) ≤
      2 ^ (p / 8192 - q / 8192 + Nat.log2 (v.len / 8192 + 1) + 1 + 2) :=
    Nat.pow_le_pow_right (by omega) (by omega)
  refine select_upper (q := q) h2 p1 p2 ?_ (by omega) (by omega)
  rcases hq with hq | ⟨hq1, hq2⟩
  · exact Or.inl hq
  · exact Or.inr ⟨hq1, isPos_of_isSelect h3 h4 hq2⟩

example := C60_select_distance_partial (v := ⟨[0b1011#64], 4⟩) (by decide)

/-- Defect: for ones, and for zeros when there are fewer than `8192 * (k / 8192 + 1)` of them, a query needs a
budget greater than the number of super blocks (of 8192 bits) between the position `q` of the first bit of its
select block and the result `p`. -/
theorem C60_select_linear_defect {v : BV} (h : v.WF) :
    ∃ rs, RsVec.fromBitVec v = .ok rs ∧ ∀ zero k p q, IsSelect (!zero) v.bits k p →
      IsSelect (!zero) v.bits (8192 * (k / 8192)) q →
      (zero = false ∨ v.bits.count (!zero) < 8192 * (k / 8192 + 1)) →
      ∀ b, 1 ≤ b → b ≤ p / 8192 - q / 8192 → rs.select zero k b = .error .fuel := by
  obtain ⟨rs, h1, h2, h3, h4⟩ := fromBitVec_inv h
  have e := bits_of_from h3 h4
  refine ⟨rs, h1, fun zero k p q hp hq hk b hb1 hb => ?_⟩
  have hc : v.bits.count (!zero) = C rs.data (!zero) rs.len := by
    rw [BV.count_bits_eq_cnt, h3, h4]; rfl
  have key : ∀ {r p}, IsSelect (!zero) v.bits r p → IsPos rs.data (!zero) r p ∧ p < rs.len := by
    intro r p hp
    have hl : p < v.len := by
      rw [← BV.length_bits]; exact (List.getElem?_eq_some_iff.mp hp.1).1
    have g1 := hp.1
    rw [BV.bits_getElem?, if_pos hl] at g1
    have g2 := hp.2
    rw [BV.count_take_bits _ _ _ (by omega)] at g2
    rw [← h3] at g1 g2
    exact ⟨⟨by simpa using g1, g2⟩, by omega⟩
  obtain ⟨p1, p2⟩ := key hp
  obtain ⟨q1, _⟩ := key hq
  exact select_slow h2 p1 p2 q1 (by rw [← hc]; exact hk) hb1 hb

omit [Profile] in
/-- Every list of bits is represented by a bit vector. -/
theorem exists_bv (l : List Bool) : ∃ v : BV, v.WF ∧ v.bits = l := by
  suffices ∀ l : List Bool, ∃ v : BV, v.WF ∧ v.bits = l.reverse by simpa using this l.reverse
  intro l
  induction l with
  | nil => exact ⟨⟨[], 0⟩, by decide, rfl⟩
  | cons b l ih =>
    obtain ⟨v, h1, h2⟩ := ih
    obtain ⟨w, _, w1, w2⟩ := BV.append_refines h1 b
    exact ⟨w, w1, by rw [w2, h2, List.reverse_cons]⟩

omit [Profile] in
theorem isSelect_gap (a m : Nat) (ha : 0 < a) :
    IsSelect true (List.replicate a true ++ (List.replicate m false ++ [true])) a (a + m) ∧
      IsSelect true (List.replicate a true ++ (List.replicate m false ++ [true])) (a - 1) (a - 1) := by
  refine ⟨⟨?_, ?_⟩, ⟨?_, ?_⟩⟩
  · rw [List.getElem?_append_right (by simp), List.getElem?_append_right (by simp)]; simp
  · rw [List.take_append, List.take_append]; simp [List.count_replicate]
  · rw [List.getElem?_append_left (by rw [List.length_replicate]; omega), List.getElem?_replicate, if_pos (by omega)]
  · rw [List.take_append_of_le_length (by simp), List.take_replicate]; simp [List.count_replicate]

/-- 8192 ones, 20000 zeros and a one: the query of rank 8192 has to bridge the zeros. -/
example : ∃ v : BV, v.WF ∧ IsSelect true v.bits 8192 (8192 + 20000) ∧
    IsSelect true v.bits (8192 * (8192 / 8192) - 1) (8192 - 1) := by
  obtain ⟨v, v1, v2⟩ := exists_bv (List.replicate 8192 true ++ (List.replicate 20000 false ++ [true]))
  exact ⟨v, v1, by rw [v2]; exact (isSelect_gap 8192 20000 (by omega)).1,
    by rw [v2]; exact (isSelect_gap 8192 20000 (by omega)).2⟩

/-- Defect: no sublinear bound holds, for either kind of bit. For every `m` there is a vector of `8192 m + 1`
bits, on which the query of rank 1 needs a budget greater than `m`. -/
theorem C60_worst_case_defect (zero : Bool) (m : Nat) (hm : 1 ≤ m) :
    ∃ v rs, v.WF ∧ v.len = 8192 * m + 1 ∧ RsVec.fromBitVec v = .ok rs ∧ rs.select zero 1 = .ok (8192 * m) ∧
      rs.select zero 1 m = .error .fuel := by
  obtain ⟨v, v1, v2⟩ := exists_bv ((!zero) :: List.replicate (8192 * m - 1) zero ++ [!zero])
  obtain ⟨rs, r1, r2⟩ := C60_select_linear_defect v1
  obtain ⟨rs', r1', r2'⟩ := C14_select_partial v1
  rw [r1] at r1'
  cases r1'
  have hlen : v.len = 8192 * m + 1 := by
    rw [← BV.length_bits, v2]; simp; omega
  have hcnt : v.bits.count (!zero) = 2 := by
    rw [v2]
    cases zero <;> simp [List.count_replicate, List.count_cons, List.count_append]
  have s0 : IsSelect (!zero) v.bits 0 0 := by rw [v2]; exact ⟨rfl, rfl⟩
  have s1 : IsSelect (!zero) v.bits 1 (8192 * m) := by
    rw [v2]
    have hl : ((!zero) :: List.replicate (8192 * m - 1) zero).length = 8192 * m := by simp; omega
    constructor
    · rw [List.getElem?_append_right (by omega), hl]; simp
    · rw [List.take_append_of_le_length (by omega), List.take_of_length_le (by omega)]
      cases zero <;> simp [List.count_replicate, List.count_cons]
  refine ⟨v, rs, v1, hlen, r1, ?_, r2 zero 1 (8192 * m) 0 s1 s0 (Or.inr (by omega)) m hm (by omega)⟩
  obtain ⟨p, p1, p2⟩ := (r2' zero 1).1 (by omega)
  rw [p1, C14_select_unique p2 s1]

/-- the hypotheses of `C60_select0_log_partial` are met by a vector of 8192 zeros -/
example : ∃ v : BV, v.WF ∧ 8192 * (5 / 8192 + 1) ≤ v.bits.count false := by
  obtain ⟨v, h1, h2⟩ := exists_bv (List.replicate 8192 false)
  exact ⟨v, h1, by rw [h2, List.count_replicate_self]⟩

/-- C60, rank: a query takes constant time. It depends on one super block counter, one block counter, and on the (at
most 8) limbs from the start of the block of `pos` to the limb of `pos`; the query on every other structure that agrees
on them has the same result. -/
theorem C60_rank (rs rs' : RsVec) (pos : Nat) (hlen : rs'.len = rs.len) (h0 : rs'.rank0 = rs.rank0)
    (h1 : rs'.rank1 = rs.rank1) (hs : rs'.supers[pos / 8192]? = rs.supers[pos / 8192]?)
    (hb : rs'.blocks[pos / 512]? = rs.blocks[pos / 512]?)
    (hd : ∀ i, pos / 512 * 8 ≤ i → i ≤ pos / 64 → i < pos / 512 * 8 + 8 → rs'.data[i]? = rs.data[i]?) (zero : Bool) :
    rs'.rank zero pos = rs.rank zero pos := by
  have hw : rs'.data[pos / 64]? = rs.data[pos / 64]? := hd _ (by omega) (by omega) (by omega)
  have hsl : (do
      let ws ← sliceR rs'.data (pos / 512 * 512 / 64) (pos / 64)
      let w ← idx rs'.data (pos / 64)
      pure (ws, w)) = (do
      let ws ← sliceR rs.data (pos / 512 * 512 / 64) (pos / 64)
      let w ← idx rs.data (pos / 64)
      pure (ws, w)) := by
    have hk : pos / 512 * 512 / 64 = pos / 512 * 8 := by omega
    unfold idx
    rw [hw, hk]
    rcases hx : rs.data[pos / 64]? with _ | x
    · have key : ∀ l : List Word, (do
          let ws ← sliceR l (pos / 512 * 8) (pos / 64)
          let w ← (Except.error .oob : R Word)
          pure (ws, w)) = Except.error .oob := by
        intro l
        unfold sliceR
        split <;> rfl
      exact (key _).trans (key _).symm
    · have l1 : pos / 64 < rs.data.length := by
        by_cases h : pos / 64 < rs.data.length
        · exact h
        · rw [List.getElem?_eq_none (by omega)] at hx; cases hx
      have l2 : pos / 64 < rs'.data.length := by
        by_cases h : pos / 64 < rs'.data.length
        · exact h
        · rw [List.getElem?_eq_none (by omega), hx] at hw; cases hw
      unfold sliceR
      rw [if_pos (by omega), if_pos (by omega)]
      have : (rs'.data.take (pos / 64)).drop (pos / 512 * 8) = (rs.data.take (pos / 64)).drop (pos / 512 * 8) := by
        apply List.ext_getElem?
        intro i
        rw [List.getElem?_drop, List.getElem?_drop, List.getElem?_take, List.getElem?_take]
        split
        · exact hd _ (by omega) (by omega) (by omega)
        · rfl
      rw [this]
  unfold RsVec.rank
  rw [hlen, h0, h1]
  by_cases hp : pos ≥ rs.len
  · rw [if_pos hp, if_pos hp]
  · rw [if_neg hp, if_neg hp]
    have e1 : rs'.superBefore zero (pos / 8192) = rs.superBefore zero (pos / 8192) := by
      unfold superBefore idx; rw [hs]
    have e2 : rs'.rankBlockBefore zero (pos / 512) = rs.rankBlockBefore zero (pos / 512) := by
      unfold rankBlockBefore idx; rw [hb]
    simp only
    rw [e1, e2]
    refine bind_congr fun a => bind_congr fun b => ?_
    have := congrArg (fun (t : R (List Word × Word)) => t >>= fun q =>
      pure (a + b + rankWords zero q.1 + popcount ((if zero then ~~~q.2 else q.2) &&& ((1#64 <<< (pos % 64)) - 1#64)))) hsl
    simpa only [bind_assoc, pure_bind] using this

/-- the second limb is not relevant for a query in the first one -/
example : (⟨[5#64, 7#64], 128, [0], [0], [], 123, 5⟩ : RsVec).rank false 3 =
    (⟨[5#64, 1#64], 128, [0], [0], [], 123, 5⟩ : RsVec).rank false 3 :=
  C60_rank _ _ 3 rfl rfl rfl rfl rfl (fun i _ h _ => by
    have : i = 0 := by omega
    subst this; rfl) false

/-! ## C61 -/

/-- C61 for the binary search: predecessor and successor queries are correct if its loop may evaluate its condition
`log2 n + 2` times. Their select queries are not counted: with them the property is false
(`C61_worst_case_defect`). -/
theorem C61_search_log_partial {fl : Nat → Nat} (hfl : LogLike fl) {data : List Word} (hs : Sorted data)
    (hl : data.length < 2 ^ 60) :
    ∃ ef, EF.fromSlice fl data = .ok ef ∧ ∀ x,
      (∃ o, ef.predecessor x (binB := Nat.log2 data.length + 2) = .ok o ∧ IsPredecessor data x o) ∧
      (∃ o, ef.successor x (binB := Nat.log2 data.length + 2) = .ok o ∧ IsSuccessor data x o) := by
  obtain ⟨ef, e1, e2, _, e4⟩ := fromSlice_stores hfl hs hl
  refine ⟨ef, e1, fun x => ?_⟩
  rcases e4 with ⟨rfl, _⟩ | h
  · have e2 : ef.len = 0 := e2
    refine ⟨⟨none, ?_, fun z hz => by simp at hz⟩, ⟨none, ?_, fun z hz => by simp at hz⟩⟩
    · unfold EF.predecessor; rw [if_pos (Or.inr e2)]; rfl
    · unfold EF.successor; rw [if_pos (Or.inr e2)]; rfl
  · have hb : ef.BinOk (Nat.log2 data.length + 2) := by
      refine ⟨by omega, ?_⟩
      rw [e2]
      have : data.length < 2 ^ (Nat.log2 data.length + 1) := Nat.lt_log2_self
      rw [show Nat.log2 data.length + 2 - 1 = Nat.log2 data.length + 1 by omega]
      omega
    exact ⟨h.predecessor_budget hb x, h.successor_budget hb x⟩

example : LogLike ceilLog2 ∧ Sorted efExample ∧ efExample.length < 2 ^ 60 :=
  ⟨logLike_ceilLog2, by simp [Sorted, efExample], by decide⟩

/-- C61, upper bound with all loops counted: a budget for the select queries suffices that is the number of super blocks
(of 8192 bits) of a vector whose length is linear in the number of elements. It is not logarithmic, but cannot be
improved by more than a constant factor (`C61_worst_case_defect`). -/
theorem C61_linear_partial {fl : Nat → Nat} (hfl : LogLike fl) {data : List Word} (hs : Sorted data)
    (hl : data.length < 2 ^ 60) :
    ∃ ef b, EF.fromSlice fl data = .ok ef ∧ b ≤ (9 * data.length + 18) / 8192 + 2 ∧ ∀ x,
      (∃ o, ef.predecessor x (selB := b) (binB := Nat.log2 data.length + 2) = .ok o ∧ IsPredecessor data x o) ∧
      (∃ o, ef.successor x (selB := b) (binB := Nat.log2 data.length + 2) = .ok o ∧ IsSuccessor data x o) := by
  obtain ⟨ef, e1, e2⟩ := C61_search_log_partial hfl hs hl
  refine ⟨ef, ef.upper.supers.length + 1, e1, ?_, e2⟩
  by_cases hne : data = []
  · subst hne
    obtain ⟨rs, r1, r2, -, r3⟩ := fromBitVec_inv (v := BV.new) (by decide)
    unfold EF.fromSlice at e1
    rw [if_pos rfl, r1] at e1
    cases e1
    have := r2.slen
    have := r2.wf
    have r3 : rs.len = 0 := r3
    show rs.supers.length + 1 ≤ _
    omega
  · obtain ⟨ef', e1', e2', -⟩ := fromSlice_inv hfl hs hne hl
    obtain rfl : ef' = ef := by rw [e1] at e1'; cases e1'; rfl
    have := upper_len_le hfl hne e1 hs hl
    have := e2'.up.slen
    have := e2'.up.wf
    omega

example := C61_linear_partial logLike_ceilLog2 (data := efExample) (by simp [Sorted, efExample]) (by decide)

/-- Defect: the documentation gives a worst case logarithmic in the number of elements. For every `m` there is a
sequence of `8192 m + 1` elements such that a predecessor query needs a budget greater than `m` for a select query. -/
theorem C61_worst_case_defect (m : Nat) (hm : 1 ≤ m) (hl : m < 2 ^ 46) :
    ∃ ef, EF.fromSlice ceilLog2 (List.replicate (8192 * m) 0#64 ++ [4#64]) = .ok ef ∧
      ef.predecessor 4#64 = .ok (some 4#64) ∧ ef.predecessor 4#64 (selB := m) = .error .fuel := by
  generalize hdata : List.replicate (8192 * m) 0#64 ++ [4#64] = data
  have hlen : data.length = 8192 * m + 1 := by rw [← hdata]; simp
  have hs : Sorted data := by
    rw [← hdata]; unfold Sorted
    rw [List.pairwise_append]
    refine ⟨by rw [List.pairwise_replicate]; right; decide, by simp, ?_⟩
    intro a ha b hb
    rw [List.eq_of_mem_replicate ha, List.mem_singleton.mp hb]; decide
  have hne : data ≠ [] := by intro h; rw [h] at hlen; simp at hlen
  obtain ⟨ef, e1, e2, _, e4⟩ := fromSlice_stores logLike_ceilLog2 hs (by omega)
  have h : ef.Stores data := by
    rcases e4 with ⟨h0, _⟩ | h
    · exact absurd h0 hne
    · exact h
  refine ⟨ef, e1, ?_, ?_⟩
  · obtain ⟨o, o1, o2⟩ := h.predecessor 4#64
    rw [o1]
    have h4 : (4#64 : Word) ∈ data := by rw [← hdata]; simp
    cases o with
    | none => exact absurd (o2 _ h4) (by decide)
    | some y =>
      obtain ⟨_, y2, y3⟩ := o2
      have := y3 _ h4 (by decide)
      rw [BitVec.le_def] at this y2
      rw [BitVec.eq_of_toNat_eq (Nat.le_antisymm y2 this)]
  · have hd0 : ∀ i, i < 8192 * m → efD data i = 0 := by
      intro i hi
      unfold efD
      rw [← hdata, List.getElem?_append_left (by simpa using hi)]
      simp [hi]
    have hdl : efD data (data.length - 1) = 4 := by
      unfold efD
      rw [hlen, ← hdata, List.getElem?_append_right (by simp), List.getElem?_append_left (by simp; omega)]
      simp [show 0 < m by omega]
    have hz : ef.zero = 0#64 := by
      have := h.zero
      rw [← hdata, List.getElem?_append_left (by simp; omega)] at this
      simpa [show 0 < m by omega] using this
    have hmax : ef.max.toNat = 4 := by rw [h.inv.max, hdl, hz]; rfl
    obtain ⟨w, u, w1, w2, w3, -⟩ := fromSlice_parts logLike_ceilLog2 hne e1 hs (by omega)
    have hw : w ≤ 1 := by
      rw [hdl, hlen, max_ceilLog2] at w1
      rw [show Nat.max (Nat.max 4 2) (8192 * m + 1 + 2) = 8192 * m + 3 from by
        show max (max 4 2) (8192 * m + 1 + 2) = _; omega,
        show Nat.max (8192 * m + 1) 2 = 8192 * m + 1 from by show max (8192 * m + 1) 2 = _; omega] at w1
      have := ceilLog2_le (8192 * m + 1)
      have := ceilLog2_le_of (n := 8192 * m + 3) (k := ceilLog2 (8192 * m + 1) + 1) (by rw [Nat.pow_succ]; omega)
      omega
    have hpow : 2 ^ ef.lowerLen = 1 ∨ 2 ^ ef.lowerLen = 2 := by
      rw [w3]
      rcases (by omega : w = 0 ∨ w = 1) with rfl | rfl <;> simp
    have hhi : EF.hiD ef (efD data) (data.length - 1) = 4 / 2 ^ ef.lowerLen := by unfold EF.hiD; rw [hdl]
    have hhi0 : ∀ i, i < 8192 * m → EF.hiD ef (efD data) i = 0 := by
      intro i hi; unfold EF.hiD; rw [hd0 i hi]; simp
    generalize hU : 4 / 2 ^ ef.lowerLen = U at *
    have hU1 : 1 ≤ U ∧ U ≤ 4 := by rcases hpow with hp | hp <;> rw [hp] at hU <;> omega
    have hsplit : ∀ x, x ≤ U → 1 ≤ x → ∀ i, i < data.length → (EF.hiD ef (efD data) i < x ↔ i < 8192 * m) := by
      intro x hx hx1 i hi
      by_cases hi' : i < 8192 * m
      · rw [hhi0 i hi']; omega
      · have : i = data.length - 1 := by omega
        rw [this, hhi]; omega
    have posU := h.inv.zero_pos (u := U) (k := 8192 * m) (by omega) (by omega) (hsplit U (by omega) hU1.1)
    have pos0 := h.inv.zero_pos (u := 0) (k := 0) (by omega) (by omega) (by omega)
    have hcnt : C ef.upper.data false ef.upper.len ≤ 8191 := by
      have c1 := C_compl ef.upper.data ef.upper.len
      have c2 := h.inv.count_ones (k := data.length) (P := ef.upper.len) (Nat.le_refl _) (Nat.le_refl _)
        (fun i hi => h.inv.pos_lt hi) (fun i h1 h2 => by omega)
      have c3 := h.inv.ulen
      rw [hdl, hU] at c3
      omega
    have hslow : ef.upper.select true U m = .error .fuel := by
      refine RsVec.select_slow h.inv.up (zero := true) (p := U + 8192 * m) (q := 0) posU.1 posU.2 ?_ (Or.inr ?_) hm ?_
      · rw [show U / 8192 = 0 by omega]; exact pos0.1
      · show C ef.upper.data false ef.upper.len < _
        omega
      · omega
    unfold EF.predecessor
    rw [hz, if_neg (by rw [e2]; intro hc; rcases hc with hc | hc; exact absurd hc (by decide); omega)]
    unfold EF.predecessorUnchecked
    rw [if_neg (by rw [gt_iff_lt, BitVec.lt_def, hmax]; decide), hz,
      show subW 4#64 0#64 = .ok 4#64 from rfl, ok_bind]
    simp only
    have huq : (4#64 >>> ef.lowerLen).toNat = U := by
      rw [BitVec.toNat_ushiftRight, Nat.shiftRight_eq_div_pow]; exact hU
    rw [huq, hslow]
    rfl

/-! ## C62 -/

omit [Profile] in
/-- a budget logarithmic in the number of blocks -/
theorem enough_log {v : BV} {bs : Nat} {t : BpTree} (h : BpTree.Rep t bs v) :
    t.mmt.Enough (Nat.log2 ((v.len + bs - 1) / bs) + 4) := by
  obtain ⟨K, L, hk⟩ := h.mmt
  have h1 := BpTree.mmt_nodes_le hk
  have h2 := BpTree.mmt_leaves hk
  rw [BV.length_bits] at h2
  rw [← h2]
  have h3 : L < 2 ^ (Nat.log2 L + 1) := Nat.lt_log2_self
  refine ⟨by omega, ?_⟩
  rw [show Nat.log2 L + 4 - 1 = (Nat.log2 L + 1) + 2 by omega, Nat.pow_add]
  omega

/-- C62: with a budget logarithmic in the number of blocks, every query that searches the tree gives the result of
the unbounded query (which is the subject of C39 to C45 and C50). `node_handle` is missing: it is not logarithmic
(`C62_node_handle_defect`). -/
theorem C62_tree_log_partial {v : BV} (hw : v.WF) {bs : Nat} (hbs : 0 < bs) (h0 : 0 < v.len)
    (hl : v.len ≤ 9223372036854775807) :
    ∃ t, BpTree.fromBitVector bs v = .ok t ∧ ∀ k b, b = Nat.log2 ((v.len + bs - 1) / bs) + 4 →
      (∀ i r, t.fwdSearch bs k i r b = t.fwdSearch bs k i r ∧ t.bwdSearch bs k i r b = t.bwdSearch bs k i r) ∧
      (∀ i, t.close bs k i b = t.close bs k i ∧ t.opening bs k i b = t.opening bs k i ∧
        t.enclose bs k i b = t.enclose bs k i ∧ t.parent bs k i b = t.parent bs k i ∧
        t.nextSibling bs k i b = t.nextSibling bs k i ∧ t.previousSibling bs k i b = t.previousSibling bs k i ∧
        t.lastChild bs k i b = t.lastChild bs k i ∧ t.levelNext bs k i b = t.levelNext bs k i ∧
        t.levelPrev bs k i b = t.levelPrev bs k i ∧ t.subtreeSize bs k i b = t.subtreeSize bs k i) ∧
      (∀ i j, t.isAncestor bs k i j b = t.isAncestor bs k i j) ∧
      (∀ i l, t.levelAncestor bs k i l b = t.levelAncestor bs k i l) ∧
      (∀ l, t.levelLeftmost bs k l b = t.levelLeftmost bs k l ∧
        t.levelRightmost bs k l b = t.levelRightmost bs k l) := by
  obtain ⟨t, t1, t2⟩ := BpTree.fromBitVector_rep hw hbs h0 hl
  refine ⟨t, t1, fun k b hb => ?_⟩
  subst hb
  have h := enough_log t2
  have F := BpTree.fwdSearch_budget h bs k
  have B := BpTree.bwdSearch_budget h bs k
  have Cl := BpTree.close_budget h bs k
  have Op := BpTree.opening_budget h bs k
  have En := BpTree.enclose_budget h bs k
  refine ⟨fun i r => ⟨F i r, B i r⟩, fun i => ⟨Cl i, Op i, En i, ?_, ?_, ?_, ?_, ?_, ?_, ?_⟩, fun i j => ?_,
    fun i l => ?_, fun l => ⟨?_, ?_⟩⟩
  · unfold BpTree.parent; simp only [En]
  · unfold BpTree.nextSibling; simp only [Cl]
  · unfold BpTree.previousSibling; simp only [Op]
  · unfold BpTree.lastChild; simp only [Cl, Op]
  · unfold BpTree.levelNext; simp only [Cl, F]
  · unfold BpTree.levelPrev; simp only [Op, B]
  · unfold BpTree.subtreeSize; simp only [Cl]
  · unfold BpTree.isAncestor; simp only [Cl]
  · unfold BpTree.levelAncestor; simp only [B]
  · unfold BpTree.levelLeftmost; simp only [F]
  · unfold BpTree.levelRightmost; simp only [Op, B]

/-- the tree `(()(()))` -/
example : (⟨[0b00011011#64], 8⟩ : BV).WF ∧ 0 < (⟨[0b00011011#64], 8⟩ : BV).len := by decide

/-- a budget that is too small is noticed: nine blocks of 2 parentheses, closing the first one -/
example : (do
    let t ← BpTree.fromBitVector 2 (⟨[0b000000000111111111#64], 18⟩ : BV)
    t.close 2 .u8 0 3) = .error .fuel := by decide +revert +kernel

/-- Defect: all operations of the tree are documented to take logarithmic time. For every `m` there is a tree (a root
with a path of `8192 m` nodes and a leaf as children) on which `node_handle` of the last node needs a budget greater
than `m`. -/
theorem C62_node_handle_defect (m : Nat) (hm : 1 ≤ m) (hl : m < 2 ^ 46) {bs : Nat} (hbs : 0 < bs) :
    ∃ v t, v.WF ∧ BpTree.fromBitVector bs v = .ok t ∧
      v.bits = List.replicate (8192 * m + 1) true ++ List.replicate (8192 * m) false ++ [true, false, false] ∧
      t.nodeHandle (8192 * m + 1) = .ok (16384 * m + 1) ∧ t.nodeHandle (8192 * m + 1) m = .error .fuel := by
  obtain ⟨v, v1, v2⟩ := exists_bv
    (List.replicate (8192 * m + 1) true ++ List.replicate (8192 * m) false ++ [true, false, false])
  have hlen : v.len = 16384 * m + 4 := by rw [← BV.length_bits, v2]; simp; omega
  obtain ⟨t, t1, t2⟩ := BpTree.fromBitVector_rep v1 hbs (by omega) (by omega)
  have hrs : RsVec.fromBitVec v = .ok t.vec := by
    unfold BpTree.fromBitVector at t1
    obtain ⟨_, _, t1⟩ := bind_eq_ok.mp t1
    obtain ⟨rs, r1, t1⟩ := bind_eq_ok.mp t1
    cases t1; exact r1
  obtain ⟨rs, r1, r2⟩ := C60_select_linear_defect v1
  obtain ⟨rs', r1', r2'⟩ := C14_select_partial v1
  rw [r1] at r1' hrs
  cases r1'; cases hrs
  have sp : IsSelect true v.bits (8192 * m + 1) (16384 * m + 1) := by
    rw [v2]
    constructor
    · rw [List.getElem?_append_right (by simp; omega)]
      simp [show 16384 * m + 1 - (8192 * m + 1 + 8192 * m) = 0 by omega]
    · rw [List.take_append_of_le_length (by simp; omega), List.take_of_length_le (by simp; omega)]
      simp [List.count_append, List.count_replicate]
  have sq : IsSelect true v.bits (8192 * m) (8192 * m) := by
    rw [v2, List.append_assoc]
    constructor
    · rw [List.getElem?_append_left (by simp)]; simp
    · rw [List.take_append_of_le_length (by simp)]; simp [List.take_replicate, List.count_replicate]
  refine ⟨v, t, v1, t1, v2, ?_, ?_⟩
  · obtain ⟨p, p1, p2⟩ := (r2' false (8192 * m + 1)).1 (by
      show _ < v.bits.count true
      rw [v2]; simp [List.count_append, List.count_replicate])
    unfold BpTree.nodeHandle
    rw [p1, C14_select_unique p2 sp]
  · refine r2 false _ _ (8192 * m) sp ?_ (Or.inl rfl) m hm (by omega)
    rw [show 8192 * ((8192 * m + 1) / 8192) = 8192 * m by omega]
    exact sq

end Vers
