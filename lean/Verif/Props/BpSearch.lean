import Verif.Proofs.BpBlockSize

/-! # Properties of the parenthesis searches (C39, C40, C48, C51) -/

namespace Vers

variable [Profile]
open Spec Lookup

/-! ## C48: lookup tables -/

/-- C48. Both lookup variants answer a forward search in a block exactly: a block `l` of 8 (16) parentheses
has a first prefix of excess `rel` at `j`, and then `Ok(j)` is returned, or none, and then the relative
excess is reduced by the excess of the block. -/
theorem C48_lookup_forward (k : Variant) {l : List Bool} (hl : l.length = k.size) {rel : Int}
    (hs : rel.natAbs + k.size ≤ 9223372036854775807) :
    (∃ j, FirstPrefix l rel j ∧ processFwd k (bitsToNat l) rel = .ok (.at j)) ∨
      ((∀ j, ¬FirstPrefix l rel j) ∧ processFwd k (bitsToNat l) rel = .ok (.miss (rel - excess l))) := by
  have e := processFwd_eq k hl hs
  cases hf : firstExc l rel with
  | some m =>
    rw [fwdRes_some hf, Nat.zero_add] at e
    exact Or.inl ⟨m, firstExc_some.mp hf, e⟩
  | none =>
    rw [fwdRes_none hf] at e
    exact Or.inr ⟨fun j hj => firstExc_none.mp hf j hj.1 hj.2.1, e⟩

example : (fun k l rel => l.length = Variant.size k ∧ rel.natAbs + k.size ≤ 9223372036854775807)
    Variant.u8 [true, false, true, true, false, false, true, true] (2 : Int) := by decide

omit [Profile] in
theorem lastSuffix_cases (l : List Bool) (rel : Int) :
    (∃ m, firstExc l.reverse (-rel) = some m ∧ LastSuffix l rel (l.length - 1 - m)) ∨
      (firstExc l.reverse (-rel) = none ∧ ∀ j, ¬LastSuffix l rel j) := by
  have key : ∀ m, m < l.length → l.reverse.take (m + 1) = (l.drop (l.length - 1 - m)).reverse := by
    intro m hm
    rw [List.take_reverse]; congr 2; omega
  cases hf : firstExc l.reverse (-rel) with
  | some m =>
    obtain ⟨h1, h2, h3⟩ := firstExc_some.mp hf
    rw [List.length_reverse] at h1
    rw [key m h1, excess_reverse] at h2
    refine Or.inl ⟨m, rfl, by omega, h2, ?_⟩
    intro j' h4 h5 h6
    apply h3 (l.length - 1 - j') (by omega)
    rw [key _ (by omega), excess_reverse, show l.length - 1 - (l.length - 1 - j') = j' by omega]
    exact h6
  | none =>
    refine Or.inr ⟨rfl, fun j hj => ?_⟩
    have hj1 := hj.1
    apply firstExc_none.mp hf (l.length - 1 - j) (by rw [List.length_reverse]; omega)
    rw [key _ (by omega), excess_reverse, show l.length - 1 - (l.length - 1 - j) = j by omega]
    exact hj.2.1

/-- C48. The same for a backward search with non-zero relative excess, the only ones the tree asks for.
Missing for the full property: relative excess zero, see `C48_zero_hit` and `C48_zero_defect`. -/
theorem C48_lookup_backward_partial (k : Variant) {l : List Bool} (hl : l.length = k.size) {rel : Int}
    (hr : rel ≠ 0) (hs : rel.natAbs + k.size ≤ 9223372036854775807) :
    (∃ j, LastSuffix l rel j ∧ processBwd k (bitsToNat l) rel = .ok (.at j)) ∨
      ((∀ j, ¬LastSuffix l rel j) ∧ processBwd k (bitsToNat l) rel = .ok (.miss (rel + excess l))) := by
  have e := processBwd_eq k hl hr hs
  rcases lastSuffix_cases l rel with ⟨m, hf, hj⟩ | ⟨hf, hj⟩
  · rw [bwdRes_some hf, ← hl] at e
    exact Or.inl ⟨_, hj, e⟩
  · rw [bwdRes_none hf] at e
    exact Or.inr ⟨hj, e⟩

example : (fun k l rel => l.length = Variant.size k ∧ rel ≠ 0 ∧ rel.natAbs + k.size ≤ 9223372036854775807)
    Variant.u8 [true, false, true, true, false, false, true, true] (-2 : Int) := by decide

/-- C48. A backward lookup for relative excess zero is right if the block has a suffix of excess zero. -/
theorem C48_zero_hit (k : Variant) {l : List Bool} (hl : l.length = k.size) {j : Nat} (hj : LastSuffix l 0 j) :
    processBwd k (bitsToNat l) 0 = .ok (.at j) := by
  rcases lastSuffix_cases l 0 with ⟨m, hf, hm⟩ | ⟨_, hno⟩
  · rw [Int.neg_zero] at hf
    rw [processBwd_zero k hl, hf]
    have : l.length - 1 - m = j := by
      rcases Nat.lt_trichotomy (l.length - 1 - m) j with h | h | h
      · exact absurd hj.2.1 (hm.2.2 j h hj.1)
      · exact h
      · exact absurd hm.2.1 (hj.2.2 _ h hm.1)
    simp only []
    rw [← hl, this]
  · exact absurd hj (hno j)

/-- C48, deviation: in a block that has no suffix of excess zero it does not report a miss, for every such
block: the 8-bit table answers position 7, the 16-bit variant runs into `unreachable!()`. The tree never asks
this. -/
theorem C48_zero_defect {l : List Bool} (hno : ∀ j, ¬LastSuffix l 0 j) :
    (l.length = 8 → processBwd .u8 (bitsToNat l) 0 = .ok (.at 7)) ∧
      (l.length = 16 → processBwd .u16 (bitsToNat l) 0 = .error .unreachable) := by
  rcases lastSuffix_cases l 0 with ⟨m, -, hm⟩ | ⟨hf, -⟩
  · exact absurd hm (hno _)
  · rw [Int.neg_zero] at hf
    constructor
    · intro hl
      rw [processBwd_zero .u8 hl, hf]
    · intro hl
      rw [processBwd_zero .u16 hl, hf]

example : LastSuffix [true, true, true, true, true, true, false, true] 0 6 := by
  refine ⟨by decide, by decide, ?_⟩
  intro j h1 h2
  have h2 : j < 8 := h2
  revert h1; revert h2; revert j; decide

example : ∀ j, ¬LastSuffix (List.replicate 8 true) 0 j := by
  intro j hj
  have h1 := hj.1
  have h2 := hj.2.1
  rw [List.length_replicate] at h1
  clear hj
  revert h2; revert h1; revert j
  decide

/-! ## C39, C40: searches -/

/-- C39. Forward search on a non-empty sequence, for every block size, lookup variant, index and relative
excess. Missing for the full property: the empty sequence, see `C39_empty_defect`, and relative excesses
so large that `relative_excess` overflows, see `C39_overflow_defect`. -/
theorem C39_fwd_search_partial {v : BV} (hw : v.WF) {bs : Nat} (hbs : 0 < bs) (h0 : 0 < v.len)
    (hl : v.len ≤ 9223372036854775807) :
    ∃ t, BpTree.fromBitVector bs v = .ok t ∧
      ∀ (k : Variant) (i : Nat) (rel : Int), rel.natAbs + v.len ≤ 9223372036854775807 →
        ∃ o, t.fwdSearch bs k i rel = .ok o ∧ (∀ j, o = some j ↔ IsFwd v.bits i rel j) ∧
          (o = none ↔ ∀ j, ¬FwdHit v.bits i rel j) := by
  obtain ⟨t, h1, h2⟩ := BpTree.fromBitVector_rep hw hbs h0 hl
  exact ⟨t, h1, fun k i rel hs => BpTree.fwdSearch_spec h2 k i h0 hs⟩

example : ∃ v : BV, v.WF ∧ 0 < v.len ∧ v.len ≤ 9223372036854775807 ∧
    v.bits = [true, true, false, true, false, false] ∧ IsFwd v.bits 0 (-1) 5 :=
  ⟨⟨[11#64], 6⟩, by decide, by decide, by decide, by decide, by
    refine ⟨⟨by decide, by decide, by decide⟩, ?_⟩
    rintro j ⟨h1, h2, h3⟩
    have : j < 6 := h2
    revert h3; revert h1; revert j
    decide⟩

/-- C39, deviation: on an empty sequence every forward search panics (`self.vec.len() - 1`). -/
theorem C39_empty_defect (hd : Profile.debug = true) {v : BV} (hw : v.WF) (h0 : v.len = 0) {t : BpTree} {bs : Nat}
    (ht : BpTree.fromBitVector bs v = .ok t) (k : Variant) (i : Nat) (rel : Int) :
    t.fwdSearch bs k i rel = .error .overflow := by
  unfold BpTree.fromBitVector at ht
  obtain ⟨m, -, ht⟩ := bind_eq_ok.mp ht
  obtain ⟨rs, g1, ht⟩ := bind_eq_ok.mp ht
  obtain ⟨rs', g2, -, -, g3⟩ := fromBitVec_inv hw
  rw [g1] at g2
  cases g2
  cases ht
  unfold BpTree.fwdSearch
  show (subR rs.len 1 >>= _) = _
  rw [g3, h0, subR_overflow hd (by omega)]; rfl

example : ∃ t, BpTree.fromBitVector 512 BV.new = .ok t := ⟨_, rfl⟩

/-- C39, deviation: a relative excess of `i64::MIN` panics if the next parenthesis is an opening one. -/
theorem C39_overflow_defect (hd : Profile.debug = true) :
    (do
      let v ← BV.fromBools [true, true, false, false]
      let t ← BpTree.fromBitVector 512 v
      t.fwdSearch 512 .u8 0 (-9223372036854775808)) = .error .overflow := by
  decide +revert +kernel

/-- C40. Backward search on a non-empty sequence, for every index and relative excess, and for every block
size that is a multiple or a divisor of the lookup block size 8 (16), as the default 512 is. Missing for
the full property: other block sizes, see `C40_block_size_iff`, and relative excesses so large that
`relative_excess` overflows, see `C40_overflow_defect`. -/
theorem C40_bwd_search_partial {v : BV} (hw : v.WF) {bs : Nat} (hbs : 0 < bs) (h0 : 0 < v.len)
    (hl : v.len ≤ 9223372036854775807) :
    ∃ t, BpTree.fromBitVector bs v = .ok t ∧
      ∀ (k : Variant), (k.size ∣ bs ∨ bs ∣ k.size) →
      ∀ (i : Nat) (rel : Int), rel.natAbs + v.len ≤ 9223372036854775807 →
        ∃ o, t.bwdSearch bs k i rel = .ok o ∧ (∀ j, o = some j ↔ IsBwd v.bits i rel j) ∧
          (o = none ↔ ∀ j, ¬BwdHit v.bits i rel j) := by
  obtain ⟨t, h1, h2⟩ := BpTree.fromBitVector_rep hw hbs h0 hl
  exact ⟨t, h1, fun k hfit i rel hs => BpTree.bwdSearch_spec h2 hfit i hs⟩

example : Variant.u8.size ∣ 512 ∧ Variant.u16.size ∣ 512 := by decide

example : ∃ v : BV, v.WF ∧ 0 < v.len ∧ v.len ≤ 9223372036854775807 ∧
    v.bits = [true, true, false, true, false, false] ∧ IsBwd v.bits 5 (-1) 0 :=
  ⟨⟨[11#64], 6⟩, by decide, by decide, by decide, by decide, by
    refine ⟨⟨by decide, by decide, by decide⟩, ?_⟩
    rintro j ⟨h1, h2, h3⟩
    revert h3; revert h1; revert j
    decide⟩

/-- C40, deviation: the block sizes for which backward search is right on every sequence are
exactly the multiples and the divisors of the lookup block size. For all others there is a tree and a
position for which the result is not the required one. -/
theorem C40_block_size_iff {bs : Nat} (hbs : 0 < bs) (hb : bs ≤ 1152921504606846976) (k : Variant) :
    (k.size ∣ bs ∨ bs ∣ k.size) ↔
      ∀ v : BV, v.WF → 0 < v.len → v.len ≤ 9223372036854775000 → ∀ t, BpTree.fromBitVector bs v = .ok t →
        ∀ (i j : Nat), IsBwd v.bits i (-1) j → t.bwdSearch bs k i (-1) = .ok (some j) := by
  constructor
  · intro hfit v hw h0 hl t ht i j hij
    obtain ⟨t', h1, h2⟩ := C40_bwd_search_partial hw hbs h0 (by omega)
    rw [ht] at h1
    cases h1
    obtain ⟨o, g1, g2, -⟩ := h2 k hfit i (-1) (by omega)
    rw [g1, (g2 j).mpr hij]
  · intro h
    apply Classical.byContradiction
    intro hfit
    obtain ⟨m, v, t, hw, hv, hlen, hl, h1, h2, h3⟩ := BpTree.bad_block_size hbs hb hfit
    apply h3
    unfold BpTree.opening
    rw [h2.vec.2.2, if_neg (by omega)]
    exact h v hw (by omega) hl t h1 _ _ (by rw [hv]; exact (matches_iff_bwd.mp (BpTree.bad_matches m)).2)

example : ¬(Variant.u8.size ∣ 12 ∨ 12 ∣ Variant.u8.size) ∧ ¬(Variant.u8.size ∣ 500 ∨ 500 ∣ Variant.u8.size) ∧
    ¬(Variant.u16.size ∣ 24 ∨ 24 ∣ Variant.u16.size) ∧ (Variant.u16.size ∣ 64 ∨ 64 ∣ Variant.u16.size) := by decide

/-- C40, deviation: a relative excess of `i64::MAX` panics if the previous parenthesis is an opening one. -/
theorem C40_overflow_defect (hd : Profile.debug = true) :
    (do
      let v ← BV.fromBools [true, true, false, false]
      let t ← BpTree.fromBitVector 512 v
      t.bwdSearch 512 .u8 1 9223372036854775807) = .error .overflow := by
  decide +revert +kernel

/-- C48. Both lookup variants give the same searches. -/
theorem C48_variants {v : BV} (hw : v.WF) {bs : Nat} (hbs : 0 < bs) (h0 : 0 < v.len)
    (hl : v.len ≤ 9223372036854775807) {t : BpTree} (ht : BpTree.fromBitVector bs v = .ok t)
    (i : Nat) {rel : Int} (hs : rel.natAbs + v.len ≤ 9223372036854775807) :
    t.fwdSearch bs .u8 i rel = t.fwdSearch bs .u16 i rel ∧
      ((16 ∣ bs ∨ bs ∣ 8) → t.bwdSearch bs .u8 i rel = t.bwdSearch bs .u16 i rel) := by
  obtain ⟨t', h1, h2⟩ := BpTree.fromBitVector_rep hw hbs h0 hl
  rw [ht] at h1
  cases h1
  refine ⟨by rw [BpTree.fwdSearch_eq h2 _ i h0 hs, BpTree.fwdSearch_eq h2 _ i h0 hs], ?_⟩
  intro hd
  have f8 : BpTree.BwdFits bs .u8 := by
    rcases hd with h | h
    · exact Or.inl (Nat.dvd_trans (by decide) h)
    · exact Or.inr h
  have f16 : BpTree.BwdFits bs .u16 := by
    rcases hd with h | h
    · exact Or.inl h
    · exact Or.inr (Nat.dvd_trans h (by decide))
  obtain ⟨o, e1, e2, -⟩ := BpTree.bwdSearch_spec h2 f8 i hs
  obtain ⟨o', e3, e4, -⟩ := BpTree.bwdSearch_spec h2 f16 i hs
  rw [e1, e3]
  congr 1
  apply Option.ext
  intro j
  rw [e2, e4]

example : (fun (v : BV) bs rel => v.WF ∧ 0 < bs ∧ 0 < v.len ∧ (16 ∣ bs ∨ bs ∣ 8) ∧
    Int.natAbs rel + v.len ≤ 9223372036854775807) ⟨[11#64], 6⟩ 512 (-1) := by decide

/-! ## C51: min-max tree -/

/-- C51. Forward search over the blocks: the result is the first block after `q` that reaches the relative
excess, together with the excess relative to the beginning of that block. Missing for the full property:
relative excess zero from the last block, if the number of blocks is even and not a power of two (the tree never
asks for zero), see `C51_forward_zero_defect`. -/
theorem C51_forward_partial {v : BV} (hw : v.WF) {bs : Nat} (hbs : 0 < bs) (h0 : 0 < v.len)
    (hl : v.len ≤ 9223372036854775807) :
    ∃ t, MMT.excessTree v bs = .ok t ∧
      ∀ (q : Nat) (rel : Int),
        (rel = 0 → q * bs < v.len → v.len ≤ (q + 1) * bs → (q + 1) % 2 = 1 ∨ ∃ m, q + 1 = 2 ^ m) →
        rel.natAbs + v.len ≤ 9223372036854775807 →
        ∃ o, t.fwdSearch q rel = .ok o ∧
          (o = none ↔ ∀ j, q < j → ¬BlockHit v.bits bs ((q + 1) * bs) rel j) ∧
          ∀ j rel', o = some (j, rel') ↔
            (q < j ∧ BlockHit v.bits bs ((q + 1) * bs) rel j ∧
              (∀ j', q < j' → BlockHit v.bits bs ((q + 1) * bs) rel j' → j ≤ j') ∧
              rel' = rel - excessOf v.bits ((q + 1) * bs) (j * bs)) := by
  obtain ⟨t, K, L, h1, h2⟩ := MMT.excessTree_ok hw hbs h0 hl
  refine ⟨t, h1, ?_⟩
  intro q rel hr hs
  -- a result that is the first block
  have main : ∀ o, ((o = none ∧ ∀ j, q < j → ¬BlockHit v.bits bs ((q + 1) * bs) rel j) ∨
      ∃ j rel', o = some (j, rel') ∧ (q < j ∧ BlockHit v.bits bs ((q + 1) * bs) rel j ∧
              (∀ j', q < j' → BlockHit v.bits bs ((q + 1) * bs) rel j' → j ≤ j') ∧
              rel' = rel - excessOf v.bits ((q + 1) * bs) (j * bs))) →
      ((o = none ↔ ∀ j, q < j → ¬BlockHit v.bits bs ((q + 1) * bs) rel j) ∧
          ∀ j rel', o = some (j, rel') ↔
            (q < j ∧ BlockHit v.bits bs ((q + 1) * bs) rel j ∧
              (∀ j', q < j' → BlockHit v.bits bs ((q + 1) * bs) rel j' → j ≤ j') ∧
              rel' = rel - excessOf v.bits ((q + 1) * bs) (j * bs))) := by
    rintro o (⟨rfl, hn⟩ | ⟨j, rel', rfl, a1, a2, a3, a4⟩)
    · refine ⟨⟨fun _ => hn, fun _ => rfl⟩, fun j rel' => ⟨fun h => (by cases h), fun h => absurd h.2.1 (hn j h.1)⟩⟩
    · refine ⟨⟨fun h => (by cases h), fun h => absurd a2 (h j a1)⟩, fun j' r' => ⟨?_, ?_⟩⟩
      · intro h
        cases h
        exact ⟨a1, a2, a3, a4⟩
      · rintro ⟨b1, b2, b3, b4⟩
        have c1 := a3 j' b1 b2
        have c2 := b3 j a1 a2
        have : j = j' := by omega
        subst this
        rw [a4, b4]
  by_cases hq : q < L
  · have hres : ∃ o, t.fwdSearch q rel = .ok o ∧
        ((o = none ∧ firstExc (v.bits.drop ((q + 1) * bs)) rel = none) ∨
          ∃ j rel', o = some (j, rel') ∧ MMT.FwdBlock v.bits bs L ((q + 1) * bs) rel j rel') := by
      by_cases hz : rel ≠ 0 ∨ (q + 1) * bs < v.bits.length
      · exact MMT.fwdSearch_eq h2 hq hz (by rw [BV.length_bits]; omega)
      · obtain ⟨z1, z2⟩ := not_or.mp hz
        have z1 : rel = 0 := by omega
        have hlast := h2.last
        rw [BV.length_bits] at z2 hlast
        have hqL : q + 1 = L := by
          have : (L - 1) * bs < (q + 1) * bs := by omega
          have := Nat.lt_of_mul_lt_mul_right this
          omega
        have hb1 : q * bs < v.len := by rwa [show L - 1 = q by omega] at hlast
        have hcond : L % 2 = 1 ∨ L = 2 ^ K := by
          rw [← hqL]
          rcases hr z1 hb1 (by omega) with hr | ⟨m, hm⟩
          · exact Or.inl hr
          · rw [hqL] at hm ⊢
            rcases Nat.lt_or_ge L 2 with h1 | h1
            · exact Or.inl (by have := h2.hL; omega)
            · right
              have a1 := h2.hL5 h1
              have a2 := h2.hL2
              rw [hm] at a1 a2 ⊢
              have b1 := (Nat.pow_lt_pow_iff_right (a := 2) (by omega)).mp a1
              have b2 := (Nat.pow_le_pow_iff_right (a := 2) (by omega)).mp a2
              rw [show m = K by omega]
        have := MMT.fwdSearch_zero h2
        rw [if_pos hcond, show L - 1 = q by omega] at this
        rw [z1]
        refine ⟨none, this, Or.inl ⟨rfl, ?_⟩⟩
        rw [List.drop_of_length_le (by rw [BV.length_bits]; omega)]; rfl
    obtain ⟨o, g1, g2⟩ := hres
    refine ⟨o, g1, main o ?_⟩
    rcases g2 with ⟨rfl, g3⟩ | ⟨j, rel', rfl, j1, j2, j3, j4, j5⟩
    · left
      refine ⟨rfl, ?_⟩
      rintro j hj ⟨m, m1, m2, m3, m4⟩
      have hle : (q + 1) * bs ≤ j * bs := Nat.mul_le_mul_right _ hj
      rw [← sec_end (c := v.bits.length) (Nat.le_refl _)] at g3
      have := (firstExc_sec_some_iff v.bits ((q + 1) * bs) v.bits.length rel).mpr ⟨m, by omega, m3, m3, m4⟩
      rw [g3] at this; simp at this
    · right
      have hqj : q < j := by
        have := Nat.le_of_mul_le_mul_right j2 hbs
        omega
      refine ⟨j, rel', rfl, hqj, ?_, ?_, j4⟩
      · obtain ⟨m, m1, m2, m3, m4⟩ := (firstExc_sec_some_iff v.bits _ _ rel').mp j5
        refine ⟨m, m1, m2, m3, ?_⟩
        rw [excessOf_eq] at m4 ⊢
        rw [← sec_append v.bits j2 (by omega : j * bs ≤ m + 1), excess_append]
        omega
      · rintro j' hj' ⟨m, m1, m2, m3, m4⟩
        apply Classical.byContradiction
        intro hc
        have hle : (q + 1) * bs ≤ j' * bs := Nat.mul_le_mul_right _ hj'
        have hle2 : (j' + 1) * bs ≤ j * bs := Nat.mul_le_mul_right _ (by omega)
        have := (firstExc_sec_some_iff v.bits ((q + 1) * bs) (j * bs) rel).mpr ⟨m, by omega, by omega, m3, m4⟩
        rw [j3] at this; simp at this
  · refine ⟨none, ?_, main none (Or.inl ⟨rfl, ?_⟩)⟩
    · unfold MMT.fwdSearch
      rw [MMT.firstLeaf_eq h2, ok_bind, if_pos (by have := h2.len; omega)]; rfl
    · rintro j hj ⟨m, m1, m2, m3, m4⟩
      have := h2.cover
      have hle : L * bs ≤ j * bs := Nat.mul_le_mul_right _ (by omega)
      omega

/-- C51. Backward search over the blocks before block `q`. Missing for the full property: relative excess
zero. -/
theorem C51_backward_partial {v : BV} (hw : v.WF) {bs : Nat} (hbs : 0 < bs) (h0 : 0 < v.len)
    (hl : v.len ≤ 9223372036854775807) :
    ∃ t, MMT.excessTree v bs = .ok t ∧
      ∀ (q : Nat) (rel : Int), q * bs < v.len → rel ≠ 0 → rel.natAbs + v.len ≤ 9223372036854775807 →
        ∃ o, t.bwdSearch q rel = .ok o ∧
          (o = none ↔ ∀ j, j < q → ¬BlockHitBwd v.bits bs (q * bs) rel j) ∧
          ∀ j rel', o = some (j, rel') ↔
            (j < q ∧ BlockHitBwd v.bits bs (q * bs) rel j ∧
              (∀ j', j' < q → BlockHitBwd v.bits bs (q * bs) rel j' → j' ≤ j) ∧
              rel' = rel + excessOf v.bits ((j + 1) * bs) (q * bs)) := by
  obtain ⟨t, K, L, h1, h2⟩ := MMT.excessTree_ok hw hbs h0 hl
  refine ⟨t, h1, ?_⟩
  intro q rel hqv hr hs
  have main : ∀ o, ((o = none ∧ ∀ j, j < q → ¬BlockHitBwd v.bits bs (q * bs) rel j) ∨
      ∃ j rel', o = some (j, rel') ∧ (j < q ∧ BlockHitBwd v.bits bs (q * bs) rel j ∧
              (∀ j', j' < q → BlockHitBwd v.bits bs (q * bs) rel j' → j' ≤ j) ∧
              rel' = rel + excessOf v.bits ((j + 1) * bs) (q * bs))) →
      ((o = none ↔ ∀ j, j < q → ¬BlockHitBwd v.bits bs (q * bs) rel j) ∧
          ∀ j rel', o = some (j, rel') ↔
            (j < q ∧ BlockHitBwd v.bits bs (q * bs) rel j ∧
              (∀ j', j' < q → BlockHitBwd v.bits bs (q * bs) rel j' → j' ≤ j) ∧
              rel' = rel + excessOf v.bits ((j + 1) * bs) (q * bs))) := by
    rintro o (⟨rfl, hn⟩ | ⟨j, rel', rfl, a1, a2, a3, a4⟩)
    · refine ⟨⟨fun _ => hn, fun _ => rfl⟩, fun j rel' => ⟨fun h => (by cases h), fun h => absurd h.2.1 (hn j h.1)⟩⟩
    · refine ⟨⟨fun h => (by cases h), fun h => absurd a2 (h j a1)⟩, fun j' r' => ⟨?_, ?_⟩⟩
      · intro h
        cases h
        exact ⟨a1, a2, a3, a4⟩
      · rintro ⟨b1, b2, b3, b4⟩
        have c1 := a3 j' b1 b2
        have c2 := b3 j a1 a2
        have : j = j' := by omega
        subst this
        rw [a4, b4]
  have hlen := BV.length_bits v
  have hq : q < L := by
    have := h2.cover
    apply Nat.lt_of_mul_lt_mul_right (a := bs); omega
  obtain ⟨o, g1, g2⟩ := MMT.bwdSearch_eq h2 hq hr (by omega) (by omega)
  refine ⟨o, g1, main o ?_⟩
  rcases g2 with ⟨rfl, g3⟩ | ⟨j, rel', rfl, j1, j2, j3, j4, j5⟩
  · left
    refine ⟨rfl, ?_⟩
    rintro j hj ⟨m, m1, m2, m4⟩
    have hle : (j + 1) * bs ≤ q * bs := Nat.mul_le_mul_right _ hj
    rw [← sec_zero] at g3
    have := (firstExc_rsec_some_iff v.bits (a := 0) (c := q * bs) (by omega) rel).mpr ⟨m, by omega, by omega, m4⟩
    rw [g3] at this; simp at this
  · right
    have hqj : j < q := by
      have := Nat.le_of_mul_le_mul_right j2 hbs
      omega
    refine ⟨j, rel', rfl, hqj, ?_, ?_, j4⟩
    · obtain ⟨m, m1, m2, m4⟩ := (firstExc_rsec_some_iff v.bits (by omega) rel').mp j5
      refine ⟨m, m1, m2, ?_⟩
      rw [excessOf_eq] at m4 ⊢
      rw [← sec_append v.bits (by omega : m ≤ (j + 1) * bs) j2, excess_append]
      omega
    · rintro j' hj' ⟨m, m1, m2, m4⟩
      apply Classical.byContradiction
      intro hc
      have hle : (j' + 1) * bs ≤ q * bs := Nat.mul_le_mul_right _ hj'
      have hle2 : (j + 1) * bs ≤ j' * bs := Nat.mul_le_mul_right _ (by omega)
      have := (firstExc_rsec_some_iff v.bits (a := (j + 1) * bs) (c := q * bs) (by omega) rel).mpr
        ⟨m, by omega, by omega, m4⟩
      rw [j3] at this; simp at this

example : ∃ v : BV, v.WF ∧ 0 < v.len ∧ v.len ≤ 9223372036854775807 ∧ BlockHit v.bits 2 2 (-2) 2 ∧
    BlockHitBwd v.bits 2 4 (-2) 0 ∧ 2 * 2 < v.len :=
  ⟨⟨[11#64], 6⟩, by decide, by decide, by decide, ⟨5, by decide⟩, ⟨0, by decide⟩, by decide⟩

/-- C51, deviation: if the number of blocks is even and not a power of two, the forward search for relative excess
zero from the last block takes an unused inner node for a match and runs into `unreachable!()`, in every build. The
tree never asks this. -/
theorem C51_forward_zero_defect {v : BV} (hw : v.WF) {bs : Nat} (hbs : 0 < bs) (h0 : 0 < v.len)
    (hl : v.len ≤ 9223372036854775807) {q : Nat} (h1 : q * bs < v.len) (h2 : v.len ≤ (q + 1) * bs)
    (heven : (q + 1) % 2 = 0) (hpow : ∀ m, q + 1 ≠ 2 ^ m) :
    ∃ t, MMT.excessTree v bs = .ok t ∧ t.fwdSearch q 0 = .error .unreachable := by
  obtain ⟨t, K, L, g1, g2⟩ := MMT.excessTree_ok hw hbs h0 hl
  have hlast := g2.last
  have hcov := g2.cover
  rw [BV.length_bits] at hlast hcov
  have a1 := Nat.lt_of_mul_lt_mul_right (show (L - 1) * bs < (q + 1) * bs by omega)
  have a2 := Nat.lt_of_mul_lt_mul_right (show q * bs < L * bs by omega)
  have hL := g2.hL
  have hqL : L = q + 1 := by omega
  have := MMT.fwdSearch_zero g2
  rw [if_neg (by rintro (h | h); · omega
                 · exact hpow K (by omega)), show L - 1 = q by omega] at this
  exact ⟨t, g1, this⟩

example : (5 * 7 < 40) ∧ 40 ≤ (5 + 1) * 7 ∧ (5 + 1) % 2 = 0 ∧ ∀ m, 5 + 1 ≠ 2 ^ m := by
  refine ⟨by omega, by omega, by omega, fun m hm => ?_⟩
  rcases m with _ | _ | _ | m
  · omega
  · omega
  · omega
  · have : 0 < 2 ^ m := Nat.pow_pos (by omega)
    rw [Nat.pow_succ, Nat.pow_succ, Nat.pow_succ] at hm; omega

/-- C51, deviation: the backward search for relative excess zero always answers with the block before, whether it
reaches the excess or not (`C51_backward_zero_hit` tells when it is right). The tree never asks this. -/
theorem C51_backward_zero_defect {v : BV} (hw : v.WF) {bs : Nat} (hbs : 0 < bs) (h0 : 0 < v.len)
    (hl : v.len ≤ 9223372036854775807) :
    ∃ t, MMT.excessTree v bs = .ok t ∧ ∀ q, q * bs < v.len →
      t.bwdSearch q 0 = .ok (if q = 0 then none else some (q - 1, 0)) := by
  obtain ⟨t, K, L, g1, g2⟩ := MMT.excessTree_ok hw hbs h0 hl
  refine ⟨t, g1, fun q hq => ?_⟩
  have hlen := BV.length_bits v
  have hq' : q < L := by
    have := g2.cover
    apply Nat.lt_of_mul_lt_mul_right (a := bs); omega
  exact MMT.bwdSearch_zero g2 (by omega) hq' (by omega)

/-- The answer of the backward search for relative excess zero is the last block before `q` that reaches it if and
only if the block right before `q` does. For blocks of one parenthesis this never holds. -/
theorem C51_backward_zero_hit {v : BV} (hw : v.WF) {bs : Nat} (hbs : 0 < bs) (h0 : 0 < v.len)
    (hl : v.len ≤ 9223372036854775807) :
    ∃ t, MMT.excessTree v bs = .ok t ∧ ∀ q, 0 < q → q * bs < v.len →
      ((∃ j rel', t.bwdSearch q 0 = .ok (some (j, rel')) ∧ j < q ∧ BlockHitBwd v.bits bs (q * bs) 0 j ∧
        (∀ j', j' < q → BlockHitBwd v.bits bs (q * bs) 0 j' → j' ≤ j) ∧
        rel' = 0 + excessOf v.bits ((j + 1) * bs) (q * bs)) ↔ BlockHitBwd v.bits bs (q * bs) 0 (q - 1)) ∧
      (bs = 1 → ¬BlockHitBwd v.bits bs (q * bs) 0 (q - 1)) := by
  obtain ⟨t, g1, g2⟩ := C51_backward_zero_defect hw hbs h0 hl
  refine ⟨t, g1, fun q hq hqv => ⟨⟨?_, fun h => ?_⟩, ?_⟩⟩
  · rintro ⟨j, rel', j1, j2, j3, -⟩
    rw [g2 q hqv, if_neg (by omega)] at j1
    cases j1
    exact j3
  · refine ⟨q - 1, 0, by rw [g2 q hqv, if_neg (by omega)], by omega, h, fun j' hj' _ => by omega, ?_⟩
    rw [show q - 1 + 1 = q by omega, excessOf_eq, sec_self]; rfl
  · rintro rfl ⟨m, m1, m2, m3⟩
    have hm : m + 1 = q * 1 := by omega
    rw [← hm, excessOf_eq] at m3
    have hml : m < v.bits.length := by rw [BV.length_bits]; omega
    have hone : (sec v.bits m (m + 1)).length = 1 := by rw [length_sec]; omega
    obtain ⟨x, hx⟩ := List.length_eq_one_iff.mp hone
    rw [hx] at m3
    cases x <;> simp [excess] at m3

example : (do
    let v ← BV.fromBools (List.replicate 6 true)
    let t ← MMT.excessTree v 1
    t.fwdSearch 5 0) = .error .unreachable := by
  decide +revert +kernel

example : (do
    let v ← BV.fromBools (List.replicate 6 true)
    let t ← MMT.excessTree v 1
    t.fwdSearch 4 0) = .ok none := by
  decide +revert +kernel

example : (do
    let v ← BV.fromBools (List.replicate 6 true)
    let t ← MMT.excessTree v 1
    t.bwdSearch 3 0) = .ok (some (2, 0)) := by
  decide +revert +kernel

end Vers
