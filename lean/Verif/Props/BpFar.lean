import Verif.Proofs.BpFar
import Verif.Props.BpTree

/-! # Parenthesis searches for every relative excess and level (C39, C40, C43, C50) -/

namespace Vers

variable [Profile]
open Spec Lookup

/-- C39. Forward search for every `i64` as relative excess: the result is exact in release builds, and in debug
builds it is exact unless the search panics with an overflow, which happens only close to the bounds of `i64`.
Missing for the full property: the overflow, see `C39_overflow_defect`, and the empty sequence, see
`C39_empty_defect`. -/
theorem C39_any_excess_partial {v : BV} (hw : v.WF) {bs : Nat} (hbs : 0 < bs) (h0 : 0 < v.len)
    (hl : v.len < 2 ^ 62) :
    ∃ t, BpTree.fromBitVector bs v = .ok t ∧
      ∀ (k : Variant) (i : Nat) (rel : Int), -2 ^ 63 ≤ rel → rel < 2 ^ 63 →
        (∃ o, t.fwdSearch bs k i rel = .ok o ∧ (∀ j, o = some j ↔ IsFwd v.bits i rel j) ∧
          (o = none ↔ ∀ j, ¬FwdHit v.bits i rel j)) ∨
        (Profile.debug = true ∧ 2 ^ 63 ≤ rel.natAbs + v.len ∧ t.fwdSearch bs k i rel = .error .overflow) := by
  obtain ⟨t, h1, h2⟩ := BpTree.fromBitVector_rep hw hbs h0 (by omega)
  refine ⟨t, h1, fun k i rel r1 r2 => ?_⟩
  by_cases hs : rel.natAbs + v.len ≤ 9223372036854775807
  · exact Or.inl (BpTree.fwdSearch_spec h2 k i h0 hs)
  · rcases BpTree.fwdSearch_far h2 k i h0 (rel := rel) ⟨by omega, by omega, by omega⟩ with ⟨o, ho, rfl⟩ | ⟨hd, ho⟩
    · have e : (firstExc (v.bits.drop (i + 1)) rel).map (i + 1 + ·) = none := by
        cases hf : firstExc (v.bits.drop (i + 1)) rel with
        | none => rfl
        | some m =>
          have := natAbs_of_firstExc hf
          rw [List.length_drop, BV.length_bits] at this
          omega
      refine Or.inl ⟨none, ho, fun j => ?_, ?_⟩
      · rw [← e]; exact isFwd_iff
      · exact ⟨fun _ => fwd_none_iff.mp e, fun _ => rfl⟩
    · exact Or.inr ⟨hd, by omega, ho⟩

example : ∃ v : BV, v.WF ∧ 0 < v.len ∧ v.len < 2 ^ 62 ∧ v.bits = [true, true, false, true, false, false] :=
  ⟨⟨[11#64], 6⟩, by decide, by decide, by decide, by decide⟩

/-- C40. The same for backward search. -/
theorem C40_any_excess_partial {v : BV} (hw : v.WF) {bs : Nat} (hbs : 0 < bs) (h0 : 0 < v.len)
    (hl : v.len ≤ 2 ^ 61) :
    ∃ t, BpTree.fromBitVector bs v = .ok t ∧
      ∀ (k : Variant), (k.size ∣ bs ∨ bs ∣ k.size) → ∀ (i : Nat) (rel : Int), -2 ^ 63 ≤ rel → rel < 2 ^ 63 →
        (∃ o, t.bwdSearch bs k i rel = .ok o ∧ (∀ j, o = some j ↔ IsBwd v.bits i rel j) ∧
          (o = none ↔ ∀ j, ¬BwdHit v.bits i rel j)) ∨
        (Profile.debug = true ∧ 2 ^ 63 ≤ rel.natAbs + v.len ∧ t.bwdSearch bs k i rel = .error .overflow) := by
  obtain ⟨t, h1, h2⟩ := BpTree.fromBitVector_rep hw hbs h0 (by omega)
  refine ⟨t, h1, fun k hfit i rel r1 r2 => ?_⟩
  by_cases hs : rel.natAbs + v.len ≤ 9223372036854775807
  · exact Or.inl (BpTree.bwdSearch_spec h2 hfit i hs)
  · rcases BpTree.bwdSearch_far h2 k i (rel := rel) ⟨by omega, by omega, by omega⟩ with ⟨o, ho, rfl⟩ | ⟨hd, ho⟩
    · have hno : ∀ j, ¬BwdHit v.bits i rel j := by
        rintro j ⟨b1, b2, b3⟩
        have := MMT.sec_natAbs v.bits j i
        unfold excessOf at b3
        unfold sec at this
        rw [b3, BV.length_bits] at this
        omega
      exact Or.inl ⟨none, ho, fun j => ⟨fun h => (nomatch h), fun h => absurd h.1 (hno j)⟩, ⟨fun _ => hno, fun _ => rfl⟩⟩
    · exact Or.inr ⟨hd, by omega, ho⟩

example : ∃ v : BV, v.WF ∧ 0 < v.len ∧ v.len ≤ 2 ^ 61 ∧ v.bits = [true, true, false, true, false, false] :=
  ⟨⟨[11#64], 6⟩, by decide, by decide, by decide, by decide⟩

open BpTree

/-! ## C43 levels -/

omit [Profile] in
theorem depth_le_len {v : BV} {f : Forest} (hf : v.bits = parens f) {m : Node} (hm : m ∈ nodes f) :
    m.depth ≤ v.len := by
  obtain ⟨_, _, _, _, ha⟩ := around_of hf hm
  have h1 := ha.depth
  have h2 := excess_natAbs_le (v.bits.take m.handle)
  rw [h1, List.length_take, BV.length_bits] at h2
  omega

omit [Profile] in
theorem no_level {v : BV} {f : Forest} (hf : v.bits = parens f) {l : Nat} (hl : v.len < l) :
    (nodes f).filter (fun m => m.depth == l) = [] := by
  rw [List.filter_eq_nil_iff]
  intro m hm h
  have := depth_le_len hf hm
  simp at h
  omega

omit [Profile] in
theorem asI64_far {level : Word} {d : Nat} (h1 : 9223372036854775807 - d < level.toNat)
    (h2 : level.toNat + d < 2 ^ 64) (hd : 2 * d < 9223372036854775807) : Far d (asI64 level) := by
  unfold asI64 Far
  rw [BitVec.toInt_eq_toNat_cond]
  have := level.isLt
  split <;> omega

omit [Profile] in
theorem asI64_last {level : Word} (h : 2 ^ 63 ≤ level.toNat) : asI64 level = (level.toNat : Int) - 2 ^ 64 := by
  unfold asI64
  rw [BitVec.toInt_eq_toNat_cond, if_neg (by omega)]
  omega

omit [Profile] in
/-- No position of a forest lies in a depth below zero, so the search from the right for an excess of `d` ends in
depth zero at the latest. -/
theorem bwd_parens {f : Forest} {i : Nat} (hi : i ≤ (parens f).length) {r : Int} {m : Nat}
    (h : firstExc ((parens f).take i).reverse r = some m) :
    i - 1 - m < i ∧ Spec.excess ((parens f).take (i - 1 - m)) = Spec.excess ((parens f).take i) - r ∧
      r ≤ Spec.excess ((parens f).take i) := by
  obtain ⟨h1, h2, -⟩ := firstExc_some.mp h
  rw [List.length_reverse, List.length_take] at h1
  rw [List.take_reverse, excess_reverse, List.length_take] at h2
  have e : min i (parens f).length - (m + 1) = i - 1 - m := by omega
  rw [e] at h2
  have h3 := excess_append ((((parens f).take i)).take (i - 1 - m)) (((parens f).take i).drop (i - 1 - m))
  rw [List.take_append_drop, h2, List.take_take, show min (i - 1 - m) i = i - 1 - m by omega] at h3
  have h4 := (balanced_parens f).1 (i - 1 - m)
  exact ⟨by omega, by omega, by omega⟩

/-- C43. Every level: `level_leftmost`, `level_rightmost` and `level_ancestor` are exact, unless a debug build
panics with an overflow, which needs a level close to `2^63`. Missing for the full property: `level_leftmost` for
the level `2^64 - 1` (`C43_last_level_defect`), `level_ancestor` for a level `2^64 - d` if a position before the node
is deeper by `d` (`C43_wrapped_ancestor_defect`), and what is excluded in `C43_forward_partial` and
`C43_backward_partial`. -/
theorem C43_large_levels_partial {v : BV} (hw : v.WF) {f : Forest} (hf : v.bits = parens f) (hne : f ≠ .nil) {bs : Nat}
    (hbs : 0 < bs) (hl : v.len ≤ 2 ^ 60) :
    ∃ t, BpTree.fromBitVector bs v = .ok t ∧ ∀ (k : Variant) (level : Word),
      let Overflow : R (Option Nat) → Prop := fun x =>
        Profile.debug = true ∧ 2 ^ 63 ≤ level.toNat + v.len ∧ level.toNat + 2 * v.len + 32 < 2 ^ 64 ∧ x = .error .overflow
      (level ≠ BitVec.allOnes 64 →
        t.levelLeftmost bs k level = .ok (((nodes f).filter (fun m => m.depth == level.toNat)).head?.map Node.handle) ∨
        Overflow (t.levelLeftmost bs k level)) ∧
      ((k.size ∣ bs ∨ bs ∣ k.size) → level ≠ 0#64 →
        t.levelRightmost bs k level = .ok (((nodes f).filter (fun m => m.depth == level.toNat)).getLast?.map Node.handle) ∨
          Overflow (t.levelRightmost bs k level)) ∧
      ((k.size ∣ bs ∨ bs ∣ k.size) → ∀ n ∈ nodes f,
        (∀ j, ¬BwdHit v.bits n.handle ((2 : Int) ^ 64 - level.toNat) j) →
        t.levelAncestor bs k n.handle level = .ok (n.handle :: n.ancestors)[level.toNat]? ∨
          Overflow (t.levelAncestor bs k n.handle level)) := by
  have h0 : 0 < v.len := by
    rw [len_eq hf]
    cases f with
    | nil => exact absurd rfl hne
    | cons c s => simp [Forest.size]
  obtain ⟨t, h1, h2⟩ := fromBitVector_rep hw hbs h0 (by omega)
  refine ⟨t, h1, fun k level => ?_⟩
  simp only []
  by_cases hs : level.toNat + v.len ≤ 9223372036854775807
  · refine ⟨fun _ => Or.inl (levelLeftmost_eq h2 k hf h0 hs), fun hfit hz => Or.inl (levelRightmost_eq h2 hfit hf h0 hz hs),
      fun hfit n hn _ => ?_⟩
    obtain ⟨_, _, _, _, ha⟩ := around_of hf hn
    exact Or.inl (levelAncestor_node h2 hfit ha hs)
  · have hz : level ≠ 0#64 := by
      rintro rfl
      simp at hs
      omega
    have hno := no_level hf (l := level.toNat) (by omega)
    have hanc : ∀ n ∈ nodes f, (n.handle :: n.ancestors)[level.toNat]? = none := by
      intro n hn
      have hd := depth_le_len hf hn
      unfold Node.depth at hd
      exact List.getElem?_eq_none (by rw [List.length_cons]; omega)
    by_cases hlev : level.toNat + 2 * v.len + 32 < 2 ^ 64
    swap
    · have ha := asI64_last (level := level) (by omega)
      have hlt := level.isLt
      obtain ⟨d, hd, hd0, hd1⟩ : ∃ d : Nat, asI64 level = -(d : Int) ∧ 0 < d ∧ d ≤ 2 * v.len + 32 :=
        ⟨2 ^ 64 - level.toNat, by omega, by omega, by omega⟩
      refine ⟨fun hne1 => Or.inl ?_, fun hfit _ => Or.inl ?_, fun hfit n hn hb => Or.inl ?_⟩
      · have hd2 : d ≠ 1 := by
          rintro rfl
          apply hne1
          apply BitVec.eq_of_toNat_eq
          rw [BitVec.toNat_allOnes]
          omega
        unfold levelLeftmost
        rw [if_neg hz, hno, hd, fwdSearch_eq h2 k 0 h0 (by omega), hf]
        obtain ⟨c, s, rfl⟩ : ∃ c s, f = .cons c s := by
          cases f with
          | nil => exact absurd rfl hne
          | cons c s => exact ⟨c, s, rfl⟩
        rw [show List.drop (0 + 1) (parens (.cons c s)) = parens c ++ (false :: parens s) by simp [parens],
          firstExc_append_none (firstExc_parens_neg c (by omega)), excess_parens, firstExc,
          show sgn false = -1 from rfl, if_neg (by omega), firstExc_parens_neg s (by omega)]
        rfl
      · have hcount : v.bits.count true * 2 = v.len := by
          have := len_eq hf
          rw [hf, count_true_parens]; omega
        unfold levelRightmost
        rw [size_eq h2.vrep, ok_bind, hno, subR_of_le (by omega), ok_bind, hcount, hd,
          bwdSearch_eq h2 hfit (by omega) (by omega), ok_bind, hf]
        have hlen : (parens f).length = v.len := by rw [← hf, BV.length_bits]
        cases hm : firstExc ((parens f).take (v.len - 1)).reverse (- -(d : Int)) with
        | none => rfl
        | some m =>
          obtain ⟨b1, b2, b3⟩ := bwd_parens (by omega) hm
          have hone : Spec.excess ((parens f).take (v.len - 1)) ≤ 1 := by
            have e := excess_append ((parens f).take (v.len - 1)) ((parens f).drop (v.len - 1))
            rw [List.take_append_drop, excess_parens] at e
            have := excess_natAbs_le ((parens f).drop (v.len - 1))
            rw [List.length_drop] at this
            omega
          show t.opening bs k (v.len - 1 - 1 - m) = _
          rw [opening_eq h2 hfit (by omega) (by omega), hf]
          cases hm2 : firstExc ((parens f).take (v.len - 1 - 1 - m)).reverse 1 with
          | none => rfl
          | some m2 =>
            obtain ⟨c1, c2, c3⟩ := bwd_parens (by omega) hm2
            omega
      · obtain ⟨_, _, _, _, hn'⟩ := around_of hf hn
        have hil := Rep.len_pos hn'.open_bit
        unfold levelAncestor
        rw [if_neg hz, hanc n hn, hd, subI, if_pos (by omega), ok_bind, bwdSearch_eq h2 hfit hil (by omega),
          (bwd_none_iff (by rw [BV.length_bits]; exact hil)).mpr ?_]
        intro j
        have := hb j
        rwa [show (2 : Int) ^ 64 - level.toNat = 0 - -(d : Int) by omega] at this
    have hfar : Far (2 * v.len + 32) (asI64 level) := asI64_far (by omega) (by omega) (by omega)
    have hbig : 2 ^ 63 ≤ level.toNat + v.len := by omega
    refine ⟨fun _ => ?_, fun _ _ => ?_, fun _ n hn _ => ?_⟩
    · unfold levelLeftmost
      rw [if_neg hz, hno]
      rcases fwdSearch_far h2 k 0 h0 (rel := asI64 level) ⟨hfar.1, hfar.2.1, by have := hfar.2.2; omega⟩ with
        ⟨o, ho, rfl⟩ | ⟨hd, ho⟩
      · exact Or.inl ho
      · exact Or.inr ⟨hd, hbig, hlev, ho⟩
    · unfold levelRightmost
      rw [size_eq h2.vrep, ok_bind, hno, subR_of_le (by
        have := len_eq hf
        rw [hf, count_true_parens]; omega), ok_bind]
      rcases bwdSearch_far h2 k (v.bits.count true * 2 - 1) hfar with ⟨o, ho, rfl⟩ | ⟨hd, ho⟩
      · rw [ho]; exact Or.inl rfl
      · rw [ho]; exact Or.inr ⟨hd, hbig, hlev, rfl⟩
    · rw [hanc n hn]
      unfold levelAncestor
      rw [if_neg hz]
      have e : EndsIn (Far (2 * v.len + 32)) (subI 0 (asI64 level)) := by
        obtain ⟨f1, f2, f3⟩ := hfar
        unfold subI
        split
        · exact EndsIn.ok ⟨by omega, by omega, by omega⟩
        · apply wrapR_endsIn
          rw [bmod_high (by omega) (by omega)]
          exact ⟨by omega, by omega, by omega⟩
      rcases e.bind (fun r hr => bwdSearch_far h2 k n.handle hr) with ⟨o, ho, rfl⟩ | ⟨hd, ho⟩
      · exact Or.inl ho
      · exact Or.inr ⟨hd, hbig, hlev, ho⟩

example : exVec.WF ∧ exVec.bits = parens exForest ∧ exForest ≠ .nil ∧ exVec.len ≤ 2 ^ 60 := by decide

/-- The level `2^64 - 4` and the last root: no position is deeper by four. -/
example : (∃ n ∈ nodes exForest, n.handle = 8) ∧ ∀ j, ¬BwdHit exVec.bits 8 ((2 : Int) ^ 64 - (-4#64).toNat) j := by
  refine ⟨by decide, fun j h => ?_⟩
  have key : ∀ j, j < 8 → excessOf exVec.bits j 8 ≠ -((2 : Int) ^ 64 - (-4#64).toNat) := by decide
  exact key j h.1 h.2.2

/-- Defect: `level_ancestor` takes the level `2^64 - d` for `-d`: if a position before the node is deeper by `d`, the
last such position is returned, although no node has so many ancestors. -/
theorem C43_wrapped_ancestor_defect {v : BV} (hw : v.WF) {f : Forest} (hf : v.bits = parens f) {bs : Nat}
    (hbs : 0 < bs) (hl : v.len ≤ 2 ^ 60) (h0 : 0 < v.len) :
    ∃ t, BpTree.fromBitVector bs v = .ok t ∧ ∀ (k : Variant), (k.size ∣ bs ∨ bs ∣ k.size) → ∀ n ∈ nodes f,
      ∀ (d : Nat), 0 < d → d ≤ v.len → ∀ j, IsBwd v.bits n.handle d j →
        t.levelAncestor bs k n.handle (BitVec.ofNat 64 (2 ^ 64 - d)) = .ok (some j) ∧
          (n.handle :: n.ancestors)[2 ^ 64 - d]? = none := by
  obtain ⟨t, h1, h2⟩ := fromBitVector_rep hw hbs h0 (by omega)
  refine ⟨t, h1, fun k hfit n hn d hd0 hd1 j hj => ?_⟩
  obtain ⟨_, _, _, _, hn'⟩ := around_of hf hn
  have hil := Rep.len_pos hn'.open_bit
  have e : (BitVec.ofNat 64 (2 ^ 64 - d)).toNat = 2 ^ 64 - d := by
    rw [BitVec.toNat_ofNat, Nat.mod_eq_of_lt (by omega)]
  have ha := asI64_last (level := BitVec.ofNat 64 (2 ^ 64 - d)) (by omega)
  refine ⟨?_, ?_⟩
  · unfold levelAncestor
    rw [if_neg (by intro hc; rw [hc] at e; simp at e; omega), ha, e, subI, if_pos (by omega), ok_bind,
      bwdSearch_eq h2 hfit hil (by omega)]
    rw [(isBwd_iff (by rw [BV.length_bits]; exact hil)).mpr
      (show IsBwd v.bits n.handle (0 - (((2 ^ 64 - d : Nat) : Int) - 2 ^ 64)) j from ?_)]
    rwa [show (0 - (((2 ^ 64 - d : Nat) : Int) - 2 ^ 64)) = (d : Int) by omega]
  · have hd := depth_le_len hf hn
    unfold Node.depth at hd
    exact List.getElem?_eq_none (by rw [List.length_cons]; omega)

/-- The level `2^64 - 2` and the last root: position six is deeper by two. -/
example : (∃ n ∈ nodes exForest, n.handle = 8) ∧ IsBwd exVec.bits 8 (2 : Nat) 6 := by
  refine ⟨by decide, ⟨by decide, by decide, by decide⟩, fun j h => ?_⟩
  have key : ∀ j, j < 8 → excessOf exVec.bits j 8 = -((2 : Nat) : Int) → j ≤ 6 := by decide
  exact key j h.1 h.2.2

/-- Defect: the last level, `2^64 - 1`, is taken for `-1`, in every forest. `level_leftmost` returns the closing
parenthesis of the first root, and `level_ancestor` the closing parenthesis before a node that has a left
sibling, although no node has such a depth. -/
theorem C43_last_level_defect {v : BV} (hw : v.WF) {c s : Forest} (hf : v.bits = parens (.cons c s)) {bs : Nat}
    (hbs : 0 < bs) (hl : v.len ≤ 9223372036854775806) :
    ∃ t, BpTree.fromBitVector bs v = .ok t ∧ ∀ k : Variant,
      t.levelLeftmost bs k (BitVec.allOnes 64) = .ok (some ((parens c).length + 1)) ∧
      (∀ n ∈ nodes (.cons c s), n.depth ≠ (BitVec.allOnes 64).toNat) ∧
      ((k.size ∣ bs ∨ bs ∣ k.size) → ∀ n ∈ nodes (.cons c s), n.before ≠ [] →
        t.levelAncestor bs k n.handle (BitVec.allOnes 64) = .ok (some (n.handle - 1)) ∧
        v.bits[n.handle - 1]? = some false) := by
  have h0 : 0 < v.len := by rw [len_eq hf]; simp [Forest.size]
  obtain ⟨t, h1, h2⟩ := fromBitVector_rep hw hbs h0 (by omega)
  have ha : asI64 (BitVec.allOnes 64) = -1 := by decide
  refine ⟨t, h1, fun k => ⟨?_, fun n hn hc => ?_, fun hfit n hn hb => ?_⟩⟩
  · unfold levelLeftmost
    rw [if_neg (by decide), ha]
    have e : t.fwdSearch bs k 0 (-1) = t.close bs k 0 := by
      unfold BpTree.close; rw [h2.vec.2.2, if_neg (by omega)]
    rw [e, close_eq h2 k h0 hl, hf]
    rw [show List.drop (0 + 1) (parens (.cons c s)) = parens c ++ (false :: parens s) by simp [parens],
      firstExc_append_none (firstExc_parens_neg c (by omega)), excess_parens, firstExc,
      show sgn false = -1 from rfl, if_pos (by omega)]
    simp; omega
  · have := depth_le_len hf hn
    rw [hc] at this
    simp at this
    omega
  · obtain ⟨pre, _, _, _, hn'⟩ := around_of hf hn
    have hlt := Rep.len_pos hn'.open_bit
    obtain ⟨x, hx⟩ : ∃ x, pre = x ++ [false] := by
      have hctx := hn'.ctx
      generalize n.ancestors = anc at hctx
      generalize n.before = left at hctx hb
      cases hctx with
      | root => exact absurd rfl hb
      | child _ => exact absurd rfl hb
      | @sib _ _ p d _ => exact ⟨p ++ (true :: parens d), by simp⟩
    have htake := hn'.take_handle
    have hh := hn'.handle
    have hbit : v.bits[n.handle - 1]? = some false := by
      have := List.getElem?_take_of_lt (l := v.bits) (i := n.handle - 1) (j := n.handle) (by
        rw [hh, hx]; simp)
      rw [← this, htake, hh, hx]; simp
    refine ⟨?_, hbit⟩
    unfold levelAncestor
    rw [if_neg (by decide), ha, subI_of (by decide), ok_bind, bwdSearch_eq h2 hfit hlt (by omega), htake, hx,
      List.reverse_append]
    simp [firstExc, sgn]

example : ∃ n ∈ nodes exForest, n.before ≠ [] := by decide
example : ∃ c s, exForest = .cons c s := ⟨_, _, rfl⟩

/-- Defect: level `2^63` cannot be negated, such that `level_ancestor` panics, on every tree and for every node. -/
theorem C43_negation_defect (hd : Profile.debug = true) (t : BpTree) (bs : Nat) (k : Variant) (i : Nat) :
    t.levelAncestor bs k i (BitVec.ofNat 64 (2 ^ 63)) = .error .overflow := by
  have ha : asI64 (BitVec.ofNat 64 (2 ^ 63)) = -9223372036854775808 := by decide
  unfold levelAncestor
  rw [if_neg (by decide), ha]
  unfold subI
  rw [if_neg (by decide), wrapR_debug hd]; rfl

/-! ## C50 no panic -/

/-- C50. The searches and the queries by level do not panic for any relative excess and any level, on any
sequence and for any block size, except for the overflow of a debug build. Missing for the full property:
this overflow, and what is missing in `C50_total_partial`. -/
theorem C50_any_excess_partial {v : BV} (hw : v.WF) (h0 : 0 < v.len) {bs : Nat} (hbs : 0 < bs)
    (hl : v.len ≤ 2 ^ 60) :
    ∃ t, BpTree.fromBitVector bs v = .ok t ∧ ∀ (k : Variant) (i : Nat),
      let Overflow : R (Option Nat) → Prop := fun x => Profile.debug = true ∧ x = .error .overflow
      (∀ rel : Int, -2 ^ 63 ≤ rel → rel < 2 ^ 63 →
        ((∃ o, t.fwdSearch bs k i rel = .ok o) ∨ Overflow (t.fwdSearch bs k i rel)) ∧
        ((∃ o, t.bwdSearch bs k i rel = .ok o) ∨ Overflow (t.bwdSearch bs k i rel))) ∧
      (∀ level : Word,
        ((∃ o, t.levelAncestor bs k i level = .ok o) ∨ Overflow (t.levelAncestor bs k i level)) ∧
        ((∃ o, t.levelLeftmost bs k level = .ok o) ∨ Overflow (t.levelLeftmost bs k level)) ∧
        (true ∈ v.bits → (∃ o, t.levelRightmost bs k level = .ok o) ∨ Overflow (t.levelRightmost bs k level))) := by
  obtain ⟨t, h1, h2⟩ := fromBitVector_rep hw hbs h0 (by omega)
  refine ⟨t, h1, fun k i => ?_⟩
  have hfwd : ∀ i (rel : Int), -2 ^ 63 ≤ rel → rel < 2 ^ 63 → EndsIn (fun _ => True) (t.fwdSearch bs k i rel) := by
    intro i rel r1 r2
    by_cases hs : rel.natAbs + v.len + 32 ≤ 9223372036854775807
    · obtain ⟨o, ho⟩ := fwdSearch_total h2 k i h0 hs
      exact Or.inl ⟨o, ho, trivial⟩
    · exact (fwdSearch_far h2 k i h0 ⟨by omega, by omega, by omega⟩).mono fun _ _ => trivial
  have hbwd : ∀ i (rel : Int), -2 ^ 63 ≤ rel → rel < 2 ^ 63 → EndsIn (fun _ => True) (t.bwdSearch bs k i rel) := by
    intro i rel r1 r2
    by_cases hs : rel.natAbs + v.len + 32 ≤ 9223372036854775807
    · obtain ⟨o, ho⟩ := bwdSearch_total h2 k i hs
      exact Or.inl ⟨o, ho, trivial⟩
    · exact (bwdSearch_far h2 k i ⟨by omega, by omega, by omega⟩).mono fun _ _ => trivial
  have hout : ∀ {x : R (Option Nat)}, EndsIn (fun _ => True) x →
      (∃ o, x = .ok o) ∨ (Profile.debug = true ∧ x = .error .overflow) := by
    rintro x (⟨a, ha, -⟩ | h)
    · exact Or.inl ⟨a, ha⟩
    · exact Or.inr h
  refine ⟨fun rel r1 r2 => ⟨hout (hfwd i rel r1 r2), hout (hbwd i rel r1 r2)⟩, fun level => ?_⟩
  have hi1 : -2 ^ 63 ≤ asI64 level := by have := BitVec.le_toInt level; unfold asI64; omega
  have hi2 : asI64 level < 2 ^ 63 := by have := BitVec.toInt_lt (x := level); unfold asI64; omega
  refine ⟨hout ?_, hout ?_, fun hm => hout ?_⟩
  · unfold levelAncestor
    split
    · exact EndsIn.ok trivial
    · refine EndsIn.bind (P := fun r => -2 ^ 63 ≤ r ∧ r < 2 ^ 63) ?_ fun r hr => hbwd i r hr.1 hr.2
      unfold subI
      split
      · exact EndsIn.ok (by omega)
      · apply wrapR_endsIn
        rw [bmod_high (by omega) (by omega)]; omega
  · unfold levelLeftmost
    split
    · exact EndsIn.ok trivial
    · exact hfwd _ _ hi1 hi2
  · unfold levelRightmost
    rw [size_eq h2.vrep, ok_bind, subR_of_le (by have := List.count_pos_iff.mpr hm; omega), ok_bind]
    refine (hbwd _ _ hi1 hi2).bind fun o _ => ?_
    cases o with
    | none => exact EndsIn.ok trivial
    | some c =>
      obtain ⟨o, ho⟩ := opening_total h2 k c (by omega)
      exact Or.inl ⟨o, ho, trivial⟩

example : ∃ v : BV, v.WF ∧ 0 < v.len ∧ v.len ≤ 2 ^ 60 ∧ v.bits = [false, true, true, false, true, false, false] ∧
    true ∈ v.bits :=
  ⟨⟨[0b0010110#64], 7⟩, by decide, by decide, by decide, by decide, by decide⟩

end Vers
