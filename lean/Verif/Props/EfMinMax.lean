import Verif.Proofs.EfSteps
import Verif.Props.EliasFano
import Verif.Props.Space

/-! # Property C78: the minimum and maximum of an Elias-Fano iterator in constant time

`EfIter.minItemC` and `EfIter.lastC` are `min` and `max` with a counter for the accesses to the select blocks, super
blocks and blocks and for reading the lower half (`Model/EfSteps.lean`). -/

namespace Vers

variable [Profile]
open RsVec Spec

/-- The step counter does not change the results, for every structure and iterator. (`max` calls `last`.) -/
theorem C78_counter (ef : EF) (it : EfIter) :
    (it.minItemC ef).result = it.minItem ef ∧ (it.lastC ef).result = it.last ef :=
  ⟨(EfIter.minItemC_within it).same, (EfIter.lastC_within it).same⟩

example : (do
    let ef ← EF.fromSlice ceilLog2 [0#64, 5#64, 900#64]
    let it ← EfIter.new ef
    let a ← (it.minItemC ef).result
    let b ← (it.lastC ef).result
    pure (a, b)) = .ok (some 0#64, some 900#64) := by decide +revert +kernel

/-- The minimum of a new iterator is found in at most 7 steps, for every sequence. Missing for the full property: `min`
after calls of `next`, and `max`, see `C78_min_defect` and `C78_max_defect`. -/
theorem C78_fresh_min_partial {fl : Nat → Nat} (hfl : LogLike fl) {data : List Word} (hs : Sorted data)
    (hl : data.length < 2 ^ 60) :
    ∃ ef it, EF.fromSlice fl data = .ok ef ∧ EfIter.new ef = .ok it ∧ (it.minItemC ef).result = .ok data.head? ∧
      (it.minItemC ef).steps ≤ 7 := by
  obtain ⟨ef, it, e1, i1, hops⟩ := C26_iter_partial hfl hs hl
  refine ⟨ef, it, e1, i1, ?_, ?_⟩
  · obtain ⟨it', r1, r2⟩ := (hops [] trivial).2
    cases r1
    rw [(C78_counter ef it).1]; exact r2
  · obtain ⟨ef', g1, g2, g3, g4⟩ := fromSlice_stores hfl hs hl
    rw [e1] at g1; cases g1
    obtain ⟨up, u1, u2, u3, u4, u5⟩ := SelIter.new_state (rs := ef.upper) (zero := false) g3
    have hup : it.up = up := by
      unfold EfIter.new at i1
      rw [u1, ok_bind] at i1
      split at i1 <;> (cases i1; rfl)
    refine Nat.le_trans (EfIter.minItemC_within it).le ?_
    rw [hup]
    refine Nat.succ_le_succ ?_
    by_cases hne : data = []
    · cases hb : up.nextRankBack with
      | none => unfold SelIter.nextC; rw [hb]; exact Nat.zero_le _
      | some x =>
        rcases g4 with ⟨-, h0⟩ | h
        · have := (u2 x hb).xlt
          have := C_le ef.upper.data true ef.upper.len
          rw [Bool.not_false] at *
          omega
        · exact absurd hne (by intro h'; have := h.zero; rw [h'] at this; simp at this)
    have h : ef.Stores data := by
      rcases g4 with ⟨h0, _⟩ | h
      · exact absurd h0 hne
      · exact h
    have hn : 0 < data.length := List.length_pos_iff.mpr hne
    have hc := h.inv.count_upper
    have hb := u5 (by rw [Bool.not_false, hc]; exact hn)
    obtain ⟨up', p, -, -, -, -, -, h1, h2, h3, -⟩ := SelIter.nextC_cost g3 u2 hb (by rw [u3]; exact Nat.zero_le _)
    by_cases hm : SelIter.Miss ef.upper false up
    · have h3 := h3 hm
      have hp := h.inv.onePos hn
      have hD : EF.hiD ef (efD data) 0 = 0 := by unfold EF.hiD efD; simp
      rw [hD] at hp
      have hlen : ef.upper.supers.length = 1 := by
        have := h1.1
        by_contra hc'
        have hle := hm (by rw [u4]; omega)
        rw [u3, u4] at hle
        have hsup := (SelIter.isSuper_of_pos (zero := false) g3 hp (by have := h.inv.pos_lt hn; omega)).2.2
        rw [show (0 + 0 + 1) / 8192 = 0 by decide] at hsup
        have := hsup (by omega)
        omega
      have := h1.1
      rw [hlen] at h3
      have hlog : Nat.log2 1 = 0 := by decide
      omega
    · exact (h2 hm).2

example := C78_fresh_min_partial logLike_ceilLog2 (data := efExample) (by simp [Sorted, efExample]) (by decide)

/-- After any calls, `min` and `max` take a number of steps that is linear in the number of elements of the vector, with
the small factor 9/8192. Missing for the full property: it is not constant, see `C78_min_defect` and `C78_max_defect`. -/
theorem C78_linear_partial {fl : Nat → Nat} (hfl : LogLike fl) {data : List Word} (hs : Sorted data)
    (hl : data.length < 2 ^ 60) :
    ∃ ef it, EF.fromSlice fl data = .ok ef ∧ EfIter.new ef = .ok it ∧
      ∀ ops, CallsOk NthInRange data ops → ∃ it', reach (EfIter.step ef) it ops = .ok it' ∧
        (it'.minItemC ef).steps ≤ 2 * ((9 * data.length + 18) / 8192) + 9 ∧
        (it'.lastC ef).steps ≤ 2 * ((9 * data.length + 18) / 8192) + 9 := by
  obtain ⟨ef, ps, e1, h, -⟩ := fromSlice_holds hfl hs hl
  obtain ⟨it, i1, i2⟩ := EfIter.execute_eq h
  refine ⟨ef, it, e1, i1, fun ops hops => ?_⟩
  obtain ⟨-, it', g2, g3⟩ := i2 ops hops
  refine ⟨it', g2, ?_⟩
  have h1 := SelIter.nextC_le h.up g3.up.1
  have h2 := SelIter.lastC_le h.up g3.up.1
  have h3 := (EfIter.minItemC_within (ef := ef) it').le
  have h4 := (EfIter.lastC_within (ef := ef) it').le
  have hsup : ef.upper.supers.length ≤ (9 * data.length + 18) / 8192 + 1 := by
    have hwf := h.up.wf
    have hsl := h.up.slen
    by_cases hne : data = []
    · obtain ⟨ef', k1, k2, k3, k4⟩ := fromSlice_stores hfl hs hl
      rw [e1] at k1; cases k1
      rcases k4 with ⟨-, h0⟩ | h'
      · omega
      · exact absurd hne (by intro h0; have := h'.zero; rw [h0] at this; simp at this)
    · have := upper_len_le hfl hne e1 hs hl
      omega
  have hlog : Nat.log2 ef.upper.supers.length ≤ ef.upper.supers.length := by
    by_cases h0 : ef.upper.supers.length = 0
    · rw [h0]; decide
    · have := Nat.log2_self_le h0
      have := @Nat.lt_two_pow_self (Nat.log2 ef.upper.supers.length)
      omega
  omega

example := C78_linear_partial logLike_ceilLog2 (data := efExample) (by simp [Sorted, efExample]) (by decide)

/-! ## the defects -/

/-- `16384 m + 1` zeros and one greater element -/
theorem minmax_family (m : Nat) (hm : 1 ≤ m) (hl : m < 2 ^ 45) :
    Sorted (List.replicate (16384 * m + 1) 0#64 ++ [BitVec.ofNat 64 (16384 * m)]) ∧
    ∃ ef, EF.fromSlice ceilLog2 (List.replicate (16384 * m + 1) 0#64 ++ [BitVec.ofNat 64 (16384 * m)]) = .ok ef ∧
      ef.upper.Inv ∧ ef.len = 16384 * m + 2 ∧ C ef.upper.data true ef.upper.len = 16384 * m + 2 ∧
      IsSuper ef.upper false (16384 * m) (2 * m) ∧ SelIter.hint ef.upper false ((16384 * m + 1) / 8192) ≤ 2 * m ∧
      ∃ s, IsSuper ef.upper false (16384 * m + 1) s ∧ 3 * m ≤ s := by
  generalize hX : BitVec.ofNat 64 (16384 * m) = X
  have hXn : X.toNat = 16384 * m := by rw [← hX, BitVec.toNat_ofNat]; exact Nat.mod_eq_of_lt (by omega)
  generalize hdata : List.replicate (16384 * m + 1) 0#64 ++ [X] = data
  have hlen : data.length = 16384 * m + 2 := by rw [← hdata]; simp
  have hs : Sorted data := by
    rw [← hdata]; unfold Sorted
    rw [List.pairwise_append]
    refine ⟨by rw [List.pairwise_replicate]; right; decide, by simp, ?_⟩
    intro a ha b hb
    rw [List.eq_of_mem_replicate ha, BitVec.le_def]; exact Nat.zero_le _
  have hne : data ≠ [] := by intro h; rw [h] at hlen; simp at hlen
  refine ⟨hs, ?_⟩
  obtain ⟨ef, e1, h, -⟩ := fromSlice_inv logLike_ceilLog2 hs hne (by omega)
  have hd0 : ∀ i, i < 16384 * m + 1 → efD data i = 0 := by
    intro i hi
    unfold efD
    rw [← hdata, List.getElem?_append_left (by simpa using hi)]
    simp [hi]
  have hdl : efD data (data.length - 1) = 16384 * m := by
    unfold efD
    rw [hlen, ← hdata, List.getElem?_append_right (by simp), List.getElem?_append_left (by simp)]
    simp [hXn]
  obtain ⟨w, u, w1, w2, w3, -⟩ := fromSlice_parts logLike_ceilLog2 hne e1 hs (by omega)
  have hw : w ≤ 1 := by
    rw [hdl, hlen, max_ceilLog2] at w1
    rw [show Nat.max (Nat.max (16384 * m) 2) (16384 * m + 2 + 2) = 16384 * m + 4 from by
      show max (max (16384 * m) 2) (16384 * m + 2 + 2) = _; omega,
      show Nat.max (16384 * m + 2) 2 = 16384 * m + 2 from by show max (16384 * m + 2) 2 = _; omega] at w1
    have := ceilLog2_le (16384 * m + 2)
    have := ceilLog2_le_of (n := 16384 * m + 4) (k := ceilLog2 (16384 * m + 2) + 1) (by rw [Nat.pow_succ]; omega)
    omega
  have hpow : 2 ^ ef.lowerLen = 1 ∨ 2 ^ ef.lowerLen = 2 := by
    rw [w3]
    rcases (by omega : w = 0 ∨ w = 1) with rfl | rfl <;> simp
  have hhi : 8192 * m ≤ EF.hiD ef (efD data) (16384 * m + 1) := by
    unfold EF.hiD
    rw [show 16384 * m + 1 = data.length - 1 by omega, hdl]
    rcases hpow with hp | hp <;> rw [hp] <;> omega
  have hhi0 : EF.hiD ef (efD data) (16384 * m) = 0 := by unfold EF.hiD; rw [hd0 _ (by omega)]; simp
  have hc := h.count_upper
  have p1 := h.onePos (i := 16384 * m) (by omega)
  have p2 := h.onePos (i := 16384 * m + 1) (by omega)
  have l1 := h.pos_lt (i := 16384 * m) (by omega)
  have l2 := h.pos_lt (i := 16384 * m + 1) (by omega)
  rw [hhi0] at p1 l1
  have s1 := SelIter.isSuper_of_pos (zero := false) h.up p1 l1
  have s2 := SelIter.isSuper_of_pos (zero := false) h.up p2 l2
  rw [show (0 + 16384 * m + 1) / 8192 = 2 * m by omega] at s1
  refine ⟨ef, e1, h.up, by rw [h.len, hlen], by rw [hc, hlen], s1, ?_, _, s2, by omega⟩
  have := (SelIter.hint_le h.up (by rw [Bool.not_false, hc]; omega) s1).1
  rw [show 16384 * m / 8192 = (16384 * m + 1) / 8192 by omega] at this
  exact this

/-- the last step of the iterators, unless the cached super block is far behind -/
theorem minmax_slow {ef : EF} {m s : Nat} (hi : ef.upper.Inv)
    (hh : SelIter.hint ef.upper false ((16384 * m + 1) / 8192) ≤ 2 * m) (hs : IsSuper ef.upper false (16384 * m + 1) s)
    (h3 : 3 * m ≤ s) {up : SelIter} (hu : up.Inv ef.upper false) (hr : up.nextRank = 16384 * m + 1)
    (hb : up.nextRankBack = some (16384 * m + 1)) (hls : up.lastSuper + 1 ≤ s) :
    m ≤ (up.nextC ef.upper false).steps := by
  obtain ⟨up', p, -, -, -, -, -, h1, -, -, h4⟩ := SelIter.nextC_cost hi hu hb (by omega)
  rw [hr] at h1 h4
  cases h1.unique false hs
  have := h4 (fun _ => by
    rw [hr]
    exact Nat.le_trans (C_mono _ _ (by omega)) hs.2.1) (Or.inl rfl)
  omega

/-- Defect: `max` is documented to operate in constant time. On a vector of `16384 m + 2` elements, the maximum of a new
iterator takes at least `m` steps. -/
theorem C78_max_defect (m : Nat) (hm : 1 ≤ m) (hl : m < 2 ^ 45) :
    ∃ ef it, EF.fromSlice ceilLog2 (List.replicate (16384 * m + 1) 0#64 ++ [BitVec.ofNat 64 (16384 * m)]) = .ok ef ∧
      EfIter.new ef = .ok it ∧ it.last ef = .ok (some (BitVec.ofNat 64 (16384 * m))) ∧ m ≤ (it.lastC ef).steps := by
  obtain ⟨hs, ef, e1, hi, hlen, hc, -, hh, s, s1, s2⟩ := minmax_family m hm hl
  obtain ⟨ef', it, e1', i1, hops⟩ := C26_last_partial logLike_ceilLog2 hs
    (by rw [List.length_append, List.length_replicate, List.length_singleton]; omega) (by
      rw [List.getElem?_append_left (by rw [List.length_replicate]; omega), List.getElem?_replicate, if_pos (by omega)])
  rw [e1] at e1'; cases e1'
  refine ⟨ef, it, e1, i1, ?_, ?_⟩
  · obtain ⟨it', r1, r2⟩ := hops [] trivial
    cases r1
    rw [r2]
    show Except.ok (List.getLast? (List.replicate (16384 * m + 1) 0#64 ++ [BitVec.ofNat 64 (16384 * m)])) = _
    rw [List.getLast?_append]; rfl
  · obtain ⟨up, u1, u2, u3, u4, u5⟩ := SelIter.new_state (rs := ef.upper) (zero := false) hi
    unfold EfIter.new at i1
    rw [u1, ok_bind, if_neg (by omega)] at i1
    cases i1
    have hb := u5 (by rw [Bool.not_false]; omega)
    rw [Bool.not_false, hc] at hb
    refine Nat.le_trans ?_ (EfIter.lastC_ge (by unfold GenIter.isEmpty someGt; simp))
    rw [SelIter.lastC_eq hb (by omega)]
    refine minmax_slow hi hh s1 s2 ?_ rfl (by rw [hb]; rfl) (by show up.lastSuper + 1 ≤ s; omega)
    intro y hy
    have hg := u2 y hy
    have hz := hg.lsc
    have hz' := hg.lbc
    exact ⟨hg.xlt, hg.lb, hg.ls, Nat.le_trans hz (by rw [u3]; exact Nat.zero_le _),
      Nat.le_trans hz' (by rw [u3]; exact Nat.zero_le _), hg.lbb, hg.lsb, hg.lsbc, hg.lbbc⟩

example := C78_max_defect 1000 (by decide) (by decide)

/-- Defect: `min` is documented to operate in constant time. On the same vector, when only the last element is left, it
takes at least `m` steps. -/
theorem C78_min_defect (m : Nat) (hm : 1 ≤ m) (hl : m < 2 ^ 45) :
    ∃ ef it it', EF.fromSlice ceilLog2 (List.replicate (16384 * m + 1) 0#64 ++ [BitVec.ofNat 64 (16384 * m)]) = .ok ef ∧
      EfIter.new ef = .ok it ∧ it.advanceBy ef (16384 * m + 1) = .ok (.ok it') ∧ m ≤ (it'.minItemC ef).steps := by
  obtain ⟨hs, ef, e1, hi, hlen, hc, s0, hh, s, s1, s2⟩ := minmax_family m hm hl
  obtain ⟨up, u1, u2, u3, u4, u5⟩ := SelIter.new_state (rs := ef.upper) (zero := false) hi
  have hb := u5 (by rw [Bool.not_false]; omega)
  rw [Bool.not_false, hc] at hb
  have hi2 : ({ up with nextRank := 16384 * m } : SelIter).Inv ef.upper false := by
    intro y hy
    have hg := u2 y hy
    exact ⟨hg.xlt, hg.lb, hg.ls, Nat.le_trans hg.lsc (by rw [u3]; exact Nat.zero_le _),
      Nat.le_trans hg.lbc (by rw [u3]; exact Nat.zero_le _), hg.lbb, hg.lsb, hg.lsbc, hg.lbbc⟩
  obtain ⟨up', p, n1, -, n3, n4, n5, n6, -⟩ := SelIter.nextC_cost hi hi2 hb
    (show 16384 * m ≤ 16384 * m + 2 - 1 by omega)
  rw [SelIter.nextC_result] at n1
  refine ⟨ef, ⟨⟨0, some (ef.len - 1)⟩, up⟩, ⟨⟨0 + (16384 * m + 1), some (ef.len - 1)⟩, up'⟩, e1, ?_, ?_, ?_⟩
  · unfold EfIter.new
    rw [u1, ok_bind, if_neg (by omega)]; rfl
  · unfold EfIter.advanceBy GenIter.advanceBy
    simp only
    rw [if_neg (by omega), addU_of_lt (by omega), ok_bind, subR_of_le (by omega), ok_bind,
      if_neg (by unfold someGt; simp; omega), pure_bind]
    simp only
    rw [if_pos (by omega), show 16384 * m + 1 - 1 = 16384 * m by omega]
    unfold SelIter.nth SelIter.advanceBy
    have hul : up.len = 16384 * m + 2 := by
      unfold SelIter.len; rw [hb, u3]; show 16384 * m + 2 - 1 + 1 - 0 = _; omega
    rw [if_pos (by omega), u3, Nat.zero_add]
    simp only
    rw [n1, ok_bind]
    rfl
  · refine Nat.le_trans ?_ (EfIter.minItemC_ge _)
    refine minmax_slow hi hh s1 s2 n5 n3 n4 ?_
    have := n6.unique false s0
    show up'.lastSuper + 1 ≤ s
    omega

example := C78_min_defect 1000 (by decide) (by decide)

end Vers
