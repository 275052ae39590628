import Verif.Proofs.WaveletTop

/-!
# Helpers for the wavelet matrix: construction by stable sorting
-/

set_option linter.unusedSimpArgs false

namespace Vers

variable [Profile]

namespace BV

omit [Profile] in
theorem clean_fromZeros (n : Nat) : (fromZeros n).Clean := by
  intro i _
  apply lbit_zeros
  intro w hw
  simp only [fromZeros] at hw
  split at hw
  · simp only [List.mem_append, List.mem_replicate, List.mem_singleton] at hw
    rcases hw with hw | hw
    · exact hw.2
    · exact hw
  · exact List.eq_of_mem_replicate hw

omit [Profile] in
/-- `setUnchecked` inside the vector, with the part beyond the end. -/
theorem setUnchecked_clean {v : BV} (h : v.WF) (hc : v.Clean) {i : Nat} (hi : i < v.len) (x : Word) :
    ∃ v', v.setUnchecked i x = .ok v' ∧ v'.WF ∧ v'.Clean ∧ v'.len = v.len ∧
      v'.bits = v.bits.set i (x.getLsbD 0) := by
  obtain ⟨v', h1, h2, h3, h4⟩ := setUnchecked_eq h hi x
  refine ⟨v', h1, h2, ?_, h3, h4⟩
  have hlt : i / 64 < v.data.length := by unfold WF at h; omega
  unfold setUnchecked at h1
  rw [idx_of_lt hlt, ok_bind, setIdx_of_lt hlt, ok_bind] at h1
  injection h1 with h1
  intro j hj
  rw [h3] at hj
  rw [← h1]
  simp only
  rw [lbit_set hlt]
  split
  · rename_i hij
    have hne : ¬ (j % 64 = i % 64) := by omega
    have h0 := hc j hj
    have hlb : lbit v.data j = (v.data[i / 64]).getLsbD (j % 64) := by
      unfold lbit; rw [hij, List.getElem?_eq_getElem hlt]; rfl
    rw [hlb] at h0
    simp only [BitVec.getLsbD_or, BitVec.getLsbD_and, BitVec.getLsbD_shiftLeft,
      BitVec.getLsbD_not, getLsbD_and_one, one_shl_getLsbD _ _ (show i % 64 < 64 by omega), h0]
    simp
    omega
  · exact hc j hj

omit [Profile] in
theorem ext_clean {v w : BV} (hv : v.WF) (hw : w.WF) (cv : v.Clean) (cw : w.Clean) (h : v.bits = w.bits) : v = w := by
  obtain ⟨h1, h2⟩ := bits_eq_iff.mp h
  obtain ⟨d, n⟩ := v
  obtain ⟨d', n'⟩ := w
  simp only at h1 h2
  subst h1
  congr 1
  have hl : d.length = d'.length := by
    have h3 : d.length = (n + 63) / 64 := hv
    have h4 : d'.length = (n + 63) / 64 := hw
    omega
  have hall : ∀ i, lbit d i = lbit d' i := by
    intro i
    rcases Nat.lt_or_ge i n with hi | hi
    · exact h2 i hi
    · rw [cv i hi, cw i hi]
  apply List.ext_getElem hl
  intro i hi hi'
  apply BitVec.eq_of_getLsbD_eq
  intro j hj
  have := hall (64 * i + j)
  rw [lbit_word hj, lbit_word hj] at this
  simpa [hi, hi'] using this

end BV

namespace WM
open Spec

/-- The vectors of the levels, before the rank structure is built. -/
def GoodV : List BV → List Nat → Prop
  | [], S => ∀ x ∈ S, x = 0
  | v :: rest, S => (∀ x ∈ S, x < 2 ^ (rest.length + 1)) ∧ (v.WF ∧ v.Clean ∧ v.bits = top rest.length S) ∧
      GoodV rest (lo rest.length S ++ hi rest.length S)

omit [Profile] in
theorem goodV_unique : ∀ {vs ws : List BV} {S : List Nat}, GoodV vs S → GoodV ws S → vs.length = ws.length → vs = ws
  | [], [], _, _, _, _ => rfl
  | [], _ :: _, _, _, _, h => by simp at h
  | _ :: _, [], _, _, _, h => by simp at h
  | v :: vs, w :: ws, S, hv, hw, h => by
    have hl : vs.length = ws.length := by simpa using h
    obtain ⟨_, ⟨a1, a2, a3⟩, a4⟩ := hv
    obtain ⟨_, ⟨b1, b2, b3⟩, b4⟩ := hw
    rw [← hl] at b3 b4
    rw [BV.ext_clean a1 b1 a2 b2 (a3.trans b3.symm), goodV_unique a4 b4 hl]

theorem buildAll_eq : ∀ {vs : List BV} {S : List Nat}, GoodV vs S →
    ∃ data, buildAll vs = .ok data ∧ data.length = vs.length ∧ Good data S
  | [], _, h => ⟨[], rfl, rfl, h⟩
  | v :: vs, S, h => by
    obtain ⟨h1, ⟨h2, h3, h4⟩, h5⟩ := h
    obtain ⟨rs, r1, r2⟩ := level_of_build h2
    obtain ⟨data, d1, d2, d3⟩ := buildAll_eq h5
    refine ⟨rs :: data, ?_, by simp [d2], ?_, ?_, ?_⟩
    · simp only [buildAll]; rw [r1, ok_bind, d1]; rfl
    · rw [d2]; exact h1
    · rw [d2, ← h4]; exact r2
    · rw [d2]; exact d3

omit [Profile] in
theorem fillBits_eq {lookup : Nat → R Word} {f : Nat → Bool} : ∀ (ps : List Nat) (D : List Bool) (i z : Nat) (v : BV),
    (∀ p ∈ ps, lookup p = .ok (b2w (f p))) → v.WF → v.Clean → D.length = i →
    v.bits = D ++ List.replicate ps.length false →
    ∃ v', fillBits lookup ps i z v = .ok (z + (ps.filter (fun p => !f p)).length, v') ∧ v'.WF ∧ v'.Clean ∧
      v'.bits = D ++ ps.map f
  | [], D, i, z, v, _, hw, hc, _, hb => ⟨v, by simp [fillBits], hw, hc, by simpa using hb⟩
  | p :: ps, D, i, z, v, hl, hw, hc, hD, hb => by
    simp only [fillBits]
    rw [hl p (by simp), ok_bind]
    have hlen : v.len = D.length + (ps.length + 1) := by
      have := congrArg List.length hb
      simpa using this
    cases hf : f p with
    | false =>
      rw [if_pos (by rfl)]
      obtain ⟨v', h1, h2, h3, h4⟩ := fillBits_eq ps (D ++ [false]) (i + 1) (z + 1) v
        (fun q hq => hl q (by simp [hq])) hw hc (by simp [hD]) (by rw [hb]; simp [List.replicate_succ])
      refine ⟨v', ?_, h2, h3, ?_⟩
      · rw [h1]; simp [hf]; omega
      · rw [h4]; simp [hf]
    | true =>
      rw [if_neg (by decide)]
      obtain ⟨w, w1, w2, w3, w4, w5⟩ := BV.setUnchecked_clean hw hc (show i < v.len by omega) 1#64
      unfold BV.set
      rw [if_neg (by omega), w1]
      simp only [ok_bind, pure_eq_ok, unwrapR_some]
      obtain ⟨v', h1, h2, h3, h4⟩ := fillBits_eq ps (D ++ [true]) (i + 1) z w
        (fun q hq => hl q (by simp [hq])) w2 w3 (by simp [hD]) (by
          rw [w5, hb, List.set_append_right _ _ (by omega)]
          simp [hD, List.replicate_succ])
      refine ⟨v', ?_, h2, h3, ?_⟩
      · rw [h1]; simp [hf]
      · rw [h4]; simp [hf]

omit [Profile] in
theorem splitPerm_eq {v : BV} {f : Nat → Bool} (hw : v.WF) : ∀ (ps : List Nat) (D : List Bool) (i : Nat) (Z G1 O G2 : List Nat),
    D.length = i → v.bits = D ++ ps.map f →
    G1.length = (ps.filter (fun p => !f p)).length → G2.length = (ps.filter f).length →
    splitPerm v ps i Z.length (Z.length + G1.length + O.length) (Z ++ G1 ++ O ++ G2) =
      .ok (Z ++ ps.filter (fun p => !f p) ++ O ++ ps.filter f)
  | [], D, i, Z, G1, O, G2, _, _, h1, h2 => by
    have e1 : G1 = [] := List.eq_nil_of_length_eq_zero (by simpa using h1)
    have e2 : G2 = [] := List.eq_nil_of_length_eq_zero (by simpa using h2)
    subst e1; subst e2
    simp [splitPerm]
  | p :: ps, D, i, Z, G1, O, G2, hD, hb, h1, h2 => by
    simp only [splitPerm]
    have hlen : v.len = D.length + (ps.length + 1) := by
      have := congrArg List.length hb
      simpa using this
    have hbit : lbit v.data i = f p := by
      have := congrArg (fun l => l[i]?) hb
      simp only [BV.bits_getElem?] at this
      rw [if_pos (by omega), List.getElem?_append_right (by omega), hD, Nat.sub_self] at this
      simpa using this
    rw [BV.getUnchecked_eq (BV.lt_of_wf hw (by omega)), ok_bind, hbit]
    cases hf : f p with
    | false =>
      rw [if_pos (by rfl)]
      simp only [List.filter_cons, hf, Bool.not_false, if_true, List.length_cons] at h1
      simp only [List.filter_cons, hf, Bool.false_eq_true, if_false] at h2
      cases G1 with
      | nil => simp at h1
      | cons g G1 =>
        rw [setIdx_of_lt (by simp), ok_bind]
        have e1 : ((Z ++ g :: G1 ++ O ++ G2).set Z.length p) = (Z ++ [p]) ++ G1 ++ O ++ G2 := by
          simp [List.set_append]
        have := splitPerm_eq hw ps (D ++ [false]) (i + 1) (Z ++ [p]) G1 O G2 (by simp [hD]) (by rw [hb]; simp [hf])
          (by simpa using h1) h2
        rw [e1]
        simp only [List.length_append, List.length_cons, List.length_nil, Nat.zero_add] at this ⊢
        rw [show Z.length + (G1.length + 1) + O.length = Z.length + 1 + G1.length + O.length by omega, this]
        simp [hf]
    | true =>
      rw [if_neg (by decide)]
      simp only [List.filter_cons, hf, Bool.not_true, Bool.false_eq_true, if_false] at h1
      simp only [List.filter_cons, hf, if_true, List.length_cons] at h2
      cases G2 with
      | nil => simp at h2
      | cons g G2 =>
        rw [setIdx_of_lt (by simp; omega), ok_bind]
        have e1 : ((Z ++ G1 ++ O ++ g :: G2).set (Z.length + G1.length + O.length) p) = Z ++ G1 ++ (O ++ [p]) ++ G2 := by
          rw [← List.length_append, ← List.length_append, List.set_append_right _ _ (by simp)]
          simp
        have := splitPerm_eq hw ps (D ++ [true]) (i + 1) Z G1 (O ++ [p]) G2 (by simp [hD]) (by rw [hb]; simp [hf])
          h1 (by simpa using h2)
        rw [e1]
        simp only [List.length_append, List.length_cons, List.length_nil, Nat.zero_add] at this ⊢
        rw [show Z.length + G1.length + O.length + 1 = Z.length + G1.length + (O.length + 1) by omega, this]
        simp [hf]

omit [Profile] in
theorem lo_perm (val : Nat → Nat) (r : Nat) : ∀ (perm : List Nat),
    lo r (perm.map (val · % 2 ^ (r + 1))) = (perm.filter (fun p => !(val p).testBit r)).map (val · % 2 ^ r)
  | [] => rfl
  | p :: ps => by
    have ht := testBit_top (val p) r
    have hr := top_rest (val p) r
    rw [List.map_cons]
    rcases Nat.lt_or_ge (val p % 2 ^ (r + 1)) (2 ^ r) with h | h
    · rw [lo_cons_lt _ h, lo_perm val r ps]
      rw [if_pos h] at hr
      rw [decide_eq_false (by omega)] at ht
      simp [← ht, hr]
    · rw [lo_cons_ge _ h, lo_perm val r ps]
      rw [decide_eq_true h] at ht
      simp [← ht]

omit [Profile] in
theorem hi_perm (val : Nat → Nat) (r : Nat) : ∀ (perm : List Nat),
    hi r (perm.map (val · % 2 ^ (r + 1))) = (perm.filter (fun p => (val p).testBit r)).map (val · % 2 ^ r)
  | [] => rfl
  | p :: ps => by
    have ht := testBit_top (val p) r
    have hr := top_rest (val p) r
    rw [List.map_cons]
    rcases Nat.lt_or_ge (val p % 2 ^ (r + 1)) (2 ^ r) with h | h
    · rw [hi_cons_lt _ h, hi_perm val r ps]
      rw [decide_eq_false (by omega)] at ht
      simp [← ht]
    · rw [hi_cons_ge _ h, hi_perm val r ps]
      rw [if_neg (by omega)] at hr
      rw [decide_eq_true h] at ht
      simp [← ht, hr]

omit [Profile] in
theorem top_perm (val : Nat → Nat) (r : Nat) (perm : List Nat) :
    top r (perm.map (val · % 2 ^ (r + 1))) = perm.map (fun p => (val p).testBit r) := by
  unfold top
  rw [List.map_map]
  apply List.map_congr_left
  intro p _
  exact testBit_top (val p) r

omit [Profile] in
theorem filter_not_length {f : Nat → Bool} (l : List Nat) : (l.filter (fun p => !f p)).length + (l.filter f).length = l.length := by
  induction l with
  | nil => rfl
  | cons x l ih => cases h : f x <;> simp [h] <;> omega

omit [Profile] in
theorem sortLevels_eq {k n : Nat} {lookup : Nat → Nat → R Word} {val : Nat → Nat}
    (hl : ∀ p b, p < n → b < k → lookup p b = .ok (b2w ((val p).testBit b))) :
    ∀ (r level : Nat) (perm next : List Nat), level + r = k → (∀ p ∈ perm, p < n) → perm.length = n → next.length = n →
    ∃ vs, sortLevels k n lookup r level perm next = .ok vs ∧ vs.length = r ∧ GoodV vs (perm.map (val · % 2 ^ r))
  | 0, _, perm, _, _, _, _, _ => by
    refine ⟨[], rfl, rfl, ?_⟩
    intro x hx
    simp [Nat.mod_one] at hx
    exact hx.2.symm
  | r + 1, level, perm, next, hk, hp, hn, hn' => by
    have hkl : k - level - 1 = r := by omega
    simp only [sortLevels, hkl]
    obtain ⟨v, v1, v2, v3, v4⟩ := fillBits_eq (lookup := fun p => lookup p r) (f := fun p => (val p).testBit r)
      perm [] 0 0 (BV.fromZeros n) (fun p h => hl p r (hp p h) (by omega)) (BV.wf_fromZeros n) (BV.clean_fromZeros n) rfl
      (by rw [BV.bits_fromZeros, hn]; rfl)
    rw [v1, ok_bind]
    have hb : ∀ x ∈ perm.map (val · % 2 ^ (r + 1)), x < 2 ^ (r + 1) := by
      intro x hx
      simp only [List.mem_map] at hx
      obtain ⟨p, _, rfl⟩ := hx
      exact Nat.mod_lt _ (Nat.two_pow_pos _)
    have hfl := filter_not_length (f := fun p => (val p).testBit r) perm
    by_cases hlast : level < k - 1
    · rw [if_pos hlast]
      have hsplit := splitPerm_eq v2 (f := fun p => (val p).testBit r) perm [] 0 []
        (next.take (perm.filter (fun p => !(val p).testBit r)).length) []
        (next.drop (perm.filter (fun p => !(val p).testBit r)).length) rfl (by rw [v4])
        (by simp; omega) (by simp; omega)
      simp only [List.nil_append, List.append_nil, List.length_nil, Nat.zero_add, Nat.add_zero, List.take_append_drop,
        List.length_take] at hsplit
      rw [Nat.min_eq_left (by omega)] at hsplit
      simp only [Nat.zero_add]
      rw [hsplit, ok_bind]
      obtain ⟨vs, s1, s2, s3⟩ := sortLevels_eq hl r (level + 1)
        (perm.filter (fun p => !(val p).testBit r) ++ perm.filter (fun p => (val p).testBit r)) perm (by omega)
        (by intro p h; simp only [List.mem_append, List.mem_filter] at h; rcases h with h | h <;> exact hp p h.1)
        (by rw [List.length_append]; omega) hn
      rw [s1, ok_bind]
      refine ⟨v :: vs, rfl, by simp [s2], ?_, ?_, ?_⟩
      · rw [s2]; exact hb
      · rw [s2, top_perm]; exact ⟨v2, v3, v4⟩
      · rw [s2, lo_perm, hi_perm, ← List.map_append]; exact s3
    · rw [if_neg hlast]
      have hr : r = 0 := by omega
      subst hr
      simp only [sortLevels, pure_eq_ok, ok_bind]
      refine ⟨[v], rfl, rfl, ?_, ?_, ?_⟩
      · exact hb
      · have := top_perm val 0 perm
        simp only [List.length_nil]; rw [this]; exact ⟨v2, v3, v4⟩
      · have e1 := lo_perm val 0 perm
        have e2 := hi_perm val 0 perm
        simp only [List.length_nil]
        rw [e1, e2]
        intro x hx
        simp [Nat.mod_one] at hx
        omega

/-- The sorting construction, up to the levels. -/
theorem sort_levels {k n : Nat} {lookup : Nat → Nat → R Word} {val : Nat → Nat}
    (hl : ∀ p b, p < n → b < k → lookup p b = .ok (b2w ((val p).testBit b))) :
    ∃ vs, permutationSorting k n lookup = (do let data ← buildAll vs; pure ⟨data⟩) ∧ vs.length = k ∧
      GoodV vs ((List.range n).map (val · % 2 ^ k)) := by
  obtain ⟨vs, h1, h2, h3⟩ := sortLevels_eq hl k 0 (List.range n) (List.replicate n 0) (by omega) (by simp) (by simp) (by simp)
  exact ⟨vs, by unfold permutationSorting; rw [h1, ok_bind], h2, h3⟩

theorem stores_of_levels {k : Nat} {S : List Nat} {vs : List BV} (hk : 1 ≤ k) (h : vs.length = k) (hg : GoodV vs S) :
    ∃ m : WM, (do let data ← buildAll vs; pure ⟨data⟩ : R WM) = .ok m ∧ Stores m k S := by
  obtain ⟨data, d1, d2, d3⟩ := buildAll_eq hg
  exact ⟨⟨data⟩, by rw [d1]; rfl, by simpa [d2] using h, hk, d3⟩

theorem sliceLookup_eq {seq : List Word} {k : Nat} (hk : k ≤ 64) {p b : Nat} (hp : p < seq.length) (hb : b < k) :
    sliceLookup seq p b = .ok (b2w ((seq[p]?.getD 0#64).toNat.testBit b)) := by
  unfold sliceLookup
  rw [idx_of_lt hp, ok_bind, if_pos (by omega), shr_and_one, BitVec.testBit_toNat]
  simp [hp]

omit [Profile] in
theorem map_range_getD (seq : List Word) (k : Nat) :
    (List.range seq.length).map (fun p => (seq[p]?.getD 0#64).toNat % 2 ^ k) = seq.map (·.toNat % 2 ^ k) := by
  apply List.ext_getElem?
  intro i
  rw [getElem?_map_range, List.getElem?_map]
  by_cases h : i < seq.length
  · simp [h]
  · simp [h]

/-- value of the `p`-th packed word -/
def chunk (k : Nat) (v : BV) (p : Nat) : Nat := bitsToNat ((v.bits.drop (p * k)).take k)

omit [Profile] in
theorem chunk_bound {len k p : Nat} (hp : p < len / k) : p * k + k ≤ len := by
  have h1 : (p + 1) * k ≤ len / k * k := Nat.mul_le_mul_right k hp
  have h2 := Nat.div_mul_le_self len k
  rw [Nat.add_mul] at h1; omega

omit [Profile] in
theorem bvLookup_eq {v : BV} (hv : v.WF) {k p b : Nat} (hp : p < v.len / k) (hb : b < k) :
    bvLookup v k p b = .ok (b2w ((chunk k v p).testBit b)) := by
  have hbd := chunk_bound hp
  unfold bvLookup chunk
  rw [BV.getUnchecked_eq (BV.lt_of_wf hv (by omega)), testBit_bitsToNat, List.getElem?_take, if_pos hb,
    List.getElem?_drop, BV.bits_getElem?, if_pos (by omega)]
  rfl

omit [Profile] in
theorem chunk_lt {v : BV} {k : Nat} (p : Nat) : chunk k v p < 2 ^ k := by
  have h1 := bitsToNat_lt ((v.bits.drop (p * k)).take k)
  have h2 : ((v.bits.drop (p * k)).take k).length ≤ k := by simp; omega
  exact Nat.lt_of_lt_of_le h1 (Nat.pow_le_pow_right (by omega) h2)

omit [Profile] in
theorem chunks_eq (v : BV) (k : Nat) :
    (List.range (v.len / k)).map (fun p => chunk k v p % 2 ^ k) = chunks k v.bits := by
  unfold chunks
  rw [BV.length_bits]
  apply List.map_congr_left
  intro p _
  exact Nat.mod_eq_of_lt (chunk_lt p)

theorem fromSlice_levels (seq : List Word) {k : Nat} (hk : k ≤ 64) :
    ∃ vs, fromSlice seq k = (do let data ← buildAll vs; pure ⟨data⟩) ∧ vs.length = k ∧
      GoodV vs (seq.map (·.toNat % 2 ^ k)) := by
  obtain ⟨vs, h1, h2, h3⟩ := sort_levels (k := k) (n := seq.length) (lookup := sliceLookup seq)
    (val := fun p => (seq[p]?.getD 0#64).toNat) (fun p b hp hb => sliceLookup_eq hk hp hb)
  rw [map_range_getD] at h3
  exact ⟨vs, by unfold fromSlice; rw [assertR_true hk, ok_bind, h1], h2, h3⟩

theorem fromBitVec_levels {v : BV} (hv : v.WF) {k : Nat} (hk : 1 ≤ k) (hd : v.len % k = 0) :
    ∃ vs, fromBitVec v k = (do let data ← buildAll vs; pure ⟨data⟩) ∧ vs.length = k ∧
      GoodV vs (chunks k v.bits) := by
  obtain ⟨vs, h1, h2, h3⟩ := sort_levels (k := k) (n := v.len / k) (lookup := bvLookup v k)
    (val := chunk k v) (fun p b hp hb => bvLookup_eq hv hp hb)
  rw [chunks_eq] at h3
  refine ⟨vs, ?_, h2, h3⟩
  unfold fromBitVec checkMultiple
  rw [if_neg (by omega), assertR_true hd, ok_bind, h1]

end WM
end Vers
