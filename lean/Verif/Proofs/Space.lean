import Verif.Model.Space
import Verif.Proofs.RsBuild
import Verif.Proofs.EfBuild
import Verif.Proofs.RmqFast
import Verif.Proofs.WaveletFinal
import Verif.Proofs.BpSearch

/-! # Sizes of the structures -/

set_option linter.unusedSimpArgs false

namespace Vers

variable [Profile]
open Spec

omit [Profile] in
theorem setIdx_length {α : Type} {l l' : List α} {i : Nat} {x : α} (h : setIdx l i x = .ok l') :
    l'.length = l.length := by
  unfold setIdx at h
  split at h
  · cases h; simp
  · cases h

/-! ## The number of select blocks -/

omit [Profile] in
theorem idx_ok_lt {α : Type} {l : List α} {i : Nat} {x : α} (h : idx l i = .ok x) : i < l.length := by
  rcases Nat.lt_or_ge i l.length with h1 | h1
  · exact h1
  · unfold idx at h
    rw [List.getElem?_eq_none h1] at h
    cases h

omit [Profile] in
theorem setSelect_len {zero : Bool} {sel sel' : List (Nat × Nat)} {k v : Nat}
    (h : RsVec.setSelect zero sel k v = .ok sel') : sel'.length = max sel.length (k + 1) := by
  unfold RsVec.setSelect at h
  by_cases hk : k = sel.length
  · rw [if_pos hk] at h
    cases h
    simp; omega
  · rw [if_neg hk] at h
    obtain ⟨e, h1, h2⟩ := bind_eq_ok.mp h
    have h3 := idx_ok_lt h1
    have h4 := WM.setIdx_ok h2
    omega

theorem selectStep_len {zero : Bool} {n last before after : Nat} {sel : List (Nat × Nat)} {p : List (Nat × Nat) × Nat}
    (h : RsVec.selectStep zero n sel last before after = .ok p) (hl : before / 8192 < sel.length) (hb : before ≤ after) :
    p.1.length = max sel.length (after / 8192 + 1) := by
  unfold RsVec.selectStep at h
  have hd : before / 8192 ≤ after / 8192 := Nat.div_le_div_right hb
  by_cases hc : after / 8192 > before / 8192
  · rw [if_pos hc] at h
    obtain ⟨s, h1, h2⟩ := bind_eq_ok.mp h
    obtain ⟨s', h3, h4⟩ := bind_eq_ok.mp h2
    cases h4
    exact setSelect_len h3
  · rw [if_neg hc] at h
    cases h
    simp only; omega

theorem dummySelect_len {zero : Bool} {sel sel' : List (Nat × Nat)} {last : Nat}
    (h : RsVec.dummySelect zero sel last = .ok sel') (hl : last < sel.length) :
    sel'.length = max sel.length (last + 2) := by
  unfold RsVec.dummySelect at h
  rw [subR_of_le (by omega), ok_bind] at h
  by_cases hc : last = sel.length - 1
  · rw [if_pos hc, idx_of_lt hl, ok_bind] at h
    cases h
    simp; omega
  · rw [if_neg hc] at h
    obtain ⟨e, h1, h2⟩ := bind_eq_ok.mp h
    obtain ⟨_, h3, h4⟩ := bind_eq_ok.mp h2
    obtain ⟨e', h5, h6⟩ := bind_eq_ok.mp h4
    have := WM.setIdx_ok h6
    have := idx_ok_lt h1
    omega

theorem buildStep_len {v : BV} (hwf : v.WF) {k : Nat} (hk : k < v.data.length) {st : RsVec.Build} (h : BInv v k st)
    (hl : st.selects.length = max st.lastZero st.lastOne + 1) :
    ∃ st', RsVec.buildStep v.len v.data.length st k v.data[k] = .ok st' ∧ BInv v (k + 1) st' ∧
      st'.selects.length = max st'.lastZero st'.lastOne + 1 := by
  obtain ⟨st', g1, g2⟩ := buildStep_eq hwf hk h
  refine ⟨st', g1, g2, ?_⟩
  obtain ⟨a1, a2, a3, a4, a5, a6, a7, a8, a9, a10⟩ := pushBlock_inv hwf hk h
  obtain ⟨n1, n2, n3, n4⟩ := newZeros_eq hwf hk
  have hle : Zk v k ≤ 64 * k := by rw [n4]; exact C_le _ _ _
  rw [g2.lz, g2.lo]
  have hz := h.lz
  have ho := h.lo
  unfold RsVec.buildStep at g1
  generalize hst : RsVec.pushBlock st k = st1 at *
  simp only at g1
  rw [n1, ok_bind] at g1
  have hall : st1.total + st1.current + (Zk v (k + 1) - Zk v k) = Zk v (k + 1) := by omega
  rw [hall, a6] at g1
  obtain ⟨p0, e1, g1⟩ := bind_eq_ok.mp g1
  rw [subR_of_le (by omega), ok_bind, subR_of_le (by omega), ok_bind] at g1
  obtain ⟨p1, e2, g1⟩ := bind_eq_ok.mp g1
  cases g1
  rw [a9] at e1
  have l0 := selectStep_len e1 (by omega) (by omega)
  have l1 := selectStep_len e2 (by
    rw [l0, hl, ho, show k * 64 - Zk v k = 64 * k - Zk v k by omega]
    omega) (by omega)
  simp only
  rw [l1, l0, hl, hz, ho, show (k + 1) * 64 - Zk v (k + 1) = 64 * (k + 1) - Zk v (k + 1) by omega]
  have d0 : Zk v k / 8192 ≤ Zk v (k + 1) / 8192 := Nat.div_le_div_right (by omega)
  have d1 : (64 * k - Zk v k) / 8192 ≤ (64 * (k + 1) - Zk v (k + 1)) / 8192 := Nat.div_le_div_right (by omega)
  omega

theorem buildLoop_len {v : BV} (hwf : v.WF) :
    ∀ (n k : Nat) (st : RsVec.Build), k + n = v.data.length → BInv v k st →
      st.selects.length = max st.lastZero st.lastOne + 1 →
      ∃ st', RsVec.buildLoop v.len v.data.length st k (v.data.drop k) = .ok st' ∧
        BInv v v.data.length st' ∧ st'.selects.length = max st'.lastZero st'.lastOne + 1 := by
  intro n
  induction n with
  | zero =>
    intro k st hk h hl
    rw [List.drop_of_length_le (by omega)]
    exact ⟨st, rfl, by rw [← hk]; exact h, hl⟩
  | succ n ih =>
    intro k st hk h hl
    rw [List.drop_eq_getElem_cons (by omega)]
    obtain ⟨st', h1, h2, h3⟩ := buildStep_len hwf (show k < v.data.length by omega) h hl
    unfold RsVec.buildLoop
    rw [h1, ok_bind]
    exact ih (k + 1) st' (by omega) h2 h3

/-- The number of select blocks of a vector with `z` zeros. -/
theorem selects_len {v : BV} (hwf : v.WF) {rs : RsVec} (h : RsVec.fromBitVec v = .ok rs) :
    rs.selects.length = max (rs.rank0 / 8192) ((64 * v.data.length - rs.rank0) / 8192) + 2 := by
  obtain ⟨st, h1, h2, h3⟩ := buildLoop_len hwf v.data.length 0 RsVec.Build.init (by omega) (BInv.init v) rfl
  rw [List.drop_zero] at h1
  have hz : Zk v v.data.length = C v.data false v.len := by
    unfold Zk; have := hwf; unfold BV.WF at this; rw [Nat.min_eq_right (by omega)]
  unfold RsVec.fromBitVec at h
  rw [h1, ok_bind] at h
  obtain ⟨sel, d1, h⟩ := bind_eq_ok.mp h
  obtain ⟨sel', d2, h⟩ := bind_eq_ok.mp h
  obtain ⟨r1, d3, h⟩ := bind_eq_ok.mp h
  cases h
  have l1 := dummySelect_len d1 (by omega)
  have l2 := dummySelect_len d2 (by omega)
  simp only
  rw [l2, l1, h3, h2.sum, ← h2.lz, ← h2.lo]
  omega

theorem fromBitVec_ok {v : BV} {rs : RsVec} (h : RsVec.fromBitVec v = .ok rs) : rs.data = v.data ∧ rs.len = v.len := by
  unfold RsVec.fromBitVec at h
  obtain ⟨_, -, h⟩ := bind_eq_ok.mp h
  obtain ⟨_, -, h⟩ := bind_eq_ok.mp h
  obtain ⟨_, -, h⟩ := bind_eq_ok.mp h
  obtain ⟨_, -, h⟩ := bind_eq_ok.mp h
  cases h
  exact ⟨rfl, rfl⟩

/-- The size of a rank/select vector with `z` zeros. -/
theorem heapSize_eq {v : BV} (hwf : v.WF) {rs : RsVec} (h : RsVec.fromBitVec v = .ok rs) :
    rs.heapSize = 8 * ((v.len + 63) / 64) + 2 * ((v.len + 511) / 512) + 8 * ((v.len + 8191) / 8192) +
      16 * (max (v.bits.count false / 8192) ((64 * ((v.len + 63) / 64) - v.bits.count false) / 8192) + 2) := by
  obtain ⟨rs', g1, g2, g3, g4⟩ := fromBitVec_inv hwf
  rw [h] at g1
  cases g1
  have hs := selects_len hwf h
  have hr : rs.rank0 = v.bits.count false := by
    rw [g2.r0, BV.count_bits_eq_cnt, g3, g4]; rfl
  have hd : v.data.length = (v.len + 63) / 64 := hwf
  unfold RsVec.heapSize
  rw [hs, g2.slen, g2.blen, g3, hd, hr]
  omega

theorem heapSize_le {v : BV} (hwf : v.WF) {rs : RsVec} (h : RsVec.fromBitVec v = .ok rs) :
    8 * rs.heapSize ≤ v.len + 28 * ((v.len + 511) / 512) + 379 := by
  rw [heapSize_eq hwf h]
  have hc : v.bits.count false ≤ v.len := by
    have := List.count_le_length (a := false) (l := v.bits)
    rwa [BV.length_bits] at this
  have h1 : v.bits.count false / 8192 ≤ (64 * ((v.len + 63) / 64)) / 8192 := Nat.div_le_div_right (by omega)
  have h2 : (64 * ((v.len + 63) / 64) - v.bits.count false) / 8192 ≤ (64 * ((v.len + 63) / 64)) / 8192 :=
    Nat.div_le_div_right (by omega)
  have h3 : max (v.bits.count false / 8192) ((64 * ((v.len + 63) / 64) - v.bits.count false) / 8192) ≤
    (64 * ((v.len + 63) / 64)) / 8192 := by omega
  generalize max (v.bits.count false / 8192) ((64 * ((v.len + 63) / 64) - v.bits.count false) / 8192) = m at *
  omega

/-! ## Wavelet matrix -/

namespace WM

/-- The vectors the levels are built from. -/
theorem built_vecs {m : WM} {k : Nat} {S : List Nat} (h : Built m k S) :
    ∃ vs, buildAll vs = .ok m.data ∧ vs.length = k ∧ GoodV vs S := by
  have fin : ∀ {r : R WM} {vs : List BV}, r = .ok m → r = (do let data ← buildAll vs; pure ⟨data⟩) →
      buildAll vs = .ok m.data := by
    intro r vs h1 h2
    rw [h1] at h2
    obtain ⟨data, d1, d2⟩ := bind_eq_ok.mp h2.symm
    cases d2
    exact d1
  cases h with
  | slice hk h =>
    rename_i seq
    have hk' : k ≤ 64 := by
      have h' := h
      unfold fromSlice at h'
      obtain ⟨_, e, _⟩ := bind_eq_ok.mp h'
      exact assertR_ok e
    obtain ⟨vs, v1, v2, v3⟩ := fromSlice_levels seq hk'
    exact ⟨vs, fin h v1, v2, v3⟩
  | packed hw h =>
    rename_i v
    have hk : 1 ≤ k ∧ v.len % k = 0 := by
      have h' := h
      unfold fromBitVec at h'
      obtain ⟨_, e, _⟩ := bind_eq_ok.mp h'
      exact checkMultiple_ok e
    obtain ⟨vs, v1, v2, v3⟩ := fromBitVec_levels hw hk.1 hk.2
    exact ⟨vs, fin h v1, v2, v3⟩
  | slicePc hk h =>
    rename_i seq
    obtain ⟨hk', hx⟩ := fromSlicePc_ok h
    obtain ⟨vs, v1, v2, v3⟩ := fromSlicePc_levels seq hk hk' hx
    exact ⟨vs, fin h v1, v2, v3⟩
  | packedPc hw h =>
    rename_i v
    have hk : (1 ≤ k ∧ v.len % k = 0) ∧ k < 64 := by
      have h' := h
      unfold fromBitVecPc at h'
      obtain ⟨_, e, h'⟩ := bind_eq_ok.mp h'
      obtain ⟨_, e', h'⟩ := bind_eq_ok.mp h'
      exact And.intro (checkMultiple_ok e) (prefixCounting_ok (assertR_ok e') h').1
    obtain ⟨vs, v1, v2, v3⟩ := fromBitVecPc_levels hw hk.1.1 hk.2 hk.1.2
    exact ⟨vs, fin h v1, v2, v3⟩

omit [Profile] in
theorem goodV_len : ∀ {vs : List BV} {S : List Nat}, GoodV vs S → ∀ v ∈ vs, v.WF ∧ v.len = S.length
  | [], _, _, v, hv => by cases hv
  | r :: rest, S, h, v, hv => by
    rcases List.mem_cons.mp hv with e | e
    · subst e
      refine ⟨h.2.1.1, ?_⟩
      rw [← BV.length_bits, h.2.1.2.2]; simp [top]
    · refine ⟨(goodV_len h.2.2 v e).1, ?_⟩
      rw [(goodV_len h.2.2 v e).2, List.length_append, length_lo_add_hi]

theorem heapSize_levels {n c : Nat} : ∀ {vs : List BV} {data : List RsVec}, buildAll vs = .ok data →
    (∀ v ∈ vs, v.WF ∧ v.len = n) → n + 28 * ((n + 511) / 512) + 379 = c →
    8 * (data.map RsVec.heapSize).sum ≤ vs.length * c
  | [], _, h, _, _ => by unfold buildAll at h; cases h; simp
  | v :: vs, data, h, hv, hc => by
    unfold buildAll at h
    obtain ⟨r, h1, h⟩ := bind_eq_ok.mp h
    obtain ⟨rest, h2, h⟩ := bind_eq_ok.mp h
    cases h
    have ih := heapSize_levels h2 (fun x hx => hv x (List.mem_cons_of_mem _ hx)) hc
    obtain ⟨w1, w2⟩ := hv v List.mem_cons_self
    have := heapSize_le w1 h1
    rw [w2, hc] at this
    rw [List.map_cons, List.sum_cons, List.length_cons, Nat.add_mul]
    omega

theorem heapSize_levels_ge {n : Nat} : ∀ {vs : List BV} {data : List RsVec}, buildAll vs = .ok data →
    (∀ v ∈ vs, v.WF ∧ v.len = n) → vs.length * n ≤ 8 * (data.map RsVec.heapSize).sum
  | [], _, h, _ => by simp
  | v :: vs, data, h, hv => by
    unfold buildAll at h
    obtain ⟨r, h1, h⟩ := bind_eq_ok.mp h
    obtain ⟨rest, h2, h⟩ := bind_eq_ok.mp h
    cases h
    have ih := heapSize_levels_ge h2 (fun x hx => hv x (List.mem_cons_of_mem _ hx))
    obtain ⟨w1, w2⟩ := hv v List.mem_cons_self
    have := heapSize_eq w1 h1
    rw [w2] at this
    rw [List.map_cons, List.sum_cons, List.length_cons, Nat.add_mul]
    omega

end WM

/-! ## Parenthesis tree -/

namespace BpTree

theorem fromBitVector_vec {bs : Nat} {v : BV} {t : BpTree} (h : fromBitVector bs v = .ok t) :
    RsVec.fromBitVec v = .ok t.vec := by
  unfold fromBitVector at h
  obtain ⟨_, _, h⟩ := bind_eq_ok.mp h
  obtain ⟨_, h1, h⟩ := bind_eq_ok.mp h
  cases h
  exact h1

omit [Profile] in
theorem mmt_leaves {b : List Bool} {bs K L : Nat} {nodes : List ExcessNode} (h : MMT.Ok b bs K L nodes) :
    L = (b.length + bs - 1) / bs := by
  have h1 := h.cover
  have h2 := h.last
  have h3 := h.bs_pos
  have h4 := h.hL
  symm
  rw [Nat.div_eq_iff h3]
  have e : L * bs = (L - 1) * bs + bs := by
    rw [← Nat.succ_mul]; congr 1; omega
  omega

omit [Profile] in
theorem mmt_nodes_le {b : List Bool} {bs K L : Nat} {nodes : List ExcessNode} (h : MMT.Ok b bs K L nodes) :
    nodes.length ≤ 3 * L := by
  have hK := h.hK
  have e : 2 ^ K = 2 * 2 ^ (K - 1) := by
    conv => lhs; rw [show K = (K - 1) + 1 by omega, Nat.pow_succ, Nat.mul_comm]
  have := h.hL3
  rw [h.len]; omega

omit [Profile] in
theorem mmt_nodes_ge {b : List Bool} {bs K L : Nat} {nodes : List ExcessNode} (h : MMT.Ok b bs K L nodes) :
    2 * L ≤ nodes.length + 1 ∧ 2 ≤ nodes.length := by
  have hK := h.hK
  have e : 2 ^ K = 2 * 2 ^ (K - 1) := by
    conv => lhs; rw [show K = (K - 1) + 1 by omega, Nat.pow_succ, Nat.mul_comm]
  have h1 : 0 < 2 ^ (K - 1) := Nat.pos_of_ne_zero (by simp)
  have := h.hL2
  have := h.hL
  rw [h.len]; omega

end BpTree

/-! ## Elias-Fano -/

omit [Profile] in
theorem appendBitsUnchecked_len {v v' : BV} {x : Word} {w : Nat} (h : v.appendBitsUnchecked x w = .ok v') :
    v'.len = v.len + w := by
  unfold BV.appendBitsUnchecked at h
  split at h
  · cases h; rfl
  · obtain ⟨_, _, h⟩ := bind_eq_ok.mp h
    obtain ⟨_, _, h⟩ := bind_eq_ok.mp h
    cases h; rfl

omit [Profile] in
theorem appendBitsUnchecked_wf {v v' : BV} {x : Word} {w : Nat} (h : v.appendBitsUnchecked x w = .ok v')
    (hwf : v.WF) (h1 : 1 ≤ w) (h64 : w ≤ 64) : v'.WF := by
  have hd : v.data.length = (v.len + 63) / 64 := hwf
  unfold BV.appendBitsUnchecked at h
  by_cases hm : v.len % 64 = 0
  · rw [if_pos hm] at h
    cases h
    show (v.data ++ [x]).length = (v.len + w + 63) / 64
    rw [List.length_append, hd, List.length_singleton]; omega
  · rw [if_neg hm] at h
    obtain ⟨y, _, h⟩ := bind_eq_ok.mp h
    obtain ⟨d, hs, h⟩ := bind_eq_ok.mp h
    have hl := setIdx_length hs
    cases h
    show (if _ then _ else _ : List Word).length = (v.len + w + 63) / 64
    split
    · rw [List.length_append, hl, hd, List.length_singleton]; omega
    · rw [hl, hd]; omega

theorem fillLoop_wf {z : Word} {w : Nat} (h1 : 1 ≤ w) (h64 : w ≤ 64) : ∀ {xs : List Word} {u l u' l' : BV} {i : Nat},
    EF.fillLoop z w u l i xs = .ok (u', l') → l.WF → l'.WF ∧ l'.len = l.len + xs.length * w
  | [], _, _, _, _, _, h, hl => by
    unfold EF.fillLoop at h; cases h; exact ⟨hl, by simp⟩
  | x :: xs, _, _, _, _, _, h, hl => by
    unfold EF.fillLoop at h
    obtain ⟨_, _, h⟩ := bind_eq_ok.mp h
    obtain ⟨_, _, h⟩ := bind_eq_ok.mp h
    obtain ⟨_, _, h⟩ := bind_eq_ok.mp h
    obtain ⟨_, _, h⟩ := bind_eq_ok.mp h
    obtain ⟨l2, hl2, h⟩ := bind_eq_ok.mp h
    obtain ⟨a, b⟩ := fillLoop_wf h1 h64 h (appendBitsUnchecked_wf hl2 hl h1 h64)
    refine ⟨a, ?_⟩
    rw [b, appendBitsUnchecked_len hl2, List.length_cons, Nat.add_mul]; omega

theorem fillLoop_zero {z : Word} : ∀ {xs : List Word} {u l u' l' : BV} {i : Nat},
    EF.fillLoop z 0 u l i xs = .ok (u', l') → l.len = 0 →
    l'.data.length = l.data.length + xs.length ∧ l'.len = 0
  | [], _, _, _, _, _, h, hl => by
    unfold EF.fillLoop at h; cases h; exact ⟨by simp, hl⟩
  | x :: xs, _, l, _, _, _, h, hl => by
    unfold EF.fillLoop at h
    obtain ⟨_, _, h⟩ := bind_eq_ok.mp h
    obtain ⟨_, _, h⟩ := bind_eq_ok.mp h
    obtain ⟨_, _, h⟩ := bind_eq_ok.mp h
    obtain ⟨_, _, h⟩ := bind_eq_ok.mp h
    obtain ⟨l2, hl2, h⟩ := bind_eq_ok.mp h
    have hz : l2.len = 0 := by rw [appendBitsUnchecked_len hl2, hl]
    obtain ⟨a, b⟩ := fillLoop_zero h hz
    refine ⟨?_, b⟩
    rw [a]
    unfold BV.appendBitsUnchecked at hl2
    rw [hl, if_pos (by rfl)] at hl2
    cases hl2
    simp; omega

theorem fillLoop_upper {z : Word} {w : Nat} : ∀ {xs : List Word} {u l u' l' : BV} {i : Nat},
    EF.fillLoop z w u l i xs = .ok (u', l') → u.WF → u'.WF ∧ u'.len = u.len
  | [], _, _, _, _, _, h, hu => by
    unfold EF.fillLoop at h; cases h; exact ⟨hu, rfl⟩
  | x :: xs, u, _, _, _, _, h, hu => by
    unfold EF.fillLoop at h
    obtain ⟨_, _, h⟩ := bind_eq_ok.mp h
    obtain ⟨_, _, h⟩ := bind_eq_ok.mp h
    obtain ⟨_, _, h⟩ := bind_eq_ok.mp h
    obtain ⟨u2, hu2, h⟩ := bind_eq_ok.mp h
    obtain ⟨l2, hl2, h⟩ := bind_eq_ok.mp h
    unfold BV.flipBitUnchecked at hu2
    have : u2.WF ∧ u2.len = u.len := by
      obtain ⟨_, _, hu2⟩ := bind_eq_ok.mp hu2
      obtain ⟨_, hs, hu2⟩ := bind_eq_ok.mp hu2
      have := setIdx_length hs
      cases hu2
      refine ⟨?_, rfl⟩
      show _ = _
      rw [this]; exact hu
    obtain ⟨a, b⟩ := fillLoop_upper h this.1
    exact ⟨a, b.trans this.2⟩

/-- What the construction of a non-empty vector leaves behind. -/
theorem fromSlice_parts {fl : Nat → Nat} (hfl : LogLike fl) {data : List Word} {ef : EF} (hne : data ≠ [])
    (h : EF.fromSlice fl data = .ok ef) (hs : Sorted data) (hl : data.length < 2 ^ 60) :
    ∃ w u, Nat.max (fl (Nat.max (efD data (data.length - 1)) 2)) (fl (data.length + 2)) =
        w + fl (Nat.max data.length 2) ∧ w < 64 ∧ ef.lowerLen = w ∧ u.WF ∧
      u.len = 2 + data.length + efD data (data.length - 1) / 2 ^ w ∧ RsVec.fromBitVec u = .ok ef.upper ∧
      (1 ≤ w → ef.lower.WF ∧ ef.lower.len = data.length * w) ∧ (w = 0 → ef.lower.data.length = data.length ∧ ef.lower.len = 0) ∧
      2 + data.length + efD data (data.length - 1) / 2 ^ w < 2 ^ 64 ∧ data.length * w < 2 ^ 64 := by
  have hn : 0 < data.length := List.length_pos_iff.mpr hne
  unfold EF.fromSlice at h
  rw [if_neg hne] at h
  unfold EF.fromNonEmpty at h
  obtain ⟨_, _, h⟩ := bind_eq_ok.mp h
  rw [idx_of_lt hn, ok_bind, idx_of_lt (show data.length - 1 < data.length by omega), ok_bind] at h
  have hD := efD_add hs (show data.length - 1 < data.length by omega)
  obtain ⟨b, b1, b2⟩ := subW_of_le (a := data[data.length - 1]) (b := data[0]) (by omega)
  rw [b1, ok_bind] at h
  have b3 : b.toNat = efD data (data.length - 1) := by omega
  obtain ⟨w, w1, h⟩ := bind_eq_ok.mp h
  obtain ⟨_, w2, h⟩ := bind_eq_ok.mp h
  obtain ⟨m, m1, h⟩ := bind_eq_ok.mp h
  obtain ⟨_, _, h⟩ := bind_eq_ok.mp h
  obtain ⟨ul, f1, h⟩ := bind_eq_ok.mp h
  obtain ⟨rs, r1, h⟩ := bind_eq_ok.mp h
  cases h
  have w3 := WM.assertR_ok w2
  have hw : Nat.max (fl (Nat.max (efD data (data.length - 1)) 2)) (fl (data.length + 2)) =
      w + fl (Nat.max data.length 2) := by
    have hm : fl (Nat.max data.length 2) ≤ fl (data.length + 2) :=
      hfl.step _ (by have := List.length_pos_iff.mpr hne; omega) (by omega)
    have hle := Nat.le_trans hm (Nat.le_max_right (fl (Nat.max (efD data (data.length - 1)) 2)) (fl (data.length + 2)))
    rw [b3, subR_of_le hle] at w1
    cases w1
    exact (Nat.sub_add_cancel hle).symm
  have hb : efD data (data.length - 1) < 2 ^ 64 := by rw [← b3]; exact b.isLt
  have s1 : fl (Nat.max (efD data (data.length - 1)) 2) ≤ w + fl (Nat.max data.length 2) := by
    rw [← hw]; exact Nat.le_max_left _ _
  have s2 : w + fl (Nat.max data.length 2) ≤ 64 := by
    rw [← hw]
    exact Nat.max_le.mpr ⟨hfl.le _ (Nat.max_lt.mpr ⟨hb, by omega⟩), hfl.le _ (by omega)⟩
  rw [shr_toNat, b3, addU_of_lt (hfl.sizes hl hb s1 s2).1] at m1
  cases m1
  obtain ⟨u1, u2⟩ := fillLoop_upper (u' := ul.1) (l' := ul.2) f1 (BV.wf_fromZeros _)
  refine ⟨w, ul.1, ?_, w3, rfl, u1, ?_, r1, ?_, ?_, hfl.sizes hl hb s1 s2⟩
  · exact hw
  · rw [u2]; rfl
  · intro hw
    have := fillLoop_wf (u' := ul.1) (l' := ul.2) hw (by omega) f1 (by rfl)
    simpa [BV.new] using this
  · intro hw
    subst hw
    have := fillLoop_zero (u' := ul.1) (l' := ul.2) f1 rfl
    simpa [BV.new] using this

end Vers
