import Verif.Proofs.Subtree
import Verif.Props.TreeLaws
import Verif.Props.Monotone

/-! # C92: answers about a part of the data are the answers of a structure for this part alone -/

namespace Vers

open Spec BpTree Lookup

variable [Profile]

/-- Specification: the answer `r` for a structure that begins at position `i` of a greater one. -/
def placed (i : Nat) (r : R (Option Nat)) : R (Option Nat) := do
  let o ← r
  pure (o.map (i + ·))

/-- C92: the tree of a node `i` alone (the `2 * z` parentheses from `i` on, where `z` is the size of its subtree), with a block
size of its own, answers about its nodes as the whole tree. The depth is counted from `i`, and the root of the subtree has no
siblings. -/
theorem C92_subtree {v : BV} (hw : v.WF) (hb : Balanced v.bits) {bs : Nat} (hbs : 0 < bs)
    (hl : v.len ≤ 9223372036854775806) :
    ∃ t, BpTree.fromBitVector bs v = .ok t ∧ ∀ (k : Variant) (i : Nat), v.bits[i]? = some true →
      ∃ z d, t.subtreeSize bs k i = .ok (some z) ∧ t.depth i = .ok d ∧
        ∀ w : BV, w.WF → w.bits = (v.bits.drop i).take (2 * z) → ∀ bs', 0 < bs' →
          ∃ u, BpTree.fromBitVector bs' w = .ok u ∧ w.len = 2 * z ∧ ∀ (k' : Variant) (j : Nat), w.bits[j]? = some true →
            v.bits[i + j]? = some true ∧
            t.firstChild (i + j) = placed i (u.firstChild j) ∧
            t.isLeaf (i + j) = u.isLeaf j ∧
            t.subtreeSize bs k (i + j) = u.subtreeSize bs' k' j ∧
            (∃ e, u.depth j = .ok e ∧ t.depth (i + j) = .ok (d + e)) ∧
            (u.nextSibling bs' k' 0 = .ok none) ∧
            (j ≠ 0 → t.nextSibling bs k (i + j) = placed i (u.nextSibling bs' k' j)) ∧
            ∀ l, w.bits[l]? = some true → t.isAncestor bs k (i + j) (i + l) = u.isAncestor bs' k' j l := by
  obtain ⟨f, hf⟩ := (balanced_iff _).mp hb
  replace hf := hf.symm
  obtain ⟨t, h1, -, -, h2⟩ := C42_forward hw hf hbs hl
  obtain ⟨t', h1', h3⟩ := C43_forward_partial hw hf hbs hl
  cases h1.symm.trans h1'
  obtain ⟨t', h1', h4⟩ := C44_subtree hw hf hbs hl
  cases h1.symm.trans h1'
  refine ⟨t, h1, fun k i hi => ?_⟩
  obtain ⟨n, hn, rfl⟩ := exists_node (hf ▸ hi)
  refine ⟨n.size, n.ancestors.length, (h4 k n hn).1, (h3 k).1 n hn, fun w ww hwb bs' hbs' => ?_⟩
  obtain ⟨c, c1, c2, c3⟩ := subtree_node hn
  rw [hf, c2] at hwb
  have wl : w.len = 2 * n.size := by
    rw [← BV.length_bits w, hwb, length_parens]
    simp only [Forest.size]; omega
  have wv : w.len ≤ v.len := by
    have := congrArg List.length c2
    rw [List.length_take, List.length_drop, length_parens, length_parens, ← length_parens f, ← hf, BV.length_bits] at this
    simp only [Forest.size] at this
    omega
  obtain ⟨u, g1, -, -, g2⟩ := C42_forward ww hwb hbs' (by omega)
  obtain ⟨u', g1', g3⟩ := C43_forward_partial ww hwb hbs' (by omega)
  cases g1.symm.trans g1'
  obtain ⟨u', g1', g4⟩ := C44_subtree ww hwb hbs' (by omega)
  cases g1.symm.trans g1'
  refine ⟨u, g1, wl, fun k' j hj => ?_⟩
  obtain ⟨m, hm, rfl⟩ := exists_node (hwb ▸ hj)
  obtain ⟨m', q1, q2, q3, q4, q5, q6⟩ := c3 m hm
  obtain ⟨fc, lf, ns, -⟩ := h2 k m' q1
  obtain ⟨fc', lf', ns', -⟩ := g2 k' m hm
  rw [← q2]
  refine ⟨?_, ?_, ?_, ?_, ⟨_, (g3 k').1 m hm, ?_⟩, ?_, fun h0 => ?_, fun l hlb => ?_⟩
  · obtain ⟨_, _, _, _, ha⟩ := around_of hf q1
    exact ha.open_bit
  · rw [fc, fc', q5, List.head?_map]; rfl
  · rw [lf, lf', q5]; simp
  · rw [(h4 k m' q1).1, (g4 k' m hm).1, q3]
  · rw [(h3 k).1 m' q1, q4]; simp; omega
  · have := (g2 k' _ (List.mem_cons_self : _ ∈ nodes (.cons c .nil))).2.2.1
    simpa [roots] using this
  · rw [ns, ns', (q6 h0).2.2, List.head?_map]; rfl
  · obtain ⟨d, hd, rfl⟩ := exists_node (hwb ▸ hlb)
    obtain ⟨d', r1, r2, r3, r4, -⟩ := c3 d hd
    rw [← r2, (h4 k m' q1).2 d' r1, (g4 k' m hm).2 d hd, q2, r2, r4]
    have lo : ∀ x ∈ n.ancestors, x < n.handle := ancestors_lt f [] [] 0 (by simp) n hn
    congr 2
    rw [decide_eq_decide]
    simp only [Nat.add_left_cancel_iff, List.mem_append, List.mem_map]
    constructor
    · rintro (h | ⟨x, x1, x2⟩ | h)
      · exact .inl h
      · exact .inr (x2 ▸ x1)
      · have := lo _ h; omega
    · rintro (h | h)
      · exact .inl h
      · exact .inr (.inl ⟨_, h, rfl⟩)

/-- The second tree of `()(()())`. -/
example : ∃ v : BV, v.WF ∧ Balanced v.bits ∧ 0 < 512 ∧ v.bits[2]? = some true ∧
    (⟨[0b001011#64], 6⟩ : BV).bits = (v.bits.drop 2).take (2 * 3) :=
  ⟨⟨[0b00101101#64], 8⟩, by decide, (C41_balanced_iff_forest _).mpr ⟨.cons .nil (.cons (.cons .nil (.cons .nil .nil)) .nil), by decide⟩,
    by decide, by decide, by decide⟩

/-- C92: the same for the functions that search backwards. Partial: the block sizes for which this search is right
(`C42_block_size_iff`). -/
theorem C92_subtree_backward_partial {v : BV} (hw : v.WF) (hb : Balanced v.bits) {bs : Nat} (hbs : 0 < bs)
    (hl : v.len ≤ 9223372036854775805) :
    ∃ t, BpTree.fromBitVector bs v = .ok t ∧ ∀ (k : Variant), (k.size ∣ bs ∨ bs ∣ k.size) → ∀ i, v.bits[i]? = some true →
      ∃ z, t.subtreeSize bs k i = .ok (some z) ∧
        ∀ w : BV, w.WF → w.bits = (v.bits.drop i).take (2 * z) → ∀ bs', 0 < bs' →
          ∃ u, BpTree.fromBitVector bs' w = .ok u ∧ ∀ (k' : Variant), (k'.size ∣ bs' ∨ bs' ∣ k'.size) →
            u.parent bs' k' 0 = .ok none ∧ u.previousSibling bs' k' 0 = .ok none ∧
            ∀ j, w.bits[j]? = some true →
              t.lastChild bs k (i + j) = placed i (u.lastChild bs' k' j) ∧
              (j ≠ 0 → t.parent bs k (i + j) = placed i (u.parent bs' k' j) ∧
                t.previousSibling bs k (i + j) = placed i (u.previousSibling bs' k' j)) := by
  obtain ⟨f, hf⟩ := (balanced_iff _).mp hb
  replace hf := hf.symm
  obtain ⟨t, h1, h2⟩ := C42_backward_partial hw hf hbs hl
  obtain ⟨t', h1', h4⟩ := C44_subtree hw hf hbs (by omega)
  cases h1.symm.trans h1'
  refine ⟨t, h1, fun k hfit i hi => ?_⟩
  obtain ⟨n, hn, rfl⟩ := exists_node (hf ▸ hi)
  refine ⟨n.size, (h4 k n hn).1, fun w ww hwb bs' hbs' => ?_⟩
  obtain ⟨c, c1, c2, c3⟩ := subtree_node hn
  rw [hf, c2] at hwb
  have wv : w.len ≤ v.len := by
    have := congrArg List.length c2
    rw [List.length_take, List.length_drop, length_parens, ← length_parens f, ← hf, BV.length_bits] at this
    have hwl : w.len = 2 * (Forest.cons c .nil).size := by rw [← BV.length_bits w, hwb, length_parens]
    simp only [length_parens] at this
    omega
  obtain ⟨u, g1, g2⟩ := C42_backward_partial ww hwb hbs' (by omega)
  refine ⟨u, g1, fun k' hfit' => ?_⟩
  obtain ⟨r1, r2, -⟩ := g2 k' hfit' _ (List.mem_cons_self : _ ∈ nodes (.cons c .nil))
  refine ⟨r1, r2, fun j hj => ?_⟩
  obtain ⟨m, hm, rfl⟩ := exists_node (hwb ▸ hj)
  obtain ⟨m', q1, q2, q3, q4, q5, q6⟩ := c3 m hm
  obtain ⟨pa, ps, lc, -⟩ := h2 k hfit m' q1
  obtain ⟨pa', ps', lc', -⟩ := g2 k' hfit' m hm
  rw [← q2]
  refine ⟨?_, fun h0 => ⟨?_, ?_⟩⟩
  · rw [lc, lc', q5, List.getLast?_map]; rfl
  · rw [pa, pa', q4]
    obtain ⟨h, -⟩ := q6 h0
    cases ha : m.ancestors with
    | nil => exact absurd ha h
    | cons x r => rfl
  · rw [ps, ps', (q6 h0).2.1, List.head?_map]; rfl

example : (Variant.u8.size ∣ 512 ∨ 512 ∣ Variant.u8.size) ∧ (⟨[0b00101101#64], 8⟩ : BV).WF := by decide

/-- C92: the tree of two balanced sequences one after the other answers about the nodes of the first one as its tree does, up
to the next sibling of its last root, and about the nodes of the second one as its tree does, shifted. -/
theorem C92_forest_append {v o : BV} (hv : v.WF) (ho : o.WF) (bv : Balanced v.bits) (bo : Balanced o.bits) {bs bs' bs'' : Nat}
    (h0 : 0 < bs) (h0' : 0 < bs') (h0'' : 0 < bs'') (hl : v.len + o.len ≤ 9223372036854775806) :
    ∃ a w t u, v.extendBitvec o = .ok a ∧ BpTree.fromBitVector bs a = .ok w ∧ BpTree.fromBitVector bs' v = .ok t ∧
      BpTree.fromBitVector bs'' o = .ok u ∧ ∀ k k' k'' : Variant,
        (∀ i, v.bits[i]? = some true → w.firstChild i = t.firstChild i ∧ w.isLeaf i = t.isLeaf i ∧
          w.depth i = t.depth i ∧ w.subtreeSize bs k i = t.subtreeSize bs' k' i ∧
          ∀ s, t.nextSibling bs' k' i = .ok (some s) → w.nextSibling bs k i = .ok (some s)) ∧
        ∀ i, o.bits[i]? = some true → w.firstChild (v.len + i) = placed v.len (u.firstChild i) ∧
          w.isLeaf (v.len + i) = u.isLeaf i ∧ w.depth (v.len + i) = u.depth i ∧
          w.subtreeSize bs k (v.len + i) = u.subtreeSize bs'' k'' i ∧
          w.nextSibling bs k (v.len + i) = placed v.len (u.nextSibling bs'' k'' i) := by
  obtain ⟨a, a1, a2, a3⟩ := C06_extend_bitvec hv ho
  have al : a.len = v.len + o.len := by
    rw [← BV.length_bits a, a3, List.length_append, BV.length_bits, BV.length_bits]
  obtain ⟨f, hf⟩ := (balanced_iff _).mp bv
  replace hf := hf.symm
  obtain ⟨g, hg⟩ := (balanced_iff _).mp bo
  replace hg := hg.symm
  have hj : a.bits = parens (Forest.join g f) := by rw [a3, hf, hg, parens_join]
  have vl : v.len = 2 * f.size := by rw [← BV.length_bits v, hf, length_parens]
  have tree : ∀ {x : BV} {f : Forest} {b : Nat}, x.WF → x.bits = parens f → 0 < b → x.len ≤ 9223372036854775806 →
      ∃ t, BpTree.fromBitVector b x = .ok t ∧ ∀ k, ∀ n ∈ nodes f, t.firstChild n.handle = .ok n.children.head? ∧
        t.isLeaf n.handle = .ok (decide (n.children = [])) ∧ t.nextSibling b k n.handle = .ok n.after.head? ∧
        t.depth n.handle = .ok n.ancestors.length ∧ t.subtreeSize b k n.handle = .ok (some n.size) := by
    intro x f b hx hf hb hl
    obtain ⟨t, h1, -, -, h2⟩ := C42_forward hx hf hb hl
    obtain ⟨t', h1', h3⟩ := C43_forward_partial hx hf hb hl
    cases h1.symm.trans h1'
    obtain ⟨t', h1', h4⟩ := C44_subtree hx hf hb hl
    cases h1.symm.trans h1'
    refine ⟨t, h1, fun k n hn => ?_⟩
    obtain ⟨fc, lf, ns, -⟩ := h2 k n hn
    exact ⟨fc, lf, ns, (h3 k).1 n hn, (h4 k n hn).1⟩
  obtain ⟨w, w1, w2⟩ := tree a2 hj h0 (by omega)
  obtain ⟨t, t1, t2⟩ := tree hv hf h0' (by omega)
  obtain ⟨u, u1, u2⟩ := tree ho hg h0'' (by omega)
  refine ⟨a, w, t, u, a1, w1, t1, u1, fun k k' k'' => ⟨fun i hi => ?_, fun i hi => ?_⟩⟩
  · obtain ⟨n, hn, rfl⟩ := exists_node (hf ▸ hi)
    obtain ⟨X, hX⟩ := join_first g f [] [] 0 n hn
    obtain ⟨c1, c2, c3, c4, c5⟩ := w2 k _ hX
    obtain ⟨d1, d2, d3, d4, d5⟩ := t2 k' n hn
    dsimp only at c1 c2 c3 c4 c5
    refine ⟨c1.trans d1.symm, c2.trans d2.symm, c4.trans d4.symm, c5.trans d5.symm, fun s hs => ?_⟩
    rw [d3] at hs
    rw [c3]
    have hs := Except.ok.inj hs
    cases ha : n.after with
    | nil => rw [ha] at hs; cases hs
    | cons y r => rw [ha] at hs; exact congrArg Except.ok hs
  · obtain ⟨n, hn, rfl⟩ := exists_node (hg ▸ hi)
    obtain ⟨Y, hY⟩ := join_second g f n hn
    obtain ⟨c1, c2, c3, c4, c5⟩ := w2 k _ hY
    obtain ⟨d1, d2, d3, d4, d5⟩ := u2 k'' n hn
    dsimp only [Node.shift] at c1 c2 c3 c4 c5
    rw [vl]
    refine ⟨?_, ?_, ?_, c5.trans d5.symm, ?_⟩
    · rw [c1, d1, List.head?_map]; rfl
    · rw [c2, d2]; simp
    · rw [c4, d4]; simp
    · rw [c3, d3, List.head?_map]; rfl

/-- The sequences `()` and `(()())`. -/
example := C92_forest_append (v := ⟨[0b01#64], 2⟩) (o := ⟨[0b001011#64], 6⟩) (by decide) (by decide)
  ((C41_balanced_iff_forest _).mpr ⟨.cons .nil .nil, by decide⟩)
  ((C41_balanced_iff_forest _).mpr ⟨.cons (.cons .nil (.cons .nil .nil)) .nil, by decide⟩)
  (bs := 512) (bs' := 8) (bs'' := 64) (by decide) (by decide) (by decide) (by decide)

/-- C92: the same for `parent` and `last_child`. Partial: the block sizes for which the search backwards is right
(`C42_block_size_iff`). -/
theorem C92_forest_append_backward_partial {v o : BV} (hv : v.WF) (ho : o.WF) (bv : Balanced v.bits) (bo : Balanced o.bits)
    {bs bs' bs'' : Nat} (h0 : 0 < bs) (h0' : 0 < bs') (h0'' : 0 < bs'') (hl : v.len + o.len ≤ 9223372036854775805) :
    ∃ a w t u, v.extendBitvec o = .ok a ∧ BpTree.fromBitVector bs a = .ok w ∧ BpTree.fromBitVector bs' v = .ok t ∧
      BpTree.fromBitVector bs'' o = .ok u ∧ ∀ k k' k'' : Variant, (k.size ∣ bs ∨ bs ∣ k.size) →
        (k'.size ∣ bs' ∨ bs' ∣ k'.size) → (k''.size ∣ bs'' ∨ bs'' ∣ k''.size) →
        (∀ i, v.bits[i]? = some true → w.parent bs k i = t.parent bs' k' i ∧ w.lastChild bs k i = t.lastChild bs' k' i ∧
          w.previousSibling bs k i = t.previousSibling bs' k' i) ∧
        ∀ i, o.bits[i]? = some true → w.parent bs k (v.len + i) = placed v.len (u.parent bs'' k'' i) ∧
          w.lastChild bs k (v.len + i) = placed v.len (u.lastChild bs'' k'' i) := by
  obtain ⟨a, a1, a2, a3⟩ := C06_extend_bitvec hv ho
  have al : a.len = v.len + o.len := by
    rw [← BV.length_bits a, a3, List.length_append, BV.length_bits, BV.length_bits]
  obtain ⟨f, hf⟩ := (balanced_iff _).mp bv
  replace hf := hf.symm
  obtain ⟨g, hg⟩ := (balanced_iff _).mp bo
  replace hg := hg.symm
  have hj : a.bits = parens (Forest.join g f) := by rw [a3, hf, hg, parens_join]
  have vl : v.len = 2 * f.size := by rw [← BV.length_bits v, hf, length_parens]
  obtain ⟨w, w1, w2⟩ := C42_backward_partial a2 hj h0 (by omega)
  obtain ⟨t, t1, t2⟩ := C42_backward_partial hv hf h0' (by omega)
  obtain ⟨u, u1, u2⟩ := C42_backward_partial ho hg h0'' (by omega)
  refine ⟨a, w, t, u, a1, w1, t1, u1, fun k k' k'' e e' e'' => ⟨fun i hi => ?_, fun i hi => ?_⟩⟩
  · obtain ⟨n, hn, rfl⟩ := exists_node (hf ▸ hi)
    obtain ⟨X, hX⟩ := join_first g f [] [] 0 n hn
    obtain ⟨c1, c2, c3, -⟩ := w2 k e _ hX
    obtain ⟨d1, d2, d3, -⟩ := t2 k' e' n hn
    exact ⟨c1.trans d1.symm, c3.trans d3.symm, c2.trans d2.symm⟩
  · obtain ⟨n, hn, rfl⟩ := exists_node (hg ▸ hi)
    obtain ⟨Y, hY⟩ := join_second g f n hn
    obtain ⟨c1, c2, c3, -⟩ := w2 k e _ hY
    obtain ⟨d1, d2, d3, -⟩ := u2 k'' e'' n hn
    dsimp only [Node.shift] at c1 c2 c3
    rw [vl]
    refine ⟨?_, ?_⟩
    · rw [c1, d1, List.append_nil, List.head?_map]; rfl
    · rw [c3, d3, List.getLast?_map]; rfl

/-- The sequences `()` and `(()())`. -/
example := C92_forest_append_backward_partial (v := ⟨[0b01#64], 2⟩) (o := ⟨[0b001011#64], 6⟩) (by decide) (by decide)
  ((C41_balanced_iff_forest _).mpr ⟨.cons .nil .nil, by decide⟩)
  ((C41_balanced_iff_forest _).mpr ⟨.cons (.cons .nil (.cons .nil .nil)) .nil, by decide⟩)
  (bs := 512) (bs' := 8) (bs'' := 64) (by decide) (by decide) (by decide) (by decide)

/-- C92: bits that are appended do not change the answers about the earlier ones, and ranks behind them are counted from
there. -/
theorem C92_prefix {v o : BV} (h : v.WF) (ho : o.WF) :
    ∃ rs ro a ra, RsVec.fromBitVec v = .ok rs ∧ RsVec.fromBitVec o = .ok ro ∧ v.extendBitvec o = .ok a ∧
      RsVec.fromBitVec a = .ok ra ∧ ∀ zero,
        (∀ i, i ≤ v.len → ra.rank zero i = rs.rank zero i) ∧
        (∀ j, ∃ x y, rs.rank zero v.len = .ok x ∧ ro.rank zero j = .ok y ∧ ra.rank zero (v.len + j) = .ok (x + y)) ∧
        (∀ k p, rs.select zero k = .ok p → p < v.len → ra.select zero k = .ok p) ∧
        ∀ k p n, rs.rank zero v.len = .ok n → ro.select zero k = .ok p → ra.select zero (n + k) = .ok (v.len + p) := by
  obtain ⟨a, a1, a2, a3⟩ := C06_extend_bitvec h ho
  have rk : ∀ {x : BV}, x.WF → ∃ r, RsVec.fromBitVec x = .ok r ∧ (∀ zero i, r.rank zero i = .ok (rank (!zero) x.bits i)) ∧
      ∀ zero k, (k < x.bits.count (!zero) → ∃ p, r.select zero k = .ok p ∧ IsSelect (!zero) x.bits k p) ∧
      (x.bits.count (!zero) ≤ k → r.select zero k = .ok x.len) := by
    intro x hx
    obtain ⟨r, h1, h2⟩ := C13_rank_partial hx
    obtain ⟨r', h1', h3⟩ := C14_select_partial hx
    cases h1.symm.trans h1'
    refine ⟨r, h1, fun zero i => ?_, h3⟩
    cases zero
    · exact (h2 i).2
    · exact (h2 i).1
  obtain ⟨rs, s1, s2, s3⟩ := rk h
  obtain ⟨ro, o1, o2, o3⟩ := rk ho
  obtain ⟨ra, r1, r2, r3⟩ := rk a2
  have al : a.len = v.len + o.len := by
    rw [← BV.length_bits a, a3, List.length_append, BV.length_bits, BV.length_bits]
  have sel : ∀ {zero k p}, IsSelect (!zero) a.bits k p → ra.select zero k = .ok p := by
    intro zero k p hp
    have hk : k < a.bits.count (!zero) := by
      have := (select_lt_iff hp (p := a.bits.length)).mp (List.getElem?_eq_some_iff.mp hp.1).1
      unfold rank at this
      rwa [List.take_length] at this
    obtain ⟨q, q1, q2⟩ := (r3 zero k).1 hk
    rw [q1, C14_select_unique q2 hp]
  have take : ∀ j, a.bits.take (v.len + j) = v.bits ++ o.bits.take j := by
    intro j
    rw [a3, ← BV.length_bits v, List.take_length_add_append]
  refine ⟨rs, ro, a, ra, s1, o1, a1, r1, fun zero => ⟨fun i hi => ?_, fun j => ⟨_, _, s2 _ _, o2 _ _, ?_⟩, fun k p hk hp => ?_,
    fun k p n hn hk => ?_⟩⟩
  · rw [r2, s2, a3]
    unfold rank
    rw [List.take_append_of_le_length (by rw [BV.length_bits]; exact hi)]
  · rw [r2]
    unfold rank
    rw [take, List.count_append, ← BV.length_bits v, List.take_length]
  · by_cases hc : k < v.bits.count (!zero)
    · obtain ⟨q, q1, q2, q3⟩ := (s3 zero k).1 hc
      rw [q1] at hk
      cases Except.ok.inj hk
      refine sel ⟨?_, ?_⟩
      · rw [a3, List.getElem?_append_left (by rw [BV.length_bits]; exact hp), q2]
      · rw [a3, List.take_append_of_le_length (by rw [BV.length_bits]; omega), q3]
    · rw [(s3 zero k).2 (by omega)] at hk
      cases Except.ok.inj hk
      omega
  · rw [s2] at hn
    have hn := Except.ok.inj hn
    unfold rank at hn
    rw [← BV.length_bits v, List.take_length] at hn
    by_cases hc : k < o.bits.count (!zero)
    · obtain ⟨q, q1, q2, q3⟩ := (o3 zero k).1 hc
      rw [q1] at hk
      cases Except.ok.inj hk
      refine sel ⟨?_, ?_⟩
      · rw [a3, List.getElem?_append_right (by rw [BV.length_bits]; omega), BV.length_bits, Nat.add_sub_cancel_left, q2]
      · rw [take, List.count_append, q3, hn]
    · rw [(o3 zero k).2 (by omega)] at hk
      cases Except.ok.inj hk
      rw [← al]
      refine (r3 zero (n + k)).2 ?_
      rw [a3, List.count_append]
      omega

example := C92_prefix (v := (BV.fromOnes 70).dropLast 3) (o := BV.fromZeros 130) (by decide) (by decide)

open WM

/-- C92: a query for a range of a wavelet matrix is answered as the query for everything by the matrix `m'` of the elements in
this range. -/
theorem C92_wavelet {seq : List Word} {k : Nat} (hk : 1 ≤ k) (hk' : k ≤ 64) {s e : Nat} (hse : s < e) (he : e ≤ seq.length) :
    ∃ m m', WM.fromSlice seq k = .ok m ∧ WM.fromSlice ((seq.take e).drop s) k = .ok m' ∧ m'.len = e - s ∧
      (∀ i, i < e - s → m.getU64 (s + i) = m'.getU64 i) ∧
      (∀ w, m.rankRangeU64 s e w = m'.rankU64 (e - s) w) ∧
      (∀ i, m.quantileU64 s e i = m'.getSortedU64 i) ∧
      m.rangeMinU64 s e = m'.rangeMinU64 0 (e - s) ∧ m.rangeMaxU64 s e = m'.rangeMaxU64 0 (e - s) ∧
      m.rangeMedianU64 s e = m'.rangeMedianU64 0 (e - s) ∧
      ∀ w, m.predecessorU64 s e w = m'.predecessorU64 0 (e - s) w ∧ m.successorU64 s e w = m'.successorU64 0 (e - s) w := by
  obtain ⟨m, m1, m2⟩ := C31_from_slice hk hk' seq
  obtain ⟨m', p1, p2⟩ := C31_from_slice hk hk' ((seq.take e).drop s)
  have e1 : ((seq.take e).drop s).map (fun w : Word => w.toNat % 2 ^ k) =
      between (seq.map (fun w : Word => w.toNat % 2 ^ k)) s e := by
    unfold between
    rw [List.map_drop, List.map_take]
  rw [e1] at p2
  generalize hvals : seq.map (fun w : Word => w.toNat % 2 ^ k) = vals at *
  have hvl : vals.length = seq.length := by rw [← hvals, List.length_map]
  have hb : (between vals s e).length = e - s := between_length (by omega)
  have all : between (between vals s e) 0 (e - s) = between vals s e := by
    show ((between vals s e).take (e - s)).drop 0 = _
    rw [List.drop_zero, List.take_of_length_le (by omega)]
  have a1 := C31_access m2
  have a2 := C31_access p2
  refine ⟨m, m', m1, p1, by rw [a2.1, hb], fun i hi => ?_, fun w => ?_, fun i => ?_, ?_, ?_, ?_, fun w => ⟨?_, ?_⟩⟩
  · refine resU64_unique (a1.2.2.2.2.2.1 hk' (s + i)) ?_
    have := a2.2.2.2.2.2.1 hk' i
    rwa [show (between vals s e)[i]? = vals[s + i]? by
      unfold between
      rw [List.getElem?_drop, List.getElem?_take_of_lt (by omega)]] at this
  · rw [((C33_rank_u64 m2 w).1 hk' s e (by omega) (by omega) (by omega)).1, (C33_rank_u64 p2 w).2.1 hk' (e - s) (by omega),
      List.take_of_length_le (by omega)]
  · have q := ((C35_quantile_partial m2 (s := s) (e := e) (by omega)).2.2 hk').1 i
    rw [if_pos (by omega)] at q
    exact resU64_unique q ((C35_get_sorted p2 i).2 hk')
  · have q := ((C35_quantile_partial m2 (s := s) (e := e) (by omega)).2.2 hk').2
    have q' := ((C35_quantile_partial p2 (s := 0) (e := e - s) (by omega)).2.2 hk').2
    rw [if_pos (by omega)] at q q'
    rw [all] at q'
    exact resU64_unique q q'
  · have q := ((C35_max_median m2 s e).2.2 hk').1
    have q' := ((C35_max_median p2 0 (e - s)).2.2 hk').1
    rw [if_pos (by omega)] at q q'
    rw [all] at q'
    exact resU64_unique q q'
  · have q := ((C35_max_median m2 s e).2.2 hk').2
    have q' := ((C35_max_median p2 0 (e - s)).2.2 hk').2
    rw [if_pos (by omega)] at q q'
    rw [all, Nat.sub_zero] at q'
    exact resU64_unique q q'
  · have q := ((C36_neighbours m2 s e).2.2.1 hk' w).1
    have q' := ((C36_neighbours p2 0 (e - s)).2.2.1 hk' w).1
    rw [if_pos (by omega)] at q q'
    rw [all] at q'
    exact resU64_unique q q'
  · have q := ((C36_neighbours m2 s e).2.2.1 hk' w).2
    have q' := ((C36_neighbours p2 0 (e - s)).2.2.1 hk' w).2
    rw [if_pos (by omega)] at q q'
    rw [all] at q'
    exact resU64_unique q q'

example := C92_wavelet (seq := [5#64, 1#64, 7#64, 1#64, 4#64]) (k := 3) (by decide) (by decide) (s := 1) (e := 4)
  (by decide) (by decide)

/-- C92: the same for elements of any width and for the functions that take and return bit vectors. The two matrices may come
from different constructors. -/
theorem C92_wavelet_wide {m m' : WM} {k s e : Nat} {vals : List Nat} (h : Built m k vals) (h' : Built m' k (between vals s e))
    (hse : s < e) (he : e ≤ vals.length) :
    m'.len = e - s ∧ (∀ i, i < e - s → SameResult (m.getValue (s + i)) (m'.getValue i)) ∧
    (∀ t : BV, t.WF → t.len = k → m.rankRange s e t = m'.rank (e - s) t) ∧
    (∀ i, SameResult (m.quantile s e i) (m'.getSorted i)) ∧
    SameResult (m.rangeMin s e) (m'.rangeMin 0 (e - s)) ∧ SameResult (m.rangeMax s e) (m'.rangeMax 0 (e - s)) ∧
    SameResult (m.rangeMedian s e) (m'.rangeMedian 0 (e - s)) ∧
    ∀ t : BV, t.WF → t.len = k → SameResult (m.predecessor s e t) (m'.predecessor 0 (e - s) t) ∧
      SameResult (m.successor s e t) (m'.successor 0 (e - s) t) := by
  have hb : (between vals s e).length = e - s := between_length (by omega)
  have all : between (between vals s e) 0 (e - s) = between vals s e := by
    show ((between vals s e).take (e - s)).drop 0 = _
    rw [List.drop_zero, List.take_of_length_le (by omega)]
  have a1 := C31_access h
  have a2 := C31_access h'
  refine ⟨by rw [a2.1, hb], fun i hi => ?_, fun t ht hl => ?_, fun i => ?_, ?_, ?_, ?_, fun t ht hl => ⟨?_, ?_⟩⟩
  · refine resBV_same (a1.2.2.2.2.1 (s + i)) ?_
    have := a2.2.2.2.2.1 i
    rwa [show (between vals s e)[i]? = vals[s + i]? by
      unfold between
      rw [List.getElem?_drop, List.getElem?_take_of_lt (by omega)]] at this
  · rw [((C33_rank h ht).1 hl s e (by omega) (by omega) (by omega)).1, (C33_rank h' ht).2.1 hl (e - s) (by omega),
      List.take_of_length_le (by omega)]
  · have q := (C35_quantile_partial h (s := s) (e := e) (by omega)).1 i
    rw [if_pos (by omega)] at q
    exact resBV_same q (C35_get_sorted h' i).1
  · have q := (C35_quantile_partial h (s := s) (e := e) (by omega)).2.1
    have q' := (C35_quantile_partial h' (s := 0) (e := e - s) (by omega)).2.1
    rw [if_pos (by omega)] at q q'
    rw [all] at q'
    exact resBV_same q q'
  · have q := (C35_max_median h s e).1
    have q' := (C35_max_median h' 0 (e - s)).1
    rw [if_pos (by omega)] at q q'
    rw [all] at q'
    exact resBV_same q q'
  · have q := (C35_max_median h s e).2.1
    have q' := (C35_max_median h' 0 (e - s)).2.1
    rw [if_pos (by omega)] at q q'
    rw [all, Nat.sub_zero] at q'
    exact resBV_same q q'
  · have q := ((C36_neighbours h s e).1 t ht hl).1
    have q' := ((C36_neighbours h' 0 (e - s)).1 t ht hl).1
    rw [if_pos (by omega)] at q q'
    rw [all] at q'
    exact resBV_same q q'
  · have q := ((C36_neighbours h s e).1 t ht hl).2
    have q' := ((C36_neighbours h' 0 (e - s)).1 t ht hl).2
    rw [if_pos (by omega)] at q q'
    rw [all] at q'
    exact resBV_same q q'

/-- The last two of three elements of 4 bits, the first matrix from a bit vector and the second from a slice. -/
example : ∃ m m', WM.fromBitVec ⟨[0x315#64], 12⟩ 4 = .ok m ∧ WM.fromSlice [1#64, 3#64] 4 = .ok m' ∧
    SameResult (m.rangeMax 1 3) (m'.rangeMax 0 2) := by
  obtain ⟨m, m1, m2⟩ := C31_from_bit_vec (k := 4) (by decide) (v := ⟨[0x315#64], 12⟩) (by decide) (by decide)
  obtain ⟨m', p1, p2⟩ := C31_from_slice (k := 4) (by decide) (by decide) [1#64, 3#64]
  rw [show chunks 4 (⟨[0x315#64], 12⟩ : BV).bits = [5, 1, 3] by decide] at m2
  exact ⟨m, m', m1, p1, (C92_wavelet_wide (s := 1) (e := 3) m2 p2 (by decide) (by decide)).2.2.2.2.2.1⟩

omit [Profile] in
theorem isPredecessor_unique {d : List Word} {x : Word} {o o' : Option Word} (h : IsPredecessor d x o)
    (h' : IsPredecessor d x o') : o = o' := by
  cases o with
  | none =>
    cases o' with
    | none => rfl
    | some y => exact absurd (h y h'.1) (by simpa using h'.2.1)
  | some z =>
    cases o' with
    | none => exact absurd (h' z h.1) (by simpa using h.2.1)
    | some y => exact congrArg _ (BitVec.le_antisymm (h'.2.2 z h.1 h.2.1) (h.2.2 y h'.1 h'.2.1))

omit [Profile] in
theorem isSuccessor_unique {d : List Word} {x : Word} {o o' : Option Word} (h : IsSuccessor d x o)
    (h' : IsSuccessor d x o') : o = o' := by
  cases o with
  | none =>
    cases o' with
    | none => rfl
    | some y => exact absurd (h y h'.1) (by simpa using h'.2.1)
  | some z =>
    cases o' with
    | none => exact absurd (h' z h.1) (by simpa using h.2.1)
    | some y => exact congrArg _ (BitVec.le_antisymm (h.2.2 y h'.1 h'.2.1) (h'.2.2 z h.1 h.2.1))

/-- C92: an Elias-Fano vector of two sorted sequences one after the other answers about the elements by the first vector and
then by the second one: the greatest element that is at most `x` is that of the second sequence, if it has one. -/
theorem C92_elias_fano {fl : Nat → Nat} (hfl : LogLike fl) {a b : List Word} (hs : Sorted (a ++ b))
    (hl : (a ++ b).length < 2 ^ 60) :
    ∃ ef ea eb, EF.fromSlice fl (a ++ b) = .ok ef ∧ EF.fromSlice fl a = .ok ea ∧ EF.fromSlice fl b = .ok eb ∧
      (∀ i, i < ea.len → ef.get i = ea.get i) ∧ (∀ i, ef.get (ea.len + i) = eb.get i) ∧
      ∀ x, (∃ r s, ea.rank x = .ok r ∧ eb.rank x = .ok s ∧ ef.rank x = .ok (r + s)) ∧
        (∃ p q, ea.predecessor x = .ok p ∧ eb.predecessor x = .ok q ∧ ef.predecessor x = .ok (q.or p)) ∧
        ∃ p q, ea.successor x = .ok p ∧ eb.successor x = .ok q ∧ ef.successor x = .ok (p.or q) := by
  obtain ⟨sa, sb, sab⟩ := List.pairwise_append.mp hs
  have la : a.length < 2 ^ 60 := by rw [List.length_append] at hl; omega
  have lb : b.length < 2 ^ 60 := by rw [List.length_append] at hl; omega
  have all : ∀ {d : List Word}, Sorted d → d.length < 2 ^ 60 → ∃ ef, EF.fromSlice fl d = .ok ef ∧ ef.len = d.length ∧
      (∀ i, ef.get i = .ok d[i]?) ∧ (∀ x, ∃ o, ef.predecessor x = .ok o ∧ IsPredecessor d x o) ∧
      (∀ x, ∃ o, ef.successor x = .ok o ∧ IsSuccessor d x o) ∧
      ∀ x, ∃ r, ef.rank x = .ok r ∧ r.toNat = d.countP (fun y => decide (y < x)) := by
    intro d hd hl
    obtain ⟨ef, h1, h0, h2⟩ := C21_get hfl hd hl
    obtain ⟨ef', h1', h3⟩ := C22_predecessor hfl hd hl
    cases h1.symm.trans h1'
    obtain ⟨ef', h1', h4⟩ := C23_successor hfl hd hl
    cases h1.symm.trans h1'
    obtain ⟨ef', h1', h5⟩ := C24_rank hfl hd hl
    cases h1.symm.trans h1'
    exact ⟨ef, h1, h0, h2, h3, h4, h5⟩
  obtain ⟨ef, f1, f2, f3, f4, f5, f6⟩ := all hs hl
  obtain ⟨ea, a1, a2, a3, a4, a5, a6⟩ := all sa la
  obtain ⟨eb, b1, b2, b3, b4, b5, b6⟩ := all sb lb
  refine ⟨ef, ea, eb, f1, a1, b1, fun i hi => ?_, fun i => ?_, fun x => ⟨?_, ?_, ?_⟩⟩
  · rw [f3, a3, List.getElem?_append_left (by omega)]
  · rw [f3, b3, a2, List.getElem?_append_right (by omega), Nat.add_sub_cancel_left]
  · obtain ⟨r, r1, r2⟩ := a6 x
    obtain ⟨s, s1, s2⟩ := b6 x
    obtain ⟨t, t1, t2⟩ := f6 x
    refine ⟨r, s, r1, s1, ?_⟩
    rw [t1]
    congr 1
    apply BitVec.eq_of_toNat_eq
    have h1 := List.countP_le_length (p := fun y => decide (y < x)) (l := a)
    have h2 := List.countP_le_length (p := fun y => decide (y < x)) (l := b)
    rw [t2, List.countP_append, BitVec.toNat_add, r2, s2, Nat.mod_eq_of_lt (by omega)]
  · obtain ⟨p, p1, p2⟩ := a4 x
    obtain ⟨q, q1, q2⟩ := b4 x
    obtain ⟨o, o1, o2⟩ := f4 x
    refine ⟨p, q, p1, q1, ?_⟩
    rw [o1]
    congr 1
    refine isPredecessor_unique o2 ?_
    cases q with
    | some y =>
      obtain ⟨y1, y2, y3⟩ := q2
      refine ⟨List.mem_append_right _ y1, y2, fun z hz hzx => ?_⟩
      rcases List.mem_append.mp hz with hz | hz
      · exact sab z hz y y1
      · exact y3 z hz hzx
    | none =>
      cases p with
      | some y =>
        obtain ⟨y1, y2, y3⟩ := p2
        refine ⟨List.mem_append_left _ y1, y2, fun z hz hzx => ?_⟩
        rcases List.mem_append.mp hz with hz | hz
        · exact y3 z hz hzx
        · exact absurd (q2 z hz) (by simpa using hzx)
      | none =>
        intro z hz
        rcases List.mem_append.mp hz with hz | hz
        · exact p2 z hz
        · exact q2 z hz
  · obtain ⟨p, p1, p2⟩ := a5 x
    obtain ⟨q, q1, q2⟩ := b5 x
    obtain ⟨o, o1, o2⟩ := f5 x
    refine ⟨p, q, p1, q1, ?_⟩
    rw [o1]
    congr 1
    refine isSuccessor_unique o2 ?_
    cases p with
    | some y =>
      obtain ⟨y1, y2, y3⟩ := p2
      refine ⟨List.mem_append_left _ y1, y2, fun z hz hzx => ?_⟩
      rcases List.mem_append.mp hz with hz | hz
      · exact y3 z hz hzx
      · exact sab y y1 z hz
    | none =>
      cases q with
      | some y =>
        obtain ⟨y1, y2, y3⟩ := q2
        refine ⟨List.mem_append_right _ y1, y2, fun z hz hzx => ?_⟩
        rcases List.mem_append.mp hz with hz | hz
        · exact absurd (p2 z hz) (by simpa using hzx)
        · exact y3 z hz hzx
      | none =>
        intro z hz
        rcases List.mem_append.mp hz with hz | hz
        · exact p2 z hz
        · exact q2 z hz

example := C92_elias_fano logLike_ceilLog2 (a := [1#64, 5#64]) (b := [5#64, 900#64]) (by simp [Sorted]) (by decide)

omit [Profile] in
/-- Range minima of a part of the data from `s` on. -/
theorem rangeMin_part {data : List Word} {s e i j m m' : Nat} (hj : s + j < e) (h : IsRangeMin data (s + i) (s + j) m)
    (h' : IsRangeMin ((data.take e).drop s) i j m') : data[m]? = data[s + m']? := by
  obtain ⟨h1, h2, x, x1, x2⟩ := h
  obtain ⟨g1, g2, y, y1, y2⟩ := h'
  have at' : ∀ t, t ≤ j → ((data.take e).drop s)[t]? = data[s + t]? := by
    intro t ht
    rw [List.getElem?_drop, List.getElem?_take_of_lt (by omega)]
  rw [at' _ g2] at y1
  rw [x1, y1]
  congr 1
  refine BitVec.eq_of_toNat_eq (Nat.le_antisymm (x2 _ y (by omega) (by omega) y1) (y2 (m - s) x (by omega) (by omega) ?_))
  rw [at' _ (by omega), Nat.add_sub_of_le (by omega), x1]

/-- C92: a range minimum query inside of a part of the data is answered, with the same value, by the structure of this part,
`BinaryRmq`. (The positions may differ if the minimum occurs more than once.) -/
theorem C92_binary_rmq {data : List Word} (hlen : data.length < 2 ^ 32) (s e : Nat) :
    ∃ q q', BinRmq.fromVec data = .ok q ∧ BinRmq.fromVec ((data.take e).drop s) = .ok q' ∧
      ∀ i j, i ≤ j → s + j < e → e ≤ data.length → ∃ m m' x, q.rangeMin (s + i) (s + j) = .ok m ∧ q'.rangeMin i j = .ok m' ∧
        data[m]? = some x ∧ data[s + m']? = some x := by
  have hl : ((data.take e).drop s).length = min e data.length - s := by rw [List.length_drop, List.length_take]
  obtain ⟨q, q1, -, q2⟩ := C28_range_min hlen
  obtain ⟨q', p1, -, p2⟩ := C28_range_min (data := (data.take e).drop s) (by omega)
  refine ⟨q, q', q1, p1, fun i j hij hj he => ?_⟩
  obtain ⟨m, m1, m2⟩ := q2 (s + i) (s + j) (by omega) (by omega)
  obtain ⟨m', n1, n2⟩ := p2 i j hij (by omega)
  obtain ⟨-, -, x, x1, -⟩ := id m2
  exact ⟨m, m', x, m1, n1, x1, (rangeMin_part hj m2 n2).symm.trans x1⟩

example := C92_binary_rmq (data := [4#64, 10#64, 3#64, 11#64]) (by decide) 1 3

/-- C92: the same for `FastRmq`. Partial: at most `2^39 - 128` elements (`C29_construction_defect`). -/
theorem C92_fast_rmq_partial {data : List Word} (hlen : data.length ≤ 2 ^ 39 - 128) (s e : Nat) :
    ∃ q q', FastRmq.fromVec data = .ok q ∧ FastRmq.fromVec ((data.take e).drop s) = .ok q' ∧
      ∀ i j, i ≤ j → s + j < e → e ≤ data.length → ∃ m m' x, q.rangeMin (s + i) (s + j) = .ok m ∧ q'.rangeMin i j = .ok m' ∧
        data[m]? = some x ∧ data[s + m']? = some x := by
  have hl : ((data.take e).drop s).length = min e data.length - s := by rw [List.length_drop, List.length_take]
  obtain ⟨q, q1, -, q2⟩ := C29_range_min_partial hlen
  obtain ⟨q', p1, -, p2⟩ := C29_range_min_partial (data := (data.take e).drop s) (by omega)
  refine ⟨q, q', q1, p1, fun i j hij hj he => ?_⟩
  obtain ⟨m, m1, m2⟩ := q2 (s + i) (s + j) (by omega) (by omega)
  obtain ⟨m', n1, n2⟩ := p2 i j hij (by omega)
  obtain ⟨-, -, x, x1, -⟩ := id m2
  exact ⟨m, m', x, m1, n1, x1, (rangeMin_part hj m2 n2).symm.trans x1⟩

example := C92_fast_rmq_partial (data := rmqExample) (by simp [rmqExample]) 100 300

end Vers
