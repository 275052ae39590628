import Verif.Proofs.Links
import Verif.Props.Walks

/-! # C88: the functions of a tree agree with each other

Only the functions of the library are mentioned, and the nodes are the positions of the opening parentheses of a balanced
sequence. -/

namespace Vers

open Spec BpTree Lookup

variable [Profile]

/-- C88: the laws that do not need a backward search, for all balanced sequences and block sizes. A node without a first child
is a leaf. The next node on a level, and the next sibling, lie on the same level. The size of a subtree is one more than the
sum of the sizes for the children. -/
theorem C88_forward {v : BV} (hw : v.WF) (hb : Balanced v.bits) {bs : Nat} (hbs : 0 < bs)
    (hl : v.len ≤ 9223372036854775806) :
    ∃ t, BpTree.fromBitVector bs v = .ok t ∧ ∀ (k : Variant) (i : Nat), v.bits[i]? = some true →
      (t.firstChild i = .ok none ↔ t.isLeaf i = .ok true) ∧
      (t.isLeaf i = .ok true ↔ t.subtreeSize bs k i = .ok (some 1)) ∧
      (∀ j, t.firstChild i = .ok (some j) → v.bits[j]? = some true ∧ ∃ d, t.depth i = .ok d ∧ t.depth j = .ok (d + 1)) ∧
      (∀ j, t.nextSibling bs k i = .ok (some j) → v.bits[j]? = some true ∧ ∃ d, t.depth i = .ok d ∧ t.depth j = .ok d) ∧
      (∀ j, t.levelNext bs k i = .ok (some j) → v.bits[j]? = some true ∧ ∃ d, t.depth i = .ok d ∧ t.depth j = .ok d) ∧
      ∃ (cs : List Nat) (sizes : List Nat),
        (do let o ← t.firstChild i
            follow (fun i => t.nextSibling bs k i) v.len o) = .ok cs ∧
        cs.map (fun c => t.subtreeSize bs k c) = sizes.map (fun s => .ok (some s)) ∧
        t.subtreeSize bs k i = .ok (some (sizes.sum + 1)) := by
  obtain ⟨f, hf⟩ := (balanced_iff _).mp hb
  replace hf := hf.symm
  obtain ⟨t, h1, -, -, h2⟩ := C42_forward hw hf hbs hl
  obtain ⟨t', h1', h3⟩ := C43_forward_partial hw hf hbs hl
  cases h1.symm.trans h1'
  obtain ⟨t', h1', h4⟩ := C44_subtree hw hf hbs hl
  cases h1.symm.trans h1'
  obtain ⟨t', h1', h5⟩ := C87_siblings hw hf hbs hl
  cases h1.symm.trans h1'
  refine ⟨t, h1, fun k i hi => ?_⟩
  obtain ⟨n, hn, rfl⟩ := exists_node (hf ▸ hi)
  have isNode : ∀ m ∈ nodes f, v.bits[m.handle]? = some true := by
    intro m hm
    obtain ⟨_, _, _, _, ha⟩ := around_of hf hm
    exact ha.open_bit
  obtain ⟨fc, lf, ns, -⟩ := h2 k n hn
  obtain ⟨dp, ln, -⟩ := h3 k
  obtain ⟨ms, m1, m2, m3⟩ := child_sizes_from f [] [] 0 n hn
  have m1 : ∀ m ∈ ms, m ∈ nodes f := m1
  have hlen : ms.length = n.children.length := by rw [← m2, List.length_map]
  have hle : n.children.length ≤ v.len := by
    have hs : n.children.length ≤ n.size := by
      rw [m3, ← hlen]
      have : ∀ l : List Node, (∀ m ∈ l, m ∈ nodes f) → l.length ≤ (l.map Node.size).sum := by
        intro l
        induction l with
        | nil => simp
        | cons a l ih =>
          intro h
          have e := (child_sizes_from f [] [] 0 a (h a (by simp)))
          obtain ⟨_, _, _, e⟩ := e
          have := ih fun m hm => h m (List.mem_cons_of_mem _ hm)
          simp only [List.map_cons, List.sum_cons, List.length_cons]
          omega
      have := this ms m1
      omega
    rw [C44_spec_size hn] at hs
    have h6 : ((preorder 0 f).filter (inSubtree f n)).length ≤ (preorder 0 f).length := List.length_filter_le _ _
    rw [preorder_eq] at h6 hs
    have h7 : (positions true (parens f)).length ≤ (parens f).length := by
      rw [length_positions]; exact List.count_le_length
    rw [← hf, BV.length_bits] at h7
    rw [← hf] at h6 hs
    omega
  refine ⟨?_, ?_, fun j hj => ?_, fun j hj => ?_, fun j hj => ?_, n.children, ms.map Node.size, ?_, ?_, ?_⟩
  · rw [fc, lf]
    cases n.children <;> simp
  · rw [lf, (h4 k n hn).1, m3]
    have : n.children = [] ↔ ms = [] := by rw [← m2]; simp
    constructor
    · intro h
      have : ms = [] := this.mp (by simpa using Except.ok.inj h)
      simp [this]
    · intro h
      have e : (ms.map Node.size).sum = 0 := by simpa using h
      have : ms = [] := by
        cases ms with
        | nil => rfl
        | cons a l =>
          obtain ⟨_, _, _, q⟩ := child_sizes_from f [] [] 0 a (m1 a (by simp))
          simp at e
          omega
      simp [‹n.children = [] ↔ ms = []›.mpr this]
  · rw [fc] at hj
    obtain ⟨m, q1, q2, q3, -⟩ := children_nodes hn (i := 0) (x := j)
      (by rw [← List.head?_eq_getElem?]; exact Except.ok.inj hj)
    rw [← q2]
    exact ⟨isNode m q1, _, dp n hn, by rw [dp m q1, q3]; rfl⟩
  · rw [ns] at hj
    cases e : n.after with
    | nil => rw [e] at hj; cases hj
    | cons x r =>
      rw [e] at hj
      cases hj
      obtain ⟨m, q1, q2, -, q4⟩ := next_link f [] [] 0 n hn _ _ e
      rw [← q2]
      exact ⟨isNode m q1, _, dp n hn, by rw [dp m q1, q4]⟩
  · rw [ln n hn] at hj
    obtain ⟨m, q1, q2⟩ := Option.map_eq_some_iff.mp (Except.ok.inj hj)
    obtain ⟨q1, q3⟩ := List.mem_filter.mp (List.mem_of_mem_head? q1)
    simp only [Bool.and_eq_true, beq_iff_eq] at q3
    rw [← q2]
    exact ⟨isNode m q1, _, dp n hn, by rw [dp m q1]; exact congrArg _ q3.2⟩
  · exact ((h5 k v.len).2 n hn).2 hle
  · rw [← m2, List.map_map, List.map_map]
    exact List.map_congr_left fun m hm => (h4 k m (m1 m hm)).1
  · rw [(h4 k n hn).1, m3]

/-- The tree `(()(()))()`. -/
example : exVec.WF ∧ Balanced exVec.bits ∧ exVec.bits[3]? = some true :=
  ⟨by decide, (balanced_iff _).mpr ⟨exForest, by decide⟩, by decide⟩

/-- Node 0 has the children 1 and 3, with subtrees of 1 and 2 nodes. -/
example : ∃ t, BpTree.fromBitVector 4 exVec = .ok t ∧ ∃ (cs sizes : List Nat),
    (do let o ← t.firstChild 0
        follow (fun i => t.nextSibling 4 .u8 i) 10 o) = .ok cs ∧
    cs.map (fun c => t.subtreeSize 4 .u8 c) = sizes.map (fun s => .ok (some s)) ∧
    t.subtreeSize 4 .u8 0 = .ok (some (sizes.sum + 1)) := by
  obtain ⟨t, h1, h2⟩ := C88_forward (v := exVec) (by decide) ((balanced_iff _).mpr ⟨exForest, by decide⟩) (bs := 4)
    (by omega) (by decide)
  exact ⟨t, h1, (h2 .u8 0 (by decide)).2.2.2.2.2⟩

/-- C88: the laws of the functions that search backward. `next_sibling` and `previous_sibling` are inverse to each other, and so
are `level_next` and `level_prev`. The first child is the node below a node that has no previous sibling, the last child
the one that has no next sibling. Siblings have the same parent, and a node is one level below its parent. A node is an
ancestor of those from which it is reached by following `parent`. Missing for the full property: block sizes other than
multiples and divisors of the lookup size (see `C42_backward_partial`). -/
theorem C88_backward_partial {v : BV} (hw : v.WF) (hb : Balanced v.bits) {bs : Nat} (hbs : 0 < bs)
    (hl : v.len ≤ 9223372036854775805) :
    ∃ t, BpTree.fromBitVector bs v = .ok t ∧ ∀ (k : Variant), (k.size ∣ bs ∨ bs ∣ k.size) →
      ∀ i, v.bits[i]? = some true →
        (∀ j, v.bits[j]? = some true →
          (t.nextSibling bs k i = .ok (some j) ↔ t.previousSibling bs k j = .ok (some i)) ∧
          (t.levelNext bs k i = .ok (some j) ↔ t.levelPrev bs k j = .ok (some i)) ∧
          (t.firstChild i = .ok (some j) ↔
            t.parent bs k j = .ok (some i) ∧ t.previousSibling bs k j = .ok none) ∧
          (t.lastChild bs k i = .ok (some j) ↔ t.parent bs k j = .ok (some i) ∧ t.nextSibling bs k j = .ok none) ∧
          (t.nextSibling bs k i = .ok (some j) → t.parent bs k j = t.parent bs k i) ∧
          (t.isAncestor bs k i j = .ok (some true) ↔
            ∃ l, follow (fun x => t.parent bs k x) v.len (some j) = .ok l ∧ i ∈ l)) ∧
        (∀ j, t.parent bs k i = .ok (some j) →
          v.bits[j]? = some true ∧ ∃ d, t.depth j = .ok d ∧ t.depth i = .ok (d + 1)) ∧
        (t.parent bs k i = .ok none ↔ t.depth i = .ok 0) ∧
        (t.lastChild bs k i = .ok none ↔ t.firstChild i = .ok none) := by
  obtain ⟨f, hf⟩ := (balanced_iff _).mp hb
  replace hf := hf.symm
  obtain ⟨t, h1, -, -, h2⟩ := C42_forward hw hf hbs (by omega)
  obtain ⟨t', h1', h3⟩ := C43_forward_partial hw hf hbs (by omega)
  cases h1.symm.trans h1'
  obtain ⟨t', h1', h4⟩ := C44_subtree hw hf hbs (by omega)
  cases h1.symm.trans h1'
  obtain ⟨t', h1', h5⟩ := C42_backward_partial hw hf hbs hl
  cases h1.symm.trans h1'
  obtain ⟨t', h1', h6⟩ := C43_backward_partial hw hf hbs (by omega)
  cases h1.symm.trans h1'
  refine ⟨t, h1, fun k hfit i hi => ?_⟩
  obtain ⟨n, hn, rfl⟩ := exists_node (hf ▸ hi)
  have isNode : ∀ m ∈ nodes f, v.bits[m.handle]? = some true := by
    intro m hm
    obtain ⟨_, _, _, _, ha⟩ := around_of hf hm
    exact ha.open_bit
  have ok_iff : ∀ {α : Type} {a b : α}, (Except.ok a : R α) = .ok b ↔ a = b := fun {α a b} =>
    ⟨Except.ok.inj, fun h => by rw [h]⟩
  obtain ⟨fc, -, ns, -⟩ := h2 k n hn
  obtain ⟨dp, ln, -⟩ := h3 k
  obtain ⟨-, lp, -⟩ := h6 k hfit
  obtain ⟨pa, ps, lc, -⟩ := h5 k hfit n hn
  refine ⟨fun j hj => ?_, fun j hj => ?_, ?_, ?_⟩
  · obtain ⟨m, hm, rfl⟩ := exists_node (hf ▸ hj)
    obtain ⟨-, -, ns', -⟩ := h2 k m hm
    obtain ⟨pa', ps', -, -⟩ := h5 k hfit m hm
    rw [fc, ns, ns', pa, pa', ps', lc, ln n hn, lp m hm, (h4 k n hn).2 m hm]
    simp only [ok_iff]
    refine ⟨sibling_iff hn hm, ?_, first_child_iff hn hm, last_child_iff hn hm, fun h => ?_, ?_⟩
    · rw [← List.head?_map, ← List.getLast?_map, level_filter f _ (fun y => decide (n.handle < y)),
        level_filter f _ (fun y => decide (y < m.handle))]
      by_cases hd : m.depth = n.depth
      · rw [hd]
        exact next_prev_iff (level_sorted f n.depth)
          (List.mem_map_of_mem (List.mem_filter.mpr ⟨hn, by simp⟩)) (List.mem_map_of_mem (List.mem_filter.mpr ⟨hm, by simp [hd]⟩))
      · constructor
        · intro h
          obtain ⟨q, -⟩ := List.mem_filter.mp (List.mem_of_mem_head? h)
          obtain ⟨u, u1, u2⟩ := List.mem_map.mp q
          obtain ⟨u1, u3⟩ := List.mem_filter.mp u1
          cases eq_of_handle u1 hm u2
          exact absurd (by simpa using u3) hd
        · intro h
          obtain ⟨q, -⟩ := List.mem_filter.mp (List.mem_of_getLast? h)
          obtain ⟨u, u1, u2⟩ := List.mem_map.mp q
          obtain ⟨u1, u3⟩ := List.mem_filter.mp u1
          cases eq_of_handle u1 hn u2
          exact absurd (by simpa using u3 : n.depth = m.depth).symm hd
    · cases e : n.after with
      | nil => rw [e] at h; cases h
      | cons x r =>
        rw [e] at h
        cases h
        obtain ⟨q, q1, q2, -, q4⟩ := next_link f [] [] 0 n hn _ _ e
        cases eq_of_handle q1 hm q2
        rw [q4]
    · have hanc : m.ancestors.length + 1 ≤ v.len := by
        obtain ⟨_, _, _, _, ha⟩ := around_of hf hm
        have d1 : excess (v.bits.take m.handle) = m.ancestors.length := ha.depth
        have d2 : (v.bits.take m.handle).count true ≤ (v.bits.take m.handle).length := List.count_le_length
        have d3 := (List.getElem?_eq_some_iff.mp ha.open_bit).1
        rw [List.length_take] at d2
        rw [BV.length_bits] at d2 d3
        unfold Spec.excess at d1
        omega
      have hw : follow (fun x => t.parent bs k x) v.len (some m.handle) = .ok (m.handle :: m.ancestors) := by
        obtain ⟨c, hc⟩ : ∃ c, v.len = c + 1 := ⟨v.len - 1, by omega⟩
        rw [hc]
        show (do let o ← t.parent bs k m.handle; let l ← follow (fun x => t.parent bs k x) c o; pure (m.handle :: l)) = _
        rw [pa', ok_bind, follow_link (next := Node.ancestors) (fun n hn => (h5 k hfit n hn).1)
          (ancestors_link (nodes f) f [] [] 0 (fun _ h => h) (fun _ _ h => by cases h)) c m hm (by omega), ok_bind]
        rfl
      rw [hw]
      simp only [Option.some.injEq, decide_eq_true_eq, ok_iff]
      constructor
      · intro h
        exact ⟨_, rfl, List.mem_cons.mpr h⟩
      · rintro ⟨l, rfl, h⟩
        exact List.mem_cons.mp h
  · rw [pa] at hj
    cases e : n.ancestors with
    | nil => rw [e] at hj; cases hj
    | cons x r =>
      rw [e] at hj
      cases hj
      obtain ⟨m, q1, q2, q3, -⟩ := parent_link hn e
      rw [← q2]
      exact ⟨isNode m q1, _, dp m q1, by rw [dp n hn, e, q3]; rfl⟩
  · rw [pa, dp n hn]
    simp only [ok_iff]
    cases n.ancestors <;> simp
  · rw [fc, lc]
    simp only [ok_iff]
    cases n.children <;> simp

example := C88_backward_partial (v := exVec) (by decide) ((balanced_iff _).mpr ⟨exForest, by decide⟩) (bs := 512)
  (by decide) (by decide)

end Vers
