import Verif.Proofs.Follow
import Verif.Props.BpTree
import Verif.Props.Probe
import Verif.Props.Rebuild

/-! # C87: walks over a tree with the functions from node to node

`follow step fuel o` (`SpecClient.lean`) calls `step` on the node `o`, on the result of this call, and so on, until there is
no further node, and collects the nodes; it fails if more than `fuel` calls are needed. `Probes` (`SpecProbe.lean`) bounds
the number of memory cells that are read. -/

namespace Vers

open Spec BpTree Lookup

variable [Profile]

section

omit [Profile]

/-- The handles of the nodes of one level. -/
theorem level_sorted (f : Forest) (d : Nat) :
    (((nodes f).filter (fun m => m.depth == d)).map Node.handle).Pairwise (· < ·) :=
  (nodes_sorted f).sublist (List.Sublist.map _ List.filter_sublist)

theorem level_mem {f : Forest} {d x : Nat} {a r : List Nat}
    (h : ((nodes f).filter (fun m => m.depth == d)).map Node.handle = a ++ x :: r) :
    ∃ n ∈ nodes f, n.handle = x ∧ n.depth = d := by
  have : x ∈ ((nodes f).filter (fun m => m.depth == d)).map Node.handle := by rw [h]; simp
  obtain ⟨n, n1, n2⟩ := List.mem_map.mp this
  obtain ⟨n1, n3⟩ := List.mem_filter.mp n1
  exact ⟨n, n1, n2, by simpa using n3⟩

theorem level_filter (f : Forest) (d : Nat) (p : Nat → Bool) :
    ((nodes f).filter (fun m => p m.handle && m.depth == d)).map Node.handle =
      (((nodes f).filter (fun m => m.depth == d)).map Node.handle).filter p := by
  rw [List.filter_map, List.filter_filter]
  rfl

end

/-- C87: the siblings to the right of a node, the children of a node and the roots of the tree are visited from left to
right, each exactly once, by following `next_sibling`. -/
theorem C87_siblings {v : BV} (hw : v.WF) {f : Forest} (hf : v.bits = parens f) {bs : Nat} (hbs : 0 < bs)
    (hl : v.len ≤ 9223372036854775806) :
    ∃ t, BpTree.fromBitVector bs v = .ok t ∧ ∀ (k : Variant) (fuel : Nat),
      ((roots 0 f).length ≤ fuel → follow (fun i => t.nextSibling bs k i) fuel t.root = .ok (roots 0 f)) ∧
      ∀ n ∈ nodes f,
        (n.after.length ≤ fuel →
          (do let o ← t.nextSibling bs k n.handle
              follow (fun i => t.nextSibling bs k i) fuel o) = .ok n.after) ∧
        (n.children.length ≤ fuel →
          (do let o ← t.firstChild n.handle
              follow (fun i => t.nextSibling bs k i) fuel o) = .ok n.children) := by
  obtain ⟨t, h1, h2, -, h3⟩ := C42_forward hw hf hbs hl
  refine ⟨t, h1, fun k fuel => ?_⟩
  have hs : ∀ n ∈ nodes f, t.nextSibling bs k n.handle = .ok n.after.head? := fun n hn => (h3 k n hn).2.2.1
  have hk : ∀ fuel, ∀ n ∈ nodes f, n.after.length ≤ fuel →
      follow (fun i => t.nextSibling bs k i) fuel n.after.head? = .ok n.after :=
    follow_link (next := Node.after) hs (after_link f [] [] 0)
  refine ⟨fun hr => ?_, fun n hn => ⟨fun ha => ?_, fun hc => ?_⟩⟩
  · rw [h2]
    cases f with
    | nil => cases fuel <;> rfl
    | cons c s =>
      cases fuel with
      | zero => simp [roots] at hr
      | succ fuel =>
        have hm : (⟨0, 2 * c.size + 1, [], [], roots (2 * c.size + 2) s, roots 1 c, c.size + 1⟩ : Node) ∈
            nodes (.cons c s) := by simp [nodes, nodesFrom]
        have e := hs _ hm
        have := hk fuel _ hm (by simpa [roots] using hr)
        show (do let o ← t.nextSibling bs k 0; let l ← follow (fun i => t.nextSibling bs k i) fuel o; pure (0 :: l)) = _
        rw [e, ok_bind, this, ok_bind]
        simp [roots]
  · rw [hs n hn, ok_bind, hk fuel n hn ha]
  · rw [(h3 k n hn).1, ok_bind]
    refine follow_list _ _ hc fun a x r e => ?_
    obtain ⟨m, m1, m2, -, m3, -⟩ := C42_spec_children hn (i := a.length) (x := x) (by rw [e]; simp)
    show t.nextSibling bs k x = _
    rw [← m2, hs m m1, m3, e]
    simp

/-- The nodes 1 and 3 are the children of 0, and 0 and 8 are the roots. -/
example : ∃ t, BpTree.fromBitVector 4 exVec = .ok t ∧
    follow (fun i => t.nextSibling 4 .u8 i) 2 t.root = .ok [0, 8] ∧
    (do let o ← t.firstChild 0
        follow (fun i => t.nextSibling 4 .u8 i) 2 o) = .ok [1, 3] := by
  obtain ⟨t, h1, h2⟩ := C87_siblings (v := exVec) (by decide) (f := exForest) (by decide) (bs := 4) (by omega) (by decide)
  refine ⟨t, h1, (h2 .u8 2).1 (by decide), ?_⟩
  exact ((h2 .u8 2).2 ⟨0, 7, [], [], [8], [1, 3], 4⟩ (by decide)).2 (by decide)

/-- C87: the nodes of one level are visited from left to right, each exactly once, by following `level_next` from
`level_leftmost`. Missing for the full property: the empty tree and levels near `2^63`, see `C43_empty_defect` and
`C43_huge_level_defect`. -/
theorem C87_levels_partial {v : BV} (hw : v.WF) {f : Forest} (hf : v.bits = parens f) {bs : Nat} (hbs : 0 < bs)
    (hl : v.len ≤ 9223372036854775806) :
    ∃ t, BpTree.fromBitVector bs v = .ok t ∧ ∀ (k : Variant) (level : Word) (fuel : Nat), f ≠ .nil →
      level.toNat + v.len ≤ 9223372036854775807 →
      ((nodes f).filter (fun m => m.depth == level.toNat)).length ≤ fuel →
      (do let o ← t.levelLeftmost bs k level
          follow (fun i => t.levelNext bs k i) fuel o) =
        .ok (((nodes f).filter (fun m => m.depth == level.toNat)).map Node.handle) := by
  obtain ⟨t, h1, h2⟩ := C43_forward_partial hw hf hbs hl
  refine ⟨t, h1, fun k level fuel hne hlev hfuel => ?_⟩
  obtain ⟨-, h3, h4⟩ := h2 k
  rw [h4 level hne hlev, ok_bind, ← List.head?_map]
  refine follow_list _ _ (by simpa using hfuel) fun a x r e => ?_
  obtain ⟨n, n1, n2, n3⟩ := level_mem e
  show t.levelNext bs k x = _
  have hs := level_sorted f level.toNat
  rw [← n2, h3 n n1, ← List.head?_map, n3, level_filter f _ (fun y => decide (n.handle < y)), n2, e, filter_gt (e ▸ hs)]

/-- The nodes 1 and 3 are those of level 1. -/
example : ∃ t, BpTree.fromBitVector 4 exVec = .ok t ∧
    (do let o ← t.levelLeftmost 4 .u8 1#64
        follow (fun i => t.levelNext 4 .u8 i) 2 o) = .ok [1, 3] := by
  obtain ⟨t, h1, h2⟩ := C87_levels_partial (v := exVec) (by decide) (f := exForest) (by decide) (bs := 4) (by omega)
    (by decide)
  exact ⟨t, h1, h2 .u8 1#64 2 (by decide) (by decide) (by decide)⟩

/-- C87: the ancestors of a node are visited from its parent to the root by following `parent`, the siblings to the left of a
node, and the children of a node from right to left, by following `previous_sibling`, and the nodes of one level from right
to left by following `level_prev`. Missing for the full property: block sizes other than multiples and divisors of the
lookup size (see `C42_backward_partial`), and the levels that `level_rightmost` does not support
(`C43_level_rightmost_zero_defect`, `C43_huge_level_defect`). -/
theorem C87_backward_partial {v : BV} (hw : v.WF) {f : Forest} (hf : v.bits = parens f) {bs : Nat} (hbs : 0 < bs)
    (hl : v.len ≤ 9223372036854775805) :
    ∃ t, BpTree.fromBitVector bs v = .ok t ∧ ∀ (k : Variant), (k.size ∣ bs ∨ bs ∣ k.size) → ∀ fuel : Nat,
      (∀ n ∈ nodes f,
        (n.ancestors.length ≤ fuel →
          (do let o ← t.parent bs k n.handle
              follow (fun i => t.parent bs k i) fuel o) = .ok n.ancestors) ∧
        (n.before.length ≤ fuel →
          (do let o ← t.previousSibling bs k n.handle
              follow (fun i => t.previousSibling bs k i) fuel o) = .ok n.before) ∧
        (n.children.length ≤ fuel →
          (do let o ← t.lastChild bs k n.handle
              follow (fun i => t.previousSibling bs k i) fuel o) = .ok n.children.reverse)) ∧
      ∀ level : Word, f ≠ .nil → level ≠ 0#64 → level.toNat + v.len ≤ 9223372036854775807 →
        ((nodes f).filter (fun m => m.depth == level.toNat)).length ≤ fuel →
        (do let o ← t.levelRightmost bs k level
            follow (fun i => t.levelPrev bs k i) fuel o) =
          .ok (((nodes f).filter (fun m => m.depth == level.toNat)).map Node.handle).reverse := by
  obtain ⟨t, h1, h2⟩ := C42_backward_partial hw hf hbs hl
  obtain ⟨t', h1', h3⟩ := C43_backward_partial hw hf hbs (by omega)
  cases h1.symm.trans h1'
  refine ⟨t, h1, fun k hfit fuel => ⟨fun n hn => ⟨fun ha => ?_, fun hb => ?_, fun hc => ?_⟩, fun level hne hz hlev hfuel => ?_⟩⟩
  · rw [(h2 k hfit n hn).1, ok_bind]
    exact follow_link (next := Node.ancestors) (fun n hn => (h2 k hfit n hn).1)
      (ancestors_link (nodes f) f [] [] 0 (fun _ h => h) (fun _ _ h => by cases h)) fuel n hn ha
  · rw [(h2 k hfit n hn).2.1, ok_bind]
    exact follow_link (next := Node.before) (fun n hn => (h2 k hfit n hn).2.1)
      (before_link (nodes f) f [] [] 0 (fun _ h => h) (fun _ _ h => by cases h)) fuel n hn hb
  · rw [(h2 k hfit n hn).2.2.1, ok_bind, ← List.head?_reverse]
    refine follow_list _ _ (by simpa using hc) fun a x r e => ?_
    have e' : n.children = r.reverse ++ x :: a.reverse := by
      have := congrArg List.reverse e
      simpa using this
    obtain ⟨m, m1, m2, -, -, m3⟩ := C42_spec_children hn (i := r.length) (x := x) (by rw [e']; simp)
    show t.previousSibling bs k x = _
    rw [← m2, (h2 k hfit m m1).2.1, m3, e']
    simp
  · obtain ⟨-, h4, h5⟩ := h3 k hfit
    rw [h5 level hne hz hlev, ok_bind, ← List.getLast?_map, ← List.head?_reverse]
    refine follow_list _ _ (by simpa using hfuel) fun a x r e => ?_
    have e' : ((nodes f).filter (fun m => m.depth == level.toNat)).map Node.handle = r.reverse ++ x :: a.reverse := by
      have := congrArg List.reverse e
      simpa using this
    obtain ⟨n, n1, n2, n3⟩ := level_mem e'
    show t.levelPrev bs k x = _
    have hs := level_sorted f level.toNat
    rw [← n2, h4 n n1, ← List.getLast?_map, n3, level_filter f _ (fun y => decide (y < n.handle)), n2, e', filter_lt (e' ▸ hs)]
    simp

/-- The ancestors of 4 are 3 and 0, the node before 3 is 1. -/
example : ∃ t, BpTree.fromBitVector 8 exVec = .ok t ∧
    (do let o ← t.parent 8 .u8 4
        follow (fun i => t.parent 8 .u8 i) 2 o) = .ok [3, 0] ∧
    (do let o ← t.levelRightmost 8 .u8 1#64
        follow (fun i => t.levelPrev 8 .u8 i) 2 o) = .ok [3, 1] := by
  obtain ⟨t, h1, h2⟩ := C87_backward_partial (v := exVec) (by decide) (f := exForest) (by decide) (bs := 8) (by omega)
    (by decide)
  have h := h2 .u8 (by decide) 2
  exact ⟨t, h1, (h.1 ⟨4, 5, [3, 0], [], [], [], 1⟩ (by decide)).1 (by decide),
    h.2 1#64 (by decide) (by decide) (by decide) (by decide)⟩

/-- C87: a walk that visits `m` nodes reads at most `m` times the number of cells of a single query, which is logarithmic in
the number of blocks (`C62_reads_partial`), whatever the size of the tree. The recursive walk with `first_child` and
`next_sibling` reports two events for a node, and each costs at most as much. The iterators over the children of a node need
one query for their creation and one for each call. -/
theorem C87_reads {v : BV} (hw : v.WF) {bs : Nat} (hbs : 0 < bs) (h0 : 0 < v.len) (hl : v.len ≤ 9223372036854775807) :
    ∃ t, BpTree.fromBitVector bs v = .ok t ∧
      ∀ k c, c = 8 * bs + 10 * Nat.log2 ((v.len + bs - 1) / bs) + 61 →
      (∀ fuel o l,
        (follow (fun i => t.nextSibling bs k i) fuel o = .ok l →
          Probes TreeCell.same (l.length * c) (fun t => follow (fun i => t.nextSibling bs k i) fuel o) t) ∧
        (follow (fun i => t.previousSibling bs k i) fuel o = .ok l →
          Probes TreeCell.same (l.length * c) (fun t => follow (fun i => t.previousSibling bs k i) fuel o) t) ∧
        (follow (fun i => t.parent bs k i) fuel o = .ok l →
          Probes TreeCell.same (l.length * c) (fun t => follow (fun i => t.parent bs k i) fuel o) t) ∧
        (follow (fun i => t.levelNext bs k i) fuel o = .ok l →
          Probes TreeCell.same (l.length * c) (fun t => follow (fun i => t.levelNext bs k i) fuel o) t) ∧
        (follow (fun i => t.levelPrev bs k i) fuel o = .ok l →
          Probes TreeCell.same (l.length * c) (fun t => follow (fun i => t.levelPrev bs k i) fuel o) t)) ∧
      (∀ fuel o l, walk t.firstChild (fun i => t.nextSibling bs k i) fuel o = .ok l →
        Probes TreeCell.same (l.length * c) (fun t => walk t.firstChild (fun i => t.nextSibling bs k i) fuel o) t) ∧
      ∀ forward i m, Probes TreeCell.same ((m + 1) * c + 3)
        (fun t => do
          let s ← t.childrenIter bs k forward i
          runNext (t.childrenNext bs k forward) m s) t := by
  obtain ⟨t, h1, h2, h3⟩ := C62_reads_partial hw hbs h0 hl
  obtain ⟨t', h1', hr⟩ := fromBitVector_rep hw hbs h0 hl
  cases h1.symm.trans h1'
  refine ⟨t, h1, fun k c hc => ?_⟩
  obtain ⟨-, q, -⟩ := h2 k c hc
  have ns := fun i => (q i).2.2.2.2.1
  have ps := fun i => (q i).2.2.2.2.2.1
  have pa := fun i => (q i).2.2.2.1
  have lc := fun i => (q i).2.2.2.2.2.2.1
  have ln := fun i => (q i).2.2.2.2.2.2.2.1
  have lp := fun i => (q i).2.2.2.2.2.2.2.2.1
  have fc : ∀ i, Probes TreeCell.same c (fun t => t.firstChild i) t := fun i => Probes.mono (h3 i).2.2.1 (by omega)
  refine ⟨fun fuel o l => ⟨follow_reads ns fuel o l, follow_reads ps fuel o l, follow_reads pa fuel o l,
    follow_reads ln fuel o l, follow_reads lp fuel o l⟩, walk_reads fc ns, fun forward i m => ?_⟩
  have an : Probes TreeCell.same 3 (fun t => t.assertNode i) t :=
    lift t (reads_assertNode (n := t.mmt.nodes.length) ⟨t, rfl⟩ i)
  have nx : ∀ x, Probes TreeCell.same c (fun t => t.childrenNext bs k forward x) t := by
    intro x
    unfold childrenNext
    cases x with
    | none => exact Probes.mono (Probes.const _) (by omega)
    | some x =>
      cases forward
      · exact Probes.bind (n := c) (m := 0) (g := fun _ n => pure (n, some x)) (ps x) fun _ _ => Probes.const _
      · exact Probes.bind (n := c) (m := 0) (g := fun _ n => pure (n, some x)) (ns x) fun _ _ => Probes.const _
  refine Probes.mono (n := (3 + c) + m * c) ?_ (by rw [Nat.succ_mul]; omega)
  refine Probes.bind ?_ fun s _ => runNext_reads nx m s
  unfold childrenIter
  refine Probes.bind an fun _ _ => ?_
  cases forward
  · exact lc i
  · exact fc i

/-- C87: the recursive walk over the whole tree, with a depth of at most the number of nodes, visits each parenthesis once
and reads at most a logarithmic number of cells for each. -/
theorem C87_walk {v : BV} (hw : v.WF) {f : Forest} (hf : v.bits = parens f) {bs : Nat} (hbs : 0 < bs) (h0 : 0 < v.len)
    (hl : v.len ≤ 9223372036854775806) :
    ∃ t, BpTree.fromBitVector bs v = .ok t ∧
      ∀ k c, c = 8 * bs + 10 * Nat.log2 ((v.len + bs - 1) / bs) + 61 → ∀ fuel, f.size ≤ fuel →
        walk t.firstChild (fun i => t.nextSibling bs k i) fuel t.root = .ok v.bits ∧
        Probes TreeCell.same (v.len * c + 1) (fun t => walk t.firstChild (fun i => t.nextSibling bs k i) fuel t.root) t := by
  obtain ⟨t, h1, h2, -, h3⟩ := C42_forward hw hf hbs hl
  obtain ⟨t', h1', h4⟩ := C87_reads hw hbs h0 (by omega)
  cases h1.symm.trans h1'
  obtain ⟨t', h1', -, h5⟩ := C62_reads_partial hw hbs h0 (by omega)
  cases h1.symm.trans h1'
  refine ⟨t, h1, fun k c hc fuel hfuel => ?_⟩
  have hwalk := walk_forest (fc := t.firstChild) (ns := fun n => t.nextSibling bs k n) (f0 := f)
    (fun n hn => ⟨(h3 k n hn).1, (h3 k n hn).2.2.1⟩) f [] [] 0 fuel (fun n hn => hn) hfuel
  rw [← h2, ← hf] at hwalk
  refine ⟨hwalk, ?_⟩
  have hr : Probes TreeCell.same 1 (fun t => t.root) t := by
    unfold root
    refine Probes.cell (TreeCell.vec RsCell.len) fun t' h => ?_
    show (if t'.vec.len = 0 then none else some 0) = if t.vec.len = 0 then none else some 0
    rw [show t'.vec.len = t.vec.len from h]
  have := (h4 k c hc).2.1 fuel t.root v.bits hwalk
  rw [BV.length_bits] at this
  refine Probes.mono (Probes.seq (p := fun t : BpTree => t.root)
    (fun o t => walk t.firstChild (fun i => t.nextSibling bs k i) fuel o) hr this) (by omega)

example := C87_walk (v := exVec) (by decide) (f := exForest) (by decide) (bs := 24) (by decide) (by decide) (by decide)

/-- The walk over the five nodes of a tree. -/
example : ∃ t, BpTree.fromBitVector 4 exVec = .ok t ∧ (∀ c, c = 8 * 4 + 10 * Nat.log2 3 + 61 →
    ∀ l, walk t.firstChild (fun i => t.nextSibling 4 .u8 i) 10 t.root = .ok l →
      Probes TreeCell.same (l.length * c) (fun t => walk t.firstChild (fun i => t.nextSibling 4 .u8 i) 10 (some 0)) t) := by
  obtain ⟨t, h1, h2⟩ := C87_reads (v := exVec) (by decide) (bs := 4) (by omega) (by decide) (by decide)
  obtain ⟨t', h1', h3, -⟩ := C42_forward (v := exVec) (by decide) (f := exForest) (by decide) (bs := 4) (by omega) (by decide)
  cases h1.symm.trans h1'
  refine ⟨t, h1, fun c hc l hl => (h2 .u8 c hc).2.1 10 (some 0) l ?_⟩
  rw [h3] at hl
  exact hl

end Vers
