import Verif.Proofs.BpTotal
import Verif.Proofs.BpBlockSize

/-!
# Properties of the parenthesis tree (C41 to C47, C50)

`v` is the bit vector the tree is built from, `bs` the const generic `BLOCK_SIZE`, `k` the lookup feature.
`v.bits = parens f` says that the sequence encodes the ordered forest `f`; by `C41_balanced_iff_forest` the
balanced sequences are exactly those. Lengths are bounded by about `2^63`, which is more parentheses than fit
into memory. Where a query uses the backward search, the block size must be a multiple or a divisor of the
lookup size (8 or 16), which includes the default 512: see `C41_block_size_iff`.
-/

namespace Vers

variable [Profile]
open Spec Lookup BpTree

/-- The tree used in the examples, `(()(()))()`. -/
def exForest : Forest := .cons (.cons .nil (.cons (.cons .nil .nil) .nil)) (.cons .nil .nil)

/-- Its parenthesis sequence. -/
def exVec : BV := ⟨[0b0100011011#64], 10⟩

omit [Profile] in
theorem exVec_ok : exVec.WF ∧ exVec.bits = parens exForest ∧ exVec.len ≤ 9223372036854775000 ∧ (nodes exForest).length = 5 := by
  decide

/-! ## C41 close, open, enclose -/

omit [Profile] in
/-- The balanced sequences are the sequences of forests. -/
theorem C41_balanced_iff_forest (l : List Bool) : Balanced l ↔ ∃ f, parens f = l := balanced_iff l

example : Balanced [true, true, false, false] :=
  (C41_balanced_iff_forest _).mpr ⟨.cons (.cons .nil .nil) .nil, by decide⟩

omit [Profile] in
/-- Matching is unique: a parenthesis has at most one partner. -/
theorem C41_matches_unique {l : List Bool} {i j : Nat} (h : Matches l i j) :
    (∀ j', Matches l i j' → j' = j) ∧ (∀ i', Matches l i' j → i' = i) :=
  ⟨fun _ h' => isFwd_unique (matches_iff_fwd.mp h').2 (matches_iff_fwd.mp h).2,
    fun _ h' => isBwd_unique (matches_iff_bwd.mp h').2 (matches_iff_bwd.mp h).2⟩

example : Matches [true, false] 0 1 :=
  ⟨by decide, by decide, by decide, (C41_balanced_iff_forest _).mpr ⟨.nil, by decide⟩⟩

/-- `close` of an opening parenthesis is the matching closing parenthesis, `None` if there is none. This
holds for all sequences, balanced or not, and all block sizes. Beyond the sequence the result is `None`. -/
theorem C41_close {v : BV} (hw : v.WF) {bs : Nat} (hbs : 0 < bs) (h0 : 0 < v.len) (hl : v.len ≤ 9223372036854775806) :
    ∃ t, BpTree.fromBitVector bs v = .ok t ∧ ∀ (k : Variant) (i : Nat),
      (v.bits[i]? = some true → ∃ o, t.close bs k i = .ok o ∧ ∀ j, o = some j ↔ Matches v.bits i j) ∧
      (v.len ≤ i → t.close bs k i = .ok none) := by
  obtain ⟨t, h1, h2⟩ := fromBitVector_rep hw hbs h0 (by omega)
  refine ⟨t, h1, fun k i => ⟨fun hi => ?_, fun hi => ?_⟩⟩
  · refine ⟨_, close_eq h2 k (Rep.len_pos hi) hl, fun j => ?_⟩
    rw [isFwd_iff, matches_iff_fwd]
    exact ⟨fun h => ⟨hi, h⟩, fun h => h.2⟩
  · unfold BpTree.close
    rw [h2.vec.2.2, if_pos hi]; rfl

example := C41_close (v := ⟨[0b1011#64], 4⟩) (by decide) (bs := 512) (by decide) (by decide) (by decide)

/-- `open` of a closing parenthesis is the matching opening parenthesis, `None` if there is none. Missing
for the full property: other block sizes, see `C41_block_size_iff`. -/
theorem C41_open_partial {v : BV} (hw : v.WF) {bs : Nat} (hbs : 0 < bs) (h0 : 0 < v.len) (hl : v.len ≤ 9223372036854775806) :
    ∃ t, BpTree.fromBitVector bs v = .ok t ∧ ∀ (k : Variant), (k.size ∣ bs ∨ bs ∣ k.size) → ∀ (j : Nat),
      (v.bits[j]? = some false → ∃ o, t.opening bs k j = .ok o ∧ ∀ i, o = some i ↔ Matches v.bits i j) ∧
      (v.len ≤ j → t.opening bs k j = .ok none) := by
  obtain ⟨t, h1, h2⟩ := fromBitVector_rep hw hbs h0 (by omega)
  refine ⟨t, h1, fun k hfit j => ⟨fun hj => ?_, fun hj => ?_⟩⟩
  · refine ⟨_, opening_eq h2 hfit (Rep.len_pos hj) hl, fun i => ?_⟩
    have hjl : j < v.bits.length := by rw [BV.length_bits]; exact Rep.len_pos hj
    have := isBwd_iff (r := -1) (j := i) hjl
    rw [show -(-1 : Int) = 1 by omega] at this
    rw [this, matches_iff_bwd]
    exact ⟨fun h => ⟨hj, h⟩, fun h => h.2⟩
  · unfold BpTree.opening
    rw [h2.vec.2.2, if_pos hj]; rfl

example := C41_open_partial (v := ⟨[0b0011#64], 4⟩) (by decide) (bs := 512) (by decide) (by decide) (by decide)

/-- In a balanced sequence every opening parenthesis has a closing one, `close` finds it, and `open` leads
back, and conversely. Missing for the full property: other block sizes. -/
theorem C41_inverse_partial {v : BV} (hw : v.WF) (hb : Balanced v.bits) {bs : Nat} (hbs : 0 < bs) (h0 : 0 < v.len)
    (hl : v.len ≤ 9223372036854775806) :
    ∃ t, BpTree.fromBitVector bs v = .ok t ∧ ∀ (k : Variant), (k.size ∣ bs ∨ bs ∣ k.size) →
      (∀ i, v.bits[i]? = some true →
        ∃ j, Matches v.bits i j ∧ t.close bs k i = .ok (some j) ∧ t.opening bs k j = .ok (some i)) ∧
      (∀ j, v.bits[j]? = some false →
        ∃ i, Matches v.bits i j ∧ t.opening bs k j = .ok (some i) ∧ t.close bs k i = .ok (some j)) := by
  obtain ⟨t, h1, h2⟩ := C41_close hw hbs h0 hl
  obtain ⟨t', h1', h2'⟩ := C41_open_partial hw hbs h0 hl
  have : t' = t := by rw [h1] at h1'; exact (Except.ok.inj h1').symm
  subst this
  have key : ∀ (k : Variant), (k.size ∣ bs ∨ bs ∣ k.size) → ∀ {i j : Nat}, Matches v.bits i j →
      t'.close bs k i = .ok (some j) ∧ t'.opening bs k j = .ok (some i) := by
    intro k hfit i j hm
    obtain ⟨o, o1, o2⟩ := (h2 k i).1 hm.2.1
    obtain ⟨o', o1', o2'⟩ := (h2' k hfit j).1 hm.2.2.1
    exact ⟨by rw [o1, (o2 j).mpr hm], by rw [o1', (o2' i).mpr hm]⟩
  refine ⟨t', h1, fun k hfit => ⟨fun i hi => ?_, fun j hj => ?_⟩⟩
  · obtain ⟨j, hj⟩ := exists_close hb hi
    exact ⟨j, hj, key k hfit hj⟩
  · obtain ⟨i, hi⟩ := exists_open hb hj
    exact ⟨i, hi, (key k hfit hi).2, (key k hfit hi).1⟩

example := C41_inverse_partial (v := ⟨[0b0011#64], 4⟩) (by decide)
  ((C41_balanced_iff_forest _).mpr ⟨.cons (.cons .nil .nil) .nil, by decide⟩) (bs := 512) (by decide) (by decide) (by decide)

/-- `enclose` is the opening parenthesis of the innermost pair strictly around `i`, `None` if there is none;
`i` may be an opening or a closing parenthesis. Missing for the full property: other block sizes. -/
theorem C41_enclose_partial {v : BV} (hw : v.WF) (hb : Balanced v.bits) {bs : Nat} (hbs : 0 < bs) (h0 : 0 < v.len)
    (hl : v.len ≤ 9223372036854775805) :
    ∃ t, BpTree.fromBitVector bs v = .ok t ∧ ∀ (k : Variant), (k.size ∣ bs ∨ bs ∣ k.size) → ∀ i,
      ∃ o, t.enclose bs k i = .ok o ∧ ∀ j, o = some j ↔ i < v.len ∧ IsEnclose v.bits i j := by
  obtain ⟨t, h1, h2⟩ := fromBitVector_rep hw hbs h0 (by omega)
  refine ⟨t, h1, fun k hfit i => ?_⟩
  by_cases hi : i < v.len
  · obtain ⟨x, hx⟩ := exists_bit hi
    refine ⟨_, enclose_eq h2 hfit hx hl, fun j => ?_⟩
    rw [isBwd_iff (by rw [BV.length_bits]; exact hi), isEnclose_iff hb hx]
    exact ⟨fun h => ⟨hi, h⟩, fun h => h.2⟩
  · refine ⟨none, ?_, fun j => Iff.intro (fun h => by cases h) (fun h => absurd h.1 hi)⟩
    unfold BpTree.enclose
    rw [h2.vec.2.2, if_pos (by omega)]; rfl

example : exVec.WF ∧ 0 < exVec.len ∧ exVec.len ≤ 9223372036854775805 ∧ Balanced exVec.bits ∧
    Matches exVec.bits 3 6 ∧ Variant.u8.size ∣ 512 := by
  refine ⟨by decide, by decide, by decide, (balanced_iff _).mpr ⟨exForest, by decide⟩, ⟨by decide, by decide, by decide, ?_⟩, by decide⟩
  exact (balanced_iff _).mpr ⟨.cons .nil .nil, by decide⟩

/-- Defect: the block sizes for which `open` leads from every closing parenthesis of a balanced
sequence to its partner are exactly the multiples and the divisors of the lookup size. -/
theorem C41_block_size_iff {bs : Nat} (hbs : 0 < bs) (hb : bs ≤ 1152921504606846976) (k : Variant) :
    (k.size ∣ bs ∨ bs ∣ k.size) ↔
      ∀ v : BV, v.WF → Balanced v.bits → 0 < v.len → v.len ≤ 9223372036854775000 →
        ∀ t, BpTree.fromBitVector bs v = .ok t → ∀ i j, Matches v.bits i j → t.opening bs k j = .ok (some i) := by
  constructor
  · intro hfit v hw hbal h0 hl t ht i j hm
    obtain ⟨t', h1, h2⟩ := C41_open_partial hw hbs h0 (by omega)
    rw [ht] at h1
    cases h1
    obtain ⟨o, o1, o2⟩ := (h2 k hfit j).1 hm.2.2.1
    rw [o1, (o2 i).mpr hm]
  · intro h
    apply Classical.byContradiction
    intro hfit
    obtain ⟨m, v, t, hw, hv, hlen, hl, h1, -, h3⟩ := bad_block_size hbs hb hfit
    exact h3 (h v hw ((balanced_iff _).mpr ⟨_, hv.symm⟩) (by omega) hl t h1 _ _ (by rw [hv]; exact bad_matches m))

example : ¬(Variant.u8.size ∣ 12 ∨ 12 ∣ Variant.u8.size) ∧ (Variant.u8.size ∣ 512 ∨ 512 ∣ Variant.u8.size) ∧
    Matches (parens exForest) 3 6 := by
  refine ⟨by decide, by decide, by decide, by decide, by decide, ?_⟩
  exact (balanced_iff _).mpr ⟨.cons .nil .nil, by decide⟩

/-! ## C42 navigation -/

/-- The root, the first child and whether a node is a leaf, the next sibling, and the children from left to
right, for all trees and block sizes. -/
theorem C42_forward {v : BV} (hw : v.WF) {f : Forest} (hf : v.bits = parens f) {bs : Nat} (hbs : 0 < bs)
    (hl : v.len ≤ 9223372036854775806) :
    ∃ t, BpTree.fromBitVector bs v = .ok t ∧
      t.root = (roots 0 f).head? ∧ t.isEmpty = (nodes f).isEmpty ∧
      ∀ (k : Variant), ∀ n ∈ nodes f,
        t.firstChild n.handle = .ok n.children.head? ∧
        t.isLeaf n.handle = .ok (decide (n.children = [])) ∧
        t.nextSibling bs k n.handle = .ok n.after.head? ∧
        ∃ s, t.childrenIter bs k true n.handle = .ok s ∧ Yields (t.childrenNext bs k true) s n.children := by
  obtain ⟨t, h1, h2, h3⟩ := fromBitVector_total hw hbs (by omega)
  refine ⟨t, h1, ?_, ?_, fun k n hn => ?_⟩
  · unfold BpTree.root
    rw [h2.vec.2.2, len_eq hf]
    cases f with
    | nil => rfl
    | cons c s => rw [if_neg (by simp [Forest.size])]; rfl
  · unfold BpTree.isEmpty
    rw [h2.vec.2.2, len_eq hf]
    cases f with
    | nil => rfl
    | cons c s =>
      simp [Forest.size, nodes, nodesFrom]
  · obtain ⟨_, _, _, _, ha⟩ := around_of hf hn
    have hr := h3 (by have := Rep.len_pos ha.open_bit; omega)
    exact ⟨firstChild_node h2 (by omega) ha, isLeaf_node h2 (by omega) ha, nextSibling_node hr k hl ha, children_yields hr k hf hl hn⟩

/-- The parent, the previous sibling, the last child, and the children from right to left. Missing for the
full property: block sizes other than multiples and divisors of the lookup size. -/
theorem C42_backward_partial {v : BV} (hw : v.WF) {f : Forest} (hf : v.bits = parens f) {bs : Nat} (hbs : 0 < bs)
    (hl : v.len ≤ 9223372036854775805) :
    ∃ t, BpTree.fromBitVector bs v = .ok t ∧
      ∀ (k : Variant), (k.size ∣ bs ∨ bs ∣ k.size) → ∀ n ∈ nodes f,
        t.parent bs k n.handle = .ok n.ancestors.head? ∧
        t.previousSibling bs k n.handle = .ok n.before.head? ∧
        t.lastChild bs k n.handle = .ok n.children.getLast? ∧
        ∃ s, t.childrenIter bs k false n.handle = .ok s ∧
          Yields (t.childrenNext bs k false) s n.children.reverse := by
  obtain ⟨t, h1, h2, h3⟩ := fromBitVector_total hw hbs (by omega)
  refine ⟨t, h1, fun k hfit n hn => ?_⟩
  obtain ⟨_, _, _, _, ha⟩ := around_of hf hn
  have hr := h3 (by have := Rep.len_pos ha.open_bit; omega)
  exact ⟨by rw [parent_node hr hfit hl ha, List.head?_eq_getElem?], previousSibling_node hr hfit (by omega) ha,
    lastChild_node hr hfit (by omega) ha, revChildren_yields hr hfit hf (by omega) hn⟩

example := C42_backward_partial (v := exVec) (by decide) (f := exForest) (by decide) (bs := 512) (by decide) (by decide)

omit [Profile] in
/-- The specification of the nodes is consistent: the children of a node have it as their parent, and their
siblings are the other children, in this order. -/
theorem C42_spec_children {f : Forest} {n : Node} (hn : n ∈ nodes f) {i x : Nat} (hx : n.children[i]? = some x) :
    ∃ m ∈ nodes f, m.handle = x ∧ m.ancestors = n.handle :: n.ancestors ∧
      m.after = n.children.drop (i + 1) ∧ m.before = (n.children.take i).reverse :=
  children_nodes hn hx

example : ∃ n ∈ nodes exForest, n.handle = 0 ∧ n.children[1]? = some 3 := by decide

omit [Profile] in
/-- Every opening parenthesis is the handle of exactly one node. -/
theorem C42_spec_handles (f : Forest) : (nodes f).map Node.handle = positions true (parens f) := nodes_handles f

example : exVec.WF ∧ exVec.bits = parens exForest ∧ exVec.len ≤ 9223372036854775805 ∧
    (nodes exForest).map (fun n => (n.handle, n.children, n.after, n.before, n.ancestors)) =
      [(0, [1, 3], [8], [], []), (1, [], [3], [], [0]), (3, [4], [], [1], [0]), (4, [], [], [], [3, 0]),
        (8, [], [], [0], [])] := by decide

/-- Defect: the block sizes for which the previous sibling is right for every node of every tree, and those
for which the parent is, are exactly the multiples and the divisors of the lookup size. -/
theorem C42_block_size_iff {bs : Nat} (hbs : 0 < bs) (hb : bs ≤ 1152921504606846976) (k : Variant) :
    ((k.size ∣ bs ∨ bs ∣ k.size) ↔
      ∀ (v : BV) (f : Forest), v.WF → v.bits = parens f → v.len ≤ 9223372036854775000 →
        ∀ t, BpTree.fromBitVector bs v = .ok t → ∀ n ∈ nodes f,
          t.previousSibling bs k n.handle = .ok n.before.head?) ∧
    ((k.size ∣ bs ∨ bs ∣ k.size) ↔
      ∀ (v : BV) (f : Forest), v.WF → v.bits = parens f → v.len ≤ 9223372036854775000 →
        ∀ t, BpTree.fromBitVector bs v = .ok t → ∀ n ∈ nodes f,
          t.parent bs k n.handle = .ok n.ancestors.head?) := by
  refine ⟨⟨?_, ?_⟩, ⟨?_, ?_⟩⟩
  · intro hfit v f hw hf hl t ht n hn
    obtain ⟨t', h1, h2⟩ := C42_backward_partial hw hf hbs (by omega)
    rw [ht] at h1
    cases h1
    exact (h2 k hfit n hn).2.1
  · intro h
    apply Classical.byContradiction
    intro hfit
    obtain ⟨m, v, t, hw, hv, hlen, hl, h1, h2, h3⟩ := bad_block_size hbs hb hfit
    obtain ⟨n, n1, n2, n3⟩ := bad_node m [] [] 0
    have e := h v _ hw hv hl t h1 n n1
    rw [n2, n3, Nat.zero_add] at e
    exact bad_previousSibling hv h2 h3 e
  · intro hfit v f hw hf hl t ht n hn
    obtain ⟨t', h1, h2⟩ := C42_backward_partial hw hf hbs (by omega)
    rw [ht] at h1
    cases h1
    exact (h2 k hfit n hn).1
  · intro h
    apply Classical.byContradiction
    intro hfit
    obtain ⟨f, v, t, hw, hv, hl, h1, n, n1, n2⟩ := bad_parent hbs hb hfit
    exact n2 (h v f hw hv hl t h1 n n1)

example : ¬(Variant.u16.size ∣ 40 ∨ 40 ∣ Variant.u16.size) ∧ exVec.WF ∧ exVec.bits = parens exForest ∧
    (∃ n ∈ nodes exForest, n.handle = 3 ∧ n.before.head? = some 1) := by decide

/-! ## C43 depth, ancestors, levels -/

/-- `depth`, `level_next` and `level_leftmost`, for all trees and block sizes. Levels beyond the range of
`i64` are excluded, see `C43_huge_level_defect`, and `level_leftmost` of the empty tree, see
`C43_empty_defect`; both are missing for the full property. -/
theorem C43_forward_partial {v : BV} (hw : v.WF) {f : Forest} (hf : v.bits = parens f) {bs : Nat} (hbs : 0 < bs)
    (hl : v.len ≤ 9223372036854775806) :
    ∃ t, BpTree.fromBitVector bs v = .ok t ∧ ∀ (k : Variant),
      (∀ n ∈ nodes f, t.depth n.handle = .ok n.ancestors.length) ∧
      (∀ n ∈ nodes f, t.levelNext bs k n.handle =
        .ok (((nodes f).filter (fun m => n.handle < m.handle && m.depth == n.depth)).head?.map Node.handle)) ∧
      (∀ level : Word, f ≠ .nil → level.toNat + v.len ≤ 9223372036854775807 →
        t.levelLeftmost bs k level =
          .ok (((nodes f).filter (fun m => m.depth == level.toNat)).head?.map Node.handle)) := by
  obtain ⟨t, h1, h2, h3⟩ := fromBitVector_total hw hbs (by omega)
  refine ⟨t, h1, fun k => ⟨fun n hn => ?_, fun n hn => ?_, fun level hne hlev => ?_⟩⟩
  · obtain ⟨_, _, _, _, ha⟩ := around_of hf hn
    exact depth_node h2 hl ha
  · obtain ⟨_, _, _, _, ha⟩ := around_of hf hn
    exact levelNext_node (h3 (by have := Rep.len_pos ha.open_bit; omega)) k hf hl hn
  · have h0 : 0 < v.len := by
      rw [len_eq hf]
      cases f with
      | nil => exact absurd rfl hne
      | cons c s => simp [Forest.size]
    exact levelLeftmost_eq (h3 h0) k hf h0 hlev

/-- `level_ancestor`, `level_prev` and `level_rightmost` of levels other than 0. Missing for the full
property: other block sizes, levels beyond the range of `i64`, and level 0 of `level_rightmost`, see
`C43_level_rightmost_zero_defect`. -/
theorem C43_backward_partial {v : BV} (hw : v.WF) {f : Forest} (hf : v.bits = parens f) {bs : Nat} (hbs : 0 < bs)
    (hl : v.len ≤ 9223372036854775806) :
    ∃ t, BpTree.fromBitVector bs v = .ok t ∧ ∀ (k : Variant), (k.size ∣ bs ∨ bs ∣ k.size) →
      (∀ n ∈ nodes f, ∀ level : Word, level.toNat + v.len ≤ 9223372036854775807 →
        t.levelAncestor bs k n.handle level = .ok (n.handle :: n.ancestors)[level.toNat]?) ∧
      (∀ n ∈ nodes f, t.levelPrev bs k n.handle =
        .ok (((nodes f).filter (fun m => m.handle < n.handle && m.depth == n.depth)).getLast?.map Node.handle)) ∧
      (∀ level : Word, f ≠ .nil → level ≠ 0#64 → level.toNat + v.len ≤ 9223372036854775807 →
        t.levelRightmost bs k level =
          .ok (((nodes f).filter (fun m => m.depth == level.toNat)).getLast?.map Node.handle)) := by
  obtain ⟨t, h1, h2, h3⟩ := fromBitVector_total hw hbs (by omega)
  refine ⟨t, h1, fun k hfit => ⟨fun n hn level hlev => ?_, fun n hn => ?_, fun level hne hz hlev => ?_⟩⟩
  · obtain ⟨_, _, _, _, ha⟩ := around_of hf hn
    exact levelAncestor_node (h3 (by have := Rep.len_pos ha.open_bit; omega)) hfit ha hlev
  · obtain ⟨_, _, _, _, ha⟩ := around_of hf hn
    exact levelPrev_node (h3 (by have := Rep.len_pos ha.open_bit; omega)) hfit hf hl hn
  · have h0 : 0 < v.len := by
      rw [len_eq hf]
      cases f with
      | nil => exact absurd rfl hne
      | cons c s => simp [Forest.size]
    exact levelRightmost_eq (h3 h0) hfit hf h0 hz hlev

example := C43_backward_partial (v := exVec) (by decide) (f := exForest) (by decide) (bs := 512) (by decide) (by decide)

omit [Profile] in
/-- The nodes are listed in preorder, by ascending handles, so that the next node of the same depth is the
first one of larger handle. -/
theorem C43_spec_nodes_sorted (f : Forest) : ((nodes f).map Node.handle).Pairwise (· < ·) := nodes_sorted f

example : exVec.WF ∧ exVec.bits = parens exForest ∧ exVec.len ≤ 9223372036854775806 ∧
    (nodes exForest).map Node.depth = [0, 1, 1, 2, 0] ∧ (2#64).toNat + exVec.len ≤ 9223372036854775807 := by decide

/-- Defect: if the last tree of the forest is a single node, `level_rightmost(0)` is not this node but the
root of the tree before it (`None` if there is none), for all such forests. -/
theorem C43_level_rightmost_zero_defect {v : BV} (hw : v.WF) {g : Forest}
    (hf : v.bits = parens g ++ [true, false]) {bs : Nat} (hbs : 0 < bs) (hl : v.len ≤ 9223372036854775806) :
    ∃ t, BpTree.fromBitVector bs v = .ok t ∧ ∀ (k : Variant), (k.size ∣ bs ∨ bs ∣ k.size) →
      t.levelRightmost bs k 0#64 = .ok (roots 0 g).getLast? ∧
      (roots 0 g).getLast? ≠ some (parens g).length := by
  have h0 : 0 < v.len := by
    have := congrArg List.length hf
    rw [BV.length_bits] at this
    simp at this; omega
  obtain ⟨t, h1, h2⟩ := fromBitVector_rep hw hbs h0 (by omega)
  refine ⟨t, h1, fun k hfit => ⟨levelRightmost_zero (d := .nil) h2 hfit hf hl, ?_⟩⟩
  intro hc
  have hmem := List.mem_of_getLast? hc
  obtain ⟨n, hn, hh⟩ := root_node hmem
  obtain ⟨_, _, _, _, ha⟩ := around_nodes hn
  have := ha.close_lt
  have := ha.handle_lt_close
  omega

/-- If the last root has children, `level_rightmost(0)` is the last root. -/
theorem C43_level_rightmost_zero_partial {v : BV} (hw : v.WF) {f : Forest} (hf : v.bits = parens f) (hne : f ≠ .nil)
    (hr : ∀ n ∈ nodes f, (roots 0 f).getLast? = some n.handle → n.children ≠ []) {bs : Nat} (hbs : 0 < bs)
    (hl : v.len ≤ 9223372036854775806) :
    ∃ t, BpTree.fromBitVector bs v = .ok t ∧ ∀ (k : Variant), (k.size ∣ bs ∨ bs ∣ k.size) →
      t.levelRightmost bs k 0#64 = .ok (roots 0 f).getLast? := by
  obtain ⟨x, d, ⟨y, rfl⟩, h3, h4⟩ := parens_snoc f hne
  have hb := hf.trans h3
  have h0 : 0 < v.len := by
    have := congrArg List.length hb
    rw [BV.length_bits] at this
    simp at this; omega
  obtain ⟨t, h1, h2⟩ := fromBitVector_rep hw hbs h0 (by omega)
  refine ⟨t, h1, fun k hfit => ?_⟩
  have hd : d ≠ .nil := by
    rintro rfl
    obtain ⟨n, hn, hh⟩ := exists_node (f := f) (h := (parens y).length) (by rw [h3]; simp)
    obtain ⟨_, _, _, _, ha⟩ := around_nodes hn
    refine hr n hn (by rw [h4, hh]; simp) (ha.isLeaf.mpr ?_)
    rw [hh, h3]; simp [parens]
  rw [levelRightmost_zero (d := d) h2 hfit hb hl, if_neg hd, h4, length_parens]; simp

example : exVec.bits = parens (.cons (.cons .nil (.cons (.cons .nil .nil) .nil)) .nil) ++ [true, false] := by decide
example : ∃ f : Forest, f ≠ .nil ∧ (roots 0 f).length = 2 ∧
    ∀ n ∈ nodes f, (roots 0 f).getLast? = some n.handle → n.children ≠ [] :=
  ⟨.cons .nil (.cons (.cons .nil .nil) .nil), by decide⟩

/-- Defect: `level_leftmost(0)` of the empty tree is `Some(0)`. -/
theorem C43_empty_defect (bs : Nat) (k : Variant) :
    ∃ t, BpTree.fromBitVector bs BV.new = .ok t ∧ t.isEmpty = true ∧ t.levelLeftmost bs k 0#64 = .ok (some 0) := by
  obtain ⟨t, h1, h2⟩ := fromBitVector_new bs
  exact ⟨t, h1, by unfold BpTree.isEmpty; rw [h2.vec.2.2]; rfl, rfl⟩

/-- Defect: levels are cast to `i64`. In the tree `(())` with levels 0 and 1, `level_leftmost(2^64 - 1)` is
`Some(3)`, the last closing parenthesis, and `level_ancestor(_, 2^63)` panics with an overflow. -/
theorem C43_huge_level_defect (hd : Profile.debug = true) :
    (do
      let v ← BV.fromBools [true, true, false, false]
      let t ← BpTree.fromBitVector 512 v
      t.levelLeftmost 512 .u8 (BitVec.ofNat 64 (2 ^ 64 - 1))) = .ok (some 3) ∧
    (do
      let v ← BV.fromBools [true, true, false, false]
      let t ← BpTree.fromBitVector 512 v
      t.levelAncestor 512 .u8 1 (BitVec.ofNat 64 (2 ^ 63))) = .error .overflow := by
  exact ⟨by decide +revert +kernel, by decide +revert +kernel⟩

/-! ## C44 subtree_size, is_ancestor -/

/-- `subtree_size` is the number of nodes in the subtree (see `C44_spec_size`), and `is_ancestor(a, d)` is
true iff `a` is `d` or one of its ancestors. All trees, nodes and block sizes. -/
theorem C44_subtree {v : BV} (hw : v.WF) {f : Forest} (hf : v.bits = parens f) {bs : Nat} (hbs : 0 < bs)
    (hl : v.len ≤ 9223372036854775806) :
    ∃ t, BpTree.fromBitVector bs v = .ok t ∧ ∀ (k : Variant), ∀ n ∈ nodes f,
      t.subtreeSize bs k n.handle = .ok (some n.size) ∧
      ∀ d ∈ nodes f, t.isAncestor bs k n.handle d.handle =
        .ok (some (decide (n.handle = d.handle ∨ n.handle ∈ d.ancestors))) := by
  obtain ⟨t, h1, h2, h3⟩ := fromBitVector_total hw hbs (by omega)
  refine ⟨t, h1, fun k n hn => ?_⟩
  obtain ⟨_, _, _, _, ha⟩ := around_of hf hn
  have hr := h3 (by have := Rep.len_pos ha.open_bit; omega)
  refine ⟨subtreeSize_node hr k hl ha, fun d hd => ?_⟩
  obtain ⟨_, _, _, _, hda⟩ := around_of hf hd
  rw [isAncestor_eq hr k hl ha hda.open_bit]
  congr 3
  rw [ancestors_iff hn hd]
  have := ha.handle_lt_close
  apply propext
  omega

example := C44_subtree (v := exVec) (by decide) (f := exForest) (by decide) (bs := 512) (by decide) (by decide)

omit [Profile] in
/-- The size of a node is the number of nodes in its subtree. -/
theorem C44_spec_size {f : Forest} {n : Node} (hn : n ∈ nodes f) :
    n.size = ((preorder 0 f).filter (inSubtree f n)).length := size_filter hn

example : exVec.WF ∧ exVec.bits = parens exForest ∧ exVec.len ≤ 9223372036854775806 ∧
    (nodes exForest).map Node.size = [4, 1, 2, 1, 1] := by decide

/-! ## C45 traversals -/

/-- `dfs_iter` yields the nodes in preorder and `subtree_iter` those of the subtree in preorder, each
followed by `None`. All trees and block sizes. -/
theorem C45_preorder {v : BV} (hw : v.WF) {f : Forest} (hf : v.bits = parens f) {bs : Nat} (hbs : 0 < bs)
    (hl : v.len ≤ 9223372036854775806) :
    ∃ t, BpTree.fromBitVector bs v = .ok t ∧
      (∃ it, t.dfsIter = .ok it ∧ Yields (SelIter.next t.vec false) it (preorder 0 f)) ∧
      ∀ (k : Variant), ∀ n ∈ nodes f, ∃ s, t.subtreeIter bs k n.handle = .ok s ∧
        Yields t.subtreeNext s ((preorder 0 f).filter (inSubtree f n)) := by
  obtain ⟨t, h1, h2, h3⟩ := fromBitVector_total hw hbs (by omega)
  refine ⟨t, h1, ?_, fun k n hn => ?_⟩
  · obtain ⟨it, i1, i2, -⟩ := SelIter.new_rel (rs := t.vec) (zero := false) h2.inv
    rw [h2.bits, hf, Bool.not_false] at i2
    refine ⟨it, i1, ?_⟩
    rw [preorder_eq]
    exact yields_of_sim (rel := SelIter.Rel t.vec false) (fun s l hs => SelIter.next_rel h2.inv hs) i2
  · obtain ⟨_, _, _, _, ha⟩ := around_of hf hn
    exact subtree_yields (h3 (by have := Rep.len_pos ha.open_bit; omega)) k hf hl hn

/-- `dfs_iter` is double-ended and has an exact length: sequences of all iterator calls (`nth_back` as in
`C19_calls_partial`). -/
theorem C45_dfs_calls_partial {v : BV} (hw : v.WF) {f : Forest} (hf : v.bits = parens f) {bs : Nat} (hbs : 0 < bs)
    (hl : v.len ≤ 9223372036854775806) :
    ∃ t it, BpTree.fromBitVector bs v = .ok t ∧ t.dfsIter = .ok it ∧
      ∀ ops : List IterOp, CallsOk (NthBackOk (preorder 0 f)) (preorder 0 f) ops →
        execute (SelIter.step t.vec false) it ops = .ok (iterRun (preorder 0 f) ops) := by
  obtain ⟨t, h1, h2, h3⟩ := fromBitVector_total hw hbs (by omega)
  obtain ⟨rs, it, r1, r2, r3⟩ := C19_calls_partial hw false
  have : t.vec = rs := by
    unfold BpTree.fromBitVector at h1
    obtain ⟨m, -, hm⟩ := bind_eq_ok.mp h1
    rw [r1, ok_bind] at hm
    rw [← Except.ok.inj hm]
  refine ⟨t, it, h1, by unfold BpTree.dfsIter; rw [this]; exact r2, ?_⟩
  rw [this, preorder_eq, ← hf]
  exact r3

example : CallsOk (NthBackOk (preorder 0 exForest)) (preorder 0 exForest) [.next, .nthBack 1, .nth 1, .len] := by
  simp [CallsOk, iterStep, NthBackOk, preorder, exForest]

/-- `dfs_post_iter` yields the nodes in postorder and `subtree_post_iter` those of the subtree in postorder.
Missing for the full property: other block sizes. -/
theorem C45_postorder_partial {v : BV} (hw : v.WF) {f : Forest} (hf : v.bits = parens f) {bs : Nat} (hbs : 0 < bs)
    (hl : v.len ≤ 9223372036854775806) :
    ∃ t, BpTree.fromBitVector bs v = .ok t ∧ ∀ (k : Variant), (k.size ∣ bs ∨ bs ∣ k.size) →
      (∃ s, t.dfsPostIter = .ok s ∧ Yields (t.dfsPostNext bs k) s (postorder 0 f)) ∧
      ∀ n ∈ nodes f, ∃ s, t.subtreePostIter bs k n.handle = .ok s ∧
        Yields (t.subtreePostNext bs k) s ((postorder 0 f).filter (inSubtree f n)) := by
  obtain ⟨t, h1, h2, h3⟩ := fromBitVector_total hw hbs (by omega)
  refine ⟨t, h1, fun k hfit => ⟨dfsPost_yields h2 h3 hfit hf hl, fun n hn => ?_⟩⟩
  obtain ⟨_, _, _, _, ha⟩ := around_of hf hn
  exact subtreePost_yields (h3 (by have := Rep.len_pos ha.open_bit; omega)) hfit hf hl hn

example := C45_postorder_partial (v := exVec) (by decide) (f := exForest) (by decide) (bs := 512) (by decide) (by decide)

omit [Profile] in
/-- Preorder and postorder contain each node exactly once. -/
theorem C45_spec_once (f : Forest) :
    preorder 0 f = (nodes f).map Node.handle ∧ (preorder 0 f).Nodup ∧ (postorder 0 f).Perm (preorder 0 f) := by
  refine ⟨by rw [preorder_eq, nodes_handles], ?_, postorder_perm f 0⟩
  rw [preorder_eq, ← nodes_handles]
  exact (nodes_sorted f).imp (fun h => Nat.ne_of_lt h)

example : exVec.WF ∧ exVec.bits = parens exForest ∧ exVec.len ≤ 9223372036854775806 ∧
    preorder 0 exForest = [0, 1, 3, 4, 8] ∧ postorder 0 exForest = [1, 4, 3, 0, 8] ∧
    (nodes exForest).map (fun n => (postorder 0 exForest).filter (inSubtree exForest n)) =
      [[1, 4, 3, 0], [1], [4, 3], [4], [8]] := by decide

/-! ## C46 node_index, node_handle, size -/

/-- `size` is the number of nodes; `node_index` of the `i`-th node in preorder is `i`, `node_handle(i)` leads
back, and is the length of the sequence for `i ≥ size`. All trees and block sizes. -/
theorem C46_index {v : BV} (hw : v.WF) {f : Forest} (hf : v.bits = parens f) {bs : Nat} (hbs : 0 < bs)
    (hl : v.len ≤ 9223372036854775806) :
    ∃ t, BpTree.fromBitVector bs v = .ok t ∧
      t.size = .ok (nodes f).length ∧
      (∀ i n, (nodes f)[i]? = some n → t.nodeIndex n.handle = .ok i ∧ t.nodeHandle i = .ok n.handle) ∧
      (∀ i, (nodes f).length ≤ i → t.nodeHandle i = .ok v.len) := by
  obtain ⟨t, h1, h2, -⟩ := fromBitVector_total hw hbs (by omega)
  have hcount : v.bits.count true = (nodes f).length := by
    rw [← length_positions, hf, ← nodes_handles, List.length_map]
  refine ⟨t, h1, by rw [size_eq h2, hcount], fun i n hi => ?_, fun i hi => ?_⟩
  · have hp : (positions true v.bits)[i]? = some n.handle := by
      rw [hf, ← nodes_handles, List.getElem?_map, hi]; rfl
    obtain ⟨_, _, _, _, ha⟩ := around_of hf (List.mem_of_getElem? hi)
    refine ⟨?_, ?_⟩
    · unfold BpTree.nodeIndex
      rw [h2.assertNode ha.open_bit, ok_bind, h2.rank]
      exact congrArg _ ((C18_positions_spec _ _ _ _).mp hp).2
    · unfold BpTree.nodeHandle
      rw [h2.select, Bool.not_false, hp]; rfl
  · unfold BpTree.nodeHandle
    rw [h2.select, Bool.not_false, List.getElem?_eq_none (by rw [length_positions, hcount]; exact hi)]; rfl

example : exVec.WF ∧ exVec.bits = parens exForest ∧ exVec.len ≤ 9223372036854775806 ∧
    (nodes exForest)[3]?.map Node.handle = some 4 := by decide

/-! ## C47 builder -/

/-- After any sequence of `enter_node` (`true`) and `leave_node` (`false`) calls, `build` fails with the excess
iff there are not as many calls of both, and otherwise yields the tree of exactly this sequence. -/
theorem C47_calls {cs : List Bool} (hc : cs.length ≤ 9223372036854775807) {bs : Nat} (hbs : 0 < bs) :
    ∃ b, BpBuilder.calls cs .new = .ok b ∧ b.vec.WF ∧ b.vec.bits = cs ∧
      (cs.count true ≠ cs.count false → b.build bs = .ok (.error ((cs.count true : Int) - cs.count false))) ∧
      (cs.count true = cs.count false →
        ∃ t, b.build bs = .ok (.ok t) ∧ BpTree.fromBitVector bs b.vec = .ok t ∧ t.intoBitVec.bits = cs) := by
  obtain ⟨b, b1, b2, b3, b4⟩ := BpBuilder.calls_eq cs .new (by decide) rfl (by rw [show BpBuilder.new.vec.len = 0 from rfl]; omega)
  rw [show BpBuilder.new.vec.bits = [] from rfl, List.nil_append] at b3
  refine ⟨b, b1, b2, b3, fun h => ?_, fun h => ?_⟩
  · unfold BpBuilder.build
    rw [b3] at b4
    rw [b4, if_pos (by unfold Spec.excess; omega)]; rfl
  · have hl : b.vec.len ≤ 9223372036854775807 := by
      rw [← BV.length_bits, b3]; exact hc
    obtain ⟨t, h1, h2, -⟩ := fromBitVector_total b2 hbs hl
    refine ⟨t, ?_, h1, by unfold BpTree.intoBitVec; rw [h2.bits, b3]⟩
    unfold BpBuilder.build
    rw [b3] at b4
    rw [b4, if_neg (by unfold Spec.excess; omega), h1, ok_bind]; rfl

/-- Driving the builder by a depth-first walk of a forest yields the tree of its parenthesis sequence, to which
the theorems on navigation apply. -/
theorem C47_walk {f : Forest} (hc : (parens f).length ≤ 9223372036854775807) {bs : Nat} (hbs : 0 < bs) :
    ∃ b t, BpBuilder.calls (parens f) .new = .ok b ∧ b.build bs = .ok (.ok t) ∧
      b.vec.WF ∧ b.vec.bits = parens f ∧ BpTree.fromBitVector bs b.vec = .ok t := by
  obtain ⟨b, b1, b2, b3, -, b5⟩ := C47_calls hc hbs
  obtain ⟨t, t1, t2, -⟩ := b5 (by rw [count_true_parens, count_false_parens])
  exact ⟨b, t, b1, t1, b2, b3, t2⟩

example : (parens exForest).length ≤ 9223372036854775807 := by decide

/-- If no node is left before it is entered, then the build succeeds iff the calls walk a forest. Missing for the
full property: other sequences may be built too, see `C47_invalid_defect`. -/
theorem C47_valid_partial {cs : List Bool} (hc : cs.length ≤ 9223372036854775807) {bs : Nat} (hbs : 0 < bs)
    (hp : ∀ n, (cs.take n).count false ≤ (cs.take n).count true) :
    ∃ b, BpBuilder.calls cs .new = .ok b ∧ ((∃ t, b.build bs = .ok (.ok t)) ↔ ∃ f, parens f = cs) := by
  obtain ⟨b, b1, b2, b3, b4, b5⟩ := C47_calls hc hbs
  refine ⟨b, b1, ?_⟩
  rw [← C41_balanced_iff_forest]
  constructor
  · rintro ⟨t, ht⟩
    refine ⟨fun n => by have := hp n; unfold Spec.excess; omega, ?_⟩
    by_cases h : cs.count true = cs.count false
    · unfold Spec.excess; omega
    · rw [b4 h] at ht; cases ht
  · intro h
    obtain ⟨t, t1, -⟩ := b5 (by have := h.2; unfold Spec.excess at this; omega)
    exact ⟨t, t1⟩

example : ∀ n, (([true, true, false] : List Bool).take n).count false ≤ (([true, true, false] : List Bool).take n).count true := by
  intro n; match n with
  | 0 => decide
  | 1 => decide
  | 2 => decide
  | n + 3 => rw [List.take_of_length_le (by simp)]; decide

/-- Defect: every sequence of equally many `enter_node` and `leave_node` calls builds successfully, also if some node
is left before it is entered, so that no tree has this sequence. -/
theorem C47_invalid_defect {cs : List Bool} (hc : cs.length ≤ 9223372036854775807) {bs : Nat} (hbs : 0 < bs)
    (heq : cs.count true = cs.count false) {n : Nat} (hn : (cs.take n).count true < (cs.take n).count false) :
    (∃ b t, BpBuilder.calls cs .new = .ok b ∧ b.build bs = .ok (.ok t) ∧ t.intoBitVec.bits = cs) ∧
    ¬∃ f, parens f = cs := by
  obtain ⟨b, b1, -, -, -, b5⟩ := C47_calls hc hbs
  obtain ⟨t, t1, -, t3⟩ := b5 heq
  refine ⟨⟨b, t, b1, t1, t3⟩, fun h => ?_⟩
  have := ((C41_balanced_iff_forest cs).2 h).1 n
  unfold Spec.excess at this
  omega

example : ([false, true] : List Bool).count true = ([false, true] : List Bool).count false ∧
    (([false, true] : List Bool).take 1).count true < (([false, true] : List Bool).take 1).count false := by decide

/-- `with_capacity` is `new` in release builds, for every capacity; in debug builds, too, up to 2^63 - 1 nodes. -/
theorem C47_with_capacity (capacity : Nat) (h : Profile.debug = false ∨ capacity < 9223372036854775808) :
    BpBuilder.withCapacity capacity = .ok .new := by
  unfold BpBuilder.withCapacity mulU wrapR
  split
  · rfl
  · split
    · rename_i h2; rcases h with h | h
      · rw [h] at h2; cases h2
      · omega
    · rfl

/-- Larger capacities panic in debug builds: `capacity * 2` overflows. -/
theorem C47_with_capacity_defect {capacity : Nat} (hd : Profile.debug = true) (h : 9223372036854775808 ≤ capacity) :
    BpBuilder.withCapacity capacity = .error .overflow := by
  unfold BpBuilder.withCapacity mulU wrapR
  rw [if_neg (by omega), if_pos hd]; rfl

example : @BpBuilder.withCapacity ⟨true⟩ 9223372036854775808 = .error .overflow ∧
    @BpBuilder.withCapacity ⟨false⟩ 9223372036854775808 = .ok .new :=
  ⟨@C47_with_capacity_defect ⟨true⟩ _ rfl (by decide), @C47_with_capacity ⟨false⟩ _ (.inl rfl)⟩

/-! ## C50 no panic -/

/-- On every non-empty sequence, balanced or not, and for every block size, these do not panic: `excess` and
the searches, `close`, `open` and `enclose` at any position, the queries at any opening parenthesis, and the
iterators that are not documented to panic. Missing for the full property: the empty tree, `level_rightmost`
if there is no opening parenthesis and `excess` beyond the sequence, all of which panic, see
`C50_empty_defect`, `C50_level_rightmost_defect` and `C50_excess_defect`. Other relative excesses and levels:
`C50_any_excess_partial`. -/
theorem C50_total_partial {v : BV} (hw : v.WF) (h0 : 0 < v.len) {bs : Nat} (hbs : 0 < bs)
    (hl : v.len ≤ 9223372036854775773) :
    ∃ t, BpTree.fromBitVector bs v = .ok t ∧ ∀ (k : Variant),
      (∀ i < v.len, ∃ o, t.excess i = .ok o) ∧
      (∀ i (rel : Int), rel.natAbs + v.len ≤ 9223372036854775775 →
        (∃ o, t.fwdSearch bs k i rel = .ok o) ∧ (∃ o, t.bwdSearch bs k i rel = .ok o)) ∧
      (∀ i, (∃ o, t.close bs k i = .ok o) ∧ (∃ o, t.opening bs k i = .ok o) ∧ (∃ o, t.enclose bs k i = .ok o) ∧
        (∃ o, t.nodeHandle i = .ok o) ∧ (∃ o, t.levelNext bs k i = .ok o) ∧ (∃ o, t.levelPrev bs k i = .ok o)) ∧
      (∃ o, t.size = .ok o) ∧
      (∀ i, v.bits[i]? = some true →
        (∃ o, t.parent bs k i = .ok o) ∧ (∃ o, t.firstChild i = .ok o) ∧ (∃ o, t.nextSibling bs k i = .ok o) ∧
        (∃ o, t.previousSibling bs k i = .ok o) ∧ (∃ o, t.lastChild bs k i = .ok o) ∧
        (∃ o, t.nodeIndex i = .ok o) ∧ (∃ o, t.isLeaf i = .ok o) ∧ (∃ o, t.depth i = .ok o) ∧
        (∃ o, t.subtreeSize bs k i = .ok o) ∧
        (∀ d, v.bits[d]? = some true → ∃ o, t.isAncestor bs k i d = .ok o)) ∧
      (∀ i (level : Word), level.toNat + v.len ≤ 9223372036854775775 →
        (∃ o, t.levelAncestor bs k i level = .ok o) ∧ (∃ o, t.levelLeftmost bs k level = .ok o) ∧
        (true ∈ v.bits → ∃ o, t.levelRightmost bs k level = .ok o)) ∧
      (∀ m, ∃ s o, t.dfsIter = .ok s ∧ runNext (SelIter.next t.vec false) m s = .ok o) ∧
      (∀ i, v.bits[i]? = some true → ∀ m,
        (∃ s o, t.subtreeIter bs k i = .ok s ∧ runNext t.subtreeNext m s = .ok o) ∧
        (∃ s o, t.childrenIter bs k true i = .ok s ∧ runNext (t.childrenNext bs k true) m s = .ok o) ∧
        ((k.size ∣ bs ∨ bs ∣ k.size) →
          ∃ s o, t.childrenIter bs k false i = .ok s ∧ runNext (t.childrenNext bs k false) m s = .ok o)) := by
  obtain ⟨t, h1, h2⟩ := fromBitVector_rep hw hbs h0 (by omega)
  have h3 := h2.vrep
  refine ⟨t, h1, fun k => ⟨fun i hi => ⟨_, excess_eq h3 hi (by omega)⟩, fun i rel hr => ⟨fwdSearch_total h2 k i h0 (by omega),
    bwdSearch_total h2 k i (by omega)⟩, fun i => ?_, ⟨_, size_eq h3⟩, fun i hi => ?_, fun i level hlev => ?_, fun m => ?_,
    fun i hi m => ⟨subtree_total h2 k hi hl m, children_total h2 k hi hl m, fun hfit => revChildren_total h2 hfit hi hl m⟩⟩⟩
  · obtain ⟨o, o1, -⟩ := close_total h2 k i h0 hl
    refine ⟨⟨o, o1⟩, opening_total h2 k i hl, enclose_total h2 k i hl, ⟨_, h3.select false i⟩, ?_, ?_⟩
    · unfold BpTree.levelNext
      rw [o1, ok_bind]
      cases o with
      | none => exact ⟨none, rfl⟩
      | some c => exact fwdSearch_total h2 k c h0 (by omega)
    · obtain ⟨o, o1⟩ := bwdSearch_total h2 k i (rel := 1) (by omega)
      unfold BpTree.levelPrev
      rw [o1, ok_bind]
      cases o with
      | none => exact ⟨none, rfl⟩
      | some c => exact opening_total h2 k c hl
  · obtain ⟨c, c1, c2⟩ := close_total h2 k i h0 hl
    obtain ⟨o1, p1, -⟩ := firstChild_total h3 (by omega) hi
    obtain ⟨o2, p2, -⟩ := nextSibling_total h2 k hi hl
    refine ⟨?_, ⟨o1, p1⟩, ⟨o2, p2⟩, ?_, ?_, ?_, ?_, ?_, ?_, fun d hd => ?_⟩
    · unfold BpTree.parent
      rw [h3.assertNode hi, ok_bind]; exact enclose_total h2 k i hl
    · rcases previousSibling_cases (bs := bs) h3 k hi with g | g
      · exact ⟨none, g⟩
      · rw [g]; exact opening_total h2 k _ hl
    · rcases lastChild_cases h2 k hi hl with g | ⟨j, g⟩
      · exact ⟨none, g⟩
      · rw [g]; exact opening_total h2 k _ hl
    · unfold BpTree.nodeIndex
      rw [h3.assertNode hi, ok_bind]; exact ⟨_, h3.rank false i⟩
    · have hlt := Rep.len_pos hi
      unfold BpTree.isLeaf
      rw [h3.assertNode hi, ok_bind, addU_of_lt (by omega), ok_bind, h3.get, ok_bind]; exact ⟨_, rfl⟩
    · unfold BpTree.depth
      rw [h3.assertNode hi, ok_bind, excess_eq h3 (Rep.len_pos hi) (by omega), ok_bind]; exact ⟨_, rfl⟩
    · unfold BpTree.subtreeSize
      rw [h3.assertNode hi, ok_bind, c1, ok_bind]
      cases c with
      | none => exact ⟨none, rfl⟩
      | some c =>
        simp only []
        rw [h3.rank, ok_bind, h3.rank, ok_bind, subR_of_le, ok_bind]
        · exact ⟨_, rfl⟩
        · unfold Spec.rank
          exact List.Sublist.count_le _ (List.take_sublist_take_left (Nat.le_of_lt (c2 c rfl)))
    · unfold BpTree.isAncestor
      rw [h3.assertNode hi, ok_bind, h3.assertNode hd, ok_bind, c1, ok_bind]; exact ⟨_, rfl⟩
  · have hlv : asI64 level = level.toNat := asI64_eq (by omega)
    refine ⟨?_, ?_, fun hm => ?_⟩
    · unfold BpTree.levelAncestor
      split
      · exact ⟨_, rfl⟩
      · rw [hlv]
        unfold subI
        rw [if_pos (by omega), ok_bind]
        exact bwdSearch_total h2 k i (by omega)
    · unfold BpTree.levelLeftmost
      split
      · exact ⟨_, rfl⟩
      · rw [hlv]; exact fwdSearch_total h2 k 0 h0 (by omega)
    · unfold BpTree.levelRightmost
      rw [size_eq h3, ok_bind, subR_of_le (by have := List.count_pos_iff.mpr hm; omega), ok_bind, hlv]
      obtain ⟨o, o1⟩ := bwdSearch_total h2 k (v.bits.count true * 2 - 1) (rel := level.toNat) (by omega)
      rw [o1, ok_bind]
      cases o with
      | none => exact ⟨none, rfl⟩
      | some c => exact opening_total h2 k c hl
  · obtain ⟨it, i1, i2, -⟩ := SelIter.new_rel (rs := t.vec) (zero := false) h3.inv
    obtain ⟨o, ho⟩ := runNext_total (next := SelIter.next t.vec false) (P := fun s => ∃ l, SelIter.Rel t.vec false s l)
      (fun s hs => by
        obtain ⟨l, hl⟩ := hs
        obtain ⟨s', g1, g2⟩ := SelIter.next_rel h3.inv hl
        exact ⟨s', _, g1, _, g2⟩) m it ⟨_, i2⟩
    exact ⟨it, o, i1, ho⟩

example : ∃ v : BV, v.WF ∧ 0 < v.len ∧ v.len ≤ 9223372036854775773 ∧ v.bits = [false, true, true, false, true, false, false] ∧
    ¬Balanced v.bits ∧ true ∈ v.bits :=
  ⟨⟨[0b0010110#64], 7⟩, by decide, by decide, by decide, by decide, fun h => absurd (h.1 1) (by decide), by decide⟩

/-- Defect: on the empty tree `fwd_search`, and `level_leftmost` except for level 0, panic. -/
theorem C50_empty_defect (hd : Profile.debug = true) {bs : Nat} (k : Variant) :
    ∃ t, BpTree.fromBitVector bs BV.new = .ok t ∧
      (∀ i rel, t.fwdSearch bs k i rel = .error .overflow) ∧
      (∀ level, level ≠ 0#64 → t.levelLeftmost bs k level = .error .overflow) ∧
      (∀ level, t.levelRightmost bs k level = .error .overflow) := by
  obtain ⟨t, h1, h2⟩ := fromBitVector_new bs
  have hf : ∀ i rel, t.fwdSearch bs k i rel = .error .overflow := by
    intro i rel
    unfold BpTree.fwdSearch
    rw [h2.vec.2.2, subR_overflow hd (by decide)]; rfl
  refine ⟨_, h1, hf, fun level hlev => ?_, fun level => ?_⟩
  · unfold BpTree.levelLeftmost
    rw [if_neg hlev]; exact hf _ _
  · unfold BpTree.levelRightmost
    rw [size_eq h2, ok_bind, subR_overflow hd (by decide)]; rfl

/-- Defect: on every sequence without an opening parenthesis `level_rightmost` panics. -/
theorem C50_level_rightmost_defect (hd : Profile.debug = true) {v : BV} (hw : v.WF) (hn : true ∉ v.bits) {bs : Nat} (hbs : 0 < bs)
    (hl : v.len ≤ 9223372036854775807) :
    ∃ t, BpTree.fromBitVector bs v = .ok t ∧ ∀ k level, t.levelRightmost bs k level = .error .overflow := by
  obtain ⟨t, h1, h2, -⟩ := fromBitVector_total hw hbs hl
  refine ⟨t, h1, fun k level => ?_⟩
  unfold BpTree.levelRightmost
  rw [size_eq h2, List.count_eq_zero.mpr hn, ok_bind, subR_overflow hd (by omega)]; rfl

example : true ∉ (BV.fromZeros 3).bits ∧ (BV.fromZeros 3).WF := by decide

/-- Defect: `excess` beyond the sequence panics in debug builds, although the documentation says that the
total excess is returned. -/
theorem C50_excess_defect (hd : Profile.debug = true) {v : BV} (hw : v.WF) {bs : Nat} (hbs : 0 < bs) (hl : v.len ≤ 9223372036854775807) :
    ∃ t, BpTree.fromBitVector bs v = .ok t ∧ ∀ i, v.len ≤ i → t.excess i = .error .assertion := by
  obtain ⟨t, h1, h2, -⟩ := fromBitVector_total hw hbs hl
  refine ⟨t, h1, fun i hi => ?_⟩
  unfold BpTree.excess
  rw [h2.vec.2.2, dassertR_false hd (by omega)]; rfl

end Vers
