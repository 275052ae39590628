import Verif.Proofs.IterSteps
import Verif.Props.RsIterSteps
import Verif.Props.BpTree
import Verif.Props.Sparse

/-! # Properties C75, C79 and C80: the number of steps of an iteration from both ends

`SelIter.bothC` and `EfIter.bothC` (`Model/IterSteps.lean`) are loops of calls of `next` (`true`) and `next_back`
(`false`) in any order, with a counter for the accesses to the select blocks, super blocks and blocks and for reading the
lower half. -/

namespace Vers

/-- Specification: elements are taken from the front (`true`) or from the back (`false`) of a list. -/
def Spec.takeEnds {α : Type} : List Bool → List α → List (Option α)
  | [], _ => []
  | true :: ops, l => l.head? :: takeEnds ops l.tail
  | false :: ops, l => l.getLast? :: takeEnds ops l.dropLast

example : Spec.takeEnds [true, false, false, true, true] [1, 2, 3] = [some 1, some 3, some 2, none, none] := by decide

theorem takeEnds_front {α : Type} : ∀ l : List α, Spec.takeEnds (List.replicate l.length true) l = l.map some
  | [] => rfl
  | a :: l => by
    rw [List.length_cons, List.replicate_succ]
    show some a :: Spec.takeEnds _ l = _
    rw [takeEnds_front l]; rfl

theorem takeEnds_back {α : Type} (l : List α) :
    Spec.takeEnds (List.replicate l.length false) l = l.reverse.map some := by
  have key : ∀ l : List α, Spec.takeEnds (List.replicate l.length false) l.reverse = l.map some := by
    intro l
    induction l with
    | nil => rfl
    | cons a l ih =>
      rw [List.length_cons, List.replicate_succ, List.reverse_cons]
      show (l.reverse ++ [a]).getLast? :: Spec.takeEnds _ (l.reverse ++ [a]).dropLast = _
      rw [List.dropLast_concat, ih]
      simp
  have := key l.reverse
  rwa [List.length_reverse, List.reverse_reverse] at this

variable [Profile]
open RsVec Spec Counted

/-- The step counter does not change the result of `next_back` either, for every structure and iterator. -/
theorem C75_back_counter (rs : RsVec) (zero : Bool) (it : SelIter) :
    (SelIter.nextBackC rs zero it).result = it.nextBack rs zero := SelIter.nextBackC_result it

example : (do
    let rs ← RsVec.fromBitVec ⟨[0b1011#64], 4⟩
    let it ← SelIter.new rs false
    (SelIter.bothC rs false [false, true, false, false] it).result) = .ok [some 3, some 0, some 1, none] := by
  decide +revert +kernel

/-- the results of a loop -/
theorem bothC_result {rs : RsVec} {zero : Bool} (h : rs.Inv) : ∀ (ops : List Bool) (it : SelIter) (l : List Nat),
    SelIter.Rel rs zero it l → (SelIter.bothC rs zero ops it).result = .ok (takeEnds ops l)
  | [], _, _, _ => rfl
  | true :: ops, it, l, hr => by
    obtain ⟨it', n1, n2⟩ := SelIter.next_rel h hr
    have ih := bothC_result h ops it' l.tail n2
    have hc : (SelIter.callC rs zero it true).result = .ok (it', l.head?) := by
      show (SelIter.nextC rs zero it).result = _
      rw [SelIter.nextC_result]; exact n1
    unfold SelIter.bothC
    rw [bind_of hc]
    show (SelIter.bothC rs zero ops it' >>= fun l' => pure (l.head? :: l')).result = _
    rw [bind_of ih]
    rfl
  | false :: ops, it, l, hr => by
    obtain ⟨it', n1, n2⟩ := SelIter.nextBack_rel h hr
    have ih := bothC_result h ops it' l.dropLast n2
    have hc : (SelIter.callC rs zero it false).result = .ok (it', l.getLast?) := by
      show (SelIter.nextBackC rs zero it).result = _
      rw [SelIter.nextBackC_result]; exact n1
    unfold SelIter.bothC
    rw [bind_of hc]
    show (SelIter.bothC rs zero ops it' >>= fun l' => pure (l.getLast? :: l')).result = _
    rw [bind_of ih]
    rfl

/-- Any sequence of calls of `next` and `next_back` on a new iterator yields the positions from both ends, and takes at
most 6 steps for each call and a number of steps for all of them that is linear in the length of the vector in bits.
Missing for the full property: the number of super blocks instead of the number of bits, see
`C75_last_super_block_defect`. -/
theorem C75_both_ends_partial {v : BV} (h : v.WF) (zero : Bool) :
    ∃ rs it, RsVec.fromBitVec v = .ok rs ∧ SelIter.new rs zero = .ok it ∧ ∀ ops : List Bool,
      (SelIter.bothC rs zero ops it).result = .ok (takeEnds ops (positions (!zero) v.bits)) ∧
      (SelIter.bothC rs zero ops it).steps ≤ 6 * ops.length + 2 * v.len := by
  obtain ⟨rs, h1, h2, h3, h4⟩ := fromBitVec_inv h
  obtain ⟨it, i1, i2, -⟩ := SelIter.new_rel (zero := zero) h2
  refine ⟨rs, it, h1, i1, fun ops => ⟨?_, ?_⟩⟩
  · rw [bits_of_from h3 h4] at i2
    exact bothC_result h2 ops it _ i2
  · have hs := SelIter.bothC_steps h2 ops it i2.1
    have hd := SelIter.due_le h2 i2.1
    rw [← h4]
    omega

example := C75_both_ends_partial (v := BV.fromOnes 20000) (BV.wf_fromOnes 20000) false

/-- The step counter does not change the results of `next` and `next_back` of the Elias-Fano iterators, for every structure
and iterator. -/
theorem C79_counter (ef : EF) (it : EfIter) :
    (it.nextC ef).result = it.next ef ∧ (it.nextBackC ef).result = it.nextBack ef :=
  ⟨(EfIter.nextC_within it).same, (EfIter.nextBackC_within it).same⟩

example : (do
    let ef ← EF.fromSlice ceilLog2 [0#64, 5#64, 900#64]
    let it ← EfIter.new ef
    (EfIter.bothC ef [false, true, true, false] it).result) = .ok [some 900#64, some 0#64, some 5#64, none] := by
  decide +revert +kernel

/-- a loop on a state that stands for `r` -/
theorem efBothC {ef : EF} {data : List Word} {ps : List Nat} (h : ef.Holds data ps) : ∀ (ops : List Bool) (it : EfIter)
    (r : List Word), EfIter.Rel ef data ps it r →
    (EfIter.bothC ef ops it).result = .ok (takeEnds ops r) ∧
      (EfIter.bothC ef ops it).steps ≤ 7 * ops.length + 2 * SelIter.due ef.upper false it.up
  | [], _, _, _ => ⟨rfl, Nat.zero_le _⟩
  | b :: ops, it, r, hr => by
    obtain ⟨it', c1, c2, c3⟩ := EfIter.callC_spec h hr b
    obtain ⟨i1, i2⟩ := efBothC h ops it' _ c2
    unfold EfIter.bothC
    rw [bind_of c1]
    constructor
    · show (EfIter.bothC ef ops it' >>= fun l' => pure ((if b then r.head? else r.getLast?) :: l')).result = _
      rw [bind_of i1]
      cases b <;> rfl
    · show _ + (EfIter.bothC ef ops it' >>= fun l' => pure ((if b then r.head? else r.getLast?) :: l')).steps ≤ _
      rw [steps_map, List.length_cons]
      omega

/-- Any sequence of calls of `next` and `next_back` on a new iterator of an Elias-Fano vector yields the elements from both
ends, and takes at most 7 steps for each call and `18 n + 36` steps for all of them, where `n` is the number of elements:
for every sorted sequence and every rounding of the logarithm. -/
theorem C79_iteration {fl : Nat → Nat} (hfl : LogLike fl) {data : List Word} (hs : Sorted data)
    (hl : data.length < 2 ^ 60) :
    ∃ ef it, EF.fromSlice fl data = .ok ef ∧ EfIter.new ef = .ok it ∧ ∀ ops : List Bool,
      (EfIter.bothC ef ops it).result = .ok (takeEnds ops data) ∧
      (EfIter.bothC ef ops it).steps ≤ 7 * ops.length + (18 * data.length + 36) := by
  obtain ⟨ef, e1, e2, e3, e4⟩ := fromSlice_stores hfl hs hl
  have hlen : ef.upper.len ≤ 9 * data.length + 18 := by
    by_cases hne : data = []
    · rcases e4 with ⟨-, h0⟩ | h
      · omega
      · exact absurd hne (by intro h'; have := h.zero; rw [h'] at this; simp at this)
    · exact upper_len_le hfl hne e1 hs hl
  have hh : ∃ ps, ef.Holds data ps := by
    rcases e4 with ⟨h0, h0'⟩ | h
    · subst h0
      exact ⟨_, EF.holds_of_empty e3 e2 h0'⟩
    · exact EF.holds_of_stores h
  obtain ⟨ps, hh⟩ := hh
  obtain ⟨it, i1, i2⟩ := EfIter.new_rel hh
  refine ⟨ef, it, e1, i1, fun ops => ?_⟩
  obtain ⟨b1, b2⟩ := efBothC hh ops it data i2
  have := SelIter.due_le e3 i2.up.1
  exact ⟨b1, by omega⟩

example := C79_iteration logLike_ceilLog2 (data := List.replicate 100000 7#64)
  (by unfold Sorted; rw [List.pairwise_replicate]; right; decide) (by rw [List.length_replicate]; decide)

/-- Hence a complete iteration in any order takes linear time: at most `25 n + 36` steps. -/
theorem C79_complete {fl : Nat → Nat} (hfl : LogLike fl) {data : List Word} (hs : Sorted data)
    (hl : data.length < 2 ^ 60) :
    ∃ ef it, EF.fromSlice fl data = .ok ef ∧ EfIter.new ef = .ok it ∧
      (EfIter.bothC ef (List.replicate data.length true) it).result = .ok (data.map some) ∧
      (EfIter.bothC ef (List.replicate data.length false) it).result = .ok (data.reverse.map some) ∧
      ∀ ops : List Bool, ops.length = data.length → (EfIter.bothC ef ops it).steps ≤ 25 * data.length + 36 := by
  obtain ⟨ef, it, e1, i1, h⟩ := C79_iteration hfl hs hl
  refine ⟨ef, it, e1, i1, ?_, ?_, fun ops ho => ?_⟩
  · rw [(h _).1, takeEnds_front]
  · rw [(h _).1, takeEnds_back]
  · have := (h ops).2
    omega

example := C79_complete logLike_ceilLog2 (data := [3#64, 5#64, 900#64]) (by simp [Sorted]) (by decide)

/-- Likewise the iteration over the set bits of a sparse vector, in terms of their number. -/
theorem C79_sparse {fl : Nat → Nat} (hfl : LogLike fl) {input : List Word} {len : Word}
    (hs : input.Pairwise (· < ·)) (hb : ∀ x, x ∈ input → x < len) (hn : input.length < 2 ^ 60) :
    ∃ s it, Sparse.new fl input len = .ok s ∧ s.iter1 = .ok it ∧ ∀ ops : List Bool,
      (EfIter.bothC s.vec ops it).result = .ok (takeEnds ops input) ∧
      (EfIter.bothC s.vec ops it).steps ≤ 7 * ops.length + (18 * input.length + 36) := by
  obtain ⟨s, s1, -⟩ := C27_new hfl hs hb hn
  obtain ⟨ef, it, e1, i1, h⟩ := C79_iteration hfl (data := input) (Sparse.enum_indicator hs hb hn).sorted hn
  have hv : s.vec = ef := by
    unfold Sparse.new at s1
    obtain ⟨-, -, s1⟩ := bind_eq_ok.mp s1
    obtain ⟨-, -, s1⟩ := bind_eq_ok.mp s1
    rw [e1, ok_bind] at s1
    cases s1; rfl
  exact ⟨s, it, s1, by unfold Sparse.iter1; rw [hv]; exact i1, by rw [hv]; exact h⟩

example := C79_sparse logLike_ceilLog2 (input := [3#64, 17#64, 40#64]) (len := 50#64) (by decide) (by simp) (by decide)

/-! ## C80 -/

omit [Profile] in
theorem length_preorder : ∀ (f : Forest) (p : Nat), (preorder p f).length = f.size
  | .nil, _ => rfl
  | .cons c s, p => by
    unfold preorder Forest.size
    rw [List.length_cons, List.length_append, length_preorder c, length_preorder s]
    omega

/-- A traversal of a tree in preorder takes linear time: any sequence of calls of `next` and `next_back` on the iterator
yields the nodes in preorder from both ends, and takes at most 6 steps for each call and `4 n` steps for all of them, where
`n` is the number of nodes. -/
theorem C80_traversal {v : BV} (hw : v.WF) {f : Forest} (hf : v.bits = parens f) {bs : Nat} (hbs : 0 < bs)
    (hl : v.len ≤ 9223372036854775806) :
    ∃ t it, BpTree.fromBitVector bs v = .ok t ∧ t.dfsIter = .ok it ∧ ∀ ops : List Bool,
      (SelIter.bothC t.vec false ops it).result = .ok (takeEnds ops (preorder 0 f)) ∧
      (SelIter.bothC t.vec false ops it).steps ≤ 6 * ops.length + 4 * f.size := by
  obtain ⟨t, h1, h2, h3⟩ := BpTree.fromBitVector_total hw hbs (by omega)
  obtain ⟨it, i1, i2, -⟩ := SelIter.new_rel (rs := t.vec) (zero := false) h2.inv
  have hlen : t.vec.len = 2 * f.size := by
    rw [← length_parens, ← hf, ← h2.bits, BV.length_bits]; rfl
  refine ⟨t, it, h1, i1, fun ops => ⟨?_, ?_⟩⟩
  · rw [h2.bits, hf, Bool.not_false] at i2
    rw [preorder_eq]
    exact bothC_result h2.inv ops it _ i2
  · have hs := SelIter.bothC_steps h2.inv ops it i2.1
    have hd := SelIter.due_le h2.inv i2.1
    omega

example := C80_traversal (v := exVec) (by decide) (f := exForest) (by decide) (bs := 512) (by decide) (by decide)

/-- Hence visiting all `n` nodes takes at most `10 n` steps. -/
theorem C80_all_nodes {v : BV} (hw : v.WF) {f : Forest} (hf : v.bits = parens f) {bs : Nat} (hbs : 0 < bs)
    (hl : v.len ≤ 9223372036854775806) :
    ∃ t it, BpTree.fromBitVector bs v = .ok t ∧ t.dfsIter = .ok it ∧
      (SelIter.bothC t.vec false (List.replicate f.size true) it).result = .ok ((preorder 0 f).map some) ∧
      (SelIter.bothC t.vec false (List.replicate f.size true) it).steps ≤ 10 * f.size := by
  obtain ⟨t, it, h1, i1, h⟩ := C80_traversal hw hf hbs hl
  obtain ⟨r1, r2⟩ := h (List.replicate f.size true)
  rw [List.length_replicate] at r2
  have hn : f.size = (preorder 0 f).length := by
    rw [length_preorder]
  refine ⟨t, it, h1, i1, ?_, by omega⟩
  rw [r1]
  conv_lhs => rw [hn]
  rw [takeEnds_front]

example : exVec.WF ∧ exVec.bits = parens exForest ∧ exForest.size = 5 := by decide

example := C80_all_nodes (v := exVec) (by decide) (f := exForest) (by decide) (bs := 512) (by decide) (by decide)

end Vers
