import Verif.SpecClient
import Verif.Proofs.Space
import Verif.Props.BitVec
import Verif.Props.IterLoop

/-!
# Property C73: a structure copied through its interface is the same

Collecting the contents of a structure through its iterators (for the tree: a walk with `first_child` and
`next_sibling`) and constructing a structure from them gives the structure one started from: the identical value for
Elias-Fano vectors, sparse vectors and wavelet matrices, an equal one (`==`, C17) for rank/select vectors, a tree with the
same parentheses for trees.
-/

namespace Vers

variable [Profile]
open Spec WM
open Lookup (Variant)

/-- Elias-Fano vectors: `EliasFanoVec::from_slice(&ef.iter().collect())`. -/
theorem C73_elias_fano {fl : Nat → Nat} (hfl : LogLike fl) {data : List Word} (hs : Sorted data)
    (hl : data.length < 2 ^ 60) :
    ∃ ef, EF.fromSlice fl data = .ok ef ∧ (do
      let it ← EfIter.new ef
      let xs ← forLoop (EfIter.next ef) (ef.len + 1) it
      EF.fromSlice fl xs) = .ok ef := by
  obtain ⟨ef, it, e1, e2, e3⟩ := C71_elias_fano hfl hs hl
  obtain ⟨it', g1, -, g2, -⟩ := e3 [] trivial
  cases g1
  obtain ⟨ef', e1', e4, -⟩ := fromSlice_stores hfl hs hl
  rw [e1] at e1'
  cases e1'
  refine ⟨ef, e1, ?_⟩
  have g2 : forLoop (EfIter.next ef) (data.length + 1) it = .ok data := g2
  rw [e2, ok_bind, e4, g2, ok_bind]
  exact e1

example := C73_elias_fano logLike_ceilLog2 (data := efExample) (by simp [Sorted, efExample]) (by decide)

/-- Sparse vectors: `SparseRSVec::new(&s.iter1().collect(), s.len())`. -/
theorem C73_sparse {fl : Nat → Nat} (hfl : LogLike fl) {input : List Word} {len : Word}
    (hs : input.Pairwise (· < ·)) (hb : ∀ x, x ∈ input → x < len) (hn : input.length < 2 ^ 60) :
    ∃ s, Sparse.new fl input len = .ok s ∧ (do
      let it ← s.iter1
      let xs ← forLoop (EfIter.next s.vec) (input.length + 1) it
      Sparse.new fl xs s.len) = .ok s := by
  obtain ⟨s, it, e1, e2, e3⟩ := C27_iter1 hfl hs hb hn
  obtain ⟨-, it', g1, -, g2, -⟩ := e3 [] trivial
  cases g1
  refine ⟨s, e1, ?_⟩
  have g2 : forLoop (EfIter.next s.vec) (input.length + 1) it = .ok input := g2
  have hlen : s.len = len := by
    unfold Sparse.new at e1
    obtain ⟨_, _, e1⟩ := bind_eq_ok.mp e1
    obtain ⟨_, _, e1⟩ := bind_eq_ok.mp e1
    obtain ⟨_, _, e1⟩ := bind_eq_ok.mp e1
    cases e1
    rfl
  rw [e2, ok_bind, g2, ok_bind, hlen]
  exact e1

example := C73_sparse logLike_ceilLog2 (input := [3#64, 17#64, 40#64]) (len := 50#64) (by decide) (by simp) (by decide)

/-- Rank/select vectors: `RsVec::from_bit_vec(BitVec::from_bits_iter(rs.iter()))`. -/
theorem C73_rs_vec {v : BV} (h : v.WF) (hl : v.len < 2 ^ 64) :
    ∃ rs rs', RsVec.fromBitVec v = .ok rs ∧ (do
      let xs ← forLoop (GenIter.next rs.vecOps) (rs.len + 1) (GenIter.new rs.vecOps)
      let w ← BV.fromBits xs
      RsVec.fromBitVec w) = .ok rs' ∧ rs.eq rs' = .ok true := by
  obtain ⟨rs, e1, e2⟩ := C71_rs_vec h hl
  obtain ⟨it, g1, -, g2, -⟩ := e2 [] trivial
  cases g1
  obtain ⟨w, w1, w2, w3⟩ := C01_from_bits (v.bits.map b2w)
  obtain ⟨a, b, a1, b1, -, -, -, hab⟩ := C17_equality h w2
  rw [e1] at a1
  cases a1
  have g2 : forLoop (GenIter.next rs.vecOps) (v.bits.length + 1) (GenIter.new rs.vecOps) = .ok (v.bits.map b2w) := by
    have : LoopsOver (GenIter.next rs.vecOps) (GenIter.new rs.vecOps) (v.bits.map b2w) := g2
    unfold LoopsOver at this
    rwa [List.length_map] at this
  obtain ⟨rs2, r1, r2, r3, r4⟩ := fromBitVec_inv h
  rw [e1] at r1
  cases r1
  have hbits : w.bits = v.bits := by
    rw [w3, List.map_map]
    refine (List.map_congr_left (g := id) fun x _ => ?_).trans (List.map_id _)
    cases x <;> decide
  refine ⟨rs, b, e1, ?_, by rw [hab, hbits]; simp⟩
  rw [r4, ← BV.length_bits, g2, ok_bind, w1, ok_bind]
  exact b1

example := C73_rs_vec (v := (BV.fromOnes 70).dropLast 3) (by decide) (by decide)

/-! ## Wavelet matrix -/

/-- The matrix is determined by the sequence, whatever the constructor. -/
theorem C73_wavelet_unique {m m' : WM} {k : Nat} {vals : List Nat} (h : Built m k vals) (h' : Built m' k vals) :
    m = m' := by
  obtain ⟨vs, v1, v2, v3⟩ := built_vecs h
  obtain ⟨ws, w1, w2, w3⟩ := built_vecs h'
  rw [goodV_unique v3 w3 (by omega), w1] at v1
  obtain ⟨d⟩ := m
  obtain ⟨d'⟩ := m'
  cases v1
  rfl

/-- Wavelet matrices of up to 64 bits: `WaveletMatrix::from_slice(&m.iter_u64().collect(), m.bits_per_element())`. -/
theorem C73_wavelet_u64 {m : WM} {k : Nat} {vals : List Nat} (h : Built m k vals) (hn : vals.length < 2 ^ 64)
    (hk : k ≤ 64) :
    (do
      let xs ← forLoop (GenIter.next m.numOps) (m.len + 1) (GenIter.new m.numOps)
      fromSlice xs m.bitsPer) = .ok m := by
  obtain ⟨l, l1, -, l2⟩ := (C71_wavelet h hn).2.2.1 hk
  obtain ⟨it, g1, -, g2, -⟩ := l2 [] trivial
  cases g1
  have hs := built_stores h
  have g2 : forLoop (GenIter.next m.numOps) (l.length + 1) (GenIter.new m.numOps) = .ok l := g2
  have hlen : l.length = vals.length := by rw [← l1, List.length_map]
  rw [hs.len, ← hlen, g2, ok_bind, hs.bp]
  obtain ⟨m', m1, m2⟩ := C31_from_slice hs.pos hk l
  have e : l.map (·.toNat % 2 ^ k) = vals := by
    rw [← l1]
    refine List.map_congr_left fun x hx => Nat.mod_eq_of_lt (hs.lt _ ?_)
    rw [← l1]; exact List.mem_map_of_mem hx
  rw [e] at m2
  rw [m1, C73_wavelet_unique h m2]

example : ∃ m, fromSlice [5#64, 1#64, 7#64, 1#64, 4#64] 3 = .ok m ∧
    (do
      let xs ← forLoop (GenIter.next m.numOps) (m.len + 1) (GenIter.new m.numOps)
      fromSlice xs m.bitsPer) = .ok m := by
  obtain ⟨m, m1, m2⟩ := C31_from_slice (k := 3) (by omega) (by omega) [5#64, 1#64, 7#64, 1#64, 4#64]
  exact ⟨m, m1, C73_wavelet_u64 m2 (by decide) (by decide)⟩

omit [Profile] in
theorem chunks_append {k : Nat} (hk : 1 ≤ k) (a r : List Bool) (ha : a.length = k) :
    chunks k (a ++ r) = bitsToNat a :: chunks k r := by
  unfold chunks
  rw [List.length_append, ha, Nat.add_comm, Nat.add_div_right _ (by omega), List.range_succ_eq_map, List.map_cons,
    List.map_map]
  congr 1
  · rw [Nat.zero_mul, List.drop_zero, List.take_append_of_le_length (by omega), List.take_of_length_le (by omega)]
  · refine List.map_congr_left fun i _ => ?_
    simp only [Function.comp]
    rw [List.drop_append, List.drop_of_length_le (by rw [ha, Nat.succ_mul]; omega), List.nil_append, ha, Nat.succ_mul,
      Nat.add_sub_cancel]

omit [Profile] in
theorem chunks_flatMap {k : Nat} (hk : 1 ≤ k) : ∀ (vals : List Nat), (∀ x ∈ vals, x < 2 ^ k) →
    chunks k (vals.flatMap (natToBits k)) = vals
  | [], _ => by simp [chunks]
  | x :: vals, h => by
    rw [List.flatMap_cons, chunks_append hk _ _ (by simp),
      chunks_flatMap hk vals (fun y hy => h y (List.mem_cons_of_mem _ hy))]
    rw [bitsToNat_natToBits, Nat.mod_eq_of_lt (h x List.mem_cons_self)]

/-- Wavelet matrices of every width: the elements as bit vectors, appended to each other and passed to `from_bit_vec`. -/
theorem C73_wavelet {m : WM} {k : Nat} {vals : List Nat} (h : Built m k vals) (hn : vals.length < 2 ^ 64) :
    (do
      let xs ← forLoop (GenIter.next m.valueOps) (m.len + 1) (GenIter.new m.valueOps)
      let v ← BV.new.extend xs
      WM.fromBitVec v m.bitsPer) = .ok m := by
  have hs := built_stores h
  obtain ⟨l, l0, l1, l3⟩ := reprValue hs hn
  obtain ⟨it, g1, -, g2, -⟩ := loops_of_repr l0 [] trivial
  cases g1
  have g2 : forLoop (GenIter.next m.valueOps) (l.length + 1) (GenIter.new m.valueOps) = .ok l := g2
  have hlen : l.length = vals.length := by
    have := congrArg List.length l1
    simpa using this
  obtain ⟨v, v1, v2, v3⟩ := C06_extend BV.wf_new l l3
  have hb : v.bits = vals.flatMap (natToBits k) := by
    rw [v3, show BV.new.bits = [] from rfl, List.nil_append, List.flatMap_def, l1, ← List.flatMap_def]
  have hvl : v.len % k = 0 := by
    rw [← BV.length_bits, hb, List.length_flatMap]
    simp [List.map_const']
  obtain ⟨m', m1, m2⟩ := C31_from_bit_vec hs.pos v2 hvl
  rw [hb, chunks_flatMap hs.pos vals hs.lt] at m2
  rw [hs.len, ← hlen, g2, ok_bind, v1, ok_bind, hs.bp, m1, C73_wavelet_unique h m2]

example : ∃ m, Built m 3 [5, 1, 7, 1] := by
  obtain ⟨m, _, h⟩ := C31_from_slice (k := 3) (by decide) (by decide) [5#64, 1#64, 7#64, 1#64]
  exact ⟨m, h⟩

/-! ## Trees -/

omit [Profile] in
theorem walk_forest {fc ns : Nat → R (Option Nat)} {f0 : Forest}
    (h : ∀ n ∈ nodes f0, fc n.handle = .ok n.children.head? ∧ ns n.handle = .ok n.after.head?) :
    ∀ (f : Forest) (anc left : List Nat) (p fuel : Nat), (∀ n ∈ nodesFrom anc left p f, n ∈ nodes f0) →
      f.size ≤ fuel → walk fc ns fuel (roots p f).head? = .ok (parens f)
  | .nil, _, _, _, fuel, _, _ => by cases fuel <;> rfl
  | .cons c s, anc, left, p, 0, _, hf => by simp [Forest.size] at hf
  | .cons c s, anc, left, p, fuel + 1, hn, hf => by
    rw [nodesFrom] at hn
    simp only [Forest.size] at hf
    obtain ⟨h1, h2⟩ := h _ (hn _ List.mem_cons_self)
    have i1 := walk_forest h c (p :: anc) [] (p + 1) fuel
      (fun n hm => hn n (List.mem_cons_of_mem _ (List.mem_append_left _ hm))) (by omega)
    have i2 := walk_forest h s anc (p :: left) (p + 2 * c.size + 1 + 1) fuel
      (fun n hm => hn n (List.mem_cons_of_mem _ (List.mem_append_right _ hm))) (by omega)
    simp only at h1 h2
    show walk fc ns (fuel + 1) (some p) = _
    unfold walk
    rw [h1, ok_bind, i1, ok_bind, h2, ok_bind, i2, ok_bind]
    rfl

/-- Trees: a walk from the root with `first_child` and `next_sibling`, which calls `enter_node` and `leave_node` of a
builder, builds a tree with the same parentheses, for every tree and block size. -/
theorem C73_tree {v : BV} (hw : v.WF) {f : Forest} (hf : v.bits = parens f) {bs : Nat} (hbs : 0 < bs)
    (hl : v.len ≤ 9223372036854775806) :
    ∃ t, BpTree.fromBitVector bs v = .ok t ∧ ∀ k : Variant, ∃ cs b t',
      walk t.firstChild (fun n => t.nextSibling bs k n) v.len t.root = .ok cs ∧
      BpBuilder.calls cs .new = .ok b ∧ b.build bs = .ok (.ok t') ∧
      t'.intoBitVec.bits = t.intoBitVec.bits ∧ t'.intoBitVec.bits = v.bits := by
  obtain ⟨t, h1, h2, -, h3⟩ := C42_forward hw hf hbs hl
  refine ⟨t, h1, fun k => ?_⟩
  have hlen : v.len = (parens f).length := by rw [← BV.length_bits, hf]
  have hsz : f.size ≤ v.len := by rw [BpTree.len_eq hf]; omega
  have hwalk := walk_forest (fc := t.firstChild) (ns := fun n => t.nextSibling bs k n) (f0 := f)
    (fun n hn => ⟨(h3 k n hn).1, (h3 k n hn).2.2.1⟩) f [] [] 0 v.len (fun n hn => hn) hsz
  rw [← h2] at hwalk
  obtain ⟨b, b1, b2, b3, -, b5⟩ := C47_calls (cs := parens f) (by omega) hbs
  obtain ⟨t', t1, t2, t3⟩ := b5 (by rw [count_true_parens, count_false_parens])
  obtain ⟨t'', t1', t2', -⟩ := BpTree.fromBitVector_total hw hbs (by omega)
  rw [h1] at t1'
  cases t1'
  have e : t.intoBitVec.bits = v.bits := by unfold BpTree.intoBitVec; rw [t2'.bits]
  exact ⟨parens f, b, t', hwalk, b1, t1, by rw [t3, e, hf], by rw [t3, hf]⟩

example := C73_tree (v := exVec) (by decide) (f := exForest) (by decide) (bs := 24) (by decide) (by decide)

end Vers
