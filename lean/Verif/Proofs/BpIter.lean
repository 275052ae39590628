import Verif.Proofs.BpLevel

set_option linter.unusedSimpArgs false

/-! # Traversals of the parenthesis tree -/

namespace Vers

variable [Profile]
open Spec Lookup

omit [Profile] in
theorem yields_of_sim {σ α : Type} {next : σ → R (σ × Option α)} {rel : σ → List α → Prop}
    (h : ∀ s l, rel s l → ∃ s', next s = .ok (s', l.head?) ∧ rel s' l.tail) {s : σ} {l : List α} (hr : rel s l) :
    Yields next s l := by
  intro k
  induction k generalizing s l with
  | zero => rfl
  | succ k ih =>
    obtain ⟨s', h1, h2⟩ := h s l hr
    rw [runNext, h1, ok_bind]
    simp only []
    rw [ih h2, ok_bind, List.range_succ_eq_map, List.map_cons, List.map_map, pure_eq_ok]
    congr 2
    · rw [List.head?_eq_getElem?]
    · apply List.map_congr_left
      intro i _
      simp

namespace BpTree
variable {t : BpTree} {v : BV} {bs : Nat} {k : Variant} {f : Forest} {n : Node}

/-! ## Children -/

/-- The state of `children` before yielding the children from the `i`-th on. -/
def ChRel (n : Node) (s : Option Nat) (l : List Nat) : Prop := ∃ i, l = n.children.drop i ∧ s = l.head?

theorem children_yields (h : Rep t bs v) (k : Variant) (hf : v.bits = parens f) (hl : v.len ≤ 9223372036854775806)
    (hn : n ∈ nodes f) : ∃ s, t.childrenIter bs k true n.handle = .ok s ∧
      Yields (t.childrenNext bs k true) s n.children := by
  obtain ⟨_, _, _, _, ha⟩ := around_of hf hn
  refine ⟨n.children.head?, ?_, yields_of_sim (rel := ChRel n) ?_ ⟨0, by simp, rfl⟩⟩
  · unfold childrenIter
    rw [h.vrep.assertNode ha.open_bit, ok_bind, if_pos rfl, firstChild_node h.vrep (by omega) ha]
  · rintro s l ⟨i, hi, hs⟩
    cases hx : l.head? with
    | none =>
      have : l = [] := List.head?_eq_none_iff.mp hx
      refine ⟨none, ?_, i, by rw [this] at hi ⊢; exact hi, by rw [this]; rfl⟩
      rw [hs, hx]; rfl
    | some x =>
      have hx' : n.children[i]? = some x := by rw [hi, List.head?_drop] at hx; exact hx
      obtain ⟨m, m1, m2, -, m4, -⟩ := children_nodes hn hx'
      obtain ⟨_, _, _, _, hm⟩ := around_of hf m1
      refine ⟨l.tail.head?, ?_, i + 1, by rw [hi, List.tail_drop], rfl⟩
      rw [hs, hx]
      unfold childrenNext
      simp only [if_true]
      rw [← m2, nextSibling_node h k hl hm, ok_bind, m4, hi, List.tail_drop]; rfl

/-- The state of `rev_children` before yielding the first `i` children. -/
def RevChRel (n : Node) (s : Option Nat) (l : List Nat) : Prop := ∃ i, l = (n.children.take i).reverse ∧ s = l.head?

theorem revChildren_yields (h : Rep t bs v) (hfit : BwdFits bs k) (hf : v.bits = parens f) (hl : v.len ≤ 9223372036854775806)
    (hn : n ∈ nodes f) : ∃ s, t.childrenIter bs k false n.handle = .ok s ∧
      Yields (t.childrenNext bs k false) s n.children.reverse := by
  obtain ⟨_, _, _, _, ha⟩ := around_of hf hn
  refine ⟨n.children.reverse.head?, ?_, yields_of_sim (rel := RevChRel n) ?_ ⟨n.children.length, by simp, rfl⟩⟩
  · unfold childrenIter
    rw [h.vrep.assertNode ha.open_bit, ok_bind, if_neg (by decide), lastChild_node h hfit hl ha, List.head?_reverse]
  · rintro s l ⟨i, hi, hs⟩
    cases hx : l.head? with
    | none =>
      have : l = [] := List.head?_eq_none_iff.mp hx
      refine ⟨none, ?_, i, by rw [this] at hi ⊢; exact hi, by rw [this]; rfl⟩
      rw [hs, hx]; rfl
    | some x =>
      have hne : (n.children.take i).length ≠ 0 := by
        intro h0
        rw [List.length_eq_zero_iff] at h0
        rw [hi, h0] at hx; simp at hx
      rw [List.length_take] at hne
      obtain ⟨j, hj1, hj2, hj3⟩ : ∃ j, j < n.children.length ∧ n.children.take i = n.children.take (j + 1) ∧ j < i := by
        refine ⟨min i n.children.length - 1, by omega, ?_, by omega⟩
        rw [show min i n.children.length - 1 + 1 = min i n.children.length by omega, ← List.take_eq_take_min]
      rw [hj2] at hi
      have hx' : n.children[j]? = some x := by
        rw [hi, List.head?_reverse, List.getLast?_eq_getElem?, List.length_take, Nat.min_eq_left (by omega), Nat.add_sub_cancel,
          List.getElem?_take_of_lt (by omega)] at hx
        exact hx
      obtain ⟨m, m1, m2, -, -, m5⟩ := children_nodes hn hx'
      obtain ⟨_, _, _, _, hm⟩ := around_of hf m1
      have htail : l.tail = (n.children.take j).reverse := by
        rw [hi, List.take_add_one, hx', Option.toList_some, List.reverse_append]; rfl
      refine ⟨l.tail.head?, ?_, j, htail, rfl⟩
      rw [hs, hx]
      unfold childrenNext
      simp only []
      rw [if_neg (by decide), ← m2, previousSibling_node h hfit hl hm, ok_bind, m5, htail]; rfl

/-! ## Traversals -/

/-- A mapped traversal: the underlying iterator yields closing parentheses, the result the opening ones. -/
def PairRel {σ : Type} (rel : σ → List Nat → Prop) (t : BpTree) (bs : Nat) (k : Variant) (s : σ) (l : List Nat) : Prop :=
  ∃ q : List (Nat × Nat), rel s (q.map Prod.snd) ∧ l = q.map Prod.fst ∧
    ∀ x ∈ q, t.opening bs k x.2 = .ok (some x.1)

theorem mapOpen_pairs {q : List (Nat × Nat)} (h : ∀ x ∈ q, t.opening bs k x.2 = .ok (some x.1)) :
    t.mapOpen bs k (q.map Prod.snd).head? = .ok (q.map Prod.fst).head? := by
  cases q with
  | nil => rfl
  | cons x q =>
    simp only [List.map_cons, List.head?_cons, mapOpen]
    rw [h x List.mem_cons_self, ok_bind, unwrapR_some, ok_bind]; rfl

theorem opening_pairs (h : Rep t bs v) (hfit : BwdFits bs k) (hf : v.bits = parens f) (hl : v.len ≤ 9223372036854775806)
    {x : Nat × Nat} (hx : x ∈ postPairs 0 f) : t.opening bs k x.2 = .ok (some x.1) := by
  obtain ⟨n, n1, n2, n3⟩ := postPairs_mem f [] [] 0 x hx
  obtain ⟨_, _, _, _, hm⟩ := around_of hf (show n ∈ nodes f from n1)
  rw [← n2, ← n3, opening_node h hfit hl hm]

theorem dfsPost_yields (h : VRep t v) (hr : 0 < v.len → Rep t bs v) (hfit : BwdFits bs k) (hf : v.bits = parens f)
    (hl : v.len ≤ 9223372036854775806) :
    ∃ s, t.dfsPostIter = .ok s ∧ Yields (t.dfsPostNext bs k) s (postorder 0 f) := by
  obtain ⟨it, i1, i2, -⟩ := SelIter.new_rel (rs := t.vec) (zero := true) h.inv
  rw [h.bits, hf, Bool.not_true] at i2
  refine ⟨it, i1, yields_of_sim (rel := PairRel (SelIter.Rel t.vec true) t bs k) ?_
    ⟨postPairs 0 f, by rw [postPairs_snd]; exact i2, (postPairs_fst f 0).symm, fun x hx => ?_⟩⟩
  · rintro s l ⟨q, q1, q2, q3⟩
    obtain ⟨s', g1, g2⟩ := SelIter.next_rel h.inv q1
    refine ⟨s', ?_, q.tail, by rw [List.map_tail]; exact g2, by rw [q2, List.map_tail], fun x hx => q3 x (List.mem_of_mem_tail hx)⟩
    unfold dfsPostNext
    rw [show s.next t.vec true = SelIter.next t.vec true s from rfl, g1, ok_bind]
    simp only []
    rw [mapOpen_pairs q3, ok_bind, q2]; rfl
  · have h0 : 0 < v.len := by
      rw [len_eq hf]
      cases f with
      | nil => simp [postPairs] at hx
      | cons c s => simp [Forest.size]
    exact opening_pairs (hr h0) hfit hf hl hx

/-- The state of `Take<Skip<_>>`. -/
def SubRel (t : BpTree) (zero : Bool) (s : SubIter) (l : List Nat) : Prop :=
  ∃ r, SelIter.Rel t.vec zero s.it r ∧ l = (r.drop s.skip).take s.take

theorem takeNext_rel (h : VRep t v) {zero : Bool} {s : SubIter} {l : List Nat} (hr : SubRel t zero s l) :
    ∃ s', takeNext t.vec zero s = .ok (s', l.head?) ∧ SubRel t zero s' l.tail := by
  obtain ⟨r, r1, r2⟩ := hr
  unfold takeNext
  by_cases h0 : s.take = 0
  · rw [if_neg (by omega)]
    rw [h0, List.take_zero] at r2
    refine ⟨s, by rw [r2]; rfl, r, r1, by rw [r2, h0]; rfl⟩
  · rw [if_pos h0]
    obtain ⟨tk, htk⟩ : ∃ tk, s.take = tk + 1 := ⟨s.take - 1, by omega⟩
    have e1 : l.head? = (r.drop s.skip).head? := by rw [r2, htk]; cases r.drop s.skip <;> rfl
    have e2 : l.tail = (r.drop (s.skip + 1)).take (s.take - 1) := by
      rw [r2, htk, ← List.tail_drop]; cases r.drop s.skip <;> simp
    unfold skipNext
    simp only []
    by_cases hs : s.skip > 0
    · rw [if_pos hs]
      obtain ⟨it', g1, g2⟩ := SelIter.nth_rel h.inv r1 s.skip
      rw [show s.it.nth t.vec zero s.skip = SelIter.nth t.vec zero s.it s.skip from rfl, g1, ok_bind]
      exact ⟨_, by rw [e1, List.head?_drop]; rfl, _, g2, by rw [e2]; rfl⟩
    · rw [if_neg hs]
      obtain ⟨it', g1, g2⟩ := SelIter.next_rel h.inv r1
      rw [show s.it.next t.vec zero = SelIter.next t.vec zero s.it from rfl, g1, ok_bind]
      have hs0 : s.skip = 0 := by omega
      refine ⟨_, by rw [e1, hs0]; rfl, _, g2, by rw [e2]; simp [hs0]⟩

/-! ### The nodes of a subtree -/

omit [Profile] in
/-- The positions of a section of the sequence. -/
theorem positions_section (b : Bool) (x y z : List Bool) :
    ((positions b (x ++ (y ++ z))).drop (x.count b)).take (y.count b) = positionsFrom b x.length y := by
  unfold positions
  rw [positionsFrom_append, positionsFrom_append, Nat.zero_add]
  have h1 : (positionsFrom b 0 x).length = x.count b := length_positions b x
  have h2 : ∀ i, (positionsFrom b i y).length = y.count b := by
    intro i
    have := positionsFrom_sorted b y
    clear this
    induction y generalizing i with
    | nil => rfl
    | cons a y ih =>
      rw [positionsFrom, List.count_cons]
      by_cases hab : a = b
      · rw [if_pos hab, List.length_cons, ih]; simp [hab]
      · rw [if_neg hab, ih]; simp [hab]
  rw [← h1, List.drop_left, ← h2 x.length, List.take_left]

omit [Profile] in
/-- The positions of a section as a filter. -/
theorem positions_filter (b : Bool) (x y z : List Bool) :
    (positions b (x ++ (y ++ z))).filter (fun p => decide (x.length ≤ p) && decide (p < x.length + y.length)) =
      positionsFrom b x.length y := by
  unfold positions
  rw [positionsFrom_append, positionsFrom_append, Nat.zero_add, List.filter_append, List.filter_append]
  rw [List.filter_eq_nil_iff.mpr, List.filter_eq_self.mpr, List.filter_eq_nil_iff.mpr]
  · simp
  · intro p hp
    have := (mem_positionsFrom.mp hp).1
    simp; omega
  · intro p hp
    obtain ⟨h1, h2⟩ := mem_positionsFrom.mp hp
    have := (List.getElem?_eq_some_iff.mp h2).1
    simp; omega
  · intro p hp
    obtain ⟨h1, h2⟩ := mem_positionsFrom.mp hp
    have := (List.getElem?_eq_some_iff.mp h2).1
    simp; omega

omit [Profile] in
theorem inSubtree_nodes (hn : n ∈ nodes f) {m : Node} (hm : m ∈ nodes f) :
    inSubtree f n m.handle = (decide (n.handle ≤ m.handle) && decide (m.handle < n.close)) := by
  obtain ⟨_, _, _, _, ha⟩ := around_nodes hn
  have h1 := ancestors_iff hn hm
  have h2 := ha.handle_lt_close
  have hu : ∀ m' ∈ nodes f, m'.handle = m.handle → (n.handle ∈ m'.ancestors ↔ n.handle ∈ m.ancestors) := by
    intro m' hm' he
    rw [h1, ancestors_iff hn hm', he]
  rw [Bool.eq_iff_iff]
  unfold inSubtree
  simp only [List.any_eq_true, Bool.or_eq_true, beq_iff_eq, List.contains_iff_mem, Bool.and_eq_true, decide_eq_true_eq]
  constructor
  · rintro ⟨m', hm', he, hx⟩
    rw [hu m' hm' he, h1] at hx
    omega
  · intro hx
    refine ⟨m, hm, rfl, ?_⟩
    rw [h1]; omega

omit [Profile] in
theorem inSubtree_eq (_hf : v.bits = parens f) (hn : n ∈ nodes f) {m : Node} (hm : m ∈ nodes f) :
    inSubtree f n m.handle = (decide (n.handle ≤ m.handle) && decide (m.handle < n.close)) :=
  inSubtree_nodes hn hm

omit [Profile] in
theorem subtree_positions {pre : List Bool} {c s : Forest} {post : List Bool} (hn : n ∈ nodes f)
    (ha : Around (parens f) n pre c s post) :
    (preorder 0 f).filter (inSubtree f n) = positionsFrom true pre.length (true :: parens c) := by
  have hb : parens f = pre ++ ((true :: parens c) ++ (false :: (parens s ++ post))) := by rw [ha.eq]; simp
  rw [← positions_filter true pre (true :: parens c) (false :: (parens s ++ post)), ← hb, preorder_eq]
  apply List.filter_congr
  intro p hp
  have hp' := mem_positions.mp hp
  obtain ⟨m, hm, rfl⟩ := exists_node hp'
  have h2 := ha.handle
  have h3 := ha.close
  have hlc : pre.length + (true :: parens c).length = n.close := by simp [length_parens]; omega
  rw [inSubtree_nodes hn hm, hlc, h2]

omit [Profile] in
theorem size_filter (hn : n ∈ nodes f) : n.size = ((preorder 0 f).filter (inSubtree f n)).length := by
  obtain ⟨pre, c, s, post, ha⟩ := around_nodes hn
  have hl : ∀ (l : List Bool) (i : Nat), (positionsFrom true i l).length = l.count true := by
    intro l
    induction l with
    | nil => intro i; rfl
    | cons a y ih => intro i; rw [positionsFrom, List.count_cons]; cases a <;> simp [ih]
  rw [subtree_positions hn ha, hl, List.count_cons_self, count_true_parens, ha.size]

theorem subtree_yields (h : Rep t bs v) (k : Variant) (hf : v.bits = parens f) (hl : v.len ≤ 9223372036854775806)
    (hn : n ∈ nodes f) : ∃ s, t.subtreeIter bs k n.handle = .ok s ∧
      Yields t.subtreeNext s ((preorder 0 f).filter (inSubtree f n)) := by
  obtain ⟨pre, c, s, post, ha⟩ := around_of hf hn
  obtain ⟨it, i1, i2, -⟩ := SelIter.new_rel (rs := t.vec) (zero := false) h.inv
  rw [h.vrep.bits, Bool.not_false] at i2
  have hb : v.bits = pre ++ ((true :: parens c) ++ (false :: (parens s ++ post))) := by rw [ha.eq]; simp
  have e : (preorder 0 f).filter (inSubtree f n) =
      positionsFrom true pre.length (true :: parens c) := by
    rw [← positions_filter true pre (true :: parens c) (false :: (parens s ++ post)), ← hb, preorder_eq, ← hf]
    apply List.filter_congr
    intro p hp
    have hp' := mem_positions.mp hp
    rw [hf] at hp'
    obtain ⟨m, hm, rfl⟩ := exists_node hp'
    have h2 := ha.handle
    have h3 := ha.close
    have hlc : pre.length + (true :: parens c).length = n.close := by simp [length_parens]; omega
    rw [inSubtree_eq hf hn hm, hlc, h2]
  have e1 : pre.count true = Spec.rank true v.bits n.handle := by
    unfold Spec.rank; rw [ha.take_handle]
  have e2 : (true :: parens c).count true = Spec.rank true v.bits n.close - Spec.rank true v.bits n.handle := by
    unfold Spec.rank; rw [ha.take_handle, ha.take_close, List.count_append]; omega
  have e3 : Spec.rank true v.bits n.handle ≤ Spec.rank true v.bits n.close := by
    unfold Spec.rank; rw [ha.take_handle, ha.take_close, List.count_append]; omega
  refine ⟨⟨it, Spec.rank true v.bits n.handle, Spec.rank true v.bits n.close - Spec.rank true v.bits n.handle⟩, ?_,
    yields_of_sim (rel := SubRel t false) (fun s l hs => takeNext_rel h.vrep hs) ⟨_, i2, ?_⟩⟩
  · unfold subtreeIter
    rw [h.vrep.assertNode ha.open_bit, ok_bind, h.vrep.rank, ok_bind, close_node h k hl ha, ok_bind, Option.getD_some,
      h.vrep.rank, ok_bind, Bool.not_false, subR_of_le e3, ok_bind, i1, ok_bind]; rfl
  · rw [e, ← positions_section true pre (true :: parens c) (false :: (parens s ++ post)), ← hb, e1, e2]

theorem subtreePost_yields (h : Rep t bs v) (hfit : BwdFits bs k) (hf : v.bits = parens f) (hl : v.len ≤ 9223372036854775806)
    (hn : n ∈ nodes f) : ∃ s, t.subtreePostIter bs k n.handle = .ok s ∧
      Yields (t.subtreePostNext bs k) s ((postorder 0 f).filter (inSubtree f n)) := by
  obtain ⟨pre, c, s, post, ha⟩ := around_of hf hn
  obtain ⟨it, i1, i2, -⟩ := SelIter.new_rel (rs := t.vec) (zero := true) h.inv
  rw [h.vrep.bits, Bool.not_true] at i2
  have hb : v.bits = (pre ++ [true]) ++ ((parens c ++ [false]) ++ (parens s ++ post)) := by rw [ha.eq]; simp
  have hh := ha.handle
  have hc := ha.close
  obtain ⟨q, hq⟩ : ∃ q, q = (postPairs 0 f).filter (fun x => decide (n.handle ≤ x.1) && decide (x.1 < n.close)) := ⟨_, rfl⟩
  have q1 : q.map Prod.fst = (postorder 0 f).filter (inSubtree f n) := by
    rw [hq, ← postPairs_fst, List.filter_map]
    congr 1
    apply List.filter_congr
    intro x hx
    obtain ⟨m, m1, m2, m3⟩ := postPairs_mem f [] [] 0 x hx
    rw [Function.comp_apply, ← m2, inSubtree_eq hf hn (show m ∈ nodes f from m1)]
  have q2 : q.map Prod.snd = positionsFrom false (pre ++ [true]).length (parens c ++ [false]) := by
    rw [← positions_filter false (pre ++ [true]) (parens c ++ [false]) (parens s ++ post), ← hb, hf]
    unfold positions
    rw [← postPairs_snd, List.filter_map, hq]
    congr 1
    apply List.filter_congr
    intro x hx
    obtain ⟨m, m1, m2, m3⟩ := postPairs_mem f [] [] 0 x hx
    obtain ⟨_, _, _, _, hm⟩ := around_of hf (show m ∈ nodes f from m1)
    have g1 := hm.handle_lt_close
    rw [Function.comp_apply, Bool.eq_iff_iff, ← m2, ← m3]
    have hlc : (pre ++ [true]).length = n.handle + 1 := by simp [hh]
    have hlc2 : (pre ++ [true]).length + (parens c ++ [false]).length = n.close + 1 := by simp [length_parens, hc]; omega
    simp only [Bool.and_eq_true, decide_eq_true_eq, hlc2]
    rw [hlc]
    -- pairs are nested or disjoint
    have key : ∀ {a d : Node} {pre c s post}, Around v.bits a pre c s post → d ∈ nodes f → a ∈ nodes f →
        a.handle < d.handle → d.handle < a.close → d.close < a.close := by
      intro a d _ _ _ _ haa hd _ h1 h2
      obtain ⟨_, _, _, _, hdd⟩ := around_of hf hd
      have g := hdd.handle_lt_close
      apply Classical.byContradiction
      intro hcc
      by_cases he : d.close = a.close
      · have := isBwd_unique (matches_iff_bwd.mp (around_matches haa)).2
          (by rw [← he]; exact (matches_iff_bwd.mp (around_matches hdd)).2)
        omega
      · have i1 := hdd.inside (i := a.close) (by omega) (by omega)
        have i2 := hdd.inside (i := a.close + 1) (by omega) (by omega)
        have i3 := haa.inside (i := d.handle) (by omega) (by omega)
        rw [haa.excess_close_succ] at i2
        rw [hdd.depth] at i3
        omega
    have hbit : v.bits[m.handle]? = some true := hm.open_bit
    have hbit2 : v.bits[n.close]? = some false := ha.close_bit
    constructor
    · rintro ⟨a1, a2⟩
      refine ⟨by omega, ?_⟩
      by_cases he : n.handle = m.handle
      · have := isFwd_unique (matches_iff_fwd.mp (around_matches ha)).2
          (by rw [he]; exact (matches_iff_fwd.mp (around_matches hm)).2)
        omega
      · have := key ha m1 hn (by omega) a2
        omega
    · rintro ⟨a1, a2⟩
      refine ⟨?_, by omega⟩
      apply Classical.byContradiction
      intro hlt
      have hne : m.close ≠ n.close := by
        intro he
        have := isBwd_unique (matches_iff_bwd.mp (around_matches ha)).2
          (by rw [← he]; exact (matches_iff_bwd.mp (around_matches hm)).2)
        omega
      have := key hm hn m1 (by omega) (by omega)
      omega
  have e1 : (pre ++ [true]).count false = Spec.rank false v.bits n.handle := by
    unfold Spec.rank; rw [ha.take_handle, List.count_append]; rfl
  have e2 : (parens c ++ [false]).count false = Spec.rank false v.bits n.close + 1 - Spec.rank false v.bits n.handle := by
    unfold Spec.rank
    rw [ha.take_handle, ha.take_close, List.count_append, List.count_append, List.count_cons]
    simp; omega
  have e3 : Spec.rank false v.bits n.handle ≤ Spec.rank false v.bits n.close + 1 := by
    unfold Spec.rank; rw [ha.take_handle, ha.take_close, List.count_append]; omega
  refine ⟨⟨it, Spec.rank false v.bits n.handle, Spec.rank false v.bits n.close + 1 - Spec.rank false v.bits n.handle⟩, ?_,
    yields_of_sim (rel := PairRel (SubRel t true) t bs k) ?_ ⟨q, ⟨_, i2, ?_⟩, q1.symm, fun x hx => ?_⟩⟩
  · unfold subtreePostIter
    rw [h.vrep.assertNode ha.open_bit, ok_bind, h.vrep.rank, ok_bind, close_node h k hl ha, ok_bind, Option.getD_some,
      h.vrep.rank, ok_bind, Bool.not_true, subR_of_le e3, ok_bind, i1, ok_bind]; rfl
  · rintro s l ⟨q, q1, q2, q3⟩
    obtain ⟨s', g1, g2⟩ := takeNext_rel h.vrep q1
    refine ⟨s', ?_, q.tail, by rw [List.map_tail]; exact g2, by rw [q2, List.map_tail], fun x hx => q3 x (List.mem_of_mem_tail hx)⟩
    unfold subtreePostNext
    rw [g1, ok_bind]
    simp only []
    rw [mapOpen_pairs q3, ok_bind, q2]; rfl
  · rw [q2, ← positions_section false (pre ++ [true]) (parens c ++ [false]) (parens s ++ post), ← hb, e1, e2]
  · rw [hq] at hx
    exact opening_pairs h hfit hf hl (List.mem_filter.mp hx).1

end BpTree
end Vers
