import Verif.Proofs.BpTree

set_option linter.unusedSimpArgs false

/-! # Level queries -/

namespace Vers

variable [Profile]
open Spec Lookup

omit [Profile] in
theorem excessOf_sub (l : List Bool) {a c : Nat} (h : a ≤ c) :
    excessOf l a c = excess (l.take c) - excess (l.take a) := by
  have := sec_append l (a := 0) (m := a) (c := c) (by omega) h
  rw [sec_zero, sec_zero] at this
  rw [← this, excess_append, excessOf_eq]; omega

omit [Profile] in
theorem nodes_sorted (f : Forest) : ((nodes f).map Node.handle).Pairwise (· < ·) := by
  rw [nodes_handles]; exact (positionsFrom_sorted _ _ _).1

omit [Profile] in
theorem filter_head {L : List Node} (hs : (L.map Node.handle).Pairwise (· < ·)) {p : Node → Bool} {m : Node} (hm : m ∈ L)
    (hp : p m = true) (hmin : ∀ m' ∈ L, p m' = true → m.handle ≤ m'.handle) : (L.filter p).head? = some m := by
  induction L with
  | nil => simp at hm
  | cons x L ih =>
    rw [List.map_cons, List.pairwise_cons] at hs
    rw [List.mem_cons] at hm
    rcases hm with rfl | hm
    · rw [List.filter_cons_of_pos hp]; rfl
    · have hx : ¬p x = true := by
        intro h
        have h1 := hmin x List.mem_cons_self h
        have h2 := hs.1 m.handle (List.mem_map_of_mem hm)
        omega
      rw [List.filter_cons_of_neg hx]
      exact ih hs.2 hm (fun m' h => hmin m' (List.mem_cons_of_mem _ h))

omit [Profile] in
theorem filter_last {L : List Node} (hs : (L.map Node.handle).Pairwise (· < ·)) {p : Node → Bool} {m : Node} (hm : m ∈ L)
    (hp : p m = true) (hmax : ∀ m' ∈ L, p m' = true → m'.handle ≤ m.handle) : (L.filter p).getLast? = some m := by
  induction L with
  | nil => simp at hm
  | cons x L ih =>
    rw [List.map_cons, List.pairwise_cons] at hs
    rw [List.mem_cons] at hm
    by_cases hmL : m ∈ L
    · have := ih hs.2 hmL (fun m' h => hmax m' (List.mem_cons_of_mem _ h))
      by_cases hx : p x = true
      · rw [List.filter_cons_of_pos hx, List.getLast?_cons, this]; rfl
      · rw [List.filter_cons_of_neg hx, this]
    · have hx : m = x := by
        rcases hm with h | h
        · exact h
        · exact absurd h hmL
      subst hx
      rw [List.filter_cons_of_pos hp, List.filter_eq_nil_iff.mpr]
      · rfl
      · intro m' h' hp'
        have h1 := hmax m' (List.mem_cons_of_mem _ h') hp'
        have h2 := hs.1 m'.handle (List.mem_map_of_mem h')
        omega

omit [Profile] in
theorem filter_none {L : List Node} {p : Node → Bool} (h : ∀ m ∈ L, ¬p m = true) : L.filter p = [] :=
  List.filter_eq_nil_iff.mpr h

section
variable {b : List Bool} {n : Node} {pre : List Bool} {c s : Forest} {post : List Bool}

omit [Profile] in
theorem Around.take_handle_succ (h : Around b n pre c s post) : excess (b.take (n.handle + 1)) = n.depth + 1 := by
  rw [List.take_add_one, h.open_bit, Option.toList_some, excess_append, excess_singleton, h.depth]; rfl

omit [Profile] in
theorem Around.excess_close (h : Around b n pre c s post) : excess (b.take n.close) = n.depth + 1 := by
  have h1 := h.depth
  rw [h.take_handle] at h1
  rw [h.take_close, excess_append, excess_cons, excess_parens, h1]; rfl

omit [Profile] in
theorem Around.excess_close_succ (h : Around b n pre c s post) : excess (b.take (n.close + 1)) = n.depth := by
  rw [List.take_add_one, h.close_bit, Option.toList_some, excess_append, excess_singleton, h.excess_close]; simp [sgn]

omit [Profile] in
/-- Inside a pair the excess is larger than before it. -/
theorem Around.inside (h : Around b n pre c s post) {i : Nat} (h1 : n.handle < i) (h2 : i ≤ n.close) :
    (n.depth : Int) + 1 ≤ excess (b.take i) := by
  by_cases he : i = n.close
  · rw [he, h.excess_close]
  · have := (matches_excess (around_matches h) h1 (by omega)).1
    rw [excessOf_sub _ (by omega), h.depth] at this
    omega
end

namespace BpTree
variable {t : BpTree} {v : BV} {bs : Nat} {k : Variant} {f : Forest} {n : Node}

omit [Profile] in
theorem around_of (hf : v.bits = parens f) {n : Node} (hn : n ∈ nodes f) :
    ∃ pre c s post, Around v.bits n pre c s post := by
  rw [hf]; exact around_nodes hn

/-- The next node of the same depth. -/
theorem levelNext_node (h : Rep t bs v) (k : Variant) (hf : v.bits = parens f) (hl : v.len ≤ 9223372036854775806)
    (hn : n ∈ nodes f) :
    t.levelNext bs k n.handle =
      .ok (((nodes f).filter (fun m => decide (n.handle < m.handle) && (m.depth == n.depth))).head?.map Node.handle) := by
  obtain ⟨pre, c, s, post, ha⟩ := around_of hf hn
  have hlt := Rep.len_pos ha.close_bit
  have hhc := ha.handle_lt_close
  unfold levelNext
  rw [close_node h k hl ha, ok_bind]
  simp only []
  rw [fwdSearch_eq h k n.close (by omega) (by omega)]
  congr 1
  -- later nodes of the same depth are hits
  have key : ∀ m ∈ nodes f, n.handle < m.handle → m.depth = n.depth → FwdHit v.bits n.close 1 m.handle := by
    intro m hm h1 h2
    obtain ⟨_, _, _, _, hm'⟩ := around_of hf hm
    have hlt' := Rep.len_pos hm'.open_bit
    have hgt : n.close < m.handle := by
      apply Classical.byContradiction
      intro hc
      have := ha.inside h1 (by omega)
      rw [hm'.depth, h2] at this
      omega
    refine ⟨hgt, by rw [BV.length_bits]; exact hlt', ?_⟩
    rw [excessOf_sub _ (by omega), hm'.take_handle_succ, ha.excess_close_succ, h2]; omega
  cases hr : firstExc (v.bits.drop (n.close + 1)) 1 with
  | none =>
    rw [filter_none]
    · rfl
    · intro m hm hp
      simp only [Bool.and_eq_true, decide_eq_true_eq, beq_iff_eq] at hp
      exact fwd_none_iff.mp (by rw [hr]; rfl) _ (key m hm hp.1 hp.2)
  | some x =>
    have hj := isFwd_iff.mp (show (firstExc (v.bits.drop (n.close + 1)) 1).map (n.close + 1 + ·) = some (n.close + 1 + x) by rw [hr]; rfl)
    obtain ⟨h1, h2⟩ := bit_of_firstExc_pos (by omega) hr
    rw [List.getElem?_drop] at h1
    have h1' := h1
    rw [hf] at h1'
    obtain ⟨m, hm, hmh⟩ := exists_node h1'
    obtain ⟨_, _, _, _, hm'⟩ := around_of hf hm
    have hd : m.depth = n.depth := by
      have := hj.1.2.2
      rw [excessOf_sub _ (by omega), ← hmh, hm'.take_handle_succ, ha.excess_close_succ] at this
      omega
    rw [filter_head (nodes_sorted f) hm]
    · rw [Option.map_some, Option.map_some, hmh]
    · simp only [Bool.and_eq_true, decide_eq_true_eq, beq_iff_eq]; exact ⟨by omega, hd⟩
    · intro m' hm1 hp
      simp only [Bool.and_eq_true, decide_eq_true_eq, beq_iff_eq] at hp
      rw [hmh]
      exact hj.2 _ (key m' hm1 hp.1 hp.2)

omit [Profile] in
/-- Nodes of the same depth close in the order in which they open. -/
theorem close_le_of_depth {b : List Bool} {m m' : Node} {pre : List Bool} {c s : Forest} {post : List Bool}
    {pre' : List Bool} {c' s' : Forest} {post' : List Bool} (h : Around b m pre c s post) (h' : Around b m' pre' c' s' post')
    (hd : m'.depth = m.depth) (hc : m'.close ≤ m.close) : m'.handle ≤ m.handle := by
  apply Classical.byContradiction
  intro hlt
  have := h.inside (i := m'.handle) (by omega) (by have := h'.handle_lt_close; omega)
  rw [h'.depth, hd] at this
  omega

omit [Profile] in
/-- The closing parenthesis found by a backward search to a higher level. -/
theorem bwd_level (hf : v.bits = parens f) {i : Nat} (hi : i < v.len) {r : Int} (hr : 0 < r) {x : Nat}
    (h : firstExc (v.bits.take i).reverse (-r) = some x) :
    ∃ m ∈ nodes f, m.close = i - 1 - x ∧ m.close < i ∧ (m.depth : Int) + 1 = Spec.excess (v.bits.take i) + r ∧
      IsBwd v.bits i r m.close := by
  have hib : i < v.bits.length := by rw [BV.length_bits]; exact hi
  have hj := (isBwd_iff (r := r) hib).mp (show _ = some (i - 1 - x) by rw [h]; rfl)
  obtain ⟨h1, h2⟩ := bit_of_firstExc_neg (by omega) h
  have hl : (v.bits.take i).length = i := by rw [List.length_take]; omega
  have hxi : x < i := by
    have := (firstExc_some.mp h).1
    rw [List.length_reverse, hl] at this; exact this
  rw [List.getElem?_reverse (by omega), hl, List.getElem?_take_of_lt (by omega), hf] at h1
  obtain ⟨m, hm, hmc⟩ := exists_node_close h1
  obtain ⟨_, _, _, _, hm'⟩ := around_of hf hm
  refine ⟨m, hm, hmc, by omega, ?_, by rw [hmc]; exact hj⟩
  have := hj.1.2.2
  rw [← hmc, excessOf_sub _ (by omega), hm'.excess_close] at this
  omega

/-- The previous node of the same depth. -/
theorem levelPrev_node (h : Rep t bs v) (hfit : BwdFits bs k) (hf : v.bits = parens f) (hl : v.len ≤ 9223372036854775806)
    (hn : n ∈ nodes f) :
    t.levelPrev bs k n.handle =
      .ok (((nodes f).filter (fun m => decide (m.handle < n.handle) && (m.depth == n.depth))).getLast?.map Node.handle) := by
  obtain ⟨pre, c, s, post, ha⟩ := around_of hf hn
  have hlt := Rep.len_pos ha.open_bit
  have hhc := ha.handle_lt_close
  unfold levelPrev
  rw [bwdSearch_eq h hfit hlt (by omega), ok_bind]
  have key : ∀ m ∈ nodes f, m.handle < n.handle → m.depth = n.depth → BwdHit v.bits n.handle 1 m.close := by
    intro m hm h1 h2
    obtain ⟨_, _, _, _, hm'⟩ := around_of hf hm
    have hgt : m.close < n.handle := by
      apply Classical.byContradiction
      intro hc
      have := hm'.inside h1 (by omega)
      rw [ha.depth, h2] at this
      omega
    refine ⟨hgt, by rw [BV.length_bits]; exact hlt, ?_⟩
    rw [excessOf_sub _ (by omega), hm'.excess_close, ha.depth, h2]; omega
  have hib : n.handle < v.bits.length := by rw [BV.length_bits]; exact hlt
  cases hr : firstExc (v.bits.take n.handle).reverse (-1) with
  | none =>
    rw [filter_none]
    · rfl
    · intro m hm hp
      simp only [Bool.and_eq_true, decide_eq_true_eq, beq_iff_eq] at hp
      exact (bwd_none_iff hib).mp (by rw [hr]; rfl) _ (key m hm hp.1 hp.2)
  | some x =>
    obtain ⟨m, hm, hmc, hlt', hd, hj⟩ := bwd_level hf hlt (by omega) hr
    obtain ⟨_, _, _, _, hm'⟩ := around_of hf hm
    rw [Option.map_some]
    simp only []
    rw [← hmc, opening_node h hfit hl hm']
    rw [ha.depth] at hd
    rw [filter_last (nodes_sorted f) hm]
    · rfl
    · simp only [Bool.and_eq_true, decide_eq_true_eq, beq_iff_eq]
      have := hm'.handle_lt_close
      exact ⟨by omega, by omega⟩
    · intro m1 hm1 hp
      simp only [Bool.and_eq_true, decide_eq_true_eq, beq_iff_eq] at hp
      obtain ⟨_, _, _, _, hm1'⟩ := around_of hf hm1
      exact close_le_of_depth hm' hm1' (by omega) (hj.2 _ (key m1 hm1 hp.1 hp.2))

omit [Profile] in
theorem asI64_eq {level : Word} (h : level.toNat < 9223372036854775808) : asI64 level = level.toNat := by
  unfold asI64
  rw [BitVec.toInt_eq_toNat_cond, if_pos (by omega)]

omit [Profile] in
theorem ne_zero_of {level : Word} (h0 : level ≠ 0#64) : level.toNat ≠ 0 :=
  fun hc => h0 (BitVec.eq_of_toNat_eq (by simpa using hc))

omit [Profile] in
theorem first_bit (hf : v.bits = parens f) (h0 : 0 < v.len) : v.bits[0]? = some true := by
  have : (parens f).length ≠ 0 := by rw [← hf, BV.length_bits]; omega
  rw [hf]
  cases f with
  | nil => simp [parens] at this
  | cons c s => rfl

/-- The first node of a given depth. -/
theorem levelLeftmost_eq (h : Rep t bs v) (k : Variant) (hf : v.bits = parens f) (h0 : 0 < v.len) {level : Word}
    (hl : level.toNat + v.len ≤ 9223372036854775807) :
    t.levelLeftmost bs k level =
      .ok (((nodes f).filter (fun m => m.depth == level.toNat)).head?.map Node.handle) := by
  unfold levelLeftmost
  have hb0 := first_bit hf h0
  by_cases hz : level = 0#64
  · rw [if_pos hz]
    have hb0' := hb0
    rw [hf] at hb0'
    obtain ⟨m, hm, hmh⟩ := exists_node hb0'
    obtain ⟨_, _, _, _, hm'⟩ := around_of hf hm
    rw [filter_head (nodes_sorted f) hm]
    · rw [Option.map_some, hmh]; rfl
    · have := hm'.depth
      rw [hmh, List.take_zero] at this
      have e : Spec.excess [] = 0 := rfl
      rw [hz]
      simp only [beq_iff_eq]
      rw [e] at this
      have : m.depth = 0 := by omega
      rw [this]; rfl
    · intro m' _ _; omega
  · have hnz := ne_zero_of hz
    rw [if_neg hz, asI64_eq (by omega), fwdSearch_eq h k 0 h0 (by omega)]
    congr 1
    have e1 : Spec.excess (v.bits.take (0 + 1)) = 1 := by
      rw [List.take_add_one, hb0]; rfl
    have key : ∀ m ∈ nodes f, m.depth = level.toNat → FwdHit v.bits 0 level.toNat m.handle := by
      intro m hm h2
      obtain ⟨_, _, _, _, hm'⟩ := around_of hf hm
      have hlt' := Rep.len_pos hm'.open_bit
      have hgt : 0 < m.handle := by
        apply Classical.byContradiction
        intro hc
        have := hm'.depth
        rw [show m.handle = 0 by omega, List.take_zero, show Spec.excess [] = 0 from rfl] at this
        omega
      refine ⟨hgt, by rw [BV.length_bits]; exact hlt', ?_⟩
      rw [excessOf_sub _ (by omega), hm'.take_handle_succ, e1, h2]; omega
    cases hr : firstExc (v.bits.drop (0 + 1)) (level.toNat : Int) with
    | none =>
      rw [filter_none]
      · rfl
      · intro m hm hp
        simp only [beq_iff_eq] at hp
        exact fwd_none_iff.mp (by rw [hr]; rfl) _ (key m hm hp)
    | some x =>
      have hj := isFwd_iff.mp (show (firstExc (v.bits.drop (0 + 1)) (level.toNat : Int)).map (0 + 1 + ·) = some (0 + 1 + x) by
        rw [hr]; rfl)
      obtain ⟨h1, h2⟩ := bit_of_firstExc_pos (by omega) hr
      rw [List.getElem?_drop] at h1
      have h1' := h1
      rw [hf] at h1'
      obtain ⟨m, hm, hmh⟩ := exists_node h1'
      obtain ⟨_, _, _, _, hm'⟩ := around_of hf hm
      have hd : m.depth = level.toNat := by
        have := hj.1.2.2
        rw [excessOf_sub _ (by omega), ← hmh, hm'.take_handle_succ, e1] at this
        omega
      rw [filter_head (nodes_sorted f) hm]
      · rw [Option.map_some, Option.map_some, hmh]
      · simp only [beq_iff_eq]; exact hd
      · intro m' hm1 hp
        simp only [beq_iff_eq] at hp
        rw [hmh]
        exact hj.2 _ (key m' hm1 hp)

theorem size_eq (h : VRep t v) : t.size = .ok (v.bits.count true) := by
  unfold size
  rw [h.rank, h.vec.2.2]
  unfold Spec.rank
  rw [List.take_of_length_le (by simp)]; rfl

omit [Profile] in
theorem len_eq (hf : v.bits = parens f) : v.len = 2 * f.size := by
  rw [← BV.length_bits, hf, length_parens]

omit [Profile] in
/-- The last position closes a root. -/
theorem excess_last (hf : v.bits = parens f) (h0 : 0 < v.len) : Spec.excess (v.bits.take (v.len - 1)) = 1 := by
  obtain ⟨x, d, -, h1, -⟩ := parens_snoc f (by intro h; rw [len_eq hf, h] at h0; simp [Forest.size] at h0)
  have hlen := BV.length_bits v
  have e := excess_parens f
  rw [hf] at hlen ⊢
  rw [h1] at hlen e ⊢
  rw [show x ++ (true :: (parens d ++ [false])) = (x ++ (true :: parens d)) ++ [false] by simp] at *
  rw [excess_append, excess_singleton] at e
  rw [List.length_append, List.length_singleton] at hlen
  rw [← hlen, Nat.add_sub_cancel, List.take_left]
  simp [sgn] at e; omega

/-- The last node of a given positive depth. -/
theorem levelRightmost_eq (h : Rep t bs v) (hfit : BwdFits bs k) (hf : v.bits = parens f) (h0 : 0 < v.len) {level : Word}
    (hz : level ≠ 0#64) (hl : level.toNat + v.len ≤ 9223372036854775807) :
    t.levelRightmost bs k level =
      .ok (((nodes f).filter (fun m => m.depth == level.toNat)).getLast?.map Node.handle) := by
  have hnz := ne_zero_of hz
  have hlen := len_eq hf
  have hex := excess_last hf h0
  unfold levelRightmost
  rw [size_eq h.vrep, ok_bind, hf, count_true_parens, subR_of_le (by omega), ok_bind,
    show f.size * 2 - 1 = v.len - 1 by omega, asI64_eq (by omega), bwdSearch_eq h hfit (by omega) (by omega), ok_bind]
  have hib : v.len - 1 < v.bits.length := by rw [BV.length_bits]; omega
  have key : ∀ m ∈ nodes f, m.depth = level.toNat → BwdHit v.bits (v.len - 1) level.toNat m.close := by
    intro m hm h2
    obtain ⟨_, _, _, _, hm'⟩ := around_of hf hm
    have hlt := Rep.len_pos hm'.close_bit
    have hec := hm'.excess_close
    have hgt : m.close < v.len - 1 := by
      apply Classical.byContradiction
      intro hc
      rw [show m.close = v.len - 1 by omega, hex, h2] at hec
      omega
    refine ⟨hgt, hib, ?_⟩
    rw [excessOf_sub _ (by omega), hec, hex, h2]; omega
  cases hr : firstExc (v.bits.take (v.len - 1)).reverse (-(level.toNat : Int)) with
  | none =>
    rw [filter_none]
    · rfl
    · intro m hm hp
      simp only [beq_iff_eq] at hp
      exact (bwd_none_iff hib).mp (by rw [hr]; rfl) _ (key m hm hp)
  | some x =>
    obtain ⟨m, hm, hmc, hlt', hd, hj⟩ := bwd_level hf (by omega) (by omega) hr
    obtain ⟨_, _, _, _, hm'⟩ := around_of hf hm
    rw [Option.map_some]
    simp only []
    rw [← hmc, opening_node h hfit (by omega) hm']
    rw [hex] at hd
    rw [filter_last (nodes_sorted f) hm]
    · rfl
    · simp only [beq_iff_eq]; omega
    · intro m1 hm1 hp
      simp only [beq_iff_eq] at hp
      obtain ⟨_, _, _, _, hm1'⟩ := around_of hf hm1
      exact close_le_of_depth hm' hm1' (by omega) (hj.2 _ (key m1 hm1 hp))

omit [Profile] in
theorem roots_eq_filter (f : Forest) : ∀ (anc left : List Nat) (p : Nat),
    ((nodesFrom anc left p f).filter (fun m => m.depth == anc.length)).map Node.handle = roots p f := by
  have deep : ∀ (f : Forest) (anc left : List Nat) (p m : Nat), m < anc.length →
      (nodesFrom anc left p f).filter (fun x => x.depth == m) = [] := by
    intro f anc left p m hm
    apply List.filter_eq_nil_iff.mpr
    intro x hx
    obtain ⟨-, -, -, y, hy, -⟩ := nodesFrom_bounds f anc left p x hx
    simp only [beq_iff_eq, Node.depth, hy, List.length_append]
    omega
  induction f with
  | nil => intro _ _ _; rfl
  | cons c s ihc ihs =>
    intro anc left p
    simp only [nodesFrom, roots]
    rw [List.filter_cons_of_pos (by simp [Node.depth]), List.map_cons, List.filter_append, List.map_append,
      deep c (p :: anc) [] (p + 1) anc.length (by simp), ihs]
    rfl

omit [Profile] in
theorem roots_getLast (f : Forest) :
    ((nodes f).filter (fun m => m.depth == 0)).getLast?.map Node.handle = (roots 0 f).getLast? := by
  rw [← List.getLast?_map]
  congr 1
  exact roots_eq_filter f [] [] 0

/-- The level 0: the last root if it has children, the root before it otherwise. -/
theorem levelRightmost_zero (h : Rep t bs v) (hfit : BwdFits bs k) {g d : Forest}
    (hf : v.bits = parens g ++ (true :: (parens d ++ [false]))) (hl : v.len ≤ 9223372036854775806) :
    t.levelRightmost bs k 0#64 = .ok (if d = .nil then (roots 0 g).getLast? else some (2 * g.size)) := by
  have hlen : v.len = 2 * g.size + 2 * d.size + 2 := by
    rw [← BV.length_bits, hf]; simp [length_parens]; omega
  have hc : v.bits.count true = g.size + d.size + 1 := by
    rw [hf]; simp [count_true_parens]; omega
  unfold levelRightmost
  rw [size_eq h.vrep, ok_bind, hc, subR_of_le (by omega), ok_bind,
    show (g.size + d.size + 1) * 2 - 1 = v.len - 1 by omega, show asI64 0#64 = 0 from rfl,
    bwdSearch_eq h hfit (by omega) (by omega), ok_bind]
  have ht : v.bits.take (v.len - 1) = parens g ++ (true :: parens d) := by
    rw [hf, show parens g ++ (true :: (parens d ++ [false])) = (parens g ++ (true :: parens d)) ++ [false] by simp,
      show v.len - 1 = (parens g ++ (true :: parens d)).length by simp [length_parens]; omega, List.take_left]
  rw [ht]
  by_cases hd : d = .nil
  · subst hd
    rw [if_pos rfl]
    simp only [parens, List.reverse_append, List.reverse_cons, List.reverse_nil, List.nil_append, List.singleton_append]
    rw [firstExc, show sgn true = 1 from rfl, if_neg (by omega)]
    by_cases hg : g = .nil
    · subst hg; rfl
    · obtain ⟨x, d, hx, h1, h2⟩ := parens_snoc g hg
      have hgl := length_parens g
      rw [h1] at hgl
      simp [length_parens] at hgl
      rw [h1, h2]
      rw [List.reverse_append, List.reverse_cons, List.reverse_append, List.reverse_singleton, List.append_assoc, List.append_assoc,
        List.singleton_append, firstExc, show sgn false = -1 from rfl, if_pos (by omega), Option.map_some, Option.map_some]
      simp only []
      simp only [Forest.size] at hlen
      rw [opening_eq h hfit (by omega) hl]
      have ht : v.bits.take (v.len - 1 - 1 - (0 + 1)) = x ++ (true :: parens d) := by
        rw [hf, h1, show x ++ (true :: (parens d ++ [false])) ++ (true :: (parens Forest.nil ++ [false])) =
          (x ++ (true :: parens d)) ++ [false, true, false] by simp [parens],
          show v.len - 1 - 1 - (0 + 1) = (x ++ (true :: parens d)).length by simp [length_parens]; omega, List.take_left]
      rw [ht, List.reverse_append, List.reverse_cons, List.append_assoc,
        firstExc_append_none (firstExc_parens_reverse_pos d (by omega)), excess_reverse, excess_parens, List.singleton_append,
        firstExc, show sgn true = 1 from rfl, if_pos (by omega)]
      simp [length_parens]; omega
  · rw [if_neg hd]
    obtain ⟨x, e, ⟨y, hy⟩, h1, h2⟩ := parens_snoc d hd
    have hdl := length_parens d
    rw [h1, hy] at hdl
    simp [length_parens] at hdl
    rw [h1]
    have er : (parens g ++ (true :: (x ++ (true :: (parens e ++ [false]))))).reverse =
        false :: ((parens e).reverse ++ (true :: (parens g ++ (true :: x)).reverse)) := by simp
    rw [er, firstExc, show sgn false = -1 from rfl, if_neg (by omega),
      firstExc_append_none (firstExc_parens_reverse_pos e (by omega)), excess_reverse, excess_parens, firstExc,
      show sgn true = 1 from rfl, if_pos (by omega)]
    simp only [Option.map_some, List.length_reverse, length_parens]
    rw [opening_eq h hfit (by omega) hl]
    have ht : v.bits.take (v.len - 1 - 1 - (0 + 2 * e.size + 1)) = parens g ++ (true :: x) := by
      rw [hf, h1, show parens g ++ (true :: (x ++ (true :: (parens e ++ [false])) ++ [false])) =
        (parens g ++ (true :: x)) ++ (true :: (parens e ++ [false, false])) by simp,
        show v.len - 1 - 1 - (0 + 2 * e.size + 1) = (parens g ++ (true :: x)).length by rw [hy]; simp [length_parens]; omega,
        List.take_left]
    rw [ht, hy, List.reverse_append, List.reverse_cons, List.append_assoc,
      firstExc_append_none (firstExc_parens_reverse_pos y (by omega)), excess_reverse, excess_parens, List.singleton_append,
      firstExc, show sgn true = 1 from rfl, if_pos (by omega)]
    simp [length_parens]; omega

end BpTree
end Vers
