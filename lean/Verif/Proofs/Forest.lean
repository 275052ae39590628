import Verif.Proofs.Excess
import Verif.Proofs.Positions
import Verif.SpecTree

set_option linter.unusedSimpArgs false

/-! # Ordered forests and their parenthesis sequences -/

namespace Vers

variable [Profile]
open Spec

omit [Profile] in
theorem length_parens (f : Forest) : (parens f).length = 2 * f.size := by
  induction f with
  | nil => rfl
  | cons c s ihc ihs => simp [parens, Forest.size, ihc, ihs]; omega

omit [Profile] in
theorem excess_parens (f : Forest) : excess (parens f) = 0 := by
  induction f with
  | nil => rfl
  | cons c s ihc ihs =>
    rw [parens, excess_cons, excess_append, excess_cons, ihc, ihs]; rfl

omit [Profile] in
theorem count_true_parens (f : Forest) : (parens f).count true = f.size := by
  induction f with
  | nil => rfl
  | cons c s ihc ihs => simp [parens, Forest.size, ihc, ihs]; omega

omit [Profile] in
theorem count_false_parens (f : Forest) : (parens f).count false = f.size := by
  induction f with
  | nil => rfl
  | cons c s ihc ihs => simp [parens, Forest.size, ihc, ihs]; omega

omit [Profile] in
/-- Closing more than was opened does not happen. -/
theorem firstExc_parens_neg (f : Forest) {r : Int} (hr : r < 0) : firstExc (parens f) r = none := by
  induction f generalizing r with
  | nil => rfl
  | cons c s ihc ihs =>
    rw [parens, firstExc, show sgn true = 1 from rfl, if_neg (by omega), Option.map_eq_none_iff,
      firstExc_append_none (ihc (by omega)), Option.map_eq_none_iff, excess_parens, firstExc,
      show sgn false = -1 from rfl, if_neg (by omega), Option.map_eq_none_iff]
    exact ihs (by omega)

omit [Profile] in
theorem firstExc_parens_reverse_pos (f : Forest) {r : Int} (hr : 0 < r) :
    firstExc (parens f).reverse r = none := by
  induction f generalizing r with
  | nil => rfl
  | cons c s ihc ihs =>
    rw [parens, List.reverse_cons, List.reverse_append, List.reverse_cons, List.append_assoc, List.append_assoc,
      firstExc_append_none (ihs hr), Option.map_eq_none_iff, excess_reverse, excess_parens,
      firstExc_append_none (by simp [firstExc, sgn]; omega), Option.map_eq_none_iff,
      firstExc_append_none (ihc (by rw [excess_singleton]; simp [sgn]; omega)), Option.map_eq_none_iff,
      excess_reverse, excess_parens, excess_singleton]
    simp [firstExc, sgn]; omega

/-- What is written before a node: `anc` are its ancestors, `left` its left siblings. -/
inductive Ctx : List Nat → List Nat → List Bool → Prop
  | root : Ctx [] [] []
  | child {anc left pre} : Ctx anc left pre → Ctx (pre.length :: anc) [] (pre ++ [true])
  | sib {anc left pre} (c : Forest) :
      Ctx anc left pre → Ctx anc (pre.length :: left) (pre ++ (true :: (parens c ++ [false])))

omit [Profile] in
theorem Ctx.excess {anc left pre} (h : Ctx anc left pre) : excess pre = anc.length := by
  induction h with
  | root => rfl
  | child h ih => rw [excess_append, ih, excess_singleton]; simp [sgn]
  | sib c h ih => rw [excess_append, ih, excess_cons, excess_append, excess_parens, excess_singleton]; simp [sgn]

omit [Profile] in
/-- Backward search from a node finds its ancestors. -/
theorem Ctx.firstExc {anc left pre} (h : Ctx anc left pre) (k : Nat) :
    (firstExc pre.reverse ((k : Int) + 1)).map (pre.length - 1 - ·) = anc[k]? := by
  induction h generalizing k with
  | root => rfl
  | child h ih =>
    rename_i anc left pre
    rw [List.reverse_append, List.reverse_cons, List.reverse_nil, List.nil_append, List.singleton_append,
      Vers.firstExc, show sgn true = 1 from rfl]
    cases k with
    | zero => simp
    | succ k =>
      rw [if_neg (by omega), show ((k + 1 : Nat) : Int) + 1 - 1 = (k : Int) + 1 by omega, List.getElem?_cons_succ, ← ih k,
        Option.map_map]
      congr 1
      funext x
      simp; omega
  | sib c h ih =>
    rename_i anc left pre
    rw [List.reverse_append, List.reverse_cons, List.reverse_append, List.reverse_cons, List.reverse_nil, List.nil_append,
      List.append_assoc, List.append_assoc, List.singleton_append, Vers.firstExc, show sgn false = -1 from rfl, if_neg (by omega),
      firstExc_append_none (firstExc_parens_reverse_pos c (by omega)), excess_reverse, excess_parens, List.singleton_append,
      Vers.firstExc, show sgn true = 1 from rfl, if_neg (by omega),
      show (k : Int) + 1 - -1 - 0 - 1 = (k : Int) + 1 by omega, Option.map_map, Option.map_map, Option.map_map, ← ih k]
    congr 1
    funext x
    simp; omega

/-- What is written after the right siblings of a node: nothing, or the closing parenthesis of the parent. -/
def PostOk (post : List Bool) : Prop := post = [] ∨ ∃ x, post = false :: x

/-- The sequence around a node. -/
structure Around (b : List Bool) (n : Node) (pre : List Bool) (c s : Forest) (post : List Bool) : Prop where
  ctx : Ctx n.ancestors n.before pre
  eq : b = pre ++ (true :: (parens c ++ (false :: (parens s ++ post))))
  post : PostOk post
  handle : n.handle = pre.length
  close : n.close = pre.length + 2 * c.size + 1
  children : n.children = roots (n.handle + 1) c
  after : n.after = roots (n.close + 1) s
  size : n.size = c.size + 1

omit [Profile] in
theorem around_nodesFrom (f : Forest) : ∀ (anc left : List Nat) (pre post : List Bool), Ctx anc left pre →
    PostOk post → ∀ n ∈ nodesFrom anc left pre.length f,
      ∃ pre' c s post', Around (pre ++ (parens f ++ post)) n pre' c s post' := by
  induction f with
  | nil => intro anc left pre post _ _ n hn; simp [nodesFrom] at hn
  | cons c s ihc ihs =>
    intro anc left pre post hctx hpost n hn
    simp only [nodesFrom, List.mem_cons, List.mem_append] at hn
    rcases hn with rfl | hn | hn
    · refine ⟨pre, c, s, post, hctx, ?_, hpost, rfl, rfl, rfl, rfl, rfl⟩
      simp [parens]
    · obtain ⟨pre', c', s', post', h⟩ := ihc (pre.length :: anc) [] (pre ++ [true]) (false :: (parens s ++ post)) hctx.child
        (Or.inr ⟨_, rfl⟩) n (by simpa using hn)
      refine ⟨pre', c', s', post', ?_⟩
      have e : pre ++ (parens (Forest.cons c s) ++ post) = (pre ++ [true]) ++ (parens c ++ (false :: (parens s ++ post))) := by
        simp [parens]
      rw [e]; exact h
    · obtain ⟨pre', c', s', post', h⟩ := ihs anc (pre.length :: left) (pre ++ (true :: (parens c ++ [false]))) post (hctx.sib c)
        hpost n (by
          have e : (pre ++ (true :: (parens c ++ [false]))).length = pre.length + 2 * c.size + 1 + 1 := by
            simp [length_parens]; omega
          rw [e]; exact hn)
      refine ⟨pre', c', s', post', ?_⟩
      have e : pre ++ (parens (Forest.cons c s) ++ post) = (pre ++ (true :: (parens c ++ [false]))) ++ (parens s ++ post) := by
        simp [parens]
      rw [e]; exact h

omit [Profile] in
theorem around_nodes {f : Forest} {n : Node} (hn : n ∈ nodes f) :
    ∃ pre c s post, Around (parens f) n pre c s post := by
  have := around_nodesFrom f [] [] [] [] Ctx.root (Or.inl rfl) n hn
  simpa using this

/-! ## Handles -/

omit [Profile] in
theorem positionsFrom_append (b : Bool) (l l' : List Bool) : ∀ i,
    positionsFrom b i (l ++ l') = positionsFrom b i l ++ positionsFrom b (i + l.length) l' := by
  induction l with
  | nil => intro i; simp [positionsFrom]
  | cons x l ih =>
    intro i
    simp only [List.cons_append, positionsFrom, ih, List.length_cons]
    rw [show i + 1 + l.length = i + (l.length + 1) by omega]
    split <;> rfl

omit [Profile] in
theorem nodesFrom_handles (f : Forest) : ∀ (anc left : List Nat) (p : Nat),
    (nodesFrom anc left p f).map Node.handle = preorder p f := by
  induction f with
  | nil => intro _ _ _; rfl
  | cons c s ihc ihs =>
    intro anc left p
    simp only [nodesFrom, preorder, List.map_cons, List.map_append, ihc, ihs]

omit [Profile] in
theorem preorder_eq_positions (f : Forest) : ∀ p, preorder p f = positionsFrom true p (parens f) := by
  induction f with
  | nil => intro p; rfl
  | cons c s ihc ihs =>
    intro p
    rw [preorder, parens, positionsFrom, if_pos rfl, positionsFrom_append, ihc, ihs, positionsFrom, if_neg (by decide), length_parens]
    rw [show p + 1 + 2 * c.size + 1 = p + 2 * c.size + 2 by omega]

omit [Profile] in
theorem preorder_eq (f : Forest) : preorder 0 f = positions true (parens f) := preorder_eq_positions f 0

omit [Profile] in
theorem nodes_handles (f : Forest) : (nodes f).map Node.handle = positions true (parens f) := by
  unfold nodes; rw [nodesFrom_handles, preorder_eq]

omit [Profile] in
theorem mem_positionsFrom {b : Bool} {l : List Bool} : ∀ {i p : Nat},
    p ∈ positionsFrom b i l ↔ i ≤ p ∧ l[p - i]? = some b := by
  induction l with
  | nil => intro i p; simp [positionsFrom]
  | cons x l ih =>
    intro i p
    rw [positionsFrom]
    by_cases hx : x = b
    · rw [if_pos hx, List.mem_cons, ih]
      constructor
      · rintro (rfl | ⟨h1, h2⟩)
        · simp [hx]
        · refine ⟨by omega, ?_⟩
          rw [show p - i = (p - (i + 1)) + 1 by omega, List.getElem?_cons_succ]; exact h2
      · rintro ⟨h1, h2⟩
        by_cases he : p = i
        · exact Or.inl he
        · refine Or.inr ⟨by omega, ?_⟩
          rw [show p - i = (p - (i + 1)) + 1 by omega, List.getElem?_cons_succ] at h2; exact h2
    · rw [if_neg hx, ih]
      constructor
      · rintro ⟨h1, h2⟩
        refine ⟨by omega, ?_⟩
        rw [show p - i = (p - (i + 1)) + 1 by omega, List.getElem?_cons_succ]; exact h2
      · rintro ⟨h1, h2⟩
        by_cases he : p = i
        · subst he; simp at h2; exact absurd h2 hx
        · refine ⟨by omega, ?_⟩
          rw [show p - i = (p - (i + 1)) + 1 by omega, List.getElem?_cons_succ] at h2; exact h2

omit [Profile] in
theorem mem_positions {b : Bool} {l : List Bool} {p : Nat} : p ∈ positions b l ↔ l[p]? = some b := by
  unfold positions; rw [mem_positionsFrom]; simp

omit [Profile] in
/-- The handles are the opening parentheses. -/
theorem exists_node {f : Forest} {h : Nat} (hh : (parens f)[h]? = some true) : ∃ n ∈ nodes f, n.handle = h := by
  have := mem_positions.mpr hh
  rw [← nodes_handles, List.mem_map] at this
  obtain ⟨n, h1, h2⟩ := this
  exact ⟨n, h1, h2⟩

section
variable {b : List Bool} {n : Node} {pre : List Bool} {c s : Forest} {post : List Bool}

omit [Profile] in
theorem Around.open_bit (h : Around b n pre c s post) : b[n.handle]? = some true := by
  rw [h.handle, h.eq]; simp

omit [Profile] in
theorem Around.take_handle (h : Around b n pre c s post) : b.take n.handle = pre := by
  rw [h.handle, h.eq]; simp

omit [Profile] in
theorem Around.split_close (h : Around b n pre c s post) :
    b = (pre ++ (true :: parens c)) ++ (false :: (parens s ++ post)) ∧
      (pre ++ (true :: parens c)).length = n.close := by
  refine ⟨by rw [h.eq]; simp, ?_⟩
  rw [h.close]; simp [length_parens]; omega

omit [Profile] in
theorem Around.close_bit (h : Around b n pre c s post) : b[n.close]? = some false := by
  obtain ⟨h1, h2⟩ := h.split_close
  rw [h1, ← h2]; simp

omit [Profile] in
theorem Around.take_close (h : Around b n pre c s post) : b.take n.close = pre ++ (true :: parens c) := by
  obtain ⟨h1, h2⟩ := h.split_close
  rw [h1, ← h2, List.take_left]

omit [Profile] in
theorem Around.drop_handle (h : Around b n pre c s post) :
    b.drop (n.handle + 1) = parens c ++ (false :: (parens s ++ post)) := by
  rw [h.handle, h.eq, ← List.drop_drop]; simp

omit [Profile] in
theorem Around.drop_close (h : Around b n pre c s post) : b.drop (n.close + 1) = parens s ++ post := by
  obtain ⟨h1, h2⟩ := h.split_close
  rw [h1, ← h2, ← List.drop_drop]; simp

omit [Profile] in
theorem Around.handle_lt_close (h : Around b n pre c s post) : n.handle < n.close := by
  rw [h.handle, h.close]; omega

omit [Profile] in
theorem Around.close_lt (h : Around b n pre c s post) : n.close < b.length := by
  have := h.close_bit
  exact (List.getElem?_eq_some_iff.mp this).1

omit [Profile] in
theorem Around.depth (h : Around b n pre c s post) : excess (b.take n.handle) = n.depth := by
  rw [h.take_handle]; exact h.ctx.excess

omit [Profile] in
/-- `close` finds the closing parenthesis. -/
theorem Around.fwd_close (h : Around b n pre c s post) :
    (firstExc (b.drop (n.handle + 1)) (-1)).map (n.handle + 1 + ·) = some n.close := by
  rw [h.drop_handle, firstExc_append_none (firstExc_parens_neg c (by omega)), excess_parens, firstExc,
    show sgn false = -1 from rfl, if_pos (by omega), length_parens, h.close, h.handle]
  simp; omega

omit [Profile] in
/-- `open` finds the opening parenthesis. -/
theorem Around.bwd_open (h : Around b n pre c s post) :
    (firstExc (b.take n.close).reverse 1).map (n.close - 1 - ·) = some n.handle := by
  rw [h.take_close, List.reverse_append, List.reverse_cons, List.append_assoc,
    firstExc_append_none (firstExc_parens_reverse_pos c (by omega)), excess_reverse, excess_parens, List.singleton_append,
    firstExc, show sgn true = 1 from rfl, if_pos (by omega), List.length_reverse, length_parens, h.close, h.handle]
  simp

omit [Profile] in
/-- `bwd_search` finds the ancestors. -/
theorem Around.bwd_anc (h : Around b n pre c s post) (k : Nat) :
    (firstExc (b.take n.handle).reverse ((k : Int) + 1)).map (n.handle - 1 - ·) = n.ancestors[k]? := by
  rw [h.take_handle, h.handle, h.ctx.firstExc]

omit [Profile] in
/-- The parent, seen from the closing parenthesis. -/
theorem Around.bwd_parent_close (h : Around b n pre c s post) :
    (firstExc (b.take n.close).reverse 2).map (n.close - 1 - ·) = n.ancestors[0]? := by
  rw [← h.ctx.firstExc 0, h.take_close, List.reverse_append, List.reverse_cons, List.append_assoc,
    firstExc_append_none (firstExc_parens_reverse_pos c (by omega)), excess_reverse, excess_parens, List.singleton_append,
    firstExc, show sgn true = 1 from rfl, if_neg (by omega), List.length_reverse, length_parens, h.close,
    show ((0 : Nat) : Int) + 1 = 2 - 0 - 1 from rfl, Option.map_map, Option.map_map]
  congr 1
  funext x
  simp; omega

/-! ## Siblings and children -/

omit [Profile] in
theorem roots_head? (p : Nat) (f : Forest) : (roots p f).head? = if (parens f).head? = some true then some p else none := by
  cases f <;> rfl

omit [Profile] in
theorem Around.first_child (h : Around b n pre c s post) :
    n.children.head? = if b[n.handle + 1]? = some true then some (n.handle + 1) else none := by
  rw [h.children, roots_head?, ← List.head?_drop, h.drop_handle]
  cases c <;> simp [parens]

omit [Profile] in
theorem Around.isLeaf (h : Around b n pre c s post) : n.children = [] ↔ b[n.handle + 1]? = some false := by
  rw [h.children, ← List.head?_drop, h.drop_handle]
  cases c <;> simp [parens, roots]

omit [Profile] in
theorem Around.next_sibling (h : Around b n pre c s post) :
    n.after.head? = if b[n.close + 1]? = some true then some (n.close + 1) else none := by
  rw [h.after, roots_head?, ← List.head?_drop, h.drop_close]
  cases s with
  | cons => simp [parens]
  | nil =>
    rcases h.post with hp | ⟨x, hp⟩ <;> rw [hp] <;> simp [parens]

omit [Profile] in
/-- A non-empty forest ends with a tree. -/
theorem parens_snoc (f : Forest) (hf : f ≠ .nil) : ∃ x d, (∃ y, x = parens y) ∧ parens f = x ++ (true :: (parens d ++ [false])) ∧
    ∀ p, (roots p f).getLast? = some (p + x.length) := by
  induction f with
  | nil => exact absurd rfl hf
  | cons c s ihc ihs =>
    cases s with
    | nil => exact ⟨[], c, ⟨.nil, rfl⟩, by simp [parens], fun p => by simp [roots]⟩
    | cons c' s' =>
      obtain ⟨x, d, ⟨y, hy⟩, h1, h2⟩ := ihs (by simp)
      refine ⟨true :: (parens c ++ (false :: x)), d, ⟨.cons c y, by rw [parens, hy]⟩, by rw [parens, h1]; simp, fun p => ?_⟩
      rw [roots, List.getLast?_cons, h2]
      simp [length_parens]; omega

omit [Profile] in
/-- `last_child`: the parenthesis before the closing one. -/
theorem Around.last_child (h : Around b n pre c s post) (hc : n.children ≠ []) :
    b[n.close - 1]? = some false ∧
    (firstExc (b.take (n.close - 1)).reverse 1).map (n.close - 1 - 1 - ·) = n.children.getLast? := by
  have hne : c ≠ .nil := by
    intro h0; rw [h.children, h0] at hc; exact hc rfl
  obtain ⟨x, d, -, h1, h2⟩ := parens_snoc c hne
  have hl := length_parens c
  rw [h1] at hl
  simp [length_parens] at hl
  have e : b = (pre ++ (true :: (x ++ (true :: parens d)))) ++ (false :: (false :: (parens s ++ post))) := by
    rw [h.eq, h1]; simp
  have el : (pre ++ (true :: (x ++ (true :: parens d)))).length = n.close - 1 := by
    rw [h.close]; simp [length_parens]; omega
  refine ⟨by rw [e, ← el]; simp, ?_⟩
  have et : b.take (n.close - 1) = pre ++ (true :: (x ++ (true :: parens d))) := by
    rw [e, ← el, List.take_left]
  rw [et, h.children, h2, ← el]
  have er : (pre ++ (true :: (x ++ (true :: parens d)))).reverse = (parens d).reverse ++ (true :: (pre ++ true :: x).reverse) := by
    simp
  rw [er, firstExc_append_none (firstExc_parens_reverse_pos d (by omega)), excess_reverse, excess_parens,
    firstExc, show sgn true = 1 from rfl, if_pos (by omega), h.handle]
  simp; omega

omit [Profile] in
/-- `previous_sibling`: the parenthesis before the opening one. -/
theorem Around.prev_sibling (h : Around b n pre c s post) :
    (n.handle = 0 → n.before = []) ∧
    (0 < n.handle → b[n.handle - 1]? = some true → n.before = []) ∧
    (0 < n.handle → b[n.handle - 1]? = some false →
      (firstExc (b.take (n.handle - 1)).reverse 1).map (n.handle - 1 - 1 - ·) = n.before.head?) := by
  have hh := h.handle
  have hb : ∀ i, i < pre.length → b[i]? = pre[i]? := by
    intro i hi
    rw [h.eq, List.getElem?_append_left hi]
  have ht : ∀ i, i ≤ pre.length → b.take i = pre.take i := by
    intro i hi
    rw [h.eq, List.take_append_of_le_length hi]
  have hctx := h.ctx
  rw [hh]
  generalize n.before = left at hctx
  generalize n.ancestors = anc at hctx
  refine ⟨?_, ?_, ?_⟩
  · intro h0
    cases hctx with
    | root => rfl
    | child h => rfl
    | sib c h => simp at h0
  · intro h0 h1
    rw [hb _ (by omega)] at h1
    cases hctx with
    | root => rfl
    | child h => rfl
    | sib d h =>
      exfalso
      rename_i left' pre' _
      rw [show pre' ++ (true :: (parens d ++ [false])) = (pre' ++ (true :: parens d)) ++ [false] by simp,
        List.length_append, List.length_singleton, Nat.add_sub_cancel, List.getElem?_append_right (Nat.le_refl _)] at h1
      simp at h1
  · intro h0 h1
    rw [hb _ (by omega)] at h1
    rw [ht _ (by omega)]
    cases hctx with
    | root => simp at h0
    | child h =>
      exfalso
      simp at h1
    | sib d h =>
      rename_i left' pre' _
      have e : pre' ++ (true :: (parens d ++ [false])) = (pre' ++ (true :: parens d)) ++ [false] := by simp
      rw [e, List.length_append, List.length_singleton, Nat.add_sub_cancel, List.take_left', List.reverse_append, List.reverse_cons,
        List.append_assoc, firstExc_append_none (firstExc_parens_reverse_pos d (by omega)), excess_reverse, excess_parens,
        List.singleton_append, firstExc, show sgn true = 1 from rfl, if_pos (by omega)]
      · simp [length_parens]
      · rfl

end

/-! ## Ancestors and intervals -/

omit [Profile] in
theorem nodesFrom_bounds (f : Forest) : ∀ (anc left : List Nat) (p : Nat), ∀ n ∈ nodesFrom anc left p f,
    p ≤ n.handle ∧ n.handle < n.close ∧ n.close < p + 2 * f.size ∧ (∃ y, n.ancestors = y ++ anc ∧
      ∀ x ∈ y, p ≤ x ∧ x < p + 2 * f.size) := by
  induction f with
  | nil => intro _ _ _ n hn; simp [nodesFrom] at hn
  | cons c s ihc ihs =>
    intro anc left p n hn
    simp only [nodesFrom, List.mem_cons, List.mem_append] at hn
    simp only [Forest.size]
    rcases hn with rfl | hn | hn
    · refine ⟨by simp, by simp; omega, by simp; omega, [], by simp, by simp⟩
    · obtain ⟨h1, h2, h3, y, h4, h5⟩ := ihc _ _ _ n hn
      refine ⟨by omega, h2, by omega, y ++ [p], by rw [h4]; simp, ?_⟩
      intro x hx
      rw [List.mem_append, List.mem_singleton] at hx
      rcases hx with hx | rfl
      · have := h5 x hx; omega
      · omega
    · obtain ⟨h1, h2, h3, y, h4, h5⟩ := ihs _ _ _ n hn
      refine ⟨by omega, h2, by omega, y, h4, ?_⟩
      intro x hx
      have := h5 x hx; omega

omit [Profile] in
theorem ancestors_iff_from (f : Forest) : ∀ (anc left : List Nat) (p : Nat), (∀ x ∈ anc, x < p) →
    ∀ a ∈ nodesFrom anc left p f, ∀ d ∈ nodesFrom anc left p f,
      (a.handle ∈ d.ancestors ↔ a.handle < d.handle ∧ d.handle < a.close) := by
  induction f with
  | nil => intro _ _ _ _ a ha; simp [nodesFrom] at ha
  | cons c s ihc ihs =>
    intro anc left p hanc a ha d hd
    simp only [nodesFrom, List.mem_cons, List.mem_append] at ha hd
    have notin : ∀ x, p ≤ x → x ∉ anc := fun x hx h => by have := hanc x h; omega
    rcases ha with rfl | ha | ha
    · simp only []
      rcases hd with rfl | hd | hd
      · simp only []
        constructor
        · intro h; exact absurd h (notin p (Nat.le_refl p))
        · rintro ⟨h, -⟩; omega
      · obtain ⟨h1, h2, h3, y, h4, h5⟩ := nodesFrom_bounds c _ _ _ d hd
        rw [h4]
        constructor
        · intro _; omega
        · intro _; simp
      · obtain ⟨h1, h2, h3, y, h4, h5⟩ := nodesFrom_bounds s _ _ _ d hd
        rw [h4]
        constructor
        · intro h
          rw [List.mem_append] at h
          rcases h with h | h
          · have := h5 p h; omega
          · exact absurd h (notin p (Nat.le_refl p))
        · rintro ⟨-, h⟩; omega
    · obtain ⟨a1, a2, a3, -⟩ := nodesFrom_bounds c _ _ _ a ha
      rcases hd with rfl | hd | hd
      · simp only []
        constructor
        · intro h; exact absurd h (notin _ (by omega))
        · rintro ⟨h, -⟩; omega
      · apply ihc (p :: anc) [] (p + 1) _ a ha d hd
        intro x hx
        rw [List.mem_cons] at hx
        rcases hx with rfl | hx
        · omega
        · have := hanc x hx; omega
      · obtain ⟨h1, h2, h3, y, h4, h5⟩ := nodesFrom_bounds s _ _ _ d hd
        rw [h4]
        constructor
        · intro h
          rw [List.mem_append] at h
          rcases h with h | h
          · have := h5 _ h; omega
          · exact absurd h (notin _ (by omega))
        · rintro ⟨-, h⟩; omega
    · obtain ⟨a1, a2, a3, -⟩ := nodesFrom_bounds s _ _ _ a ha
      rcases hd with rfl | hd | hd
      · simp only []
        constructor
        · intro h; exact absurd h (notin _ (by omega))
        · rintro ⟨h, -⟩; omega
      · obtain ⟨h1, h2, h3, y, h4, h5⟩ := nodesFrom_bounds c _ _ _ d hd
        rw [h4]
        constructor
        · intro h
          rw [List.mem_append, List.mem_cons] at h
          rcases h with h | h | h
          · have := h5 _ h; omega
          · omega
          · exact absurd h (notin _ (by omega))
        · rintro ⟨h, -⟩; omega
      · apply ihs anc (p :: left) (p + 2 * c.size + 1 + 1) _ a ha d hd
        intro x hx
        have := hanc x hx; omega

omit [Profile] in
theorem ancestors_iff {f : Forest} {a d : Node} (ha : a ∈ nodes f) (hd : d ∈ nodes f) :
    a.handle ∈ d.ancestors ↔ a.handle < d.handle ∧ d.handle < a.close :=
  ancestors_iff_from f [] [] 0 (by simp) a ha d hd

/-! ## The children are nodes -/

omit [Profile] in
theorem roots_nodes (f : Forest) : ∀ (anc left : List Nat) (p i : Nat) (x : Nat), (roots p f)[i]? = some x →
    ∃ m ∈ nodesFrom anc left p f, m.handle = x ∧ m.ancestors = anc ∧ m.after = (roots p f).drop (i + 1) ∧
      m.before = ((roots p f).take i).reverse ++ left := by
  induction f with
  | nil => intro _ _ _ _ _ h; simp [roots] at h
  | cons c s ihc ihs =>
    intro anc left p i x h
    rw [roots] at h ⊢
    cases i with
    | zero =>
      simp at h
      exact ⟨_, List.mem_cons_self, h, rfl, by simp, by simp⟩
    | succ i =>
      rw [List.getElem?_cons_succ] at h
      obtain ⟨m, h1, h2, h3, h4, h5⟩ := ihs anc (p :: left) _ i x h
      refine ⟨m, ?_, h2, h3, h4, ?_⟩
      · simp only [nodesFrom, List.mem_cons, List.mem_append]
        exact Or.inr (Or.inr h1)
      · rw [h5]; simp

omit [Profile] in
theorem children_nodes_from (f : Forest) : ∀ (anc left : List Nat) (p : Nat), ∀ n ∈ nodesFrom anc left p f,
    ∀ (i x : Nat), n.children[i]? = some x →
      ∃ m ∈ nodesFrom anc left p f, m.handle = x ∧ m.ancestors = n.handle :: n.ancestors ∧
        m.after = n.children.drop (i + 1) ∧ m.before = (n.children.take i).reverse := by
  induction f with
  | nil => intro _ _ _ n hn; simp [nodesFrom] at hn
  | cons c s ihc ihs =>
    intro anc left p n hn i x hx
    simp only [nodesFrom, List.mem_cons, List.mem_append] at hn ⊢
    rcases hn with rfl | hn | hn
    · obtain ⟨m, h1, h2, h3, h4, h5⟩ := roots_nodes c (p :: anc) [] (p + 1) i x hx
      exact ⟨m, Or.inr (Or.inl h1), h2, h3, h4, by rw [h5]; simp⟩
    · obtain ⟨m, h1, h2⟩ := ihc _ _ _ n hn i x hx
      exact ⟨m, Or.inr (Or.inl h1), h2⟩
    · obtain ⟨m, h1, h2⟩ := ihs _ _ _ n hn i x hx
      exact ⟨m, Or.inr (Or.inr h1), h2⟩

omit [Profile] in
theorem children_nodes {f : Forest} {n : Node} (hn : n ∈ nodes f) {i x : Nat} (hx : n.children[i]? = some x) :
    ∃ m ∈ nodes f, m.handle = x ∧ m.ancestors = n.handle :: n.ancestors ∧
      m.after = n.children.drop (i + 1) ∧ m.before = (n.children.take i).reverse :=
  children_nodes_from f [] [] 0 n hn i x hx

/-! ## Postorder -/

/-- Opening and closing parentheses in postorder. -/
def postPairs : Nat → Forest → List (Nat × Nat)
  | _, .nil => []
  | p, .cons c s => postPairs (p + 1) c ++ (p, p + 2 * c.size + 1) :: postPairs (p + 2 * c.size + 2) s

omit [Profile] in
theorem postPairs_fst (f : Forest) : ∀ p, (postPairs p f).map Prod.fst = postorder p f := by
  induction f with
  | nil => intro p; rfl
  | cons c s ihc ihs => intro p; simp [postPairs, postorder, ihc, ihs]

omit [Profile] in
theorem postPairs_snd (f : Forest) : ∀ p, (postPairs p f).map Prod.snd = positionsFrom false p (parens f) := by
  induction f with
  | nil => intro p; rfl
  | cons c s ihc ihs =>
    intro p
    rw [postPairs, parens, positionsFrom, if_neg (by decide), positionsFrom_append, List.map_append, List.map_cons, ihc, ihs,
      positionsFrom, if_pos rfl, length_parens]
    rw [show p + 1 + 2 * c.size = p + 2 * c.size + 1 by omega]

omit [Profile] in
theorem postPairs_mem (f : Forest) : ∀ (anc left : List Nat) (p : Nat), ∀ q ∈ postPairs p f,
    ∃ n ∈ nodesFrom anc left p f, n.handle = q.1 ∧ n.close = q.2 := by
  induction f with
  | nil => intro _ _ _ q hq; simp [postPairs] at hq
  | cons c s ihc ihs =>
    intro anc left p q hq
    simp only [postPairs, List.mem_append, List.mem_cons] at hq
    simp only [nodesFrom, List.mem_cons, List.mem_append]
    rcases hq with hq | rfl | hq
    · obtain ⟨n, h1, h2⟩ := ihc (p :: anc) [] (p + 1) q hq
      exact ⟨n, Or.inr (Or.inl h1), h2⟩
    · exact ⟨_, Or.inl rfl, rfl, rfl⟩
    · obtain ⟨n, h1, h2⟩ := ihs anc (p :: left) _ q hq
      exact ⟨n, Or.inr (Or.inr h1), h2⟩

omit [Profile] in
/-- Every closing parenthesis closes a node. -/
theorem exists_node_close {f : Forest} {h : Nat} (hh : (parens f)[h]? = some false) : ∃ n ∈ nodes f, n.close = h := by
  have := mem_positions.mpr hh
  unfold positions at this
  rw [← postPairs_snd f 0, List.mem_map] at this
  obtain ⟨q, h1, h2⟩ := this
  obtain ⟨n, h3, h4, h5⟩ := postPairs_mem f [] [] 0 q h1
  exact ⟨n, h3, by rw [h5, h2]⟩

/-! ## Balanced sequences -/

omit [Profile] in
theorem parens_append (f g : Forest) : ∃ h, parens h = parens f ++ parens g := by
  induction f with
  | nil => exact ⟨g, rfl⟩
  | cons c s ihc ihs =>
    obtain ⟨h, e⟩ := ihs
    exact ⟨.cons c h, by simp [parens, e]⟩

omit [Profile] in
theorem balanced_parens (f : Forest) : Balanced (parens f) := by
  refine ⟨fun n => ?_, excess_parens f⟩
  apply Classical.byContradiction
  intro hc
  have hne : parens f ≠ [] := by
    intro h0; rw [h0] at hc; simp [Spec.excess] at hc
  cases n with
  | zero => simp [Spec.excess] at hc
  | succ n =>
    have := firstExc_parens_neg f (r := Spec.excess ((parens f).take (n + 1))) (by omega)
    by_cases hn : n < (parens f).length
    · exact firstExc_none.mp this n hn rfl
    · rw [List.take_of_length_le (by omega), excess_parens] at hc; omega

omit [Profile] in
/-- Every balanced sequence belongs to a forest. -/
theorem exists_forest : ∀ (k : Nat) (l : List Bool), l.length ≤ k → Balanced l → ∃ f, parens f = l := by
  intro k
  induction k with
  | zero =>
    intro l hl _
    exact ⟨.nil, (List.eq_nil_of_length_eq_zero (by omega)).symm⟩
  | succ k ih =>
    intro l hl hb
    cases l with
    | nil => exact ⟨.nil, rfl⟩
    | cons x l =>
      have hx : x = true := by
        have := hb.1 1
        cases x with
        | true => rfl
        | false => simp [Spec.excess] at this
      subst hx
      have htot := hb.2
      rw [excess_cons, show sgn true = 1 from rfl] at htot
      have hle : ∀ n, -1 ≤ Spec.excess (l.take n) := by
        intro n
        have := hb.1 (n + 1)
        rw [List.take_succ_cons, excess_cons, show sgn true = 1 from rfl] at this
        omega
      cases hf : firstExc l (-1) with
      | none =>
        exfalso
        have hne : l ≠ [] := by
          intro h0; rw [h0] at htot; simp [Spec.excess] at htot
        apply firstExc_none.mp hf (l.length - 1) (by have := List.length_pos_iff.mpr hne; omega)
        rw [List.take_of_length_le (by omega)]; omega
      | some m =>
        obtain ⟨h1, h2, h3⟩ := firstExc_some.mp hf
        have hm : Spec.excess (l.take m) ≥ 0 := by
          cases m with
          | zero => simp [Spec.excess]
          | succ m =>
            have a := h3 m (by omega)
            have c := hle (m + 1)
            omega
        obtain ⟨y, hy⟩ : ∃ y, l[m]? = some y := ⟨l[m], List.getElem?_eq_getElem h1⟩
        rw [List.take_add_one, hy, Option.toList_some, excess_append, excess_singleton] at h2
        have hsy := sgn_cases y
        have hy0 : y = false := by
          cases y with
          | false => rfl
          | true => simp [sgn] at h2; omega
        subst hy0
        rw [show sgn false = -1 from rfl] at h2
        have hsplit : l = l.take m ++ (false :: l.drop (m + 1)) := by
          conv => lhs; rw [← List.take_append_drop m l]
          rw [List.drop_eq_getElem_cons h1]
          have : l[m] = false := by
            rw [List.getElem?_eq_getElem h1] at hy; exact Option.some.inj hy
          rw [this]
        obtain ⟨fc, e1⟩ := ih (l.take m) (by simp at hl; simp; omega) (by
          refine ⟨fun n => ?_, by omega⟩
          rw [List.take_take]
          by_cases hn : n < m
          · rw [Nat.min_eq_left (by omega)]
            cases n with
            | zero => simp [Spec.excess]
            | succ n =>
              have a := h3 n (by omega)
              have c := hle (n + 1)
              omega
          · rw [Nat.min_eq_right (by omega)]; omega)
        obtain ⟨fs, e2⟩ := ih (l.drop (m + 1)) (by simp at hl; simp; omega) (by
          have he : ∀ n, Spec.excess (l.take (m + 1 + n)) = -1 + Spec.excess ((l.drop (m + 1)).take n) := by
            intro n
            have : l.take (m + 1 + n) = l.take (m + 1) ++ (l.drop (m + 1)).take n := by
              rw [List.take_add]
            rw [this, excess_append, List.take_add_one, hy, Option.toList_some, excess_append, excess_singleton,
              show sgn false = -1 from rfl]
            omega
          refine ⟨fun n => ?_, ?_⟩
          · have a := he n
            have c := hle (m + 1 + n)
            omega
          · have := excess_take_add_drop l (m + 1)
            rw [List.take_add_one, hy, Option.toList_some, excess_append, excess_singleton, show sgn false = -1 from rfl] at this
            omega)
        exact ⟨.cons fc fs, by rw [parens, e1, e2, ← hsplit]⟩

omit [Profile] in
theorem balanced_iff (l : List Bool) : Balanced l ↔ ∃ f, parens f = l :=
  ⟨fun h => exists_forest l.length l (Nat.le_refl _) h, fun ⟨f, h⟩ => h ▸ balanced_parens f⟩

end Vers
