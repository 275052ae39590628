import Verif.Proofs.Links

/-!
# The nodes of a subtree
-/

namespace Vers

open Spec

/-- The node of a tree that begins at position `d`, below the ancestors `A`. -/
def Spec.Node.shift (d : Nat) (A : List Nat) (n : Node) : Node :=
  ⟨d + n.handle, d + n.close, n.ancestors.map (d + ·) ++ A, n.before.map (d + ·), n.after.map (d + ·),
    n.children.map (d + ·), n.size⟩

theorem roots_shift (d : Nat) : ∀ (f : Forest) (p : Nat), roots (d + p) f = (roots p f).map (d + ·)
  | .nil, _ => rfl
  | .cons c s, p => by
    simp only [roots, List.map_cons]
    rw [show d + p + 2 * c.size + 2 = d + (p + 2 * c.size + 2) by omega, roots_shift d s]

theorem nodesFrom_shift (d : Nat) (A : List Nat) : ∀ (f : Forest) (anc left : List Nat) (p : Nat),
    nodesFrom (anc.map (d + ·) ++ A) (left.map (d + ·)) (d + p) f = (nodesFrom anc left p f).map (Node.shift d A)
  | .nil, _, _, _ => rfl
  | .cons c s, anc, left, p => by
    have hc := nodesFrom_shift d A c (p :: anc) [] (p + 1)
    have hs := nodesFrom_shift d A s anc (p :: left) (p + 2 * c.size + 1 + 1)
    simp only [List.map_cons, List.map_nil, List.cons_append] at hc hs
    simp only [nodesFrom, List.map_cons, List.map_append]
    rw [show d + p + 2 * c.size + 1 + 1 = d + (p + 2 * c.size + 1 + 1) by omega,
      show d + p + 1 = d + (p + 1) by omega, hc, hs, roots_shift, roots_shift]
    simp only [Node.shift, List.cons.injEq, and_true]
    congr 1
    · omega
    · exact roots_shift ..

/-- The subtree of a node: its forest of subtrees, its part of the parenthesis sequence, and its nodes. -/
theorem subtree_of : ∀ (f : Forest) (anc left : List Nat) (p : Nat), ∀ n ∈ nodesFrom anc left p f,
    ∃ c, n.size = c.size + 1 ∧ n.children = roots (n.handle + 1) c ∧ p ≤ n.handle ∧
      ((parens f).drop (n.handle - p)).take (2 * n.size) = parens (.cons c .nil) ∧
      ∀ m ∈ nodesFrom (n.handle :: n.ancestors) [] (n.handle + 1) c, m ∈ nodesFrom anc left p f
  | .nil, _, _, _, n, hn => by simp [nodesFrom] at hn
  | .cons c s, anc, left, p, n, hn => by
    simp only [nodesFrom, List.mem_cons, List.mem_append] at hn ⊢
    rcases hn with rfl | hn | hn
    · refine ⟨c, rfl, rfl, Nat.le_refl _, ?_, fun m hm => .inr (.inl hm)⟩
      simp only [Nat.sub_self, List.drop_zero, parens]
      rw [show true :: (parens c ++ false :: parens s) = (true :: (parens c ++ [false])) ++ parens s by simp,
        List.take_left' (by simp [length_parens]; omega)]
    · obtain ⟨c', h1, h2, h3, h4, h5⟩ := subtree_of c _ _ _ n hn
      refine ⟨c', h1, h2, by omega, ?_, fun m hm => .inr (.inl (h5 m hm))⟩
      have hlen : 2 * n.size ≤ ((parens c).drop (n.handle - (p + 1))).length := by
        have := congrArg List.length h4
        rw [List.length_take, length_parens] at this
        simp only [Forest.size] at this
        omega
      have hd : n.handle - (p + 1) ≤ (parens c).length := by
        rw [List.length_drop] at hlen; omega
      rw [← h4]
      simp only [parens]
      rw [show n.handle - p = n.handle - (p + 1) + 1 by omega, List.drop_succ_cons, List.drop_append_of_le_length hd,
        List.take_append_of_le_length hlen]
    · obtain ⟨c', h1, h2, h3, h4, h5⟩ := subtree_of s _ _ _ n hn
      refine ⟨c', h1, h2, by omega, ?_, fun m hm => .inr (.inr (h5 m hm))⟩
      rw [← h4]
      simp only [parens]
      congr 1
      rw [show true :: (parens c ++ false :: parens s) = (true :: (parens c ++ [false])) ++ parens s by simp,
        show n.handle - p = (true :: (parens c ++ [false])).length + (n.handle - (p + 2 * c.size + 1 + 1)) by
          simp [length_parens]; omega, List.drop_length_add_append]

/-- The nodes of a subtree, taken for itself, are the nodes of the whole tree at the same place; the root has no siblings
and no ancestors. -/
theorem subtree_nodes {f : Forest} {n : Node} (hn : n ∈ nodes f) :
    ∃ c, n.size = c.size + 1 ∧ ((parens f).drop n.handle).take (2 * n.size) = parens (.cons c .nil) ∧
      (∀ m ∈ nodes (.cons c .nil), m.handle = 0 → m.size = n.size ∧ m.ancestors = [] ∧
        m.children.map (n.handle + ·) = n.children) ∧
      ∀ m ∈ nodes (.cons c .nil), m.handle ≠ 0 → m.shift n.handle n.ancestors ∈ nodes f := by
  obtain ⟨c, h1, h2, h3, h4, h5⟩ := subtree_of f [] [] 0 n hn
  have root : ∀ m ∈ nodesFrom [0] [] 1 c, m.handle ≠ 0 := by
    intro m hm
    obtain ⟨_, _, _, h, _⟩ := subtree_of c _ _ _ m hm
    omega
  refine ⟨c, h1, h4, fun m hm h0 => ?_, fun m hm h0 => ?_⟩
  · simp only [nodes, nodesFrom, List.append_nil, List.mem_cons] at hm
    rcases hm with rfl | hm
    · refine ⟨h1.symm, rfl, ?_⟩
      rw [h2]
      exact (roots_shift n.handle c 1).symm
    · exact absurd h0 (root m hm)
  · simp only [nodes, nodesFrom, List.append_nil, List.mem_cons] at hm
    rcases hm with rfl | hm
    · exact absurd rfl h0
    · apply h5
      have := nodesFrom_shift n.handle n.ancestors c [0] [] 1
      simp only [List.map_cons, List.map_nil, Nat.add_zero, List.cons_append, List.nil_append] at this
      rw [this]
      exact List.mem_map_of_mem hm

/-- Ancestors are to the left. -/
theorem ancestors_lt : ∀ (f : Forest) (anc left : List Nat) (p : Nat), (∀ x ∈ anc, x < p) →
    ∀ n ∈ nodesFrom anc left p f, ∀ x ∈ n.ancestors, x < n.handle
  | .nil, _, _, _, _, n, hn => by simp [nodesFrom] at hn
  | .cons c s, anc, left, p, ha, n, hn => by
    simp only [nodesFrom, List.mem_cons, List.mem_append] at hn
    rcases hn with rfl | hn | hn
    · exact ha
    · refine ancestors_lt c _ _ _ (fun x hx => ?_) n hn
      rcases List.mem_cons.mp hx with rfl | hx
      · omega
      · have := ha x hx; omega
    · exact ancestors_lt s _ _ _ (fun x hx => by have := ha x hx; omega) n hn

/-- Every node of a subtree, taken for itself, is a node of the whole tree. -/
theorem subtree_node {f : Forest} {n : Node} (hn : n ∈ nodes f) :
    ∃ c, n.size = c.size + 1 ∧ ((parens f).drop n.handle).take (2 * n.size) = parens (.cons c .nil) ∧
      ∀ m ∈ nodes (.cons c .nil), ∃ m' ∈ nodes f, m'.handle = n.handle + m.handle ∧ m'.size = m.size ∧
        m'.ancestors = m.ancestors.map (n.handle + ·) ++ n.ancestors ∧ m'.children = m.children.map (n.handle + ·) ∧
        (m.handle ≠ 0 → m.ancestors ≠ [] ∧ m'.before = m.before.map (n.handle + ·) ∧
          m'.after = m.after.map (n.handle + ·)) := by
  obtain ⟨c, h1, h2, h3, h4⟩ := subtree_nodes hn
  refine ⟨c, h1, h2, fun m hm => ?_⟩
  by_cases h0 : m.handle = 0
  · obtain ⟨g1, g2, g3⟩ := h3 m hm h0
    exact ⟨n, hn, by omega, g1.symm, by rw [g2]; rfl, g3.symm, fun h => absurd h0 h⟩
  · refine ⟨_, h4 m hm h0, rfl, rfl, rfl, rfl, fun _ => ⟨fun he => ?_, rfl, rfl⟩⟩
    have key : ∀ (f : Forest) (anc left : List Nat) (p : Nat), anc ≠ [] → ∀ n ∈ nodesFrom anc left p f, n.ancestors ≠ [] := by
      intro f
      induction f with
      | nil => intro _ _ _ _ n hn; simp [nodesFrom] at hn
      | cons c s ihc ihs =>
        intro anc left p ha n hn
        simp only [nodesFrom, List.mem_cons, List.mem_append] at hn
        rcases hn with rfl | hn | hn
        · exact ha
        · exact ihc _ _ _ (by simp) n hn
        · exact ihs _ _ _ ha n hn
    simp only [nodes, nodesFrom, List.append_nil, List.mem_cons] at hm
    rcases hm with rfl | hm
    · exact h0 rfl
    · exact key c [0] [] 1 (by simp) m hm he

/-- Two forests beside each other. -/
def Spec.Forest.join (g : Forest) : Forest → Forest
  | .nil => g
  | .cons c s => .cons c (Forest.join g s)

theorem parens_join (g : Forest) : ∀ f : Forest, parens (Forest.join g f) = parens f ++ parens g
  | .nil => rfl
  | .cons c s => by simp [Forest.join, parens, parens_join g s]

theorem roots_join (g : Forest) : ∀ (f : Forest) (p : Nat), ∃ X, roots p (Forest.join g f) = roots p f ++ X
  | .nil, p => ⟨roots p g, rfl⟩
  | .cons c s, p => by
    obtain ⟨X, h⟩ := roots_join g s (p + 2 * c.size + 2)
    exact ⟨X, by simp only [Forest.join, roots, h, List.cons_append]⟩

/-- The nodes of the first of two forests. -/
theorem join_first (g : Forest) : ∀ (f : Forest) (anc left : List Nat) (p : Nat), ∀ n ∈ nodesFrom anc left p f,
    ∃ X, { n with after := n.after ++ X } ∈ nodesFrom anc left p (Forest.join g f)
  | .nil, _, _, _, n, hn => by simp [nodesFrom] at hn
  | .cons c s, anc, left, p, n, hn => by
    simp only [Forest.join, nodesFrom, List.mem_cons, List.mem_append] at hn ⊢
    rcases hn with rfl | hn | hn
    · obtain ⟨X, h⟩ := roots_join g s (p + 2 * c.size + 1 + 1)
      exact ⟨X, .inl (by simp [h])⟩
    · exact ⟨[], .inr (.inl (by simpa using hn))⟩
    · obtain ⟨X, h⟩ := join_first g s _ _ _ n hn
      exact ⟨X, .inr (.inr h)⟩

theorem nodesFrom_left : ∀ (f : Forest) (anc left left' : List Nat) (p : Nat), ∀ n ∈ nodesFrom anc left p f,
    ∃ Y, { n with before := Y } ∈ nodesFrom anc left' p f
  | .nil, _, _, _, _, n, hn => by simp [nodesFrom] at hn
  | .cons c s, anc, left, left', p, n, hn => by
    simp only [nodesFrom, List.mem_cons, List.mem_append] at hn ⊢
    rcases hn with rfl | hn | hn
    · exact ⟨left', .inl rfl⟩
    · exact ⟨n.before, .inr (.inl hn)⟩
    · obtain ⟨Y, h⟩ := nodesFrom_left s anc _ (p :: left') _ n hn
      exact ⟨Y, .inr (.inr h)⟩

theorem join_last (g : Forest) : ∀ (f : Forest) (anc left : List Nat) (p : Nat), ∃ left',
    ∀ n ∈ nodesFrom anc left' (p + 2 * f.size) g, n ∈ nodesFrom anc left p (Forest.join g f)
  | .nil, _, left, _ => ⟨left, fun _ hn => hn⟩
  | .cons c s, anc, left, p => by
    obtain ⟨l, h⟩ := join_last g s anc (p :: left) (p + 2 * c.size + 1 + 1)
    refine ⟨l, fun n hn => ?_⟩
    simp only [Forest.join, nodesFrom, List.mem_cons, List.mem_append]
    refine .inr (.inr (h n ?_))
    rwa [show p + 2 * c.size + 1 + 1 + 2 * s.size = p + 2 * (Forest.cons c s).size by simp only [Forest.size]; omega]

/-- The nodes of the second of two forests. -/
theorem join_second (g f : Forest) : ∀ n ∈ nodes g,
    ∃ Y, { n.shift (2 * f.size) [] with before := Y } ∈ nodes (Forest.join g f) := by
  intro n hn
  obtain ⟨l, h⟩ := join_last g f [] [] 0
  have hs := nodesFrom_shift (2 * f.size) [] g [] [] 0
  simp only [List.map_nil, List.nil_append, Nat.add_zero] at hs
  have hm : n.shift (2 * f.size) [] ∈ nodesFrom [] [] (2 * f.size) g := hs ▸ List.mem_map_of_mem hn
  obtain ⟨Y, hY⟩ := nodesFrom_left g [] [] l (2 * f.size) _ hm
  exact ⟨Y, h _ (by rwa [Nat.zero_add])⟩

end Vers
