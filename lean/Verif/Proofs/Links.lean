import Verif.Proofs.Follow

/-!
# How the nodes of a forest are linked
-/

namespace Vers

open Spec

/-- A node is determined by its handle. -/
theorem eq_of_handle {f : Forest} {n m : Node} (hn : n ∈ nodes f) (hm : m ∈ nodes f) (h : n.handle = m.handle) : n = m := by
  have hp := nodes_sorted f
  obtain ⟨i, hi, rfl⟩ := List.mem_iff_getElem.mp hn
  obtain ⟨j, hj, rfl⟩ := List.mem_iff_getElem.mp hm
  rw [List.pairwise_iff_getElem] at hp
  rcases Nat.lt_trichotomy i j with hij | rfl | hij
  · have := hp i j (by simpa using hi) (by simpa using hj) hij
    simp at this; omega
  · rfl
  · have := hp j i (by simpa using hj) (by simpa using hi) hij
    simp at this; omega

/-- The next sibling. -/
theorem next_link : ∀ (f : Forest) (anc left : List Nat) (p : Nat), ∀ n ∈ nodesFrom anc left p f, ∀ x r,
    n.after = x :: r → ∃ m ∈ nodesFrom anc left p f,
      m.handle = x ∧ m.before = n.handle :: n.before ∧ m.ancestors = n.ancestors := by
  intro f
  induction f with
  | nil => intro _ _ _ n hn; simp [nodesFrom] at hn
  | cons c s ihc ihs =>
    intro anc left p n hn x r hx
    simp only [nodesFrom, List.mem_cons, List.mem_append] at hn ⊢
    rcases hn with rfl | hn | hn
    · cases s with
      | nil => simp [roots] at hx
      | cons c' s' =>
        simp only [roots, List.cons.injEq] at hx
        refine ⟨⟨p + 2 * c.size + 1 + 1, p + 2 * c.size + 1 + 1 + 2 * c'.size + 1, anc, p :: left,
          roots (p + 2 * c.size + 1 + 1 + 2 * c'.size + 1 + 1) s', roots (p + 2 * c.size + 1 + 1 + 1) c', c'.size + 1⟩,
          .inr (.inr ?_), hx.1, rfl, rfl⟩
        simp only [nodesFrom, List.mem_cons, true_or]
    · obtain ⟨m, m1, m2⟩ := ihc _ _ _ n hn x r hx
      exact ⟨m, .inr (.inl m1), m2⟩
    · obtain ⟨m, m1, m2⟩ := ihs _ _ _ n hn x r hx
      exact ⟨m, .inr (.inr m1), m2⟩

/-- The previous sibling. -/
theorem prev_link_from (N : List Node) : ∀ (f : Forest) (anc left : List Nat) (p : Nat),
    (∀ n ∈ nodesFrom anc left p f, n ∈ N) → (∀ x r, left = x :: r → ∃ m ∈ N, m.handle = x ∧ m.after = roots p f) →
    ∀ n ∈ nodesFrom anc left p f, ∀ x r, n.before = x :: r → ∃ m ∈ N, m.handle = x ∧ m.after = n.handle :: n.after := by
  intro f
  induction f with
  | nil => intro _ _ _ _ _ n hn; simp [nodesFrom] at hn
  | cons c s ihc ihs =>
    intro anc left p hN hl n hn x r hx
    simp only [nodesFrom, List.mem_cons, List.mem_append] at hn hN
    rcases hn with rfl | hn | hn
    · obtain ⟨m, m1, m2, m3⟩ := hl x r hx
      exact ⟨m, m1, m2, m3⟩
    · exact ihc _ _ _ (fun n hn => hN n (.inr (.inl hn))) (fun x r h => by cases h) n hn x r hx
    · refine ihs _ _ _ (fun n hn => hN n (.inr (.inr hn))) (fun x r h => ?_) n hn x r hx
      cases h
      exact ⟨_, hN _ (.inl rfl), rfl, rfl⟩

theorem prev_link {f : Forest} {n : Node} (hn : n ∈ nodes f) {x : Nat} {r : List Nat} (hx : n.before = x :: r) :
    ∃ m ∈ nodes f, m.handle = x ∧ m.after = n.handle :: n.after :=
  prev_link_from (nodes f) f [] [] 0 (fun _ h => h) (fun _ _ h => by cases h) n hn x r hx

/-- The parent. -/
theorem parent_link_from (N : List Node) : ∀ (f : Forest) (anc left : List Nat) (p : Nat),
    (∀ n ∈ nodesFrom anc left p f, n ∈ N) →
    (∀ x r, anc = x :: r → ∃ m ∈ N, m.handle = x ∧ m.ancestors = r ∧ ∀ y ∈ roots p f, y ∈ m.children) →
    ∀ n ∈ nodesFrom anc left p f, ∀ x r, n.ancestors = x :: r →
      ∃ m ∈ N, m.handle = x ∧ m.ancestors = r ∧ n.handle ∈ m.children := by
  intro f
  induction f with
  | nil => intro _ _ _ _ _ n hn; simp [nodesFrom] at hn
  | cons c s ihc ihs =>
    intro anc left p hN hl n hn x r hx
    simp only [nodesFrom, List.mem_cons, List.mem_append] at hn hN
    rcases hn with rfl | hn | hn
    · obtain ⟨m, m1, m2, m3, m4⟩ := hl x r hx
      exact ⟨m, m1, m2, m3, m4 _ (by simp [roots])⟩
    · refine ihc _ _ _ (fun n hn => hN n (.inr (.inl hn))) (fun x r h => ?_) n hn x r hx
      cases h
      exact ⟨_, hN _ (.inl rfl), rfl, rfl, fun y hy => hy⟩
    · refine ihs _ _ _ (fun n hn => hN n (.inr (.inr hn))) (fun x r h => ?_) n hn x r hx
      obtain ⟨m, m1, m2, m3, m4⟩ := hl x r h
      exact ⟨m, m1, m2, m3, fun y hy => m4 y (by rw [roots]; exact List.mem_cons_of_mem _ hy)⟩

theorem parent_link {f : Forest} {n : Node} (hn : n ∈ nodes f) {x : Nat} {r : List Nat} (hx : n.ancestors = x :: r) :
    ∃ m ∈ nodes f, m.handle = x ∧ m.ancestors = r ∧ n.handle ∈ m.children :=
  parent_link_from (nodes f) f [] [] 0 (fun _ h => h) (fun _ _ h => by cases h) n hn x r hx

/-- The sizes of the roots. -/
theorem root_sizes : ∀ (f : Forest) (anc left : List Nat) (p : Nat), ∃ ms : List Node,
    (∀ m ∈ ms, m ∈ nodesFrom anc left p f) ∧ ms.map Node.handle = roots p f ∧ (ms.map Node.size).sum = f.size
  | .nil, _, _, _ => ⟨[], by simp, rfl, rfl⟩
  | .cons c s, anc, left, p => by
    obtain ⟨ms, m1, m2, m3⟩ := root_sizes s anc (p :: left) (p + 2 * c.size + 1 + 1)
    refine ⟨⟨p, p + 2 * c.size + 1, anc, left, roots (p + 2 * c.size + 1 + 1) s, roots (p + 1) c, c.size + 1⟩ :: ms,
      fun m hm => ?_, ?_, ?_⟩
    · simp only [nodesFrom, List.mem_cons, List.mem_append]
      rcases List.mem_cons.mp hm with rfl | hm
      · exact .inl rfl
      · exact .inr (.inr (m1 m hm))
    · simp [roots, m2]
    · simp [Forest.size, m3]

/-- The size of a node is one more than the sizes of its children. -/
theorem child_sizes_from : ∀ (f : Forest) (anc left : List Nat) (p : Nat), ∀ n ∈ nodesFrom anc left p f,
    ∃ ms : List Node, (∀ m ∈ ms, m ∈ nodesFrom anc left p f) ∧ ms.map Node.handle = n.children ∧
      n.size = (ms.map Node.size).sum + 1 := by
  intro f
  induction f with
  | nil => intro _ _ _ n hn; simp [nodesFrom] at hn
  | cons c s ihc ihs =>
    intro anc left p n hn
    simp only [nodesFrom, List.mem_cons, List.mem_append] at hn ⊢
    rcases hn with rfl | hn | hn
    · obtain ⟨ms, m1, m2, m3⟩ := root_sizes c (p :: anc) [] (p + 1)
      exact ⟨ms, fun m hm => .inr (.inl (m1 m hm)), m2, by rw [m3]⟩
    · obtain ⟨ms, m1, m2⟩ := ihc _ _ _ n hn
      exact ⟨ms, fun m hm => .inr (.inl (m1 m hm)), m2⟩
    · obtain ⟨ms, m1, m2⟩ := ihs _ _ _ n hn
      exact ⟨ms, fun m hm => .inr (.inr (m1 m hm)), m2⟩

/-- A first child. -/
theorem first_child_iff {f : Forest} {n m : Node} (hn : n ∈ nodes f) (hm : m ∈ nodes f) :
    n.children.head? = some m.handle ↔ m.ancestors.head? = some n.handle ∧ m.before.head? = none := by
  constructor
  · intro h
    obtain ⟨q, q1, q2, q3, -, q5⟩ := children_nodes hn (i := 0) (x := m.handle) (by rw [← List.head?_eq_getElem?]; exact h)
    cases eq_of_handle q1 hm q2
    rw [q3, q5]
    exact ⟨rfl, by simp⟩
  · rintro ⟨h1, h2⟩
    cases e : m.ancestors with
    | nil => rw [e] at h1; cases h1
    | cons x r =>
      rw [e] at h1
      obtain ⟨q, q1, q2, -, q4⟩ := parent_link hm e
      cases h1
      cases eq_of_handle q1 hn q2
      obtain ⟨i, hi⟩ := List.mem_iff_getElem?.mp q4
      obtain ⟨u, u1, u2, -, -, u5⟩ := children_nodes hn hi
      cases eq_of_handle u1 hm u2
      rw [u5, List.head?_reverse, List.getLast?_eq_none_iff, List.take_eq_nil_iff] at h2
      rcases h2 with rfl | h2
      · rw [List.head?_eq_getElem?]; exact hi
      · rw [h2] at hi; cases hi

/-- A last child. -/
theorem last_child_iff {f : Forest} {n m : Node} (hn : n ∈ nodes f) (hm : m ∈ nodes f) :
    n.children.getLast? = some m.handle ↔ m.ancestors.head? = some n.handle ∧ m.after.head? = none := by
  constructor
  · intro h
    rw [List.getLast?_eq_getElem?] at h
    obtain ⟨q, q1, q2, q3, q4, -⟩ := children_nodes hn h
    cases eq_of_handle q1 hm q2
    rw [q3, q4]
    exact ⟨rfl, by simp; omega⟩
  · rintro ⟨h1, h2⟩
    cases e : m.ancestors with
    | nil => rw [e] at h1; cases h1
    | cons x r =>
      rw [e] at h1
      obtain ⟨q, q1, q2, -, q4⟩ := parent_link hm e
      cases h1
      cases eq_of_handle q1 hn q2
      obtain ⟨i, hi⟩ := List.mem_iff_getElem?.mp q4
      obtain ⟨u, u1, u2, -, u4, -⟩ := children_nodes hn hi
      cases eq_of_handle u1 hm u2
      rw [u4, List.head?_eq_none_iff, List.drop_eq_nil_iff] at h2
      have := (List.getElem?_eq_some_iff.mp hi).1
      rw [List.getLast?_eq_getElem?, show n.children.length - 1 = i by omega]
      exact hi

/-- Siblings. -/
theorem sibling_iff {f : Forest} {n m : Node} (hn : n ∈ nodes f) (hm : m ∈ nodes f) :
    n.after.head? = some m.handle ↔ m.before.head? = some n.handle := by
  constructor
  · intro h
    cases e : n.after with
    | nil => rw [e] at h; cases h
    | cons x r =>
      rw [e] at h
      cases h
      obtain ⟨q, q1, q2, q3, -⟩ := next_link f [] [] 0 n hn _ _ e
      cases eq_of_handle q1 hm q2
      rw [q3]; rfl
  · intro h
    cases e : m.before with
    | nil => rw [e] at h; cases h
    | cons x r =>
      rw [e] at h
      cases h
      obtain ⟨q, q1, q2, q3⟩ := prev_link hm e
      cases eq_of_handle q1 hn q2
      rw [q3]; rfl

/-- Neighbours on a level: increasing lists. -/
theorem next_prev_iff {l : List Nat} (hl : l.Pairwise (· < ·)) {x y : Nat} (hx : x ∈ l) (hy : y ∈ l) :
    (l.filter (fun z => x < z)).head? = some y ↔ (l.filter (fun z => z < y)).getLast? = some x := by
  obtain ⟨a, r, e⟩ := List.append_of_mem hx
  obtain ⟨b, q, e'⟩ := List.append_of_mem hy
  have h1 : l.filter (fun z => x < z) = r := by rw [e]; exact filter_gt (e ▸ hl)
  have h2 : l.filter (fun z => z < y) = b := by rw [e']; exact filter_lt (e' ▸ hl)
  constructor
  · intro h
    rw [h1] at h
    cases r with
    | nil => cases h
    | cons z r =>
      cases h
      have : l = (a ++ [x]) ++ y :: r := by rw [e]; simp
      rw [this, filter_lt (this ▸ hl)]
      simp
  · intro h
    rw [h2] at h
    obtain ⟨c, rfl⟩ := List.getLast?_eq_some_iff.mp h
    have : l = c ++ x :: y :: q := by rw [e']; simp
    rw [this, filter_gt (this ▸ hl)]
    rfl

end Vers
