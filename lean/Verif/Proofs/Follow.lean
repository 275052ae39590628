import Verif.SpecClient
import Verif.SpecTree
import Verif.Proofs.Base
import Verif.Proofs.BpLevel
import Verif.Proofs.Probe

/-!
# Walks from node to node
-/

namespace Vers

open Spec

/-! ## Nodes are linked consistently -/

/-- The next sibling of a node has the remaining siblings to its right. -/
theorem after_link : ∀ (f : Forest) (anc left : List Nat) (p : Nat), ∀ n ∈ nodesFrom anc left p f, ∀ x r,
    n.after = x :: r → ∃ m ∈ nodesFrom anc left p f, m.handle = x ∧ m.after = r := by
  intro f
  induction f with
  | nil => intro _ _ _ n hn; simp [nodesFrom] at hn
  | cons c s ihc ihs =>
    intro anc left p n hn x r hx
    simp only [nodesFrom, List.mem_cons, List.mem_append] at hn ⊢
    rcases hn with rfl | hn | hn
    · cases s with
      | nil => simp [roots] at hx
      | cons c' s' =>
        simp only [roots, List.cons.injEq] at hx
        refine ⟨_, .inr (.inr (by simp only [nodesFrom, List.mem_cons]; exact .inl rfl)), hx.1, ?_⟩
        rw [← hx.2]
    · obtain ⟨m, m1, m2⟩ := ihc _ _ _ n hn x r hx
      exact ⟨m, .inr (.inl m1), m2⟩
    · obtain ⟨m, m1, m2⟩ := ihs _ _ _ n hn x r hx
      exact ⟨m, .inr (.inr m1), m2⟩

/-- The previous sibling of a node has the remaining siblings to its left. -/
theorem before_link (N : List Node) : ∀ (f : Forest) (anc left : List Nat) (p : Nat),
    (∀ n ∈ nodesFrom anc left p f, n ∈ N) → (∀ x r, left = x :: r → ∃ m ∈ N, m.handle = x ∧ m.before = r) →
    ∀ n ∈ nodesFrom anc left p f, ∀ x r, n.before = x :: r → ∃ m ∈ N, m.handle = x ∧ m.before = r := by
  intro f
  induction f with
  | nil => intro _ _ _ _ _ n hn; simp [nodesFrom] at hn
  | cons c s ihc ihs =>
    intro anc left p hN hl n hn x r hx
    simp only [nodesFrom, List.mem_cons, List.mem_append] at hn hN
    rcases hn with rfl | hn | hn
    · exact hl x r hx
    · exact ihc _ _ _ (fun n hn => hN n (.inr (.inl hn))) (fun x r h => by cases h) n hn x r hx
    · refine ihs _ _ _ (fun n hn => hN n (.inr (.inr hn))) (fun x r h => ?_) n hn x r hx
      cases h
      exact ⟨_, hN _ (.inl rfl), rfl, rfl⟩

/-- The parent of a node has the remaining ancestors. -/
theorem ancestors_link (N : List Node) : ∀ (f : Forest) (anc left : List Nat) (p : Nat),
    (∀ n ∈ nodesFrom anc left p f, n ∈ N) → (∀ x r, anc = x :: r → ∃ m ∈ N, m.handle = x ∧ m.ancestors = r) →
    ∀ n ∈ nodesFrom anc left p f, ∀ x r, n.ancestors = x :: r → ∃ m ∈ N, m.handle = x ∧ m.ancestors = r := by
  intro f
  induction f with
  | nil => intro _ _ _ _ _ n hn; simp [nodesFrom] at hn
  | cons c s ihc ihs =>
    intro anc left p hN hl n hn x r hx
    simp only [nodesFrom, List.mem_cons, List.mem_append] at hn hN
    rcases hn with rfl | hn | hn
    · exact hl x r hx
    · refine ihc _ _ _ (fun n hn => hN n (.inr (.inl hn))) (fun x r h => ?_) n hn x r hx
      cases h
      exact ⟨_, hN _ (.inl rfl), rfl, rfl⟩
    · exact ihs _ _ _ (fun n hn => hN n (.inr (.inr hn))) hl n hn x r hx

/-! ## Following links -/

/-- A list whose elements are linked is visited from its first element. -/
theorem follow_list {step : Nat → R (Option Nat)} : ∀ (l : List Nat) (fuel : Nat), l.length ≤ fuel →
    (∀ a x r, l = a ++ x :: r → step x = .ok r.head?) → follow step fuel l.head? = .ok l
  | [], fuel, _, _ => by cases fuel <;> rfl
  | x :: r, 0, h, _ => by simp at h
  | x :: r, fuel + 1, h, hs => by
    show (do let o ← step x; let l ← follow step fuel o; pure (x :: l)) = _
    rw [hs [] x r rfl, ok_bind, follow_list r fuel (by simpa using h) fun a y q e => hs (x :: a) y q (by rw [e]; rfl), ok_bind]
    rfl

/-- The links of the nodes. -/
theorem follow_link {step : Nat → R (Option Nat)} {N : List Node} {next : Node → List Nat}
    (hs : ∀ n ∈ N, step n.handle = .ok (next n).head?)
    (hl : ∀ n ∈ N, ∀ x r, next n = x :: r → ∃ m ∈ N, m.handle = x ∧ next m = r) :
    ∀ (fuel : Nat), ∀ n ∈ N, (next n).length ≤ fuel → follow step fuel (next n).head? = .ok (next n)
  | fuel, n, hn, h => by
    cases e : next n with
    | nil => cases fuel <;> rfl
    | cons x r =>
      obtain ⟨m, m1, m2, m3⟩ := hl n hn x r e
      cases fuel with
      | zero => rw [e] at h; simp at h
      | succ fuel =>
        show (do let o ← step x; let l ← follow step fuel o; pure (x :: l)) = _
        rw [← m2, hs m m1, ok_bind, follow_link hs hl fuel m m1 (by rw [e] at h; rw [m3]; simpa using h), ok_bind, m3]
        rfl

/-- In an increasing list, the elements after `x`. -/
theorem filter_gt {a r : List Nat} {x : Nat} (h : (a ++ x :: r).Pairwise (· < ·)) :
    (a ++ x :: r).filter (fun y => x < y) = r := by
  rw [List.pairwise_append, List.pairwise_cons] at h
  obtain ⟨_, ⟨h1, _⟩, h3⟩ := h
  rw [List.filter_append, List.filter_eq_nil_iff.mpr (fun y hy => by have := h3 y hy x (by simp); simp; omega),
    List.filter_cons_of_neg (by simp), List.nil_append, List.filter_eq_self]
  exact fun y hy => by simpa using h1 y hy

/-- In an increasing list, the elements before `x`. -/
theorem filter_lt {a r : List Nat} {x : Nat} (h : (a ++ x :: r).Pairwise (· < ·)) :
    (a ++ x :: r).filter (fun y => y < x) = a := by
  rw [List.pairwise_append, List.pairwise_cons] at h
  obtain ⟨_, ⟨h1, _⟩, h3⟩ := h
  have e : r.filter (fun y => y < x) = [] :=
    List.filter_eq_nil_iff.mpr (fun y hy => by have := h1 y hy; simp; omega)
  rw [List.filter_append, List.filter_cons_of_neg (by simp), e, List.append_nil, List.filter_eq_self]
  exact fun y hy => by simpa using h3 y hy x (by simp)

/-! ## Cells -/

variable {K S : Type} {same : K → S → S → Prop} {s : S}

theorem follow_reads {step : S → Nat → R (Option Nat)} {c : Nat} (h : ∀ i, Probes same c (fun s => step s i) s) :
    ∀ (fuel : Nat) (o : Option Nat) (l : List Nat), follow (step s) fuel o = .ok l →
      Probes same (l.length * c) (fun s => follow (step s) fuel o) s
  | fuel, none, l, _ => by
    have : (fun s => follow (step s) fuel none) = fun _ => (pure [] : R (List Nat)) := by
      funext s; cases fuel <;> rfl
    rw [this]
    exact Probes.mono (Probes.const _) (by omega)
  | 0, some _, l, hl => by cases hl
  | fuel + 1, some x, l, hl => by
    obtain ⟨o, o1, hl⟩ := bind_eq_ok.mp hl
    obtain ⟨m, m1, hl⟩ := bind_eq_ok.mp hl
    cases hl
    refine Probes.mono (n := c + (m.length * c + 0)) ?_ (by rw [List.length_cons, Nat.succ_mul]; omega)
    refine Probes.bind (h x) fun o' ho => ?_
    cases o1.symm.trans ho
    exact Probes.bind (follow_reads h fuel o m m1) fun _ _ => Probes.const _

theorem walk_reads {fc ns : S → Nat → R (Option Nat)} {c : Nat} (h1 : ∀ i, Probes same c (fun s => fc s i) s)
    (h2 : ∀ i, Probes same c (fun s => ns s i) s) :
    ∀ (fuel : Nat) (o : Option Nat) (l : List Bool), walk (fc s) (ns s) fuel o = .ok l →
      Probes same (l.length * c) (fun s => walk (fc s) (ns s) fuel o) s
  | fuel, none, l, _ => by
    have : (fun s => walk (fc s) (ns s) fuel none) = fun _ => (pure [] : R (List Bool)) := by
      funext s; cases fuel <;> rfl
    rw [this]
    exact Probes.mono (Probes.const _) (by omega)
  | 0, some _, l, hl => by cases hl
  | fuel + 1, some x, l, hl => by
    obtain ⟨o, o1, hl⟩ := bind_eq_ok.mp hl
    obtain ⟨m, m1, hl⟩ := bind_eq_ok.mp hl
    obtain ⟨q, q1, hl⟩ := bind_eq_ok.mp hl
    obtain ⟨u, u1, hl⟩ := bind_eq_ok.mp hl
    cases hl
    refine Probes.mono (n := c + (m.length * c + (c + (u.length * c + 0)))) ?_ (by
      rw [List.length_cons, List.length_append, List.length_cons, Nat.succ_mul, Nat.add_mul, Nat.succ_mul]
      omega)
    refine Probes.bind (h1 x) fun o' ho => ?_
    cases o1.symm.trans ho
    refine Probes.bind (walk_reads h1 h2 fuel o m m1) fun _ _ => ?_
    refine Probes.bind (h2 x) fun q' hq => ?_
    cases q1.symm.trans hq
    exact Probes.bind (walk_reads h1 h2 fuel q u u1) fun _ _ => Probes.const _

theorem runNext_reads {σ α : Type} {next : S → σ → R (σ × Option α)} {c : Nat}
    (h : ∀ x, Probes same c (fun s => next s x) s) :
    ∀ (m : Nat) (x : σ), Probes same (m * c) (fun s => runNext (next s) m x) s
  | 0, _ => Probes.mono (Probes.const _) (by omega)
  | m + 1, x => by
    refine Probes.mono (n := c + (m * c + 0)) ?_ (by rw [Nat.succ_mul]; omega)
    exact Probes.bind (h x) fun p _ => Probes.bind (runNext_reads h m p.1) fun _ _ => Probes.const _

end Vers
