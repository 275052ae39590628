import Verif.Proofs.ProbeRs
import Verif.Proofs.TimeWavelet

/-!
# The number of cells read by queries of the wavelet matrix
-/

namespace Vers

open Spec

variable [Profile]

namespace RsVec

/-- A budget that suffices for a select query bounds the number of cells that it reads. -/
theorem reads_select_of_budget (rs : RsVec) (zero : Bool) (k b p : Nat) (h : rs.select zero k b = .ok p)
    (hd : rs.select zero k = .ok p) : Probes RsCell.same (3 * b + 24) (fun rs => rs.select zero k) rs := by
  have hm : rs.select zero k (min b (rs.supers.length + 1)) = .ok p := by
    rcases Nat.le_total b (rs.supers.length + 1) with hb | hb
    · rw [Nat.min_eq_left hb]; exact h
    · rw [Nat.min_eq_right hb]; exact hd
  obtain ⟨L, h1, h2⟩ := rs.reads_selectBudget zero k (min b (rs.supers.length + 1))
  refine ⟨RsCell.superCount :: L, by simp only [List.length_cons]; omega, fun s' hs => ?_⟩
  have hc : s'.supers.length = rs.supers.length := hs RsCell.superCount (by simp)
  have hs' := h2 s' fun c hc => hs c (by simp [hc])
  show s'.select zero k = rs.select zero k
  rw [hd]
  exact select_mono (n := min b (rs.supers.length + 1)) (by omega) (hs'.trans hm)

end RsVec

namespace WM

/-- The matrices with `n` levels. -/
abbrev OfWidth (n : Nat) := { m : WM // m.data.length = n }

namespace OfWidth

variable {n : Nat}

omit [Profile] in
/-- The contents of a cell of a level are the same. -/
def same (k : Nat × RsCell) (a b : OfWidth n) : Prop := ∀ x ∈ a.1.data[k.1]?, ∀ y ∈ b.1.data[k.1]?, k.2.same x y

/-- The bit vector of a level. -/
def lev (m : OfWidth n) (l : Nat) (h : l < n) : RsVec := m.1.data[l]'(by rw [m.2]; exact h)

theorem drop_eq (m : OfWidth n) (l : Nat) (h : l < n) : m.1.data.drop l = m.lev l h :: m.1.data.drop (l + 1) :=
  List.drop_eq_getElem_cons (by rw [m.2]; exact h)

theorem drop_nil (m : OfWidth n) : m.1.data.drop n = [] := by
  rw [List.drop_eq_nil_iff]; exact Nat.le_of_eq m.2

theorem reads_lev {α : Type} {c : Nat} {f : RsVec → α} (m : OfWidth n) (l : Nat) (h : l < n)
    (hf : Probes RsCell.same c f (m.lev l h)) : Probes same c (fun m : OfWidth n => f (m.lev l h)) m := by
  refine Probes.sub (fun m : OfWidth n => m.lev l h) (fun c => (l, c)) (fun c m' hc => ?_) hf
  exact hc _ (by simp [lev, m.2, h]) _ (by simp [lev, m'.2, h])

theorem reads_len (m : OfWidth n) : Probes same 1 (fun m : OfWidth n => m.1.len) m := by
  by_cases h : 0 < n
  · have e : (fun m : OfWidth n => m.1.len) = fun m => (m.lev 0 h).len := by
      funext m
      have := m.drop_eq 0 h
      rw [List.drop_zero] at this
      unfold WM.len
      rw [this]
    rw [e]
    exact reads_lev m 0 h (RsVec.reads_len _)
  · have e : (fun m : OfWidth n => m.1.len) = fun m => 0 := by
      funext m
      unfold WM.len
      have : m.1.data = [] := List.eq_nil_of_length_eq_zero (by have := m.2; omega)
      rw [this]
    rw [e]
    exact Probes.mono (Probes.const _) (by omega)

/-- The number of levels is one more cell. -/
theorem lift {α : Type} {c : Nat} {f : WM → α} (m : WM)
    (h : Probes same c (fun x : OfWidth m.data.length => f x.1) ⟨m, rfl⟩) : Probes WmCell.same (c + 1) f m := by
  obtain ⟨L, h1, h2⟩ := h
  refine ⟨WmCell.levels :: L.map (fun k => WmCell.at k.1 k.2), by simpa using h1, fun m' hm => ?_⟩
  have hl : m'.data.length = m.data.length := hm WmCell.levels (by simp)
  exact h2 ⟨m', hl⟩ fun k hk => hm (WmCell.at k.1 k.2)
    (List.mem_cons_of_mem _ (List.mem_map.mpr ⟨k, hk, rfl⟩))

end OfWidth

theorem reads_go (rs : RsVec) (bit : Word) (i : Nat) : Probes RsCell.same 13 (fun rs => go rs bit i) rs := by
  unfold go
  refine Probes.iteConst (fun _ => ?_) fun _ => ?_
  · exact Probes.mono (rs.reads_rank true i) (by omega)
  · unfold goOne
    refine Probes.bind (n := 12) (m := 1) (rs.reads_rank false i) fun r _ => ?_
    exact Probes.map (fun z => (pure (z + r) : R Nat)) (rs.reads_total true)

open OfWidth

variable {n : Nat}

theorem reads_reconstruct {T : Type} (f : Word → T → R T) (m : OfWidth n) : ∀ (r l i : Nat) (t : T), l + r = n →
    Probes same (14 * r) (fun m : OfWidth n => reconstruct f (m.1.data.drop l) i t) m
  | 0, l, i, t, h => by
    have e : (fun m : OfWidth n => reconstruct f (m.1.data.drop l) i t) = fun _ => pure t := by
      funext m; rw [show l = n by omega, drop_nil]; rfl
    rw [e]; exact Probes.const _
  | r + 1, l, i, t, h => by
    have hl : l < n := by omega
    simp only [drop_eq _ l hl]
    unfold reconstruct
    refine Probes.mono (n := 1 + (0 + (13 + 14 * r))) ?_ (by omega)
    refine Probes.bind (reads_lev m l hl (RsVec.reads_getUnchecked _ i)) fun bit _ => ?_
    refine Probes.bind (Probes.const _) fun t _ => ?_
    refine Probes.bind (reads_lev m l hl (reads_go _ bit i)) fun i _ => ?_
    exact reads_reconstruct f m r (l + 1) i t (by omega)

theorem reads_rangeLoop (read : Nat → R Word) (m : OfWidth n) : ∀ (r l s e : Nat), l + r = n →
    Probes same (26 * r) (fun m : OfWidth n => rangeLoop read (m.1.data.drop l) l s e) m
  | 0, l, s, e, h => by
    have e : (fun m : OfWidth n => rangeLoop read (m.1.data.drop l) l s e) = fun _ => pure (s, e) := by
      funext m; rw [show l = n by omega, drop_nil]; rfl
    rw [e]; exact Probes.const _
  | r + 1, l, s, e, h => by
    have hl : l < n := by omega
    simp only [drop_eq _ l hl]
    unfold rangeLoop
    refine Probes.mono (n := 0 + (13 + (13 + 26 * r))) ?_ (by omega)
    refine Probes.bind (Probes.const _) fun bit _ => ?_
    refine Probes.bind (reads_lev m l hl (reads_go _ bit s)) fun s _ => ?_
    refine Probes.bind (reads_lev m l hl (reads_go _ bit e)) fun e _ => ?_
    exact reads_rangeLoop read m r (l + 1) s e (by omega)

theorem reads_rankGen (read : Nat → R Word) (m : OfWidth n) (s e : Nat) :
    Probes same (26 * n) (fun m : OfWidth n => m.1.rankGen read s e) m := by
  unfold rankGen
  refine Probes.mono (n := 26 * n + 0) ?_ (by omega)
  exact Probes.bind (by simpa using reads_rangeLoop read m n 0 s e (by omega)) fun r _ => Probes.const _

theorem reads_selectDown (read : Nat → R Word) (m : OfWidth n) : ∀ (r l s : Nat), l + r = n →
    Probes same (13 * r) (fun m : OfWidth n => selectDown read (m.1.data.drop l) l s) m
  | 0, l, s, h => by
    have e : (fun m : OfWidth n => selectDown read (m.1.data.drop l) l s) = fun _ => pure s := by
      funext m; rw [show l = n by omega, drop_nil]; rfl
    rw [e]; exact Probes.const _
  | r + 1, l, s, h => by
    have hl : l < n := by omega
    simp only [drop_eq _ l hl]
    unfold selectDown
    refine Probes.mono (n := 0 + (13 + 13 * r)) ?_ (by omega)
    refine Probes.bind (Probes.const _) fun bit _ => ?_
    refine Probes.bind (reads_lev m l hl (reads_go _ bit s)) fun s _ => ?_
    exact reads_selectDown read m r (l + 1) s (by omega)

/-- Every select query on a level gives its result with the budget `b`. -/
def Suffices (m : WM) (b : Nat) : Prop :=
  ∀ rs ∈ m.data, ∀ zero k, ∃ p, rs.select zero k b = .ok p ∧ rs.select zero k = .ok p

theorem reads_goUp (rs : RsVec) (bit : Word) (p b : Nat)
    (h : ∀ zero k, ∃ p, rs.select zero k b = .ok p ∧ rs.select zero k = .ok p) :
    Probes RsCell.same (3 * b + 25) (fun rs => goUp rs bit p) rs := by
  unfold goUp
  refine Probes.iteConst (fun _ => ?_) fun _ => ?_
  · obtain ⟨q, h1, h2⟩ := h true p
    exact Probes.mono (rs.reads_select_of_budget true p b q h1 h2) (by omega)
  · refine Probes.mono (n := 1 + (3 * b + 24)) ?_ (by omega)
    refine Probes.bind (Probes.map (fun z => subR p z) (rs.reads_total true)) fun r _ => ?_
    obtain ⟨q, h1, h2⟩ := h false r
    exact rs.reads_select_of_budget false r b q h1 h2

theorem reads_selectUp (read : Nat → R Word) (m : OfWidth n) {b : Nat} (hb : Suffices m.1 b) : ∀ (r l p : Nat),
    l + r = n → Probes same ((3 * b + 25) * r) (fun m : OfWidth n => selectUp read (m.1.data.drop l) l p) m
  | 0, l, p, h => by
    have e : (fun m : OfWidth n => selectUp read (m.1.data.drop l) l p) = fun _ => pure p := by
      funext m; rw [show l = n by omega, drop_nil]; rfl
    rw [e]; exact Probes.const _
  | r + 1, l, p, h => by
    have hl : l < n := by omega
    simp only [drop_eq _ l hl]
    unfold selectUp
    refine Probes.mono (n := (3 * b + 25) * r + (0 + (3 * b + 25))) ?_ (by rw [Nat.mul_succ]; omega)
    refine Probes.bind (reads_selectUp read m hb r (l + 1) p (by omega)) fun p _ => ?_
    refine Probes.bind (Probes.const _) fun bit _ => ?_
    exact reads_lev m l hl (reads_goUp _ bit p b (hb _ (List.getElem_mem _)))

theorem reads_selectGen (read : Nat → R Word) (m : OfWidth n) {b : Nat} (hb : Suffices m.1 b) (o k : Nat) :
    Probes same ((3 * b + 38) * n) (fun m : OfWidth n => m.1.selectGen read o k) m := by
  unfold selectGen
  refine Probes.mono (n := 13 * n + (0 + (3 * b + 25) * n)) ?_ (by simp only [Nat.add_mul]; omega)
  refine Probes.bind (by simpa using reads_selectDown read m n 0 o (by omega)) fun s _ => ?_
  refine Probes.bind (Probes.const _) fun e _ => ?_
  simpa using reads_selectUp read m hb n 0 e (by omega)

theorem reads_quantLoop {T : Type} (w0 w1 : Nat → T → R T) (m : OfWidth n) : ∀ (r l s e k : Nat) (t : T), l + r = n →
    Probes same (25 * r) (fun m : OfWidth n => quantLoop w0 w1 (m.1.data.drop l) l s e k t) m
  | 0, l, s, e, k, t, h => by
    have e : (fun m : OfWidth n => quantLoop w0 w1 (m.1.data.drop l) l s e k t) = fun _ => pure t := by
      funext m; rw [show l = n by omega, drop_nil]; rfl
    rw [e]; exact Probes.const _
  | r + 1, l, s, e, k, t, h => by
    have hl : l < n := by omega
    simp only [drop_eq _ l hl]
    unfold quantLoop
    refine Probes.mono (n := 12 + (12 + (0 + (25 * r + 1)))) ?_ (by omega)
    refine Probes.bind (reads_lev m l hl (RsVec.reads_rank _ true s)) fun zs _ => ?_
    refine Probes.bind (reads_lev m l hl (RsVec.reads_rank _ true e)) fun ze _ => ?_
    refine Probes.bind (Probes.const _) fun zeros _ => ?_
    refine Probes.iteConst (fun _ => ?_) fun _ => ?_
    · refine Probes.mono (n := 0 + 25 * r) ?_ (by omega)
      exact Probes.bind (Probes.const _) fun t _ => reads_quantLoop w0 w1 m r (l + 1) _ _ _ t (by omega)
    · refine Probes.mono (n := 0 + (0 + (0 + (1 + 25 * r)))) ?_ (by omega)
      refine Probes.bind (Probes.const _) fun t _ => ?_
      refine Probes.bind (Probes.const _) fun ds _ => ?_
      refine Probes.bind (Probes.const _) fun de _ => ?_
      exact Probes.seq (p := fun m : OfWidth n => (m.lev l hl).rank0)
        (fun z m => quantLoop w0 w1 (m.1.data.drop (l + 1)) (l + 1) (z + ds) (z + de) (k - zeros) t)
        (reads_lev m l hl (RsVec.reads_total _ true)) (reads_quantLoop w0 w1 m r (l + 1) _ _ _ t (by omega))

theorem reads_quantFrom {T : Type} (w0 w1 : Nat → T → R T) (m : OfWidth n) (l s e k : Nat) (t : T) :
    Probes same (25 * n) (fun m : OfWidth n => quantLoop w0 w1 (m.1.data.drop l) l s e k t) m := by
  rcases Nat.le_total l n with h | h
  · exact Probes.mono (reads_quantLoop w0 w1 m (n - l) l s e k t (by omega)) (by omega)
  · have e : (fun m : OfWidth n => quantLoop w0 w1 (m.1.data.drop l) l s e k t) = fun _ => pure t := by
      funext m
      rw [List.drop_eq_nil_iff.mpr (by rw [m.2]; exact h)]; rfl
    rw [e]; exact Probes.mono (Probes.const _) (by omega)

omit [Profile] in
theorem bitsPer_eq (m : OfWidth n) : m.1.bitsPer = n := m.2

theorem reads_partialQuantile (m : OfWidth n) (s e k l : Nat) (t : BV) :
    Probes same (25 * n + 1) (fun m : OfWidth n => m.1.partialQuantile s e k l t) m := by
  unfold partialQuantile
  simp only [bitsPer_eq]
  refine Probes.mono (n := 0 + (0 + (1 + 25 * n))) ?_ (by omega)
  refine Probes.bind (Probes.const _) fun _ _ => ?_
  refine Probes.bind (Probes.const _) fun _ _ => ?_
  refine Probes.bind (Probes.map (fun len => dassertR (e ≤ len)) (reads_len m)) fun _ _ => ?_
  exact reads_quantFrom _ _ m l s e k t

theorem reads_partialQuantileU64 (m : OfWidth n) (s e k l : Nat) (t : Word) :
    Probes same (25 * n + 1) (fun m : OfWidth n => m.1.partialQuantileU64 s e k l t) m := by
  unfold partialQuantileU64
  simp only [bitsPer_eq]
  refine Probes.mono (n := 0 + (0 + (1 + 25 * n))) ?_ (by omega)
  refine Probes.bind (Probes.const _) fun _ _ => ?_
  refine Probes.bind (Probes.const _) fun _ _ => ?_
  refine Probes.bind (Probes.map (fun len => dassertR (e ≤ len)) (reads_len m)) fun _ _ => ?_
  exact reads_quantFrom _ _ m l s e k t

section Search

variable {T : Type} {ops : OfWidth n → Search T} {c : Nat}

/-- Only the quantile search reads the matrix. -/
structure OpsRead (ops : OfWidth n → Search T) (c : Nat) (m : OfWidth n) : Prop where
  read : ∀ m', (ops m').read = (ops m).read
  write : ∀ m', (ops m').write = (ops m).write
  quant : ∀ s e k l t, Probes same c (fun m => (ops m).quant s e k l t) m

theorem reads_smaller {m : OfWidth n} (h : OpsRead ops c m) (sv : Saved T) :
    Probes same c (fun m => smaller (ops m) sv) m := by
  unfold smaller
  match sv.range with
  | none => exact Probes.mono (Probes.const _) (by omega)
  | some r =>
    simp only [h.write]
    refine Probes.mono (n := 0 + (0 + (0 + (c + 0)))) ?_ (by omega)
    refine Probes.bind (Probes.const _) fun k _ => ?_
    refine Probes.bind (Probes.const _) fun l _ => ?_
    refine Probes.bind (Probes.const _) fun t _ => ?_
    exact Probes.bind (h.quant _ _ _ _ _) fun v _ => Probes.const _

theorem reads_larger {m : OfWidth n} (h : OpsRead ops c m) (sv : Saved T) :
    Probes same c (fun m => larger (ops m) sv) m := by
  unfold larger
  match sv.range with
  | none => exact Probes.mono (Probes.const _) (by omega)
  | some r =>
    simp only [h.write]
    refine Probes.mono (n := 0 + (0 + (c + 0))) ?_ (by omega)
    refine Probes.bind (Probes.const _) fun l _ => ?_
    refine Probes.bind (Probes.const _) fun t _ => ?_
    exact Probes.bind (h.quant _ _ _ _ _) fun v _ => Probes.const _

theorem reads_predLoop {m : OfWidth n} (h : OpsRead ops c m) : ∀ (r l s e : Nat) (t : T) (sv : Saved T), l + r = n →
    Probes same (25 * r + c) (fun m : OfWidth n => predLoop (ops m) (m.1.data.drop l) l s e t sv) m
  | 0, l, s, e, t, sv, hr => by
    have e : (fun m : OfWidth n => predLoop (ops m) (m.1.data.drop l) l s e t sv) = fun _ => pure (some t) := by
      funext m; rw [show l = n by omega, drop_nil]; rfl
    rw [e]; exact Probes.mono (Probes.const _) (by omega)
  | r + 1, l, s, e, t, sv, hr => by
    have hl : l < n := by omega
    simp only [drop_eq _ l hl]
    unfold predLoop
    simp only [h.read, h.write]
    refine Probes.mono (n := 0 + (12 + (12 + (0 + (25 * r + c + 1))))) ?_ (by omega)
    refine Probes.bind (Probes.const _) fun bit _ => ?_
    refine Probes.bind (reads_lev m l hl (RsVec.reads_rank _ true s)) fun zs _ => ?_
    refine Probes.bind (reads_lev m l hl (RsVec.reads_rank _ true e)) fun ze _ => ?_
    refine Probes.bind (Probes.const _) fun zeros _ => ?_
    refine Probes.iteConst (fun _ => ?_) fun _ => ?_
    · refine Probes.iteConst (fun _ => Probes.mono (reads_smaller h sv) (by omega)) fun _ => ?_
      refine Probes.mono (n := 0 + (25 * r + c)) ?_ (by omega)
      exact Probes.bind (Probes.const _) fun t _ => reads_predLoop h r (l + 1) _ _ t _ (by omega)
    · refine Probes.mono (n := 0 + (25 * r + c + 1)) ?_ (by omega)
      refine Probes.bind (Probes.const _) fun k _ => ?_
      refine Probes.iteConst (fun _ => ?_) fun _ => ?_
      · refine Probes.mono (n := 0 + (c + 0)) ?_ (by omega)
        refine Probes.bind (Probes.const _) fun q _ => ?_
        exact Probes.bind (h.quant _ _ _ _ _) fun v _ => Probes.const _
      · refine Probes.mono (n := 0 + (0 + (0 + (1 + (25 * r + c))))) ?_ (by omega)
        refine Probes.bind (Probes.const _) fun t' _ => ?_
        refine Probes.bind (Probes.const _) fun ds _ => ?_
        refine Probes.bind (Probes.const _) fun de _ => ?_
        exact Probes.seq (p := fun m : OfWidth n => (m.lev l hl).rank0)
          (fun z m => predLoop (ops m) (m.1.data.drop (l + 1)) (l + 1) (z + ds) (z + de) t' (save sv l zs ze t))
          (reads_lev m l hl (RsVec.reads_total _ true)) (reads_predLoop h r (l + 1) _ _ t' _ (by omega))

theorem reads_succLoop {m : OfWidth n} (h : OpsRead ops c m) : ∀ (r l s e : Nat) (t : T) (sv : Saved T), l + r = n →
    Probes same (25 * r + c) (fun m : OfWidth n => succLoop (ops m) (m.1.data.drop l) l s e t sv) m
  | 0, l, s, e, t, sv, hr => by
    have e : (fun m : OfWidth n => succLoop (ops m) (m.1.data.drop l) l s e t sv) = fun _ => pure (some t) := by
      funext m; rw [show l = n by omega, drop_nil]; rfl
    rw [e]; exact Probes.mono (Probes.const _) (by omega)
  | r + 1, l, s, e, t, sv, hr => by
    have hl : l < n := by omega
    simp only [drop_eq _ l hl]
    unfold succLoop
    simp only [h.read, h.write]
    refine Probes.mono (n := 0 + (12 + (12 + (0 + (25 * r + c + 1))))) ?_ (by omega)
    refine Probes.bind (Probes.const _) fun bit _ => ?_
    refine Probes.bind (reads_lev m l hl (RsVec.reads_rank _ true s)) fun zs _ => ?_
    refine Probes.bind (reads_lev m l hl (RsVec.reads_rank _ true e)) fun ze _ => ?_
    refine Probes.bind (Probes.const _) fun zeros _ => ?_
    refine Probes.iteConst (fun _ => ?_) fun _ => ?_
    · refine Probes.iteConst (fun _ => ?_) fun _ => ?_
      · refine Probes.mono (n := c + 0) ?_ (by omega)
        exact Probes.bind (h.quant _ _ _ _ _) fun v _ => Probes.const _
      · refine Probes.mono (n := 0 + (0 + (0 + (1 + (25 * r + c))))) ?_ (by omega)
        refine Probes.bind (Probes.const _) fun ds _ => ?_
        refine Probes.bind (Probes.const _) fun de _ => ?_
        refine Probes.bind (Probes.const _) fun t' _ => ?_
        exact Probes.seq (p := fun m : OfWidth n => (m.lev l hl).rank0)
          (fun z m => succLoop (ops m) (m.1.data.drop (l + 1)) (l + 1) zs ze t' (save sv l (z + ds) (z + de) t))
          (reads_lev m l hl (RsVec.reads_total _ true)) (reads_succLoop h r (l + 1) _ _ t' _ (by omega))
    · refine Probes.mono (n := 0 + (25 * r + c + 1)) ?_ (by omega)
      refine Probes.bind (Probes.const _) fun k _ => ?_
      refine Probes.iteConst (fun _ => Probes.mono (reads_larger h sv) (by omega)) fun _ => ?_
      refine Probes.mono (n := 0 + (0 + (0 + (1 + (25 * r + c))))) ?_ (by omega)
      refine Probes.bind (Probes.const _) fun t _ => ?_
      refine Probes.bind (Probes.const _) fun ds _ => ?_
      refine Probes.bind (Probes.const _) fun de _ => ?_
      exact Probes.seq (p := fun m : OfWidth n => (m.lev l hl).rank0)
        (fun z m => succLoop (ops m) (m.1.data.drop (l + 1)) (l + 1) (z + ds) (z + de) t sv)
        (reads_lev m l hl (RsVec.reads_total _ true)) (reads_succLoop h r (l + 1) _ _ t _ (by omega))

end Search

theorem opsRead_bv (m : OfWidth n) (symbol : BV) :
    OpsRead (fun m : OfWidth n => m.1.searchBV symbol) (25 * n + 1) m where
  read m' := by simp only [searchBV, bitsPer_eq]
  write m' := by simp only [searchBV, bitsPer_eq]
  quant s e k l t := reads_partialQuantile m s e k l t

theorem opsRead_u64 (m : OfWidth n) (symbol : Word) :
    OpsRead (fun m : OfWidth n => m.1.searchU64 symbol) (25 * n + 1) m where
  read m' := by simp only [searchU64, bitsPer_eq]
  write m' := by simp only [searchU64]
  quant s e k l t := reads_partialQuantileU64 m s e k l t

/-- A query with a test of the length first. -/
theorem reads_guard {α : Type} {c : Nat} {m : OfWidth n} (q : Nat → Prop) [∀ l, Decidable (q l)] {a : R α}
    {f : OfWidth n → R α} (hf : Probes same c f m) :
    Probes same (c + 1) (fun m : OfWidth n => if q m.1.len then a else f m) m :=
  Probes.mono (Probes.ite (n := 1) (m := c) (c := fun m : OfWidth n => q m.1.len) (Probes.map q (reads_len m))
    (fun _ => Probes.mono (Probes.const _) (by omega)) fun _ => hf) (by omega)

/-- The result in an option. -/
theorem reads_some {α β : Type} {c : Nat} {m : OfWidth n} {f : OfWidth n → R α} (g : α → β) (hf : Probes same c f m) :
    Probes same c (fun m : OfWidth n => do let v ← f m; pure (g v)) m :=
  Probes.bind (n := c) (m := 0) hf fun _ _ => Probes.const _

end WM
end Vers
