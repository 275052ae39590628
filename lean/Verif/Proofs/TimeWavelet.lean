import Verif.Proofs.Time
import Verif.Proofs.Space
import Verif.Props.RsVec

/-! # Number of loop iterations of the select queries of the wavelet matrix -/

set_option linter.unusedSimpArgs false

namespace Vers

variable [Profile]

namespace RsVec
variable {rs : RsVec}

/-! ## a larger budget gives the same result -/

theorem searchSuperBin_mono (z : Bool) (r : Nat) : ∀ (n m a b p : Nat), n ≤ m →
    rs.searchSuperBin z r n a b = .ok p → rs.searchSuperBin z r m a b = .ok p
  | 0, _, _, _, _, _, h => by unfold searchSuperBin at h; cases h
  | n + 1, 0, _, _, _, hm, _ => by omega
  | n + 1, m + 1, a, b, p, hm, h => by
    unfold searchSuperBin at h ⊢
    obtain ⟨d, h1, h⟩ := bind_eq_ok.mp h
    rw [h1, ok_bind]
    split at h
    · next h8 =>
      rw [if_pos h8]
      obtain ⟨y, h2, h⟩ := bind_eq_ok.mp h
      simp only
      rw [h2, ok_bind]
      split at h
      · next hy => rw [if_pos hy]; exact searchSuperBin_mono z r n m _ _ _ (by omega) h
      · next hy => rw [if_neg hy]; exact searchSuperBin_mono z r n m _ _ _ (by omega) h
    · next h8 => rw [if_neg h8]; exact h

theorem searchSuperLin_mono (z : Bool) (r : Nat) : ∀ (n m a p : Nat), n ≤ m →
    rs.searchSuperLin z r n a = .ok p → rs.searchSuperLin z r m a = .ok p
  | 0, _, _, _, _, h => by unfold searchSuperLin at h; cases h
  | n + 1, 0, _, _, hm, _ => by omega
  | n + 1, m + 1, a, p, hm, h => by
    unfold searchSuperLin at h ⊢
    split at h
    · next hl =>
      rw [if_pos hl]
      obtain ⟨y, h2, h⟩ := bind_eq_ok.mp h
      rw [h2, ok_bind]
      split at h
      · next hy => rw [if_pos hy]; exact searchSuperLin_mono z r n m _ _ (by omega) h
      · next hy => rw [if_neg hy]; exact h
    · next hl => rw [if_neg hl]; exact h

theorem selectSuper_mono {z : Bool} {r n m p : Nat} (hm : n ≤ m) (h : rs.selectSuper z r n = .ok p) :
    rs.selectSuper z r m = .ok p := by
  unfold selectSuper at h ⊢
  obtain ⟨e, h1, h⟩ := bind_eq_ok.mp h
  rw [h1, ok_bind]
  simp only at h ⊢
  split at h
  · next hl =>
    rw [if_pos hl]
    obtain ⟨y, h2, h⟩ := bind_eq_ok.mp h
    rw [h2, ok_bind]
    split at h
    · next hy =>
      rw [if_pos hy]
      unfold searchSuper at h ⊢
      obtain ⟨e', h3, h⟩ := bind_eq_ok.mp h
      obtain ⟨s, h4, h⟩ := bind_eq_ok.mp h
      rw [h3, ok_bind, searchSuperBin_mono z r n m _ _ _ hm h4, ok_bind]
      exact searchSuperLin_mono z r n m _ _ hm h
    · next hy => rw [if_neg hy]; exact h
  · next hl => rw [if_neg hl]; exact h

/-- A select query that succeeds with some budget has the same result with every larger one. -/
theorem select_mono {z : Bool} {r n m p : Nat} (hm : n ≤ m) (h : rs.select z r n = .ok p) :
    rs.select z r m = .ok p := by
  unfold select at h ⊢
  by_cases hl : r ≥ (if z then rs.rank0 else rs.rank1)
  · rw [if_pos hl] at h ⊢; exact h
  · rw [if_neg hl] at h ⊢
    obtain ⟨s, h1, h⟩ := bind_eq_ok.mp h
    rw [selectSuper_mono hm h1, ok_bind]
    exact h

/-- Select queries on a built vector: every budget from the number of super blocks on is the same. -/
theorem select_budget {v : BV} (hw : v.WF) (h : RsVec.fromBitVec v = .ok rs) {b : Nat} (hb : v.len / 8192 + 2 ≤ b)
    (z : Bool) (r : Nat) : rs.select z r b = rs.select z r := by
  obtain ⟨rs', h1, h2⟩ := C14_select_partial hw
  obtain ⟨rs'', h1', h3, h4, h5⟩ := fromBitVec_inv hw
  rw [h] at h1 h1'
  cases h1; cases h1'
  have hl : rs.supers.length + 1 ≤ b := by
    have := h3.slen
    have := h3.wf
    omega
  have : ∃ p, rs.select z r = .ok p := by
    rcases Nat.lt_or_ge r (v.bits.count (!z)) with hr | hr
    · obtain ⟨p, p1, -⟩ := (h2 z r).1 hr; exact ⟨p, p1⟩
    · exact ⟨_, (h2 z r).2 hr⟩
  obtain ⟨p, hp⟩ := this
  rw [hp]
  exact select_mono hl hp

end RsVec

namespace WM

/-- The levels of a matrix are built from bit vectors of the length of the sequence. -/
theorem level_mem {n : Nat} : ∀ {vs : List BV} {data : List RsVec}, buildAll vs = .ok data →
    (∀ v ∈ vs, v.WF ∧ v.len = n) → ∀ rs ∈ data, ∃ v : BV, v.WF ∧ v.len = n ∧ RsVec.fromBitVec v = .ok rs
  | [], _, h, _, rs, hr => by unfold buildAll at h; cases h; cases hr
  | v :: vs, data, h, hv, rs, hr => by
    unfold buildAll at h
    obtain ⟨r, h1, h⟩ := bind_eq_ok.mp h
    obtain ⟨rest, h2, h⟩ := bind_eq_ok.mp h
    cases h
    rcases List.mem_cons.mp hr with rfl | hr
    · exact ⟨v, (hv v List.mem_cons_self).1, (hv v List.mem_cons_self).2, h1⟩
    · exact level_mem h2 (fun x hx => hv x (List.mem_cons_of_mem _ hx)) rs hr

theorem selectUp_budget {read : Nat → R Word} {b : RsVec → Nat} : ∀ (data : List RsVec) (l p : Nat),
    (∀ rs ∈ data, ∀ z r, rs.select z r (b rs) = rs.select z r) → selectUp read data l p b = selectUp read data l p
  | [], _, _, _ => rfl
  | rs :: rest, l, p, h => by
    have ih := selectUp_budget (read := read) rest (l + 1) p (fun x hx => h x (List.mem_cons_of_mem _ hx))
    have h0 := h rs List.mem_cons_self
    unfold selectUp
    rw [ih]
    unfold goUp
    simp only [h0]

theorem selectGen_budget {m : WM} {k : Nat} {S : List Nat} (h : Built m k S) (read : Nat → R Word) (o r : Nat) :
    m.selectGen read o r (fun _ => S.length / 8192 + 2) = m.selectGen read o r := by
  obtain ⟨vs, v1, v2, v3⟩ := built_vecs h
  have hl := level_mem v1 (goodV_len v3)
  unfold selectGen
  have := fun e => selectUp_budget (read := read) (b := fun _ => S.length / 8192 + 2) m.data 0 e (fun rs hr z r => by
    obtain ⟨v, w1, w2, w3⟩ := hl rs hr
    exact RsVec.select_budget w1 w3 (by omega) z r)
  simp only [this]

end WM

end Vers
