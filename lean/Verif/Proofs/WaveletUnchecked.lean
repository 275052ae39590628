import Verif.Proofs.WaveletFinal

/-!
# Lemmas on the unchecked queries of the wavelet matrix
-/

set_option linter.unusedSimpArgs false

namespace Vers.WM

variable [Profile]
open Spec

variable {m : WM} {k : Nat} {S : List Nat}

/-- Only the lowest `k` bits of a longer symbol are read. -/
theorem reads_BV_wide {sym : BV} (hs : sym.WF) (hl : k ≤ sym.len) :
    Reads (readBV k sym) k 0 (bitsToNat (sym.bits.take k)) := by
  have h : ∀ level, level < k → readBV k sym level = .ok (b2w ((bitsToNat (sym.bits.take k)).testBit (k - 1 - level))) := by
    intro level hlev
    unfold readBV
    rw [subR_of_le (by omega), ok_bind, BV.getUnchecked_eq (BV.lt_of_wf hs (by omega)), testBit_bitsToNat,
      List.getElem?_take, if_pos (by omega), BV.bits_getElem?, if_pos (by omega)]
    rfl
  have := reads_of h k 0 (by omega)
  rwa [Nat.mod_eq_of_lt (by
    have := bitsToNat_lt (sym.bits.take k)
    rwa [List.length_take, BV.length_bits, Nat.min_eq_left hl] at this)] at this

omit [Profile] in
theorem exists_isSelect (b : Bool) : ∀ (l : List Bool) (k : Nat), k < l.count b → ∃ p, p < l.length ∧ IsSelect b l k p
  | [], k, h => by simp at h
  | x :: l, k, h => by
    by_cases hx : x = b
    · subst hx
      cases k with
      | zero => exact ⟨0, by simp, by simp [IsSelect]⟩
      | succ k =>
        obtain ⟨p, p1, p2⟩ := exists_isSelect x l k (by simpa using h)
        exact ⟨p + 1, by simpa using p1, by simpa [IsSelect] using p2⟩
    · rw [List.count_cons_of_ne hx] at h
      obtain ⟨p, p1, p2⟩ := exists_isSelect b l k h
      exact ⟨p + 1, by simpa using p1, by simpa [IsSelect, List.count_cons_of_ne hx] using p2⟩

theorem LevelOf.select_le {rs : RsVec} {bs : List Bool} (h : LevelOf rs bs) (zero : Bool) (r q : Nat)
    (hq : rs.select zero r = .ok q) : q ≤ bs.length := by
  by_cases hr : r < bs.count (!zero)
  · obtain ⟨p, p1, p2⟩ := exists_isSelect _ bs r hr
    rw [h.sel _ _ _ p2] at hq; injection hq; omega
  · rw [h.selGe _ _ (by omega)] at hq; injection hq; omega

theorem selectGen_le (h : Stores m k S) {read : Nat → R Word} {o r q : Nat} (hq : m.selectGen read o r = .ok q) :
    q ≤ S.length := by
  obtain ⟨data⟩ := m
  have h1 := h.bits; have h2 := h.pos; have h3 := h.good
  cases data with
  | nil => simp at h1; omega
  | cons rs rest =>
    have hl := h3.2.1
    unfold selectGen at hq
    obtain ⟨s, _, hq⟩ := bind_eq_ok.mp hq
    obtain ⟨e, _, hq⟩ := bind_eq_ok.mp hq
    simp only [selectUp] at hq
    obtain ⟨p, _, hq⟩ := bind_eq_ok.mp hq
    obtain ⟨b, _, hq⟩ := bind_eq_ok.mp hq
    unfold goUp at hq
    have e : (top rest.length S).length = S.length := by simp [top]
    split at hq
    · rw [← e]; exact hl.select_le _ _ _ hq
    · obtain ⟨p', _, hq⟩ := bind_eq_ok.mp hq
      rw [← e]; exact hl.select_le _ _ _ hq

/-- The result of an unchecked select: the position, or the length. -/
theorem selectGen_unchecked (h : Stores m k S) {read : Nat → R Word} {c : Nat} (hr : Reads read k 0 c) {o : Nat}
    (r : Nat) (ho : o ≤ S.length) (hov : S.length + r < 2 ^ 64) :
    (∃ p, m.selectGen read o r = .ok p ∧ IsNth S c o r p) ∨
    (m.selectGen read o r = .ok S.length ∧ (S.drop o).count c ≤ r) := by
  have eb : between S o S.length = S.drop o := by simp [between]
  obtain ⟨h1, h2⟩ := selectGen_eq h hr ho hov
  rw [eb] at h1 h2
  rcases Nat.lt_or_ge r ((S.drop o).count c) with hlt | hge
  · exact Or.inl (h1 hlt)
  · obtain ⟨p, p1, p2⟩ := h2 hge
    have := selectGen_le h p1
    exact Or.inr ⟨by rw [p1]; congr 1; omega, hge⟩

/-- The word holds the lowest 64 bits of the prefix. -/
def HoldsMod (_ : Nat) (t : Word) (p : Nat) : Prop := t = BitVec.ofNat 64 p

omit [Profile] in
theorem push_mod {t : Word} {p : Nat} (b : Bool) (h : t = BitVec.ofNat 64 p) :
    (t <<< 1) ||| b2w b = BitVec.ofNat 64 (2 * p + b.toNat) := by
  subst h
  apply BitVec.eq_of_getLsbD_eq
  intro i hi
  simp only [BitVec.getLsbD_or, BitVec.getLsbD_shiftLeft, b2w_getLsbD, BitVec.getLsbD_ofNat, hi, decide_true,
    Bool.true_and]
  cases i with
  | zero => cases b <;> simp [Nat.testBit_zero] <;> omega
  | succ i =>
    have e : (2 * p + b.toNat).testBit (i + 1) = p.testBit i := by
      rw [Nat.testBit_succ]; congr 1; have := Bool.toNat_le b; omega
    rw [e]; simp; omega

omit [Profile] in
theorem steps_mod (k : Nat) : Steps HoldsMod k (fun _ b t => pushBit (b2w b) t) := by
  intro l t p b _ h
  exact ⟨_, rfl, push_mod b h⟩

theorem getU64Unchecked_mod (h : Stores m k S) {i x : Nat} (hx : S[i]? = some x) :
    m.getU64Unchecked i = .ok (BitVec.ofNat 64 x) := by
  obtain ⟨t, t1, t2⟩ := reconstruct_eq (steps_mod k) m.data S 0 i x 0 0#64 h.good
    (by rw [h.bits]; rfl) hx rfl
  unfold getU64Unchecked
  rw [t1, show t = _ from t2]; simp

end Vers.WM
