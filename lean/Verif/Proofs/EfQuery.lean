import Verif.Proofs.EfBuild
import Verif.Proofs.RsEq

/-! # Queries on the Elias-Fano vector: access and block boundaries -/

set_option linter.unusedSimpArgs false

namespace Vers

variable [Profile]
open Spec
namespace EF
variable {ef : EF} {n : Nat} {D : Nat → Nat}

/-- the upper half of element `i` -/
def hiD (ef : EF) (D : Nat → Nat) (i : Nat) : Nat := D i / 2 ^ ef.lowerLen

/-- the lower half of element `i` -/
def loD (ef : EF) (D : Nat → Nat) (i : Nat) : Nat := D i % 2 ^ ef.lowerLen

omit [Profile] in
theorem pow_pos' (w : Nat) : 0 < 2 ^ w := Nat.pos_of_ne_zero (by simp)

omit [Profile] in
theorem hi_mul_add_lo (ef : EF) (D : Nat → Nat) (i : Nat) :
    hiD ef D i * 2 ^ ef.lowerLen + loD ef D i = D i := by
  unfold hiD loD
  rw [Nat.mul_comm]; exact Nat.div_add_mod _ _

omit [Profile] in
theorem loD_lt (ef : EF) (D : Nat → Nat) (i : Nat) : loD ef D i < 2 ^ ef.lowerLen :=
  Nat.mod_lt _ (pow_pos' _)

theorem Inv.hi_mono (h : ef.Inv n D) {i j : Nat} (hij : i ≤ j) (hj : j < n) : hiD ef D i ≤ hiD ef D j :=
  Nat.div_le_div_right (h.mono i j hij hj)

theorem Inv.enum_mono (h : ef.Inv n D) : ∀ i j, i < j → j < n → hiD ef D i + i + 1 < hiD ef D j + j + 1 := by
  intro i j hij hj
  have := h.hi_mono (Nat.le_of_lt hij) hj
  omega

theorem Inv.count_ones (h : ef.Inv n D) {k P : Nat} (hP : P ≤ ef.upper.len) (hk : k ≤ n)
    (h1 : ∀ i, i < k → hiD ef D i + i + 1 < P) (h2 : ∀ i, k ≤ i → i < n → P ≤ hiD ef D i + i + 1) :
    C ef.upper.data true P = k := by
  unfold C
  refine cnt_of_enum (p := fun i => hiD ef D i + i + 1) h.enum_mono k P ?_ hk h1 h2
  intro x hx
  have := h.ubit x (by omega)
  simp only [beq_true]
  exact this

theorem Inv.pos_lt (h : ef.Inv n D) {i : Nat} (hi : i < n) : hiD ef D i + i + 1 < ef.upper.len := by
  have h1 := h.hi_mono (i := i) (j := n - 1) (by omega) (by omega)
  have := h.ulen
  unfold hiD at *
  omega

theorem Inv.select1 (h : ef.Inv n D) {i : Nat} (hi : i < n) :
    ef.upper.select false i = .ok (hiD ef D i + i + 1) := by
  have hp := h.pos_lt hi
  have hone : lbit ef.upper.data (hiD ef D i + i + 1) = true := (h.ubit _ hp).mpr ⟨i, hi, rfl⟩
  have hc : C ef.upper.data true (hiD ef D i + i + 1) = i := by
    refine h.count_ones (by omega) (by omega) (fun j hj => h.enum_mono j i hj hi) ?_
    intro j h1 h2
    rcases Nat.eq_or_lt_of_le h1 with h3 | h3
    · subst h3; exact Nat.le_refl _
    · exact Nat.le_of_lt (h.enum_mono i j h3 h2)
  have hlt : i < C ef.upper.data true ef.upper.len := by
    have := cnt_lt_of_true (f := fun j => lbit ef.upper.data j == true) hp (by simp [hone])
    unfold C at *
    omega
  obtain ⟨q, q1, q2, -⟩ := RsVec.select_eq h.up false (r := i) hlt
  rw [q1, RsVec.isPos_unique q2 ⟨hone, hc⟩]

/-- the zero that opens block `u` -/
theorem Inv.zero_bit (h : ef.Inv n D) {u k : Nat} (hu : u ≤ hiD ef D (n - 1) + 1) (hk : k ≤ n)
    (hs : ∀ i, i < n → (hiD ef D i < u ↔ i < k)) :
    u + k < ef.upper.len ∧ lbit ef.upper.data (u + k) = false := by
  have hlt : u + k < ef.upper.len := by have := h.ulen; unfold hiD at *; omega
  refine ⟨hlt, ?_⟩
  cases hb : lbit ef.upper.data (u + k) with
  | false => rfl
  | true =>
    obtain ⟨i, h1, h2⟩ := (h.ubit _ hlt).mp hb
    have h3 := hs i h1
    change u + k = hiD ef D i + i + 1 at h2
    omega

theorem Inv.zero_pos (h : ef.Inv n D) {u k : Nat} (hu : u ≤ hiD ef D (n - 1) + 1) (hk : k ≤ n)
    (hs : ∀ i, i < n → (hiD ef D i < u ↔ i < k)) :
    RsVec.IsPos ef.upper.data false u (u + k) ∧ u + k < ef.upper.len := by
  obtain ⟨hlt, hz⟩ := h.zero_bit hu hk hs
  have hc1 : C ef.upper.data true (u + k) = k := by
    refine h.count_ones (by omega) hk ?_ ?_
    · intro i hi; have := (hs i (by omega)).mpr hi; omega
    · intro i h1 h2; have := (hs i h2); omega
  have hc : C ef.upper.data false (u + k) = u := by
    have := C_compl ef.upper.data (u + k); omega
  exact ⟨⟨hz, hc⟩, hlt⟩

theorem Inv.select0 (h : ef.Inv n D) {u k : Nat} (hu : u ≤ hiD ef D (n - 1) + 1) (hk : k ≤ n)
    (hs : ∀ i, i < n → (hiD ef D i < u ↔ i < k)) : ef.upper.select true u = .ok (u + k) := by
  obtain ⟨⟨hz, hc⟩, hlt⟩ := h.zero_pos hu hk hs
  have hlt2 : u < C ef.upper.data false ef.upper.len := by
    have := cnt_lt_of_true (f := fun j => lbit ef.upper.data j == false) hlt (by simp [hz])
    unfold C at *
    omega
  obtain ⟨q, q1, q2, -⟩ := RsVec.select_eq h.up true (r := u) hlt2
  rw [q1, RsVec.isPos_unique q2 ⟨hz, hc⟩]

theorem Inv.getUpper (h : ef.Inv n D) {p : Nat} (hp : p < ef.upper.len) :
    ef.upper.getUnchecked p = .ok (b2w (lbit ef.upper.data p)) := by
  have hwf : ef.upper.intoBitVec.WF := RsVec.wf_into h.up
  have := BV.getUnchecked_eq (v := ef.upper.intoBitVec) (BV.lt_of_wf hwf (i := p) hp)
  exact this

theorem Inv.get_eq (h : ef.Inv n D) {i : Nat} (hi : i < n) :
    ∃ x, ef.getUnchecked i = .ok x ∧ x.toNat = ef.zero.toNat + D i := by
  unfold getUnchecked
  have hb := h.bound i hi
  have hsum := hi_mul_add_lo ef D i
  rw [h.select1 hi, ok_bind, subR_of_le (by omega), ok_bind,
    show hiD ef D i + i + 1 - i = hiD ef D i + 1 by omega, subR_of_le (by omega), ok_bind,
    h.low i hi, ok_bind]
  have hc := combine_toNat (u := hiD ef D i) (l := loD ef D i) (w := ef.lowerLen) (loD_lt _ _ _) (by omega)
  simp only [Nat.add_sub_cancel]
  obtain ⟨x, x1, x2⟩ := addW_of_lt (a := (BitVec.ofNat 64 (hiD ef D i) <<< ef.lowerLen) |||
    BitVec.ofNat 64 (loD ef D i)) (b := ef.zero) (by rw [hc, hsum]; omega)
  exact ⟨x, x1, by rw [x2, hc, hsum]; omega⟩

/-! ## blocks -/

/-- The elements whose upper half is `u` are exactly those with index from `s` up to (excluding) `e`. -/
structure Block (ef : EF) (n : Nat) (D : Nat → Nat) (u s e : Nat) : Prop where
  hu : u ≤ hiD ef D (n - 1)
  se : s ≤ e
  en : e ≤ n
  lo : ∀ i, i < n → (hiD ef D i < u ↔ i < s)
  hi : ∀ i, i < n → (hiD ef D i < u + 1 ↔ i < e)

theorem Inv.exists_block (h : ef.Inv n D) {u : Nat} (hu : u ≤ hiD ef D (n - 1)) :
    ∃ s e, Block ef n D u s e := by
  obtain ⟨s, s1, s2⟩ := exists_split (n := n) (f := fun i => hiD ef D i < u)
    (fun i j hij hj hf => Nat.lt_of_le_of_lt (h.hi_mono hij hj) hf)
  obtain ⟨e, e1, e2⟩ := exists_split (n := n) (f := fun i => hiD ef D i < u + 1)
    (fun i j hij hj hf => Nat.lt_of_le_of_lt (h.hi_mono hij hj) hf)
  refine ⟨s, e, hu, ?_, e1, s2, e2⟩
  rcases Nat.lt_or_ge e s with hlt | hge
  · have h1 := s2 e (by omega)
    have h2 := e2 e (by omega)
    omega
  · exact hge

variable {u s e : Nat}

omit [Profile] in
theorem Block.hi_eq (B : Block ef n D u s e) {i : Nat} (h1 : s ≤ i) (h2 : i < e) : hiD ef D i = u := by
  have := B.en
  have h3 := B.lo i (by omega)
  have h4 := B.hi i (by omega)
  omega

/-- bits of the upper vector after the zero that opens the block -/
theorem Block.bit (h : ef.Inv n D) (B : Block ef n D u s e) {j : Nat} (h1 : s ≤ j) (h2 : j ≤ e) :
    ef.upper.getUnchecked (u + j + 1) = .ok (b2w (decide (j < e))) := by
  have hz := h.zero_bit (u := u + 1) (k := e) (by have := B.hu; omega) B.en B.hi
  rw [h.getUpper (by omega)]
  congr 2
  rcases Nat.lt_or_ge j e with h3 | h3
  · simp only [h3, decide_true]
    have hlt := hz.1
    refine (h.ubit _ (by omega)).mpr ⟨j, by have := B.en; omega, ?_⟩
    have := B.hi_eq h1 h3
    unfold hiD at this
    omega
  · have : j = e := by omega
    subst this
    rw [show u + j + 1 = u + 1 + j by omega, hz.2]
    simp

theorem Block.bit_open (h : ef.Inv n D) (B : Block ef n D u s e) :
    ef.upper.getUnchecked (u + s) = .ok (b2w false) := by
  have hz := h.zero_bit (u := u) (k := s) (by have := B.hu; omega) (by have := B.en; have := B.se; omega) B.lo
  rw [h.getUpper (by omega), hz.2]

theorem Block.sel_open (h : ef.Inv n D) (B : Block ef n D u s e) : ef.upper.select true u = .ok (u + s) :=
  h.select0 (by have := B.hu; omega) (by have := B.en; have := B.se; omega) B.lo

theorem Block.sel_close (h : ef.Inv n D) (B : Block ef n D u s e) :
    ef.upper.select true (u + 1) = .ok (u + 1 + e) :=
  h.select0 (by have := B.hu; omega) B.en B.hi

theorem Block.lo_mono (h : ef.Inv n D) (B : Block ef n D u s e) {i j : Nat} (h1 : s ≤ i) (h2 : i ≤ j)
    (h3 : j < e) : loD ef D i ≤ loD ef D j := by
  have e1 := hi_mul_add_lo ef D i
  have e2 := hi_mul_add_lo ef D j
  rw [B.hi_eq h1 (by omega)] at e1
  rw [B.hi_eq (by omega) h3] at e2
  have := h.mono i j h2 (by have := B.en; omega)
  omega

omit [Profile] in
theorem Block.D_eq (B : Block ef n D u s e) {i : Nat} (h1 : s ≤ i) (h2 : i < e) :
    D i = u * 2 ^ ef.lowerLen + loD ef D i := by
  have e1 := hi_mul_add_lo ef D i
  rw [B.hi_eq h1 h2] at e1
  omega

/-- a lower half, as a word -/
def loW (ef : EF) (D : Nat → Nat) (i : Nat) : Word := BitVec.ofNat 64 (loD ef D i)

theorem Block.lowAt (h : ef.Inv n D) (B : Block ef n D u s e) {i : Nat} (h2 : i < e) :
    ef.lowAt i = .ok (loW ef D i) := h.low i (by have := B.en; omega)

omit [Profile] in
theorem loW_toNat (hw : ef.lowerLen < 64) (i : Nat) : (loW ef D i).toNat = loD ef D i := by
  unfold loW
  apply toNat_ofNat_lt
  exact Nat.lt_trans (loD_lt _ _ _) (Nat.pow_lt_pow_right (by omega) hw)

/-- reassembling an element of the block -/
theorem Block.value (h : ef.Inv n D) (B : Block ef n D u s e) {i : Nat} (h1 : s ≤ i) (h2 : i < e) :
    ∃ x, addW ((BitVec.ofNat 64 u <<< ef.lowerLen) ||| loW ef D i) ef.zero = .ok x ∧
      x.toNat = ef.zero.toNat + D i := by
  have hb := h.bound i (by have := B.en; omega)
  have hD := B.D_eq h1 h2
  have hc := combine_toNat (u := u) (l := loD ef D i) (w := ef.lowerLen) (loD_lt _ _ _) (by omega)
  obtain ⟨x, x1, x2⟩ := addW_of_lt (a := (BitVec.ofNat 64 u <<< ef.lowerLen) ||| loW ef D i)
    (b := ef.zero) (by unfold loW; rw [hc]; omega)
  exact ⟨x, x1, by rw [x2]; unfold loW; rw [hc]; omega⟩

theorem Block.candidate (h : ef.Inv n D) (B : Block ef n D u s e) {i : Nat} (h1 : s ≤ i) (h2 : i < e) :
    ((BitVec.ofNat 64 u <<< ef.lowerLen) ||| loW ef D i).toNat = D i := by
  have hb := h.bound i (by have := B.en; omega)
  have hD := B.D_eq h1 h2
  unfold loW
  rw [combine_toNat (u := u) (l := loD ef D i) (w := ef.lowerLen) (loD_lt _ _ _) (by omega), hD]

end EF
end Vers
