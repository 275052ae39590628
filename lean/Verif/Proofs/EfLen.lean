import Verif.Proofs.Space

/-!
# The length of the upper vector of an Elias-Fano vector (for C61 and C70)
-/

set_option linter.unusedSimpArgs false

namespace Vers

variable [Profile]
open Spec

/-- The upper vector has a number of bits linear in the number of elements. -/
theorem upper_len_le {fl : Nat → Nat} (hfl : LogLike fl) {data : List Word} {ef : EF} (hne : data ≠ [])
    (h : EF.fromSlice fl data = .ok ef) (hs : Sorted data) (hl : data.length < 2 ^ 60) :
    ef.upper.len ≤ 9 * data.length + 18 := by
  obtain ⟨ef', e1, e2, -⟩ := fromSlice_inv hfl hs hne hl
  obtain rfl : ef' = ef := by rw [h] at e1; cases e1; rfl
  obtain ⟨w, u, w1, w2, w3, u1, u2, -⟩ := fromSlice_parts hfl hne e1 hs hl
  rw [e2.ulen, w3]
  have hn : 0 < data.length := List.length_pos_iff.mpr hne
  have hD : efD data (data.length - 1) < 2 ^ 64 := by
    have := efD_add hs (show data.length - 1 < data.length by omega)
    have := (data[data.length - 1]).isLt
    omega
  generalize efD data (data.length - 1) = D at *
  have hb2 : Nat.max D 2 < 2 ^ 64 := Nat.max_lt.mpr ⟨hD, by omega⟩
  have hn2 : Nat.max data.length 2 < 2 ^ 64 := Nat.max_lt.mpr ⟨by omega, by omega⟩
  have a1 := hfl.lower (Nat.max D 2) (Nat.le_max_right _ _) hb2
  have a3 := hfl.upper (Nat.max data.length 2) (Nat.le_max_right _ _) hn2
  have hbm : D ≤ Nat.max D 2 := Nat.le_max_left _ _
  have h1 : fl (Nat.max D 2) ≤ w + fl (Nat.max data.length 2) := by rw [← w1]; exact Nat.le_max_left _ _
  have hm : Nat.max data.length 2 ≤ data.length + 2 := Nat.max_le.mpr ⟨by omega, by omega⟩
  generalize fl (Nat.max data.length 2) = k at *
  generalize fl (Nat.max D 2) = l at *
  have e : (2 : Nat) ^ (l + 1) ≤ 2 ^ (k + 1) * 2 ^ w := by
    rw [← Nat.pow_add]; exact Nat.pow_le_pow_right (by omega) (by omega)
  have : D / 2 ^ w ≤ 2 ^ (k + 1) := by
    apply Nat.div_le_of_le_mul
    rw [Nat.mul_comm]; omega
  have e2 : (2 : Nat) ^ (k + 1) = 2 ^ k * 2 := Nat.pow_succ ..
  omega

end Vers
