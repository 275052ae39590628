import Verif.Proofs.BitSet

/-!
# Properties of the bit set iterators (C52)

`bit_set_iter0` is `zero = true`, `bit_set_iter1` is `zero = false`. The last chunk of a vector are the
positions from the last multiple of 16 below the length on.
-/

namespace Vers

variable [Profile]
open Spec BpTree

omit [Profile] in
/-- `stored` lists the stored bits; up to the length these are the positions in the vector. -/
theorem C52_stored_spec (v : BV) (zero : Bool) : stored zero v.data 0 v.len = positions (!zero) v.bits :=
  (stored_positions v zero).symm

example : stored false (BV.fromOnes 3).data 0 3 = [0, 1, 2] := (C52_stored_spec (BV.fromOnes 3) false).trans (by decide)

/-- What the iterators yield. Up to a length of 16, the positions of the bits. For longer vectors, the
positions of the bits up to the end of the last chunk, followed by the positions in the last chunk again. -/
theorem C52_characterisation {v : BV} (hw : v.WF) (zero : Bool) :
    ∃ rs it, RsVec.fromBitVec v = .ok rs ∧ BsIter.new rs zero = .ok it ∧
      Yields (BsIter.next rs zero) it
        (if v.len ≤ 16 then positions (!zero) v.bits
          else stored zero v.data 0 (16 * ((v.len - 1) / 16) + 16) ++
            (positions (!zero) v.bits).filter (fun p => 16 * ((v.len - 1) / 16) ≤ p)) := by
  obtain ⟨rs, h1, -, h3, h4⟩ := fromBitVec_inv hw
  obtain ⟨it, i1, i2⟩ := BsIter.new_yields (zero := zero) (rs := rs) (v := v) ⟨hw, h3, h4⟩
  have e : stored zero v.data (16 * ((v.len - 1) / 16)) (v.len - 16 * ((v.len - 1) / 16)) =
      (positions (!zero) v.bits).filter (fun p => decide (16 * ((v.len - 1) / 16) ≤ p)) := by
    conv => rhs; rw [stored_positions, show v.len = 16 * ((v.len - 1) / 16) + (v.len - 16 * ((v.len - 1) / 16)) by omega]
    rw [stored_append, List.filter_append, List.filter_eq_nil_iff.mpr, List.filter_eq_self.mpr]
    · simp
    · intro p hp
      have := (List.mem_range'_1.mp (List.mem_filter.mp hp).1).1
      simp; omega
    · intro p hp
      have := (List.mem_range'_1.mp (List.mem_filter.mp hp).1).2
      simp; omega
  rw [e] at i2
  exact ⟨rs, it, h1, i1, i2⟩

example := C52_characterisation (v := BV.fromOnes 17) (by decide) false

/-- Partial: the iterators yield exactly the positions of the bits in ascending order if the vector has at
most 16 bits, or if no bit of this kind is in the last chunk and the last chunk is full. Missing for the full
property: all other vectors, see `C52_defect`. -/
theorem C52_positions_partial {v : BV} (hw : v.WF) (zero : Bool)
    (h : v.len ≤ 16 ∨ (v.len % 16 = 0 ∧ ∀ i, v.len - 16 ≤ i → v.bits[i]? ≠ some (!zero))) :
    ∃ rs it, RsVec.fromBitVec v = .ok rs ∧ BsIter.new rs zero = .ok it ∧
      Yields (BsIter.next rs zero) it (positions (!zero) v.bits) := by
  obtain ⟨rs, it, h1, h2, h3⟩ := C52_characterisation hw zero
  refine ⟨rs, it, h1, h2, ?_⟩
  by_cases hl : v.len ≤ 16
  · rwa [if_pos hl] at h3
  · rw [if_neg hl] at h3
    obtain ⟨h4, h5⟩ := h.resolve_left hl
    rw [show 16 * ((v.len - 1) / 16) + 16 = v.len by omega, C52_stored_spec, List.filter_eq_nil_iff.mpr,
      List.append_nil] at h3
    · exact h3
    · intro p hp
      have := mem_positions.mp hp
      simp only [decide_eq_true_eq]
      intro hc
      exact h5 p (by omega) this

example := C52_positions_partial (v := ⟨[0b1011#64], 9⟩) (by decide) false (.inl (by decide))

/-- Vectors of up to 16 bits, as a special case: `bit_set_iter0/1` agree with `iter0/1`. -/
theorem C52_short {v : BV} (hw : v.WF) (hl : v.len ≤ 16) (zero : Bool) :
    ∃ rs it, RsVec.fromBitVec v = .ok rs ∧ BsIter.new rs zero = .ok it ∧
      Yields (BsIter.next rs zero) it (positions (!zero) v.bits) :=
  C52_positions_partial hw zero (Or.inl hl)

example : (⟨[0b1011#64], 9⟩ : BV).WF ∧ (⟨[0b1011#64], 9⟩ : BV).len ≤ 16 := by decide
example : (⟨[0b1011#64], 32⟩ : BV).len % 16 = 0 ∧ ∀ i, (⟨[0b1011#64], 32⟩ : BV).len - 16 ≤ i →
    (⟨[0b1011#64], 32⟩ : BV).bits[i]? ≠ some (!false) := by
  refine ⟨by decide, fun i hi => ?_⟩
  by_cases h : i < 32
  · have : ∀ j < 32, 16 ≤ j → (⟨[0b1011#64], 32⟩ : BV).bits[j]? ≠ some (!false) := by decide
    exact this i h hi
  · rw [List.getElem?_eq_none (by rw [BV.length_bits]; exact Nat.le_of_not_lt h)]; simp

/-- Defect: on every vector of more than 16 bits, each position in the last chunk is returned twice. -/
theorem C52_defect {v : BV} (hw : v.WF) (zero : Bool) (hl : 16 < v.len) :
    ∃ rs it l, RsVec.fromBitVec v = .ok rs ∧ BsIter.new rs zero = .ok it ∧ Yields (BsIter.next rs zero) it l ∧
      ∀ i, v.bits[i]? = some (!zero) → 16 * ((v.len - 1) / 16) ≤ i → l.count i = 2 := by
  obtain ⟨rs, it, h1, h2, h3⟩ := C52_characterisation hw zero
  rw [if_neg (by omega)] at h3
  refine ⟨rs, it, _, h1, h2, h3, fun i hi hb => ?_⟩
  have hil := Rep.len_pos hi
  have hm : i ∈ positions (!zero) v.bits := mem_positions.mpr hi
  have hnd : (positions (!zero) v.bits).Nodup := (positionsFrom_sorted _ v.bits 0).1.imp (fun h => Nat.ne_of_lt h)
  have hlb : lbit v.data i = !zero := by
    rw [BV.bits_getElem?, if_pos hil] at hi
    exact Option.some.inj hi
  rw [List.count_append, List.count_filter (by simp; exact hb), hnd.count, if_pos hm]
  unfold stored
  rw [List.count_filter (by rw [hlb]; cases zero <;> rfl),
    (List.nodup_range' (step := 1)).count, if_pos (List.mem_range'_1.mpr (by omega))]

/-- Defect, a concrete case: on 17 bits `10000000000000001`, `bit_set_iter1` yields `0, 16, 16`, and on 17
one-bits `bit_set_iter0` yields the positions 17, ..., 31 outside of the vector. -/
theorem C52_example_defect :
    (do
      let v ← BV.fromBools (true :: List.replicate 15 false ++ [true])
      let rs ← RsVec.fromBitVec v
      let it ← BsIter.new rs false
      runNext (BsIter.next rs false) 4 it) = .ok [some 0, some 16, some 16, none] ∧
    (do
      let v ← BV.fromBools (List.replicate 17 true)
      let rs ← RsVec.fromBitVec v
      let it ← BsIter.new rs true
      runNext (BsIter.next rs true) 16 it) = .ok ((List.range 15).map (fun i => some (17 + i)) ++ [none]) := by
  decide +revert +kernel

end Vers
