import Verif.Proofs.Safe
import Verif.SpecIter

/-!
# C68: the SIMD code does not access memory outside of the structure

The model returns `.error .ub` where the source reads or writes through a raw pointer outside of the allocation. None of
the theorems assumes that the vector or the iterator was built by the library: they hold for every content of the fields,
such as the fields that `serde` reads without validation.
-/

namespace Vers

variable [Profile]
open Spec RsVec

omit [Profile] in
/-- C68, the load itself: wherever the position comes from, if the guard before the load holds — even if its addition
wraps around, as in a release build — the 16 descriptors that are loaded are inside of the slice, or the slice before the
load panics. A slice of the 2-byte descriptors has less than 2^63 elements. -/
theorem C68_load (blocks : List Nat) (base : Nat) (hb : base < 2 ^ 64) (hl : blocks.length < 2 ^ 63)
    (guard : blocks.length > (base + 16) % 2 ^ 64) : NoUB (loadBlocks blocks base) :=
  loadBlocks_safe hb (by omega) guard

/-- The guard is necessary: with a smaller margin the load leaves the slice. -/
example : ¬ NoUB (loadBlocks (List.replicate 20 0) 5) := fun h => h.ne (by decide +kernel)

example : loadBlocks ((List.range 20).map (· * 7)) 2 = .ok ((List.range 16).map (fun i => (i + 2) * 7)) := by
  decide +kernel

/-- C68: select with SIMD instructions, for every content of the vector. -/
theorem C68_select (rs : RsVec) (zero : Bool) (k : Nat) : NoUB (rs.selectSimd zero k) :=
  selectSimd_safe rs zero k

/-- C68: the select iterators with SIMD instructions, for every content of the vector and of the iterator. -/
theorem C68_iterators (rs : RsVec) (zero : Bool) (it : SelIter) (op : IterOp) :
    NoUB (SelIter.new rs zero) ∧ NoUB (SelIter.stepSimd rs zero it op) ∧ NoUB (it.last rs zero true) :=
  ⟨SelIter.new_safe rs zero, SelIter.stepSimd_safe rs zero it op, SelIter.last_safe rs zero it true⟩

/-- C68: comparisons of two vectors with SIMD instructions, for every content of both. -/
theorem C68_equality (rs other : RsVec) (zero : Bool) :
    NoUB (sparseEquals zero rs other true) ∧ NoUB (rs.eq other true) :=
  ⟨sparseEquals_safe zero rs other true, eq_safe rs other true⟩

/-- The comparison of two vectors without blocks and super-blocks, which no constructor returns. -/
example := C68_equality ⟨[1#64], 1, [], [], [], 0, 1⟩ ⟨[2#64], 1, [], [], [], 0, 1⟩ true

/-- C68: any number of calls of `next` on the bit set iterator, for every content of the vector. -/
theorem C68_bit_set (rs : RsVec) (zero : Bool) (k : Nat) :
    NoUB (BsIter.new rs zero >>= runNext (BsIter.next rs zero) k) := by
  obtain ⟨h1, h2⟩ := BsIter.new_safe rs zero
  refine NoUB.bind h1 (fun it hit => ?_)
  have h := h2 it hit
  clear hit h1 h2
  induction k generalizing it with
  | zero => exact NoUB.pure _
  | succ k ih =>
    unfold runNext
    obtain ⟨g1, g2⟩ := BsIter.next_safe rs zero it h
    refine NoUB.bind g1 (fun p hp => ?_)
    exact NoUB.bind (ih p.1 (g2 p hp)) (fun _ _ => NoUB.pure _)

/-- A vector with inconsistent fields, as `serde` accepts it: 17 blocks with nonsensical counts and no data. The SIMD
search loads its descriptors and the search panics later, when it reads the data. -/
def inconsistentVec : RsVec :=
  { data := [], len := 9000, blocks := List.replicate 17 7, supers := [0, 5000], selects := [(0, 0), (1, 1)],
    rank0 := 5000, rank1 := 4000 }

example : inconsistentVec.searchBlockSimd true 100 0 = .ok 15 ∧ inconsistentVec.selectSimd true 100 = .error .oob := by
  decide +revert +kernel

end Vers
