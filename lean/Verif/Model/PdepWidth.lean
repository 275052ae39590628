import Verif.Model.Pdep

/-!
# Model of src/util/pdep.rs for every integer type

`impl_pdep!` instantiates the loop for the signed and unsigned integers of 8 to 64 bits
(src/util/pdep.rs:170-187). The crate only calls the `u64` instance, which `Model/Pdep` models; here the
width and the signedness are parameters.
-/

namespace Vers

variable [Profile]

/-- `mask - 1`, src/util/pdep.rs:125. For signed integers this overflows if only the sign bit is set. For
unsigned integers it cannot overflow, since the loop ends before if the mask is 0. -/
def decW {w : Nat} (signed : Bool) (m : BitVec w) : R (BitVec w) :=
  if signed = true ∧ m = BitVec.intMin w then wrapR (m - 1#w) else .ok (m - 1#w)

/-- The loop of `pdep_`, src/util/pdep.rs:118-127. `fuel` bounds the number of iterations. -/
def pdepLoopW {w : Nat} (signed : Bool) (value : BitVec w) :
    Nat → BitVec w → BitVec w → BitVec w → R (BitVec w)
  | 0, mask, res, _ => if mask = 0#w then pure res else .error .fuel
  | fuel + 1, mask, res, bb =>
    if mask = 0#w then pure res
    else do
      let m ← decW signed mask
      pdepLoopW signed value fuel (mask &&& m)
        (if value &&& bb ≠ 0#w then res ||| (mask &&& -mask) else res) (bb + bb)

/-- `Pdep::pdep` for the integers of `w` bits, src/util/pdep.rs:115-129 and 152-187. -/
def pdepW {w : Nat} (signed : Bool) (value mask : BitVec w) : R (BitVec w) :=
  pdepLoopW signed value w mask 0#w 1#w

omit [Profile] in
/-- The loop of the `PDEP` instruction as the manual describes it (`MASK[m]`, `DEST[m] := TEMP[k]`): `n` more
positions, the current one is `m`, and `k` bits of the value have been used. -/
def bmi2Loop {w : Nat} (value mask : BitVec w) : Nat → Nat → Nat → BitVec w → BitVec w
  | 0, _, _, dest => dest
  | n + 1, m, k, dest =>
    if mask.getLsbD m = true then
      bmi2Loop value mask n (m + 1) (k + 1) (if value.getLsbD k = true then dest ||| (1#w <<< m) else dest)
    else bmi2Loop value mask n (m + 1) k dest

omit [Profile] in
/-- `pdep_` with the `bmi2` target feature, src/util/pdep.rs:139-144: the instruction on the integers taken as
unsigned ones. -/
def pdepBmi2 {w : Nat} (value mask : BitVec w) : BitVec w := bmi2Loop value mask w 0 0 0#w

end Vers
