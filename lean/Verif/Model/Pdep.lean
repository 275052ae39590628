import Verif.Model.Prelude

/-!
# Model of src/util/pdep.rs (`u64` instance)

The portable loop is modelled. With the `bmi2` target feature the code uses the hardware instruction,
which is documented to compute the same function (`pdepBmi2` in `Model/PdepWidth`, `C49_bmi2`).
-/

namespace Vers

variable [Profile]

/-- The loop of `pdep_`, src/util/pdep.rs:118-127. `fuel` bounds the number of iterations. -/
def pdepLoop (value : Word) : Nat → Word → Word → Word → R Word
  | 0, mask, res, _ => if mask = 0#64 then pure res else .error .fuel
  | fuel + 1, mask, res, bb =>
    if mask = 0#64 then pure res
    else
      let res := if value &&& bb ≠ 0#64 then res ||| (mask &&& -mask) else res
      pdepLoop value fuel (mask &&& (mask - 1#64)) res (bb + bb)

/-- `Pdep::pdep` for `u64`, src/util/pdep.rs:115-129 (portable version). -/
def pdep (value mask : Word) : R Word := pdepLoop value 64 mask 0#64 1#64

/-- `(1 << rank).pdep(word).trailing_zeros()`, e.g. src/bit_vec/fast_rs_vec/select.rs:366. The shift
overflows for `rank >= 64` (in release builds, the distance is taken modulo 64). -/
def selectInWord (rank : Nat) (word : Word) : R Nat := do
  let bit ← (if rank < 64 then .ok (1#64 <<< rank) else wrapR (1#64 <<< (rank % 64)) : R Word)
  let w ← pdep bit word
  pure (ctz w)

end Vers
