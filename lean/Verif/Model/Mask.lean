import Verif.Model.BitVec

/-!
# Model of `MaskedBitVec`, src/bit_vec/mask.rs

The borrowed vectors are held by value; `binOp` is the masking closure (a pure function).
-/

namespace Vers

variable [Profile]

/-- `MaskedBitVec`, src/bit_vec/mask.rs:11-15. -/
structure Masked where
  vec : BV
  mask : BV
  binOp : Word → Word → Word

namespace Masked

/-- `MaskedBitVec::new`, src/bit_vec/mask.rs:22-30; `none` models `Err`. `BitVec::mask_or`, `mask_and`,
`mask_xor`, `mask_custom` (src/bit_vec/mod.rs:1296, 1326, 1356, 1391) call it with the operation. -/
def new (vec mask : BV) (binOp : Word → Word → Word) : Option Masked :=
  if vec.len ≠ mask.len then none else some ⟨vec, mask, binOp⟩

/-- `MaskedBitVec::iter_limbs`, src/bit_vec/mask.rs:34-44, as the list of yielded limbs. -/
def limbs (m : Masked) : List Word := (m.vec.data.zip m.mask.data).map fun p => m.binOp p.1 p.2

/-- The masked limb `i`, e.g. src/bit_vec/mask.rs:71-74. -/
def limb (m : Masked) (i : Nat) : R Word := do
  let a ← idx m.vec.data i
  let b ← idx m.mask.data i
  pure (m.binOp a b)

/-- `MaskedBitVec::get_unchecked`, src/bit_vec/mask.rs:70-76. -/
def getUnchecked (m : Masked) (pos : Nat) : R Word := do
  let w ← m.limb (pos / 64)
  pure ((w >>> (pos % 64)) &&& 1#64)

/-- `MaskedBitVec::get`, src/bit_vec/mask.rs:51-57. -/
def get (m : Masked) (pos : Nat) : R (Option Word) :=
  if pos ≥ m.vec.len then pure none
  else do
    let w ← m.getUnchecked pos
    pure (some w)

/-- `MaskedBitVec::is_bit_set`, src/bit_vec/mask.rs:82-88 and 100-102. -/
def isBitSet (m : Masked) (pos : Nat) : R (Option Bool) :=
  if pos ≥ m.vec.len then pure none
  else do
    let w ← m.getUnchecked pos
    pure (some (w != 0#64))

/-- `MaskedBitVec::get_bits_unchecked`, src/bit_vec/mask.rs:142-161. The distance of the left
shift is 64 only if `len > 64`, hence only in release builds, which reduce it modulo 64. The sum in the
conditions, which the code computes twice, overflows only then, too. -/
def getBitsUnchecked (m : Masked) (pos len : Nat) : R Word := do
  dassertR (len ≤ 64)
  let w ← m.limb (pos / 64)
  let partialWord := w >>> (pos % 64)
  let e ← addU (pos % 64) len
  if e = 64 then pure partialWord
  else if e < 64 then
    pure (partialWord &&& ((1#64 <<< (len % 64)) - 1#64))
  else do
    let w2 ← m.limb (pos / 64 + 1)
    pure ((partialWord ||| (w2 <<< ((64 - pos % 64) % 64))) &&& ((1#64 <<< (len % 64)) - 1#64))

/-- `MaskedBitVec::get_bits`, src/bit_vec/mask.rs:111-120. -/
def getBits (m : Masked) (pos len : Nat) : R (Option Word) :=
  if len > 64 ∨ len = 0 then pure none
  else do
    let e ← addU pos len
    if e > m.vec.len then pure none
    else do
      let w ← m.getBitsUnchecked pos len
      pure (some w)

/-- `MaskedBitVec::count_ones`, src/bit_vec/mask.rs:177-193. -/
def countOnes (m : Masked) : R Nat :=
  let ones := ((m.limbs.take (m.vec.len / 64)).map popcount).sum
  if m.vec.len % 64 ≠ 0 then do
    let a ← unwrapR m.vec.data.getLast?
    let b ← unwrapR m.mask.data.getLast?
    pure (ones + popcount (m.binOp a b &&& ((1#64 <<< (m.vec.len % 64)) - 1#64)))
  else pure ones

/-- `MaskedBitVec::count_zeros`, src/bit_vec/mask.rs:169-171. -/
def countZeros (m : Masked) : R Nat := do
  let ones ← m.countOnes
  subR m.vec.len ones

/-- `MaskedBitVec::to_bit_vec`, src/bit_vec/mask.rs:198-203. -/
def toBitVec (m : Masked) : BV := ⟨m.limbs, m.vec.len⟩

end Masked
end Vers
