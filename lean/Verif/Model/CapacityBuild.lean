import Verif.Model.Capacity
import Verif.Model.EliasFano

/-! # The memory of bit vectors during construction

The constructors that ask for a capacity and then append, with the capacity and the number of reallocations of `Model/Capacity`.
-/

namespace Vers

namespace Buf

/-- The loop of `from_bools` and `from_bool_iter`, src/bit_vec/mod.rs:675-702. -/
def appendBoolListK (A : Alloc) : List Bool → Mut Buf Unit
  | [] => pure ()
  | b :: bs => do
    appendK A b
    appendBoolListK A bs

/-- `BitVec::from_bools`, src/bit_vec/mod.rs:675-679. -/
def fromBoolsK (A : Alloc) (bits : List Bool) : R Unit × Buf := appendBoolListK A bits (withCapacity A bits.length)

/-- `BitVec::from_bool_iter`, src/bit_vec/mod.rs:698-702: no capacity is requested. -/
def fromBoolIterK (A : Alloc) (bits : List Bool) : R Unit × Buf := appendBoolListK A bits new

/-- `BitVec::from_bits_iter`, src/bit_vec/mod.rs:219-230; `hint` is the lower bound of the size that the iterator reports. -/
def fromBitsIterK (A : Alloc) (hint : Nat) (bits : List Word) : R Unit × Buf := appendBitListK A bits (withCapacity A hint)

/-- The loop of `pack_word_into_vector`, src/bit_vec/mod.rs:365-369, as `BV.packPad`. -/
def packPadK (A : Alloc) (maxBits : Nat) : Nat → Nat → Mut Buf Unit
  | _, 0 => pure ()
  | 0, _ + 1 => Mut.lift (.error .fuel)
  | fuel + 1, rest@(_ + 1) => do
    appendBitsK A 0#64 (min rest maxBits)
    packPadK A maxBits fuel (rest - maxBits)

/-- `BitVec::pack_word_into_vector`, src/bit_vec/mod.rs:360-371. -/
def packWordK (A : Alloc) (maxBits : Nat) (word : Word) (numBits : Nat) : Mut Buf Unit :=
  if numBits ≤ maxBits then appendBitsK A word numBits
  else do
    appendBitsK A word maxBits
    packPadK A maxBits numBits (numBits - maxBits)

/-- The loop of `pack_bits` and `pack_bits_iter`, src/bit_vec/mod.rs:333-335 and 350-352. -/
def packLoopK (A : Alloc) (maxBits numBits : Nat) : List Word → Mut Buf Unit
  | [] => pure ()
  | w :: ws => do
    packWordK A maxBits w numBits
    packLoopK A maxBits numBits ws

/-- `BitVec::pack_bits`, src/bit_vec/mod.rs:328-337, which the constructors `pack_sequence_*` call. -/
def packK (A : Alloc) (maxBits : Nat) (seq : List Word) (numBits : Nat) : R Unit × Buf :=
  packLoopK A maxBits numBits seq (withCapacity A (seq.length * numBits))

/-- The conditional statement of `append_bits_unchecked`, src/bit_vec/mod.rs:951-959. -/
def storeUncheckedK (A : Alloc) (len : Nat) (word : Word) (more : Prop) [Decidable more] : Mut Buf Unit :=
  if len % 64 = 0 then pushK A word
  else do
    keepK (BV.limbM (len / 64) fun w => w ||| (word <<< (len % 64)))
    pushIfK A more (word >>> (64 - len % 64))

/-- `BitVec::append_bits_unchecked`, src/bit_vec/mod.rs:950-961. -/
def appendBitsUncheckedK (A : Alloc) (bits : Word) (len : Nat) : Mut Buf Unit := do
  let v ← getK
  storeUncheckedK A v.len bits (v.len % 64 + len > 64)
  keepK (BV.growM len)

/-- The loop over the full limbs in `split_at_unchecked`, src/bit_vec/mod.rs:1510-1512. -/
def splitLoopK (A : Alloc) (data : List Word) : Nat → Nat → Mut Buf Unit
  | _, 0 => pure ()
  | i, n + 1 => do
    let w ← Mut.lift (idx data i)
    appendBitsUncheckedK A w 64
    splitLoopK A data (i + 1) n

/-- The leading partial limb of `split_at_unchecked`, src/bit_vec/mod.rs:1497-1507; returns the first full limb. -/
def splitFirstK (A : Alloc) (v : BV) (at_ : Nat) : Mut Buf Nat :=
  if at_ % 64 > 0 then do
    let w ← Mut.lift (idx v.data (at_ / 64))
    appendBitsUncheckedK A (w >>> (at_ % 64)) (64 - at_ % 64)
    pure (at_ / 64 + 1)
  else pure (at_ / 64)

/-- The trailing partial limb of `split_at_unchecked`, src/bit_vec/mod.rs:1516-1519. -/
def splitLastK (A : Alloc) (v : BV) : Mut Buf Unit :=
  if v.len % 64 > 0 then do
    let w ← Mut.lift (idx v.data (v.len / 64))
    appendBitsUncheckedK A w (v.len % 64)
  else pure ()

/-- The statements of `split_at_unchecked` that fill the second vector, src/bit_vec/mod.rs:1482-1520. -/
def splitRightK (A : Alloc) (v : BV) (at_ otherLen : Nat) : Mut Buf Unit :=
  if at_ / 64 = v.len / 64 then do
    let w ← Mut.lift (idx v.data (at_ / 64))
    appendBitsUncheckedK A (w >>> (at_ % 64)) otherLen
  else do
    let first ← splitFirstK A v at_
    splitLoopK A v.data first (v.len / 64 - first)
    splitLastK A v

/-- The second vector of `split_at_unchecked`, src/bit_vec/mod.rs:1474-1526, for `at <= len`. -/
def splitK (A : Alloc) (v : BV) (at_ : Nat) : R Unit × Buf :=
  if v.len - at_ = 0 then (.ok (), withCapacity A 0)
  else splitRightK A v at_ (v.len - at_) (withCapacity A (v.len - at_))

end Buf

variable [Profile]

/-- The loop of `EliasFanoVec::from_slice`, src/elias_fano/mod.rs:116-124, on the memory of the lower vector; returns the
upper vector. -/
def EF.fillLoopK (A : Alloc) (zero : Word) (w : Nat) : BV → Nat → List Word → Mut Buf BV
  | u, _, [] => pure u
  | u, i, x :: xs => do
    let word ← Mut.lift (subW x zero)
    let p ← Mut.lift (addU (word >>> w).toNat i)
    let p ← Mut.lift (addU p 1)
    let u ← Mut.lift (u.flipBitUnchecked p)
    Buf.appendBitsUncheckedK A (word &&& ((1#64 <<< w) - 1#64)) w
    EF.fillLoopK A zero w u (i + 1) xs

/-- `EliasFanoVec::from_slice` on a non-empty slice, src/elias_fano/mod.rs:93-133, with the memory of the lower vector. -/
def EF.fromNonEmptyK (A : Alloc) (fl : Nat → Nat) (data : List Word) : R (EF × Buf) := do
  dassertR (windowsSorted data = true)
  let zero ← idx data 0
  let last ← idx data (data.length - 1)
  let bound ← subW last zero
  let w ← subR (Nat.max (fl (Nat.max bound.toNat 2)) (fl (data.length + 2))) (fl (Nat.max data.length 2))
  assertR (w < 64)
  let ulen ← addU (2 + data.length) (bound >>> w).toNat
  let cap ← mulU data.length w
  match EF.fillLoopK A zero w (BV.fromZeros ulen) 0 data (Buf.withCapacity A cap) with
  | (.ok u, b) => do
    let rs ← RsVec.fromBitVec u
    pure (⟨rs, b.vec, zero, last, w, data.length⟩, b)
  | (.error e, _) => .error e

end Vers
