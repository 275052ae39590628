import Verif.Model.Prelude

/-!
# Model of `src/bit_vec/mod.rs`: the plain bit vector
-/

namespace Vers

variable [Profile]

/-- `struct BitVec { data: Vec<u64>, len: usize }`, src/bit_vec/mod.rs:62-65. -/
structure BV where
  data : List Word
  len : Nat
deriving DecidableEq, Repr

namespace BV

/-- `BitVec::new` / `with_capacity`, src/bit_vec/mod.rs:70-72 and 79-84. The capacity is in
`Model/Capacity`. -/
def new : BV := ⟨[], 0⟩

/-- `BitVec::from_zeros`, src/bit_vec/mod.rs:89-95. -/
def fromZeros (len : Nat) : BV :=
  let data := List.replicate (len / 64) 0#64
  let data := if len % 64 ≠ 0 then data ++ [0#64] else data
  ⟨data, len⟩

/-- `BitVec::from_ones`, src/bit_vec/mod.rs:100-106. -/
def fromOnes (len : Nat) : BV :=
  let data := List.replicate (len / 64) (BitVec.allOnes 64)
  let data := if len % 64 ≠ 0 then data ++ [(1#64 <<< (len % 64)) - 1#64] else data
  ⟨data, len⟩

/-- `BitVec::from_limbs` / `from_vec` / `from_limbs_iter`, src/bit_vec/mod.rs:256-262, 288-295 and 321-324,
and the `From`/`FromIterator` impls, src/bit_vec/mod.rs:1548-1588. -/
def fromLimbs (words : List Word) : BV := ⟨words, words.length * 64⟩

/-- `BitVec::append(bool)`, src/bit_vec/mod.rs:725-735. -/
def append (v : BV) (bit : Bool) : R BV := do
  let data := if v.len % 64 = 0 then v.data ++ [0#64] else v.data
  let w ← idx data (v.len / 64)
  let w' := if bit then w ||| (1#64 <<< (v.len % 64)) else w &&& ~~~(1#64 <<< (v.len % 64))
  let data ← setIdx data (v.len / 64) w'
  pure ⟨data, v.len + 1⟩

/-- `BitVec::append_bit(u64)`, src/bit_vec/mod.rs:799-810
(`append_bit_u32/u16/u8`, 822-852, zero-extend and call this). -/
def appendBit (v : BV) (bit : Word) : R BV := do
  let data := if v.len % 64 = 0 then v.data ++ [0#64] else v.data
  let w ← idx data (v.len / 64)
  let w' := if bit % 2#64 = 1#64 then w ||| (1#64 <<< (v.len % 64))
            else w &&& ~~~(1#64 <<< (v.len % 64))
  let data ← setIdx data (v.len / 64) w'
  pure ⟨data, v.len + 1⟩

/-- Loop of `from_bits*`/`from_bits_iter`, src/bit_vec/mod.rs:131-230. -/
def appendBitList (v : BV) : List Word → R BV
  | [] => pure v
  | b :: bs => do
    let v ← v.appendBit b
    appendBitList v bs

/-- `BitVec::from_bits`, `from_bits_u16/u32/u64/iter`, src/bit_vec/mod.rs:131-230
(inputs are zero-extended to `u64`). -/
def fromBits (bits : List Word) : R BV := appendBitList new bits

/-- Loop of `from_bools`/`from_bool_iter`, src/bit_vec/mod.rs:675-702. -/
def appendBoolList (v : BV) : List Bool → R BV
  | [] => pure v
  | b :: bs => do
    let v ← v.append b
    appendBoolList v bs

/-- `BitVec::from_bools` / `from_bool_iter`, src/bit_vec/mod.rs:675-702. -/
def fromBools (bits : List Bool) : R BV := appendBoolList new bits

/-- `BitVec::drop_last`, src/bit_vec/mod.rs:755-771. -/
def dropLast (v : BV) (n : Nat) : BV :=
  if n > v.len then ⟨[], 0⟩
  else
    let newLimbCount := (v.len - n + 63) / 64
    let data := if newLimbCount < v.data.length then v.data.take newLimbCount else v.data
    ⟨data, v.len - n⟩

/-- `BitVec::append_word`, src/bit_vec/mod.rs:878-889. -/
def appendWord (v : BV) (word : Word) : R BV := do
  if v.len % 64 = 0 then
    pure ⟨v.data ++ [word], v.len + 64⟩
  else
    let w ← idx v.data (v.len / 64)
    let w := w &&& ~~~(BitVec.allOnes 64 <<< (v.len % 64))
    let w := w ||| (word <<< (v.len % 64))
    let data ← setIdx v.data (v.len / 64) w
    pure ⟨data ++ [word >>> (64 - v.len % 64)], v.len + 64⟩

/-- `BitVec::append_bits`, src/bit_vec/mod.rs:911-926. -/
def appendBits (v : BV) (bits : Word) (len : Nat) : R BV := do
  assertR (len ≤ 64)
  if v.len % 64 = 0 then
    pure ⟨v.data ++ [bits], v.len + len⟩
  else
    let w ← idx v.data (v.len / 64)
    let w := w &&& ~~~(BitVec.allOnes 64 <<< (v.len % 64))
    let w := w ||| (bits <<< (v.len % 64))
    let data ← setIdx v.data (v.len / 64) w
    let data := if v.len % 64 + len > 64 then data ++ [bits >>> (64 - v.len % 64)] else data
    pure ⟨data, v.len + len⟩

/-- `BitVec::append_bits_unchecked`, src/bit_vec/mod.rs:950-961. -/
def appendBitsUnchecked (v : BV) (bits : Word) (len : Nat) : R BV := do
  if v.len % 64 = 0 then
    pure ⟨v.data ++ [bits], v.len + len⟩
  else
    let w ← idx v.data (v.len / 64)
    let w := w ||| (bits <<< (v.len % 64))
    let data ← setIdx v.data (v.len / 64) w
    let data := if v.len % 64 + len > 64 then data ++ [bits >>> (64 - v.len % 64)] else data
    pure ⟨data, v.len + len⟩

/-- The padding loop of `pack_word_into_vector`, src/bit_vec/mod.rs:365-369.
`fuel` bounds the number of iterations. -/
def packPad (maxBits : Nat) : Nat → BV → Nat → R BV
  | _, v, 0 => pure v
  | 0, _, _ + 1 => .error .fuel
  | fuel + 1, v, rest@(_ + 1) => do
    let v ← v.appendBits 0#64 (min rest maxBits)
    packPad maxBits fuel v (rest - maxBits)

/-- `BitVec::pack_word_into_vector::<MAX_BITS>`, src/bit_vec/mod.rs:360-371. -/
def packWord (maxBits : Nat) (v : BV) (word : Word) (numBits : Nat) : R BV := do
  if numBits ≤ maxBits then
    v.appendBits word numBits
  else
    let v ← v.appendBits word maxBits
    packPad maxBits numBits v (numBits - maxBits)

/-- Loop of `pack_bits`/`pack_bits_iter`, src/bit_vec/mod.rs:328-355. -/
def packLoop (maxBits : Nat) (v : BV) (numBits : Nat) : List Word → R BV
  | [] => pure v
  | w :: ws => do
    let v ← packWord maxBits v w numBits
    packLoop maxBits v numBits ws

/-- `pack_sequence_u{8,16,32,64}` / `pack_from_iter_*`, src/bit_vec/mod.rs:403-656;
`maxBits` is the element width 8, 16, 32 or 64 and elements are zero-extended. The product that is passed as
capacity (src/bit_vec/mod.rs:332) is the length of the result and overflows only if the result does not fit into
memory; see `Buf.packK` for the memory. -/
def packSequence (maxBits : Nat) (seq : List Word) (bitsPerElement : Nat) : R BV :=
  packLoop maxBits new bitsPerElement seq

/-- Loop over the full limbs in `extend_bitvec`, src/bit_vec/mod.rs:973-975. -/
def extendLoop (v : BV) (other : List Word) : Nat → Nat → R BV
  | _, 0 => pure v
  | i, n + 1 => do
    let w ← idx other i
    let v ← v.appendBits w 64
    extendLoop v other (i + 1) n

/-- The argument of `reserve` in `extend_bitvec`, src/bit_vec/mod.rs:969-970. If the vector has more limbs
than needed, the subtraction overflows in debug builds, and the wrapped argument exceeds the maximum capacity
in release builds, so both builds panic. -/
def reserveR (needed have_ : Nat) : R Unit := if have_ ≤ needed then .ok () else .error .overflow

/-- `BitVec::extend_bitvec`, src/bit_vec/mod.rs:967-981. -/
def extendBitvec (v other : BV) : R BV := do
  reserveR ((v.len + other.len + 63) / 64) v.data.length
  let fullLimbs := other.len / 64
  let v ← extendLoop v other.data 0 fullLimbs
  let partialBits := other.len % 64
  if partialBits > 0 then
    let w ← idx other.data fullLimbs
    v.appendBits w partialBits
  else
    pure v

/-- `Extend<BitVec>` / `Extend<&BitVec>`, src/bit_vec/mod.rs:1564-1578. -/
def extend (v : BV) : List BV → R BV
  | [] => pure v
  | o :: os => do
    let v ← v.extendBitvec o
    extend v os

/-- `BitVec::is_empty`, src/bit_vec/mod.rs:991-993. -/
def isEmpty (v : BV) : Bool := v.len == 0

/-- `BitVec::flip_bit_unchecked`, src/bit_vec/mod.rs:1026-1028. -/
def flipBitUnchecked (v : BV) (pos : Nat) : R BV := do
  let w ← idx v.data (pos / 64)
  let data ← setIdx v.data (pos / 64) (w ^^^ (1#64 <<< (pos % 64)))
  pure ⟨data, v.len⟩

/-- `BitVec::flip_bit`, src/bit_vec/mod.rs:1011-1014. -/
def flipBit (v : BV) (pos : Nat) : R BV := do
  assertR (pos < v.len)
  v.flipBitUnchecked pos

/-- `BitVec::get_unchecked`, src/bit_vec/mod.rs:1067-1069. -/
def getUnchecked (v : BV) (pos : Nat) : R Word := do
  let w ← idx v.data (pos / 64)
  pure ((w >>> (pos % 64)) &&& 1#64)

/-- `BitVec::get`, src/bit_vec/mod.rs:1049-1055. -/
def get (v : BV) (pos : Nat) : R (Option Word) := do
  if pos ≥ v.len then pure none
  else
    let b ← v.getUnchecked pos
    pure (some b)

/-- `BitVec::set_unchecked`, src/bit_vec/mod.rs:1111-1114. -/
def setUnchecked (v : BV) (pos : Nat) (value : Word) : R BV := do
  let w ← idx v.data (pos / 64)
  let data ← setIdx v.data (pos / 64)
    ((w &&& ~~~(1#64 <<< (pos % 64))) ||| ((value &&& 1#64) <<< (pos % 64)))
  pure ⟨data, v.len⟩

/-- `BitVec::set`, src/bit_vec/mod.rs:1093-1100. `none` models `Err("out of range")`
(the vector is then unchanged). -/
def set (v : BV) (pos : Nat) (value : Word) : R (Option BV) := do
  if pos ≥ v.len then pure none
  else
    let v ← v.setUnchecked pos value
    pure (some v)

/-- `BitVec::is_bit_set_unchecked`, src/bit_vec/mod.rs:1151-1153. -/
def isBitSetUnchecked (v : BV) (pos : Nat) : R Bool := do
  let b ← v.getUnchecked pos
  pure (b != 0#64)

/-- `BitVec::is_bit_set`, src/bit_vec/mod.rs:1134-1140. -/
def isBitSet (v : BV) (pos : Nat) : R (Option Bool) := do
  if pos ≥ v.len then pure none
  else
    let b ← v.isBitSetUnchecked pos
    pure (some b)

/-- `1u64.checked_shl(len as u32).unwrap_or(0).wrapping_sub(1)`, src/bit_vec/mod.rs:1201. -/
def lowMask (len : Nat) : Word :=
  (if len % 2 ^ 32 < 64 then 1#64 <<< (len % 2 ^ 32) else 0#64) - 1#64

/-- `BitVec::get_bits_unchecked`, src/bit_vec/mod.rs:1197-1206, on the limbs
(`RsVec::get_bits_unchecked` is the same code, src/bit_vec/fast_rs_vec/mod.rs:380-389). The distance of the
left shift is 64 only if `len > 64`, hence only in release builds, which reduce it modulo 64. The sum in the
condition overflows only then, too. -/
def getBitsRaw (data : List Word) (pos len : Nat) : R Word := do
  dassertR (len ≤ 64)
  let w ← idx data (pos / 64)
  let partialWord := w >>> (pos % 64)
  let e ← addU (pos % 64) len
  if e ≤ 64 then
    pure (partialWord &&& lowMask len)
  else
    let w2 ← idx data (pos / 64 + 1)
    pure ((partialWord ||| (w2 <<< ((64 - pos % 64) % 64))) &&& lowMask len)

/-- `BitVec::get_bits_unchecked`, src/bit_vec/mod.rs:1197-1206. -/
def getBitsUnchecked (v : BV) (pos len : Nat) : R Word := getBitsRaw v.data pos len

/-- `BitVec::get_bits`, src/bit_vec/mod.rs:1165-1174. -/
def getBits (v : BV) (pos len : Nat) : R (Option Word) :=
  if len > 64 ∨ len = 0 then pure none
  else do
    let e ← addU pos len
    if e > v.len then pure none
    else do
      let w ← v.getBitsUnchecked pos len
      pure (some w)

/-- `BitVec::unpack_element`, src/bit_vec/mod.rs:1234-1236. -/
def unpackElement (v : BV) (index n : Nat) : R (Option Word) := do
  let p ← mulU index n
  v.getBits p n

/-- `BitVec::unpack_element_unchecked`, src/bit_vec/mod.rs:1256-1258. -/
def unpackElementUnchecked (v : BV) (index n : Nat) : R Word := do
  let p ← mulU index n
  v.getBitsUnchecked p n

/-- `BitVec::count_ones`, src/bit_vec/mod.rs:1266-1277. -/
def countOnes (v : BV) : R Nat := do
  let full ← prefixR v.data (v.len / 64)
  let ones := (full.map popcount).sum
  if v.len % 64 ≠ 0 then
    let w ← unwrapR v.data.getLast?
    pure (ones + popcount (w &&& ((1#64 <<< (v.len % 64)) - 1#64)))
  else
    pure ones

/-- `BitVec::count_zeros`, src/bit_vec/mod.rs:1286-1288. -/
def countZeros (v : BV) : R Nat := do
  let ones ← v.countOnes
  subR v.len ones

/-- Loop of `apply_mask_*`, e.g. src/bit_vec/mod.rs:1431-1433. -/
def maskLoop (f : Word → Word → Word) (mask : List Word) : Nat → Nat → List Word → R (List Word)
  | _, 0, data => pure data
  | i, n + 1, data => do
    let a ← idx data i
    let b ← idx mask i
    let data ← setIdx data i (f a b)
    maskLoop f mask (i + 1) n data

/-- `apply_mask_or/and/xor/custom`, src/bit_vec/mod.rs:1307-1436, with the operation as a parameter
(`|`, `&`, `^` or the custom function). `none` models `Err` (vector unchanged). -/
def applyMask (f : Word → Word → Word) (v mask : BV) : R (Option BV) := do
  if v.len ≠ mask.len then pure none
  else
    let data ← maskLoop f mask.data 0 v.data.length v.data
    pure (some ⟨data, v.len⟩)

/-- Loop copying full limbs in `split_at_unchecked`, src/bit_vec/mod.rs:1510-1512. -/
def splitLoop (data : List Word) (v : BV) : Nat → Nat → R BV
  | _, 0 => pure v
  | i, n + 1 => do
    let w ← idx data i
    let v ← v.appendBitsUnchecked w 64
    splitLoop data v (i + 1) n

/-- The leading partial limb of `split_at_unchecked`, src/bit_vec/mod.rs:1497-1507: the vector built so
far and the first full limb to copy. -/
def splitFirst (v : BV) (at_ : Nat) : R (BV × Nat) :=
  if at_ % 64 > 0 then do
    let w ← idx v.data (at_ / 64)
    let other ← new.appendBitsUnchecked (w >>> (at_ % 64)) (64 - at_ % 64)
    pure (other, at_ / 64 + 1)
  else pure (new, at_ / 64)

/-- The part of `split_at_unchecked` that builds the second vector, src/bit_vec/mod.rs:1482-1520. -/
def splitRight (v : BV) (at_ otherLen : Nat) : R BV :=
  let firstLimb := at_ / 64
  let lastLimb := v.len / 64
  if firstLimb = lastLimb then do
    let w ← idx v.data firstLimb
    new.appendBitsUnchecked (w >>> (at_ % 64)) otherLen
  else do
    let p ← v.splitFirst at_
    let other ← splitLoop v.data p.1 p.2 (lastLimb - p.2)
    if v.len % 64 > 0 then do
      let w ← idx v.data lastLimb
      other.appendBitsUnchecked w (v.len % 64)
    else pure other

/-- `BitVec::split_at_unchecked`, src/bit_vec/mod.rs:1474-1526. Behind the end, `len - at` wraps around in release builds, and
the request for this capacity fails; the model goes on with the wrapped length. -/
def splitAtUnchecked (v : BV) (at_ : Nat) : R (BV × BV) := do
  let otherLen ← subR v.len at_
  if otherLen = 0 then pure (v, new)
  else do
    let other ← v.splitRight at_ otherLen
    pure (v.dropLast otherLen, other)

/-- `BitVec::split_at`, src/bit_vec/mod.rs:1456-1462. `none` models `Err(self)`. -/
def splitAt (v : BV) (at_ : Nat) : R (Option (BV × BV)) := do
  if at_ > v.len then pure none
  else
    let p ← v.splitAtUnchecked at_
    pure (some p)

/-- Loop of `PartialEq::eq`, src/bit_vec/mod.rs:1602-1606. -/
def eqLoop (a b : List Word) : Nat → Nat → R Bool
  | _, 0 => pure true
  | i, n + 1 => do
    let x ← idx a i
    let y ← idx b i
    if x ≠ y then pure false else eqLoop a b (i + 1) n

/-- `PartialEq::eq`, src/bit_vec/mod.rs:1593-1615. -/
def eq (v other : BV) : R Bool := do
  if v.len ≠ other.len then pure false
  else if v.len = 0 then pure true
  else
    let n ← subR v.data.length 1
    let same ← eqLoop v.data other.data 0 n
    if same = false then pure false
    else
      let mask : Word := (1#64 <<< (v.len % 64)) - 1#64
      let x ← idx v.data n
      let y ← idx other.data n
      if x &&& mask ≠ y &&& mask then pure false else pure true

/-- `Hash::hash`, src/bit_vec/mod.rs:1620-1630: the sequence of values written to the hasher. -/
def hashInput (v : BV) : R (Nat × List Word) := do
  if v.len > 0 then
    let n ← subR v.data.length 1
    let full ← prefixR v.data n
    let last ← unwrapR v.data.getLast?
    pure (v.len, full ++ [last &&& ((1#64 <<< (v.len % 64)) - 1#64)])
  else pure (v.len, [])

end BV
end Vers
