import Verif.Model.Unwind

/-! # The memory of bit vectors

A bit vector together with the capacity of its vector of limbs, the number of times this vector was moved to other memory, and
the number of limbs copied by these moves.
The methods are those of `Model/Unwind.lean`; the only statements that can move the limbs are `push` and `reserve`. -/

namespace Vers

/-- The strategy of the standard library: the capacity of a new vector for `n` elements, and the capacity to which a vector of
capacity `c` grows if it has to hold `n` elements; used in src/bit_vec/mod.rs:81, 727, 880, 915 and 970. -/
structure Alloc where
  first : Nat → Nat
  grow : Nat → Nat → Nat

/-- What the standard library guarantees: there is room for at least the requested number of elements; for
src/bit_vec/mod.rs:81 and 970. -/
structure Alloc.Valid (A : Alloc) : Prop where
  first : ∀ n, n ≤ A.first n
  grow : ∀ c n, n ≤ A.grow c n

/-- `BitVec`, src/bit_vec/mod.rs:62-65, with the capacity of `data`, the number of reallocations so far and the number
of limbs that they had to copy (a reallocation in place copies nothing; this is not used). -/
structure Buf where
  vec : BV
  cap : Nat
  moves : Nat
  copied : Nat
deriving DecidableEq, Repr

namespace Buf

/-- `BitVec::with_capacity`, src/bit_vec/mod.rs:79-84. -/
def withCapacity (A : Alloc) (capacity : Nat) : Buf := ⟨BV.new, A.first (capacity / 64 + 1), 0, 0⟩

/-- `BitVec::new`, src/bit_vec/mod.rs:70-72: an empty vector of the standard library has capacity 0. -/
def new : Buf := ⟨BV.new, 0, 0, 0⟩

/-- The vector is moved if there is no room for `n` limbs; used by `push` and `reserve`, e.g. src/bit_vec/mod.rs:727 and
969-970. -/
def ensure (A : Alloc) (n : Nat) (b : Buf) : Buf :=
  if n ≤ b.cap then b else ⟨b.vec, A.grow b.cap n, b.moves + 1, b.copied + b.vec.data.length⟩

/-- The fields that the methods read, e.g. src/bit_vec/mod.rs:726. -/
def getK : Mut Buf BV := fun b => (.ok b.vec, b)

/-- A statement that keeps the number of limbs or reduces it, e.g. src/bit_vec/mod.rs:729. -/
def keepK {α : Type} (x : Mut BV α) : Mut Buf α := Mut.part Buf.vec (fun v b => ⟨v, b.cap, b.moves, b.copied⟩) x

/-- `self.data.push(word)`, e.g. src/bit_vec/mod.rs:727. -/
def pushK (A : Alloc) (w : Word) : Mut Buf Unit := do
  Mut.modify fun b => b.ensure A (b.vec.data.length + 1)
  keepK (BV.pushM w)

/-- A push under a condition, e.g. src/bit_vec/mod.rs:726-728. -/
def pushIfK (A : Alloc) (c : Prop) [Decidable c] (w : Word) : Mut Buf Unit := if c then pushK A w else pure ()

/-- `BitVec::append`, src/bit_vec/mod.rs:725-735. -/
def appendK (A : Alloc) (bit : Bool) : Mut Buf Unit := do
  let v ← getK
  pushIfK A (v.len % 64 = 0) 0#64
  keepK (BV.limbM (v.len / 64) fun w => if bit then w ||| (1#64 <<< (v.len % 64)) else w &&& ~~~(1#64 <<< (v.len % 64)))
  keepK (BV.growM 1)

/-- `BitVec::append_bit`, src/bit_vec/mod.rs:799-810. -/
def appendBitK (A : Alloc) (bit : Word) : Mut Buf Unit := do
  let v ← getK
  pushIfK A (v.len % 64 = 0) 0#64
  keepK (BV.limbM (v.len / 64) fun w =>
    if bit % 2#64 = 1#64 then w ||| (1#64 <<< (v.len % 64)) else w &&& ~~~(1#64 <<< (v.len % 64)))
  keepK (BV.growM 1)

/-- The branch of `append_word` and `append_bits` for a partial limb, src/bit_vec/mod.rs:882-886 and 918-923. -/
def fillK (A : Alloc) (len : Nat) (word : Word) (more : Prop) [Decidable more] : Mut Buf Unit := do
  keepK (BV.limbM (len / 64) fun w => w &&& ~~~(BitVec.allOnes 64 <<< (len % 64)))
  keepK (BV.limbM (len / 64) fun w => w ||| (word <<< (len % 64)))
  pushIfK A more (word >>> (64 - len % 64))

/-- The conditional statement of `append_word` and `append_bits`, src/bit_vec/mod.rs:879-887 and 914-924. -/
def storeK (A : Alloc) (len : Nat) (word : Word) (more : Prop) [Decidable more] : Mut Buf Unit :=
  if len % 64 = 0 then pushK A word else fillK A len word more

/-- `BitVec::append_word`, src/bit_vec/mod.rs:878-889. -/
def appendWordK (A : Alloc) (word : Word) : Mut Buf Unit := do
  let v ← getK
  storeK A v.len word True
  keepK (BV.growM 64)

/-- `BitVec::append_bits`, src/bit_vec/mod.rs:911-926. -/
def appendBitsK (A : Alloc) (bits : Word) (len : Nat) : Mut Buf Unit := do
  Mut.lift (assertR (len ≤ 64))
  let v ← getK
  storeK A v.len bits (v.len % 64 + len > 64)
  keepK (BV.growM len)

/-- The loop of `extend_bitvec`, src/bit_vec/mod.rs:973-975. -/
def extendLoopK (A : Alloc) (other : List Word) : Nat → Nat → Mut Buf Unit
  | _, 0 => pure ()
  | i, n + 1 => do
    let w ← Mut.lift (idx other i)
    appendBitsK A w 64
    extendLoopK A other (i + 1) n

/-- The last limb in `extend_bitvec`, src/bit_vec/mod.rs:977-980. -/
def extendLastK (A : Alloc) (other : BV) : Mut Buf Unit :=
  if other.len % 64 > 0 then do
    let w ← Mut.lift (idx other.data (other.len / 64))
    appendBitsK A w (other.len % 64)
  else pure ()

/-- `BitVec::extend_bitvec`, src/bit_vec/mod.rs:967-981. -/
def extendBitvecK (A : Alloc) (other : BV) : Mut Buf Unit := do
  let v ← getK
  Mut.lift (BV.reserveR ((v.len + other.len + 63) / 64) v.data.length)
  Mut.modify fun b => b.ensure A ((v.len + other.len + 63) / 64)
  extendLoopK A other.data 0 (other.len / 64)
  extendLastK A other

/-- `Extend<BitVec>` and `Extend<&BitVec>`, src/bit_vec/mod.rs:1564-1578. -/
def extendK (A : Alloc) : List BV → Mut Buf Unit
  | [] => pure ()
  | o :: os => do
    extendBitvecK A o
    extendK A os

/-- The loop of `from_bits`, src/bit_vec/mod.rs:131-137. -/
def appendBitListK (A : Alloc) : List Word → Mut Buf Unit
  | [] => pure ()
  | w :: ws => do
    appendBitK A w
    appendBitListK A ws

/-- `BitVec::from_bits` and its variants for wider integers, src/bit_vec/mod.rs:131-191: the vector at the end. -/
def fromBitsK (A : Alloc) (bits : List Word) : R Unit × Buf := appendBitListK A bits (withCapacity A bits.length)

/-- The vector of `BpBuilder::with_capacity`, src/trees/bp/builder.rs:27-32; the overflow of the multiplication is in
`BpBuilder.withCapacity`. -/
def builderK (A : Alloc) (capacity : Nat) : Buf := withCapacity A (capacity * 2)

/-- The effect of a sequence of `enter_node` (`true`) and `leave_node` (`false`) on the vector of the builder,
src/trees/bp/builder.rs:44-52. -/
def walkK (A : Alloc) : List Bool → Mut Buf Unit
  | [] => pure ()
  | true :: ws => do
    appendBitK A 1#64
    walkK A ws
  | false :: ws => do
    appendBitK A 0#64
    walkK A ws

end Buf
end Vers
