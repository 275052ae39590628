import Verif.Model.EliasFanoIter
import Verif.Model.GenIter

/-! # Model of src/bit_vec/sparse.rs -/

namespace Vers

variable [Profile]

/-- `SparseRSVec`, src/bit_vec/sparse.rs:48-51. -/
structure Sparse where
  vec : EF
  len : Word

namespace Sparse

/-- `input.windows(2).all(|w| w[0] != w[1])`, src/bit_vec/sparse.rs:68. -/
def windowsDistinct : List Word → Bool
  | a :: b :: l => decide (a ≠ b) && windowsDistinct (b :: l)
  | _ => true

/-- `new`, src/bit_vec/sparse.rs:65-76 (`is_sorted` compares neighbours). `fl` stands for the floating point
logarithm of the Elias-Fano construction. -/
def new (fl : Nat → Nat) (input : List Word) (len : Word) : R Sparse := do
  dassertR (EF.windowsSorted input = true)
  dassertR (windowsDistinct input = true)
  let vec ← EF.fromSlice fl input
  pure ⟨vec, len⟩

/-- `input.iter().enumerate().filter(|&(_, bit)| bit == w).map(|(i, _)| i as u64).collect()`,
src/bit_vec/sparse.rs:86-92 and 133-139. -/
def collectBits (v : BV) (w : Word) : Nat → GenIter → Nat → R (List Word)
  | 0, _, _ => .error .fuel
  | fuel + 1, it, i => do
    let p ← it.next v.vecOps
    match p.2 with
    | none => pure []
    | some bit => do
      let rest ← collectBits v w fuel p.1 (i + 1)
      if bit = w then pure (BitVec.ofNat 64 i :: rest) else pure rest

/-- `from_bitvec`, src/bit_vec/sparse.rs:83-95. -/
def fromBitVec (fl : Nat → Nat) (v : BV) : R Sparse := do
  let input ← collectBits v 1#64 (v.len + 1) (GenIter.new v.vecOps) 0
  new fl input (BitVec.ofNat 64 v.len)

/-- `from_bitvec_inverted`, src/bit_vec/sparse.rs:130-142. -/
def fromBitVecInverted (fl : Nat → Nat) (v : BV) : R Sparse := do
  let input ← collectBits v 0#64 (v.len + 1) (GenIter.new v.vecOps) 0
  new fl input (BitVec.ofNat 64 v.len)

/-- `From<BitVec>` and `From<&BitVec>`, src/bit_vec/sparse.rs:244-254. -/
def convert (fl : Nat → Nat) (v : BV) : R Sparse := fromBitVecInverted fl v

/-- `is_set_unchecked`, src/bit_vec/sparse.rs:151-153. -/
def isSetUnchecked (s : Sparse) (i : Word) : R Bool := do
  let p ← s.vec.predecessorUnchecked i
  pure (decide (p = i))

/-- `o.is_some_and(|p| p == i)`, src/bit_vec/sparse.rs:164. -/
def isSomeAndEq (o : Option Word) (i : Word) : Bool :=
  match o with
  | some p => decide (p = i)
  | none => false

/-- `is_set`, src/bit_vec/sparse.rs:159-166. -/
def isSet (s : Sparse) (i : Word) : R (Option Bool) :=
  if i ≥ s.len then pure none
  else do
    let o ← s.vec.predecessor i
    pure (some (isSomeAndEq o i))

/-- `get_unchecked`, src/bit_vec/sparse.rs:177-179. -/
def getUnchecked (s : Sparse) (i : Word) : R Word := do
  let b ← s.isSetUnchecked i
  pure (b2w b)

/-- `get`, src/bit_vec/sparse.rs:184-186. -/
def get (s : Sparse) (i : Word) : R (Option Word) := do
  let o ← s.isSet i
  pure (o.map b2w)

/-- `select1`, src/bit_vec/sparse.rs:194-196. -/
def select1 (s : Sparse) (i : Nat) : R Word := do
  let o ← s.vec.get i
  pure (o.getD s.len)

/-- `rank1`, src/bit_vec/sparse.rs:202-204. -/
def rank1 (s : Sparse) (i : Word) : R Word := s.vec.rank i

/-- `rank0`, src/bit_vec/sparse.rs:210-216. -/
def rank0 (s : Sparse) (i : Word) : R Word :=
  if i ≥ s.len then do
    let r ← s.vec.rank s.len
    subW s.len r
  else do
    let r ← s.vec.rank i
    subW i r

/-- `iter1`, src/bit_vec/sparse.rs:220-222. -/
def iter1 (s : Sparse) : R EfIter := EfIter.new s.vec

end Sparse
end Vers
