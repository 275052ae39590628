import Verif.Model.Bp
import Verif.Model.Sparse
import Verif.Model.Rmq

/-!
# Model of the conversions and of the delegating functions

Every function here has a one-line body in the source; they are kept apart so that the theorems on conversions
speak about the functions a user calls.
-/

namespace Vers

variable [Profile]

namespace BV

/-- `append_bit_u32`, src/bit_vec/mod.rs:822-824. -/
def appendBitU32 (v : BV) (bit : BitVec 32) : R BV := v.appendBit (bit.setWidth 64)

/-- `append_bit_u16`, src/bit_vec/mod.rs:836-838. -/
def appendBitU16 (v : BV) (bit : BitVec 16) : R BV := v.appendBit (bit.setWidth 64)

/-- `append_bit_u8`, src/bit_vec/mod.rs:850-852. -/
def appendBitU8 (v : BV) (bit : BitVec 8) : R BV := v.appendBit (bit.setWidth 64)

/-- The sequence of items of `iter_limbs`, src/bit_vec/mod.rs:1537-1539. -/
def iterLimbs (v : BV) : List Word := v.data

/-- `From<&[u64]>`, `From<Vec<u64>>` and `FromIterator<u64>`, src/bit_vec/mod.rs:1548-1561 and 1584-1588. -/
def ofU64s (limbs : List Word) : BV := fromLimbs limbs

/-- `From<RsVec> for BitVec`, src/bit_vec/fast_rs_vec/mod.rs:552-556. -/
def ofRsVec (rs : RsVec) : BV := rs.intoBitVec

/-- `From<BpTree> for BitVec`, src/trees/bp/mod.rs:751-755. -/
def ofBpTree (t : BpTree) : BV := t.intoParenthesesVec.intoBitVec

end BV

namespace RsVec

/-- `From<BitVec> for RsVec`, src/bit_vec/fast_rs_vec/mod.rs:538-550. -/
def ofBitVec (v : BV) : R RsVec := fromBitVec v

/-- `From<BpTree> for RsVec`, src/trees/bp/mod.rs:757-761. -/
def ofBpTree (t : BpTree) : RsVec := t.intoParenthesesVec

/-- `select_iter` and `into_select_iter`, src/bit_vec/fast_rs_vec/iter.rs:16-31. -/
def selectIter (rs : RsVec) (zero : Bool) : R SelIter := SelIter.new rs zero

/-- `iter0` and `into_iter0`, src/bit_vec/fast_rs_vec/iter.rs:39-41 and 59-61. -/
def iter0 (rs : RsVec) : R SelIter := rs.selectIter true

/-- `iter1` and `into_iter1`, src/bit_vec/fast_rs_vec/iter.rs:49-51 and 69-71. -/
def iter1 (rs : RsVec) : R SelIter := rs.selectIter false

/-- `RsVec::is_empty`, src/bit_vec/fast_rs_vec/mod.rs:319-321. -/
def isEmpty (rs : RsVec) : Bool := rs.len == 0

end RsVec

namespace BpTree

/-- `From<BitVec> for BpTree`, src/trees/bp/mod.rs:745-749. -/
def ofBitVec (bs : Nat) (v : BV) : R BpTree := fromBitVector bs v

end BpTree

namespace EF

/-- `select`, src/elias_fano/mod.rs:171-173. -/
def select (ef : EF) (rank : Nat) : R (Option Word) := ef.get rank

/-- `is_empty`, src/elias_fano/mod.rs:144-146. -/
def isEmpty (ef : EF) : Bool := ef.len == 0

end EF

namespace Sparse

/-- `is_empty`, src/bit_vec/sparse.rs:232-234. -/
def isEmpty (s : Sparse) : Bool := s.len == 0#64

end Sparse

namespace BinRmq

/-- `From<Vec<u64>>` and `FromIterator<u64>`, src/rmq/binary_rmq/mod.rs:181-197. -/
def ofU64s (data : List Word) : R BinRmq := fromVec data

/-- `Deref`, src/rmq/binary_rmq/mod.rs:173-179. -/
def deref (s : BinRmq) : List Word := s.data

end BinRmq

namespace FastRmq

/-- `From<Vec<u64>>` and `FromIterator<u64>`, src/rmq/fast_rmq/mod.rs:306-322. -/
def ofU64s (data : List Word) : R FastRmq := fromVec data

/-- `Deref`, src/rmq/fast_rmq/mod.rs:298-304. -/
def deref (s : FastRmq) : List Word := s.data

/-- `len`, src/rmq/fast_rmq/mod.rs:274-276. -/
def len (s : FastRmq) : Nat := s.data.length

/-- `is_empty`, src/rmq/fast_rmq/mod.rs:280-282. -/
def isEmpty (s : FastRmq) : Bool := s.data.isEmpty

end FastRmq

end Vers
