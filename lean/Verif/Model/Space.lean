import Verif.Model.RsVec
import Verif.Model.EliasFano
import Verif.Model.Sparse
import Verif.Model.Rmq
import Verif.Model.Wavelet
import Verif.Model.Bp

/-!
# Model of the `heap_size` functions

All sizes are in bytes. The sizes of the element types (`size_of`) on a 64 bit platform are: `u64`, `usize`
and `SuperBlockDescriptor` 8, `BlockDescriptor` (one `u16`) 2, `SelectSuperBlockDescriptor` (two `usize`) 16,
`u32` 4, `u8` 1, the `Block` of the range minimum structure (two `u128`) 32, `ExcessNode` (three `i64`) 24.
The sum in `usize` cannot overflow, because the summands are sizes of disjoint allocations.
-/

namespace Vers

variable [Profile]

/-- `BitVec::heap_size`, src/bit_vec/mod.rs:1441-1443 -/
def BV.heapSize (v : BV) : Nat := v.data.length * 8

/-- `RsVec::heap_size`, src/bit_vec/fast_rs_vec/mod.rs:500-505 -/
def RsVec.heapSize (rs : RsVec) : Nat :=
  rs.data.length * 8 + rs.blocks.length * 2 + rs.supers.length * 8 + rs.selects.length * 16

/-- `EliasFanoVec::heap_size`, src/elias_fano/mod.rs:607-609 -/
def EF.heapSize (ef : EF) : Nat := ef.upper.heapSize + ef.lower.heapSize

/-- `SparseRSVec::heap_size`, src/bit_vec/sparse.rs:239-241 -/
def Sparse.heapSize (s : Sparse) : Nat := s.vec.heapSize

/-- `BinaryRmq::heap_size`, src/rmq/binary_rmq/mod.rs:165-167 -/
def BinRmq.heapSize (s : BinRmq) : Nat := s.data.length * 8 + s.results.length * 4

/-- `FastRmq::heap_size`, src/rmq/fast_rmq/mod.rs:287-292 -/
def FastRmq.heapSize (s : FastRmq) : Nat :=
  s.data.length * 8 + s.blockMinima.heapSize + s.blockMinIndices.length + s.blocks.length * 32

/-- `WaveletMatrix::heap_size`, src/wavelet/mod.rs:2060-2062 -/
def WM.heapSize (m : WM) : Nat := (m.data.map RsVec.heapSize).sum

/-- `MinMaxTree::heap_size`, src/trees/mmt.rs:440-442 -/
def MMT.heapSize (t : MMT) : Nat := t.nodes.length * 24

/-- `BpTree::heap_size`, src/trees/bp/mod.rs:541-543 -/
def BpTree.heapSize (t : BpTree) : Nat := t.vec.heapSize + t.mmt.heapSize

end Vers
