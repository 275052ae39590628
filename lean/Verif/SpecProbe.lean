import Verif.Model.RsVec
import Verif.Model.Rmq
import Verif.Model.Wavelet
import Verif.Model.Bp

/-!
# Specification: the number of cells a query reads

A query that takes constant time reads a constant number of memory cells. `Probes same n f s` says that `f`, called on the
structure `s`, reads at most `n` cells: its result is determined by them, so that it is the same on every structure that
has the same contents in these cells, and arbitrary contents elsewhere. Which cells are read may depend on the contents.
This follows from the number of cells read, and it is weaker: it does not say how the cells are found. The structures are
not only those that a constructor returns, and the tables can have any contents; a query that, for example, compared all
elements of the range instead of using the tables would not satisfy it.

A cell is an element of one of the vectors of the structure, a number stored beside them, or the length of a vector.
-/

namespace Vers.Spec

/-- `f` reads at most `n` cells of `s`; `same k s s'` says that the contents of cell `k` are the same in `s` and `s'`. -/
def Probes {K S α : Type} (same : K → S → S → Prop) (n : Nat) (f : S → α) (s : S) : Prop :=
  ∃ cells : List K, cells.length ≤ n ∧ ∀ s', (∀ k ∈ cells, same k s s') → f s' = f s

/-- The cells of a bit vector with rank and select support. -/
inductive RsCell where
  | len
  | zeros
  | ones
  | limbCount
  | limb (i : Nat)
  | blockCount
  | block (i : Nat)
  | superCount
  | super (i : Nat)
  | select (i : Nat)

/-- The contents of a cell are the same in two vectors. -/
def RsCell.same : RsCell → RsVec → RsVec → Prop
  | .len, a, b => b.len = a.len
  | .zeros, a, b => b.rank0 = a.rank0
  | .ones, a, b => b.rank1 = a.rank1
  | .limbCount, a, b => b.data.length = a.data.length
  | .limb i, a, b => b.data[i]? = a.data[i]?
  | .blockCount, a, b => b.blocks.length = a.blocks.length
  | .block i, a, b => b.blocks[i]? = a.blocks[i]?
  | .superCount, a, b => b.supers.length = a.supers.length
  | .super i, a, b => b.supers[i]? = a.supers[i]?
  | .select i, a, b => b.selects[i]? = a.selects[i]?

/-- The cells of a wavelet matrix: the number of levels, and the cells of each level. -/
inductive WmCell where
  | levels
  | at (level : Nat) (c : RsCell)

/-- The contents of a cell are the same in two matrices. -/
def WmCell.same : WmCell → WM → WM → Prop
  | .levels, a, b => b.data.length = a.data.length
  | .at l c, a, b => ∀ x ∈ a.data[l]?, ∀ y ∈ b.data[l]?, c.same x y

/-- The cells of a tree: those of the parentheses vector, and the number of nodes and the nodes of the min-max tree. -/
inductive TreeCell where
  | vec (c : RsCell)
  | nodeCount
  | node (i : Nat)

/-- The contents of a cell are the same in two trees. -/
def TreeCell.same : TreeCell → BpTree → BpTree → Prop
  | .vec c, a, b => c.same a.vec b.vec
  | .nodeCount, a, b => b.mmt.nodes.length = a.mmt.nodes.length
  | .node i, a, b => b.mmt.nodes[i]? = a.mmt.nodes[i]?

/-- The cells of the binary range minimum structure. -/
inductive BinCell where
  | count
  | elem (i : Nat)
  | table (i : Nat)

/-- The contents of a cell are the same in two structures. -/
def BinCell.same : BinCell → BinRmq → BinRmq → Prop
  | .count, a, b => b.data.length = a.data.length
  | .elem i, a, b => b.data[i]? = a.data[i]?
  | .table i, a, b => b.results[i]? = a.results[i]?

/-- The cells of the fast range minimum structure. -/
inductive FastCell where
  | count
  | elem (i : Nat)
  | minima (c : BinCell)
  | index (i : Nat)
  | block (i : Nat)

/-- The contents of a cell are the same in two structures. -/
def FastCell.same : FastCell → FastRmq → FastRmq → Prop
  | .count, a, b => b.data.length = a.data.length
  | .elem i, a, b => b.data[i]? = a.data[i]?
  | .minima c, a, b => c.same a.blockMinima b.blockMinima
  | .index i, a, b => b.blockMinIndices[i]? = a.blockMinIndices[i]?
  | .block i, a, b => b.blocks[i]? = a.blocks[i]?

end Vers.Spec
