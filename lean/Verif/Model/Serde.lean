import Verif.Model.Sparse
import Verif.Model.Rmq
import Verif.Model.Wavelet
import Verif.Model.Bp

/-!
# Model of the serde derives

All structures derive `serde::Serialize` and `serde::Deserialize` without any field attribute. The generated
code is not part of the repository. Modelled is the documented behaviour of the derive: a structure is written
as the list of its fields in the order of declaration, each with its name; when read, a format either presents
the fields by name (the visitor's `visit_map`: missing or repeated fields are errors) or by position
(`visit_seq`). A newtype structure is written as its content. Integers are rejected if they are not in the range
of their type. Vectors and boxed slices are sequences.

The formats themselves (JSON, bincode, ...) are not modelled: a format is represented by the choice whether it
keeps the field names, and is assumed to reproduce the value tree it was given.
-/

namespace Vers.Serde

variable [Profile]

/-- The data a format stores; written and read by the code derived at src/bit_vec/mod.rs:60,
src/bit_vec/fast_rs_vec/mod.rs:45, 56, 67 and 92, src/elias_fano/mod.rs:58 and the other data structures. -/
inductive Value where
  | num (i : Int)
  | seq (l : List Value)
  | map (l : List (String × Value))

/-- Self-describing formats store the field names, compact formats only the fields; the code derived at
src/bit_vec/mod.rs:60 supports both. -/
inductive Format where
  | named
  | compact

/-- The generated code of a type, e.g. src/bit_vec/mod.rs:60. -/
structure Codec (α : Type) where
  ser : Format → α → Value
  de : Value → Option α

/-- Unsigned integers of `bits` bits, e.g. src/bit_vec/fast_rs_vec/mod.rs:49 and src/bit_vec/mod.rs:64. -/
def uint (bits : Nat) : Codec Nat where
  ser _ n := .num n
  de
    | .num i => if 0 ≤ i ∧ i.toNat < 2 ^ bits then some i.toNat else none
    | _ => none

/-- `i64`, src/trees/mmt.rs:27-33. -/
def sint : Codec Int where
  ser _ n := .num n
  de
    | .num i => if -2 ^ 63 ≤ i ∧ i < 2 ^ 63 then some i else none
    | _ => none

/-- `u64` and `u128` as bit patterns, e.g. src/bit_vec/mod.rs:63. -/
def word (bits : Nat) : Codec (BitVec bits) where
  ser f w := (uint bits).ser f w.toNat
  de v := do
    let n ← (uint bits).de v
    pure (BitVec.ofNat bits n)

/-- Elements of a sequence, e.g. src/bit_vec/mod.rs:63. -/
def deList {α : Type} (c : Codec α) : List Value → Option (List α)
  | [] => some []
  | v :: vs => do
    let x ← c.de v
    let xs ← deList c vs
    pure (x :: xs)

/-- `Vec<T>` and `Box<[T]>`, e.g. src/bit_vec/mod.rs:63 and src/trees/mmt.rs:43. -/
def seqOf {α : Type} (c : Codec α) : Codec (List α) where
  ser f l := .seq (l.map (c.ser f))
  de
    | .seq l => deList c l
    | _ => none

/-- `serialize_struct`, called by the code derived at src/bit_vec/mod.rs:60. -/
def struct (f : Format) (fields : List (String × Value)) : Value :=
  match f with
  | .named => .map fields
  | .compact => .seq (fields.map (·.2))

/-- The field of a structure, by name or by position, as read by the code derived at src/bit_vec/mod.rs:60. -/
def field (v : Value) (i : Nat) (name : String) : Option Value :=
  match v with
  | .map l =>
    match l.filter (fun p => p.1 = name) with
    | [p] => some p.2
    | _ => none
  | .seq l => l[i]?
  | .num _ => none

/-- `BlockDescriptor`, src/bit_vec/fast_rs_vec/mod.rs:44-50 -/
def blockDescriptor : Codec Nat where
  ser f z := struct f [("zeros", (uint 16).ser f z)]
  de v := (field v 0 "zeros").bind (uint 16).de

/-- `SuperBlockDescriptor`, src/bit_vec/fast_rs_vec/mod.rs:55-61 -/
def superBlockDescriptor : Codec Nat where
  ser f z := struct f [("zeros", (uint 64).ser f z)]
  de v := (field v 0 "zeros").bind (uint 64).de

/-- `SelectSuperBlockDescriptor`, src/bit_vec/fast_rs_vec/mod.rs:66-73 -/
def selectDescriptor : Codec (Nat × Nat) where
  ser f e := struct f [("index_0", (uint 64).ser f e.1), ("index_1", (uint 64).ser f e.2)]
  de v := do
    let a ← (field v 0 "index_0").bind (uint 64).de
    let b ← (field v 1 "index_1").bind (uint 64).de
    pure (a, b)

/-- `BitVec`, src/bit_vec/mod.rs:59-65 -/
def bitVec : Codec BV where
  ser f v := struct f [("data", (seqOf (word 64)).ser f v.data), ("len", (uint 64).ser f v.len)]
  de v := do
    let data ← (field v 0 "data").bind (seqOf (word 64)).de
    let len ← (field v 1 "len").bind (uint 64).de
    pure ⟨data, len⟩

/-- `RsVec`, src/bit_vec/fast_rs_vec/mod.rs:90-102 -/
def rsVec : Codec RsVec where
  ser f r := struct f [
    ("data", (seqOf (word 64)).ser f r.data),
    ("len", (uint 64).ser f r.len),
    ("blocks", (seqOf blockDescriptor).ser f r.blocks),
    ("super_blocks", (seqOf superBlockDescriptor).ser f r.supers),
    ("select_blocks", (seqOf selectDescriptor).ser f r.selects),
    ("rank0", (uint 64).ser f r.rank0),
    ("rank1", (uint 64).ser f r.rank1)]
  de v := do
    let data ← (field v 0 "data").bind (seqOf (word 64)).de
    let len ← (field v 1 "len").bind (uint 64).de
    let blocks ← (field v 2 "blocks").bind (seqOf blockDescriptor).de
    let supers ← (field v 3 "super_blocks").bind (seqOf superBlockDescriptor).de
    let selects ← (field v 4 "select_blocks").bind (seqOf selectDescriptor).de
    let rank0 ← (field v 5 "rank0").bind (uint 64).de
    let rank1 ← (field v 6 "rank1").bind (uint 64).de
    pure ⟨data, len, blocks, supers, selects, rank0, rank1⟩

/-- `EliasFanoVec`, src/elias_fano/mod.rs:57-67 -/
def eliasFano : Codec EF where
  ser f e := struct f [
    ("upper_vec", rsVec.ser f e.upper),
    ("lower_vec", bitVec.ser f e.lower),
    ("universe_zero", (word 64).ser f e.zero),
    ("universe_max", (word 64).ser f e.max),
    ("lower_len", (uint 64).ser f e.lowerLen),
    ("len", (uint 64).ser f e.len)]
  de v := do
    let upper ← (field v 0 "upper_vec").bind rsVec.de
    let lower ← (field v 1 "lower_vec").bind bitVec.de
    let zero ← (field v 2 "universe_zero").bind (word 64).de
    let max ← (field v 3 "universe_max").bind (word 64).de
    let lowerLen ← (field v 4 "lower_len").bind (uint 64).de
    let len ← (field v 5 "len").bind (uint 64).de
    pure ⟨upper, lower, zero, max, lowerLen, len⟩

/-- `SparseRSVec`, src/bit_vec/sparse.rs:45-51 -/
def sparse : Codec Sparse where
  ser f s := struct f [("vec", eliasFano.ser f s.vec), ("len", (word 64).ser f s.len)]
  de v := do
    let vec ← (field v 0 "vec").bind eliasFano.de
    let len ← (field v 1 "len").bind (word 64).de
    pure ⟨vec, len⟩

/-- `BinaryRmq`, src/rmq/binary_rmq/mod.rs:29-39 -/
def binRmq : Codec BinRmq where
  ser f s := struct f [("data", (seqOf (word 64)).ser f s.data), ("results", (seqOf (uint 32)).ser f s.results)]
  de v := do
    let data ← (field v 0 "data").bind (seqOf (word 64)).de
    let results ← (field v 1 "results").bind (seqOf (uint 32)).de
    pure ⟨data, results⟩

/-- `Block`, src/rmq/fast_rmq/mod.rs:56-63; `SmallBitVector` (18-22) is a newtype. -/
def rmqBlock : Codec RmqBlock where
  ser f b := struct f [("prefix_minima", (word 128).ser f b.pre), ("suffix_minima", (word 128).ser f b.suf)]
  de v := do
    let pre ← (field v 0 "prefix_minima").bind (word 128).de
    let suf ← (field v 1 "suffix_minima").bind (word 128).de
    pure ⟨pre, suf⟩

/-- `FastRmq`, src/rmq/fast_rmq/mod.rs:82-90 -/
def fastRmq : Codec FastRmq where
  ser f s := struct f [
    ("data", (seqOf (word 64)).ser f s.data),
    ("block_minima", binRmq.ser f s.blockMinima),
    ("block_min_indices", (seqOf (uint 8)).ser f s.blockMinIndices),
    ("blocks", (seqOf rmqBlock).ser f s.blocks)]
  de v := do
    let data ← (field v 0 "data").bind (seqOf (word 64)).de
    let blockMinima ← (field v 1 "block_minima").bind binRmq.de
    let blockMinIndices ← (field v 2 "block_min_indices").bind (seqOf (uint 8)).de
    let blocks ← (field v 3 "blocks").bind (seqOf rmqBlock).de
    pure ⟨data, blockMinima, blockMinIndices, blocks⟩

/-- `WaveletMatrix`, src/wavelet/mod.rs:69-74 -/
def wavelet : Codec WM where
  ser f m := struct f [("data", (seqOf rsVec).ser f m.data)]
  de v := do
    let data ← (field v 0 "data").bind (seqOf rsVec).de
    pure ⟨data⟩

/-- `ExcessNode`, src/trees/mmt.rs:21-34 -/
def excessNode : Codec ExcessNode where
  ser f n := struct f [("total", sint.ser f n.total), ("min", sint.ser f n.minE), ("max", sint.ser f n.maxE)]
  de v := do
    let total ← (field v 0 "total").bind sint.de
    let minE ← (field v 1 "min").bind sint.de
    let maxE ← (field v 2 "max").bind sint.de
    pure ⟨total, minE, maxE⟩

/-- `MinMaxTree`, src/trees/mmt.rs:39-44 -/
def minMaxTree : Codec MMT where
  ser f t := struct f [("nodes", (seqOf excessNode).ser f t.nodes)]
  de v := do
    let nodes ← (field v 0 "nodes").bind (seqOf excessNode).de
    pure ⟨nodes⟩

/-- `BpTree`, src/trees/bp/mod.rs:138-144 -/
def bpTree : Codec BpTree where
  ser f t := struct f [("vec", rsVec.ser f t.vec), ("min_max_tree", minMaxTree.ser f t.mmt)]
  de v := do
    let vec ← (field v 0 "vec").bind rsVec.de
    let mmt ← (field v 1 "min_max_tree").bind minMaxTree.de
    pure ⟨vec, mmt⟩

end Vers.Serde
