import Verif.Model.BuildSteps
import Verif.Model.Sparse
import Verif.Model.Bp

/-!
# The constructors of the Elias-Fano vector, the sparse vector and the tree with a step counter

The definitions of `Model/EliasFano.lean`, `Model/Sparse.lean`, `Model/Mmt.lean` and `Model/Bp.lean` again, counted in the
way of `Model/BuildSteps.lean`. The loops of debug assertions are only counted in debug builds. Copies of growing vectors
are not counted (see C82 for them).
-/

namespace Vers

variable [Profile]
open Counted

namespace Counted

/-- A debug assertion with a loop over `n` elements, e.g. src/elias_fano/mod.rs:93-96 and src/bit_vec/sparse.rs:66. -/
def dassertC (n : Nat) (p : Prop) [Decidable p] : Counted Unit := ⟨if Profile.debug then n else 0, dassertR p⟩

end Counted

namespace EF

/-- The loop over the elements, src/elias_fano/mod.rs:116-124. -/
def fillLoopC (zero : Word) (w : Nat) : BV → BV → Nat → List Word → Counted (BV × BV)
  | u, l, _, [] => pure (u, l)
  | u, l, i, x :: xs => do
    let word ← tick (subW x zero)
    let p ← free (addU (word >>> w).toNat i)
    let p ← free (addU p 1)
    let u ← free (u.flipBitUnchecked p)
    let l ← free (l.appendBitsUnchecked (word &&& ((1#64 <<< w) - 1#64)) w)
    fillLoopC zero w u l (i + 1) xs

/-- `from_slice` on a non-empty slice, src/elias_fano/mod.rs:93-133. -/
def fromNonEmptyC (lazy : Bool) (fl : Nat → Nat) (data : List Word) : Counted EF := do
  let _ ← dassertC data.length (windowsSorted data = true)
  let zero ← free (idx data 0)
  let last ← free (idx data (data.length - 1))
  let bound ← free (subW last zero)
  let w ← free (subR (Nat.max (fl (Nat.max bound.toNat 2)) (fl (data.length + 2))) (fl (Nat.max data.length 2)))
  let _ ← free (assertR (w < 64))
  let ulen ← free (addU (2 + data.length) (bound >>> w).toNat)
  let _ ← free (mulU data.length w)
  let u ← words lazy ((ulen + 63) / 64) (BV.fromZeros ulen)
  let ul ← fillLoopC zero w u BV.new 0 data
  let rs ← RsVec.fromBitVecC ul.1
  pure ⟨rs, ul.2, zero, last, w, data.length⟩

/-- `from_slice`, src/elias_fano/mod.rs:81-134. -/
def fromSliceC (lazy : Bool) (fl : Nat → Nat) (data : List Word) : Counted EF :=
  if data = [] then do
    let rs ← RsVec.fromBitVecC BV.new
    pure ⟨rs, BV.new, 0#64, 0#64, 0, 0⟩
  else fromNonEmptyC lazy fl data

end EF

namespace Sparse

/-- `new`, src/bit_vec/sparse.rs:65-76. -/
def newC (lazy : Bool) (fl : Nat → Nat) (input : List Word) (len : Word) : Counted Sparse := do
  let _ ← dassertC input.length (EF.windowsSorted input = true)
  let _ ← dassertC input.length (windowsDistinct input = true)
  let vec ← EF.fromSliceC lazy fl input
  pure ⟨vec, len⟩

/-- The loop over the bits, src/bit_vec/sparse.rs:86-92 and 133-139. -/
def collectBitsC (v : BV) (w : Word) : Nat → GenIter → Nat → Counted (List Word)
  | 0, _, _ => free (.error .fuel)
  | fuel + 1, it, i => do
    let p ← tick (it.next v.vecOps)
    match p.2 with
    | none => pure []
    | some bit => do
      let rest ← collectBitsC v w fuel p.1 (i + 1)
      if bit = w then pure (BitVec.ofNat 64 i :: rest) else pure rest

/-- `from_bitvec`, src/bit_vec/sparse.rs:83-95. -/
def fromBitVecC (lazy : Bool) (fl : Nat → Nat) (v : BV) : Counted Sparse := do
  let input ← collectBitsC v 1#64 (v.len + 1) (GenIter.new v.vecOps) 0
  newC lazy fl input (BitVec.ofNat 64 v.len)

/-- `from_bitvec_inverted`, src/bit_vec/sparse.rs:130-142. -/
def fromBitVecInvertedC (lazy : Bool) (fl : Nat → Nat) (v : BV) : Counted Sparse := do
  let input ← collectBitsC v 0#64 (v.len + 1) (GenIter.new v.vecOps) 0
  newC lazy fl input (BitVec.ofNat 64 v.len)

end Sparse

namespace MMT

/-- `for i in 0..bit_vec.len()`, src/trees/mmt.rs:61-79. -/
def leafLoopC (v : BV) (bs ni : Nat) : Nat → LeafAcc → Counted LeafAcc
  | 0, st => pure st
  | n + 1, st => do
    let st ← leafLoopC v bs ni n st
    tick (leafStep v bs ni st n)

/-- `for i in 0..current_level_size`, src/trees/mmt.rs:89-106. -/
def levelLoopC (start : Nat) : Nat → List ExcessNode → Counted (List ExcessNode)
  | 0, nodes => pure nodes
  | n + 1, nodes => do
    let nodes ← levelLoopC start n nodes
    tick (levelStep start nodes n)

/-- The loop over the levels from the leaves to the root, src/trees/mmt.rs:88-115. -/
def levelsC : Nat → Nat → Nat → List ExcessNode → Counted (List ExcessNode)
  | 0, _, _, _ => free (.error .fuel)
  | fuel + 1, size, start, nodes => do
    let nodes ← levelLoopC start size nodes
    if size = 1 then pure nodes
    else do
      let start' ← free (subR start (size / 2))
      levelsC fuel (size / 2) start' nodes

/-- `excess_tree`, src/trees/mmt.rs:47-120. A node counts as a word. -/
def excessTreeC (lazy : Bool) (v : BV) (bs : Nat) (fl : Nat → Nat := log2Ceil) : Counted MMT :=
  if v.isEmpty then pure ⟨[]⟩
  else do
    let leaves ← free (divCeilR v.len bs)
    let ni := max 1 (2 ^ fl leaves - 1)
    let nodes ← words lazy (leaves + ni) (List.replicate (leaves + ni) ExcessNode.default)
    let st ← leafLoopC v bs ni v.len (LeafAcc.fresh nodes)
    let k ← free (subR (ni + leaves) 1)
    let nodes ← free (setIdx st.nodes k ⟨st.total, st.minE, st.maxE⟩)
    let size := max 1 (nextPow2 leaves / 2)
    let start ← free (subR ni size)
    let nodes ← levelsC (size + 1) size start nodes
    pure ⟨nodes⟩

end MMT

/-- `BpTree::from_bit_vector`, src/trees/bp/mod.rs:149-153. -/
def BpTree.fromBitVectorC (lazy : Bool) (bs : Nat) (v : BV) (fl : Nat → Nat := log2Ceil) : Counted BpTree := do
  let mmt ← MMT.excessTreeC lazy v bs fl
  let vec ← RsVec.fromBitVecC v
  pure ⟨vec, mmt⟩

end Vers
