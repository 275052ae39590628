import Verif.Model.Rmq
import Verif.Model.WaveletSteps

/-!
# The constructors of the range minimum structures and of the wavelet matrix with a step counter

The definitions of `Model/Rmq.lean`, `Model/RsVec.lean` and `Model/Wavelet.lean` again, with a counter: one step for each
iteration of an innermost loop (all operations in them take constant time) and one step for each word of a new vector. The
words of a vector of zeros are not counted if `lazy` is true, because an allocator can provide zeroed memory without
writing to it. The theorems of C76 contain that the results are those of the definitions without counter.
-/

namespace Vers

variable [Profile]
open Counted

namespace Counted

/-- A new vector with `n` words, e.g. src/wavelet/mod.rs:97; `lazy` is only true for zeros. -/
def words {α : Type} (lazy : Bool) (n : Nat) (a : α) : Counted α := ⟨if lazy then 0 else n, .ok a⟩

end Counted

namespace RsVec

/-- The loop of `from_bit_vec` over the words, src/bit_vec/fast_rs_vec/mod.rs:131-191. -/
def buildLoopC (len dlen : Nat) : Build → Nat → List Word → Counted Build
  | st, _, [] => pure st
  | st, i, w :: ws => do
    let st ← tick (buildStep len dlen st i w)
    buildLoopC len dlen st (i + 1) ws

/-- `RsVec::from_bit_vec`, src/bit_vec/fast_rs_vec/mod.rs:113-230. -/
def fromBitVecC (v : BV) : Counted RsVec := do
  let st ← buildLoopC v.len v.data.length Build.init 0 v.data
  let sel ← tick (dummySelect true st.selects st.lastZero)
  let sel ← tick (dummySelect false sel st.lastOne)
  let total := st.total + st.current
  let rank1 ← free (subR v.len total)
  pure ⟨v.data, v.len, st.blocks, st.supers, sel, total, rank1⟩

end RsVec

namespace BinRmq

/-- The inner loop for `j` in `0..n`, src/rmq/binary_rmq/mod.rs:71-103 -/
def innerC (data : List Word) (rl i : Nat) : Nat → List Nat → Counted (List Nat)
  | 0, res => pure res
  | n + 1, res => do
    let res ← innerC data rl i n res
    tick (step data rl i n res)

/-- The outer loop for `i` in `0..n`, src/rmq/binary_rmq/mod.rs:69-104 -/
def outerC (data : List Word) (rl : Nat) : Nat → List Nat → Counted (List Nat)
  | 0, res => pure res
  | n + 1, res => do
    let res ← outerC data rl n res
    innerC data rl n data.length res

/-- The loop that initializes the first column, src/rmq/binary_rmq/mod.rs:63-65 -/
def initColC (rl : Nat) : Nat → List Nat → Counted (List Nat)
  | 0, res => pure res
  | n + 1, res => do
    let res ← initColC rl n res
    tick (setIdx res (n * rl) 0)

/-- `from_vec`, src/rmq/binary_rmq/mod.rs:48-107 -/
def fromVecC (lazy : Bool) (data : List Word) : Counted BinRmq := do
  let _ ← free (assertR (data.length < 2 ^ 32))
  let rl := log2Ceil data.length + 1
  let res ← words lazy (data.length * rl) (List.replicate (data.length * rl) 0)
  let res ← initColC rl data.length res
  let res ← outerC data rl (log2Ceil data.length) res
  pure ⟨data, res⟩

end BinRmq

namespace FastRmq

/-- The loop over `block.iter().enumerate().skip(1)`, src/rmq/fast_rmq/mod.rs:115-128 -/
def preLoopC (block : List Word) : Nat → PreState → Counted PreState
  | 0, s => pure s
  | n + 1, s => do
    let s ← preLoopC block n s
    let elem ← tick (idx block (n + 1))
    let s ← free (preBits s (n + 1) elem)
    pure (preMinimum s (n + 1) elem)

/-- The loop for `i` in `2..n + 2`, src/rmq/fast_rmq/mod.rs:132-138 -/
def sufLoopC (block : List Word) : Nat → SmallBV × Word → Counted (SmallBV × Word)
  | 0, s => pure s
  | n + 1, s => do
    let s ← sufLoopC block n s
    let p ← tick (subR block.length (n + 2))
    let x ← free (idx block p)
    if x < s.2 then pure (s.1, x)
    else do
      let b ← free (s.1.setBit (n + 1))
      pure (b, s.2)

/-- The closure applied to every block, src/rmq/fast_rmq/mod.rs:107-146; one step for the three values pushed. -/
def mkBlockC (block : List Word) : Counted (Word × Nat × RmqBlock) := do
  let x ← tick (idx block 0)
  let p ← preLoopC block (block.length - 1) ⟨0#128, x, x, 0⟩
  let l ← free (subR block.length 1)
  let y ← free (idx block l)
  let s ← sufLoopC block (block.length - 1) (0#128, y)
  pure (p.blockMin, p.blockIdx, ⟨p.bits, s.1⟩)

/-- `for_each` over the first `n` chunks, src/rmq/fast_rmq/mod.rs:107-146 -/
def mkBlocksC (data : List Word) : Nat → Counted (List (Word × Nat × RmqBlock))
  | 0 => pure []
  | n + 1 => do
    let bs ← mkBlocksC data n
    let b ← mkBlockC (chunk data n)
    pure (bs ++ [b])

/-- `from_vec`, src/rmq/fast_rmq/mod.rs:100-154 -/
def fromVecC (lazy : Bool) (data : List Word) : Counted FastRmq := do
  let _ ← free (assertR (data.length < 2 ^ 40))
  let bs ← mkBlocksC data ((data.length + 127) / 128)
  let bm ← BinRmq.fromVecC lazy (bs.map (·.1))
  pure ⟨data, bm, bs.map (·.2.1), bs.map (·.2.2)⟩

end FastRmq

namespace WM

/-- `BitVec::from_zeros`, called in src/wavelet/mod.rs:95,193 -/
def zerosC (lazy : Bool) (n : Nat) : Counted BV := words lazy ((n + 63) / 64) (BV.fromZeros n)

/-- The first loop of a level, src/wavelet/mod.rs:101-108 -/
def fillBitsC (lookup : Nat → R Word) : List Nat → Nat → Nat → BV → Counted (Nat × BV)
  | [], _, z, v => pure (z, v)
  | p :: ps, i, z, v => do
    let b ← tick (lookup p)
    if b = 0#64 then fillBitsC lookup ps (i + 1) (z + 1) v
    else do
      let o ← free (v.set i 1#64)
      let v ← free (unwrapR o)
      fillBitsC lookup ps (i + 1) z v

/-- The second loop of a level, src/wavelet/mod.rs:113-123 -/
def splitPermC (v : BV) : List Nat → Nat → Nat → Nat → List Nat → Counted (List Nat)
  | [], _, _, _, next => pure next
  | p :: ps, i, zb, ob, next => do
    let b ← tick (v.getUnchecked i)
    if b = 0#64 then do
      let next ← free (setIdx next zb p)
      splitPermC v ps (i + 1) (zb + 1) ob next
    else do
      let next ← free (setIdx next ob p)
      splitPermC v ps (i + 1) zb (ob + 1) next

/-- The loop over the levels, src/wavelet/mod.rs:100-127 -/
def sortLevelsC (lazy : Bool) (k n : Nat) (lookup : Nat → Nat → R Word) :
    Nat → Nat → List Nat → List Nat → Counted (List BV)
  | 0, _, _, _ => pure []
  | r + 1, level, perm, next => do
    let v ← zerosC lazy n
    let zv ← fillBitsC (fun p => lookup p (k - level - 1)) perm 0 0 v
    if level < k - 1 then do
      let next ← splitPermC zv.2 perm 0 0 zv.1 next
      let rest ← sortLevelsC lazy k n lookup r (level + 1) next perm
      pure (zv.2 :: rest)
    else do
      let rest ← sortLevelsC lazy k n lookup r (level + 1) perm next
      pure (zv.2 :: rest)

/-- `data.into_iter().map(BitVec::into).collect()`, src/wavelet/mod.rs:130,226 -/
def buildAllC : List BV → Counted (List RsVec)
  | [] => pure []
  | v :: vs => do
    let rs ← RsVec.fromBitVecC v
    let rest ← buildAllC vs
    pure (rs :: rest)

/-- `permutation_sorting`, src/wavelet/mod.rs:85-132 -/
def permutationSortingC (lazy : Bool) (k n : Nat) (lookup : Nat → Nat → R Word) : Counted WM := do
  let perm ← words false n (List.range n)
  let next ← words lazy n (List.replicate n 0)
  let vs ← sortLevelsC lazy k n lookup k 0 perm next
  let data ← buildAllC vs
  pure ⟨data⟩

/-- `from_bit_vec`, src/wavelet/mod.rs:146-152 -/
def fromBitVecC (lazy : Bool) (v : BV) (k : Nat) : Counted WM := do
  let _ ← free (checkMultiple v.len k)
  permutationSortingC lazy k (v.len / k) (bvLookup v k)

/-- `from_slice`, src/wavelet/mod.rs:164-172 -/
def fromSliceC (lazy : Bool) (seq : List Word) (k : Nat) : Counted WM := do
  let _ ← free (assertR (k ≤ 64))
  permutationSortingC lazy k seq.length (sliceLookup seq)

/-- The first loop of `prefix_counting`, src/wavelet/mod.rs:195-198 -/
def countLoopC (k : Nat) (lookup : Nat → Nat → R Word) (elem : Nat → R Word) :
    Nat → List Nat × BV → Counted (List Nat × BV)
  | 0, s => pure s
  | i + 1, s => do
    let s ← countLoopC k lookup elem i s
    let x ← tick (elem i)
    let c ← free (idx s.1 x.toNat)
    let hist ← free (setIdx s.1 x.toNat (c + 1))
    let _ ← free (firstLevel k)
    let b ← free (lookup i (k - 1))
    let v ← free (s.2.setUnchecked i b)
    pure (hist, v)

/-- The loop that combines the histogram, src/wavelet/mod.rs:202-204 -/
def histLoopC : Nat → List Nat → Counted (List Nat)
  | 0, hist => pure hist
  | n + 1, hist => do
    let hist ← histLoopC n hist
    let a ← tick (idx hist (2 * n))
    let b ← free (idx hist (2 * n + 1))
    free (setIdx hist n (a + b))

/-- The loop over the borders, src/wavelet/mod.rs:209-213 -/
def borderLoopC (level : Nat) (hist : List Nat) : Nat → List Nat → Counted (List Nat)
  | 0, borders => pure borders
  | n + 1, borders => do
    let borders ← borderLoopC level hist n borders
    let b ← tick (idx borders (revBits level n))
    let c ← free (idx hist (revBits level n))
    free (setIdx borders (revBits level (n + 1)) (b + c))

/-- The loop that distributes the bits, src/wavelet/mod.rs:215-222 -/
def placeLoopC (k level : Nat) (lookup : Nat → Nat → R Word) (elem : Nat → R Word) :
    Nat → List Nat × BV → Counted (List Nat × BV)
  | 0, s => pure s
  | i + 1, s => do
    let s ← placeLoopC k level lookup elem i s
    let bit ← tick (lookup i (k - level - 1))
    let x ← free (elem i)
    let q ← free (idx s.1 (x.toNat >>> (k - level)))
    let v ← free (s.2.setUnchecked q bit)
    let borders ← free (setIdx s.1 (x.toNat >>> (k - level)) (q + 1))
    pure (borders, v)

/-- The loop over the levels, src/wavelet/mod.rs:200-223 -/
def pcLevelsC (lazy : Bool) (k n : Nat) (lookup : Nat → Nat → R Word) (elem : Nat → R Word) :
    Nat → List Nat → List Nat → List BV → Counted (List BV)
  | 0, _, _, acc => pure acc
  | l + 1, hist, borders, acc => do
    let hist ← histLoopC (2 ^ (l + 1)) hist
    let borders ← free (setIdx borders 0 0)
    let borders ← borderLoopC (l + 1) hist (2 ^ (l + 1) - 1) borders
    let v ← zerosC lazy n
    let s ← placeLoopC k (l + 1) lookup elem n (borders, v)
    pcLevelsC lazy k n lookup elem l hist s.1 (s.2 :: acc)

/-- `prefix_counting`, src/wavelet/mod.rs:184-228 -/
def prefixCountingC (lazy : Bool) (k n : Nat) (lookup : Nat → Nat → R Word) (elem : Nat → R Word) : Counted WM := do
  let size ← free (if k < 64 then .ok (2 ^ k) else wrapR (2 ^ (k % 64)) : R Nat)
  let hist ← words lazy size (List.replicate size 0)
  let borders ← words lazy size (List.replicate size 0)
  let v ← zerosC lazy n
  let s ← countLoopC k lookup elem n (hist, v)
  let vs ← pcLevelsC lazy k n lookup elem (k - 1) s.1 borders []
  let data ← buildAllC ((s.2 :: vs).take k)
  pure ⟨data⟩

/-- `from_bit_vec_pc`, src/wavelet/mod.rs:249-267 -/
def fromBitVecPcC (lazy : Bool) (v : BV) (k : Nat) : Counted WM := do
  let _ ← free (checkMultiple v.len k)
  let _ ← free (assertR (k ≤ 64))
  prefixCountingC lazy k (v.len / k) (bvLookup v k) (fun e => v.getBitsUnchecked (e * k) k)

/-- `from_slice_pc`, src/wavelet/mod.rs:285-296 -/
def fromSlicePcC (lazy : Bool) (seq : List Word) (k : Nat) : Counted WM := do
  let _ ← free (assertR (k ≤ 64))
  prefixCountingC lazy k seq.length (sliceLookup seq) (idx seq)

end WM

end Vers
