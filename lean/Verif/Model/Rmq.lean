import Verif.Model.Pdep

/-!
# Model of src/rmq/binary_rmq/mod.rs and src/rmq/fast_rmq/mod.rs

The contents of `u32` and `u8` tables are natural numbers; the narrowing casts are modelled as remainders.
`heap_size` is in `Model/Space.lean`, the `Deref` and `From` wrappers are in `Model/Convert.lean`.
-/

namespace Vers

variable [Profile]

/-- `len.next_power_of_two().trailing_zeros()`, src/rmq/binary_rmq/mod.rs:57,69,150: the least `k` with
`len <= 2^k`. -/
def log2Ceil (n : Nat) : Nat := if n ≤ 1 then 0 else Nat.log2 (n - 1) + 1

/-- `std::cmp::min_by(a, b, |a, b| data[a].cmp(&data[b]))`: `a` unless `data[a] > data[b]`; used in
src/rmq/binary_rmq/mod.rs:155-159 and src/rmq/fast_rmq/mod.rs:258-268. -/
def minBy (data : List Word) (a b : Nat) : R Nat := do
  let x ← idx data a
  let y ← idx data b
  if x ≤ y then pure a else pure b

/-- `std::ops::Bound<usize>`, src/rmq/binary_rmq/mod.rs:125-136. -/
inductive Bnd where
  | included (i : Nat)
  | excluded (i : Nat)
  | unbounded
deriving DecidableEq, Repr

/-- `BinaryRmq`, src/rmq/binary_rmq/mod.rs:32-39 -/
structure BinRmq where
  data : List Word
  results : List Nat
deriving DecidableEq, Repr

namespace BinRmq

/-- `results[row * row_length + col] as usize + row`, src/rmq/binary_rmq/mod.rs:75-80. The index only exceeds the word
size if `row` exceeds the length of the data, and then the access to the data by the result panics in both builds. -/
def cell (res : List Nat) (rl row col : Nat) : R Nat := do
  let r ← idx res (row * rl + col)
  pure (r + row)

/-- The branch `data.len() - offset - 1 > j`, src/rmq/binary_rmq/mod.rs:84-92; `m` is
`data.len() - offset - 1`. -/
def argMinTail (data : List Word) (res : List Nat) (rl i j m : Nat) : R Nat := do
  let a ← cell res rl j i
  let x ← idx data a
  let p ← subR (m * rl + i) 1
  let r ← idx res p
  let y ← idx data (r + m)
  if x < y then pure a else pure (r + m)

/-- The branch `j + offset < data.len()`, src/rmq/binary_rmq/mod.rs:75-81 -/
def argMinHead (data : List Word) (res : List Nat) (rl i j : Nat) : R Nat := do
  let a ← cell res rl j i
  let x ← idx data a
  let b ← cell res rl (j + 2 ^ i) i
  let y ← idx data b
  if x < y then pure a else pure b

/-- `arg_min`, src/rmq/binary_rmq/mod.rs:72-96 -/
def argMin (data : List Word) (res : List Nat) (rl i j : Nat) : R Nat :=
  if j + 2 ^ i < data.length then argMinHead data res rl i j
  else do
    let m ← subR data.length (2 ^ i)
    let m ← subR m 1
    if m > j then argMinTail data res rl i j m else pure j

/-- One iteration of the inner loop, src/rmq/binary_rmq/mod.rs:71-103 -/
def step (data : List Word) (rl i j : Nat) (res : List Nat) : R (List Nat) := do
  let a ← argMin data res rl i j
  let d ← subR a j
  setIdx res (j * rl + i + 1) (d % 2 ^ 32)

/-- The inner loop for `j` in `0..n`, src/rmq/binary_rmq/mod.rs:71-103 -/
def inner (data : List Word) (rl i : Nat) : Nat → List Nat → R (List Nat)
  | 0, res => pure res
  | n + 1, res => do
    let res ← inner data rl i n res
    step data rl i n res

/-- The outer loop for `i` in `0..n`, src/rmq/binary_rmq/mod.rs:69-104 -/
def outer (data : List Word) (rl : Nat) : Nat → List Nat → R (List Nat)
  | 0, res => pure res
  | n + 1, res => do
    let res ← outer data rl n res
    inner data rl n data.length res

/-- The loop that initializes the first column, src/rmq/binary_rmq/mod.rs:63-65 -/
def initCol (rl : Nat) : Nat → List Nat → R (List Nat)
  | 0, res => pure res
  | n + 1, res => do
    let res ← initCol rl n res
    setIdx res (n * rl) 0

/-- `from_vec`, src/rmq/binary_rmq/mod.rs:48-107 -/
def fromVec (data : List Word) : R BinRmq := do
  assertR (data.length < 2 ^ 32)
  let rl := log2Ceil data.length + 1
  let res ← initCol rl data.length (List.replicate (data.length * rl) 0)
  let res ← outer data rl (log2Ceil data.length) res
  pure ⟨data, res⟩

/-- `range_min`, src/rmq/binary_rmq/mod.rs:149-160. `Nat.log2` is
`(usize::BITS - x.leading_zeros()).saturating_sub(1)`. -/
def rangeMin (s : BinRmq) (i j : Nat) : R Nat := do
  let rl := log2Ceil s.data.length + 1
  let d ← subR j i
  let k := Nat.log2 d
  let a ← cell s.results rl i k
  let p ← subR j (2 ^ k - 1)
  let b ← cell s.results rl p k
  minBy s.data a b

end BinRmq

/-- The start of the clamped range, src/rmq/binary_rmq/mod.rs:125-130 and src/rmq/fast_rmq/mod.rs:172-177.
The computation of `i + 1` is checked against the 64 bit word size. -/
def startBound (len : Nat) (b : Bnd) : R Nat := do
  let s ← (match b with
    | .included i => pure i
    | .excluded i => addU i 1
    | .unbounded => pure 0)
  let l ← subR len 1
  pure (min s l)

/-- The end of the clamped range, src/rmq/binary_rmq/mod.rs:132-137 and src/rmq/fast_rmq/mod.rs:179-184 -/
def endBound (len : Nat) (b : Bnd) : R Nat := do
  let s ← (match b with
    | .included i => pure i
    | .excluded i => subR i 1
    | .unbounded => subR len 1)
  let l ← subR len 1
  pure (min s l)

/-- `BinaryRmq::range_min_with_range`, src/rmq/binary_rmq/mod.rs:124-139 -/
def BinRmq.rangeMinWithRange (s : BinRmq) (a b : Bnd) : R Nat := do
  let i ← startBound s.data.length a
  let j ← endBound s.data.length b
  s.rangeMin i j

/-- `SmallBitVector(u128)`, src/rmq/fast_rmq/mod.rs:22 -/
abbrev SmallBV := BitVec 128

namespace SmallBV

/-- `rank0`, src/rmq/fast_rmq/mod.rs:28-32. `checked_shl` yields `None`, hence 0, for a shift by 128. -/
def rank0 (v : SmallBV) (i : Nat) : R Nat := do
  dassertR (i ≤ 128)
  let mask : BitVec 128 := (if i < 128 then 1#128 <<< i else 0#128) - 1#128
  pure (cnt (~~~v &&& mask).getLsbD 128)

/-- `select0`, src/rmq/fast_rmq/mod.rs:34-43 -/
def select0 (v : SmallBV) (rank : Nat) : R Nat :=
  let word : Word := (v &&& 0xFFFFFFFFFFFFFFFF#128).setWidth 64
  if popcountZ word ≤ rank then do
    let high : Word := (v >>> 64).setWidth 64
    let p ← selectInWord ((rank - popcountZ word) % 64) (~~~high)
    pure (64 + p)
  else selectInWord rank (~~~word)

/-- `set_bit`, src/rmq/fast_rmq/mod.rs:45-49. The shift by 128 overflows. -/
def setBit (v : SmallBV) (i : Nat) : R SmallBV := do
  dassertR (i ≤ 128)
  if i < 128 then pure (v ||| (1#128 <<< i)) else wrapR (v ||| (1#128 <<< (i % 128)))

end SmallBV

/-- `Block`, src/rmq/fast_rmq/mod.rs:60-63 -/
structure RmqBlock where
  pre : SmallBV
  suf : SmallBV
deriving DecidableEq, Repr

/-- `FastRmq`, src/rmq/fast_rmq/mod.rs:85-90 -/
structure FastRmq where
  data : List Word
  blockMinima : BinRmq
  blockMinIndices : List Nat
  blocks : List RmqBlock
deriving DecidableEq, Repr

namespace FastRmq

/-- The local variables of the first loop over a block, src/rmq/fast_rmq/mod.rs:108-113 -/
structure PreState where
  bits : SmallBV
  preMin : Word
  blockMin : Word
  blockIdx : Nat
deriving DecidableEq, Repr

/-- Update of the prefix minimum, src/rmq/fast_rmq/mod.rs:116-120 -/
def preBits (s : PreState) (i : Nat) (elem : Word) : R PreState :=
  if elem < s.preMin then pure { s with preMin := elem }
  else do
    let b ← s.bits.setBit i
    pure { s with bits := b }

/-- Update of the block minimum, src/rmq/fast_rmq/mod.rs:124-127 -/
def preMinimum (s : PreState) (i : Nat) (elem : Word) : PreState :=
  if elem < s.blockMin then { s with blockMin := elem, blockIdx := i % 256 } else s

/-- The loop over `block.iter().enumerate().skip(1)` for indices below `n + 1`,
src/rmq/fast_rmq/mod.rs:115-128 -/
def preLoop (block : List Word) : Nat → PreState → R PreState
  | 0, s => pure s
  | n + 1, s => do
    let s ← preLoop block n s
    let elem ← idx block (n + 1)
    let s ← preBits s (n + 1) elem
    pure (preMinimum s (n + 1) elem)

/-- The loop for `i` in `2..n + 2`, src/rmq/fast_rmq/mod.rs:132-138. The state is
`(suffix_minima, suffix_minimum)`. -/
def sufLoop (block : List Word) : Nat → SmallBV × Word → R (SmallBV × Word)
  | 0, s => pure s
  | n + 1, s => do
    let s ← sufLoop block n s
    let p ← subR block.length (n + 2)
    let x ← idx block p
    if x < s.2 then pure (s.1, x)
    else do
      let b ← s.1.setBit (n + 1)
      pure (b, s.2)

/-- The closure applied to every block, src/rmq/fast_rmq/mod.rs:107-146: the pushed block minimum, its
index, and the block. -/
def mkBlock (block : List Word) : R (Word × Nat × RmqBlock) := do
  let x ← idx block 0
  let p ← preLoop block (block.length - 1) ⟨0#128, x, x, 0⟩
  let l ← subR block.length 1
  let y ← idx block l
  let s ← sufLoop block (block.length - 1) (0#128, y)
  pure (p.blockMin, p.blockIdx, ⟨p.bits, s.1⟩)

/-- `data.chunks(BLOCK_SIZE)`, src/rmq/fast_rmq/mod.rs:107; the `b`-th chunk is
`data[128 b .. min(128 (b + 1), len)]`. -/
def chunk (data : List Word) (b : Nat) : List Word := (data.drop (b * 128)).take 128

/-- `for_each` over the first `n` chunks, src/rmq/fast_rmq/mod.rs:107-146 -/
def mkBlocks (data : List Word) : Nat → R (List (Word × Nat × RmqBlock))
  | 0 => pure []
  | n + 1 => do
    let bs ← mkBlocks data n
    let b ← mkBlock (chunk data n)
    pure (bs ++ [b])

/-- `from_vec`, src/rmq/fast_rmq/mod.rs:100-154; `chunks` yields `ceil(len / 128)` chunks. -/
def fromVec (data : List Word) : R FastRmq := do
  assertR (data.length < 2 ^ 40)
  let bs ← mkBlocks data ((data.length + 127) / 128)
  let bm ← BinRmq.fromVec (bs.map (·.1))
  pure ⟨data, bm, bs.map (·.2.1), bs.map (·.2.2)⟩

/-- `slice.iter().enumerate().min_by_key(|(_, &x)| x)`: the first minimum; `i` is the next index and
`best` the minimum so far. Helper of src/rmq/fast_rmq/mod.rs:229-233. -/
def minByKey : List Word → Nat → Option (Nat × Word) → Option Nat
  | [], _, best => best.map (·.1)
  | x :: xs, i, none => minByKey xs (i + 1) (some (i, x))
  | x :: xs, i, some (k, y) => minByKey xs (i + 1) (if x < y then some (i, x) else some (k, y))

/-- The linear scan, src/rmq/fast_rmq/mod.rs:229-234 -/
def scan (s : FastRmq) (i j : Nat) : R Nat := do
  let sl ← sliceR s.data i (j + 1)
  let k ← unwrapR (minByKey sl 0 none)
  pure (i + k)

/-- The suffix part of a query in one block, src/rmq/fast_rmq/mod.rs:215-234 -/
def inBlockSuffix (s : FastRmq) (i j : Nat) (b : RmqBlock) : R Nat := do
  let ri ← b.suf.rank0 (128 - i % 128)
  let rj ← b.suf.rank0 (128 - j % 128)
  if rj > ri then do
    let p ← b.suf.select0 (rj - 1)
    subR ((i / 128 + 1) * 128) p
  else s.scan i j

/-- A query in one block, src/rmq/fast_rmq/mod.rs:204-235 -/
def inBlock (s : FastRmq) (i j : Nat) : R Nat := do
  let b ← idx s.blocks (i / 128)
  let ri ← b.pre.rank0 (i % 128 + 1)
  let rj ← b.pre.rank0 (j % 128 + 1)
  if rj > ri then do
    let p ← b.pre.select0 (rj - 1)
    pure (i / 128 * 128 + p)
  else s.inBlockSuffix i j b

/-- `partial_block_i_min`, src/rmq/fast_rmq/mod.rs:237-244 -/
def leftMin (s : FastRmq) (i : Nat) : R Nat := do
  let b ← idx s.blocks (i / 128)
  let r ← b.suf.rank0 (128 - i % 128)
  let r ← subR r 1
  let p ← b.suf.select0 r
  let q ← subR ((i / 128 + 1) * 128) p
  subR q 1

/-- `partial_block_j_min`, src/rmq/fast_rmq/mod.rs:246-249 -/
def rightMin (s : FastRmq) (j : Nat) : R Nat := do
  let b ← idx s.blocks (j / 128)
  let r ← b.pre.rank0 (j % 128 + 1)
  let r ← subR r 1
  let p ← b.pre.select0 r
  pure (j / 128 * 128 + p)

/-- `min_block_index`, src/rmq/fast_rmq/mod.rs:254-256 -/
def middleMin (s : FastRmq) (bi bj : Nat) : R Nat := do
  let m ← s.blockMinima.rangeMin (bi + 1) (bj - 1)
  let k ← idx s.blockMinIndices m
  pure (m * 128 + k)

/-- `range_min`, src/rmq/fast_rmq/mod.rs:199-270 -/
def rangeMin (s : FastRmq) (i j : Nat) : R Nat :=
  if i / 128 = j / 128 then s.inBlock i j
  else do
    let a ← s.leftMin i
    let b ← s.rightMin j
    if i / 128 + 1 < j / 128 then do
      let c ← s.middleMin (i / 128) (j / 128)
      let ab ← minBy s.data a b
      minBy s.data ab c
    else minBy s.data a b

/-- `range_min_with_range`, src/rmq/fast_rmq/mod.rs:171-186 -/
def rangeMinWithRange (s : FastRmq) (a b : Bnd) : R Nat := do
  let i ← startBound s.data.length a
  let j ← endBound s.data.length b
  s.rangeMin i j

end FastRmq

end Vers
