import Verif.Model.BitVec
import Verif.Model.Pdep

/-!
# Model of src/bit_vec/fast_rs_vec: rank/select bit vector

The code has separate functions for 0-bits and 1-bits (and a const generic `ZERO`); the model merges
each pair into one definition with a parameter `zero`, keeping the two formulas side by side.
-/

namespace Vers

variable [Profile]

/-- `struct RsVec`, src/bit_vec/fast_rs_vec/mod.rs:93-102. Block descriptors and super block descriptors
are represented by their only field `zeros`, a select block by the pair `(index_0, index_1)`. -/
structure RsVec where
  data : List Word
  len : Nat
  blocks : List Nat
  supers : List Nat
  selects : List (Nat × Nat)
  rank0 : Nat
  rank1 : Nat
deriving DecidableEq, Repr

/-- `index_0` or `index_1`, src/bit_vec/fast_rs_vec/mod.rs:70-73. -/
def prj (zero : Bool) (e : Nat × Nat) : Nat := if zero then e.1 else e.2

/-- A select block with one index given and the other one 0, src/bit_vec/fast_rs_vec/mod.rs:162-165, 179-182, 199-202
and 209-212. -/
def mkSel (zero : Bool) (v : Nat) : Nat × Nat := if zero then (v, 0) else (0, v)

/-- Assignment to `index_0` or `index_1`, src/bit_vec/fast_rs_vec/mod.rs:167, 184, 205-206 and 215-216. -/
def updSel (zero : Bool) (e : Nat × Nat) (v : Nat) : Nat × Nat := if zero then (v, e.2) else (e.1, v)

namespace RsVec

/-- Local variables of `from_bit_vec`, src/bit_vec/fast_rs_vec/mod.rs:116-129. -/
structure Build where
  blocks : List Nat
  supers : List Nat
  selects : List (Nat × Nat)
  total : Nat
  current : Nat
  lastZero : Nat
  lastOne : Nat

/-- Initial values, src/bit_vec/fast_rs_vec/mod.rs:116-129. -/
def Build.init : Build := ⟨[], [], [(0, 0)], 0, 0, 0, 0⟩

/-- Super block descriptor, src/bit_vec/fast_rs_vec/mod.rs:135-139. -/
def pushSuper (st : Build) (i : Nat) : Build :=
  if i % 128 = 0 then
    { st with total := st.total + st.current, current := 0, supers := st.supers ++ [st.total + st.current] }
  else st

/-- Block and super block descriptors, src/bit_vec/fast_rs_vec/mod.rs:134-146 (`as u16` truncates). -/
def pushBlock (st : Build) (i : Nat) : Build :=
  if i % 8 = 0 then
    let st := pushSuper st i
    { st with blocks := st.blocks ++ [st.current % 65536] }
  else st

/-- `new_zeros`, src/bit_vec/fast_rs_vec/mod.rs:151-157. -/
def newZeros (len dlen i : Nat) (word : Word) : R Nat :=
  if i + 1 = dlen ∧ len % 64 ≠ 0 then
    subR (popcountZ word) (popcountZ (word ||| ((1#64 <<< (len % 64)) - 1#64)))
  else pure (popcountZ word)

/-- Push a select block or fill in the index of an existing one,
src/bit_vec/fast_rs_vec/mod.rs:161-168 (zeros) and 178-185 (ones). -/
def setSelect (zero : Bool) (selects : List (Nat × Nat)) (k v : Nat) : R (List (Nat × Nat)) :=
  if k = selects.length then pure (selects ++ [mkSel zero v])
  else do
    let e ← idx selects k
    setIdx selects k (updSel zero e v)

/-- src/bit_vec/fast_rs_vec/mod.rs:160-171 (zeros) and 175-188 (ones); `before`/`after` are the numbers
of bits before and after the current word. Returns the select blocks and the counter. -/
def selectStep (zero : Bool) (nsupers : Nat) (selects : List (Nat × Nat)) (last before after : Nat) :
    R (List (Nat × Nat) × Nat) :=
  if after / 8192 > before / 8192 then do
    let s ← subR nsupers 1
    let sel ← setSelect zero selects (after / 8192) s
    pure (sel, last + 1)
  else pure (selects, last)

/-- One iteration of the loop in `from_bit_vec`, src/bit_vec/fast_rs_vec/mod.rs:131-191. -/
def buildStep (len dlen : Nat) (st : Build) (i : Nat) (word : Word) : R Build := do
  let st := pushBlock st i
  let nz ← newZeros len dlen i word
  let allZeros := st.total + st.current + nz
  let p0 ← selectStep true st.supers.length st.selects st.lastZero (st.total + st.current) allZeros
  let allOnes ← subR ((i + 1) * 64) allZeros
  let prevOnes ← subR (i * 64) (st.total + st.current)
  let p1 ← selectStep false st.supers.length p0.1 st.lastOne prevOnes allOnes
  pure { st with selects := p1.1, lastZero := p0.2, lastOne := p1.2, current := st.current + nz }

/-- The loop of `from_bit_vec`, src/bit_vec/fast_rs_vec/mod.rs:131. -/
def buildLoop (len dlen : Nat) : Build → Nat → List Word → R Build
  | st, _, [] => pure st
  | st, i, w :: ws => do
    let st ← buildStep len dlen st i w
    buildLoop len dlen st (i + 1) ws

/-- The dummy select blocks, src/bit_vec/fast_rs_vec/mod.rs:198-207 (zeros) and 208-217 (ones). -/
def dummySelect (zero : Bool) (selects : List (Nat × Nat)) (last : Nat) : R (List (Nat × Nat)) := do
  let n ← subR selects.length 1
  if last = n then do
    let e ← idx selects last
    pure (selects ++ [mkSel zero (prj zero e)])
  else do
    let e1 ← idx selects (last + 1)
    dassertR (prj zero e1 = 0)
    let e ← idx selects last
    setIdx selects (last + 1) (updSel zero e1 (prj zero e))

/-- `RsVec::from_bit_vec`, src/bit_vec/fast_rs_vec/mod.rs:113-230. -/
def fromBitVec (v : BV) : R RsVec := do
  let st ← buildLoop v.len v.data.length Build.init 0 v.data
  let sel ← dummySelect true st.selects st.lastZero
  let sel ← dummySelect false sel st.lastOne
  let total := st.total + st.current
  let rank1 ← subR v.len total
  pure ⟨v.data, v.len, st.blocks, st.supers, sel, total, rank1⟩

/-- The popcount loop of `rank`, src/bit_vec/fast_rs_vec/mod.rs:294-300. -/
def rankWords (zero : Bool) (ws : List Word) : Nat :=
  (ws.map fun w => if zero then popcountZ w else popcount w).sum

/-- Bits of the searched kind before super block `s`: `super_blocks[s].zeros` or
`s * SUPER_BLOCK_SIZE - super_blocks[s].zeros`, e.g. src/bit_vec/fast_rs_vec/mod.rs:279-283. -/
def superBefore (rs : RsVec) (zero : Bool) (s : Nat) : R Nat := do
  let z ← idx rs.supers s
  if zero then pure z else subR (s * 8192) z

/-- Bits of the searched kind between the super block start and the block, as computed in `rank`,
src/bit_vec/fast_rs_vec/mod.rs:286-291. -/
def rankBlockBefore (rs : RsVec) (zero : Bool) (block : Nat) : R Nat := do
  let z ← idx rs.blocks block
  if zero then pure z else subR ((block % 16) * 512) z

/-- `rank`, src/bit_vec/fast_rs_vec/mod.rs:260-309 (`rank0` is `rank(true, _)`, `rank1` is
`rank(false, _)`). -/
def rank (rs : RsVec) (zero : Bool) (pos : Nat) : R Nat :=
  if pos ≥ rs.len then pure (if zero then rs.rank0 else rs.rank1)
  else do
    let index := pos / 64
    let block := pos / 512
    let a ← rs.superBefore zero (pos / 8192)
    let b ← rs.rankBlockBefore zero block
    let ws ← sliceR rs.data (block * 512 / 64) index
    let w ← idx rs.data index
    let m : Word := (1#64 <<< (pos % 64)) - 1#64
    pure (a + b + rankWords zero ws + popcount ((if zero then ~~~w else w) &&& m))

/-- `RsVec::get_unchecked`, src/bit_vec/fast_rs_vec/mod.rs:341-343. -/
def getUnchecked (rs : RsVec) (pos : Nat) : R Word := do
  let w ← idx rs.data (pos / 64)
  pure ((w >>> (pos % 64)) &&& 1#64)

/-- `RsVec::get`, src/bit_vec/fast_rs_vec/mod.rs:327-333. -/
def get (rs : RsVec) (pos : Nat) : R (Option Word) :=
  if pos ≥ rs.len then pure none
  else do
    let w ← rs.getUnchecked pos
    pure (some w)

/-- `RsVec::get_bits_unchecked`, src/bit_vec/fast_rs_vec/mod.rs:380-389 (same code as
`BitVec::get_bits_unchecked`). -/
def getBitsUnchecked (rs : RsVec) (pos n : Nat) : R Word := BV.getBitsRaw rs.data pos n

/-- `RsVec::get_bits`, src/bit_vec/fast_rs_vec/mod.rs:351-360. -/
def getBits (rs : RsVec) (pos n : Nat) : R (Option Word) :=
  if n > 64 then pure none
  else do
    let e ← addU pos n
    if e > rs.len then pure none
    else do
      let w ← rs.getBitsUnchecked pos n
      pure (some w)

/-- `RsVec::into_bit_vec`, src/bit_vec/fast_rs_vec/mod.rs:413-418. -/
def intoBitVec (rs : RsVec) : BV := ⟨rs.data, rs.len⟩

/-! ## select.rs -/

/-- The key compared in the binary search over super blocks: `super_blocks[middle].zeros`
(src/bit_vec/fast_rs_vec/select.rs:171) or `(middle + 1) * SUPER_BLOCK_SIZE -
super_blocks[middle].zeros` (select.rs:394). -/
def searchSuperKey (rs : RsVec) (zero : Bool) (middle : Nat) : R Nat := do
  let z ← idx rs.supers middle
  if zero then pure z else subR ((middle + 1) * 8192) z

/-- The binary search of `search_super_block0/1`, src/bit_vec/fast_rs_vec/select.rs:168-176 and
391-399. -/
def searchSuperBin (rs : RsVec) (zero : Bool) (rank : Nat) : Nat → Nat → Nat → R Nat
  | 0, _, _ => .error .fuel
  | fuel + 1, sb, upper => do
    let d ← subR upper sb
    if d > 8 then do
      let middle := sb + d / 2
      let z ← rs.searchSuperKey zero middle
      if z ≤ rank then searchSuperBin rs zero rank fuel middle upper
      else searchSuperBin rs zero rank fuel sb middle
    else pure sb

/-- The linear search of `search_super_block0/1`, src/bit_vec/fast_rs_vec/select.rs:179-183 and
401-406. -/
def searchSuperLin (rs : RsVec) (zero : Bool) (rank : Nat) : Nat → Nat → R Nat
  | 0, _ => .error .fuel
  | fuel + 1, sb =>
    if rs.supers.length > sb + 1 then do
      let z ← rs.superBefore zero (sb + 1)
      if z ≤ rank then searchSuperLin rs zero rank fuel (sb + 1) else pure sb
    else pure sb

/-- `search_super_block0/1`, src/bit_vec/fast_rs_vec/select.rs:165-186 and 387-409. `budget` bounds the
number of times the condition of each of the two loops is evaluated; the default is large enough for every
query (C13). It is a parameter because of the time bounds (C60). -/
def searchSuper (rs : RsVec) (zero : Bool) (sb rank : Nat) (budget : Nat := rs.supers.length + 1) :
    R Nat := do
  let e ← idx rs.selects (rank / 8192 + 1)
  let sb ← rs.searchSuperBin zero rank budget sb (prj zero e)
  rs.searchSuperLin zero rank budget sb

/-- Bits of the searched kind between the start of the super block (`base` = its first block) and
block `j`: `blocks[j].zeros` or `(j - base) * BLOCK_SIZE - blocks[j].zeros`, e.g.
src/bit_vec/fast_rs_vec/select.rs:114 and 336. -/
def blockBefore (rs : RsVec) (zero : Bool) (base j : Nat) : R Nat := do
  let z ← idx rs.blocks j
  if zero then pure z else do
    let d ← subR j base
    subR (d * 512) z

/-- The unrolled binary search of `search_block0/1_naive`, src/bit_vec/fast_rs_vec/select.rs:111-117 and
333-339, for the given list of boundaries. -/
def searchBlockStep (rs : RsVec) (zero : Bool) (rank base : Nat) : Nat → List Nat → R Nat
  | j, [] => pure j
  | j, b :: bs =>
    if rs.blocks.length > j + b then do
      let z ← rs.blockBefore zero base (j + b)
      if rank ≥ z then searchBlockStep rs zero rank base (j + b) bs
      else searchBlockStep rs zero rank base j bs
    else searchBlockStep rs zero rank base j bs

/-- `search_block0/1_naive`, src/bit_vec/fast_rs_vec/select.rs:101-118 and 318-340. -/
def searchBlock (rs : RsVec) (zero : Bool) (rank base : Nat) : R Nat :=
  rs.searchBlockStep zero rank base base [8, 4, 2, 1]

/-- The 7 unrolled steps and the last word of `search_word_in_block0/1`,
src/bit_vec/fast_rs_vec/select.rs:135-155 and 357-377. `n` is the index of the word within the block. -/
def searchWordStep (rs : RsVec) (zero : Bool) (block : Nat) : Nat → Nat → Nat → R Nat
  | 0, n, rank => do
    let w ← idx rs.data (block * 512 / 64 + n)
    let p ← selectInWord rank (if zero then ~~~w else w)
    pure (block * 512 + 64 * n + p)
  | steps + 1, n, rank => do
    let w ← idx rs.data (block * 512 / 64 + n)
    let c := if zero then popcountZ w else popcount w
    if c ≤ rank then searchWordStep rs zero block steps (n + 1) (rank - c)
    else do
      let p ← selectInWord rank (if zero then ~~~w else w)
      pure (block * 512 + 64 * n + p)

/-- `search_word_in_block0/1`, src/bit_vec/fast_rs_vec/select.rs:129-155 and 351-377. -/
def searchWord (rs : RsVec) (zero : Bool) (rank block : Nat) : R Nat :=
  rs.searchWordStep zero block 7 0 rank

/-- The hint and super block search of `select0/1`, src/bit_vec/fast_rs_vec/select.rs:25-31 and
200-208. -/
def selectSuper (rs : RsVec) (zero : Bool) (rank : Nat) (budget : Nat := rs.supers.length + 1) :
    R Nat := do
  let e ← idx rs.selects (rank / 8192)
  let sb := prj zero e
  if rs.supers.length > sb + 1 then do
    let z ← rs.superBefore zero (sb + 1)
    if z ≤ rank then rs.searchSuper zero sb rank budget else pure sb
  else pure sb

/-- `select0` / `select1`, src/bit_vec/fast_rs_vec/select.rs:20-41 and 195-222. `budget` bounds the loops of
the search over super blocks, the only loops that are not unrolled. -/
def select (rs : RsVec) (zero : Bool) (rank : Nat) (budget : Nat := rs.supers.length + 1) : R Nat :=
  if rank ≥ (if zero then rs.rank0 else rs.rank1) then pure rs.len
  else do
    let sb ← rs.selectSuper zero rank budget
    let z ← rs.superBefore zero sb
    let rank ← subR rank z
    let block ← rs.searchBlock zero rank (sb * 16)
    let z ← rs.blockBefore zero (sb * 16) block
    let rank ← subR rank z
    rs.searchWord zero rank block

/-! ## the SIMD variants of the block search -/

/-- `_mm256_loadu_epi16(self.blocks[block_index..].as_ptr())`, src/bit_vec/fast_rs_vec/select.rs:70 and 279: the slice is
checked, the load of 16 descriptors from its start is not. -/
def loadBlocks (blocks : List Nat) (base : Nat) : R (List Nat) := do
  let bs ← sliceR blocks base blocks.length
  if bs.length < 16 then .error .ub else pure (bs.take 16)

/-- The `simd` version of `search_block0/1`, src/bit_vec/fast_rs_vec/select.rs:59-83 and 241-294: all 16
block descriptors are compared at once (as `u16`), and the number of blocks not greater than the rank
determines the block. `rank as i16` and the subtraction wrap modulo 2^16; the vector comparison is
unsigned. Without a debug assertion `*block_index += count_zeros - 1` wraps twice if all descriptors are
greater, and so yields the block before, or `usize::MAX` for the block 0. -/
def searchBlockSimd (rs : RsVec) (zero : Bool) (rank base : Nat) : R Nat :=
  if rs.blocks.length > base + 16 then do
    let bs ← loadBlocks rs.blocks base
    let keys := (List.range 16).map fun i =>
      let z : BitVec 16 := BitVec.ofNat 16 (bs[i]?.getD 0)
      if zero then z else BitVec.ofNat 16 (i * 512) - z
    let notGreater := (keys.filter fun k => !decide ((BitVec.ofNat 16 rank).ult k)).length
    dassertR (notGreater > 0)
    pure (if base + notGreater = 0 then 2 ^ 64 - 1 else base + notGreater - 1)
  else rs.searchBlock zero rank base

/-- `select0` / `select1` as compiled with the `simd` feature and AVX-512,
src/bit_vec/fast_rs_vec/select.rs:20-41 and 195-222. -/
def selectSimd (rs : RsVec) (zero : Bool) (rank : Nat) : R Nat :=
  if rank ≥ (if zero then rs.rank0 else rs.rank1) then pure rs.len
  else do
    let sb ← rs.selectSuper zero rank
    let z ← rs.superBefore zero sb
    let rank ← subR rank z
    let block ← rs.searchBlockSimd zero rank (sb * 16)
    let z ← rs.blockBefore zero (sb * 16) block
    let rank ← subR rank z
    rs.searchWord zero rank block

end RsVec
end Vers
