import Verif.Model.RsIter
import Verif.Model.GenIter

/-!
# Model of src/elias_fano/mod.rs

The floating point computations `(x as f64).log2().ceil() as usize` in `from_slice` are replaced by a
parameter `fl : Nat → Nat`; the theorems hold for every `fl` that meets a few weak conditions
(`LogLike` in `Verif/AbsEf.lean`), which the exact logarithm does.
`u64` values are `Word`s; checked `u64` arithmetic panics on overflow.
-/

namespace Vers

variable [Profile]

/-- `a + b` on `u64`, e.g. src/elias_fano/mod.rs:189. -/
def addW (a b : Word) : R Word := if a.toNat + b.toNat < 2 ^ 64 then .ok (a + b) else wrapR (a + b)

/-- `a - b` on `u64`, e.g. src/elias_fano/mod.rs:104 and 117. -/
def subW (a b : Word) : R Word := if b.toNat ≤ a.toNat then .ok (a - b) else wrapR (a - b)

/-- `base + c` or `base - c` computed in `isize` and converted to `usize`, e.g. src/elias_fano/mod.rs:252. A negative
result becomes an index of at least 2^63. -/
def dirIdx (up : Bool) (base c : Nat) : R Nat :=
  if up then .ok (base + c) else if c ≤ base then .ok (base - c) else .ok (2 ^ 64 + base - c)

/-- `EliasFanoVec`, src/elias_fano/mod.rs:60-67. -/
structure EF where
  upper : RsVec
  lower : BV
  zero : Word
  max : Word
  lowerLen : Nat
  len : Nat

namespace EF

/-- `data.windows(2).all(|w| w[0] <= w[1])`, src/elias_fano/mod.rs:94. -/
def windowsSorted : List Word → Bool
  | a :: b :: l => decide (a ≤ b) && windowsSorted (b :: l)
  | _ => true

/-- The loop over the elements, src/elias_fano/mod.rs:116-124. -/
def fillLoop (zero : Word) (w : Nat) : BV → BV → Nat → List Word → R (BV × BV)
  | u, l, _, [] => pure (u, l)
  | u, l, i, x :: xs => do
    let word ← subW x zero
    let p ← addU (word >>> w).toNat i
    let p ← addU p 1
    let u ← u.flipBitUnchecked p
    let l ← l.appendBitsUnchecked (word &&& ((1#64 <<< w) - 1#64)) w
    fillLoop zero w u l (i + 1) xs

/-- `from_slice` on a non-empty slice, src/elias_fano/mod.rs:93-133. The capacity of the lower vector has no effect
but for the overflow check of its computation. -/
def fromNonEmpty (fl : Nat → Nat) (data : List Word) : R EF := do
  dassertR (windowsSorted data = true)
  let zero ← idx data 0
  let last ← idx data (data.length - 1)
  let bound ← subW last zero
  let w ← subR (Nat.max (fl (Nat.max bound.toNat 2)) (fl (data.length + 2))) (fl (Nat.max data.length 2))
  assertR (w < 64)
  let ulen ← addU (2 + data.length) (bound >>> w).toNat
  let _ ← mulU data.length w
  let ul ← fillLoop zero w (BV.fromZeros ulen) BV.new 0 data
  let rs ← RsVec.fromBitVec ul.1
  pure ⟨rs, ul.2, zero, last, w, data.length⟩

/-- `from_slice`, src/elias_fano/mod.rs:81-134. -/
def fromSlice (fl : Nat → Nat) (data : List Word) : R EF :=
  if data = [] then do
    let rs ← RsVec.fromBitVec BV.new
    pure ⟨rs, BV.new, 0#64, 0#64, 0, 0⟩
  else fromNonEmpty fl data

/-- `self.lower_vec.get_bits_unchecked(i * self.lower_len, self.lower_len)`, e.g. src/elias_fano/mod.rs:186-188. -/
def lowAt (ef : EF) (i : Nat) : R Word := do
  let p ← mulU i ef.lowerLen
  ef.lower.getBitsUnchecked p ef.lowerLen

/-- `get_unchecked`, src/elias_fano/mod.rs:184-190. -/
def getUnchecked (ef : EF) (index : Nat) (selB : Nat := ef.upper.supers.length + 1) : R Word := do
  let s ← ef.upper.select false index selB
  let u ← subR s index
  let u ← subR u 1
  let lower ← ef.lowAt index
  addW ((BitVec.ofNat 64 u <<< ef.lowerLen) ||| lower) ef.zero

/-- `get`, src/elias_fano/mod.rs:151-157, and its alias `select`, 171-173. -/
def get (ef : EF) (index : Nat) : R (Option Word) :=
  if index ≥ ef.len then pure none
  else do
    let x ← ef.getUnchecked index
    pure (some x)

/-! ## search_element_in_block

`search_element_in_block<INDEX, UPWARD>`, src/elias_fano/mod.rs:218-411, is split into its loops.
The signed `cursor` is its absolute value `c` (the sign is that of the direction). The instance
`INDEX = true, UPWARD = false` is never used in the code and is not meaningful in the model.

The optional arguments are for the time bounds (C61): `selB` is the budget of the select queries, `binB` bounds
the number of times the condition of the binary search loop is evaluated. The default values suffice for every
query. -/

/-- `not_yet_enough`, src/elias_fano/mod.rs:233-245. -/
def notYet (index up : Bool) (a b : Word) : Bool :=
  if index then (if up then decide (a < b) else decide (a > b))
  else (if up then decide (a ≤ b) else decide (a ≥ b))

/-- The loop over equal elements, src/elias_fano/mod.rs:338-346. -/
def binWalk (ef : EF) (up : Bool) (queryLower : Word) : Nat → Nat → R Nat
  | 0, _ => .error .fuel
  | fuel + 1, cursor => do
    let p ← dirIdx (!up) cursor 1
    let x ← ef.lowAt p
    if x = queryLower then binWalk ef up queryLower fuel p else pure cursor

/-- The result when the middle element equals the query, src/elias_fano/mod.rs:337-352. -/
def binHit (ef : EF) (index up : Bool) (queryLower masked : Word) (middle : Nat) (x : Word) : R Word :=
  if index then do
    let c ← binWalk ef up queryLower (middle + 1) middle
    pure (BitVec.ofNat 64 c)
  else addW (masked ||| x) ef.zero

/-- The binary search loop, src/elias_fano/mod.rs:324-358. `.error r` is an early `return r`, `.ok` holds
`lower_bound`, `upper_bound` and `lower_candidate` after the loop. -/
def binLoop (ef : EF) (index up : Bool) (queryLower masked : Word) :
    Nat → Nat → Nat → Word → R (Except Word (Nat × Nat × Word))
  | 0, _, _, _ => .error .fuel
  | fuel + 1, lb, ub, lc => do
    let ub1 ← subR ub 1
    if lb < ub1 then do
      let d ← subR ub lb
      let x ← ef.lowAt (lb + d / 2)
      if x > queryLower then
        binLoop ef index up queryLower masked fuel lb (lb + d / 2) (if up then lc else x)
      else if x = queryLower then do
        let r ← binHit ef index up queryLower masked (lb + d / 2) x
        pure (.error r)
      else binLoop ef index up queryLower masked fuel (lb + d / 2) ub (if up then x else lc)
    else pure (.ok (lb, ub, lc))

/-- The return after the loop has been left by `break`, src/elias_fano/mod.rs:384-400: for `INDEX`,
`start_index_lower + (final_bound + direction - start_index_lower)`. -/
def binTail (ef : EF) (index up : Bool) (masked : Word) (fb : Nat) (lc : Word) : R Word :=
  if index then do
    let k ← dirIdx up fb 1
    pure (BitVec.ofNat 64 k)
  else addW (masked ||| lc) ef.zero

/-- The final check of the binary search, src/elias_fano/mod.rs:360-382. -/
def binFinish (ef : EF) (index up : Bool) (queryLower masked : Word) (blockEnd fb : Nat) (lc : Word) :
    R Word :=
  if (up = true ∧ fb < blockEnd) ∨ (up = false ∧ fb > blockEnd) then do
    let p ← dirIdx up fb 1
    let x ← ef.lowAt p
    if notYet index up x queryLower then
      (if index then pure (BitVec.ofNat 64 (p + 1)) else addW (masked ||| x) ef.zero)
    else binTail ef index up masked fb lc
  else binTail ef index up masked fb lc

/-- `block_end`, src/elias_fano/mod.rs:302-309. The sum `query_upper + 1` does not overflow: the search has got here because
there are set bits next to the zero number `query_upper` (`query_upper + 1`) of the upper vector. -/
def blockEnd (ef : EF) (up : Bool) (queryUpper : Nat)
    (selB : Nat := ef.upper.supers.length + 1) : R Nat :=
  if up then do
    let s ← ef.upper.select true (queryUpper + 1) selB
    let a ← subR s queryUpper
    subR a 2
  else do
    let s ← ef.upper.select true queryUpper selB
    subR s queryUpper

/-- The binary search, src/elias_fano/mod.rs:301-390; `c` is the absolute value of the cursor. -/
def binSearch (ef : EF) (index up : Bool) (startLower queryUpper : Nat) (queryLower masked : Word)
    (c : Nat) (lc : Word) (selB : Nat := ef.upper.supers.length + 1) (binB : Nat := ef.len + 1) :
    R Word := do
  let be ← ef.blockEnd up queryUpper selB
  let anchor ← dirIdx up startLower (c - 1)
  let r ← binLoop ef index up queryLower masked binB
    (if up then anchor else be) (if up then be else anchor) lc
  match r with
  | .error x => pure x
  | .ok t => binFinish ef index up queryLower masked be (if up then t.1 else t.2.1) t.2.2

/-- The linear search loop, src/elias_fano/mod.rs:264-400. `fuel` is the number of iterations left before
the cursor reaches `BIN_SEARCH_THRESHOLD`. -/
def linear (ef : EF) (index up : Bool) (startUpper startLower queryUpper : Nat)
    (queryLower masked : Word) (selB binB : Nat) : Nat → Nat → Word → R Word
  | 0, c, lc => binSearch ef index up startLower queryUpper queryLower masked c lc selB binB
  | fuel + 1, c, lc => do
    let p ← dirIdx up startUpper (c + 1)
    let b ← ef.upper.getUnchecked p
    if b > 0#64 then do
      let q ← dirIdx up startLower c
      let x ← ef.lowAt q
      if (up = true ∧ x > queryLower) ∨ (up = false ∧ x < queryLower) then
        (if index then pure (BitVec.ofNat 64 (startLower + c)) else addW (masked ||| lc) ef.zero)
      else if x = queryLower then
        (if index then pure (BitVec.ofNat 64 (startLower + c)) else addW (masked ||| x) ef.zero)
      else linear ef index up startUpper startLower queryUpper queryLower masked selB binB fuel (c + 1) x
    else
      (if index then pure (BitVec.ofNat 64 (startLower + c)) else addW (masked ||| lc) ef.zero)

/-- The return when no element of the block qualifies, src/elias_fano/mod.rs:403-411. -/
def searchOutside (ef : EF) (index up : Bool) (startLower : Nat)
    (selB : Nat := ef.upper.supers.length + 1) : R Word :=
  if index then pure (BitVec.ofNat 64 startLower)
  else do
    let p ← dirIdx (!up) startLower 1
    ef.getUnchecked p selB

/-- `search_element_in_block`, src/elias_fano/mod.rs:218-411 (`BIN_SEARCH_THRESHOLD` is 4). -/
def search (ef : EF) (index up : Bool) (startUpper startLower : Nat) (query : Word) (queryUpper : Nat)
    (queryLower masked : Word) (selB : Nat := ef.upper.supers.length + 1) (binB : Nat := ef.len + 1) :
    R Word := do
  let p ← dirIdx up startUpper 1
  let b ← ef.upper.getUnchecked p
  if b > 0#64 then do
    let lc ← ef.lowAt startLower
    if notYet index up (masked ||| lc) query then
      linear ef index up startUpper startLower queryUpper queryLower masked selB binB 3 1 lc
    else searchOutside ef index up startLower selB
  else searchOutside ef index up startLower selB

/-- `predecessor_unchecked`, src/elias_fano/mod.rs:425-455. -/
def predecessorUnchecked (ef : EF) (n : Word) (selB : Nat := ef.upper.supers.length + 1) (binB : Nat := ef.len + 1) :
    R Word :=
  if n > ef.max then do
    let i ← subR ef.len 1
    ef.getUnchecked i selB
  else do
    let n ← subW n ef.zero
    let uq := (n >>> ef.lowerLen).toNat
    let lq := n &&& ((1#64 <<< ef.lowerLen) - 1#64)
    let su ← ef.upper.select true uq selB
    let sl ← subR su uq
    search ef false true su sl n uq lq (BitVec.ofNat 64 uq <<< ef.lowerLen) selB
      binB

/-- `predecessor`, src/elias_fano/mod.rs:200-207. -/
def predecessor (ef : EF) (n : Word) (selB : Nat := ef.upper.supers.length + 1) (binB : Nat := ef.len + 1) :
    R (Option Word) :=
  if n < ef.zero ∨ ef.len = 0 then pure none
  else do
    let x ← ef.predecessorUnchecked n selB binB
    pure (some x)

/-- `successor_unchecked`, src/elias_fano/mod.rs:486-516. -/
def successorUnchecked (ef : EF) (n : Word) (selB : Nat := ef.upper.supers.length + 1) (binB : Nat := ef.len + 1) :
    R Word :=
  if n < ef.zero then ef.getUnchecked 0 selB
  else do
    let n ← subW n ef.zero
    let uq := (n >>> ef.lowerLen).toNat
    let lq := n &&& ((1#64 <<< ef.lowerLen) - 1#64)
    let k ← addU uq 1
    let su ← ef.upper.select true k selB
    let sl ← subR su uq
    let sl ← subR sl 2
    search ef false false su sl n uq lq (BitVec.ofNat 64 uq <<< ef.lowerLen) selB
      binB

/-- `successor`, src/elias_fano/mod.rs:465-472. -/
def successor (ef : EF) (n : Word) (selB : Nat := ef.upper.supers.length + 1) (binB : Nat := ef.len + 1) :
    R (Option Word) :=
  if n > ef.max ∨ ef.len = 0 then pure none
  else do
    let x ← ef.successorUnchecked n selB binB
    pure (some x)

/-- The part of `delta` for an element whose upper part differs from its predecessor's,
src/elias_fano/mod.rs:555-572. -/
def deltaFar (ef : EF) (index upperIndex : Nat) : R Word := do
  let a ← subR upperIndex index
  let u ← subR a 1
  let lower ← ef.lowAt index
  let q := (BitVec.ofNat 64 u <<< ef.lowerLen) ||| lower
  if index = 0 then addW q ef.zero
  else do
    let s ← ef.upper.select false (index - 1)
    let a ← subR s (index - 1)
    let u' ← subR a 1
    let lower' ← ef.lowAt (index - 1)
    subW q ((BitVec.ofNat 64 u' <<< ef.lowerLen) ||| lower')

/-- `delta`, src/elias_fano/mod.rs:537-574. -/
def delta (ef : EF) (index : Nat) : R (Option Word) :=
  if index ≥ ef.len then pure none
  else do
    let ui ← ef.upper.select false index
    let p ← subR ui 1
    let b ← ef.upper.getUnchecked p
    if b = 1#64 then do
      let x ← ef.lowAt index
      let i ← subR index 1
      let y ← ef.lowAt i
      let d ← subW x y
      pure (some d)
    else do
      let d ← ef.deltaFar index ui
      pure (some d)

/-- `rank`, src/elias_fano/mod.rs:579-602. -/
def rank (ef : EF) (value : Word) (selB : Nat := ef.upper.supers.length + 1) (binB : Nat := ef.len + 1) : R Word :=
  if value > ef.max ∨ ef.len = 0 then pure (BitVec.ofNat 64 ef.len)
  else if value < ef.zero then pure 0#64
  else do
    let v ← subW value ef.zero
    let uq := (v >>> ef.lowerLen).toNat
    let lq := v &&& ((1#64 <<< ef.lowerLen) - 1#64)
    let su ← ef.upper.select true uq selB
    let sl ← subR su uq
    search ef true true su sl v uq lq (BitVec.ofNat 64 uq <<< ef.lowerLen) selB binB

end EF
end Vers
