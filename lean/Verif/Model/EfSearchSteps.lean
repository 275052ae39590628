import Verif.Model.EfSteps

/-! # The search queries of Elias-Fano vectors, with a step counter

The functions of `Model/EliasFano.lean` on the path of `predecessor`, `successor` and `rank`, with the select queries
replaced by the counted ones (`Model/RsIterSteps.lean`). A step is an access to the select blocks, super blocks or
blocks of the upper half, reading a bit of the upper half, or reading the lower half of an element. `C83_counter` proves
that the results are those of `Model/EliasFano.lean`. -/

namespace Vers

variable [Profile]
open Counted

namespace EF

/-- The loop over equal elements, src/elias_fano/mod.rs:338-346. -/
def binWalkC (ef : EF) (up : Bool) (queryLower : Word) : Nat → Nat → Counted Nat
  | 0, _ => free (.error .fuel)
  | fuel + 1, cursor => do
    let p ← free (dirIdx (!up) cursor 1)
    let x ← tick (ef.lowAt p)
    if x = queryLower then binWalkC ef up queryLower fuel p else pure cursor

/-- The result when the middle element equals the query, src/elias_fano/mod.rs:337-352. -/
def binHitC (ef : EF) (index up : Bool) (queryLower masked : Word) (middle : Nat) (x : Word) : Counted Word :=
  if index then do
    let c ← binWalkC ef up queryLower (middle + 1) middle
    pure (BitVec.ofNat 64 c)
  else free (addW (masked ||| x) ef.zero)

/-- The binary search loop, src/elias_fano/mod.rs:324-358. -/
def binLoopC (ef : EF) (index up : Bool) (queryLower masked : Word) :
    Nat → Nat → Nat → Word → Counted (Except Word (Nat × Nat × Word))
  | 0, _, _, _ => free (.error .fuel)
  | fuel + 1, lb, ub, lc => do
    let ub1 ← free (subR ub 1)
    if lb < ub1 then do
      let d ← free (subR ub lb)
      let x ← tick (ef.lowAt (lb + d / 2))
      if x > queryLower then
        binLoopC ef index up queryLower masked fuel lb (lb + d / 2) (if up then lc else x)
      else if x = queryLower then do
        let r ← binHitC ef index up queryLower masked (lb + d / 2) x
        pure (.error r)
      else binLoopC ef index up queryLower masked fuel (lb + d / 2) ub (if up then x else lc)
    else pure (.ok (lb, ub, lc))

/-- The return after the loop has been left by `break`, src/elias_fano/mod.rs:384-400. -/
def binTailC (ef : EF) (index up : Bool) (masked : Word) (fb : Nat) (lc : Word) : Counted Word :=
  free (binTail ef index up masked fb lc)

/-- The final check of the binary search, src/elias_fano/mod.rs:360-382. -/
def binFinishC (ef : EF) (index up : Bool) (queryLower masked : Word) (blockEnd fb : Nat) (lc : Word) :
    Counted Word :=
  if (up = true ∧ fb < blockEnd) ∨ (up = false ∧ fb > blockEnd) then do
    let p ← free (dirIdx up fb 1)
    let x ← tick (ef.lowAt p)
    if notYet index up x queryLower then
      (if index then pure (BitVec.ofNat 64 (p + 1)) else free (addW (masked ||| x) ef.zero))
    else binTailC ef index up masked fb lc
  else binTailC ef index up masked fb lc

/-- `block_end`, src/elias_fano/mod.rs:302-309. -/
def blockEndC (ef : EF) (up : Bool) (queryUpper : Nat) : Counted Nat :=
  if up then do
    let s ← ef.upper.selectC true (queryUpper + 1)
    let a ← free (subR s queryUpper)
    free (subR a 2)
  else do
    let s ← ef.upper.selectC true queryUpper
    free (subR s queryUpper)

/-- The binary search, src/elias_fano/mod.rs:301-390. -/
def binSearchC (ef : EF) (index up : Bool) (startLower queryUpper : Nat) (queryLower masked : Word)
    (c : Nat) (lc : Word) : Counted Word := do
  let be ← ef.blockEndC up queryUpper
  let anchor ← free (dirIdx up startLower (c - 1))
  let r ← binLoopC ef index up queryLower masked (ef.len + 1)
    (if up then anchor else be) (if up then be else anchor) lc
  match r with
  | .error x => pure x
  | .ok t => binFinishC ef index up queryLower masked be (if up then t.1 else t.2.1) t.2.2

/-- The linear search loop, src/elias_fano/mod.rs:264-400. -/
def linearC (ef : EF) (index up : Bool) (startUpper startLower queryUpper : Nat)
    (queryLower masked : Word) : Nat → Nat → Word → Counted Word
  | 0, c, lc => binSearchC ef index up startLower queryUpper queryLower masked c lc
  | fuel + 1, c, lc => do
    let p ← free (dirIdx up startUpper (c + 1))
    let b ← tick (ef.upper.getUnchecked p)
    if b > 0#64 then do
      let q ← free (dirIdx up startLower c)
      let x ← tick (ef.lowAt q)
      if (up = true ∧ x > queryLower) ∨ (up = false ∧ x < queryLower) then
        (if index then pure (BitVec.ofNat 64 (startLower + c)) else free (addW (masked ||| lc) ef.zero))
      else if x = queryLower then
        (if index then pure (BitVec.ofNat 64 (startLower + c)) else free (addW (masked ||| x) ef.zero))
      else linearC ef index up startUpper startLower queryUpper queryLower masked fuel (c + 1) x
    else
      (if index then pure (BitVec.ofNat 64 (startLower + c)) else free (addW (masked ||| lc) ef.zero))

/-- The return when no element of the block qualifies, src/elias_fano/mod.rs:403-411. -/
def searchOutsideC (ef : EF) (index up : Bool) (startLower : Nat) : Counted Word :=
  if index then pure (BitVec.ofNat 64 startLower)
  else do
    let p ← free (dirIdx (!up) startLower 1)
    ef.getUncheckedC p

/-- `search_element_in_block`, src/elias_fano/mod.rs:218-411. -/
def searchC (ef : EF) (index up : Bool) (startUpper startLower : Nat) (query : Word) (queryUpper : Nat)
    (queryLower masked : Word) : Counted Word := do
  let p ← free (dirIdx up startUpper 1)
  let b ← tick (ef.upper.getUnchecked p)
  if b > 0#64 then do
    let lc ← tick (ef.lowAt startLower)
    if notYet index up (masked ||| lc) query then
      linearC ef index up startUpper startLower queryUpper queryLower masked 3 1 lc
    else searchOutsideC ef index up startLower
  else searchOutsideC ef index up startLower

/-- `predecessor_unchecked`, src/elias_fano/mod.rs:425-455. -/
def predecessorUncheckedC (ef : EF) (n : Word) : Counted Word :=
  if n > ef.max then do
    let i ← free (subR ef.len 1)
    ef.getUncheckedC i
  else do
    let n ← free (subW n ef.zero)
    let uq := (n >>> ef.lowerLen).toNat
    let lq := n &&& ((1#64 <<< ef.lowerLen) - 1#64)
    let su ← ef.upper.selectC true uq
    let sl ← free (subR su uq)
    searchC ef false true su sl n uq lq (BitVec.ofNat 64 uq <<< ef.lowerLen)

/-- `predecessor`, src/elias_fano/mod.rs:200-207. -/
def predecessorC (ef : EF) (n : Word) : Counted (Option Word) :=
  if n < ef.zero ∨ ef.len = 0 then pure none
  else do
    let x ← ef.predecessorUncheckedC n
    pure (some x)

/-- `successor_unchecked`, src/elias_fano/mod.rs:486-516. -/
def successorUncheckedC (ef : EF) (n : Word) : Counted Word :=
  if n < ef.zero then ef.getUncheckedC 0
  else do
    let n ← free (subW n ef.zero)
    let uq := (n >>> ef.lowerLen).toNat
    let lq := n &&& ((1#64 <<< ef.lowerLen) - 1#64)
    let k ← free (addU uq 1)
    let su ← ef.upper.selectC true k
    let sl ← free (subR su uq)
    let sl ← free (subR sl 2)
    searchC ef false false su sl n uq lq (BitVec.ofNat 64 uq <<< ef.lowerLen)

/-- `successor`, src/elias_fano/mod.rs:465-472. -/
def successorC (ef : EF) (n : Word) : Counted (Option Word) :=
  if n > ef.max ∨ ef.len = 0 then pure none
  else do
    let x ← ef.successorUncheckedC n
    pure (some x)

/-- `rank`, src/elias_fano/mod.rs:579-602. -/
def rankC (ef : EF) (value : Word) : Counted Word :=
  if value > ef.max ∨ ef.len = 0 then pure (BitVec.ofNat 64 ef.len)
  else if value < ef.zero then pure 0#64
  else do
    let v ← free (subW value ef.zero)
    let uq := (v >>> ef.lowerLen).toNat
    let lq := v &&& ((1#64 <<< ef.lowerLen) - 1#64)
    let su ← ef.upper.selectC true uq
    let sl ← free (subR su uq)
    searchC ef true true su sl v uq lq (BitVec.ofNat 64 uq <<< ef.lowerLen)

end EF
end Vers
