import Verif.Model.EliasFanoIter

/-!
# The methods that take `&mut self`, statement by statement

The other modules model such a method by a function that returns the new value, so a panic there has no state. Here the
same methods are transcribed with their assignments in the order of the code: a panic in between leaves the object in the
state that the assignments before it have produced. A caller that catches the panic (`catch_unwind`) goes on with it.
-/

namespace Vers

variable [Profile]

/-- A computation on an object of type `σ`: the result or the panic, and the object afterwards. -/
def Mut (σ α : Type) : Type := σ → R α × σ

namespace Mut
variable {σ τ α β : Type}

/-- The rest of the computation runs on the object as the first part has left it; after a panic it does not run. -/
def bind (x : Mut σ α) (f : α → Mut σ β) : Mut σ β := fun s =>
  match x s with
  | (.ok a, s') => f a s'
  | (.error e, s') => (.error e, s')

instance : Monad (Mut σ) where
  pure a := fun s => (.ok a, s)
  bind := Mut.bind

/-- The object is read. -/
def get : Mut σ σ := fun s => (.ok s, s)

/-- An assignment. -/
def modify (f : σ → σ) : Mut σ Unit := fun s => (.ok (), f s)

/-- A computation that assigns nothing. -/
def lift (x : R α) : Mut σ α := fun s => (x, s)

/-- A call of a method of a part of the object. -/
def part (p : σ → τ) (put : τ → σ → σ) (x : Mut τ α) : Mut σ α := fun s => ((x (p s)).1, put (x (p s)).2 s)

end Mut

namespace BV

/-- `self.data.push(w)`, e.g. src/bit_vec/mod.rs:727. -/
def pushM (w : Word) : Mut BV Unit := Mut.modify fun v => ⟨v.data ++ [w], v.len⟩

/-- `if c { self.data.push(w) }`, src/bit_vec/mod.rs:726-728, 800-802 and 921-923. -/
def pushIfM (c : Prop) [Decidable c] (w : Word) : Mut BV Unit := if c then pushM w else pure ()

/-- `self.data[i] = f(self.data[i])`, also in the forms `|=`, `&=` and `^=`, e.g. src/bit_vec/mod.rs:730. -/
def limbM (i : Nat) (f : Word → Word) : Mut BV Unit := do
  let v ← Mut.get
  let w ← Mut.lift (idx v.data i)
  Mut.modify fun v => ⟨v.data.set i (f w), v.len⟩

/-- `self.len += n`, e.g. src/bit_vec/mod.rs:734. -/
def growM (n : Nat) : Mut BV Unit := Mut.modify fun v => ⟨v.data, v.len + n⟩

/-- `BitVec::append`, src/bit_vec/mod.rs:725-735. -/
def appendM (bit : Bool) : Mut BV Unit := do
  let v ← Mut.get
  pushIfM (v.len % 64 = 0) 0#64
  limbM (v.len / 64) fun w => if bit then w ||| (1#64 <<< (v.len % 64)) else w &&& ~~~(1#64 <<< (v.len % 64))
  growM 1

/-- `BitVec::append_bit`, src/bit_vec/mod.rs:799-810. -/
def appendBitM (bit : Word) : Mut BV Unit := do
  let v ← Mut.get
  pushIfM (v.len % 64 = 0) 0#64
  limbM (v.len / 64) fun w =>
    if bit % 2#64 = 1#64 then w ||| (1#64 <<< (v.len % 64)) else w &&& ~~~(1#64 <<< (v.len % 64))
  growM 1

/-- The branch of `append_word` for a partial limb, src/bit_vec/mod.rs:882-886; `more` tells whether a limb is pushed, as in
src/bit_vec/mod.rs:918-923. -/
def fillM (len : Nat) (word : Word) (more : Prop) [Decidable more] : Mut BV Unit := do
  limbM (len / 64) fun w => w &&& ~~~(BitVec.allOnes 64 <<< (len % 64))
  limbM (len / 64) fun w => w ||| (word <<< (len % 64))
  pushIfM more (word >>> (64 - len % 64))

/-- The conditional statement of `append_word` and `append_bits`, src/bit_vec/mod.rs:879-887 and 914-924. -/
def storeM (len : Nat) (word : Word) (more : Prop) [Decidable more] : Mut BV Unit :=
  if len % 64 = 0 then pushM word else fillM len word more

/-- `BitVec::append_word`, src/bit_vec/mod.rs:878-889. -/
def appendWordM (word : Word) : Mut BV Unit := do
  let v ← Mut.get
  storeM v.len word True
  growM 64

/-- `BitVec::append_bits`, src/bit_vec/mod.rs:911-926. -/
def appendBitsM (bits : Word) (len : Nat) : Mut BV Unit := do
  Mut.lift (assertR (len ≤ 64))
  let v ← Mut.get
  storeM v.len bits (v.len % 64 + len > 64)
  growM len

/-- The branch of `append_bits_unchecked` for a partial limb, src/bit_vec/mod.rs:954-958. -/
def fillUncheckedM (len : Nat) (word : Word) (more : Prop) [Decidable more] : Mut BV Unit := do
  limbM (len / 64) fun w => w ||| (word <<< (len % 64))
  pushIfM more (word >>> (64 - len % 64))

/-- The conditional statement of `append_bits_unchecked`, src/bit_vec/mod.rs:951-959. -/
def storeUncheckedM (len : Nat) (word : Word) (more : Prop) [Decidable more] : Mut BV Unit :=
  if len % 64 = 0 then pushM word else fillUncheckedM len word more

/-- `BitVec::append_bits_unchecked`, src/bit_vec/mod.rs:950-961. -/
def appendBitsUncheckedM (bits : Word) (len : Nat) : Mut BV Unit := do
  let v ← Mut.get
  storeUncheckedM v.len bits (v.len % 64 + len > 64)
  growM len

/-- `BitVec::drop_last`, src/bit_vec/mod.rs:755-771. -/
def dropLastM (n : Nat) : Mut BV Unit := do
  let v ← Mut.get
  if n > v.len then do
    Mut.modify fun v => ⟨[], v.len⟩
    Mut.modify fun v => ⟨v.data, 0⟩
  else do
    let newLimbCount := (v.len - n + 63) / 64
    Mut.modify fun v => ⟨if newLimbCount < v.data.length then v.data.take newLimbCount else v.data, v.len⟩
    Mut.modify fun v => ⟨v.data, v.len - n⟩

/-- The loop of `extend_bitvec`, src/bit_vec/mod.rs:973-975. -/
def extendLoopM (other : List Word) : Nat → Nat → Mut BV Unit
  | _, 0 => pure ()
  | i, n + 1 => do
    let w ← Mut.lift (idx other i)
    appendBitsM w 64
    extendLoopM other (i + 1) n

/-- The last limb in `extend_bitvec`, src/bit_vec/mod.rs:977-980. -/
def extendLastM (other : BV) : Mut BV Unit :=
  if other.len % 64 > 0 then do
    let w ← Mut.lift (idx other.data (other.len / 64))
    appendBitsM w (other.len % 64)
  else pure ()

/-- `BitVec::extend_bitvec`, src/bit_vec/mod.rs:967-981. -/
def extendBitvecM (other : BV) : Mut BV Unit := do
  let v ← Mut.get
  Mut.lift (reserveR ((v.len + other.len + 63) / 64) v.data.length)
  extendLoopM other.data 0 (other.len / 64)
  extendLastM other

/-- `Extend<BitVec>` and `Extend<&BitVec>`, src/bit_vec/mod.rs:1564-1578. -/
def extendM : List BV → Mut BV Unit
  | [] => pure ()
  | o :: os => do
    extendBitvecM o
    extendM os

/-- `BitVec::flip_bit_unchecked`, src/bit_vec/mod.rs:1026-1028. -/
def flipBitUncheckedM (pos : Nat) : Mut BV Unit := limbM (pos / 64) fun w => w ^^^ (1#64 <<< (pos % 64))

/-- `BitVec::flip_bit`, src/bit_vec/mod.rs:1011-1014. -/
def flipBitM (pos : Nat) : Mut BV Unit := do
  let v ← Mut.get
  Mut.lift (assertR (pos < v.len))
  flipBitUncheckedM pos

/-- `BitVec::set_unchecked`, src/bit_vec/mod.rs:1111-1114. -/
def setUncheckedM (pos : Nat) (value : Word) : Mut BV Unit :=
  limbM (pos / 64) fun w => (w &&& ~~~(1#64 <<< (pos % 64))) ||| ((value &&& 1#64) <<< (pos % 64))

/-- `BitVec::set`, src/bit_vec/mod.rs:1093-1100; the result tells whether it is `Ok`. -/
def setM (pos : Nat) (value : Word) : Mut BV Bool := do
  let v ← Mut.get
  if pos ≥ v.len then pure false
  else do
    setUncheckedM pos value
    pure true

/-- The loop of `apply_mask_*`, e.g. src/bit_vec/mod.rs:1431-1433. The operation of `apply_mask_custom` is code of the
caller and may panic; the other three do not. -/
def maskLoopM (f : Word → Word → R Word) (mask : List Word) : Nat → Nat → Mut BV Unit
  | _, 0 => pure ()
  | i, n + 1 => do
    let v ← Mut.get
    let a ← Mut.lift (idx v.data i)
    let b ← Mut.lift (idx mask i)
    let w ← Mut.lift (f a b)
    limbM i fun _ => w
    maskLoopM f mask (i + 1) n

/-- `apply_mask_or/and/xor/custom`, src/bit_vec/mod.rs:1307-1436; the result tells whether it is `Ok`. -/
def applyMaskM (f : Word → Word → R Word) (mask : BV) : Mut BV Bool := do
  let v ← Mut.get
  if v.len ≠ mask.len then pure false
  else do
    maskLoopM f mask.data 0 v.data.length
    pure true

end BV

namespace GenIter
variable {α : Type}

/-- `advance_by`, src/util/general_iter.rs:30-45; the result tells whether it is `Ok`. -/
def advanceByM (n : Nat) : Mut GenIter Bool := do
  let it ← Mut.get
  if n = 0 then pure true
  else do
    let e ← Mut.lift (addU it.index n)
    let e1 ← Mut.lift (subR e 1)
    if someGt e1 it.back then do
      let _ ← Mut.lift (it.advanceErr n)
      pure false
    else do
      Mut.modify fun it => { it with index := e }
      pure true

/-- `advance_back_by`, src/util/general_iter.rs:53-70; the result tells whether it is `Ok`. -/
def advanceBackByM (n : Nat) : Mut GenIter Bool := do
  let it ← Mut.get
  if n = 0 then pure true
  else if it.isEmpty then do
    let _ ← Mut.lift (nonZeroR n)
    pure false
  else do
    let b ← Mut.lift (unwrapR it.back)
    let d ← Mut.lift (subR b it.index)
    if d + 1 < n then do
      let _ ← Mut.lift (nonZeroR (n - (d + 1)))
      pure false
    else do
      Mut.modify fun it => { it with back := if geSome it.back n then it.back.map (· - n) else none }
      pure true

/-- The closure of `next`, src/util/general_iter.rs:85-88. -/
def takeM (f : GenIter → GenIter) : Option α → Mut GenIter (Option α)
  | some x => do
    Mut.modify f
    pure (some x)
  | none => pure none

/-- `next`, src/util/general_iter.rs:81-89. -/
def nextM (v : VecOps α) : Mut GenIter (Option α) := do
  let it ← Mut.get
  if it.isEmpty then pure none
  else do
    let o ← Mut.lift (v.get it.index)
    takeM (fun it => { it with index := it.index + 1 }) o

/-- `next_back`, src/util/general_iter.rs:136-148. -/
def nextBackM (v : VecOps α) : Mut GenIter (Option α) := do
  let it ← Mut.get
  if someGt it.index it.back then pure none
  else do
    let b ← Mut.lift (unwrapR it.back)
    let o ← Mut.lift (v.get b)
    takeM (fun it => { it with back := if b = 0 then none else some (b - 1) }) o

/-- `nth`, src/util/general_iter.rs:120-123. -/
def nthM (v : VecOps α) (n : Nat) : Mut GenIter (Option α) := do
  let ok ← advanceByM n
  if ok then nextM v else pure none

/-- `nth_back`, src/util/general_iter.rs:150-153. -/
def nthBackM (v : VecOps α) (n : Nat) : Mut GenIter (Option α) := do
  let ok ← advanceBackByM n
  if ok then nextBackM v else pure none

/-- One call of the iterator traits, src/util/general_iter.rs:78-153. -/
def stepM (v : VecOps α) : Spec.IterOp → Mut GenIter (Spec.IterOut α)
  | .next => do let o ← nextM v; pure (.item o)
  | .nextBack => do let o ← nextBackM v; pure (.item o)
  | .nth n => do let o ← nthM v n; pure (.item o)
  | .nthBack n => do let o ← nthBackM v n; pure (.item o)
  | .len => do let it ← Mut.get; pure (.num it.len)

end GenIter

namespace SelIter

/-- The super block, src/bit_vec/fast_rs_vec/iter.rs:119-142 and 215-246: if the cached one is not used, the new one is
assigned before the rank is reduced. -/
def fwdFindM (rs : RsVec) (zero : Bool) (it : SelIter) (hint : Nat) : Bool → Mut SelIter (Nat × Nat × Nat)
  | true => do
    let z ← Mut.lift (rs.superBefore zero it.lastSuper)
    let r ← Mut.lift (subR it.nextRank z)
    let bh ← Mut.lift (fwdBlockHit rs zero it r)
    Mut.lift (useBlock rs zero it.lastSuper r it.lastBlock bh)
  | false => do
    let s ← Mut.lift (rs.searchSuper zero hint it.nextRank)
    Mut.modify fun it => { it with lastSuper := s }
    let z ← Mut.lift (rs.superBefore zero s)
    let r ← Mut.lift (subR it.nextRank z)
    pure (s, r, 0)

/-- The block, src/bit_vec/fast_rs_vec/iter.rs:145-151, 190-196, 249-260 and 309-320: if it is not known, it is searched, and
assigned by `put` before the rank is reduced. Returns the rank and the block. -/
def blockM (rs : RsVec) (zero : Bool) (put : Nat → SelIter → SelIter) (t : Nat × Nat × Nat) : Mut SelIter (Nat × Nat) :=
  if t.2.2 = 0 then do
    let b ← Mut.lift (rs.searchBlock zero t.2.1 (t.1 * 16))
    Mut.modify (put b)
    let z ← Mut.lift (rs.blockBefore zero (t.1 * 16) b)
    let r ← Mut.lift (subR t.2.1 z)
    pure (r, b)
  else pure (t.2.1, t.2.2)

/-- `select_next_0` / `select_next_1`, src/bit_vec/fast_rs_vec/iter.rs:109-155 and 204-264: the counter is incremented before
the word is searched. -/
def nextM (rs : RsVec) (zero : Bool) : Mut SelIter (Option Nat) := do
  let it ← Mut.get
  match it.nextRankBack with
  | none => pure none
  | some back =>
    if it.nextRank ≥ (if zero then rs.rank0 else rs.rank1) ∨ it.nextRank > back then pure none
    else do
      let e ← Mut.lift (idx rs.selects (it.nextRank / 8192))
      let hit ← Mut.lift (fwdSuperHit rs zero it)
      let t ← fwdFindM rs zero it (prj zero e) hit
      let q ← blockM rs zero (fun b it => { it with lastBlock := b }) t
      Mut.modify fun it => { it with nextRank := it.nextRank + 1 }
      let p ← Mut.lift (rs.searchWord zero q.1 q.2)
      pure (some p)

/-- The super block, src/bit_vec/fast_rs_vec/iter.rs:168-187 and 279-306. -/
def bwdFindM (rs : RsVec) (zero : Bool) (it : SelIter) (rank hint z : Nat) : Mut SelIter (Nat × Nat × Nat) :=
  if z < rank then do
    let r ← Mut.lift (subR rank z)
    let zb ← Mut.lift (rs.blockBefore zero (it.lastSuperBack * 16) it.lastBlockBack)
    Mut.lift (useBlock rs zero it.lastSuperBack r it.lastBlockBack (decide (zb ≤ r)))
  else do
    let s ← Mut.lift (rs.searchSuper zero hint rank)
    Mut.modify fun it => { it with lastSuperBack := s }
    let z ← Mut.lift (rs.superBefore zero s)
    let r ← Mut.lift (subR rank z)
    pure (s, r, 0)

/-- `select_next_0_back` / `select_next_1_back`, src/bit_vec/fast_rs_vec/iter.rs:158-200 and 268-324. -/
def nextBackM (rs : RsVec) (zero : Bool) : Mut SelIter (Option Nat) := do
  let it ← Mut.get
  match it.nextRankBack with
  | none => pure none
  | some rank =>
    if rank < it.nextRank then pure none
    else do
      let e ← Mut.lift (idx rs.selects (rank / 8192))
      let z ← Mut.lift (rs.superBefore zero it.lastSuperBack)
      let t ← bwdFindM rs zero it rank (prj zero e) z
      let q ← blockM rs zero (fun b it => { it with lastBlockBack := b }) t
      Mut.modify fun it => { it with nextRankBack := it.nextRankBack.bind predOpt }
      let p ← Mut.lift (rs.searchWord zero q.1 q.2)
      pure (some p)

/-- `advance_by`, src/bit_vec/fast_rs_vec/iter.rs:332-341; the result tells whether it is `Ok`. -/
def advanceByM (n : Nat) : Mut SelIter Bool := do
  let it ← Mut.get
  if it.len ≥ n then do
    Mut.modify fun it => { it with nextRank := it.nextRank + n }
    pure true
  else do
    Mut.modify fun it' => { it' with nextRank := it'.nextRank + it.len }
    pure false

/-- `advance_back_by`, src/bit_vec/fast_rs_vec/iter.rs:349-358; the result tells whether it is `Ok`. -/
def advanceBackByM (n : Nat) : Mut SelIter Bool := do
  let it ← Mut.get
  if it.len ≥ n then do
    let b ← Mut.lift (subBack it.nextRankBack n)
    Mut.modify fun it => { it with nextRankBack := b }
    pure true
  else do
    let b ← Mut.lift (subBack it.nextRankBack it.len)
    Mut.modify fun it => { it with nextRankBack := b }
    pure false

/-- `nth`, src/bit_vec/fast_rs_vec/iter.rs:396-402. -/
def nthM (rs : RsVec) (zero : Bool) (n : Nat) : Mut SelIter (Option Nat) := do
  let ok ← advanceByM n
  if ok then nextM rs zero else pure none

/-- `nth_back`, src/bit_vec/fast_rs_vec/iter.rs:414-420. -/
def nthBackM (rs : RsVec) (zero : Bool) (n : Nat) : Mut SelIter (Option Nat) := do
  let ok ← advanceBackByM n
  if ok then nextBackM rs zero else pure none

/-- One call of the iterator traits, src/bit_vec/fast_rs_vec/iter.rs:361-429. -/
def stepM (rs : RsVec) (zero : Bool) : Spec.IterOp → Mut SelIter (Spec.IterOut Nat)
  | .next => do let o ← nextM rs zero; pure (.item o)
  | .nextBack => do let o ← nextBackM rs zero; pure (.item o)
  | .nth n => do let o ← nthM rs zero n; pure (.item o)
  | .nthBack n => do let o ← nthBackM rs zero n; pure (.item o)
  | .len => do let it ← Mut.get; pure (.num it.len)

end SelIter

namespace EfIter

/-- A method of the part `upper_iter`, src/util/elias_fano_iter.rs:25, 54, 70 and 152. -/
def upM {α : Type} (x : Mut SelIter α) : Mut EfIter α := Mut.part EfIter.up (fun u it => ⟨it.pos, u⟩) x

/-- Statements on `index` and `back_index`, as in src/util/general_iter.rs. -/
def posM {α : Type} (x : Mut GenIter α) : Mut EfIter α := Mut.part EfIter.pos (fun p it => ⟨p, it.up⟩) x

/-- `advance_by`, src/util/elias_fano_iter.rs:10-29: the index is assigned before the iterator of the upper half is
advanced. -/
def advanceByM (ef : EF) (n : Nat) : Mut EfIter Bool := do
  let ok ← posM (GenIter.advanceByM n)
  if ok ∧ n > 0 then do
    let o ← upM (SelIter.nthM ef.upper false (n - 1))
    let _ ← Mut.lift (unwrapR o)
    pure true
  else pure ok

/-- `advance_back_by`, src/util/elias_fano_iter.rs:37-58. -/
def advanceBackByM (ef : EF) (n : Nat) : Mut EfIter Bool := do
  let ok ← posM (GenIter.advanceBackByM n)
  if ok ∧ n > 0 then do
    let o ← upM (SelIter.nthBackM ef.upper false (n - 1))
    let _ ← Mut.lift (unwrapR o)
    pure true
  else pure ok

/-- The branch for `Some` of `next`, src/util/elias_fano_iter.rs:71-76: the final addition comes after the assignment. -/
def yieldM (ef : EF) : Option Nat → Mut EfIter (Option Word)
  | some upper => do
    let it ← Mut.get
    let c ← Mut.lift (combine ef upper it.pos.index)
    posM (Mut.modify fun p => { p with index := p.index + 1 })
    let x ← Mut.lift (addW c ef.zero)
    pure (some x)
  | none => pure none

/-- `next`, src/util/elias_fano_iter.rs:69-80. -/
def nextM (ef : EF) : Mut EfIter (Option Word) := do
  let o ← upM (SelIter.nextM ef.upper false)
  yieldM ef o

/-- The branch for `Some` of `next_back`, src/util/elias_fano_iter.rs:153-163. -/
def yieldBackM (ef : EF) : Option Nat → Mut EfIter (Option Word)
  | some upper => do
    let it ← Mut.get
    let b ← Mut.lift (unwrapR it.pos.back)
    let c ← Mut.lift (combine ef upper b)
    posM (Mut.modify fun p => { p with back := if b = 0 then none else some (b - 1) })
    let x ← Mut.lift (addW c ef.zero)
    pure (some x)
  | none => pure none

/-- `next_back`, src/util/elias_fano_iter.rs:151-167. -/
def nextBackM (ef : EF) : Mut EfIter (Option Word) := do
  let o ← upM (SelIter.nextBackM ef.upper false)
  yieldBackM ef o

/-- `nth`, src/util/elias_fano_iter.rs:115-118. -/
def nthM (ef : EF) (n : Nat) : Mut EfIter (Option Word) := do
  let ok ← advanceByM ef n
  if ok then nextM ef else pure none

/-- `nth_back`, src/util/elias_fano_iter.rs:169-172. -/
def nthBackM (ef : EF) (n : Nat) : Mut EfIter (Option Word) := do
  let ok ← advanceBackByM ef n
  if ok then nextBackM ef else pure none

/-- One call of the iterator traits, src/util/elias_fano_iter.rs:66-172. -/
def stepM (ef : EF) : Spec.IterOp → Mut EfIter (Spec.IterOut Word)
  | .next => do let o ← nextM ef; pure (.item o)
  | .nextBack => do let o ← nextBackM ef; pure (.item o)
  | .nth n => do let o ← nthM ef n; pure (.item o)
  | .nthBack n => do let o ← nthBackM ef n; pure (.item o)
  | .len => do let it ← Mut.get; pure (.num it.pos.len)

end EfIter
end Vers
