import Verif.Model.Wavelet

/-!
# The queries of the wavelet matrix with a step counter

The definitions of `Model/Wavelet.lean` again, with a counter for the calls of functions that take constant time: the
rank queries and bit accesses on the levels, the accesses to the bits of the symbol and of the result. A select query on
a level counts as one step, too; C60 and C72 state how long it takes. `C72_queries` and `C72_select_levels` prove that
the results are those of `Model/Wavelet.lean`.
-/

namespace Vers

variable [Profile]

/-- A computation that counts its steps, also if it panics. A device of this file, without counterpart in the code;
it is used for the functions of src/wavelet/mod.rs:301-1935. -/
structure Counted (α : Type) where
  steps : Nat
  result : R α

namespace Counted

/-- A computation without steps, e.g. the comparisons in src/wavelet/mod.rs:332. -/
def free {α : Type} (x : R α) : Counted α := ⟨0, x⟩

/-- A computation that is one step, e.g. the call of `rank0` in src/wavelet/mod.rs:306. -/
def tick {α : Type} (x : R α) : Counted α := ⟨1, x⟩

instance : Monad Counted where
  pure a := ⟨0, .ok a⟩
  bind x f :=
    match x.result with
    | .ok a => ⟨x.steps + (f a).steps, (f a).result⟩
    | .error e => ⟨x.steps, .error e⟩

/-- `x` has the result `y` and at most `n` steps. (Used in the statements about the functions of
src/wavelet/mod.rs:301-1935.) -/
structure Within {α : Type} (x : Counted α) (y : R α) (n : Nat) : Prop where
  same : x.result = y
  le : x.steps ≤ n

end Counted

namespace WM
open Counted

/-- `reconstruct_value_unchecked`, src/wavelet/mod.rs:301-311. -/
def reconstructC {T : Type} (f : Word → T → R T) : List RsVec → Nat → T → Counted T
  | [], _, t => pure t
  | rs :: rest, i, t => do
    let bit ← tick (rs.getUnchecked i)
    let t ← tick (f bit t)
    let i ← tick (go rs bit i)
    reconstructC f rest i t

/-- `get_value`, src/wavelet/mod.rs:331-337 and 350-358. -/
def getValueC (m : WM) (i : Nat) : Counted (Option BV) :=
  if m.data = [] ∨ i ≥ m.len then pure none
  else do
    let level ← free (subR m.bitsPer 1)
    let t ← reconstructC writeDown m.data i (BV.fromZeros m.bitsPer, level)
    pure (some t.1)

/-- `get_u64`, src/wavelet/mod.rs:377-383 and 396-403. -/
def getU64C (m : WM) (i : Nat) : Counted (Option Word) :=
  if m.bitsPer > 64 ∨ m.data = [] ∨ i ≥ m.len then pure none
  else do
    let v ← reconstructC pushBit m.data i 0#64
    pure (some v)

/-- The loop of `rank_range_unchecked` and `rank_range_u64_unchecked`, src/wavelet/mod.rs:423-431,487-495. -/
def rangeLoopC (read : Nat → R Word) : List RsVec → Nat → Nat → Nat → Counted (Nat × Nat)
  | [], _, s, e => pure (s, e)
  | rs :: rest, level, s, e => do
    let bit ← tick (read level)
    let s ← tick (go rs bit s)
    let e ← tick (go rs bit e)
    rangeLoopC read rest (level + 1) s e

/-- `rank_range_unchecked`, src/wavelet/mod.rs:422-434, and `rank_range_u64_unchecked`, src/wavelet/mod.rs:486-498. -/
def rankGenC (m : WM) (read : Nat → R Word) (s e : Nat) : Counted Nat := do
  let r ← rangeLoopC read m.data 0 s e
  free (subR r.2 r.1)

/-- `rank_range`, src/wavelet/mod.rs:458-467. -/
def rankRangeC (m : WM) (s e : Nat) (symbol : BV) : Counted (Option Nat) :=
  if s ≥ m.len ∨ e > m.len ∨ symbol.len ≠ m.bitsPer then pure none
  else do
    let r ← m.rankGenC (readBV m.bitsPer symbol) s e
    pure (some r)

/-- `rank_range_u64`, src/wavelet/mod.rs:520-526. -/
def rankRangeU64C (m : WM) (s e : Nat) (symbol : Word) : Counted (Option Nat) :=
  if s ≥ m.len ∨ e > m.len ∨ m.bitsPer > 64 then pure none
  else do
    let r ← m.rankGenC (readU64 m.bitsPer symbol) s e
    pure (some r)

/-- `rank_offset`, src/wavelet/mod.rs:585-595. -/
def rankOffsetC (m : WM) (offset i : Nat) (symbol : BV) : Counted (Option Nat) :=
  if offset > i ∨ offset ≥ m.len ∨ i > m.len ∨ symbol.len ≠ m.bitsPer then pure none
  else do
    let r ← m.rankGenC (readBV m.bitsPer symbol) offset i
    pure (some r)

/-- `rank_offset_u64`, src/wavelet/mod.rs:648-654. -/
def rankOffsetU64C (m : WM) (offset i : Nat) (symbol : Word) : Counted (Option Nat) :=
  if offset > i ∨ offset ≥ m.len ∨ i > m.len ∨ m.bitsPer > 64 then pure none
  else do
    let r ← m.rankGenC (readU64 m.bitsPer symbol) offset i
    pure (some r)

/-- `rank`, src/wavelet/mod.rs:701-707. -/
def rankC (m : WM) (i : Nat) (symbol : BV) : Counted (Option Nat) :=
  if i > m.len ∨ symbol.len ≠ m.bitsPer then pure none
  else do
    let r ← m.rankGenC (readBV m.bitsPer symbol) 0 i
    pure (some r)

/-- `rank_u64`, src/wavelet/mod.rs:749-755. -/
def rankU64C (m : WM) (i : Nat) (symbol : Word) : Counted (Option Nat) :=
  if i > m.len ∨ m.bitsPer > 64 then pure none
  else do
    let r ← m.rankGenC (readU64 m.bitsPer symbol) 0 i
    pure (some r)

/-- The first loop of `select_offset_unchecked`, src/wavelet/mod.rs:781-787,861-867. -/
def selectDownC (read : Nat → R Word) : List RsVec → Nat → Nat → Counted Nat
  | [], _, s => pure s
  | rs :: rest, level, s => do
    let bit ← tick (read level)
    let s ← tick (go rs bit s)
    selectDownC read rest (level + 1) s

/-- The second loop of `select_offset_unchecked`, src/wavelet/mod.rs:791-797,871-877. -/
def selectUpC (read : Nat → R Word) : List RsVec → Nat → Nat → Counted Nat
  | [], _, p => pure p
  | rs :: rest, level, p => do
    let p ← selectUpC read rest (level + 1) p
    let bit ← tick (read level)
    tick (goUp rs bit p)

/-- `select_offset_unchecked`, src/wavelet/mod.rs:778-800, and `select_offset_u64_unchecked`,
src/wavelet/mod.rs:858-880. -/
def selectGenC (m : WM) (read : Nat → R Word) (offset rank : Nat) : Counted Nat := do
  let s ← selectDownC read m.data 0 offset
  let e ← free (addU s rank)
  selectUpC read m.data 0 e

/-- `select_offset`, src/wavelet/mod.rs:826-837. -/
def selectOffsetC (m : WM) (offset rank : Nat) (symbol : BV) : Counted (Option Nat) :=
  if offset ≥ m.len ∨ symbol.len ≠ m.bitsPer then pure none
  else do
    let p ← m.selectGenC (readBV m.bitsPer symbol) offset rank
    pure (m.ifInside p)

/-- `select_offset_u64`, src/wavelet/mod.rs:903-914. -/
def selectOffsetU64C (m : WM) (offset rank : Nat) (symbol : Word) : Counted (Option Nat) :=
  if offset ≥ m.len ∨ m.bitsPer > 64 then pure none
  else do
    let p ← m.selectGenC (readU64 m.bitsPer symbol) offset rank
    pure (m.ifInside p)

/-- `select`, src/wavelet/mod.rs:960-971. -/
def selectC (m : WM) (rank : Nat) (symbol : BV) : Counted (Option Nat) :=
  if symbol.len = m.bitsPer then do
    let p ← m.selectGenC (readBV m.bitsPer symbol) 0 rank
    pure (m.ifInside p)
  else pure none

/-- `select_u64`, src/wavelet/mod.rs:1012-1023. -/
def selectU64C (m : WM) (rank : Nat) (symbol : Word) : Counted (Option Nat) :=
  if m.bitsPer > 64 then pure none
  else do
    let p ← m.selectGenC (readU64 m.bitsPer symbol) 0 rank
    pure (m.ifInside p)

/-- The loop of the two partial quantile searches, src/wavelet/mod.rs:1063-1080,1194-1209. -/
def quantLoopC {T : Type} (w0 w1 : Nat → T → R T) : List RsVec → Nat → Nat → Nat → Nat → T → Counted T
  | [], _, _, _, _, t => pure t
  | rs :: rest, level, s, e, k, t => do
    let zs ← tick (rs.rank true s)
    let ze ← tick (rs.rank true e)
    let zeros ← free (subR ze zs)
    if k < zeros then do
      let t ← tick (w0 level t)
      quantLoopC w0 w1 rest (level + 1) zs ze k t
    else do
      let t ← tick (w1 level t)
      let ds ← free (subR s zs)
      let de ← free (subR e ze)
      quantLoopC w0 w1 rest (level + 1) (rs.rank0 + ds) (rs.rank0 + de) (k - zeros) t

/-- `partial_quantile_search_unchecked`, src/wavelet/mod.rs:1052-1083. -/
def partialQuantileC (m : WM) (s e k level : Nat) (t : BV) : Counted BV := do
  free (dassertR (t.len = m.bitsPer))
  free (dassertR (s < e))
  free (dassertR (e ≤ m.len))
  quantLoopC (fun _ t => pure t) (writeBV m.bitsPer 1#64) (m.data.drop level) level s e k t

/-- `partial_quantile_search_u64_unchecked`, src/wavelet/mod.rs:1183-1212. -/
def partialQuantileU64C (m : WM) (s e k level : Nat) (t : Word) : Counted Word := do
  free (dassertR (m.bitsPer ≤ 64))
  free (dassertR (s < e))
  free (dassertR (e ≤ m.len))
  quantLoopC (fun _ t => pure (t <<< 1)) (fun _ t => pure ((t <<< 1) ||| 1#64)) (m.data.drop level) level s e k t

/-- `quantile`, src/wavelet/mod.rs:1105-1111 and 1040-1044. -/
def quantileC (m : WM) (s e k : Nat) : Counted (Option BV) :=
  if s ≥ m.len ∨ e > m.len then pure none
  else do
    let n ← free (subR e s)
    if k ≥ n then pure none
    else do
      let v ← m.partialQuantileC s e k 0 (BV.fromZeros m.bitsPer)
      pure (some v)

/-- `quantile_u64`, src/wavelet/mod.rs:1234-1244 and 1172-1174. -/
def quantileU64C (m : WM) (s e k : Nat) : Counted (Option Word) :=
  if s ≥ m.len ∨ e > m.len ∨ m.bitsPer > 64 then pure none
  else do
    let n ← free (subR e s)
    if k ≥ n then pure none
    else do
      let v ← m.partialQuantileU64C s e k 0 0#64
      pure (some v)

/-- `get_sorted`, src/wavelet/mod.rs:1148-1154. -/
def getSortedC (m : WM) (i : Nat) : Counted (Option BV) :=
  if i ≥ m.len then pure none
  else do
    let v ← m.partialQuantileC 0 m.len i 0 (BV.fromZeros m.bitsPer)
    pure (some v)

/-- `get_sorted_u64`, src/wavelet/mod.rs:1280-1286. -/
def getSortedU64C (m : WM) (i : Nat) : Counted (Option Word) :=
  if i ≥ m.len ∨ m.bitsPer > 64 then pure none
  else do
    let v ← m.partialQuantileU64C 0 m.len i 0 0#64
    pure (some v)

/-- `range_min`, src/wavelet/mod.rs:1323-1325. -/
def rangeMinC (m : WM) (s e : Nat) : Counted (Option BV) := m.quantileC s e 0

/-- `range_min_u64`, src/wavelet/mod.rs:1364-1366. -/
def rangeMinU64C (m : WM) (s e : Nat) : Counted (Option Word) := m.quantileU64C s e 0

/-- `range_max`, src/wavelet/mod.rs:1405-1412. -/
def rangeMaxC (m : WM) (s e : Nat) : Counted (Option BV) :=
  if e ≤ s then pure none else m.quantileC s e (e - s - 1)

/-- `range_max_u64`, src/wavelet/mod.rs:1451-1458. -/
def rangeMaxU64C (m : WM) (s e : Nat) : Counted (Option Word) :=
  if e ≤ s then pure none else m.quantileU64C s e (e - s - 1)

/-- `range_median`, src/wavelet/mod.rs:1502-1509. -/
def rangeMedianC (m : WM) (s e : Nat) : Counted (Option BV) :=
  if e ≤ s then pure none else m.quantileC s e ((e - 1 - s) / 2)

/-- `range_median_u64`, src/wavelet/mod.rs:1553-1560. -/
def rangeMedianU64C (m : WM) (s e : Nat) : Counted (Option Word) :=
  if e ≤ s ∨ m.bitsPer > 64 ∨ e > m.len then pure none else m.quantileU64C s e ((e - 1 - s) / 2)

/-- The closures passed to the generic searches, src/wavelet/mod.rs:1695-1699,1739-1746,1882-1886,1926-1933. -/
structure SearchC (T : Type) where
  read : Nat → R Word
  write : Word → Nat → T → R T
  quant : Nat → Nat → Nat → Nat → T → Counted T

/-- The closure of `next_smaller_range.map`, src/wavelet/mod.rs:1607-1617. -/
def smallerC {T : Type} (ops : SearchC T) (sv : Saved T) : Counted (Option T) :=
  match sv.range with
  | none => pure none
  | some r => do
    let k ← free (subR (r.2 - r.1) 1)
    let l ← free (unwrapR sv.level)
    let t ← tick (ops.write 0#64 l sv.pre)
    let v ← ops.quant r.1 r.2 k (l + 1) t
    pure (some v)

/-- The closure of `next_larger_range.map`, src/wavelet/mod.rs:1819-1828. -/
def largerC {T : Type} (ops : SearchC T) (sv : Saved T) : Counted (Option T) :=
  match sv.range with
  | none => pure none
  | some r => do
    let l ← free (unwrapR sv.level)
    let t ← tick (ops.write 1#64 l sv.pre)
    let v ← ops.quant r.1 r.2 0 (l + 1) t
    pure (some v)

/-- `predecessor_generic_unchecked`, src/wavelet/mod.rs:1567-1654. -/
def predLoopC {T : Type} (ops : SearchC T) : List RsVec → Nat → Nat → Nat → T → Saved T → Counted (Option T)
  | [], _, _, _, t, _ => pure (some t)
  | rs :: rest, level, s, e, t, sv => do
    let bit ← tick (ops.read level)
    let zs ← tick (rs.rank true s)
    let ze ← tick (rs.rank true e)
    let zeros ← free (subR ze zs)
    if bit = 0#64 then
      if zeros = 0 then smallerC ops sv
      else do
        let t ← tick (ops.write 0#64 level t)
        predLoopC ops rest (level + 1) zs ze t sv
    else do
      let n ← free (subR e s)
      if zeros = n then do
        let k ← free (subR n 1)
        let v ← ops.quant s e k level t
        pure (some v)
      else do
        let t' ← tick (ops.write 1#64 level t)
        let ds ← free (subR s zs)
        let de ← free (subR e ze)
        predLoopC ops rest (level + 1) (rs.rank0 + ds) (rs.rank0 + de) t' (save sv level zs ze t)

/-- `successor_generic_unchecked`, src/wavelet/mod.rs:1751-1841. -/
def succLoopC {T : Type} (ops : SearchC T) : List RsVec → Nat → Nat → Nat → T → Saved T → Counted (Option T)
  | [], _, _, _, t, _ => pure (some t)
  | rs :: rest, level, s, e, t, sv => do
    let bit ← tick (ops.read level)
    let zs ← tick (rs.rank true s)
    let ze ← tick (rs.rank true e)
    let zeros ← free (subR ze zs)
    if bit = 0#64 then
      if zeros = 0 then do
        let v ← ops.quant s e 0 level t
        pure (some v)
      else do
        let ds ← free (subR s zs)
        let de ← free (subR e ze)
        let t' ← tick (ops.write 0#64 level t)
        succLoopC ops rest (level + 1) zs ze t' (save sv level (rs.rank0 + ds) (rs.rank0 + de) t)
    else do
      let n ← free (subR e s)
      if zeros = n then largerC ops sv
      else do
        let t ← tick (ops.write 1#64 level t)
        let ds ← free (subR s zs)
        let de ← free (subR e ze)
        succLoopC ops rest (level + 1) (rs.rank0 + ds) (rs.rank0 + de) t sv

/-- The closures of the `BitVec` versions, src/wavelet/mod.rs:1695-1699,1882-1886. -/
def searchBVC (m : WM) (symbol : BV) : SearchC BV :=
  ⟨readBV m.bitsPer symbol, writeBV m.bitsPer, m.partialQuantileC⟩

/-- The closures of the `u64` versions, src/wavelet/mod.rs:1739-1746,1926-1933. -/
def searchU64C (m : WM) (symbol : Word) : SearchC Word :=
  ⟨readU64 m.bitsPer symbol, fun bit _ t => pure ((t <<< 1) ||| bit), m.partialQuantileU64C⟩

/-- `predecessor`, src/wavelet/mod.rs:1682-1701. -/
def predecessorC (m : WM) (s e : Nat) (symbol : BV) : Counted (Option BV) :=
  if symbol.len ≠ m.bitsPer ∨ e ≤ s ∨ m.isEmpty ∨ e > m.len then pure none
  else predLoopC (m.searchBVC symbol) m.data 0 s e (BV.fromZeros m.bitsPer)
    ⟨BV.fromZeros m.bitsPer, none, none⟩

/-- `predecessor_u64`, src/wavelet/mod.rs:1726-1748. -/
def predecessorU64C (m : WM) (s e : Nat) (symbol : Word) : Counted (Option Word) :=
  if m.bitsPer > 64 ∨ e ≤ s ∨ m.isEmpty ∨ e > m.len then pure none
  else predLoopC (m.searchU64C symbol) m.data 0 s e 0#64 ⟨0#64, none, none⟩

/-- `successor`, src/wavelet/mod.rs:1869-1888. -/
def successorC (m : WM) (s e : Nat) (symbol : BV) : Counted (Option BV) :=
  if symbol.len ≠ m.bitsPer ∨ e ≤ s ∨ m.isEmpty ∨ e > m.len then pure none
  else succLoopC (m.searchBVC symbol) m.data 0 s e (BV.fromZeros m.bitsPer)
    ⟨BV.fromZeros m.bitsPer, none, none⟩

/-- `successor_u64`, src/wavelet/mod.rs:1913-1935. -/
def successorU64C (m : WM) (s e : Nat) (symbol : Word) : Counted (Option Word) :=
  if m.bitsPer > 64 ∨ e ≤ s ∨ m.isEmpty ∨ e > m.len then pure none
  else succLoopC (m.searchU64C symbol) m.data 0 s e 0#64 ⟨0#64, none, none⟩

end WM
end Vers
