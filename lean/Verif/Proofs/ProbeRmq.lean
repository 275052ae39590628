import Verif.Proofs.Probe

/-!
# The number of cells read by range minimum queries
-/

namespace Vers

open Spec

variable [Profile]

omit [Profile] in
theorem Probes.minBy {K S : Type} {same : K → S → S → Prop} {s : S} (k : Nat → K) (v : S → List Word) (a b : Nat)
    (h : ∀ i s', same (k i) s s' → (v s')[i]? = (v s)[i]?) : Probes same 2 (fun s => Vers.minBy (v s) a b) s := by
  unfold Vers.minBy
  refine Probes.bind (n := 1) (m := 1) (Probes.idx (k a) v a (h a)) fun x _ => ?_
  refine Probes.bind (n := 1) (m := 0) (Probes.idx (k b) v b (h b)) fun y _ => ?_
  exact Probes.const _

namespace BinRmq

theorem reads_rangeMin (s : BinRmq) (i j : Nat) : Probes BinCell.same 5 (fun s => s.rangeMin i j) s := by
  unfold rangeMin
  refine Probes.seq (n := 1) (m := 4) (p := fun s : BinRmq => log2Ceil s.data.length + 1)
    (fun rl (s : BinRmq) => subR j i >>= fun d => cell s.results rl i (Nat.log2 d) >>= fun a =>
      subR j (2 ^ Nat.log2 d - 1) >>= fun p => cell s.results rl p (Nat.log2 d) >>= fun b => minBy s.data a b)
    (Probes.cell BinCell.count fun s' h => by simp only [BinCell.same] at h; rw [h]) ?_
  refine Probes.bind (n := 0) (m := 4) (Probes.const _) fun d _ => ?_
  have hcell : ∀ rl row col, Probes BinCell.same 1 (fun s : BinRmq => cell s.results rl row col) s := fun rl row col =>
    Probes.bind (n := 1) (m := 0) (Probes.idx (BinCell.table (row * rl + col)) (fun s : BinRmq => s.results) _ fun s' h => h)
      fun r _ => Probes.const _
  refine Probes.bind (n := 1) (m := 3) (hcell _ _ _) fun a _ => ?_
  refine Probes.bind (n := 0) (m := 3) (Probes.const _) fun p _ => ?_
  refine Probes.bind (n := 1) (m := 2) (hcell _ _ _) fun b _ => ?_
  exact Probes.minBy BinCell.elem (fun s : BinRmq => s.data) a b fun i s' h => h

theorem reads_withRange (s : BinRmq) (a b : Bnd) : Probes BinCell.same 6 (fun s => s.rangeMinWithRange a b) s := by
  unfold rangeMinWithRange
  refine Probes.seq (n := 1) (m := 5) (p := fun s : BinRmq => s.data.length)
    (fun l s => startBound l a >>= fun i => endBound l b >>= fun j => s.rangeMin i j)
    (Probes.cell BinCell.count fun s' h => h) ?_
  refine Probes.bind (n := 0) (m := 5) (Probes.const _) fun i _ => ?_
  refine Probes.bind (n := 0) (m := 5) (Probes.const _) fun j _ => ?_
  exact s.reads_rangeMin i j

end BinRmq

namespace FastRmq

omit [Profile] in
theorem reads_block (s : FastRmq) (i : Nat) : Probes FastCell.same 1 (fun s => idx s.blocks i) s :=
  Probes.idx (FastCell.block i) (fun s : FastRmq => s.blocks) i fun _ h => h

omit [Profile] in
theorem reads_scan (s : FastRmq) (i j : Nat) : Probes FastCell.same (j + 1 - i + 1) (fun s => s.scan i j) s := by
  unfold scan
  refine Probes.bind (n := j + 1 - i + 1) (m := 0)
    (Probes.slice FastCell.count FastCell.elem (fun s : FastRmq => s.data) i (j + 1) (fun s' h => h) fun i s' h => h) fun sl _ => ?_
  exact Probes.const _

theorem reads_inBlock (s : FastRmq) (i j : Nat) (h : i / 128 = j / 128) :
    Probes FastCell.same 130 (fun s => s.inBlock i j) s := by
  unfold inBlock
  refine Probes.bind (n := 1) (m := 129) (s.reads_block _) fun b _ => ?_
  refine Probes.bind (n := 0) (m := 129) (Probes.const _) fun ri _ => ?_
  refine Probes.bind (n := 0) (m := 129) (Probes.const _) fun rj _ => ?_
  refine Probes.iteConst (fun _ => Probes.mono (Probes.const _) (by omega)) fun _ => ?_
  unfold inBlockSuffix
  refine Probes.bind (n := 0) (m := 129) (Probes.const _) fun ri _ => ?_
  refine Probes.bind (n := 0) (m := 129) (Probes.const _) fun rj _ => ?_
  refine Probes.iteConst (fun _ => Probes.mono (Probes.const _) (by omega)) fun _ => ?_
  exact Probes.mono (s.reads_scan i j) (by omega)

theorem reads_leftMin (s : FastRmq) (i : Nat) : Probes FastCell.same 1 (fun s => s.leftMin i) s := by
  unfold leftMin
  exact Probes.bind (n := 1) (m := 0) (s.reads_block _) fun b _ => Probes.const _

theorem reads_rightMin (s : FastRmq) (j : Nat) : Probes FastCell.same 1 (fun s => s.rightMin j) s := by
  unfold rightMin
  exact Probes.bind (n := 1) (m := 0) (s.reads_block _) fun b _ => Probes.const _

theorem reads_middleMin (s : FastRmq) (bi bj : Nat) : Probes FastCell.same 6 (fun s => s.middleMin bi bj) s := by
  unfold middleMin
  refine Probes.bind (n := 5) (m := 1)
    (Probes.sub (fun s : FastRmq => s.blockMinima) FastCell.minima (fun j s' h => h) (s.blockMinima.reads_rangeMin _ _))
    fun m _ => ?_
  exact Probes.bind (n := 1) (m := 0)
    (Probes.idx (FastCell.index m) (fun s : FastRmq => s.blockMinIndices) _ fun s' h => h) fun k _ => Probes.const _

/-- A range within one block is answered from the block, and from the elements of the range at most. -/
theorem reads_rangeMin (s : FastRmq) (i j : Nat) :
    Probes FastCell.same (if i / 128 = j / 128 then 130 else 12) (fun s => s.rangeMin i j) s := by
  unfold rangeMin
  by_cases h : i / 128 = j / 128
  · simp only [if_pos h]
    exact s.reads_inBlock i j h
  · simp only [if_neg h]
    have hm : ∀ a b, Probes FastCell.same 2 (fun s : FastRmq => minBy s.data a b) s := fun a b =>
      Probes.minBy FastCell.elem (fun s : FastRmq => s.data) a b fun i s' h => h
    refine Probes.bind (n := 1) (m := 11) (s.reads_leftMin i) fun a _ => ?_
    refine Probes.bind (n := 1) (m := 10) (s.reads_rightMin j) fun b _ => ?_
    refine Probes.iteConst (fun _ => ?_) fun _ => Probes.mono (hm a b) (by omega)
    refine Probes.bind (n := 6) (m := 4) (s.reads_middleMin _ _) fun c _ => ?_
    exact Probes.bind (n := 2) (m := 2) (hm a b) fun ab _ => hm ab c

theorem reads_withRange (s : FastRmq) (a b : Bnd) : Probes FastCell.same 131 (fun s => s.rangeMinWithRange a b) s := by
  unfold rangeMinWithRange
  refine Probes.seq (n := 1) (m := 130) (p := fun s : FastRmq => s.data.length)
    (fun l s => startBound l a >>= fun i => endBound l b >>= fun j => s.rangeMin i j)
    (Probes.cell FastCell.count fun s' h => h) ?_
  refine Probes.bind (n := 0) (m := 130) (Probes.const _) fun i _ => ?_
  refine Probes.bind (n := 0) (m := 130) (Probes.const _) fun j _ => ?_
  exact Probes.mono (s.reads_rangeMin i j) (by split <;> omega)

end FastRmq
end Vers
