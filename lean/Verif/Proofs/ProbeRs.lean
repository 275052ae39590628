import Verif.Proofs.Probe

/-!
# The number of cells read by queries on bit vectors with rank and select support
-/

namespace Vers

open Spec

variable [Profile]

namespace RsVec

omit [Profile] in
theorem reads_len (rs : RsVec) : Probes RsCell.same 1 (fun rs => rs.len) rs := Probes.cell RsCell.len fun _ h => h

omit [Profile] in
theorem reads_total (rs : RsVec) (zero : Bool) :
    Probes RsCell.same 1 (fun rs => if zero then rs.rank0 else rs.rank1) rs := by
  cases zero
  · exact Probes.cell RsCell.ones fun _ h => h
  · exact Probes.cell RsCell.zeros fun _ h => h

omit [Profile] in
theorem reads_supers (rs : RsVec) : Probes RsCell.same 1 (fun rs => rs.supers.length) rs :=
  Probes.cell RsCell.superCount fun _ h => h

omit [Profile] in
theorem reads_limb (rs : RsVec) (i : Nat) : Probes RsCell.same 1 (fun rs => idx rs.data i) rs :=
  Probes.idx (RsCell.limb i) (fun rs : RsVec => rs.data) i fun _ h => h

omit [Profile] in
theorem reads_block (rs : RsVec) (i : Nat) : Probes RsCell.same 1 (fun rs => idx rs.blocks i) rs :=
  Probes.idx (RsCell.block i) (fun rs : RsVec => rs.blocks) i fun _ h => h

omit [Profile] in
theorem reads_super (rs : RsVec) (i : Nat) : Probes RsCell.same 1 (fun rs => idx rs.supers i) rs :=
  Probes.idx (RsCell.super i) (fun rs : RsVec => rs.supers) i fun _ h => h

omit [Profile] in
theorem reads_select (rs : RsVec) (i : Nat) : Probes RsCell.same 1 (fun rs => idx rs.selects i) rs :=
  Probes.idx (RsCell.select i) (fun rs : RsVec => rs.selects) i fun _ h => h

theorem reads_superBefore (rs : RsVec) (zero : Bool) (i : Nat) :
    Probes RsCell.same 1 (fun rs => rs.superBefore zero i) rs := by
  unfold superBefore
  exact Probes.bind (n := 1) (m := 0) (rs.reads_super i) fun _ _ => Probes.const _

theorem reads_rankBlockBefore (rs : RsVec) (zero : Bool) (i : Nat) :
    Probes RsCell.same 1 (fun rs => rs.rankBlockBefore zero i) rs := by
  unfold rankBlockBefore
  exact Probes.bind (n := 1) (m := 0) (rs.reads_block i) fun _ _ => Probes.const _

theorem reads_rank (rs : RsVec) (zero : Bool) (pos : Nat) : Probes RsCell.same 12 (fun rs => rs.rank zero pos) rs := by
  unfold rank
  refine Probes.ite (n := 1) (m := 11) (c := fun rs : RsVec => pos ≥ rs.len)
    (Probes.map (fun l => pos ≥ l) rs.reads_len) (fun _ => ?_) fun _ => ?_
  · exact Probes.mono (Probes.map (fun x => (pure x : R Nat)) (rs.reads_total zero)) (by omega)
  · refine Probes.bind (n := 1) (m := 10) (rs.reads_superBefore zero _) fun a _ => ?_
    refine Probes.bind (n := 1) (m := 9) (rs.reads_rankBlockBefore zero _) fun b _ => ?_
    refine Probes.bind (n := 8) (m := 1) ?_ fun ws _ => ?_
    · exact Probes.mono (Probes.slice RsCell.limbCount RsCell.limb (fun rs : RsVec => rs.data) _ _ (fun _ h => h)
        fun _ _ h => h) (by omega)
    · exact Probes.bind (n := 1) (m := 0) (rs.reads_limb _) fun w _ => Probes.const _

omit [Profile] in
theorem reads_getUnchecked (rs : RsVec) (pos : Nat) : Probes RsCell.same 1 (fun rs => rs.getUnchecked pos) rs := by
  unfold getUnchecked
  exact Probes.bind (n := 1) (m := 0) (rs.reads_limb _) fun w _ => Probes.const _

omit [Profile] in
theorem reads_get (rs : RsVec) (pos : Nat) : Probes RsCell.same 2 (fun rs => rs.get pos) rs := by
  unfold get
  refine Probes.ite (n := 1) (m := 1) (c := fun rs : RsVec => pos ≥ rs.len)
    (Probes.map (fun l => pos ≥ l) rs.reads_len) (fun _ => Probes.mono (Probes.const _) (by omega)) fun _ => ?_
  exact Probes.bind (n := 1) (m := 0) (rs.reads_getUnchecked pos) fun w _ => Probes.const _

theorem reads_searchSuperKey (rs : RsVec) (zero : Bool) (i : Nat) :
    Probes RsCell.same 1 (fun rs => rs.searchSuperKey zero i) rs := by
  unfold searchSuperKey
  exact Probes.bind (n := 1) (m := 0) (rs.reads_super i) fun _ _ => Probes.const _

theorem reads_searchSuperBin (rs : RsVec) (zero : Bool) (rank : Nat) : ∀ b sb upper,
    Probes RsCell.same b (fun rs => rs.searchSuperBin zero rank b sb upper) rs
  | 0, _, _ => Probes.const _
  | b + 1, sb, upper => by
    unfold searchSuperBin
    refine Probes.bind (n := 0) (m := b + 1) (Probes.const _) (fun d _ => ?_) |> fun h => Probes.mono h (by omega)
    refine Probes.iteConst (fun _ => ?_) fun _ => Probes.mono (Probes.const _) (by omega)
    refine Probes.mono (Probes.bind (n := 1) (m := b) (rs.reads_searchSuperKey zero _) fun z _ => ?_) (by omega)
    exact Probes.iteConst (fun _ => reads_searchSuperBin rs zero rank b _ _)
      fun _ => reads_searchSuperBin rs zero rank b _ _

theorem reads_searchSuperLin (rs : RsVec) (zero : Bool) (rank : Nat) : ∀ b sb,
    Probes RsCell.same (2 * b) (fun rs => rs.searchSuperLin zero rank b sb) rs
  | 0, _ => Probes.const _
  | b + 1, sb => by
    unfold searchSuperLin
    refine Probes.mono (Probes.ite (n := 1) (m := 2 * b + 1) (c := fun rs : RsVec => rs.supers.length > sb + 1)
      (Probes.map (fun l => l > sb + 1) rs.reads_supers) (fun _ => ?_)
      fun _ => Probes.mono (Probes.const _) (by omega)) (by omega)
    refine Probes.mono (Probes.bind (n := 1) (m := 2 * b) (rs.reads_superBefore zero _) fun z _ => ?_) (by omega)
    exact Probes.iteConst (fun _ => reads_searchSuperLin rs zero rank b _)
      fun _ => Probes.mono (Probes.const _) (by omega)

theorem reads_searchSuper (rs : RsVec) (zero : Bool) (sb rank b : Nat) :
    Probes RsCell.same (3 * b + 1) (fun rs => rs.searchSuper zero sb rank b) rs := by
  unfold searchSuper
  refine Probes.mono (Probes.bind (n := 1) (m := 3 * b) (rs.reads_select _) fun e _ => ?_) (by omega)
  refine Probes.mono (Probes.bind (n := b) (m := 2 * b) (rs.reads_searchSuperBin zero rank b _ _) fun e _ => ?_)
    (by omega)
  exact rs.reads_searchSuperLin zero rank b _

theorem reads_blockBefore (rs : RsVec) (zero : Bool) (base i : Nat) :
    Probes RsCell.same 1 (fun rs => rs.blockBefore zero base i) rs := by
  unfold blockBefore
  exact Probes.bind (n := 1) (m := 0) (rs.reads_block i) fun _ _ => Probes.const _

theorem reads_searchBlockStep (rs : RsVec) (zero : Bool) (rank base : Nat) : ∀ bs j,
    Probes RsCell.same (2 * bs.length) (fun rs => rs.searchBlockStep zero rank base j bs) rs
  | [], _ => Probes.const _
  | b :: bs, j => by
    unfold searchBlockStep
    refine Probes.mono (Probes.ite (n := 1) (m := 2 * bs.length + 1)
      (c := fun rs : RsVec => rs.blocks.length > j + b)
      (Probes.cell RsCell.blockCount fun s' h => by simp only [RsCell.same] at h; rw [h]) (fun _ => ?_)
      fun _ => Probes.mono (reads_searchBlockStep rs zero rank base bs j) (by omega)) (by simp; omega)
    refine Probes.mono (Probes.bind (n := 1) (m := 2 * bs.length) (rs.reads_blockBefore zero _ _) fun z _ => ?_)
      (by omega)
    exact Probes.iteConst (fun _ => reads_searchBlockStep rs zero rank base bs _)
      fun _ => reads_searchBlockStep rs zero rank base bs _

theorem reads_searchBlock (rs : RsVec) (zero : Bool) (rank base : Nat) :
    Probes RsCell.same 8 (fun rs => rs.searchBlock zero rank base) rs :=
  rs.reads_searchBlockStep zero rank base [8, 4, 2, 1] base

theorem reads_searchWordStep (rs : RsVec) (zero : Bool) (block : Nat) : ∀ steps n rank,
    Probes RsCell.same (steps + 1) (fun rs => rs.searchWordStep zero block steps n rank) rs
  | 0, _, _ => by
    unfold searchWordStep
    exact Probes.bind (n := 1) (m := 0) (rs.reads_limb _) fun w _ => Probes.const _
  | s + 1, n, rank => by
    unfold searchWordStep
    refine Probes.mono (Probes.bind (n := 1) (m := s + 1) (rs.reads_limb _) fun w _ => ?_) (by omega)
    exact Probes.iteConst (fun _ => reads_searchWordStep rs zero block s _ _)
      fun _ => Probes.mono (Probes.const _) (by omega)

theorem reads_searchWord (rs : RsVec) (zero : Bool) (rank block : Nat) :
    Probes RsCell.same 8 (fun rs => rs.searchWord zero rank block) rs :=
  rs.reads_searchWordStep zero block 7 0 rank

theorem reads_selectSuper (rs : RsVec) (zero : Bool) (rank b : Nat) :
    Probes RsCell.same (3 * b + 4) (fun rs => rs.selectSuper zero rank b) rs := by
  unfold selectSuper
  refine Probes.mono (Probes.bind (n := 1) (m := 3 * b + 3) (rs.reads_select _) fun e _ => ?_) (by omega)
  refine Probes.mono (Probes.ite (n := 1) (m := 3 * b + 2) (c := fun rs : RsVec => rs.supers.length > prj zero e + 1)
      (Probes.map (fun l => l > prj zero e + 1) rs.reads_supers) (fun _ => ?_)
      fun _ => Probes.mono (Probes.const _) (by omega)) (by omega)
  refine Probes.mono (Probes.bind (n := 1) (m := 3 * b + 1) (rs.reads_superBefore zero _) fun z _ => ?_) (by omega)
  exact Probes.iteConst (fun _ => rs.reads_searchSuper zero _ rank b) fun _ => Probes.mono (Probes.const _) (by omega)

theorem reads_selectBudget (rs : RsVec) (zero : Bool) (rank b : Nat) :
    Probes RsCell.same (3 * b + 23) (fun rs => rs.select zero rank b) rs := by
  unfold select
  refine Probes.mono (Probes.ite (n := 1) (m := 3 * b + 22)
      (c := fun rs : RsVec => rank ≥ (if zero then rs.rank0 else rs.rank1))
      (Probes.map (fun l => rank ≥ l) (rs.reads_total zero)) (fun _ => ?_) fun _ => ?_) (by omega)
  · exact Probes.mono (Probes.map (fun x => (pure x : R Nat)) rs.reads_len) (by omega)
  · refine Probes.mono (Probes.bind (n := 3 * b + 4) (m := 18) (rs.reads_selectSuper zero rank b) fun sb _ => ?_)
      (by omega)
    refine Probes.bind (n := 1) (m := 17) (rs.reads_superBefore zero _) fun z _ => ?_
    refine Probes.bind (n := 0) (m := 17) (Probes.const _) fun r _ => ?_
    refine Probes.bind (n := 8) (m := 9) (rs.reads_searchBlock zero _ _) fun block _ => ?_
    refine Probes.bind (n := 1) (m := 8) (rs.reads_blockBefore zero _ _) fun z' _ => ?_
    refine Probes.bind (n := 0) (m := 8) (Probes.const _) fun r' _ => ?_
    exact rs.reads_searchWord zero _ _

end RsVec
end Vers
