import Verif.Model.EfSteps
import Verif.Proofs.SelectAverage
import Verif.Proofs.EfIter
import Verif.Proofs.EfTop
import Verif.Proofs.EfLen

/-! # The number of steps of random accesses to Elias-Fano vectors -/

namespace Vers

variable [Profile]
open Counted Spec

namespace EF
variable {ef : EF}

theorem getC_within (i : Nat) : Within (ef.getC i) (ef.get i) ((ef.upper.selectC false i).steps + 1) := by
  unfold getC get
  by_cases hi : i ≥ ef.len
  · rw [if_pos hi, if_pos hi]; exact within_pure _ _
  · rw [if_neg hi, if_neg hi]
    refine Within.map ?_
    unfold getUncheckedC getUnchecked
    refine Within.bind (a := (ef.upper.selectC false i).steps) (b := 1) ⟨RsVec.selectC_result false i, Nat.le_refl _⟩
      (Nat.le_refl _) fun s => ?_
    refine free_bind fun u => free_bind fun u => tick_bind (n := 0) fun l => within_free _ _

omit [Profile] in
theorem sum_le_of_le (f g : Nat → Nat) (h : ∀ i, f i ≤ g i + 1) : ∀ n,
    ((List.range n).map f).sum ≤ ((List.range n).map g).sum + n
  | 0 => by simp
  | n + 1 => by
    have ih := sum_le_of_le f g h n
    have := h n
    rw [List.range_succ, List.map_append, List.map_append, List.sum_append, List.sum_append]
    simp only [List.map_cons, List.map_nil, List.sum_cons, List.sum_nil]
    omega

/-- The random accesses to all elements. -/
theorem sum_getC {fl : Nat → Nat} (hfl : LogLike fl) {data : List Word} (hs : Sorted data)
    (hl : data.length < 2 ^ 60) : ∃ ef, EF.fromSlice fl data = .ok ef ∧
      ((List.range data.length).map fun i => (ef.getC i).steps).sum ≤ 27 * data.length + 36 := by
  by_cases hne : data = []
  · subst hne
    obtain ⟨ef, e1, -⟩ := fromSlice_stores hfl hs hl
    exact ⟨ef, e1, by simp⟩
  obtain ⟨ef, e1, e2, -⟩ := fromSlice_inv hfl hs hne hl
  refine ⟨ef, e1, ?_⟩
  have hu := upper_len_le hfl hne e1 hs hl
  have hc : C ef.upper.data true ef.upper.len = data.length := by
    refine e2.count_ones (Nat.le_refl _) (Nat.le_refl _) (fun i hi => e2.pos_lt hi) ?_
    intro i h1 h2; omega
  have h1 := sum_le_of_le (fun i => (ef.getC i).steps) (fun i => (ef.upper.selectC false i).steps)
    (fun i => (getC_within i).le) data.length
  have h2 := RsVec.sum_selectC e2.up false data.length (by rw [Bool.not_false, hc])
  rw [Bool.not_false, hc, if_neg (Nat.lt_irrefl _)] at h2
  have hwf := e2.up.wf
  have hsl := e2.up.slen
  omega

end EF

/-! ## iterators -/

namespace Counted

omit [Profile] in
theorem steps_le_bind {α β : Type} (x : Counted α) (f : α → Counted β) : x.steps ≤ (x >>= f).steps := by
  show _ ≤ (match x.result with
    | .ok a => (⟨x.steps + (f a).steps, (f a).result⟩ : Counted β)
    | .error e => ⟨x.steps, .error e⟩).steps
  rcases x.result with e | a
  · exact Nat.le_refl _
  · exact Nat.le_add_right _ _

omit [Profile] in
theorem steps_map {α β : Type} (x : Counted α) (f : α → β) : (x >>= fun a => pure (f a)).steps = x.steps := by
  rcases x with ⟨s, e | a⟩ <;> rfl

end Counted

namespace SelIter
variable {rs : RsVec}

theorem nthC_result (zero : Bool) (it : SelIter) (n : Nat) : (nthC rs zero it n).result = nth rs zero it n := by
  unfold nthC nth
  rcases it.advanceBy n with ⟨it, b⟩
  cases b
  · rfl
  · exact nextC_result it

theorem lastC_within (zero : Bool) (it : SelIter) :
    Within (lastC rs zero it) (last rs zero it) (lastC rs zero it).steps := by
  refine ⟨?_, Nat.le_refl _⟩
  unfold lastC last
  rw [result_ite]
  congr 1
  rw [result_bind, nthC_result]; rfl

/-- `last` on an iterator with remaining elements -/
theorem lastC_eq {zero : Bool} {it : SelIter} {x : Nat} (hb : it.nextRankBack = some x) (hx : it.nextRank ≤ x) :
    (lastC rs zero it).steps = (nextC rs zero { it with nextRank := x }).steps := by
  have hl : it.len = x + 1 - it.nextRank := by unfold len; rw [hb]
  have ha : it.advanceBy (it.len - 1) = ({ it with nextRank := x }, true) := by
    unfold advanceBy
    rw [if_pos (by omega), show it.nextRank + (it.len - 1) = x by omega]
  unfold lastC
  rw [if_neg (by omega)]
  unfold nthC
  rw [ha]
  simp only
  exact steps_map _ _

/-- every call of `next` -/
theorem nextC_le {zero : Bool} (h : rs.Inv) {it : SelIter} (hi : it.Inv rs zero) :
    (nextC rs zero it).steps ≤ 6 + Nat.log2 rs.supers.length + rs.supers.length := by
  cases hb : it.nextRankBack with
  | none => unfold nextC; rw [hb]; exact Nat.zero_le _
  | some x =>
    by_cases hx : it.nextRank ≤ x
    · obtain ⟨it', p, -, -, -, -, -, h1, h2, h3, -⟩ := nextC_cost h hi hb hx
      have := h1.1
      by_cases hm : Miss rs zero it
      · have := h3 hm; omega
      · have := (h2 hm).2; omega
    · unfold nextC
      rw [hb]
      simp only
      rw [if_pos (Or.inr (by omega))]
      exact Nat.zero_le _

/-- every call of `last` -/
theorem lastC_le {zero : Bool} (h : rs.Inv) {it : SelIter} (hi : it.Inv rs zero) :
    (lastC rs zero it).steps ≤ 6 + Nat.log2 rs.supers.length + rs.supers.length := by
  cases hb : it.nextRankBack with
  | none =>
    unfold lastC
    rw [if_pos (by unfold len; rw [hb]; exact Nat.zero_sub _)]
    exact Nat.zero_le _
  | some x =>
    by_cases hx : it.nextRank ≤ x
    · rw [lastC_eq hb hx]
      refine nextC_le h fun y hy => ?_
      have hg := hi y hy
      cases (hb.symm.trans hy)
      exact ⟨hg.xlt, hg.lb, hg.ls, Nat.le_trans hg.lsc hx, Nat.le_trans hg.lbc hx, hg.lbb, hg.lsb, hg.lsbc, hg.lbbc⟩
    · unfold lastC
      rw [if_pos (by unfold len; rw [hb]; show x + 1 - it.nextRank = 0; omega)]
      exact Nat.zero_le _

end SelIter

namespace EF
variable {ef : EF} {n : Nat} {D : Nat → Nat}

theorem Inv.count_upper (h : ef.Inv n D) : C ef.upper.data true ef.upper.len = n :=
  h.count_ones (Nat.le_refl _) (Nat.le_refl _) (fun i hi => h.pos_lt hi) (fun i h1 h2 => by omega)

/-- the position of the one of element `i` -/
theorem Inv.onePos (h : ef.Inv n D) {i : Nat} (hi : i < n) : RsVec.IsPos ef.upper.data true i (hiD ef D i + i + 1) := by
  have hp := h.pos_lt hi
  refine ⟨(h.ubit _ hp).mpr ⟨i, hi, rfl⟩, h.count_ones (by omega) (by omega) (fun j hj => h.enum_mono j i hj hi) ?_⟩
  intro j h1 h2
  rcases Nat.eq_or_lt_of_le h1 with h3 | h3
  · subst h3; exact Nat.le_refl _
  · exact Nat.le_of_lt (h.enum_mono i j h3 h2)

end EF

namespace EfIter
variable {ef : EF}

theorem nextC_within (it : EfIter) :
    Within (it.nextC ef) (it.next ef) ((it.up.nextC ef.upper false).steps + 1) := by
  unfold nextC next
  refine Within.bind (a := (it.up.nextC ef.upper false).steps) (b := 1) ⟨SelIter.nextC_result it.up, Nat.le_refl _⟩
    (Nat.le_refl _) fun p => ?_
  rcases p.2 with _ | u
  · exact within_pure _ _
  · exact tick_bind (n := 0) fun c => free_bind fun x => within_pure _ _

theorem minItemC_within (it : EfIter) :
    Within (it.minItemC ef) (it.minItem ef) ((it.up.nextC ef.upper false).steps + 1) := by
  unfold minItemC minItem
  exact (nextC_within it).map

theorem minItemC_ge (it : EfIter) : (it.up.nextC ef.upper false).steps ≤ (it.minItemC ef).steps := by
  unfold minItemC nextC
  exact Nat.le_trans (steps_le_bind _ _) (steps_le_bind _ _)

theorem lastC_within (it : EfIter) :
    Within (it.lastC ef) (it.last ef) ((it.up.lastC ef.upper false).steps + 1) := by
  unfold lastC last
  by_cases he : it.pos.isEmpty
  · rw [if_pos he, if_pos he]; exact within_pure _ _
  · rw [if_neg he, if_neg he]
    refine Within.bind (a := (it.up.lastC ef.upper false).steps) (b := 1) (SelIter.lastC_within false it.up)
      (Nat.le_refl _) fun o => free_bind fun u => free_bind fun b => tick_bind (n := 0) fun c => within_pure _ _

theorem lastC_ge {it : EfIter} (he : it.pos.isEmpty = false) :
    (it.up.lastC ef.upper false).steps ≤ (it.lastC ef).steps := by
  unfold lastC
  rw [if_neg (by rw [he]; decide)]
  exact steps_le_bind _ _

end EfIter

end Vers
