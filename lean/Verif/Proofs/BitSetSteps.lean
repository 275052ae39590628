import Verif.Model.BitSetSteps
import Verif.Proofs.RsIterSteps
import Verif.Proofs.IterSteps

/-! # The number of steps of the bit set iterators -/

set_option linter.unusedSimpArgs false

namespace Vers

variable [Profile]
open Counted

namespace Counted

omit [Profile] in
/-- the parts of a computation that ends without a panic -/
theorem bind_ok_split {α β : Type} {x : Counted α} {f : α → Counted β} {b : β} (h : (x >>= f).result = .ok b) :
    ∃ a, x.result = .ok a ∧ (f a).result = .ok b ∧ (x >>= f).steps = x.steps + (f a).steps := by
  rcases hr : x.result with e | a
  · rw [result_bind, hr] at h
    cases h
  · rw [bind_of hr] at h ⊢
    exact ⟨a, rfl, h, rfl⟩

/-- a computation with at most `n` steps, if it ends with a result then with at most `n - m a` -/
structure Spends {α : Type} (x : Counted α) (m : α → Nat) (n : Nat) : Prop where
  le : x.steps ≤ n
  ok : ∀ a, x.result = .ok a → x.steps + m a ≤ n

omit [Profile] in
theorem Spends.pure {α : Type} {a : α} {m : α → Nat} {n : Nat} (h : m a ≤ n) : Spends (Pure.pure a) m n :=
  ⟨Nat.zero_le _, fun b hb => by
    cases hb
    show 0 + m a ≤ n
    omega⟩

omit [Profile] in
theorem Spends.free {α : Type} {x : R α} {m : α → Nat} {n : Nat} (h : ∀ a, x = .ok a → m a ≤ n) :
    Spends (Counted.free x) m n :=
  ⟨Nat.zero_le _, fun b hb => by
    have := h b hb
    show 0 + m b ≤ n
    omega⟩

omit [Profile] in
theorem Spends.bind {α β : Type} {x : Counted α} {f : α → Counted β} {l : α → Nat} {m : β → Nat} {n : Nat}
    (h : Spends x l n) (hf : ∀ a, x.result = .ok a → Spends (f a) m (l a)) : Spends (x >>= f) m n := by
  rcases hr : x.result with e | a
  · have hs : (x >>= f).steps = x.steps ∧ (x >>= f).result = .error e := by
      show (match x.result with
        | .ok a => (⟨x.steps + (f a).steps, (f a).result⟩ : Counted β)
        | .error e => ⟨x.steps, .error e⟩).steps = _ ∧ (match x.result with
        | .ok a => (⟨x.steps + (f a).steps, (f a).result⟩ : Counted β)
        | .error e => ⟨x.steps, .error e⟩).result = _
      rw [hr]
      exact ⟨rfl, rfl⟩
    refine ⟨by rw [hs.1]; exact h.le, fun b hb => ?_⟩
    rw [hs.2] at hb
    cases hb
  · have h1 := h.ok a hr
    obtain ⟨f1, f2⟩ := hf a hr
    rw [bind_of hr]
    refine ⟨?_, fun b hb => ?_⟩
    · show _ + _ ≤ _
      omega
    · have := f2 b hb
      show _ + _ + _ ≤ _
      omega

omit [Profile] in
theorem Spends.tick {α β : Type} {x : R α} {f : α → Counted β} {m : β → Nat} {n : Nat}
    (hf : ∀ a, x = .ok a → Spends (f a) m n) : Spends (Counted.tick x >>= f) m (n + 1) :=
  Spends.bind (l := fun _ => n) ⟨Nat.le_add_left 1 n, fun _ _ => by show 1 + n ≤ n + 1; omega⟩ hf

omit [Profile] in
theorem Spends.mono {α : Type} {x : Counted α} {l m : α → Nat} {n k : Nat} (h : Spends x l n)
    (hm : ∀ a, x.result = .ok a → m a ≤ l a) (hk : n ≤ k) : Spends x m k :=
  ⟨Nat.le_trans h.le hk, fun a ha => by have := h.ok a ha; have := hm a ha; omega⟩

end Counted

namespace BsIter
variable {rs : RsVec} {zero : Bool}

theorem newC_result : (newC rs zero).result = new rs zero := by
  unfold newC new
  rw [result_ite, result_bind]
  rfl

theorem loadNextC_result : ∀ (fuel : Nat) (it : BsIter), (loadNextC rs zero fuel it).result = loadNext rs zero fuel it
  | 0, _ => rfl
  | fuel + 1, it => by
    unfold loadNextC loadNext
    rw [result_ite, result_ite, result_bind]
    congr 1
    congr 1
    show rs.getBitsUnchecked _ _ >>= _ = _
    congr 1; funext w
    rw [result_bind]
    show loadChunk _ _ _ >>= _ = _
    congr 1; funext it'
    exact loadNextC_result fuel it'

theorem skipTailC_result : ∀ (fuel b : Nat), (skipTailC rs zero fuel b).result = skipTail rs zero fuel b
  | 0, _ => rfl
  | fuel + 1, b => by
    unfold skipTailC skipTail
    rw [result_ite, result_bind]
    congr 1
    show rs.getUnchecked _ >>= _ = _
    congr 1; funext w
    rw [result_ite, skipTailC_result fuel (b + 1)]
    rfl

theorem nextC_result (it : BsIter) : (nextC rs zero it).result = next rs zero it := by
  have he : ∀ a : BsIter, a.emitC.result = a.emit := by
    intro a
    unfold emitC emit
    rw [result_bind]
    rfl
  unfold nextC next
  rw [result_ite, result_ite, result_bind, loadNextC_result, he]
  congr 1
  congr 1
  congr 1; funext p
  rw [result_ite]
  have ht : (emitTailC rs zero p.1).result = emitTail rs zero p.1 := by
    unfold emitTailC emitTail
    rw [result_bind, skipTailC_result]
    congr 1; funext b
    rw [result_ite]
    rfl
  rw [ht, he]

/-- the number of chunks and of bits after the last chunk that are still to be read, at most -/
def due (rs : RsVec) (b : Nat) : Nat := (rs.len - b) / 16 + min (rs.len - b) 16

omit [Profile] in
theorem loadChunk_base {zero : Bool} {it it' : BsIter} {w : Word} (h : loadChunk zero it w = .ok it') :
    it'.base = it.base := by
  unfold loadChunk at h
  by_cases hc : it.offsets.length < (selected zero w).length
  · rw [if_pos hc] at h; cases h
  · rw [if_neg hc] at h; cases h; rfl

theorem newC_spends : Spends (newC rs zero) (fun it => due rs it.base) (due rs 0 + 1) := by
  unfold newC
  by_cases hl : rs.len > 16
  · rw [if_pos hl]
    refine Spends.tick fun w _ => Spends.free fun it hit => ?_
    rw [loadChunk_base hit]
  · rw [if_neg hl]
    exact Spends.pure (by show due rs 0 ≤ _; omega)

theorem loadNextC_spends : ∀ (fuel : Nat) (it : BsIter),
    Spends (loadNextC rs zero fuel it) (fun p => due rs p.1.base) (due rs it.base)
  | 0, _ => Spends.free fun a h => by cases h
  | fuel + 1, it => by
    unfold loadNextC
    by_cases hc : it.cursor = it.contentLen
    · rw [if_pos hc]
      by_cases hl : it.base + 16 ≥ rs.len
      · rw [if_pos hl]; exact Spends.pure (Nat.le_refl _)
      · rw [if_neg hl]
        have hd : due rs (it.base + 16) + 1 ≤ due rs it.base := by unfold due; omega
        refine Spends.mono (l := fun p : BsIter × Bool => due rs p.1.base) (n := due rs (it.base + 16) + 1) ?_
          (fun _ _ => Nat.le_refl _) hd
        refine Spends.tick fun w _ => Spends.bind (l := fun it' : BsIter => due rs it'.base)
          (Spends.free fun it' h => by rw [loadChunk_base h])
          fun it' _ => loadNextC_spends fuel it'
    · rw [if_neg hc]; exact Spends.pure (Nat.le_refl _)

omit [Profile] in
/-- reading single bits: one step and one place further each -/
theorem skipTailC_spends : ∀ (fuel b : Nat),
    Spends (skipTailC rs zero fuel b) (fun b' => if b' < rs.len then rs.len - (b' + 1) else 0) (rs.len - b)
  | 0, _ => Spends.free fun a h => by cases h
  | fuel + 1, b => by
    unfold skipTailC
    by_cases hl : b < rs.len
    · rw [if_pos hl]
      refine Spends.mono (l := fun b' => if b' < rs.len then rs.len - (b' + 1) else 0) (n := rs.len - (b + 1) + 1) ?_
        (fun _ _ => Nat.le_refl _) (by omega)
      refine Spends.tick fun w _ => ?_
      by_cases hw : w ≠ (if zero then 0#64 else 1#64)
      · rw [if_pos hw]; exact skipTailC_spends fuel (b + 1)
      · rw [if_neg hw]; exact Spends.pure (by rw [if_pos hl])
    · rw [if_neg hl]; exact Spends.pure (by rw [if_neg hl]; omega)

theorem loadNextC_false : ∀ (fuel : Nat) (it : BsIter) (p : BsIter × Bool),
    (loadNextC rs zero fuel it).result = .ok p → p.2 = false → rs.len ≤ p.1.base + 16
  | 0, _, _, h, _ => by cases h
  | fuel + 1, it, p, h, hp => by
    unfold loadNextC at h
    by_cases hc : it.cursor = it.contentLen
    · rw [if_pos hc] at h
      by_cases hl : it.base + 16 ≥ rs.len
      · rw [if_pos hl] at h; cases h; exact hl
      · rw [if_neg hl] at h
        obtain ⟨w, -, h, -⟩ := bind_ok_split h
        obtain ⟨it', -, h, -⟩ := bind_ok_split h
        exact loadNextC_false fuel it' p h hp
    · rw [if_neg hc] at h; cases h; cases hp

omit [Profile] in
theorem emitC_spends (it : BsIter) (n : Nat) (h : due rs it.base ≤ n) :
    Spends it.emitC (fun p => due rs p.1.base) (n + 1) := by
  unfold emitC
  exact Spends.tick fun o _ => Spends.pure h

theorem emitTailC_spends (it : BsIter) (hl : rs.len ≤ it.base + 16) :
    Spends (emitTailC rs zero it) (fun p => due rs p.1.base) (due rs it.base) := by
  unfold emitTailC
  refine Spends.mono (l := fun p : BsIter × Option Nat => due rs p.1.base) (n := rs.len - it.base) ?_
    (fun _ _ => Nat.le_refl _) (by unfold due; omega)
  refine Spends.bind (l := fun b' => if it.base ≤ b' ∧ b' < rs.len then rs.len - (b' + 1) else 0)
    (Spends.mono (skipTailC_spends _ _) (fun b _ => ?_) (Nat.le_refl _)) fun b hb => ?_
  · split
    · rename_i h; rw [if_pos h.2]
    · exact Nat.zero_le _
  · have hge : ∀ (fuel b b' : Nat), (skipTailC rs zero fuel b).result = .ok b' → b ≤ b' := by
      intro fuel
      induction fuel with
      | zero => intro b b' h; cases h
      | succ fuel ih =>
        intro b b' h
        unfold skipTailC at h
        by_cases hl : b < rs.len
        · rw [if_pos hl] at h
          obtain ⟨w, -, h, -⟩ := bind_ok_split h
          by_cases hw : w ≠ (if zero then 0#64 else 1#64)
          · rw [if_pos hw] at h; have := ih _ _ h; omega
          · rw [if_neg hw] at h; cases h; exact Nat.le_refl _
        · rw [if_neg hl] at h; cases h; exact Nat.le_refl _
    have hge := hge _ _ _ hb
    by_cases hlt : b < rs.len
    · rw [if_pos hlt, if_pos ⟨hge, hlt⟩]
      refine Spends.pure ?_
      show due rs (b + 1) ≤ _
      unfold due; omega
    · rw [if_neg hlt, if_neg (by omega)]
      refine Spends.pure ?_
      show due rs b ≤ _
      unfold due; omega

/-- one call: at most one step besides the chunks and bits it reads -/
theorem nextC_spends (it : BsIter) :
    Spends (nextC rs zero it) (fun p => due rs p.1.base) (due rs it.base + 1) := by
  unfold nextC
  by_cases hb : it.base ≥ rs.len
  · rw [if_pos hb]; exact Spends.pure (by show due rs it.base ≤ _; omega)
  · rw [if_neg hb]
    by_cases hc : it.cursor = it.contentLen
    · rw [if_pos hc]
      have hn := loadNextC_spends (rs := rs) (zero := zero) (rs.len + 1) it
      refine Spends.bind (l := fun p : BsIter × Bool => due rs p.1.base + 1)
        ⟨Nat.le_succ_of_le hn.le, fun p hp => by have := hn.ok p hp; omega⟩ fun p hp => ?_
      obtain ⟨it', b⟩ := p
      cases b with
      | true => rw [if_pos rfl]; exact emitC_spends it' _ (Nat.le_refl _)
      | false =>
        rw [if_neg (by simp)]
        exact (emitTailC_spends it' (loadNextC_false _ _ _ hp rfl)).mono (fun _ _ => Nat.le_refl _) (Nat.le_succ _)
    · rw [if_neg hc]; exact emitC_spends it _ (Nat.le_refl _)

theorem callsC_spends : ∀ (n : Nat) (it : BsIter), (callsC rs zero n it).steps ≤ n + due rs it.base
  | 0, _ => Nat.zero_le _
  | n + 1, it => by
    have : Spends (callsC rs zero (n + 1) it) (fun _ => 0) (n + 1 + due rs it.base) := by
      unfold callsC
      refine Spends.bind (l := fun p : BsIter × Option Nat => n + due rs p.1.base) ?_ fun p _ => ?_
      · have := nextC_spends (rs := rs) (zero := zero) it
        exact ⟨by have := this.le; omega, fun p hp => by have := this.ok p hp; omega⟩
      · exact Spends.bind (l := fun _ => 0) ⟨callsC_spends n p.1, fun _ _ => callsC_spends n p.1⟩
          fun l _ => Spends.pure (Nat.le_refl _)
    exact this.le

theorem loopC_spends (n : Nat) : (loopC rs zero n).steps ≤ n + rs.len / 16 + 17 := by
  have : Spends (loopC rs zero n) (fun _ => 0) (n + due rs 0 + 1) := by
    unfold loopC
    have hn := newC_spends (rs := rs) (zero := zero)
    refine Spends.bind (l := fun it : BsIter => n + due rs it.base)
      ⟨by have := hn.le; omega, fun it h => by have := hn.ok it h; omega⟩ fun it _ =>
        ⟨callsC_spends n it, fun _ _ => callsC_spends n it⟩
  have h := this.le
  unfold due at h
  omega

/-! ## at least -/

theorem loadNextC_reach : ∀ (fuel : Nat) (it : BsIter) (p : BsIter × Bool),
    (loadNextC rs zero fuel it).result = .ok p → p.1.base ≤ it.base + 16 * (loadNextC rs zero fuel it).steps
  | 0, _, _, h => by cases h
  | fuel + 1, it, p, h => by
    unfold loadNextC at h ⊢
    by_cases hc : it.cursor = it.contentLen
    · rw [if_pos hc] at h ⊢
      by_cases hl : it.base + 16 ≥ rs.len
      · rw [if_pos hl] at h ⊢; cases h; exact Nat.le_add_right _ _
      · rw [if_neg hl] at h ⊢
        obtain ⟨w, -, h, e1⟩ := bind_ok_split h
        rw [e1]
        obtain ⟨it', hi, h, e2⟩ := bind_ok_split h
        rw [e2]
        have h1 := loadNextC_reach fuel it' p h
        have h2 : it'.base = it.base + 16 := loadChunk_base hi
        show _ ≤ _ + 16 * (1 + (0 + _))
        omega
    · rw [if_neg hc] at h ⊢; cases h; exact Nat.le_add_right _ _

theorem skipTailC_reach : ∀ (fuel b b' : Nat), (skipTailC rs zero fuel b).result = .ok b' →
    (if b' < rs.len then b' + 1 else b') ≤ b + (skipTailC rs zero fuel b).steps
  | 0, _, _, h => by cases h
  | fuel + 1, b, b', h => by
    unfold skipTailC at h ⊢
    by_cases hl : b < rs.len
    · rw [if_pos hl] at h ⊢
      obtain ⟨w, -, h, e1⟩ := bind_ok_split h
      rw [e1]
      by_cases hw : w ≠ (if zero then 0#64 else 1#64)
      · rw [if_pos hw] at h ⊢
        have := skipTailC_reach fuel (b + 1) b' h
        show _ ≤ b + (1 + _)
        omega
      · rw [if_neg hw] at h ⊢
        cases h
        rw [if_pos hl]
        show _ ≤ b + (1 + 0)
        omega
    · rw [if_neg hl] at h ⊢
      cases h
      rw [if_neg hl]
      exact Nat.le_add_right _ _

/-- one call moves at most 16 bits further in a step, and has passed all bits if it returns `None` -/
theorem nextC_reach (it it' : BsIter) (o : Option Nat) (h : (nextC rs zero it).result = .ok (it', o)) :
    it'.base ≤ it.base + 16 * (nextC rs zero it).steps ∧ (o = none → rs.len ≤ it'.base) := by
  have hemit : ∀ (a : BsIter) (p : BsIter × Option Nat), a.emitC.result = .ok p →
      p.1.base = a.base ∧ p.2 ≠ none := by
    intro a p hp
    unfold emitC at hp
    obtain ⟨x, -, hp, -⟩ := bind_ok_split hp
    cases hp
    exact ⟨rfl, by simp⟩
  unfold nextC at h ⊢
  by_cases hb : it.base ≥ rs.len
  · rw [if_pos hb] at h ⊢
    cases h
    exact ⟨Nat.le_add_right _ _, fun _ => hb⟩
  · rw [if_neg hb] at h ⊢
    by_cases hc : it.cursor = it.contentLen
    · rw [if_pos hc] at h ⊢
      obtain ⟨⟨it1, b⟩, h1, h2, e1⟩ := bind_ok_split h
      rw [e1]
      have h3 := loadNextC_reach _ _ _ h1
      simp only at h3
      cases b with
      | true =>
        rw [if_pos rfl] at h2 ⊢
        obtain ⟨g1, g2⟩ := hemit _ _ h2
        simp only at g1 g2
        exact ⟨by omega, fun ho => absurd ho g2⟩
      | false =>
        rw [if_neg (by simp)] at h2 ⊢
        unfold emitTailC at h2 ⊢
        obtain ⟨b', h4, h5, e2⟩ := bind_ok_split h2
        rw [e2]
        have h6 := skipTailC_reach _ _ _ h4
        simp only at h6
        dsimp only
        by_cases hl : b' < rs.len
        · rw [if_pos hl] at h5 h6 ⊢
          cases h5
          refine ⟨?_, fun ho => by cases ho⟩
          show b' + 1 ≤ _
          omega
        · rw [if_neg hl] at h5 h6 ⊢
          cases h5
          refine ⟨?_, fun _ => by show rs.len ≤ b'; omega⟩
          show b' ≤ _
          omega
    · rw [if_neg hc] at h ⊢
      obtain ⟨g1, g2⟩ := hemit _ _ h
      simp only at g1 g2
      exact ⟨by omega, fun ho => absurd ho g2⟩

theorem callsC_reach : ∀ (n : Nat) (it : BsIter) (l : List (Option Nat)),
    (callsC rs zero n it).result = .ok l → none ∈ l → rs.len ≤ it.base + 16 * (callsC rs zero n it).steps
  | 0, _, _, h, hn => by cases h; cases hn
  | n + 1, it, l, h, hn => by
    unfold callsC at h ⊢
    obtain ⟨⟨it', o⟩, h1, h2, e1⟩ := bind_ok_split h
    rw [e1]
    obtain ⟨l', h3, h4, e2⟩ := bind_ok_split h2
    rw [e2]
    cases h4
    obtain ⟨g1, g2⟩ := nextC_reach it it' o h1
    rcases List.mem_cons.mp hn with ho | ho
    · have := g2 ho.symm
      omega
    · have := callsC_reach n it' l' h3 ho
      simp only
      omega

theorem loopC_reach (n : Nat) (l : List (Option Nat)) (h : (loopC rs zero n).result = .ok l) (hn : none ∈ l) :
    rs.len ≤ 16 * (loopC rs zero n).steps := by
  unfold loopC at h ⊢
  obtain ⟨it, h1, h2, e1⟩ := bind_ok_split h
  rw [e1]
  have h3 := callsC_reach n it l h2 hn
  have h4 : it.base = 0 := by
    unfold newC at h1
    by_cases hl : rs.len > 16
    · rw [if_pos hl] at h1
      obtain ⟨w, -, h1, -⟩ := bind_ok_split h1
      exact loadChunk_base h1
    · rw [if_neg hl] at h1; cases h1; rfl
  omega

end BsIter

namespace SelIter
variable {rs : RsVec} {zero : Bool}

/-- a call of the select iterator that finds a position takes at least 5 steps -/
theorem nextC_ge {it it' : SelIter} {p : Nat} (h : (nextC rs zero it).result = .ok (it', some p)) :
    5 ≤ (nextC rs zero it).steps := by
  unfold nextC at h ⊢
  cases hb : it.nextRankBack with
  | none => rw [hb] at h; cases h
  | some x =>
    rw [hb] at h
    simp only at h ⊢
    by_cases hz : it.nextRank ≥ (if zero then rs.rank0 else rs.rank1) ∨ it.nextRank > x
    · rw [if_pos hz] at h; cases h
    · rw [if_neg hz] at h ⊢
      obtain ⟨t, h1, h2, e1⟩ := bind_ok_split h
      rw [e1]
      obtain ⟨q, -, -, e2⟩ := bind_ok_split h2
      rw [e2]
      suffices 4 ≤ (fwdLocateC rs zero it).steps by
        show 5 ≤ _ + (1 + _)
        omega
      unfold fwdLocateC at h1 ⊢
      obtain ⟨e, -, h1, e3⟩ := bind_ok_split h1
      rw [e3]
      obtain ⟨hit, -, h1, e4⟩ := bind_ok_split h1
      rw [e4]
      cases hit with
      | true =>
        rw [if_pos rfl] at h1 ⊢
        obtain ⟨z, -, h1, e5⟩ := bind_ok_split h1
        rw [e5]
        obtain ⟨r, -, h1, e6⟩ := bind_ok_split h1
        rw [e6]
        obtain ⟨bh, -, h1, e7⟩ := bind_ok_split h1
        rw [e7]
        show 4 ≤ 1 + (1 + (1 + (0 + (1 + 1))))
        omega
      | false =>
        rw [if_neg (by simp)] at h1 ⊢
        unfold missSuperC at h1 ⊢
        obtain ⟨s, h2, h1, e5⟩ := bind_ok_split h1
        rw [e5]
        obtain ⟨z, -, h1, e6⟩ := bind_ok_split h1
        rw [e6]
        unfold RsVec.searchSuperC at h2 ⊢
        obtain ⟨e', -, h2, e7⟩ := bind_ok_split h2
        rw [e7]
        show 4 ≤ 1 + (1 + (1 + _ + (1 + _)))
        omega

theorem callsC_ge : ∀ (n : Nat) (it : SelIter) (l : List Nat),
    (callsC rs zero n it).result = .ok (l.map some) → 5 * n ≤ (callsC rs zero n it).steps
  | 0, _, _, _ => Nat.zero_le _
  | n + 1, it, l, h => by
    unfold callsC at h ⊢
    obtain ⟨⟨it', o⟩, h1, h2, e1⟩ := bind_ok_split h
    rw [e1]
    obtain ⟨l', h3, h4, e2⟩ := bind_ok_split h2
    rw [e2]
    cases l with
    | nil => cases h4
    | cons p l =>
      have h4 : o :: l' = some p :: l.map some := Except.ok.inj h4
      obtain ⟨rfl, rfl⟩ := List.cons.inj h4
      have := nextC_ge h1
      have := callsC_ge n it' l h3
      dsimp only
      show _ ≤ _ + (_ + 0)
      omega

end SelIter
end Vers
