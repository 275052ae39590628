import Verif.Proofs.RsQuery
import Verif.Proofs.Positions
import Verif.Model.RsIter

/-! # The select iterators -/

set_option linter.unusedSimpArgs false

namespace Vers

variable [Profile]
open Spec

namespace SelIter
open RsVec

variable {rs : RsVec} {zero : Bool}

/-- What the caches know, for the rank `x` of the last remaining bit. -/
structure Good (rs : RsVec) (zero : Bool) (it : SelIter) (x : Nat) : Prop where
  xlt : x < C rs.data (!zero) rs.len
  lb : it.lastBlock < rs.blocks.length
  ls : it.lastBlock / 16 = it.lastSuper
  lsc : C rs.data (!zero) (8192 * it.lastSuper) ≤ it.nextRank
  lbc : C rs.data (!zero) (512 * it.lastBlock) ≤ it.nextRank
  lbb : it.lastBlockBack < rs.blocks.length
  lsb : it.lastBlockBack / 16 = it.lastSuperBack
  lsbc : it.lastSuperBack + 1 < rs.supers.length → x < C rs.data (!zero) (8192 * (it.lastSuperBack + 1))
  lbbc : it.lastBlockBack + 1 < rs.blocks.length → x < C rs.data (!zero) (512 * (it.lastBlockBack + 1))

def Inv (rs : RsVec) (zero : Bool) (it : SelIter) : Prop :=
  ∀ x, it.nextRankBack = some x → Good rs zero it x

/-- a located bit: super block, remaining rank, block if known -/
def Located (rs : RsVec) (zero : Bool) (k : Nat) (t : Nat × Nat × Nat) : Prop :=
  IsSuper rs zero k t.1 ∧
    ((t.2.2 = 0 ∧ t.2.1 = k - C rs.data (!zero) (8192 * t.1)) ∨
     (IsBlock rs zero k t.2.2 ∧ t.2.2 / 16 = t.1 ∧ t.2.1 = k - C rs.data (!zero) (512 * t.2.2)))

theorem useBlock_eq (h : rs.Inv) {k s block : Nat} {hit : Bool} (hs : IsSuper rs zero k s)
    (hb : hit = true → IsBlock rs zero k block) (hbs : block / 16 = s) :
    ∃ t, useBlock rs zero s (k - C rs.data (!zero) (8192 * s)) block hit = .ok t ∧ Located rs zero k t ∧ t.1 = s := by
  unfold useBlock
  cases hit with
  | true =>
    have hb := hb rfl
    have hm := C_mono rs.data (!zero) (i := 8192 * s) (j := 512 * block) (by omega)
    have := hb.2.1
    rw [if_pos rfl, blockBefore_eq h zero hb.1 hbs, ok_bind, subR_of_le (by omega), ok_bind]
    exact ⟨_, rfl, ⟨hs, Or.inr ⟨hb, hbs, by simp only; omega⟩⟩, rfl⟩
  | false =>
    rw [if_neg (by simp)]
    exact ⟨_, rfl, ⟨hs, Or.inl ⟨rfl, rfl⟩⟩, rfl⟩

theorem missSuper_eq (h : rs.Inv) {k : Nat} (hk : k < C rs.data (!zero) rs.len) {e : Nat × Nat}
    (he : rs.selects[k / 8192]? = some e) :
    ∃ t, missSuper rs zero (prj zero e) k = .ok t ∧ Located rs zero k t := by
  unfold missSuper
  obtain ⟨s, h1, h2⟩ := searchSuper_eq h zero hk he
  rw [h1, ok_bind, superBefore_eq h zero h2.1, ok_bind, subR_of_le h2.2.1, ok_bind]
  exact ⟨_, rfl, h2, Or.inl ⟨rfl, rfl⟩⟩

theorem finish_eq (h : rs.Inv) {k : Nat} (hk : k < C rs.data (!zero) rs.len) {t : Nat × Nat × Nat}
    (ht : Located rs zero k t) :
    ∃ p b, finish rs zero t.1 t.2.1 t.2.2 = .ok (p, b) ∧ IsPos rs.data (!zero) k p ∧
      IsBlock rs zero k b ∧ b / 16 = t.1 := by
  obtain ⟨s, r, block⟩ := t
  obtain ⟨hs, hb⟩ := ht
  simp only at hs hb ⊢
  unfold finish searchBlockV
  simp only [Bool.false_eq_true, if_false]
  by_cases h0 : block = 0
  · have hr : r = k - C rs.data (!zero) (8192 * s) := by
      rcases hb with ⟨_, hb⟩ | ⟨_, hb1, hb2⟩
      · exact hb
      · have : s = 0 := by omega
        rw [hb2, h0, this]
    rw [if_pos h0, hr]
    obtain ⟨j, j1, j2, j3⟩ := searchBlock_eq h zero hs
    have hm := C_mono rs.data (!zero) (i := 8192 * s) (j := 512 * j) (by omega)
    have := j2.2.1
    rw [j1, ok_bind, blockBefore_eq h zero j2.1 j3, ok_bind, subR_of_le (by omega), ok_bind]
    rw [show k - C rs.data (!zero) (8192 * s) - (C rs.data (!zero) (512 * j) - C rs.data (!zero) (8192 * s)) =
      k - C rs.data (!zero) (512 * j) by omega]
    obtain ⟨p, p1, p2⟩ := searchWord_eq h hk j2
    rw [p1, ok_bind]
    exact ⟨p, j, rfl, p2, j2, j3⟩
  · rw [if_neg h0]
    rcases hb with ⟨hb, _⟩ | ⟨hb0, hb1, hb2⟩
    · omega
    · obtain ⟨p, p1, p2⟩ := searchWord_eq h hk hb0
      rw [hb2, p1, ok_bind]
      exact ⟨p, block, rfl, p2, hb0, hb1⟩

theorem fwdLocate_eq (h : rs.Inv) {it : SelIter} {x : Nat} (hg : Good rs zero it x)
    (hx : it.nextRank ≤ x) : ∃ t, fwdLocate rs zero it = .ok t ∧ Located rs zero it.nextRank t := by
  have hk : it.nextRank < C rs.data (!zero) rs.len := Nat.lt_of_le_of_lt hx hg.xlt
  have hsl := h.slen
  have hbl := h.blen
  have hlb := hg.lb
  have hls := hg.ls
  have hlsc := hg.lsc
  have hlbc := hg.lbc
  obtain ⟨e, _, he, _⟩ := (h.sel zero).ok (it.nextRank / 8192) (by apply Nat.div_le_div_right; omega)
  unfold fwdLocate
  rw [idx_of_some he, ok_bind]
  have hhit : ∃ b, fwdSuperHit rs zero it = .ok b ∧
      (b = true → it.lastSuper + 1 < rs.supers.length ∧
        it.nextRank < C rs.data (!zero) (8192 * (it.lastSuper + 1))) := by
    unfold fwdSuperHit
    by_cases hl : rs.supers.length > it.lastSuper + 1
    · rw [if_pos hl, superBefore_eq h zero (by omega), ok_bind]
      exact ⟨_, rfl, fun hb => ⟨hl, by simpa using hb⟩⟩
    · rw [if_neg hl]; exact ⟨_, rfl, by simp⟩
  obtain ⟨b, hb1, hb2⟩ := hhit
  rw [hb1, ok_bind]
  cases b with
  | false => simp only [Bool.false_eq_true, if_false]; exact missSuper_eq h hk he
  | true =>
    obtain ⟨hb2, hb3⟩ := hb2 rfl
    rw [if_pos rfl, superBefore_eq h zero (by omega), ok_bind, subR_of_le hlsc, ok_bind]
    have hs : IsSuper rs zero it.nextRank it.lastSuper := ⟨by omega, hlsc, fun _ => hb3⟩
    have hbh : ∃ b, fwdBlockHit rs zero it (it.nextRank - C rs.data (!zero) (8192 * it.lastSuper)) = .ok b ∧
        (b = true → IsBlock rs zero it.nextRank it.lastBlock) := by
      unfold fwdBlockHit
      by_cases h15 : it.lastBlock % 16 = 15
      · rw [if_pos h15]
        refine ⟨_, rfl, fun _ => ⟨hlb, hlbc, fun _ => ?_⟩⟩
        rw [show 512 * (it.lastBlock + 1) = 8192 * (it.lastSuper + 1) by omega]
        exact hb3
      · rw [if_neg h15]
        by_cases hl : rs.blocks.length > it.lastBlock + 1
        · have hm := C_mono rs.data (!zero) (i := 8192 * it.lastSuper) (j := 512 * (it.lastBlock + 1)) (by omega)
          rw [if_pos hl, blockBefore_eq h zero hl (by omega), ok_bind]
          refine ⟨_, rfl, fun hb => ⟨hlb, hlbc, fun _ => ?_⟩⟩
          have : it.nextRank - C rs.data (!zero) (8192 * it.lastSuper) <
            C rs.data (!zero) (512 * (it.lastBlock + 1)) - C rs.data (!zero) (8192 * it.lastSuper) := by
            simpa using hb
          omega
        · rw [if_neg hl]; exact ⟨_, rfl, by simp⟩
    obtain ⟨bb, hbb1, hbb2⟩ := hbh
    rw [hbb1, ok_bind]
    obtain ⟨t, t1, t2, -⟩ := useBlock_eq h hs hbb2 hls
    exact ⟨t, t1, t2⟩

theorem next_some (h : rs.Inv) {it : SelIter} (hi : it.Inv rs zero) {x : Nat}
    (hb : it.nextRankBack = some x) (hx : it.nextRank ≤ x) :
    ∃ it' p, next rs zero it = .ok (it', some p) ∧ IsPos rs.data (!zero) it.nextRank p ∧
      it'.nextRank = it.nextRank + 1 ∧ it'.nextRankBack = some x ∧ it'.Inv rs zero := by
  have hg := hi x hb
  have hk : it.nextRank < C rs.data (!zero) rs.len := Nat.lt_of_le_of_lt hx hg.xlt
  unfold next
  rw [hb]
  simp only
  rw [rankTotal_eq h, if_neg (by omega)]
  obtain ⟨t, t1, t2⟩ := fwdLocate_eq h hg hx
  obtain ⟨p, b, p1, p2, p3, p4⟩ := finish_eq h hk t2
  rw [t1, ok_bind, p1, ok_bind]
  refine ⟨_, p, rfl, p2, rfl, rfl, ?_⟩
  intro y hy
  simp only at hy
  cases hy
  have c1 := t2.1.2.1
  have c2 := p3.2.1
  exact ⟨hg.xlt, p3.1, p4, by simp only; omega, by simp only; omega, hg.lbb, hg.lsb, hg.lsbc, hg.lbbc⟩

theorem next_none {it : SelIter} (h : ∀ x, it.nextRankBack = some x → x < it.nextRank) :
    next rs zero it = .ok (it, none) := by
  unfold next
  cases hb : it.nextRankBack with
  | none => rfl
  | some x =>
    simp only
    rw [if_pos (Or.inr (h x hb))]; rfl

theorem bwdLocate_eq (h : rs.Inv) {it : SelIter} {x : Nat} (hg : Good rs zero it x) :
    ∃ t, bwdLocate rs zero it x = .ok t ∧ Located rs zero x t := by
  have hk := hg.xlt
  have hsl := h.slen
  have hbl := h.blen
  have hlb := hg.lbb
  have hls := hg.lsb
  obtain ⟨e, _, he, _⟩ := (h.sel zero).ok (x / 8192) (by apply Nat.div_le_div_right; omega)
  unfold bwdLocate
  rw [idx_of_some he, ok_bind, superBefore_eq h zero (by omega), ok_bind]
  by_cases hz : C rs.data (!zero) (8192 * it.lastSuperBack) < x
  · rw [if_pos hz, subR_of_le (by omega), ok_bind, blockBefore_eq h zero hlb hls, ok_bind]
    have hs : IsSuper rs zero x it.lastSuperBack := ⟨by omega, by omega, hg.lsbc⟩
    have hm := C_mono rs.data (!zero) (i := 8192 * it.lastSuperBack) (j := 512 * it.lastBlockBack) (by omega)
    obtain ⟨t, t1, t2, -⟩ := useBlock_eq h hs (block := it.lastBlockBack)
      (hit := decide (C rs.data (!zero) (512 * it.lastBlockBack) - C rs.data (!zero) (8192 * it.lastSuperBack) ≤
        x - C rs.data (!zero) (8192 * it.lastSuperBack)))
      (fun hd => ⟨hlb, by have := of_decide_eq_true hd; omega, hg.lbbc⟩) hls
    exact ⟨t, t1, t2⟩
  · rw [if_neg hz]; exact missSuper_eq h hk he

theorem nextBack_some (h : rs.Inv) {it : SelIter} (hi : it.Inv rs zero) {x : Nat}
    (hb : it.nextRankBack = some x) (hx : it.nextRank ≤ x) :
    ∃ it' p, nextBack rs zero it = .ok (it', some p) ∧ IsPos rs.data (!zero) x p ∧
      it'.nextRank = it.nextRank ∧ it'.nextRankBack = predOpt x ∧ it'.Inv rs zero := by
  have hg := hi x hb
  have hk := hg.xlt
  unfold nextBack
  rw [hb]
  simp only
  rw [if_neg (by omega)]
  obtain ⟨t, t1, t2⟩ := bwdLocate_eq h hg
  obtain ⟨p, b, p1, p2, p3, p4⟩ := finish_eq h hk t2
  rw [t1, ok_bind, p1, ok_bind]
  refine ⟨_, p, rfl, p2, rfl, rfl, ?_⟩
  intro y hy
  simp only [predOpt] at hy
  have hyx : y < x := by
    by_cases h0 : x > 0
    · rw [if_pos h0] at hy; cases hy; omega
    · rw [if_neg h0] at hy; cases hy
  exact ⟨by omega, hg.lb, hg.ls, hg.lsc, hg.lbc, p3.1, p4,
    fun hl => Nat.lt_trans hyx (t2.1.2.2 hl), fun hl => Nat.lt_trans hyx (p3.2.2 hl)⟩

theorem nextBack_none {it : SelIter} (h : ∀ x, it.nextRankBack = some x → x < it.nextRank) :
    nextBack rs zero it = .ok (it, none) := by
  unfold nextBack
  cases hb : it.nextRankBack with
  | none => rfl
  | some x =>
    simp only
    rw [if_pos (h x hb)]; rfl

/-! ## the remaining elements -/

/-- number of elements not yet taken from the back -/
def upTo (it : SelIter) : Nat :=
  match it.nextRankBack with
  | some x => x + 1
  | none => 0

omit [Profile] in
theorem len_eq (it : SelIter) : it.len = it.upTo - it.nextRank := by
  unfold len upTo; cases it.nextRankBack <;> rfl

/-- the iterator's state represents the remaining elements `l` -/
def Rel (rs : RsVec) (zero : Bool) (it : SelIter) (l : List Nat) : Prop :=
  it.Inv rs zero ∧ l = ((positions (!zero) rs.intoBitVec.bits).take it.upTo).drop it.nextRank

omit [Profile] in
theorem isSelect_of_isPos {b : Bool} {r p : Nat} (hp : IsPos rs.data b r p) (hl : p < rs.len) :
    IsSelect b rs.intoBitVec.bits r p := by
  constructor
  · rw [BV.bits_getElem?, if_pos (by simpa [intoBitVec] using hl)]
    simp [intoBitVec, hp.1]
  · rw [BV.count_take_bits _ _ _ (by simp [intoBitVec]; omega)]
    exact hp.2

omit [Profile] in
theorem length_positions_eq (zero : Bool) :
    (positions (!zero) rs.intoBitVec.bits).length = C rs.data (!zero) rs.len := by
  rw [length_positions, BV.count_bits_eq_cnt]; rfl

omit [Profile] in
theorem upTo_le {it : SelIter} (hi : it.Inv rs zero) :
    it.upTo ≤ (positions (!zero) rs.intoBitVec.bits).length := by
  rw [length_positions_eq]
  unfold upTo
  cases hb : it.nextRankBack with
  | none => exact Nat.zero_le _
  | some x => exact (hi x hb).xlt

theorem new_rel (h : rs.Inv) : ∃ it, new rs zero = .ok it ∧
    Rel rs zero it (positions (!zero) rs.intoBitVec.bits) ∧ it.nextRank = 0 := by
  unfold new
  have hwf := h.wf
  have hsl := h.slen
  have hbl := h.blen
  by_cases h0 : rs.len = 0
  · rw [if_pos h0]
    refine ⟨_, rfl, ⟨?_, ?_⟩, rfl⟩
    · intro x hx; simp at hx
    · have : rs.intoBitVec.bits = [] := by
        apply List.eq_nil_of_length_eq_zero; simp [intoBitVec, h0]
      rw [this]; rfl
  · rw [if_neg h0, subR_of_le (by omega), ok_bind, subR_of_le (by omega), ok_bind, rankTotal_eq h]
    refine ⟨_, rfl, ⟨?_, ?_⟩, rfl⟩
    · intro x hx
      have hxl : x < C rs.data (!zero) rs.len := by
        simp only [predOpt] at hx
        by_cases hc : C rs.data (!zero) rs.len > 0
        · rw [if_pos hc] at hx; cases hx; omega
        · rw [if_neg hc] at hx; cases hx
      exact ⟨hxl, by simp only; omega, by simp, by simp [C_zero], by simp [C_zero],
        by simp only; omega, by simp only; omega, by simp only; omega, by simp only; omega⟩
    · simp only [upTo, predOpt, List.drop_zero]
      rw [List.take_of_length_le]
      rw [length_positions_eq]
      by_cases hc : C rs.data (!zero) rs.len > 0
      · rw [if_pos hc]; simp only; omega
      · rw [if_neg hc]; simp only; omega

omit [Profile] in
theorem positions_of_pos {k p : Nat} (hk : k < C rs.data (!zero) rs.len)
    (hp : IsPos rs.data (!zero) k p) : (positions (!zero) rs.intoBitVec.bits)[k]? = some p :=
  positions_getElem? (isSelect_of_isPos hp (isPos_lt hp hk))

theorem next_rel (h : rs.Inv) {it : SelIter} {l : List Nat} (hr : Rel rs zero it l) :
    ∃ it', next rs zero it = .ok (it', l.head?) ∧ Rel rs zero it' l.tail := by
  obtain ⟨hi, hl⟩ := hr
  by_cases hc : it.nextRank < it.upTo
  · obtain ⟨x, hx⟩ : ∃ x, it.nextRankBack = some x := by
      cases hb : it.nextRankBack with
      | none => simp [upTo, hb] at hc
      | some x => exact ⟨x, rfl⟩
    have hu : it.upTo = x + 1 := by simp [upTo, hx]
    obtain ⟨it', p, h1, h2, h3, h4, h5⟩ := next_some h hi hx (by omega)
    refine ⟨it', ?_, h5, ?_⟩
    · rw [h1, hl, rem_head?, if_pos hc, positions_of_pos (by have := (hi x hx).xlt; omega) h2]
    · rw [hl, rem_tail, h3]; congr 2; rw [hu]; simp [upTo, h4]
  · rw [next_none (fun x hx => by simp [upTo, hx] at hc; omega)]
    refine ⟨it, ?_, hi, ?_⟩
    · rw [hl, rem_head?, if_neg hc]
    · rw [hl, rem_tail, rem_nil _ (by omega), rem_nil _ (by omega)]

theorem nextBack_rel (h : rs.Inv) {it : SelIter} {l : List Nat} (hr : Rel rs zero it l) :
    ∃ it', nextBack rs zero it = .ok (it', l.getLast?) ∧ Rel rs zero it' l.dropLast := by
  obtain ⟨hi, hl⟩ := hr
  by_cases hc : it.nextRank < it.upTo
  · obtain ⟨x, hx⟩ : ∃ x, it.nextRankBack = some x := by
      cases hb : it.nextRankBack with
      | none => simp [upTo, hb] at hc
      | some x => exact ⟨x, rfl⟩
    have hu : it.upTo = x + 1 := by simp [upTo, hx]
    have hul := upTo_le hi
    obtain ⟨it', p, h1, h2, h3, h4, h5⟩ := nextBack_some h hi hx (by omega)
    refine ⟨it', ?_, h5, ?_⟩
    · rw [h1, hl, hu, rem_getLast? _ (by omega) (by omega), positions_of_pos (hi x hx).xlt h2]
    · rw [hl, hu, rem_dropLast _ (by omega) (by omega), h3]
      congr 2
      simp only [upTo, h4, predOpt]
      by_cases h0 : x > 0
      · rw [if_pos h0]; simp only; omega
      · rw [if_neg h0]; simp only; omega
  · rw [nextBack_none (fun x hx => by simp [upTo, hx] at hc; omega)]
    have hn : l = [] := by rw [hl, rem_nil _ (by omega)]
    refine ⟨it, ?_, hi, ?_⟩
    · rw [hn]; rfl
    · rw [hn, rem_nil _ (by omega)]; rfl

omit [Profile] in
theorem len_rel {it : SelIter} {l : List Nat} (hr : Rel rs zero it l) : it.len = l.length := by
  obtain ⟨hi, hl⟩ := hr
  rw [hl, rem_length _ (upTo_le hi), len_eq]

omit [Profile] in
theorem advanceBy_rel {it : SelIter} {l : List Nat} (hr : Rel rs zero it l) (n : Nat) :
    Rel rs zero (it.advanceBy n).1 (l.drop n) ∧ ((it.advanceBy n).2 = true ↔ n ≤ l.length) := by
  have hlen := len_rel hr
  obtain ⟨hi, hl⟩ := hr
  unfold advanceBy
  have key : ∀ m, it.Inv rs zero → SelIter.Inv rs zero { it with nextRank := it.nextRank + m } := by
    intro m hi x hx
    have hg := hi x hx
    exact ⟨hg.xlt, hg.lb, hg.ls, by have := hg.lsc; simp only; omega, by have := hg.lbc; simp only; omega,
      hg.lbb, hg.lsb, hg.lsbc, hg.lbbc⟩
  by_cases hn : it.len ≥ n
  · rw [if_pos hn]
    exact ⟨⟨key n hi, by rw [hl, rem_drop]; rfl⟩, by simp; omega⟩
  · rw [if_neg hn]
    refine ⟨⟨key _ hi, ?_⟩, by simp; omega⟩
    rw [List.drop_of_length_le (by omega)]
    rw [rem_nil]
    simp only [upTo]
    have := len_eq it
    simp only [upTo] at this
    omega

theorem nth_rel (h : rs.Inv) {it : SelIter} {l : List Nat} (hr : Rel rs zero it l) (n : Nat) :
    ∃ it', nth rs zero it n = .ok (it', l[n]?) ∧ Rel rs zero it' (l.drop (n + 1)) := by
  obtain ⟨h1, h2⟩ := advanceBy_rel hr n
  unfold nth
  cases hb : it.advanceBy n with
  | mk it1 ok =>
    rw [hb] at h1 h2
    simp only at h1 h2
    cases ok with
    | true =>
      obtain ⟨it', g1, g2⟩ := next_rel h h1
      rw [List.head?_drop] at g1
      rw [List.tail_drop] at g2
      exact ⟨it', g1, g2⟩
    | false =>
      have hn : ¬ n ≤ l.length := by rw [← h2]; simp
      refine ⟨it1, ?_, ?_⟩
      · rw [List.getElem?_eq_none (by omega)]; rfl
      · rw [List.drop_of_length_le (by omega)] at h1 ⊢; exact h1

theorem last_rel (h : rs.Inv) {it : SelIter} {l : List Nat} (hr : Rel rs zero it l) :
    last rs zero it = .ok l.getLast? := by
  unfold last
  have hlen := len_rel hr
  by_cases h0 : it.len = 0
  · rw [if_pos h0, List.eq_nil_of_length_eq_zero (by omega : l.length = 0)]; rfl
  · rw [if_neg h0]
    obtain ⟨it', g1, g2⟩ := nth_rel h hr (it.len - 1)
    rw [g1, ok_bind, hlen, List.getLast?_eq_getElem?]; rfl

/-- `nth_back(n)` is right as long as it does not reach below the first element. -/
theorem nthBack_rel (h : rs.Inv) {it : SelIter} {l : List Nat} (hr : Rel rs zero it l) (n : Nat)
    (hn : n < l.length ∨ it.nextRankBack = none ∨ 0 < it.nextRank) :
    ∃ it', nthBack rs zero it n = .ok (it', l.reverse[n]?) ∧
      Rel rs zero it' (l.take (l.length - (n + 1))) := by
  have hlen := len_rel hr
  obtain ⟨hi, hl⟩ := hr
  have hle := len_eq it
  have hul := upTo_le hi
  unfold nthBack advanceBackBy
  -- reducing the back rank keeps the caches valid
  have key : ∀ y x, it.nextRankBack = some x → y ≤ x →
      SelIter.Inv rs zero { it with nextRankBack := some y } := by
    intro y x hx hyx z hz
    simp only [Option.some.injEq] at hz
    subst hz
    have hg := hi x hx
    exact ⟨by have := hg.xlt; omega, hg.lb, hg.ls, hg.lsc, hg.lbc, hg.lbb, hg.lsb,
      fun hl => Nat.lt_of_le_of_lt hyx (hg.lsbc hl), fun hl => Nat.lt_of_le_of_lt hyx (hg.lbbc hl)⟩
  by_cases hn2 : it.len ≥ n
  · rw [if_pos hn2]
    cases hb : it.nextRankBack with
    | none =>
      have h0 : l.length = 0 := by
        have : it.upTo = 0 := by simp [upTo, hb]
        omega
      have hn0 := List.eq_nil_of_length_eq_zero h0
      simp only [subBack, pure_eq_ok, ok_bind, if_true]
      rw [nextBack_none (by simp)]
      refine ⟨_, by rw [hn0]; rfl, by intro x hx; simp at hx, ?_⟩
      rw [hn0, rem_nil _ (by simp [upTo])]; simp
    | some x =>
      have hu : it.upTo = x + 1 := by simp [upTo, hb]
      simp only [subBack]
      have hnx : n ≤ x := by
        rcases hn with hn | hn | hn
        · omega
        · rw [hb] at hn; cases hn
        · omega
      rw [subR_of_le hnx, ok_bind]
      simp only [pure_eq_ok, ok_bind, if_true]
      -- state after skipping
      have hrel : Rel rs zero { it with nextRankBack := some (x - n) } (l.take (l.length - n)) := by
        refine ⟨key _ x hb (by omega), ?_⟩
        rw [hl, rem_length _ hul, List.take_drop, List.take_take]
        simp only [upTo]
        by_cases hc : it.nextRank ≤ x - n
        · congr 2; rw [hb]; simp only; omega
        · rw [rem_nil _ (by rw [hb]; simp only; omega), rem_nil _ (by omega)]
      obtain ⟨it', g1, g2⟩ := nextBack_rel h hrel
      refine ⟨it', ?_, ?_⟩
      · rw [g1]
        congr 2
        by_cases hnl : n < l.length
        · rw [List.getElem?_reverse (by omega), List.getLast?_eq_getElem?, List.length_take,
            List.getElem?_take, if_pos (by omega)]
          congr 1; omega
        · rw [List.getElem?_eq_none (by simp; omega), show l.length - n = 0 by omega]; rfl
      · rw [List.dropLast_eq_take, List.length_take, List.take_take] at g2
        rw [show min (min (l.length - n) l.length - 1) (l.length - n) = l.length - (n + 1) by omega] at g2
        exact g2
  · rw [if_neg hn2]
    have hnone : l.reverse[n]? = none := by rw [List.getElem?_eq_none (by simp; omega)]
    rw [hnone, show l.length - (n + 1) = 0 by omega, List.take_zero]
    cases hb : it.nextRankBack with
    | none =>
      simp only [subBack, pure_eq_ok, ok_bind, Bool.false_eq_true, if_false]
      exact ⟨_, rfl, by intro x hx; simp at hx, by rw [rem_nil _ (by simp [upTo])]⟩
    | some x =>
      have hu : it.upTo = x + 1 := by simp [upTo, hb]
      simp only [subBack]
      have hnx : it.len ≤ x := by
        rcases hn with hn | hn | hn
        · omega
        · rw [hb] at hn; cases hn
        · omega
      rw [subR_of_le hnx, ok_bind]
      simp only [pure_eq_ok, ok_bind, Bool.false_eq_true, if_false]
      refine ⟨_, rfl, key _ x hb (by omega), ?_⟩
      rw [rem_nil]
      simp only [upTo]; omega

/-- From a state whose front was not touched, `nth_back(n)` with `n` at least the number of remaining
elements panics. -/
theorem nthBack_panic (hd : Profile.debug = true) {it : SelIter} {l : List Nat} (hr : Rel rs zero it l) {n : Nat}
    (h0 : it.nextRank = 0) (hl : l ≠ []) (hn : l.length ≤ n) :
    nthBack rs zero it n = .error .overflow := by
  have hlen := len_rel hr
  have hle := len_eq it
  have hpos : 0 < l.length := List.length_pos_iff.mpr hl
  obtain ⟨x, hx⟩ : ∃ x, it.nextRankBack = some x := by
    cases hb : it.nextRankBack with
    | none => simp [upTo, hb] at hle; omega
    | some x => exact ⟨x, rfl⟩
  have hu : it.upTo = x + 1 := by simp [upTo, hx]
  unfold nthBack advanceBackBy
  by_cases hn2 : it.len ≥ n
  · rw [if_pos hn2, hx]
    simp only [subBack]
    rw [subR_overflow hd (by omega)]; rfl
  · rw [if_neg hn2, hx]
    simp only [subBack]
    rw [subR_overflow hd (by omega)]; rfl

end SelIter
end Vers
