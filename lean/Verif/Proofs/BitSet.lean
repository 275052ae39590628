import Verif.Model.BitSet
import Verif.Proofs.BpTotal

set_option linter.unusedSimpArgs false

/-! # The bit set iterators -/

namespace Vers

variable [Profile]
open Spec BpTree

/-- The positions `a, ..., a + n - 1` whose stored bit is one (zero), in ascending order. -/
def stored (zero : Bool) (d : List Word) (a n : Nat) : List Nat :=
  (List.range' a n).filter (fun i => lbit d i != zero)

omit [Profile] in
theorem stored_append (zero : Bool) (d : List Word) (a m n : Nat) :
    stored zero d a (m + n) = stored zero d a m ++ stored zero d (a + m) n := by
  unfold stored
  rw [← List.range'_append_1, List.filter_append]

omit [Profile] in
theorem stored_zero (zero : Bool) (d : List Word) (a : Nat) : stored zero d a 0 = [] := rfl

omit [Profile] in
theorem stored_succ (zero : Bool) (d : List Word) (a n : Nat) :
    stored zero d a (n + 1) = if lbit d a != zero then a :: stored zero d (a + 1) n else stored zero d (a + 1) n := by
  unfold stored
  rw [List.range'_succ, List.filter_cons]

omit [Profile] in
theorem stored_positions (v : BV) (zero : Bool) : positions (!zero) v.bits = stored zero v.data 0 v.len := by
  have key : ∀ (n a : Nat), positionsFrom (!zero) a ((List.range' a n).map (lbit v.data)) = stored zero v.data a n := by
    intro n
    induction n with
    | zero => intro a; rfl
    | succ n ih =>
      intro a
      rw [List.range'_succ, List.map_cons, positionsFrom, ih, stored_succ]
      cases lbit v.data a <;> cases zero <;> simp
  have := key v.len 0
  rw [← List.range_eq_range'] at this
  exact this

namespace BsIter

variable {rs : RsVec} {v : BV} {zero : Bool}

omit [Profile] in
theorem selected_map {w : Word} {d : List Word} {a : Nat} (h : ∀ j, w.getLsbD j = (decide (j < 16) && lbit d (a + j))) :
    (selected zero w).map (a + ·) = stored zero d a 16 := by
  unfold selected stored
  rw [List.range'_eq_map_range, List.filter_map]
  congr 1
  apply List.filter_congr
  intro j hj
  rw [List.mem_range] at hj
  simp [h, hj]

omit [Profile] in
theorem selected_length (w : Word) : (selected zero w).length ≤ 16 := by
  unfold selected
  refine Nat.le_trans (List.length_filter_le _ _) (by simp)

/-- The elements of the current chunk that have not been returned. -/
def pending (it : BsIter) : List Nat := ((it.offsets.take it.contentLen).drop it.cursor).map (it.base + ·)

/-- The chunks after the current one, and the scan from the beginning of the last chunk. -/
def later (v : BV) (zero : Bool) (base : Nat) : List Nat :=
  stored zero v.data (base + 16) (16 * ((v.len - 1 - base) / 16)) ++
    stored zero v.data (base + 16 * ((v.len - 1 - base) / 16)) (v.len - (base + 16 * ((v.len - 1 - base) / 16)))

/-- The elements an iterator is going to return. -/
structure Rel (v : BV) (zero : Bool) (it : BsIter) (l : List Nat) : Prop where
  size : it.offsets.length = 16
  content : it.contentLen ≤ it.offsets.length
  cursor : it.cursor ≤ it.contentLen
  aligned : it.base % 16 = 0 ∨ v.len ≤ it.base + 16
  eq : l = if it.base ≥ v.len then [] else it.pending ++ later v zero it.base

omit [Profile] in
theorem pending_nil {it : BsIter} (h : it.contentLen ≤ it.offsets.length) (hc : it.cursor = it.contentLen) : it.pending = [] := by
  unfold pending
  rw [List.drop_eq_nil_of_le (by rw [List.length_take]; omega)]; rfl

/-- The chunk that is loaded: all selected offsets, in the first places of the array. -/
def chunkState (zero : Bool) (it : BsIter) (data : Word) : BsIter :=
  { it with
    offsets := selected zero data ++ it.offsets.drop (selected zero data).length
    contentLen := (selected zero data).length
    cursor := 0 }

omit [Profile] in
theorem loadChunk_eq {it : BsIter} {w : Word} (h : it.offsets.length = 16) :
    loadChunk zero it w = .ok (chunkState zero it w) := by
  unfold loadChunk
  have := selected_length (zero := zero) w
  rw [if_neg (by omega)]; rfl

omit [Profile] in
theorem chunkState_size {it : BsIter} {w : Word} (h : it.offsets.length = 16) :
    (chunkState zero it w).offsets.length = 16 := by
  have := selected_length (zero := zero) w
  unfold chunkState; simp; omega

omit [Profile] in
theorem chunkState_pending {it : BsIter} {w : Word}
    (h : ∀ j, w.getLsbD j = (decide (j < 16) && lbit v.data (it.base + j))) :
    (chunkState zero it w).pending = stored zero v.data it.base 16 := by
  unfold pending chunkState
  simp only [List.drop_zero]
  rw [List.take_left, selected_map h]

omit [Profile] in
theorem chunkState_content {it : BsIter} {w : Word} :
    (chunkState zero it w).contentLen ≤ (chunkState zero it w).offsets.length := by
  unfold chunkState; simp

theorem readChunk (h : VecOk rs v) {a : Nat} (ha : a < v.len) (h16 : a % 16 = 0) :
    ∃ w, rs.getBitsUnchecked a 16 = .ok w ∧ ∀ j, w.getLsbD j = (decide (j < 16) && lbit v.data (a + j)) := by
  have hw := h.1
  unfold BV.WF at hw
  unfold RsVec.getBitsUnchecked
  rw [h.2.1]
  exact BV.getBitsRaw_eq (by omega) (by omega) (by omega)

omit [Profile] in
theorem later_step {base : Nat} (h : base + 16 < v.len) :
    later v zero base = stored zero v.data (base + 16) 16 ++ later v zero (base + 16) := by
  unfold later
  rw [show (v.len - 1 - base) / 16 = (v.len - 1 - (base + 16)) / 16 + 1 by omega, Nat.mul_add, Nat.mul_one,
    Nat.add_comm (16 * _) 16, stored_append, List.append_assoc]
  congr 3
  · omega
  · omega

omit [Profile] in
theorem later_last {base : Nat} (h : v.len ≤ base + 16) (hb : base < v.len) :
    later v zero base = stored zero v.data base (v.len - base) := by
  unfold later
  rw [show (v.len - 1 - base) / 16 = 0 by omega]
  simp [stored_zero]

theorem loadNext_eq (h : VecOk rs v) : ∀ (fuel : Nat) (it : BsIter) (l : List Nat), Rel v zero it l → it.base < v.len →
    v.len < it.base + fuel →
    ∃ it' b, loadNext rs zero fuel it = .ok (it', b) ∧ Rel v zero it' l ∧ it'.base < v.len ∧
      (b = true → it'.cursor < it'.contentLen) ∧
      (b = false → it'.cursor = it'.contentLen ∧ v.len ≤ it'.base + 16) := by
  intro fuel
  induction fuel with
  | zero => intro it l _ _ hf; omega
  | succ fuel ih =>
    intro it l hr hb hf
    unfold loadNext
    by_cases hc : it.cursor = it.contentLen
    · rw [if_pos hc, h.2.2]
      by_cases hl : it.base + 16 ≥ v.len
      · rw [if_pos hl]
        exact ⟨it, false, rfl, hr, hb, (fun h => absurd h (by decide)), fun _ => ⟨hc, hl⟩⟩
      · rw [if_neg hl]
        have hal : it.base % 16 = 0 := by
          rcases hr.aligned with h | h
          · exact h
          · omega
        obtain ⟨w, w1, w2⟩ := readChunk h (a := it.base + 16) (by omega) (by omega)
        rw [w1, ok_bind, loadChunk_eq (by exact hr.size), ok_bind]
        refine ih _ l ⟨chunkState_size hr.size, chunkState_content, by unfold chunkState; simp, Or.inl ?_, ?_⟩ ?_ ?_
        · show (it.base + 16) % 16 = 0; omega
        · rw [hr.eq, if_neg (by omega), pending_nil hr.content hc, later_step (by omega),
            chunkState_pending (it := { it with base := it.base + 16 }) w2]
          exact (if_neg (show ¬(it.base + 16 ≥ v.len) by omega)).symm
        · show it.base + 16 < v.len; omega
        · show v.len < it.base + 16 + fuel; omega
    · rw [if_neg hc]
      exact ⟨it, true, rfl, hr, hb, fun _ => by have := hr.cursor; omega, fun h => absurd h (by decide)⟩

omit [Profile] in
theorem emit_rel {it : BsIter} {l : List Nat} (hr : Rel v zero it l) (hb : it.base < v.len) (hc : it.cursor < it.contentLen) :
    ∃ it', emit it = .ok (it', l.head?) ∧ Rel v zero it' l.tail := by
  have h1 := hr.content
  have hlt : it.cursor < it.offsets.length := by omega
  have hp : it.pending = (it.base + it.offsets[it.cursor]) :: { it with cursor := it.cursor + 1 }.pending := by
    unfold pending
    simp only []
    rw [List.drop_eq_getElem_cons (by rw [List.length_take]; omega), List.map_cons, List.getElem_take]
  have hl : l = it.pending ++ later v zero it.base := by rw [hr.eq, if_neg (by omega)]
  refine ⟨{ it with cursor := it.cursor + 1 }, ?_, hr.size, hr.content, ?_, hr.aligned, ?_⟩
  · unfold emit
    rw [idx_of_lt hlt, ok_bind, hl, hp]; rfl
  · show it.cursor + 1 ≤ it.contentLen; omega
  · rw [hl, hp, if_neg (show ¬(it.base ≥ v.len) by omega)]; rfl

omit [Profile] in
theorem getUnchecked_lbit (h : VecOk rs v) {i : Nat} (hi : i < v.len) : rs.getUnchecked i = .ok (b2w (lbit v.data i)) := by
  apply getUnchecked_eq h
  rw [BV.bits_getElem?]
  simp [hi]

omit [Profile] in
theorem skipTail_eq (h : VecOk rs v) : ∀ (fuel base : Nat), base ≤ v.len → v.len < base + fuel →
    ∃ b, skipTail rs zero fuel base = .ok b ∧ base ≤ b ∧
      stored zero v.data base (v.len - base) = if b < v.len then b :: stored zero v.data (b + 1) (v.len - (b + 1)) else [] := by
  intro fuel
  induction fuel with
  | zero =>
    intro base hle hf
    omega
  | succ fuel ih =>
    intro base hle hf
    unfold skipTail
    rw [h.2.2]
    by_cases hb : base < v.len
    · rw [if_pos hb, getUnchecked_lbit h hb, ok_bind]
      rw [show v.len - base = (v.len - (base + 1)) + 1 by omega, stored_succ]
      by_cases hz : lbit v.data base != zero
      · rw [if_neg (by cases zero <;> cases hx : lbit v.data base <;> simp_all [b2w]), if_pos hz]
        exact ⟨base, rfl, Nat.le_refl _, by rw [if_pos hb]⟩
      · rw [if_pos (by cases zero <;> cases hx : lbit v.data base <;> simp_all [b2w]), if_neg hz]
        obtain ⟨b, b1, b2, b3⟩ := ih (base + 1) (by omega) (by omega)
        exact ⟨b, b1, by omega, b3⟩
    · rw [if_neg hb]
      exact ⟨base, rfl, Nat.le_refl _, by rw [if_neg hb, show v.len - base = 0 by omega]; rfl⟩

omit [Profile] in
theorem emitTail_rel (h : VecOk rs v) {it : BsIter} {l : List Nat} (hr : Rel v zero it l) (hb : it.base < v.len)
    (hc : it.cursor = it.contentLen) (he : v.len ≤ it.base + 16) :
    ∃ it', emitTail rs zero it = .ok (it', l.head?) ∧ Rel v zero it' l.tail := by
  have hl : l = stored zero v.data it.base (v.len - it.base) := by
    rw [hr.eq, if_neg (by omega), pending_nil hr.content hc, later_last he hb]; rfl
  obtain ⟨b, b1, b0, b2⟩ := skipTail_eq (zero := zero) h (rs.len + 1) it.base (by omega) (by rw [h.2.2]; omega)
  unfold emitTail
  rw [b1, ok_bind, h.2.2, hl, b2]
  by_cases hlt : b < v.len
  · rw [if_pos hlt, if_pos hlt]
    refine ⟨_, rfl, hr.size, hr.content, hr.cursor, ?_, ?_⟩
    · right; show v.len ≤ b + 1 + 16; omega
    · have hp : BsIter.pending { it with base := b + 1 } = [] := pending_nil hr.content hc
      show _ = if b + 1 ≥ v.len then [] else _
      by_cases hlt' : b + 1 < v.len
      · rw [if_neg (by omega), hp, later_last (show v.len ≤ b + 1 + 16 by omega) hlt']; rfl
      · rw [if_pos (by omega), show v.len - (b + 1) = 0 by omega]; rfl
  · rw [if_neg hlt, if_neg hlt]
    refine ⟨_, rfl, hr.size, hr.content, hr.cursor, ?_, ?_⟩
    · right; show v.len ≤ b + 16; omega
    · exact (if_pos (show b ≥ v.len by omega)).symm

theorem next_rel (h : VecOk rs v) {it : BsIter} {l : List Nat} (hr : Rel v zero it l) :
    ∃ it', next rs zero it = .ok (it', l.head?) ∧ Rel v zero it' l.tail := by
  unfold next
  rw [h.2.2]
  by_cases hb : it.base ≥ v.len
  · rw [if_pos hb]
    have hl : l = [] := by rw [hr.eq, if_pos hb]
    subst hl
    exact ⟨it, rfl, hr⟩
  · rw [if_neg hb]
    by_cases hc : it.cursor = it.contentLen
    · rw [if_pos hc]
      obtain ⟨it', b, g1, g2, g3, g4, g5⟩ := loadNext_eq (zero := zero) h (v.len + 1) it l hr (by omega) (by omega)
      rw [g1, ok_bind]
      cases b with
      | true => simp only [if_true]; exact emit_rel g2 g3 (g4 rfl)
      | false =>
        simp only [Bool.false_eq_true, if_false]
        exact emitTail_rel h g2 g3 (g5 rfl).1 (g5 rfl).2
    · rw [if_neg hc]
      exact emit_rel hr (by omega) (by have := hr.cursor; omega)

/-- What a new iterator yields: the stored bits of all chunks, and once more the bits of the last chunk. -/
theorem new_yields (h : VecOk rs v) : ∃ it, new rs zero = .ok it ∧
    Yields (next rs zero) it
      (if v.len ≤ 16 then positions (!zero) v.bits
        else stored zero v.data 0 (16 * ((v.len - 1) / 16) + 16) ++
          stored zero v.data (16 * ((v.len - 1) / 16)) (v.len - 16 * ((v.len - 1) / 16))) := by
  unfold new
  rw [h.2.2, stored_positions]
  by_cases hl : v.len > 16
  · rw [if_pos hl, if_neg (by omega)]
    obtain ⟨w, w1, w2⟩ := readChunk h (a := 0) (by omega) (by omega)
    rw [w1, ok_bind, loadChunk_eq (by simp)]
    refine ⟨_, rfl, yields_of_sim (rel := Rel v zero) (fun s l hs => next_rel h hs) ⟨chunkState_size (by simp), chunkState_content, by unfold chunkState; simp, Or.inl rfl, ?_⟩⟩
    rw [chunkState_pending (it := ⟨0, List.replicate 16 0, 0, 0⟩) w2]
    show _ = if 0 ≥ v.len then [] else stored zero v.data 0 16 ++ later v zero 0
    rw [if_neg (by omega), Nat.add_comm, stored_append]
    unfold later
    simp only [Nat.zero_add, Nat.sub_zero, List.append_assoc]
  · rw [if_neg hl, if_pos (by omega)]
    refine ⟨_, rfl, yields_of_sim (rel := Rel v zero) (fun s l hs => next_rel h hs) ⟨by simp, by simp, by simp, Or.inl rfl, ?_⟩⟩
    show _ = if 0 ≥ v.len then [] else [] ++ later v zero 0
    by_cases h0 : v.len = 0
    · rw [if_pos (by omega), h0]; rfl
    · rw [if_neg (by omega), later_last (by omega) (by omega)]; rfl

end BsIter
end Vers
