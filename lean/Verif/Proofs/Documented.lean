import Verif.SpecSafe
import Verif.Model.Rmq
import Verif.Proofs.WaveletTop
import Verif.Proofs.EfBuild
import Verif.Proofs.Float

/-! # Calls outside of the domain of a function -/

set_option linter.unusedSimpArgs false

namespace Vers

variable [Profile]
open Spec WM

omit [Profile] in
theorem bits_set_behind {v : BV} {k : Nat} {w w' : Word} (hk : k < v.data.length) (hw : v.data[k]? = some w)
    (h : ∀ i, 64 * k + i < v.len → i < 64 → w'.getLsbD i = w.getLsbD i) :
    (BV.mk (v.data.set k w') v.len).bits = v.bits := by
  unfold BV.bits
  apply List.map_congr_left
  intro i hi
  have hi := List.mem_range.mp hi
  simp only at hi
  unfold lbit
  simp only
  by_cases he : i / 64 = k
  · rw [he, List.getElem?_set_self hk, hw]
    simp only [Option.getD_some]
    exact h _ (by omega) (by omega)
  · rw [List.getElem?_set_ne (by omega)]

omit [Profile] in
theorem getLsbD_one_shl (p i : Nat) (hi : i < 64) : (1#64 <<< p).getLsbD i = decide (i = p) := by
  rw [BitVec.getLsbD_shiftLeft]
  by_cases h : i = p
  · subst h; simp [hi]
  · by_cases h2 : i < p
    · simp [h, h2]
    · simp [hi, h2, h, show i - p ≠ 0 by omega]

/-- If the call fails, then by a panic. -/
def FailsByPanic {α : Type} (r : R α) : Prop := ∀ p, r = .error p → p ≠ .ub ∧ p ≠ .fuel

omit [Profile] in
theorem Spec.Panics.of_bind {α β : Type} {r : R α} {f : α → R β} (hr : FailsByPanic r) (hf : ∀ a, Panics (f a)) :
    Panics (r >>= f) := by
  cases r with
  | error p => exact ⟨p, rfl, hr p rfl⟩
  | ok a => exact hf a

omit [Profile] in
theorem failsByPanic_idx {α : Type} (l : List α) (i : Nat) : FailsByPanic (idx l i) := by
  intro p hp
  rcases Nat.lt_or_ge i l.length with h | h
  · rw [idx_of_lt h] at hp; cases hp
  · rw [idx_of_ge h] at hp; cases hp; simp

theorem failsByPanic_subR (a b : Nat) : FailsByPanic (subR a b) := by
  intro p hp
  unfold subR wrapR at hp
  split at hp
  · cases hp
  · split at hp
    · cases hp; simp
    · cases hp

theorem failsByPanic_addU (a b : Nat) : FailsByPanic (addU a b) := by
  intro p hp
  unfold addU wrapR at hp
  split at hp
  · cases hp
  · split at hp
    · cases hp; simp
    · cases hp

omit [Profile] in
theorem FailsByPanic.bind {α β : Type} {r : R α} {f : α → R β} (hr : FailsByPanic r) (hf : ∀ a, FailsByPanic (f a)) :
    FailsByPanic (r >>= f) := by
  cases r with
  | error p => intro q hq; cases hq; exact hr p rfl
  | ok a => exact hf a

omit [Profile] in
theorem failsByPanic_ok {α : Type} (a : α) : FailsByPanic (.ok a) := fun p hp => by cases hp

theorem failsByPanic_start (n : Nat) (a : Bnd) : FailsByPanic (startBound n a) := by
  unfold startBound
  refine .bind ?_ fun _ => .bind (failsByPanic_subR _ _) fun _ => failsByPanic_ok _
  cases a with
  | included i => exact failsByPanic_ok _
  | excluded i => exact failsByPanic_addU _ _
  | unbounded => exact failsByPanic_ok _

theorem failsByPanic_end (n : Nat) (a : Bnd) : FailsByPanic (endBound n a) := by
  unfold endBound
  refine .bind ?_ fun _ => .bind (failsByPanic_subR _ _) fun _ => failsByPanic_ok _
  cases a with
  | included i => exact failsByPanic_ok _
  | excluded i => exact failsByPanic_subR _ _
  | unbounded => exact failsByPanic_subR _ _

namespace WM

theorem go_clamp {rs : RsVec} {bs : List Bool} (h : LevelOf rs bs) (bit : Word) {i j : Nat} (hi : bs.length ≤ i)
    (hj : bs.length ≤ j) : go rs bit i = go rs bit j := by
  unfold go goZero goOne
  simp only [h.rk, List.take_of_length_le hi, List.take_of_length_le hj]

theorem go_min {rs : RsVec} {bs : List Bool} (h : LevelOf rs bs) (bit : Word) (i : Nat) :
    go rs bit i = go rs bit (min i bs.length) := by
  rcases Nat.le_total bs.length i with hi | hi
  · rw [Nat.min_eq_right hi]; exact go_clamp h bit hi (Nat.le_refl _)
  · rw [Nat.min_eq_left hi]

theorem rankGen_min {m : WM} {k : Nat} {vals : List Nat} (h : Stores m k vals) (read : Nat → R Word) (s e : Nat) :
    m.rankGen read s e = m.rankGen read (min s vals.length) (min e vals.length) := by
  have hne := h.ne
  have hg := h.good
  unfold rankGen
  cases hm : m.data with
  | nil => exact absurd hm hne
  | cons rs rest =>
    rw [hm] at hg
    have hl := hg.2.1
    have hlen : (top rest.length vals).length = vals.length := by simp [top]
    unfold rangeLoop
    simp only [go_min hl _ s, go_min hl _ e, hlen]

theorem selectGen_min {m : WM} {k : Nat} {vals : List Nat} (h : Stores m k vals) (read : Nat → R Word) (o n : Nat) :
    m.selectGen read o n = m.selectGen read (min o vals.length) n := by
  have hne := h.ne
  have hg := h.good
  unfold selectGen
  cases hm : m.data with
  | nil => exact absurd hm hne
  | cons rs rest =>
    rw [hm] at hg
    have hl := hg.2.1
    have hlen : (top rest.length vals).length = vals.length := by simp [top]
    conv_lhs => unfold selectDown
    conv_rhs => unfold selectDown
    simp only [go_min hl _ o, go_min hl _ (min o vals.length), hlen, Nat.min_assoc, Nat.min_self]

end WM

theorem WM.quantLoop_beyond {T : Type} {Holds : Nat → T → Nat → Prop} {k : Nat} {w0 w1 : Nat → T → R T}
    (hf : Steps Holds k (fun l b t => if b then w1 l t else w0 l t)) :
    ∀ (data : List RsVec) (S : List Nat) (level s e j p : Nat) (B : List Nat) (t : T),
    Good data S → data.length + level = k → Seg S s e B → B.length ≤ j → Holds level t p →
    ∃ t', quantLoop w0 w1 data level s e j t = .ok t' ∧ Holds k t' (p * 2 ^ data.length + (2 ^ data.length - 1))
  | [], S, level, s, e, j, p, B, t, hg, hk, hs, hj, ht => by
    have : level = k := by simpa using hk
    subst this
    exact ⟨t, rfl, by simpa using ht⟩
  | rs :: rest, S, level, s, e, j, p, B, t, hg, hk, hs, hj, ht => by
    have hlev : level < k := by simp at hk; omega
    have hk' : rest.length + (level + 1) = k := by simp at hk; omega
    obtain ⟨h1, h2, h3⟩ := hg
    obtain ⟨a, g1, g2, g3, g4, g5, g6, g7, g8, g9, g10⟩ := rank_zero_seg h2 hs
    have hB := length_lo_add_hi rest.length B
    simp only [quantLoop]
    rw [g1, ok_bind, g2, ok_bind, subR_of_le (by omega), ok_bind, Nat.add_sub_cancel_left, if_neg (by omega)]
    obtain ⟨t', f1, f2⟩ := hf level t p true hlev ht
    simp only [if_true] at f1
    rw [f1, ok_bind, subR_of_le g3, ok_bind, subR_of_le g4, ok_bind]
    obtain ⟨t'', k1, k2⟩ := quantLoop_beyond hf rest _ (level + 1) _ _ (j - (lo rest.length B).length) _ _ t' h3
      hk' g10 (by omega) f2
    refine ⟨t'', k1, ?_⟩
    rw [pow_step] at k2
    have hp : 0 < 2 ^ rest.length := Nat.pos_of_ne_zero (by simp)
    have : true.toNat * 2 ^ rest.length + (2 ^ rest.length - 1) = 2 ^ (rest.length + 1) - 1 := by
      simp only [Bool.toNat_true, Nat.pow_succ]; omega
    rw [this] at k2; exact k2

theorem single_steps :
    subR (Nat.max (ceilLog2 (Nat.max 0 2)) (ceilLog2 (1 + 2))) (ceilLog2 (Nat.max 1 2)) = .ok 1 ∧
    addU (2 + 1) 0 = .ok 3 ∧ mulU 1 1 = .ok 1 ∧ addU 0 0 = .ok 0 ∧ addU 0 1 = .ok 1 ∧
    BV.flipBitUnchecked (BV.fromZeros 3) 1 = .ok ⟨[2#64], 3⟩ ∧
    BV.appendBitsUnchecked BV.new (0#64 &&& ((1#64 <<< 1) - 1#64)) 1 = .ok ⟨[0#64], 1⟩ ∧
    (mulU 1 1 >>= fun p => BV.getBitsUnchecked ⟨[0#64], 1⟩ p 1) = .ok 0#64 := by
  refine ⟨?_, ?_, ?_, ?_, ?_, ?_, ?_, ?_⟩ <;> decide +revert

end Vers
