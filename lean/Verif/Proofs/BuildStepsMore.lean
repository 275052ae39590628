import Verif.Proofs.BuildSteps
import Verif.Model.BuildStepsMore
import Verif.AbsEf
import Verif.Proofs.EfBuild

/-! # The steps of the constructors of `Model/BuildStepsMore.lean` -/

namespace Vers

variable [Profile]
open Counted

namespace Counted

theorem dassertC_within (n : Nat) (p : Prop) [Decidable p] : Within (dassertC n p) (dassertR p) n :=
  ⟨rfl, by show (if Profile.debug = true then n else 0) ≤ n; split <;> omega⟩

theorem free_bindOk {α β : Type} {y : R α} {f : α → Counted β} {g : α → R β} {n : Nat}
    (hf : ∀ v, y = .ok v → Within (f v) (g v) n) : Within (free y >>= f) (y >>= g) n :=
  (within_free y 0).bindOk (by omega) hf

end Counted

theorem addU_le {a b r : Nat} (h : addU a b = .ok r) : r ≤ a + b := by
  unfold addU at h
  split at h
  · cases h; exact Nat.le_refl _
  · unfold wrapR at h
    split at h
    · cases h
    · cases h; exact Nat.mod_le _ _

namespace EF

omit [Profile] in
theorem flip_length {v v' : BV} {p : Nat} (h : v.flipBitUnchecked p = .ok v') : v'.data.length = v.data.length := by
  obtain ⟨w, -, h⟩ := bind_eq_ok.1 h
  obtain ⟨d, hd, h⟩ := bind_eq_ok.1 h
  cases h
  exact setIdx_length hd

theorem fillLoop_length (zero : Word) (w : Nat) : ∀ xs u l i ul, fillLoop zero w u l i xs = .ok ul →
    ul.1.data.length = u.data.length
  | [], _, _, _, _, h => by cases h; rfl
  | x :: xs, u, l, i, ul, h => by
    obtain ⟨word, -, h⟩ := bind_eq_ok.1 h
    obtain ⟨p, -, h⟩ := bind_eq_ok.1 h
    obtain ⟨p', -, h⟩ := bind_eq_ok.1 h
    obtain ⟨u', hu, h⟩ := bind_eq_ok.1 h
    obtain ⟨l', -, h⟩ := bind_eq_ok.1 h
    rw [fillLoop_length zero w xs u' l' (i + 1) ul h, flip_length hu]

theorem fillLoopC_within (zero : Word) (w : Nat) : ∀ xs u l i,
    Within (fillLoopC zero w u l i xs) (fillLoop zero w u l i xs) xs.length
  | [], u, l, _ => within_pure (u, l) _
  | _ :: xs, _, _, i => tick_bind fun _ => free_bind fun _ => free_bind fun _ => free_bind fun _ => free_bind fun _ =>
      fillLoopC_within zero w xs _ _ (i + 1)

/-- the length of the upper vector -/
theorem ulen_le {fl : Nat → Nat} (hfl : LogLike fl) {n : Nat} (hn : 0 < n) (hl : n < 2 ^ 60) (bound : Word) {w ulen : Nat}
    (hw : subR (Nat.max (fl (Nat.max bound.toNat 2)) (fl (n + 2))) (fl (Nat.max n 2)) = .ok w)
    (hu : addU (2 + n) (bound >>> w).toNat = .ok ulen) : ulen ≤ 9 * n + 18 := by
  have h1 := hfl.step n hn hl
  have hmax : fl (n + 2) ≤ Nat.max (fl (Nat.max bound.toNat 2)) (fl (n + 2)) := Nat.le_max_right _ _
  have hmax2 : fl (Nat.max bound.toNat 2) ≤ Nat.max (fl (Nat.max bound.toNat 2)) (fl (n + 2)) := Nat.le_max_left _ _
  have h1' : fl (Nat.max n 2) ≤ fl (n + 2) := h1
  rw [subR_of_le (by omega)] at hw
  injection hw with hw
  have hb : bound.toNat < 2 ^ 64 := bound.isLt
  have e1 : Nat.max bound.toNat 2 = Max.max bound.toNat 2 := rfl
  have h2 := hfl.lower (Nat.max bound.toNat 2) (by rw [e1]; omega) (by rw [e1]; omega)
  have e2 : Nat.max n 2 = Max.max n 2 := rfl
  have h3 := hfl.upper (Nat.max n 2) (by rw [e2]; omega) (by rw [e2]; omega)
  have h4 : bound.toNat ≤ 2 ^ (fl (Nat.max bound.toNat 2) + 1) := by rw [e1] at h2 ⊢; omega
  have h5 : 2 ^ (fl (Nat.max bound.toNat 2) + 1) ≤ 2 ^ (fl (Nat.max n 2) + 1 + w) :=
    Nat.pow_le_pow_right (by decide) (by omega)
  have h6 : bound.toNat / 2 ^ w ≤ 2 ^ (fl (Nat.max n 2) + 1) := by
    apply Nat.div_le_of_le_mul
    rw [Nat.pow_add 2 _ w, Nat.mul_comm] at h5
    omega
  rw [Nat.pow_succ] at h6
  have h7 := addU_le hu
  rw [shr_toNat] at h7
  rw [e2] at h3 h6
  omega

theorem fromSliceC_within (lazy : Bool) {fl : Nat → Nat} (hfl : LogLike fl) (data : List Word) (hl : data.length < 2 ^ 60) :
    Within (fromSliceC lazy fl data) (fromSlice fl data) (3 * data.length + 6) := by
  unfold fromSliceC fromSlice
  by_cases h0 : data = []
  · rw [if_pos h0, if_pos h0]
    exact ((RsVec.fromBitVecC_within BV.new).mono (by show 0 + 2 ≤ _; omega)).map
  rw [if_neg h0, if_neg h0]
  have hpos : 0 < data.length := List.length_pos_iff.mpr h0
  refine (dassertC_within data.length _).bind (b := 2 * data.length + 6) (by omega) fun _ => ?_
  refine free_bind fun zero => free_bind fun last => free_bind fun bound => free_bindOk fun w hw => free_bind fun _ =>
    free_bindOk fun ulen hu => free_bind fun _ => ?_
  have hlen := ulen_le hfl hpos hl bound hw hu
  refine words_bind (b := data.length + ((ulen + 63) / 64 + 2)) (by omega) ?_
  refine (fillLoopC_within zero w data _ _ 0).bindOk (b := (ulen + 63) / 64 + 2) (by omega) fun ul hul => ?_
  have e := fillLoop_length _ _ _ _ _ _ _ hul
  rw [BV.length_fromZeros] at e
  exact ((RsVec.fromBitVecC_within ul.1).mono (by omega)).map

end EF

namespace Sparse

theorem newC_within (lazy : Bool) {fl : Nat → Nat} (hfl : LogLike fl) (input : List Word) (hl : input.length < 2 ^ 60) (len : Word) :
    Within (newC lazy fl input len) (new fl input len) (5 * input.length + 6) :=
  (dassertC_within input.length _).bind (b := 4 * input.length + 6) (by omega) fun _ =>
    (dassertC_within input.length _).bind (b := 3 * input.length + 6) (by omega) fun _ =>
      (EF.fromSliceC_within lazy hfl input hl).map

omit [Profile] in
theorem collectBits_length (v : BV) (w : Word) : ∀ fuel it i l, collectBits v w fuel it i = .ok l → l.length < fuel
  | 0, _, _, _, h => by cases h
  | fuel + 1, it, i, l, h => by
    obtain ⟨p, -, h⟩ := bind_eq_ok.1 h
    split at h
    · cases h; exact Nat.succ_pos _
    · obtain ⟨rest, hr, h⟩ := bind_eq_ok.1 h
      have := collectBits_length v w fuel _ _ _ hr
      split at h
      · cases h; rw [List.length_cons]; omega
      · cases h; omega

theorem collectBitsC_within (v : BV) (w : Word) : ∀ fuel it i,
    Within (collectBitsC v w fuel it i) (collectBits v w fuel it i) fuel
  | 0, _, _ => within_free _ _
  | fuel + 1, it, i => tick_bind fun p => by
    rcases p with ⟨it', o⟩
    cases o with
    | none => exact within_pure _ _
    | some bit =>
      exact (collectBitsC_within v w fuel it' (i + 1)).bind (Nat.le_refl (_ + 0)) fun _ => (within_pure _ _).ite (within_pure _ _)

theorem collect_new_within (lazy : Bool) {fl : Nat → Nat} (hfl : LogLike fl) (v : BV) (hl : v.len < 2 ^ 60) (w : Word) :
    Within (do
        let input ← collectBitsC v w (v.len + 1) (GenIter.new v.vecOps) 0
        newC lazy fl input (BitVec.ofNat 64 v.len))
      (do
        let input ← collectBits v w (v.len + 1) (GenIter.new v.vecOps) 0
        new fl input (BitVec.ofNat 64 v.len)) (6 * v.len + 7) :=
  (collectBitsC_within v w _ _ _).bindOk (b := 5 * v.len + 6) (by omega) fun input h => by
    have := collectBits_length _ _ _ _ _ _ h
    exact (newC_within lazy hfl input (by omega) _).mono (by omega)

end Sparse

namespace MMT

theorem leafLoopC_within (v : BV) (bs ni : Nat) : ∀ n st, Within (leafLoopC v bs ni n st) (leafLoop v bs ni n st) n
  | 0, st => within_pure st _
  | n + 1, st => (leafLoopC_within v bs ni n st).bind (Nat.le_refl _) fun _ => within_tick _

theorem levelLoopC_within (start : Nat) : ∀ n nodes, Within (levelLoopC start n nodes) (levelLoop start n nodes) n
  | 0, nodes => within_pure nodes _
  | n + 1, nodes => (levelLoopC_within start n nodes).bind (Nat.le_refl _) fun _ => within_tick _

theorem levelsC_within : ∀ fuel size start nodes,
    Within (levelsC fuel size start nodes) (levels fuel size start nodes) (2 * size)
  | 0, _, _, _ => within_free _ _
  | fuel + 1, size, start, nodes => (levelLoopC_within start size nodes).bind (b := 2 * (size / 2)) (by omega) fun _ =>
      (within_pure _ _).ite (free_bind fun _ => levelsC_within fuel (size / 2) _ _)

omit [Profile] in
theorem pow_log2Ceil_le {n : Nat} (h : 0 < n) : 2 ^ log2Ceil n ≤ 2 * n := by
  unfold log2Ceil
  split
  · show 1 ≤ _; omega
  · rw [Nat.pow_succ]
    have := Nat.log2_self_le (n := n - 1) (by omega)
    omega

theorem excessTreeC_within (lazy : Bool) (v : BV) {bs : Nat} (hbs : 0 < bs) :
    Within (excessTreeC lazy v bs) (excessTree v bs) (v.len + 5 * ((v.len + bs - 1) / bs)) := by
  unfold excessTreeC excessTree
  by_cases h0 : v.isEmpty
  · rw [if_pos h0, if_pos h0]; exact within_pure _ _
  rw [if_neg h0, if_neg h0]
  have hlen : 0 < v.len := by
    unfold BV.isEmpty at h0
    simp at h0
    omega
  refine free_bindOk fun leaves hleaves => ?_
  unfold divCeilR at hleaves
  rw [if_neg (by omega)] at hleaves
  injection hleaves with hleaves
  have hpos : 0 < leaves := by rw [← hleaves]; exact Nat.div_pos (by omega) hbs
  rw [hleaves]
  have hp := pow_log2Ceil_le hpos
  have hsz : max 1 (nextPow2 leaves / 2) ≤ leaves := by unfold nextPow2; omega
  refine words_bind (b := v.len + 2 * leaves) (by omega) ?_
  refine (leafLoopC_within v bs _ v.len _).bind (b := 2 * leaves) (by omega) fun st => ?_
  refine free_bind fun k => free_bind fun nodes => free_bind fun start => ?_
  exact ((levelsC_within _ _ _ _).mono (by omega)).map

end MMT

end Vers
