import Verif.Proofs.BitVecOps2

/-! # Correctness of the bit vector operations, part 3: packing, extending, splitting, masks -/

set_option linter.unusedSimpArgs false

namespace Vers

variable [Profile]
open Spec
namespace BV

/-! ## packing -/

omit [Profile] in
/-- the bits `pack_sequence` must store for one element: `b` bits, the element zero-extended -/
theorem natToBits_zero (n : Nat) : natToBits n 0 = List.replicate n false := by
  induction n with
  | zero => rfl
  | succ n ih => simp [natToBits, ih, List.replicate_succ]

omit [Profile] in
theorem natToBits_append (a b x : Nat) :
    natToBits (a + b) x = natToBits a x ++ natToBits b (x / 2 ^ a) := by
  induction a generalizing x with
  | zero => simp [natToBits]
  | succ a ih =>
    rw [show a + 1 + b = (a + b) + 1 by omega]
    simp only [natToBits, ih, List.cons_append]
    rw [Nat.div_div_eq_div_mul, Nat.pow_succ, Nat.mul_comm (2 ^ a) 2]

omit [Profile] in
theorem packPad_refines {m : Nat} (hm : 1 ≤ m) (hm' : m ≤ 64) :
    ∀ (fuel rest : Nat) (v : BV), v.WF → rest ≤ fuel →
      Refines (packPad m fuel v rest) (v.bits ++ List.replicate rest false) := by
  intro fuel
  induction fuel with
  | zero =>
    intro rest v h hr
    obtain rfl : rest = 0 := by omega
    exact ⟨v, rfl, h, by simp⟩
  | succ fuel ih =>
    intro rest v h hr
    cases rest with
    | zero => exact ⟨v, rfl, h, by simp⟩
    | succ rest =>
      unfold packPad
      obtain ⟨v', h1, h2, h3⟩ := appendBits_refines h 0#64 (min (rest + 1) m) (by omega) (by omega)
      rw [h1, ok_bind]
      obtain ⟨v'', h4, h5, h6⟩ := ih (rest + 1 - m) v' h2 (by omega)
      refine ⟨v'', h4, h5, ?_⟩
      rw [h6, h3, List.append_assoc]
      congr 1
      rw [show (0#64).toNat = 0 from rfl, natToBits_zero, List.replicate_append_replicate]
      congr 1; omega

omit [Profile] in
theorem packWord_refines {m : Nat} (hm : 1 ≤ m) (hm' : m ≤ 64) {v : BV} (h : v.WF) (w : Word)
    (hw : w.toNat < 2 ^ m) (b : Nat) (hb : 1 ≤ b) :
    Refines (packWord m v w b) (v.bits ++ natToBits b w.toNat) := by
  unfold packWord
  split
  · exact appendBits_refines h w b hb (by omega)
  · obtain ⟨v', h1, h2, h3⟩ := appendBits_refines h w m hm hm'
    rw [h1, ok_bind]
    obtain ⟨v'', h4, h5, h6⟩ := packPad_refines hm hm' b (b - m) v' h2 (by omega)
    refine ⟨v'', h4, h5, ?_⟩
    rw [h6, h3, List.append_assoc]
    congr 1
    conv => rhs; rw [show b = m + (b - m) by omega, natToBits_append, Nat.div_eq_of_lt hw,
      natToBits_zero]

omit [Profile] in
theorem packLoop_refines {m : Nat} (hm : 1 ≤ m) (hm' : m ≤ 64) (b : Nat) (hb : 1 ≤ b)
    (ws : List Word) (hw : ∀ w ∈ ws, w.toNat < 2 ^ m) {v : BV} (h : v.WF) :
    Refines (packLoop m v b ws) (v.bits ++ ws.flatMap (fun w => natToBits b w.toNat)) := by
  induction ws generalizing v with
  | nil => exact ⟨v, rfl, h, by simp⟩
  | cons w ws ih =>
    unfold packLoop
    obtain ⟨v', h1, h2, h3⟩ := packWord_refines hm hm' h w (hw w (by simp)) b hb
    rw [h1, ok_bind]
    obtain ⟨v'', h4, h5, h6⟩ := ih (fun x hx => hw x (by simp [hx])) h2
    exact ⟨v'', h4, h5, by rw [h6, h3]; simp⟩

/-! ## extend -/

omit [Profile] in
theorem extendLoop_refines (d : List Word) :
    ∀ (n i : Nat) (v : BV), v.WF → i + n ≤ d.length →
      Refines (extendLoop v d i n) (v.bits ++ ((d.drop i).take n).flatMap wordBits) := by
  intro n
  induction n with
  | zero => intro i v h _; exact ⟨v, rfl, h, by simp⟩
  | succ n ih =>
    intro i v h hi
    unfold extendLoop
    rw [idx_of_lt (show i < d.length by omega), ok_bind]
    obtain ⟨v', h1, h2, h3⟩ := appendBits_refines h (d[i]'(by omega)) 64 (by omega) (by omega)
    rw [h1, ok_bind]
    obtain ⟨v'', h4, h5, h6⟩ := ih (i + 1) v' h2 (by omega)
    refine ⟨v'', h4, h5, ?_⟩
    rw [h6, h3, List.drop_eq_getElem_cons (show i < d.length by omega),
      List.take_succ_cons, List.flatMap_cons, List.append_assoc]
    rfl

omit [Profile] in
/-- the bits of a vector, limb by limb -/
theorem bits_eq_limbs {v : BV} (h : v.WF) :
    v.bits = (v.data.take (v.len / 64)).flatMap wordBits ++
      (if h' : v.len % 64 > 0 then
        natToBits (v.len % 64) (v.data[v.len / 64]'(by unfold WF at h; omega)).toNat else []) := by
  unfold WF at h
  have h1 : (v.data.take (v.len / 64)).flatMap wordBits =
      (fromLimbs (v.data.take (v.len / 64))).bits := (bits_fromLimbs _).symm
  have hl : (v.data.take (v.len / 64)).length = v.len / 64 := by simp; omega
  rw [h1]
  apply bits_eq_of
  · simp [fromLimbs, hl]
    split <;> simp <;> omega
  · intro i hi
    by_cases hi2 : i < 64 * (v.len / 64)
    · rw [List.getElem?_append_left (by simp [fromLimbs, hl]; omega), bits_getElem?,
        if_pos (by simp [fromLimbs, hl]; omega)]
      simp only [fromLimbs]
      rw [lbit_take hi2]
    · rw [List.getElem?_append_right (by simp [fromLimbs, hl]; omega)]
      have hm : v.len % 64 > 0 := by omega
      rw [dif_pos hm]
      have hlen : (fromLimbs (List.take (v.len / 64) v.data)).bits.length = 64 * (v.len / 64) := by
        simp [fromLimbs, hl]; omega
      rw [hlen, natToBits_word _ _ _ (by omega)]
      congr 1
      have : i = 64 * (v.len / 64) + (i - 64 * (v.len / 64)) := by omega
      conv => rhs; rw [this]
      rw [lbit_word (by omega), List.getElem?_eq_getElem (by omega)]; rfl

theorem extendBitvec_refines {v o : BV} (hv : v.WF) (ho : o.WF) :
    Refines (v.extendBitvec o) (v.bits ++ o.bits) := by
  have hv' := hv
  have ho' := ho
  unfold WF at hv' ho'
  unfold extendBitvec
  rw [reserveR, if_pos (by omega), ok_bind]
  obtain ⟨v', h1, h2, h3⟩ := extendLoop_refines o.data (o.len / 64) 0 v hv (by omega)
  simp only [h1, ok_bind]
  rw [List.drop_zero] at h3
  rw [bits_eq_limbs ho]
  by_cases hp : o.len % 64 > 0
  · rw [if_pos hp, dif_pos hp, idx_of_lt (by omega), ok_bind]
    obtain ⟨v'', h4, h5, h6⟩ := appendBits_refines h2 (o.data[o.len / 64]'(by omega)) (o.len % 64)
      (by omega) (by omega)
    exact ⟨v'', h4, h5, by rw [h6, h3, List.append_assoc]⟩
  · rw [if_neg hp, dif_neg hp]
    exact ⟨v', rfl, h2, by rw [h3, List.append_nil]⟩

theorem extend_refines {v : BV} (hv : v.WF) (os : List BV) (ho : ∀ o ∈ os, o.WF) :
    Refines (v.extend os) (v.bits ++ os.flatMap bits) := by
  induction os generalizing v with
  | nil => exact ⟨v, rfl, hv, by simp⟩
  | cons o os ih =>
    unfold extend
    obtain ⟨v', h1, h2, h3⟩ := extendBitvec_refines hv (ho o (by simp))
    rw [h1, ok_bind]
    obtain ⟨v'', h4, h5, h6⟩ := ih h2 (fun x hx => ho x (by simp [hx]))
    exact ⟨v'', h4, h5, by rw [h6, h3]; simp⟩

/-! ## split -/

omit [Profile] in
theorem splitLoop_refines (d : List Word) :
    ∀ (n i : Nat) (v : BV), v.WF → v.Clean → i + n ≤ d.length →
      ∃ v', splitLoop d v i n = .ok v' ∧ v'.WF ∧ v'.Clean ∧
        v'.bits = v.bits ++ ((d.drop i).take n).flatMap wordBits := by
  intro n
  induction n with
  | zero => intro i v h hc _; exact ⟨v, rfl, h, hc, by simp⟩
  | succ n ih =>
    intro i v h hc hi
    unfold splitLoop
    rw [idx_of_lt (show i < d.length by omega), ok_bind]
    obtain ⟨v', h1, h2, h3, hc'⟩ :=
      appendBitsUnchecked_refines h hc (d[i]'(by omega)) 64 (by omega) (by omega)
    rw [h1, ok_bind]
    obtain ⟨v'', h4, h5, hc'', h6⟩ := ih (i + 1) v' h2
      (hc' (fun j hj => BitVec.getLsbD_of_ge _ _ hj)) (by omega)
    refine ⟨v'', h4, h5, hc'', ?_⟩
    rw [h6, h3, List.drop_eq_getElem_cons (show i < d.length by omega),
      List.take_succ_cons, List.flatMap_cons, List.append_assoc]
    rfl

omit [Profile] in
theorem getElem?_flatMap_wordBits (d : List Word) (i : Nat) :
    (d.flatMap wordBits)[i]? = if i < d.length * 64 then some (lbit d i) else none := by
  rw [← bits_fromLimbs, bits_getElem?]; rfl

omit [Profile] in
theorem length_flatMap_wordBits (d : List Word) : (d.flatMap wordBits).length = d.length * 64 := by
  rw [← bits_fromLimbs]; simp [fromLimbs]

omit [Profile] in
theorem lbit_drop (d : List Word) (k i : Nat) : lbit (d.drop k) i = lbit d (64 * k + i) := by
  unfold lbit
  rw [List.getElem?_drop]
  rw [show (64 * k + i) / 64 = k + i / 64 by omega, show (64 * k + i) % 64 = i % 64 by omega]

theorem splitAtUnchecked_refines {v : BV} (h : v.WF) {a : Nat} (ha : a ≤ v.len) :
    ∃ l r, v.splitAtUnchecked a = .ok (l, r) ∧ l.WF ∧ r.WF ∧
      l.bits = v.bits.take a ∧ r.bits = v.bits.drop a := by
  have hwf := h
  unfold WF at hwf
  unfold splitAtUnchecked
  rw [subR_of_le ha, ok_bind]
  by_cases h0 : v.len - a = 0
  · simp only [h0, if_true]
    refine ⟨v, new, rfl, h, wf_new, ?_, ?_⟩
    · rw [List.take_of_length_le (by simp; omega)]
    · rw [List.drop_of_length_le (by simp; omega)]; rfl
  · simp only [h0, if_false]
    -- the right half
    suffices hs : ∃ r, v.splitRight a (v.len - a) = .ok r ∧ r.WF ∧ r.bits = v.bits.drop a by
      obtain ⟨r, hr, hr1, hr2⟩ := hs
      simp only [hr, ok_bind]
      refine ⟨_, r, rfl, dropLast_wf h _, hr1, ?_, hr2⟩
      rw [dropLast_bits]; congr 1; omega
    unfold splitRight
    simp only
    by_cases hsame : a / 64 = v.len / 64
    · rw [if_pos hsame, idx_of_lt (by omega), ok_bind]
      obtain ⟨r, h1, h2, h3, -⟩ := appendBitsUnchecked_refines wf_new clean_new
        ((v.data[a / 64]'(by omega)) >>> (a % 64)) (v.len - a) (by omega) (by omega)
      refine ⟨r, h1, h2, ?_⟩
      rw [h3, bits_new, List.nil_append]
      apply List.ext_getElem?
      intro i
      rw [List.getElem?_drop, bits_getElem?]
      by_cases hi : i < v.len - a
      · rw [natToBits_word _ _ _ hi, if_pos (by omega), BitVec.getLsbD_ushiftRight]
        congr 1
        have : a + i = 64 * (a / 64) + (a % 64 + i) := by omega
        rw [this, lbit_word (by omega), List.getElem?_eq_getElem (by omega)]; rfl
      · rw [List.getElem?_eq_none (by simp; omega), if_neg (by omega)]
    · rw [if_neg hsame]
      -- first partial limb
      have hfirst : ∃ o s, v.splitFirst a = .ok (o, s) ∧ o.WF ∧ o.Clean ∧
            s = (a + 63) / 64 ∧ o.len = 64 * s - a ∧
            ∀ i, i < o.len → lbit o.data i = lbit v.data (a + i) := by
        unfold splitFirst
        by_cases hp : a % 64 > 0
        · rw [if_pos hp, idx_of_lt (by omega), ok_bind]
          obtain ⟨r, h1, h2, h3, h4⟩ := appendBitsUnchecked_refines wf_new clean_new
            ((v.data[a / 64]'(by omega)) >>> (a % 64)) (64 - a % 64) (by omega) (by omega)
          rw [h1]
          have hrl : r.len = 64 - a % 64 := by
            have := congrArg List.length h3; simpa [new] using this
          refine ⟨r, a / 64 + 1, rfl, h2, ?_, by omega, by omega, ?_⟩
          · apply h4
            intro i hi
            rw [BitVec.getLsbD_ushiftRight]
            exact BitVec.getLsbD_of_ge _ _ (by omega)
          · intro i hi
            have h5 : r.bits[i]? = some (lbit r.data i) := by rw [bits_getElem?, if_pos hi]
            rw [h3, bits_new, List.nil_append, natToBits_word _ _ _ (by omega)] at h5
            have h5 := Option.some.inj h5
            rw [← h5, BitVec.getLsbD_ushiftRight]
            have : a + i = 64 * (a / 64) + (a % 64 + i) := by omega
            rw [this, lbit_word (by omega), List.getElem?_eq_getElem (by omega)]; rfl
        · rw [if_neg hp]
          refine ⟨new, a / 64, rfl, wf_new, clean_new, by omega, ?_, ?_⟩
          · simp [new]; omega
          · intro i hi; simp [new] at hi
      obtain ⟨o, s, e1, ho, hoc, hs, hol, hob⟩ := hfirst
      simp only [e1, ok_bind]
      obtain ⟨o2, e2, ho2, hoc2, hb2⟩ := splitLoop_refines v.data (v.len / 64 - s) s o ho hoc (by omega)
      simp only [e2, ok_bind]
      have ho2l : o2.len = 64 * (v.len / 64) - a := by
        have := congrArg List.length hb2
        simp only [length_bits, List.length_append, length_flatMap_wordBits, List.length_take,
          List.length_drop] at this
        omega
      have hb2' : ∀ i, i < o2.len → o2.bits[i]? = some (lbit v.data (a + i)) := by
        intro i hi
        rw [hb2]
        by_cases hi2 : i < o.len
        · rw [List.getElem?_append_left (by simpa using hi2), bits_getElem?, if_pos hi2, hob i hi2]
        · rw [List.getElem?_append_right (by simpa using hi2), getElem?_flatMap_wordBits,
            if_pos (by simp; omega), lbit_take (by simp; omega), lbit_drop]
          congr 2; simp; omega
      by_cases hp : v.len % 64 > 0
      · rw [if_pos hp, idx_of_lt (by omega), ok_bind]
        obtain ⟨r, h1, h2, h3, -⟩ := appendBitsUnchecked_refines ho2 hoc2
            (v.data[v.len / 64]'(by omega)) (v.len % 64) (by omega) (by omega)
        refine ⟨r, h1, h2, ?_⟩
        rw [h3]
        apply List.ext_getElem?
        intro i
        rw [List.getElem?_drop, bits_getElem?]
        by_cases hi : i < o2.len
        · rw [List.getElem?_append_left (by simpa using hi), hb2' i hi, if_pos (by omega)]
        · rw [List.getElem?_append_right (by simpa using hi)]
          by_cases hi3 : a + i < v.len
          · rw [if_pos hi3, natToBits_word _ _ _ (by simp; omega)]
            congr 1
            have : a + i = 64 * (v.len / 64) + (i - o2.bits.length) := by simp; omega
            rw [this, lbit_word (by simp; omega), List.getElem?_eq_getElem (by omega)]; rfl
          · rw [if_neg hi3, List.getElem?_eq_none (by simp; omega)]
      · rw [if_neg hp]
        refine ⟨o2, rfl, ho2, ?_⟩
        apply List.ext_getElem?
        intro i
        rw [List.getElem?_drop]
        by_cases hi : i < o2.len
        · rw [hb2' i hi, bits_getElem?, if_pos (by omega)]
        · rw [List.getElem?_eq_none (by simpa using hi), bits_getElem?, if_neg (by omega)]

end BV
end Vers
