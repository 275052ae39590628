import Verif.Model.Bp
import Verif.Proofs.Excess
import Verif.Proofs.MmtBuild
import Verif.Proofs.BitVecOps

set_option linter.unusedSimpArgs false

/-! # The parenthesis lookup tables -/

namespace Vers

variable [Profile]
open Spec

/-- The result of a forward search for relative excess `rel` in `l`, which begins at position `i`. -/
def fwdRes (l : List Bool) (i : Nat) (rel : Int) : Found :=
  match firstExc l rel with
  | some m => .at (i + m)
  | none => .miss (rel - excess l)

/-- The result of a backward search in `l`, which ends before position `i`. -/
def bwdRes (l : List Bool) (i : Nat) (rel : Int) : Found :=
  match firstExc l.reverse (-rel) with
  | some m => .at (i - 1 - m)
  | none => .miss (rel + excess l)

omit [Profile] in
theorem fwdRes_some {l : List Bool} {i : Nat} {rel : Int} {m : Nat} (h : firstExc l rel = some m) :
    fwdRes l i rel = .at (i + m) := by unfold fwdRes; rw [h]

omit [Profile] in
theorem fwdRes_none {l : List Bool} {i : Nat} {rel : Int} (h : firstExc l rel = none) :
    fwdRes l i rel = .miss (rel - excess l) := by unfold fwdRes; rw [h]

omit [Profile] in
theorem bwdRes_some {l : List Bool} {i : Nat} {rel : Int} {m : Nat} (h : firstExc l.reverse (-rel) = some m) :
    bwdRes l i rel = .at (i - 1 - m) := by unfold bwdRes; rw [h]

omit [Profile] in
theorem bwdRes_none {l : List Bool} {i : Nat} {rel : Int} (h : firstExc l.reverse (-rel) = none) :
    bwdRes l i rel = .miss (rel + excess l) := by unfold bwdRes; rw [h]

omit [Profile] in
/-- Continue a forward search. -/
theorem fwdRes_orElse {a c : List Bool} {i : Nat} {rel : Int} {k : Int → R Found}
    (h : firstExc a rel = none → k (rel - excess a) = .ok (fwdRes c (i + a.length) (rel - excess a))) :
    (fwdRes a i rel).orElse k = .ok (fwdRes (a ++ c) i rel) := by
  cases ha : firstExc a rel with
  | some m =>
    rw [fwdRes_some ha, fwdRes_some (firstExc_append_some ha c)]; rfl
  | none =>
    rw [fwdRes_none ha]
    show k (rel - excess a) = _
    rw [h ha]
    cases hc : firstExc c (rel - excess a) with
    | some m =>
      rw [fwdRes_some hc, fwdRes_some (m := m + a.length) (by rw [firstExc_append_none ha, hc]; rfl)]
      congr 2; omega
    | none =>
      rw [fwdRes_none hc, fwdRes_none (by rw [firstExc_append_none ha, hc]; rfl), excess_append]
      congr 2; omega

omit [Profile] in
/-- Continue a backward search. -/
theorem bwdRes_orElse {a c : List Bool} {i : Nat} {rel : Int} {k : Int → R Found}
    (h : firstExc a.reverse (-rel) = none → k (rel + excess a) = .ok (bwdRes c (i - a.length) (rel + excess a))) :
    (bwdRes a i rel).orElse k = .ok (bwdRes (c ++ a) i rel) := by
  cases ha : firstExc a.reverse (-rel) with
  | some m =>
    rw [bwdRes_some ha, bwdRes_some (by rw [List.reverse_append]; exact firstExc_append_some ha c.reverse)]; rfl
  | none =>
    rw [bwdRes_none ha]
    show k (rel + excess a) = _
    rw [h ha]
    have e : -rel - excess a = -(rel + excess a) := by omega
    cases hc : firstExc c.reverse (-(rel + excess a)) with
    | some m =>
      rw [bwdRes_some hc, bwdRes_some (m := m + a.length)
        (by rw [List.reverse_append, firstExc_append_none ha, excess_reverse, e, hc, List.length_reverse]; rfl)]
      congr 2; omega
    | none =>
      rw [bwdRes_none hc, bwdRes_none
        (by rw [List.reverse_append, firstExc_append_none ha, excess_reverse, e, hc]; rfl), excess_append]
      congr 2; omega

omit [Profile] in
theorem natToBits_succ_last (n x : Nat) : natToBits (n + 1) x = natToBits n x ++ [x.testBit n] := by
  apply List.ext_getElem?
  intro i
  rw [natToBits_getElem?, List.getElem?_append, length_natToBits, natToBits_getElem?]
  by_cases h : i < n
  · rw [if_pos h, if_pos h, if_pos (by omega)]
  · rw [if_neg h]
    by_cases h' : i = n
    · subst h'; rw [if_pos (by omega)]; simp
    · rw [if_neg (by omega), List.getElem?_eq_none (by simp; omega)]

namespace Lookup

omit [Profile] in
theorem totalExcess_eq (size v : Nat) : totalExcess size v = excess (natToBits size v) := by
  induction size with
  | zero => rfl
  | succ n ih =>
    rw [natToBits_succ_last, excess_append, ← ih, excess_singleton]
    simp only [totalExcess, cnt, bitAt, sgn]
    cases v.testBit n <;> simp <;> omega

/-! ## 8-bit tables -/

/-- The query map before each block. -/
def clean : List (BitVec 8) := List.replicate 17 (-1#8)

/-- The entry of a block. -/
def ent (fwd : Bool) (v : Nat) : Word :=
  match entry8 fwd v clean with
  | .ok p => p.1
  | .error _ => 0#64

omit [Profile] in
theorem entry8_clean : ∀ v, v < 256 → ∀ fwd, entry8 fwd v clean = .ok (ent fwd v, clean) := by
  decide +kernel

omit [Profile] in
theorem tableLoop8_eq (fwd : Bool) (n : Nat) (hn : n ≤ 256) :
    tableLoop8 fwd n = .ok ((List.range n).map (ent fwd), clean) := by
  induction n with
  | zero => rfl
  | succ n ih =>
    rw [tableLoop8, ih (by omega), ok_bind]
    simp only []
    rw [entry8_clean n (by omega) fwd, ok_bind, List.range_succ, List.map_append]; rfl

omit [Profile] in
theorem table8_idx (fwd : Bool) {v : Nat} (hv : v < 256) :
    (table8 fwd >>= fun t => idx t v) = .ok (ent fwd v) := by
  unfold table8
  rw [tableLoop8_eq fwd 256 (by omega), ok_bind, pure_eq_ok, ok_bind]
  exact idx_of_some (by simp [hv])

omit [Profile] in
theorem table8_eq (fwd : Bool) : table8 fwd = .ok ((List.range 256).map (ent fwd)) := by
  unfold table8
  rw [tableLoop8_eq fwd 256 (by omega), ok_bind]; rfl

omit [Profile] in
theorem idx_ent (fwd : Bool) {v : Nat} (hv : v < 256) : idx ((List.range 256).map (ent fwd)) v = .ok (ent fwd v) :=
  idx_of_some (by simp [hv])

omit [Profile] in
/-- Minimum and maximum excess of every block. -/
theorem ent_minmax : ∀ v, v < 256 → minOf8 (ent true v) = minPre (natToBits 8 v) ∧
    maxOf8 (ent true v) = maxPre (natToBits 8 v) := by
  decide +kernel

/-- The value read by `answer_query`. -/
def answerOf (e : Word) (rel : Int) : Nat := ((e >>> (10 + (rel + 8).toNat * 3)) &&& 7#64).toNat

theorem answer8_of (e : Word) {rel : Int} (h : rel.natAbs ≤ 8) : answer8 e rel = .ok (answerOf e rel) := by
  unfold answer8
  rw [dassertR_true h]
  rfl

omit [Profile] in
/-- The answers of the forward table. -/
theorem ent_fwd : ∀ v, v < 256 → ∀ r : Nat, r < 17 →
    (firstExc (natToBits 8 v) ((r : Int) - 8)).all
      (fun m => decide (answerOf (ent true v) ((r : Int) - 8) = m)) = true := by
  decide +kernel

omit [Profile] in
/-- The answers of the backward table. -/
theorem ent_bwd : ∀ v, v < 256 → ∀ r : Nat, r < 17 →
    (firstExc (natToBits 8 v).reverse (-((r : Int) - 8))).all
      (fun m => decide (answerOf (ent false v) ((r : Int) - 8) = 7 - m)) = true := by
  decide +kernel

omit [Profile] in
theorem natAbs_of_firstExc {l : List Bool} {r : Int} {m : Nat} (h : firstExc l r = some m) :
    r.natAbs ≤ l.length := by
  obtain ⟨h1, h2, -⟩ := firstExc_some.mp h
  have := excess_natAbs_le (l.take (m + 1))
  rw [h2, List.length_take] at this
  omega

theorem processFwd8_eq {v : Nat} (hv : v < 256) {rel : Int} (hs : rel.natAbs + 8 ≤ 9223372036854775807) :
    processFwd8 v rel = .ok (fwdRes (natToBits 8 v) 0 rel) := by
  unfold processFwd8
  rw [table8_eq, ok_bind, idx_ent true hv, ok_bind, (ent_minmax v hv).1, (ent_minmax v hv).2]
  have hne : natToBits 8 v ≠ [] := by
    intro h; have := length_natToBits 8 v; rw [h] at this; simp at this
  have hsome := firstExc_isSome hne rel
  cases hf : firstExc (natToBits 8 v) rel with
  | some m =>
    rw [hf] at hsome
    have hb := natAbs_of_firstExc hf
    rw [length_natToBits] at hb
    have := ent_fwd v hv (rel + 8).toNat (by omega)
    rw [show (((rel + 8).toNat : Nat) : Int) - 8 = rel by omega, hf] at this
    simp only [Option.all_some, decide_eq_true_eq] at this
    rw [if_pos (by have := hsome.mp rfl; omega), answer8_of _ (by omega), this, ok_bind, fwdRes_some hf, Nat.zero_add]; rfl
  | none =>
    rw [hf] at hsome
    have hab := excess_natAbs_le (natToBits 8 v)
    rw [length_natToBits] at hab
    rw [if_neg (by intro h; exact absurd (hsome.mpr ⟨h.2, h.1⟩) (by simp)), totalExcess_eq, subI_of (by omega), ok_bind,
      fwdRes_none hf]; rfl

theorem processBwd8_eq {v : Nat} (hv : v < 256) {rel : Int} (hr : rel ≠ 0)
    (hs : rel.natAbs + 8 ≤ 9223372036854775807) :
    processBwd8 v rel = .ok (bwdRes (natToBits 8 v) 8 rel) := by
  unfold processBwd8
  have hab := excess_natAbs_le (natToBits 8 v)
  rw [length_natToBits] at hab
  rw [totalExcess_eq, addI_of (by omega), ok_bind, table8_eq, ok_bind, idx_ent true hv, ok_bind,
    (ent_minmax v hv).1, (ent_minmax v hv).2]
  have hne : natToBits 8 v ≠ [] := by
    intro h; have := length_natToBits 8 v; rw [h] at this; simp at this
  have hsome := firstExc_reverse_isSome hne hr
  cases hf : firstExc (natToBits 8 v).reverse (-rel) with
  | some m =>
    rw [hf] at hsome
    have hb := natAbs_of_firstExc hf
    rw [List.length_reverse, length_natToBits] at hb
    have := ent_bwd v hv (rel + 8).toNat (by omega)
    rw [show (((rel + 8).toNat : Nat) : Int) - 8 = rel by omega, hf] at this
    simp only [Option.all_some, decide_eq_true_eq] at this
    rw [if_pos (hsome.mp rfl), table8_eq, ok_bind, idx_ent false hv, ok_bind, answer8_of _ (by omega), this, ok_bind, bwdRes_some hf]; rfl
  | none =>
    rw [hf] at hsome
    rw [if_neg (by intro h; exact absurd (hsome.mpr h) (by simp)), bwdRes_none hf]; rfl

/-! ## 16-bit table -/

omit [Profile] in
theorem bmin_small : ∀ a : Nat, a < 35 → ∀ c : Nat, c < 35 →
    bmin (BitVec.ofInt 16 ((a : Int) - 17)) (BitVec.ofInt 16 ((c : Int) - 17)) =
      BitVec.ofInt 16 (min ((a : Int) - 17) ((c : Int) - 17)) := by decide +kernel

omit [Profile] in
theorem bmax_small : ∀ a : Nat, a < 35 → ∀ c : Nat, c < 35 →
    bmax (BitVec.ofInt 16 ((a : Int) - 17)) (BitVec.ofInt 16 ((c : Int) - 17)) =
      BitVec.ofInt 16 (max ((a : Int) - 17) ((c : Int) - 17)) := by decide +kernel

omit [Profile] in
theorem bmin_eq {a c : Int} (ha : a.natAbs ≤ 17) (hc : c.natAbs ≤ 17) :
    bmin (BitVec.ofInt 16 a) (BitVec.ofInt 16 c) = BitVec.ofInt 16 (min a c) := by
  have := bmin_small (a + 17).toNat (by omega) (c + 17).toNat (by omega)
  rwa [show (((a + 17).toNat : Nat) : Int) - 17 = a by omega, show (((c + 17).toNat : Nat) : Int) - 17 = c by omega] at this

omit [Profile] in
theorem bmax_eq {a c : Int} (ha : a.natAbs ≤ 17) (hc : c.natAbs ≤ 17) :
    bmax (BitVec.ofInt 16 a) (BitVec.ofInt 16 c) = BitVec.ofInt 16 (max a c) := by
  have := bmax_small (a + 17).toNat (by omega) (c + 17).toNat (by omega)
  rwa [show (((a + 17).toNat : Nat) : Int) - 17 = a by omega, show (((c + 17).toNat : Nat) : Int) - 17 = c by omega] at this

omit [Profile] in
theorem calc16_eq (v n : Nat) (hn : n ≤ 16) :
    calc16 v n ⟨0#16, 17#16, -17#16⟩ =
      ⟨BitVec.ofInt 16 (excess (natToBits n v)),
        BitVec.ofInt 16 (if n = 0 then 17 else minPre (natToBits n v)),
        BitVec.ofInt 16 (if n = 0 then -17 else maxPre (natToBits n v))⟩ := by
  induction n with
  | zero => rfl
  | succ n ih =>
    rw [calc16, ih (by omega)]
    have b1 := excess_natAbs_le (natToBits n v)
    have b2 := minPre_natAbs_le (natToBits n v)
    have b3 := maxPre_natAbs_le (natToBits n v)
    rw [length_natToBits] at b1 b2 b3
    have hd : BitVec.ofInt 16 (excess (natToBits n v)) + (if bitAt v n then 1#16 else -1#16) =
        BitVec.ofInt 16 (excess (natToBits (n + 1) v)) := by
      rw [natToBits_succ_last, excess_append, excess_singleton, BitVec.ofInt_add]
      unfold bitAt sgn
      cases v.testBit n <;> rfl
    have b4 := excess_natAbs_le (natToBits (n + 1) v)
    rw [length_natToBits] at b4
    simp only [hd]
    rw [bmin_eq (by split <;> omega) (by omega), bmax_eq (by split <;> omega) (by omega), if_neg (Nat.succ_ne_zero n), if_neg (Nat.succ_ne_zero n)]
    have hsx := sgn_cases (v.testBit n)
    by_cases h0 : n = 0
    · subst h0
      rw [if_pos rfl, if_pos rfl]
      simp only [natToBits_succ_last]
      simp only [natToBits, List.nil_append, minPre, maxPre, excess_singleton]
      have h1 : min 17 (sgn (v.testBit 0)) = sgn (v.testBit 0) + min 0 0 := by omega
      have h2 : max (-17) (sgn (v.testBit 0)) = sgn (v.testBit 0) + max 0 0 := by omega
      rw [h1, h2]
    · rw [if_neg h0, if_neg h0]
      have hne : natToBits n v ≠ [] := by
        intro h; have := length_natToBits n v; rw [h] at this; simp at this; omega
      have h1 : minPre (natToBits (n + 1) v) = min (minPre (natToBits n v)) (excess (natToBits (n + 1) v)) := by
        rw [natToBits_succ_last, minPre_append hne, excess_append, excess_singleton]
        simp [minPre]
      have h2 : maxPre (natToBits (n + 1) v) = max (maxPre (natToBits n v)) (excess (natToBits (n + 1) v)) := by
        rw [natToBits_succ_last, maxPre_append hne, excess_append, excess_singleton]
        simp [maxPre]
      rw [h1, h2]

omit [Profile] in
theorem enc16 : ∀ a : Nat, a < 33 → ∀ c : Nat, c < 33 →
    minOf16 ((encode16 (BitVec.ofInt 16 ((a : Int) - 16)) <<< 6) ||| encode16 (BitVec.ofInt 16 ((c : Int) - 16))) = (a : Int) - 16 ∧
    maxOf16 ((encode16 (BitVec.ofInt 16 ((a : Int) - 16)) <<< 6) ||| encode16 (BitVec.ofInt 16 ((c : Int) - 16))) = (c : Int) - 16 := by
  decide +kernel

omit [Profile] in
theorem entry16_minmax (v : Nat) : minOf16 (entry16 v) = minPre (natToBits 16 v) ∧
    maxOf16 (entry16 v) = maxPre (natToBits 16 v) := by
  unfold entry16
  rw [calc16_eq v 16 (by omega)]
  simp only [show ¬ (16 = 0) by omega, if_false]
  have b2 := minPre_natAbs_le (natToBits 16 v)
  have b3 := maxPre_natAbs_le (natToBits 16 v)
  rw [length_natToBits] at b2 b3
  have := enc16 (minPre (natToBits 16 v) + 16).toNat (by omega) (maxPre (natToBits 16 v) + 16).toNat (by omega)
  rwa [show (((minPre (natToBits 16 v) + 16).toNat : Nat) : Int) - 16 = minPre (natToBits 16 v) by omega,
    show (((maxPre (natToBits 16 v) + 16).toNat : Nat) : Int) - 16 = maxPre (natToBits 16 v) by omega] at this

omit [Profile] in
theorem idx_table16 {v : Nat} (hv : v < 65536) : idx table16 v = .ok (entry16 v) :=
  idx_of_some (by unfold table16; rw [List.getElem?_map, List.getElem?_range hv]; rfl)

theorem scanFwd16_eq (v : Nat) : ∀ (n i : Nat) (rel : Int), i + n = 16 →
    rel.natAbs + n ≤ 9223372036854775807 → (firstExc ((natToBits 16 v).drop i) rel).isSome = true →
    scanFwd16 v n i rel = .ok (fwdRes ((natToBits 16 v).drop i) i rel) := by
  intro n
  induction n with
  | zero =>
    intro i rel hi _ hsome
    rw [List.drop_of_length_le (by rw [length_natToBits]; omega)] at hsome
    simp [firstExc] at hsome
  | succ n ih =>
    intro i rel hi hs hsome
    have hc : (natToBits 16 v).drop i = v.testBit i :: (natToBits 16 v).drop (i + 1) := by
      rw [List.drop_eq_getElem_cons (by rw [length_natToBits]; omega)]
      congr 1
      have := natToBits_getElem? 16 v i
      rw [if_pos (by omega), List.getElem?_eq_getElem (by rw [length_natToBits]; omega)] at this
      exact Option.some.inj this
    have hsx := sgn_cases (v.testBit i)
    rw [scanFwd16, show bitAt v i = v.testBit i from rfl, subI_of (by omega), ok_bind]
    rw [hc] at hsome ⊢
    rw [firstExc] at hsome
    by_cases h0 : rel - sgn (v.testBit i) = 0
    · rw [if_pos h0, fwdRes_some (m := 0) (by rw [firstExc, if_pos h0])]; rfl
    · rw [if_neg h0] at hsome ⊢
      rw [Option.isSome_map] at hsome
      rw [ih (i + 1) _ (by omega) (by omega) hsome]
      cases hf : firstExc ((natToBits 16 v).drop (i + 1)) (rel - sgn (v.testBit i)) with
      | none => rw [hf] at hsome; simp at hsome
      | some m =>
        rw [fwdRes_some hf, fwdRes_some (m := m + 1) (by rw [firstExc, if_neg h0, hf]; rfl)]
        congr 2; omega

theorem scanBwd16_eq (v : Nat) : ∀ (n : Nat) (rel : Int), n ≤ 16 →
    rel.natAbs + n ≤ 9223372036854775807 → (firstExc (natToBits n v).reverse (-rel)).isSome = true →
    scanBwd16 v n rel = .ok (bwdRes (natToBits n v) n rel) := by
  intro n
  induction n with
  | zero =>
    intro rel _ _ hsome
    simp [natToBits, firstExc] at hsome
  | succ n ih =>
    intro rel hn hs hsome
    have hsx := sgn_cases (v.testBit n)
    have hc : (natToBits (n + 1) v).reverse = v.testBit n :: (natToBits n v).reverse := by
      rw [natToBits_succ_last, List.reverse_append]; rfl
    rw [scanBwd16, show bitAt v n = v.testBit n from rfl, addI_of (by omega), ok_bind]
    rw [hc, firstExc] at hsome
    by_cases h0 : rel + sgn (v.testBit n) = 0
    · rw [if_pos h0, bwdRes_some (m := 0) (by rw [hc, firstExc, if_pos (by omega)])]; rfl
    · rw [if_neg (by omega), Option.isSome_map, show -rel - sgn (v.testBit n) = -(rel + sgn (v.testBit n)) by omega] at hsome
      rw [if_neg h0, ih _ (by omega) (by omega) hsome]
      cases hf : firstExc (natToBits n v).reverse (-(rel + sgn (v.testBit n))) with
      | none => rw [hf] at hsome; simp at hsome
      | some m =>
        rw [bwdRes_some hf, bwdRes_some (m := m + 1) (by
          rw [hc, firstExc, if_neg (by omega), show -rel - sgn (v.testBit n) = -(rel + sgn (v.testBit n)) by omega, hf]; rfl)]
        congr 2; omega

theorem processFwd16_eq {v : Nat} (hv : v < 65536) {rel : Int} (hs : rel.natAbs + 16 ≤ 9223372036854775807) :
    processFwd16 v rel = .ok (fwdRes (natToBits 16 v) 0 rel) := by
  unfold processFwd16
  rw [idx_table16 hv, ok_bind, (entry16_minmax v).1, (entry16_minmax v).2]
  have hne : natToBits 16 v ≠ [] := by
    intro h; have := length_natToBits 16 v; rw [h] at this; simp at this
  have hsome := firstExc_isSome hne rel
  by_cases hc : minPre (natToBits 16 v) ≤ rel ∧ rel ≤ maxPre (natToBits 16 v)
  · rw [if_pos ⟨hc.2, hc.1⟩, scanFwd16_eq v 16 0 rel (by omega) hs (by rw [List.drop_zero]; exact hsome.mpr hc), List.drop_zero]
  · have hab := excess_natAbs_le (natToBits 16 v)
    rw [length_natToBits] at hab
    rw [if_neg (fun h => hc ⟨h.2, h.1⟩), totalExcess_eq, subI_of (by omega), ok_bind,
      fwdRes_none ((firstExc_eq_none hne rel).mpr hc)]; rfl

theorem processBwd16_eq {v : Nat} (hv : v < 65536) {rel : Int} (hr : rel ≠ 0)
    (hs : rel.natAbs + 16 ≤ 9223372036854775807) :
    processBwd16 v rel = .ok (bwdRes (natToBits 16 v) 16 rel) := by
  unfold processBwd16
  have hab := excess_natAbs_le (natToBits 16 v)
  rw [length_natToBits] at hab
  have hne : natToBits 16 v ≠ [] := by
    intro h; have := length_natToBits 16 v; rw [h] at this; simp at this
  have hsome := firstExc_reverse_isSome hne hr
  rw [totalExcess_eq, addI_of (by omega), ok_bind, idx_table16 hv, ok_bind, (entry16_minmax v).1, (entry16_minmax v).2]
  cases hf : firstExc (natToBits 16 v).reverse (-rel) with
  | some m =>
    rw [hf] at hsome
    rw [if_pos (hsome.mp rfl), scanBwd16_eq v 16 rel (by omega) hs (by rw [hf]; rfl)]
  | none =>
    rw [hf] at hsome
    rw [if_neg (by intro h; exact absurd (hsome.mpr h) (by simp)), bwdRes_none hf]; rfl

/-! ## Relative excess zero backwards -/

omit [Profile] in
theorem answer8_none : ∀ v, v < 256 → firstExc (natToBits 8 v).reverse 0 = none →
    answerOf (ent false v) 0 = 7 := by
  decide +kernel

omit [Profile] in
theorem total_between {l : List Bool} (hl : l ≠ []) : minPre l ≤ excess l ∧ excess l ≤ maxPre l := by
  rw [← firstExc_isSome hl]
  cases hf : firstExc l (excess l) with
  | some m => rfl
  | none =>
    have := firstExc_none.mp hf (l.length - 1) (by have := List.length_pos_iff.mpr hl; omega)
    exact absurd (by rw [List.take_of_length_le (by omega)]) this

theorem scanBwd16_none (v : Nat) : ∀ (n : Nat) (rel : Int), n ≤ 16 →
    rel.natAbs + n ≤ 9223372036854775807 → firstExc (natToBits n v).reverse (-rel) = none →
    scanBwd16 v n rel = .error .unreachable := by
  intro n
  induction n with
  | zero => intro rel _ _ _; rfl
  | succ n ih =>
    intro rel hn hs hnone
    have hsx := sgn_cases (v.testBit n)
    have hc : (natToBits (n + 1) v).reverse = v.testBit n :: (natToBits n v).reverse := by
      rw [natToBits_succ_last, List.reverse_append]; rfl
    rw [hc, firstExc] at hnone
    split at hnone
    · cases hnone
    · rename_i h0
      rw [scanBwd16, show bitAt v n = v.testBit n from rfl, addI_of (by omega), ok_bind, if_neg (by omega)]
      refine ih _ (by omega) (by omega) ?_
      rw [Option.map_eq_none_iff] at hnone
      rw [show -(rel + sgn (v.testBit n)) = -rel - sgn (v.testBit n) by omega]
      exact hnone

theorem processBwd8_zero {v : Nat} (hv : v < 256) :
    processBwd8 v 0 = .ok (.at (match firstExc (natToBits 8 v).reverse 0 with | some m => 7 - m | none => 7)) := by
  unfold processBwd8
  have hab := excess_natAbs_le (natToBits 8 v)
  rw [length_natToBits] at hab
  have hne : natToBits 8 v ≠ [] := by
    intro h; have := length_natToBits 8 v; rw [h] at this; simp at this
  rw [totalExcess_eq, addI_of (by omega), ok_bind, table8_eq, ok_bind, idx_ent true hv, ok_bind,
    (ent_minmax v hv).1, (ent_minmax v hv).2, Int.zero_add, if_pos (Or.inr (total_between hne)), table8_eq, ok_bind,
    idx_ent false hv, ok_bind]
  cases hf : firstExc (natToBits 8 v).reverse 0 with
  | some m =>
    have := ent_bwd v hv 8 (by omega)
    rw [show -(((8 : Nat) : Int) - 8) = 0 by omega, hf, show (((8 : Nat) : Int) - 8) = 0 by omega] at this
    simp only [Option.all_some, decide_eq_true_eq] at this
    rw [answer8_of _ (by omega), this]; rfl
  | none => rw [answer8_of _ (by omega), answer8_none v hv hf]; rfl

theorem processBwd16_zero {v : Nat} (hv : v < 65536) :
    processBwd16 v 0 = match firstExc (natToBits 16 v).reverse 0 with
      | some m => .ok (.at (15 - m))
      | none => .error .unreachable := by
  unfold processBwd16
  have hab := excess_natAbs_le (natToBits 16 v)
  rw [length_natToBits] at hab
  have hne : natToBits 16 v ≠ [] := by
    intro h; have := length_natToBits 16 v; rw [h] at this; simp at this
  rw [totalExcess_eq, addI_of (by omega), ok_bind, idx_table16 hv, ok_bind, (entry16_minmax v).1, (entry16_minmax v).2,
    Int.zero_add, if_pos (Or.inr (total_between hne))]
  cases hf : firstExc (natToBits 16 v).reverse 0 with
  | some m =>
    rw [scanBwd16_eq v 16 0 (by omega) (by omega) (by rw [Int.neg_zero, hf]; rfl), bwdRes_some (by rw [Int.neg_zero]; exact hf)]
  | none => rw [scanBwd16_none v 16 0 (by omega) (by omega) (by rw [Int.neg_zero]; exact hf)]

omit [Profile] in
theorem Variant.size_pos (k : Variant) : 0 < k.size := by cases k <;> decide

omit [Profile] in
theorem Variant.size_le (k : Variant) : k.size ≤ 16 := by cases k <;> decide

theorem processFwd_eq (k : Variant) {l : List Bool} (hl : l.length = k.size) {rel : Int}
    (hs : rel.natAbs + k.size ≤ 9223372036854775807) :
    processFwd k (bitsToNat l) rel = .ok (fwdRes l 0 rel) := by
  have hb := bitsToNat_lt l
  have hn := natToBits_bitsToNat l
  rw [hl] at hb hn
  cases k with
  | u8 =>
    simp only [Variant.size] at *
    show processFwd8 _ _ = _
    rw [processFwd8_eq hb hs, hn]
  | u16 =>
    simp only [Variant.size] at *
    show processFwd16 _ _ = _
    rw [processFwd16_eq hb hs, hn]

theorem processBwd_eq (k : Variant) {l : List Bool} (hl : l.length = k.size) {rel : Int} (hr : rel ≠ 0)
    (hs : rel.natAbs + k.size ≤ 9223372036854775807) :
    processBwd k (bitsToNat l) rel = .ok (bwdRes l k.size rel) := by
  have hb := bitsToNat_lt l
  have hn := natToBits_bitsToNat l
  rw [hl] at hb hn
  cases k with
  | u8 =>
    simp only [Variant.size] at *
    show processBwd8 _ _ = _
    rw [processBwd8_eq hb hr hs, hn]
  | u16 =>
    simp only [Variant.size] at *
    show processBwd16 _ _ = _
    rw [processBwd16_eq hb hr hs, hn]

theorem processBwd_zero (k : Variant) {l : List Bool} (hl : l.length = k.size) :
    processBwd k (bitsToNat l) 0 = match firstExc l.reverse 0, k with
      | some m, k => .ok (.at (k.size - 1 - m))
      | none, .u8 => .ok (.at 7)
      | none, .u16 => .error .unreachable := by
  have hb := bitsToNat_lt l
  have hn := natToBits_bitsToNat l
  rw [hl] at hb hn
  cases k with
  | u8 =>
    simp only [Variant.size] at *
    show processBwd8 _ _ = _
    rw [processBwd8_zero hb, hn]
    cases firstExc l.reverse 0 <;> rfl
  | u16 =>
    simp only [Variant.size] at *
    show processBwd16 _ _ = _
    rw [processBwd16_zero hb, hn]
    cases firstExc l.reverse 0 <;> rfl

end Lookup
end Vers
