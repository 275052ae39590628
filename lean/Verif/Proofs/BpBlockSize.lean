import Verif.Proofs.BpTree
import Verif.Props.BitVec

set_option linter.unusedSimpArgs false

/-! # Backward search for block sizes that neither divide nor are divided by the lookup size -/

namespace Vers

variable [Profile]
open Spec Lookup

namespace BpTree

omit [Profile] in
/-- A lookup boundary `M` strictly inside a block other than the first one. -/
theorem exists_cut {bs k : Nat} (hb : 0 < bs) (hk : 0 < k) (h1 : ¬k ∣ bs) (h2 : ¬bs ∣ k) :
    ∃ q c, 1 ≤ q ∧ 1 ≤ c ∧ q * bs < c * k ∧ c * k < (q + 1) * bs ∧ c * k < q * bs + k ∧
      (q = 1 ∧ k < bs ∨ q * bs < k ∧ c * k = k ∧ k < 2 * (q * bs)) ∧ c * k ≤ bs + k := by
  have hne : bs ≠ k := fun h => h1 (h ▸ Nat.dvd_refl _)
  rcases Nat.lt_or_gt_of_ne hne with h | h
  · have e := Nat.div_add_mod k bs
    have hm := Nat.mod_lt k hb
    have hp : 0 < k % bs := Nat.pos_of_ne_zero fun h0 => h2 (Nat.dvd_of_mod_eq_zero h0)
    have hq : 1 ≤ k / bs := (Nat.one_le_div_iff hb).mpr (by omega)
    rw [Nat.mul_comm] at e
    have hq' : bs ≤ k / bs * bs := Nat.le_mul_of_pos_left _ hq
    refine ⟨k / bs, 1, hq, Nat.le_refl _, ?_, ?_, ?_, Or.inr ⟨?_, ?_, ?_⟩, ?_⟩
    · omega
    · have := Nat.succ_mul (k / bs) bs; simp only [Nat.succ_eq_add_one] at this; omega
    · omega
    · omega
    · omega
    · omega
    · omega
  · have e := Nat.div_add_mod bs k
    have hm := Nat.mod_lt bs hk
    have hp : 0 < bs % k := Nat.pos_of_ne_zero fun h0 => h1 (Nat.dvd_of_mod_eq_zero h0)
    rw [Nat.mul_comm] at e
    have e' : (bs / k + 1) * k = bs / k * k + k := Nat.succ_mul _ _
    refine ⟨1, bs / k + 1, Nat.le_refl _, Nat.succ_pos _, ?_, ?_, ?_, Or.inl ⟨rfl, h⟩, ?_⟩ <;> omega

omit [Profile] in
theorem excess_ones {l : List Bool} {M a : Nat} (h : ∀ i, i < M → l[i]? = some true) (ha : a ≤ M) :
    Spec.excess (sec l a M) = ((M - a : Nat) : Int) := by
  obtain ⟨d, rfl⟩ : ∃ d, M = a + d := ⟨M - a, by omega⟩
  clear ha
  induction d with
  | zero => rw [Nat.add_zero, sec_self, Nat.sub_self]; rfl
  | succ d ih =>
    rw [← Nat.add_assoc, sec_succ (by omega) (h (a + d) (by omega)), excess_append,
      ih (fun i hi => h i (by omega))]
    simp [Spec.excess]; omega

/-- On a sequence that begins with `M = c * size` opening parentheses, followed by `s` closing ones, the
search from `M + s` for excess -1 misses position `M - 1 - s` if the rest of the lookup block that begins at
the block boundary is not balanced. -/
theorem bwdSearch_wrong {t : BpTree} {bs : Nat} {v : BV} (h : Rep t bs v) {k : Variant} {q c s : Nat}
    (hs : 1 ≤ s) (hsk : s ≤ 2) (hc : 1 ≤ c) (c1 : q * bs < c * k.size)
    (c2 : c * k.size + s ≤ (q + 1) * bs) (c3 : c * k.size < q * bs + k.size)
    (c4 : q = 1 ∨ q * bs < k.size) (hl : v.len ≤ 9223372036854775000)
    (hones : ∀ i, i < c * k.size → v.bits[i]? = some true)
    (hzero : sec v.bits (c * k.size) (c * k.size + s) = List.replicate s false)
    (hne : Spec.excess (sec v.bits (c * k.size) (q * bs + k.size)) ≠ 0) (hlen : c * k.size + k.size ≤ v.len) :
    t.bwdSearch bs k (c * k.size + s) (-1) ≠ .ok (some (c * k.size - 1 - s)) := by
  have hbs := h.bs_pos
  have hsp := Variant.size_pos k
  have hs8 : 8 ≤ k.size := by cases k <;> decide
  obtain ⟨K, L, hm⟩ := h.mmt
  have hMdiv : (c * k.size + s - 1) / k.size = c := by
    rw [show c * k.size + s - 1 = s - 1 + c * k.size by omega, Nat.add_mul_div_right _ _ hsp, Nat.div_eq_of_lt (by omega)]
    omega
  have hck : k.size ≤ c * k.size := Nat.le_mul_of_pos_left _ hc
  generalize hM : c * k.size = M at *
  have hdiv : (M + s - 1) / bs = q := Nat.div_eq_of_lt_le (by omega) (by omega)
  have hcov := hm.cover
  rw [BV.length_bits] at hcov
  have hqL : q < L := by
    apply Nat.lt_of_mul_lt_mul_right (a := bs); omega
  have hfz : firstExc (List.replicate s false).reverse (-(-1)) = none := by
    obtain rfl | rfl : s = 1 ∨ s = 2 := by omega
    · decide
    · decide
  have hez : Spec.excess (List.replicate s false) = -(s : Int) := by
    obtain rfl | rfl : s = 1 ∨ s = 2 := by omega
    · decide
    · decide
  have e1 := scanBwd_eq h.vec s (M + s) (-1) (by omega) (by omega) (by omega)
  rw [Nat.add_sub_cancel, hzero, bwdRes_none hfz, hez] at e1
  have e2 := tabBwd_eq h.vec k (q * bs) 1 (-1 + -(s : Int)) (by omega) (by omega) (by omega)
  rw [Nat.one_mul] at e2
  have hst : steps (q * bs) M k.size = 1 := by
    unfold steps
    exact Nat.div_eq_of_lt_le (by omega) (by omega)
  have hblock : t.bwdBlock bs k (M + s) q (-1) =
      .ok (bwdRes (sec v.bits (q * bs) (q * bs + k.size)) (q * bs + k.size) (-1 + -(s : Int))) := by
    unfold bwdBlock
    rw [h.vec.2.2, Nat.min_eq_left (by omega : q * bs ≤ v.len), subR_of_le (by omega), ok_bind]
    simp only []
    rw [hMdiv, hM, Nat.max_eq_left (by omega), show M + s - M = s by omega, e1, ok_bind, hst]
    exact e2
  have hS : Spec.excess (sec v.bits (q * bs) (q * bs + k.size)) =
      ((M - q * bs : Nat) : Int) + Spec.excess (sec v.bits M (q * bs + k.size)) := by
    rw [← sec_append v.bits (by omega : q * bs ≤ M) (by omega), excess_append, excess_ones hones (by omega)]
  have hSlen : (sec v.bits (q * bs) (q * bs + k.size)).length = k.size := by
    rw [length_sec, BV.length_bits]; omega
  unfold bwdSearch
  rw [h.vec.2.2, if_neg (by omega), if_neg (by omega), if_neg (by omega), hdiv, hblock, ok_bind]
  cases hf : firstExc (sec v.bits (q * bs) (q * bs + k.size)).reverse (-(-1 + -(s : Int))) with
  | some m =>
    rw [bwdRes_some hf]
    simp only []
    intro hcon
    have hcon := Option.some.inj (Except.ok.inj hcon)
    obtain ⟨f1, f2, -⟩ := firstExc_some.mp hf
    rw [List.length_reverse, hSlen] at f1
    rw [List.take_reverse, excess_reverse, hSlen, show k.size - (m + 1) = M - 1 - s - q * bs by omega] at f2
    have hd : (sec v.bits (q * bs) (q * bs + k.size)).drop (M - 1 - s - q * bs) =
        sec v.bits (M - 1 - s) (q * bs + k.size) := by
      unfold sec
      rw [List.drop_drop]; congr 1; omega
    rw [hd, ← sec_append v.bits (by omega : M - 1 - s ≤ M) (by omega), excess_append, excess_ones hones (by omega)] at f2
    omega
  | none =>
    rw [bwdRes_none hf]
    simp only []
    have hr0 := MMT.ne_zero_of_rnone (by omega) hf
    have hab := MMT.sec_natAbs v.bits (q * bs) (q * bs + k.size)
    obtain ⟨o, g1, g2⟩ := MMT.bwdSearch_eq hm hqL hr0 (by rw [BV.length_bits]; omega) (by omega)
    rw [g1, ok_bind]
    rcases g2 with ⟨rfl, g3⟩ | ⟨j, rel', rfl, g3⟩
    · simp only []
      intro hcon
      cases hcon
    · simp only []
      obtain ⟨j1, j2, j3, j4, j5⟩ := g3
      have hab2 := MMT.sec_natAbs v.bits ((j + 1) * bs) (q * bs)
      have hjb : (j + 1) * bs = j * bs + bs := Nat.succ_mul _ _
      have hfit : ∃ n, max (((j + 1) * bs - 1) / k.size * k.size) (j * bs) = j * bs + n * k.size := by
        rcases c4 with rfl | c4
        · have : j = 0 := by
            have := Nat.le_of_mul_le_mul_right j2 hbs
            omega
          subst this
          refine ⟨((0 + 1) * bs - 1) / k.size, ?_⟩
          omega
        · refine ⟨0, ?_⟩
          rw [Nat.div_eq_of_lt (by omega)]; omega
      rw [bwdBlock_eq_of h.vec (by omega) (by omega) (by omega) hfit, ok_bind]
      cases hf2 : firstExc (sec v.bits (j * bs) ((j + 1) * bs)).reverse (-rel') with
      | none => rw [hf2] at j5; simp at j5
      | some m =>
        rw [bwdRes_some hf2]
        simp only [found?]
        intro hcon
        have hcon := Option.some.inj (Except.ok.inj hcon)
        have hJlen : (sec v.bits (j * bs) ((j + 1) * bs)).length = bs := by
          rw [length_sec, BV.length_bits]; omega
        obtain ⟨f1, f2, -⟩ := firstExc_some.mp hf2
        rw [List.length_reverse, hJlen] at f1
        have hd : (sec v.bits (j * bs) ((j + 1) * bs)).drop (bs - (m + 1)) =
            sec v.bits ((j + 1) * bs - (m + 1)) ((j + 1) * bs) := by
          unfold sec
          rw [List.drop_drop]; congr 1; omega
        rw [List.take_reverse, excess_reverse, hJlen, hd,
          excess_ones (fun i hi => hones i (by omega)) (by omega)] at f2
        rw [excess_ones (fun i hi => hones i (by omega)) j2] at j4
        omega

/-- `f` inside `n` nested pairs. -/
def nestF : Nat → Forest → Forest
  | 0, f => f
  | n + 1, f => .cons (nestF n f) .nil

/-- `(())()` -/
def core : Forest := .cons (.cons .nil .nil) (.cons .nil .nil)

omit [Profile] in
theorem parens_nestF (n : Nat) (f : Forest) :
    parens (nestF n f) = List.replicate n true ++ (parens f ++ List.replicate n false) := by
  induction n with
  | zero => simp [nestF]
  | succ n ih =>
    rw [nestF, parens, ih, parens, List.replicate_succ, List.replicate_succ' (n := n) (a := false)]
    simp

omit [Profile] in
theorem parens_bad (m : Nat) : parens (nestF m core) =
    List.replicate (m + 2) true ++ (false :: false :: true :: List.replicate (m + 1) false) := by
  rw [parens_nestF, ← List.replicate_append_replicate, List.append_assoc]
  simp [core, parens, List.replicate_succ]

omit [Profile] in
theorem length_bad (m : Nat) : (parens (nestF m core)).length = 2 * m + 6 := by
  rw [parens_bad]; simp; omega

omit [Profile] in
theorem sec_replicate (n x : Nat) (b : Bool) (l : List Bool) :
    sec (List.replicate n b ++ l) n x = l.take (x - n) := by
  unfold sec
  rw [List.take_append, List.length_replicate, List.take_replicate]
  by_cases h : n ≤ x
  · rw [Nat.min_eq_right h, List.drop_append_of_le_length (by simp), List.drop_of_length_le (by simp), List.nil_append]
  · rw [show x - n = 0 by omega, List.take_zero, List.append_nil, List.drop_of_length_le (by simp)]

omit [Profile] in
theorem bad_neg (n m : Nat) : Spec.excess ((false :: false :: true :: List.replicate m false).take (n + 1)) < 0 := by
  rcases n with _ | _ | _ | n
  · simp [Spec.excess]
  · simp [Spec.excess]
  · simp [Spec.excess]
  · simp [Spec.excess, List.take_replicate, List.count_replicate]; omega

omit [Profile] in
theorem bad_node (m : Nat) : ∀ (anc left : List Nat) (p : Nat), ∃ n ∈ nodesFrom anc left p (nestF m core),
    n.handle = p + m + 4 ∧ n.before.head? = some (p + m) := by
  induction m with
  | zero =>
    intro anc left p
    refine ⟨⟨p + 4, p + 5, anc, p :: left, [], [], 1⟩, ?_, rfl, rfl⟩
    simp [nestF, core, nodesFrom, Forest.size, roots]
  | succ m ih =>
    intro anc left p
    obtain ⟨n, h1, h2, h3⟩ := ih (p :: anc) [] (p + 1)
    refine ⟨n, ?_, by omega, by rw [h3]; congr 1; omega⟩
    rw [nestF, nodesFrom]
    exact List.mem_cons_of_mem _ (List.mem_append_left _ h1)

omit [Profile] in
/-- The second closing parenthesis matches the opening one at `m`. -/
theorem bad_matches (m : Nat) : Matches (parens (nestF m core)) m (m + 3) := by
  rw [parens_bad]
  refine ⟨by omega, ?_, ?_, ?_⟩
  · rw [List.getElem?_append_left (by simp), List.getElem?_replicate, if_pos (by omega)]
  · rw [List.getElem?_append_right (by simp), List.length_replicate, show m + 3 - (m + 2) = 1 by omega]; rfl
  · refine (balanced_iff _).mpr ⟨.cons .nil .nil, ?_⟩
    rw [List.take_append, List.length_replicate, show m + 3 - (m + 2) = 1 by omega,
      List.take_of_length_le (by simp), List.drop_append, List.length_replicate, List.drop_replicate,
      show m + 2 - (m + 1) = 1 by omega, show m + 1 - (m + 2) = 0 by omega]
    rfl

/-- A tree on which `open` fails, for every block size that does not fit. -/
theorem bad_block_size {bs : Nat} (hbs : 0 < bs) (hb : bs ≤ 1152921504606846976) {k : Variant} (hfit : ¬BwdFits bs k) :
    ∃ m v t, v.WF ∧ v.bits = parens (nestF m core) ∧ v.len = 2 * m + 6 ∧ v.len ≤ 9223372036854775000 ∧
      fromBitVector bs v = .ok t ∧ Rep t bs v ∧ t.opening bs k (m + 3) ≠ .ok (some m) := by
  have hs8 : 8 ≤ k.size := by cases k <;> decide
  have hs16 : k.size ≤ 16 := by cases k <;> decide
  obtain ⟨q, c, c1, c2, c3, c4, c5, c6, c7⟩ := exists_cut hbs (by omega) (fun h => hfit (Or.inl h)) (fun h => hfit (Or.inr h))
  have hck : k.size ≤ c * k.size := Nat.le_mul_of_pos_left _ c2
  obtain ⟨m, hm⟩ : ∃ m, c * k.size = m + 2 := ⟨c * k.size - 2, by omega⟩
  obtain ⟨v, -, hw, hv⟩ := C01_from_bools (parens (nestF m core))
  have hlen : v.len = 2 * m + 6 := by rw [← BV.length_bits, hv, length_bad]
  obtain ⟨t, h1, h2⟩ := fromBitVector_rep hw hbs (by omega) (by omega)
  refine ⟨m, v, t, hw, hv, hlen, by omega, h1, h2, ?_⟩
  have := bwdSearch_wrong h2 (s := 1) (by omega) (by omega) c2 c3 (by omega) c5 (c6.imp And.left And.left) (by omega) ?_ ?_ ?_ (by omega)
  · rw [hm] at this
    unfold opening
    rw [h2.vec.2.2, if_neg (by omega)]
    exact this
  · intro i hi
    rw [hv, parens_bad, List.getElem?_append_left (by simp; omega), List.getElem?_replicate, if_pos (by omega)]
  · rw [hv, parens_bad, hm, sec_replicate, show m + 2 + 1 - (m + 2) = 1 by omega]; rfl
  · rw [hv, parens_bad, hm, sec_replicate, show q * bs + k.size - (m + 2) = (q * bs + k.size - (m + 2) - 1) + 1 by omega]
    have := bad_neg (q * bs + k.size - (m + 2) - 1) (m + 1)
    omega

theorem bad_previousSibling {bs m : Nat} {v : BV} {t : BpTree} {k : Variant} (hv : v.bits = parens (nestF m core)) (h : Rep t bs v)
    (ho : t.opening bs k (m + 3) ≠ .ok (some m)) : t.previousSibling bs k (m + 4) ≠ .ok (some m) := by
  have h4 : v.bits[m + 4]? = some true := by
    rw [hv, parens_bad, List.getElem?_append_right (by simp), List.length_replicate, show m + 4 - (m + 2) = 2 by omega]; rfl
  have h3 : v.bits[m + 3]? = some false := by rw [hv]; exact (bad_matches m).2.2.1
  unfold previousSibling
  rw [h.vrep.assertNode h4, ok_bind, if_neg (by omega), h.vrep.get, ok_bind, show m + 4 - 1 = m + 3 by omega, h3]
  exact ho

/-! ## Parent -/

/-- A first child that begins `s + 1` nested pairs, and a second one that begins `y` nested pairs. -/
def core2 (s y : Nat) : Forest := .cons (nestF s .nil) (nestF y .nil)

omit [Profile] in
theorem parens_bad2 (m s y : Nat) : parens (nestF m (core2 s y)) =
    List.replicate (m + s + 1) true ++ (List.replicate (s + 1) false ++ (List.replicate y true ++
      List.replicate (y + m) false)) := by
  rw [parens_nestF, core2, parens, parens_nestF, parens_nestF, parens]
  rw [← List.replicate_append_replicate (n := y) (m := m) (a := false), show m + s + 1 = m + (s + 1) by omega,
    ← List.replicate_append_replicate (n := m) (m := s + 1) (a := true), List.replicate_succ,
    List.replicate_succ' (n := s) (a := false)]
  simp

omit [Profile] in
theorem bad_node2 (m s y : Nat) (hy : 0 < y) : ∀ (anc left : List Nat) (p : Nat),
    ∃ n ∈ nodesFrom anc left p (nestF m (core2 s y)),
      n.handle = p + m + 2 * s + 2 ∧ n.ancestors.head? = if m = 0 then anc.head? else some (p + m - 1) := by
  have hsz : ∀ n, (nestF n .nil).size = n := by
    intro n
    induction n with
    | zero => rfl
    | succ n ih => rw [nestF, Forest.size, ih]; rfl
  obtain ⟨y, rfl⟩ : ∃ z, y = z + 1 := ⟨y - 1, by omega⟩
  induction m with
  | zero =>
    intro anc left p
    refine ⟨⟨p + 2 * s + 1 + 1, p + 2 * s + 1 + 1 + 2 * y + 1, anc, p :: left,
      roots (p + 2 * s + 1 + 1 + 2 * y + 1 + 1) .nil, roots (p + 2 * s + 1 + 1 + 1) (nestF y .nil), y + 1⟩, ?_,
      by simp, by simp⟩
    rw [nestF, core2, nodesFrom, hsz]
    apply List.mem_cons_of_mem
    apply List.mem_append_right
    rw [nestF, nodesFrom, hsz]
    exact List.mem_cons_self
  | succ m ih =>
    intro anc left p
    obtain ⟨n, h1, h2, h3⟩ := ih (p :: anc) [] (p + 1)
    refine ⟨n, ?_, by omega, ?_⟩
    · rw [nestF, nodesFrom]
      exact List.mem_cons_of_mem _ (List.mem_append_left _ h1)
    · rw [h3, if_neg (Nat.succ_ne_zero m)]
      by_cases h0 : m = 0
      · subst h0; simp
      · rw [if_neg h0]; congr 1; omega

omit [Profile] in
/-- The part behind the opening parentheses is not balanced. -/
theorem bad2_ne (y z r : Nat) (hr : 1 ≤ r) (h2 : r ≠ 2) (hy : r ≤ y + 1) :
    Spec.excess ((List.replicate 1 false ++ (List.replicate y true ++ List.replicate z false)).take r) ≠ 0 := by
  obtain ⟨r, rfl⟩ : ∃ x, r = x + 1 := ⟨r - 1, by omega⟩
  rw [List.replicate_one, List.singleton_append, List.take_succ_cons, List.take_append_of_le_length (by simp; omega),
    List.take_replicate, Nat.min_eq_left (by omega)]
  simp [Spec.excess, List.count_replicate]
  omega

/-- A tree in which a parent is wrong, for every block size that does not fit. -/
theorem bad_parent {bs : Nat} (hbs : 0 < bs) (hb : bs ≤ 1152921504606846976) {k : Variant} (hfit : ¬BwdFits bs k) :
    ∃ f v t, v.WF ∧ v.bits = parens f ∧ v.len ≤ 9223372036854775000 ∧ fromBitVector bs v = .ok t ∧
      ∃ n ∈ nodes f, t.parent bs k n.handle ≠ .ok n.ancestors.head? := by
  have hs8 : 8 ≤ k.size := by cases k <;> decide
  have hs16 : k.size ≤ 16 := by cases k <;> decide
  obtain ⟨q, c, c1, c2, c3, c4, c5, c6, c7⟩ := exists_cut hbs (by omega) (fun h => hfit (Or.inl h)) (fun h => hfit (Or.inr h))
  have hck : k.size ≤ c * k.size := Nat.le_mul_of_pos_left _ c2
  -- one closing parenthesis, or two if the lookup block ends two positions behind `M`
  obtain ⟨s, hs, hcs⟩ : ∃ s, (s = 0 ∧ q * bs + k.size - c * k.size ≠ 2 ∨
      s = 1 ∧ q * bs + k.size - c * k.size = 2) ∧ c * k.size + (s + 1) ≤ (q + 1) * bs := by
    by_cases h2 : q * bs + k.size - c * k.size = 2
    · refine ⟨1, Or.inr ⟨rfl, h2⟩, ?_⟩
      have : (q + 1) * bs = q * bs + bs := Nat.succ_mul _ _
      rcases c6 with ⟨rfl, c6⟩ | c6 <;> omega
    · exact ⟨0, Or.inl ⟨rfl, h2⟩, by omega⟩
  obtain ⟨m, hm⟩ : ∃ m, c * k.size = m + s + 1 := ⟨c * k.size - s - 1, by omega⟩
  obtain ⟨v, -, hw, hv⟩ := C01_from_bools (parens (nestF m (core2 s 16)))
  have hlen : v.len = 2 * m + 2 * s + 34 := by
    rw [← BV.length_bits, hv, parens_bad2]; simp; omega
  obtain ⟨t, h1, h2⟩ := fromBitVector_rep hw hbs (by omega) (by omega)
  obtain ⟨n, n1, n2, n3⟩ := bad_node2 m s 16 (by omega) [] [] 0
  refine ⟨_, v, t, hw, hv, by omega, h1, n, n1, ?_⟩
  have := bwdSearch_wrong h2 (s := s + 1) (by omega) (by omega) c2 c3 hcs c5 (c6.imp And.left And.left) (by omega) ?_ ?_ ?_ (by omega)
  · rw [hm] at this
    rw [n2, n3, if_neg (by omega)]
    have hb4 : v.bits[0 + m + 2 * s + 2]? = some true := by
      rw [hv, parens_bad2, List.getElem?_append_right (by simp; omega), List.length_replicate,
        List.getElem?_append_right (by simp; omega), List.length_replicate,
        List.getElem?_append_left (by simp; omega), List.getElem?_replicate, if_pos (by omega)]
    unfold parent enclose
    rw [h2.vrep.assertNode hb4, ok_bind, h2.vec.2.2, if_neg (by omega), getUnchecked_eq h2.vec hb4, ok_bind]
    rw [show m + s + 1 + (s + 1) = 0 + m + 2 * s + 2 by omega, show m + s + 1 - 1 - (s + 1) = 0 + m - 1 by omega] at this
    exact this
  · intro i hi
    rw [hv, parens_bad2, List.getElem?_append_left (by simp; omega), List.getElem?_replicate, if_pos (by omega)]
  · rw [hv, parens_bad2, hm, sec_replicate, show m + s + 1 + (s + 1) - (m + s + 1) = s + 1 by omega,
      List.take_append_of_le_length (by simp), List.take_of_length_le (by simp)]
  · rw [hv, parens_bad2, hm, sec_replicate]
    rcases hs with ⟨rfl, hs⟩ | ⟨rfl, hs⟩
    · exact bad2_ne _ _ _ (by omega) (by omega) (by omega)
    · rw [show q * bs + k.size - (m + 1 + 1) = 2 by omega, List.take_append_of_le_length (by simp)]
      decide

end BpTree
end Vers
