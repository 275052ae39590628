import Verif.Proofs.BpIter

set_option linter.unusedSimpArgs false

/-! # No panic on arbitrary sequences and block sizes -/

namespace Vers

variable [Profile]
open Spec Lookup
namespace BpTree

variable {t : BpTree} {v : BV} {bs : Nat} {k : Variant}

/-- A block that reaches beyond the sequence, but not beyond the last word, can be read. -/
theorem block_total (h : VecOk t.vec v) (k : Variant) {i : Nat} (hi : i + k.size ≤ 64 * v.data.length) :
    ∃ l : List Bool, l.length = k.size ∧ block t.vec k i = .ok (bitsToNat l) := by
  have hsp := Variant.size_pos k
  have hsl := Variant.size_le k
  unfold block RsVec.getBitsUnchecked
  rw [h.2.1]
  obtain ⟨w, h1, h2⟩ := BV.getBitsRaw_toNat (d := v.data) (pos := i) (n := k.size) (by omega) (by omega) (by omega)
  rw [h1, ok_bind, h2]
  refine ⟨(List.range k.size).map fun j => lbit v.data (i + j), by simp, ?_⟩
  rw [if_pos (Nat.lt_of_lt_of_le (bitsToNat_lt _) (by simp))]; rfl

/-- Nothing is known about where the search ends, but it does not panic. -/
theorem tabBwd_total (h : VecOk t.vec v) (k : Variant) (a : Nat) : ∀ (n : Nat) (rel : Int),
    a + n * k.size ≤ 64 * v.data.length → rel ≠ 0 → rel.natAbs + n * k.size ≤ 9223372036854775807 →
    ∃ f, tabBwd t.vec k a n rel = .ok f ∧
      ∀ rel', f = .miss rel' → rel' ≠ 0 ∧ rel'.natAbs ≤ rel.natAbs + n * k.size := by
  intro n
  induction n with
  | zero =>
    intro rel _ hr _
    refine ⟨.miss rel, rfl, fun rel' he => ?_⟩
    cases he
    exact ⟨hr, by omega⟩
  | succ n ih =>
    intro rel h1 hr h2
    rw [Nat.succ_mul] at h1 h2
    obtain ⟨l, l1, l2⟩ := block_total h k (i := a + n * k.size) (by omega)
    have hp := processBwd_eq k l1 hr (by omega)
    rw [tabBwd, l2, ok_bind, hp, ok_bind]
    cases hf : firstExc l.reverse (-rel) with
    | some m =>
      rw [bwdRes_some hf]
      exact ⟨_, rfl, fun rel' he => by cases he⟩
    | none =>
      rw [bwdRes_none hf]
      have hab := excess_natAbs_le l
      have hr' : rel + Spec.excess l ≠ 0 := by
        have := hit_ne_zero (l := l.reverse) (by
          rw [ne_eq, List.reverse_eq_nil_iff]
          intro h0; rw [h0] at l1
          have := Variant.size_pos k
          simp at l1; omega) hf
        rw [excess_reverse] at this
        omega
      obtain ⟨f, f1, f2⟩ := ih (rel + Spec.excess l) (by omega) hr' (by omega)
      refine ⟨f, f1, fun rel' he => ?_⟩
      obtain ⟨g1, g2⟩ := f2 rel' he
      exact ⟨g1, by rw [Nat.succ_mul]; omega⟩

theorem bwdBlock_total (h : VecOk t.vec v) {bs : Nat} (k : Variant)
    {start q : Nat} {rel : Int} (h1 : q * bs < start) (h3 : start ≤ v.len)
    (hs : rel.natAbs + start + 16 ≤ 9223372036854775807) :
    ∃ f, t.bwdBlock bs k start q rel = .ok f ∧
      ∀ rel', f = .miss rel' → rel' ≠ 0 ∧ rel'.natAbs ≤ rel.natAbs + (start - q * bs) + 16 := by
  have hsp := Variant.size_pos k
  have hsl : k.size = 8 ∨ k.size = 16 := by cases k <;> simp [Variant.size]
  have hdata : v.len ≤ 64 * v.data.length := by
    have := h.1; unfold BV.WF at this; omega
  unfold bwdBlock
  rw [h.2.2, Nat.min_eq_left (by omega : q * bs ≤ v.len), subR_of_le (by omega), ok_bind]
  simp only []
  have hle : (start - 1) / k.size * k.size ≤ start - 1 := Nat.div_mul_le_self _ _
  have hlb : max ((start - 1) / k.size * k.size) (q * bs) < start := by omega
  have hlb2 : (start - 1) / k.size * k.size + k.size ≤ 64 * v.data.length := by
    have e : ∃ d, 64 = d * k.size := by
      rcases hsl with e | e
      · exact ⟨8, by omega⟩
      · exact ⟨4, by omega⟩
    obtain ⟨d, hd⟩ := e
    have h5 : (start - 1) / k.size < v.data.length * d := by
      apply Nat.div_lt_of_lt_mul
      rw [show k.size * (v.data.length * d) = v.data.length * (d * k.size) by ac_rfl, ← hd]
      omega
    have := Nat.mul_le_mul_right k.size h5
    rw [Nat.succ_mul, Nat.mul_assoc, ← hd] at this
    omega
  obtain ⟨lb, hlbe⟩ : ∃ lb, lb = max ((start - 1) / k.size * k.size) (q * bs) := ⟨_, rfl⟩
  rw [← hlbe] at hlb ⊢
  have hst : q * bs + steps (q * bs) lb k.size * k.size ≤ 64 * v.data.length ∧
      steps (q * bs) lb k.size * k.size ≤ lb - q * bs + 16 := by
    have hle2 : steps (q * bs) lb k.size * k.size ≤ lb - q * bs + k.size - 1 := by
      unfold steps; exact Nat.div_mul_le_self _ _
    by_cases hc : q * bs < (start - 1) / k.size * k.size
    · constructor <;> omega
    · have e : lb = q * bs := by omega
      rw [e, steps_of_le hsp (Nat.le_refl _)]; constructor <;> omega
  have e1 := scanBwd_eq h (start - lb) start rel (by omega) h3 (by omega)
  rw [show start - (start - lb) = lb by omega] at e1
  have a1 := MMT.sec_natAbs v.bits lb start
  rw [BV.length_bits] at a1
  rw [e1, ok_bind]
  cases hf : firstExc (sec v.bits lb start).reverse (-rel) with
  | some m =>
    rw [bwdRes_some hf]
    exact ⟨_, rfl, fun rel' he => by cases he⟩
  | none =>
    rw [bwdRes_none hf]
    have hr : rel + Spec.excess (sec v.bits lb start) ≠ 0 := by
      have := hit_ne_zero (l := (sec v.bits lb start).reverse) (by
        rw [ne_eq, List.reverse_eq_nil_iff]; exact sec_ne_nil (by omega) (by rw [BV.length_bits]; omega)) hf
      rw [excess_reverse] at this
      omega
    obtain ⟨f, f1, f2⟩ := tabBwd_total h k (q * bs) (steps (q * bs) lb k.size) (rel + Spec.excess (sec v.bits lb start))
      hst.1 hr (by omega)
    refine ⟨f, f1, fun rel' he => ?_⟩
    obtain ⟨g1, g2⟩ := f2 rel' he
    exact ⟨g1, by omega⟩

/-- The backward search does not panic, whatever the block size. -/
theorem bwdSearch_total (h : Rep t bs v) (k : Variant) (i : Nat) {rel : Int}
    (hs : rel.natAbs + v.len + 32 ≤ 9223372036854775807) : ∃ o, t.bwdSearch bs k i rel = .ok o := by
  have hbs := h.bs_pos
  obtain ⟨K, L, hm⟩ := h.mmt
  unfold bwdSearch
  rw [h.vec.2.2]
  by_cases hi : i ≥ v.len
  · rw [if_pos hi]; exact ⟨_, rfl⟩
  rw [if_neg hi]
  by_cases hi0 : i = 0
  · rw [if_pos hi0]; exact ⟨_, rfl⟩
  rw [if_neg hi0, if_neg (by omega)]
  have hqlt : i - 1 < ((i - 1) / bs + 1) * bs := by
    have := Nat.div_add_mod (i - 1) bs
    have h2 := Nat.mod_lt (i - 1) hbs
    rw [Nat.succ_mul, Nat.mul_comm]; omega
  have hqle : (i - 1) / bs * bs ≤ i - 1 := Nat.div_mul_le_self _ _
  have hcov := hm.cover
  rw [BV.length_bits] at hcov
  have hqL : (i - 1) / bs < L := by
    apply Nat.lt_of_mul_lt_mul_right (a := bs); omega
  generalize (i - 1) / bs = q at hqlt hqle hqL ⊢
  obtain ⟨f, f1, f2⟩ := bwdBlock_total h.vec k (bs := bs) (start := i) (q := q) (rel := rel) (by omega) (by omega) (by omega)
  rw [f1, ok_bind]
  cases f with
  | «at» j => exact ⟨_, rfl⟩
  | miss rel1 =>
    simp only []
    obtain ⟨g1, g2⟩ := f2 rel1 rfl
    obtain ⟨o, o1, o2⟩ := MMT.bwdSearch_eq hm hqL g1 (by rw [BV.length_bits]; omega) (by omega)
    rw [o1, ok_bind]
    rcases o2 with ⟨rfl, -⟩ | ⟨j, rel', rfl, o3⟩
    · exact ⟨_, rfl⟩
    · simp only []
      obtain ⟨j1, j2, j3, j4, j5⟩ := o3
      have hab2 := MMT.sec_natAbs v.bits ((j + 1) * bs) (q * bs)
      rw [BV.length_bits] at hab2
      obtain ⟨f', f1', -⟩ := bwdBlock_total h.vec k (bs := bs) (start := (j + 1) * bs) (q := j) (rel := rel')
        (by rw [Nat.succ_mul]; omega) (by omega) (by omega)
      rw [f1', ok_bind]
      exact ⟨_, rfl⟩

theorem fwdSearch_total (h : Rep t bs v) (k : Variant) (i : Nat) {rel : Int} (hv : 0 < v.len)
    (hs : rel.natAbs + v.len + 32 ≤ 9223372036854775807) : ∃ o, t.fwdSearch bs k i rel = .ok o :=
  ⟨_, fwdSearch_eq h k i hv (by omega)⟩

theorem close_total (h : Rep t bs v) (k : Variant) (i : Nat) (hv : 0 < v.len) (hl : v.len ≤ 9223372036854775773) :
    ∃ o, t.close bs k i = .ok o ∧ ∀ j, o = some j → i < j := by
  unfold close
  by_cases hi : i ≥ t.vec.len
  · rw [if_pos hi]; exact ⟨none, rfl, fun j h => by cases h⟩
  · rw [if_neg hi, fwdSearch_eq h k i hv (by omega)]
    refine ⟨_, rfl, fun j hj => ?_⟩
    obtain ⟨m, -, hm⟩ := Option.map_eq_some_iff.mp hj
    omega

theorem opening_total (h : Rep t bs v) (k : Variant) (i : Nat) (hl : v.len ≤ 9223372036854775773) :
    ∃ o, t.opening bs k i = .ok o := by
  unfold opening
  by_cases hi : i ≥ t.vec.len
  · rw [if_pos hi]; exact ⟨none, rfl⟩
  · rw [if_neg hi]; exact bwdSearch_total h k i (by omega)

theorem enclose_total (h : Rep t bs v) (k : Variant) (i : Nat) (hl : v.len ≤ 9223372036854775773) :
    ∃ o, t.enclose bs k i = .ok o := by
  unfold enclose
  by_cases hi : i ≥ t.vec.len
  · rw [if_pos hi]; exact ⟨none, rfl⟩
  · rw [if_neg hi]
    obtain ⟨x, hx⟩ := exists_bit (v := v) (i := i) (by rw [← h.vec.2.2]; omega)
    rw [getUnchecked_eq h.vec hx, ok_bind]
    exact bwdSearch_total h k i (by split <;> omega)

/-! ## Navigation -/

theorem nextSibling_total (h : Rep t bs v) (k : Variant) {i : Nat} (hi : v.bits[i]? = some true)
    (hl : v.len ≤ 9223372036854775773) :
    ∃ o, t.nextSibling bs k i = .ok o ∧ ∀ j, o = some j → v.bits[j]? = some true := by
  obtain ⟨o, o1, -⟩ := close_total h k i (by have := Rep.len_pos hi; omega) hl
  unfold nextSibling
  rw [h.vrep.assertNode hi, ok_bind, o1, ok_bind]
  cases o with
  | none => exact ⟨none, rfl, fun j hj => by cases hj⟩
  | some c =>
    simp only []
    rw [h.vrep.get, ok_bind]
    refine ⟨_, rfl, fun j hj => ?_⟩
    split at hj
    · next h' => rw [← Option.some.inj hj]; exact (map_b2w_one _).mp h'
    · cases hj

theorem firstChild_total (h : VRep t v) (hl : v.len ≤ 9223372036854775807) {i : Nat} (hi : v.bits[i]? = some true) :
    ∃ o, t.firstChild i = .ok o ∧ ∀ j, o = some j → v.bits[j]? = some true := by
  have hlt := Rep.len_pos hi
  unfold firstChild
  rw [h.assertNode hi, ok_bind, addU_of_lt (by omega), ok_bind, h.get, ok_bind]
  refine ⟨_, rfl, fun j hj => ?_⟩
  split at hj
  · next h' => rw [← Option.some.inj hj]; exact (map_b2w_one _).mp h'
  · cases hj

theorem opening_bit (h : Rep t bs v) (hfit : BwdFits bs k) (hl : v.len ≤ 9223372036854775773) {i : Nat} :
    ∃ o, t.opening bs k i = .ok o ∧ ∀ j, o = some j → v.bits[j]? = some true := by
  by_cases hi : i < v.len
  · refine ⟨_, opening_eq h hfit hi (by omega), fun j hj => ?_⟩
    obtain ⟨m, hm, rfl⟩ := Option.map_eq_some_iff.mp hj
    obtain ⟨g1, -⟩ := bit_of_firstExc_pos (by omega) hm
    have hlen : (v.bits.take i).length = i := by rw [List.length_take, BV.length_bits]; omega
    have hmi : m < i := by
      have := (firstExc_some.mp hm).1
      rw [List.length_reverse, hlen] at this; exact this
    rw [List.getElem?_reverse (by rw [hlen]; exact hmi), hlen, List.getElem?_take_of_lt (by omega)] at g1
    exact g1
  · unfold opening
    rw [h.vec.2.2, if_pos (by omega)]
    exact ⟨none, rfl, fun j hj => by cases hj⟩

theorem previousSibling_cases (h : VRep t v) (k : Variant) {i : Nat} (hi : v.bits[i]? = some true) :
    t.previousSibling bs k i = .ok none ∨ t.previousSibling bs k i = t.opening bs k (i - 1) := by
  unfold previousSibling
  rw [h.assertNode hi, ok_bind]
  by_cases h0 : i = 0
  · rw [if_pos h0]; exact Or.inl rfl
  · rw [if_neg h0, h.get, ok_bind]
    split
    · exact Or.inr rfl
    · exact Or.inl rfl

theorem lastChild_cases (h : Rep t bs v) (k : Variant) {i : Nat} (hi : v.bits[i]? = some true)
    (hl : v.len ≤ 9223372036854775773) :
    t.lastChild bs k i = .ok none ∨ ∃ j, t.lastChild bs k i = t.opening bs k j := by
  obtain ⟨o, o1, o2⟩ := close_total h k i (by have := Rep.len_pos hi; omega) hl
  have hlt := Rep.len_pos hi
  unfold lastChild
  rw [h.vrep.assertNode hi, ok_bind, addU_of_lt (by omega), ok_bind, h.vrep.get, ok_bind]
  split
  · rw [o1, ok_bind]
    cases o with
    | none => exact Or.inl rfl
    | some c =>
      simp only []
      rw [subR_of_le (by have := o2 c rfl; omega), ok_bind]
      exact Or.inr ⟨c - 1, rfl⟩
  · exact Or.inl rfl

omit [Profile] in
/-- An iterator whose `next` preserves an invariant does not panic. -/
theorem runNext_total {σ α : Type} {next : σ → R (σ × Option α)} {P : σ → Prop}
    (h : ∀ s, P s → ∃ s' o, next s = .ok (s', o) ∧ P s') : ∀ (m : Nat) (s : σ), P s → ∃ o, runNext next m s = .ok o := by
  intro m
  induction m with
  | zero => exact fun s _ => ⟨[], rfl⟩
  | succ m ih =>
    intro s hs
    obtain ⟨s', o, h1, h2⟩ := h s hs
    obtain ⟨q, hq⟩ := ih s' h2
    exact ⟨o :: q, by unfold runNext; rw [h1, ok_bind, hq, ok_bind]; rfl⟩

theorem children_total (h : Rep t bs v) (k : Variant) {i : Nat} (hi : v.bits[i]? = some true)
    (hl : v.len ≤ 9223372036854775773) (m : Nat) :
    ∃ s o, t.childrenIter bs k true i = .ok s ∧ runNext (t.childrenNext bs k true) m s = .ok o := by
  obtain ⟨s, s1, s2⟩ := firstChild_total h.vrep (by omega) hi
  obtain ⟨o, ho⟩ := runNext_total (next := t.childrenNext bs k true)
    (P := fun s => ∀ j, s = some j → v.bits[j]? = some true) (fun s hs => by
      cases s with
      | none => exact ⟨none, none, rfl, hs⟩
      | some c =>
        obtain ⟨o, o1, o2⟩ := nextSibling_total h k (hs c rfl) hl
        exact ⟨o, some c, by unfold childrenNext; simp only [if_true]; rw [o1, ok_bind]; rfl, o2⟩) m s s2
  exact ⟨s, o, by unfold childrenIter; rw [h.vrep.assertNode hi, ok_bind, if_pos rfl, s1], ho⟩

theorem revChildren_total (h : Rep t bs v) (hfit : BwdFits bs k) {i : Nat} (hi : v.bits[i]? = some true)
    (hl : v.len ≤ 9223372036854775773) (m : Nat) :
    ∃ s o, t.childrenIter bs k false i = .ok s ∧ runNext (t.childrenNext bs k false) m s = .ok o := by
  have hs : ∃ s, t.lastChild bs k i = .ok s ∧ ∀ j, s = some j → v.bits[j]? = some true := by
    rcases lastChild_cases h k hi hl with g | ⟨j, g⟩
    · exact ⟨none, g, fun j hj => by cases hj⟩
    · rw [g]; exact opening_bit h hfit hl
  obtain ⟨s, s1, s2⟩ := hs
  obtain ⟨o, ho⟩ := runNext_total (next := t.childrenNext bs k false)
    (P := fun s => ∀ j, s = some j → v.bits[j]? = some true) (fun s hs => by
      cases s with
      | none => exact ⟨none, none, rfl, hs⟩
      | some c =>
        have : ∃ o, t.previousSibling bs k c = .ok o ∧ ∀ j, o = some j → v.bits[j]? = some true := by
          rcases previousSibling_cases (bs := bs) h.vrep k (hs c rfl) with g | g
          · exact ⟨none, g, fun j hj => by cases hj⟩
          · rw [g]; exact opening_bit h hfit hl
        obtain ⟨o, o1, o2⟩ := this
        exact ⟨o, some c, by unfold childrenNext; simp only [Bool.false_eq_true, if_false]; rw [o1, ok_bind]; rfl, o2⟩) m s s2
  exact ⟨s, o, by unfold childrenIter; rw [h.vrep.assertNode hi, ok_bind]; simp only [Bool.false_eq_true, if_false]; exact s1, ho⟩

theorem subtree_total (h : Rep t bs v) (k : Variant) {i : Nat} (hi : v.bits[i]? = some true)
    (hl : v.len ≤ 9223372036854775773) (m : Nat) :
    ∃ s o, t.subtreeIter bs k i = .ok s ∧ runNext t.subtreeNext m s = .ok o := by
  obtain ⟨c, c1, c2⟩ := close_total h k i (by have := Rep.len_pos hi; omega) hl
  have hic : i ≤ c.getD i := by
    cases c with
    | none => exact Nat.le_refl i
    | some c => exact Nat.le_of_lt (c2 c rfl)
  obtain ⟨it, i1, i2, -⟩ := SelIter.new_rel (rs := t.vec) (zero := false) h.inv
  have hle : Spec.rank true v.bits i ≤ Spec.rank true v.bits (c.getD i) := by
    unfold Spec.rank
    exact List.Sublist.count_le _ ((List.take_sublist_take_left hic))
  have hs : t.subtreeIter bs k i =
      .ok ⟨it, Spec.rank true v.bits i, Spec.rank true v.bits (c.getD i) - Spec.rank true v.bits i⟩ := by
    unfold subtreeIter
    rw [h.vrep.assertNode hi, ok_bind, h.vrep.rank, ok_bind, c1, ok_bind, h.vrep.rank, ok_bind, Bool.not_false,
      subR_of_le hle, ok_bind, i1, ok_bind]; rfl
  obtain ⟨o, ho⟩ := runNext_total (next := t.subtreeNext) (P := fun s => ∃ l, SubRel t false s l) (fun s hs => by
    obtain ⟨l, hl⟩ := hs
    obtain ⟨s', g1, g2⟩ := takeNext_rel h.vrep hl
    exact ⟨s', _, g1, _, g2⟩) m
      ⟨it, Spec.rank true v.bits i, Spec.rank true v.bits (c.getD i) - Spec.rank true v.bits i⟩ ⟨_, _, i2, rfl⟩
  exact ⟨_, o, hs, ho⟩

/-! ## The empty tree, roots, postorder -/

theorem fromBitVector_new (bs : Nat) :
    ∃ t, fromBitVector bs BV.new = .ok t ∧ VRep t BV.new := by
  obtain ⟨rs, g1, g2, g3, g4⟩ := fromBitVec_inv (v := BV.new) (by decide)
  refine ⟨⟨rs, ⟨[]⟩⟩, ?_, ⟨by decide, g3, g4⟩, g2⟩
  unfold fromBitVector MMT.excessTree
  rw [if_pos (show BV.new.isEmpty = true from rfl), pure_eq_ok, ok_bind, g1, ok_bind]; rfl

omit [Profile] in
theorem root_node {f : Forest} {p : Nat} (h : p ∈ roots 0 f) : ∃ n ∈ nodes f, n.handle = p := by
  have := roots_eq_filter f [] [] 0
  rw [← this, List.mem_map] at h
  obtain ⟨n, hn, rfl⟩ := h
  exact ⟨n, (List.mem_filter.mp hn).1, rfl⟩

omit [Profile] in
theorem postorder_perm (f : Forest) : ∀ p, (postorder p f).Perm (preorder p f) := by
  induction f with
  | nil => intro p; exact List.Perm.refl _
  | cons c s ihc ihs =>
    intro p
    rw [postorder, preorder]
    exact List.perm_middle.trans (List.Perm.cons _ (List.Perm.append (ihc _) (ihs _)))

end BpTree

namespace BpBuilder

theorem calls_eq (cs : List Bool) : ∀ (b : BpBuilder), b.vec.WF → b.excess = Spec.excess b.vec.bits →
    b.vec.len + cs.length ≤ 9223372036854775807 →
    ∃ b', calls cs b = .ok b' ∧ b'.vec.WF ∧ b'.vec.bits = b.vec.bits ++ cs ∧ b'.excess = Spec.excess b'.vec.bits := by
  induction cs with
  | nil => exact fun b h1 h2 _ => ⟨b, rfl, h1, by simp, h2⟩
  | cons c cs ih =>
    intro b h1 h2 h3
    have hab : (Spec.excess b.vec.bits).natAbs ≤ b.vec.len := by
      have := List.count_le_length (a := true) (l := b.vec.bits)
      have := List.count_le_length (a := false) (l := b.vec.bits)
      rw [BV.length_bits] at *
      unfold Spec.excess; omega
    rw [List.length_cons] at h3
    have key : ∃ b1, b.call c = .ok b1 ∧ b1.vec.WF ∧ b1.vec.bits = b.vec.bits ++ [c] ∧
        b1.excess = Spec.excess b1.vec.bits := by
      cases c
      · obtain ⟨v', g1, g2, g3⟩ := BV.appendBit_refines h1 0#64
        refine ⟨⟨b.excess - 1, v'⟩, ?_, g2, g3, ?_⟩
        · unfold call
          rw [if_neg (by decide)]
          unfold leaveNode subI
          rw [if_pos (by omega), ok_bind, g1]; rfl
        · show b.excess - 1 = Spec.excess v'.bits
          rw [g3, h2]; unfold Spec.excess
          rw [show (0#64).getLsbD 0 = false from rfl]; simp; omega
      · obtain ⟨v', g1, g2, g3⟩ := BV.appendBit_refines h1 1#64
        refine ⟨⟨b.excess + 1, v'⟩, ?_, g2, g3, ?_⟩
        · unfold call
          rw [if_pos rfl]
          unfold enterNode addI
          rw [if_pos (by omega), ok_bind, g1]; rfl
        · show b.excess + 1 = Spec.excess v'.bits
          rw [g3, h2]; unfold Spec.excess
          rw [show (1#64).getLsbD 0 = true from rfl]; simp; omega
    obtain ⟨b1, k1, k2, k3, k4⟩ := key
    have hlen : b1.vec.len = b.vec.len + 1 := by
      rw [← BV.length_bits, k3, List.length_append, BV.length_bits]; rfl
    obtain ⟨b', r1, r2, r3, r4⟩ := ih b1 k2 k4 (by omega)
    exact ⟨b', by unfold calls; rw [k1, ok_bind, r1], r2, by rw [r3, k3]; simp, r4⟩

end BpBuilder
end Vers
