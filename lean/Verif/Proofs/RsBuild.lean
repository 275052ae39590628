import Verif.Proofs.BitVecOps2
import Verif.Proofs.Pdep
import Verif.Model.RsVec

/-! # `RsVec::from_bit_vec` establishes the rank/select invariant -/

set_option linter.unusedSimpArgs false

namespace Vers

variable [Profile]

/-- number of bits equal to `b` among the first `i` bits of the limb sequence -/
def C (d : List Word) (b : Bool) (i : Nat) : Nat := cnt (fun j => lbit d j == b) i

omit [Profile] in
theorem C_zero (d : List Word) (b : Bool) : C d b 0 = 0 := rfl
omit [Profile] in
theorem C_mono (d : List Word) (b : Bool) {i j : Nat} (h : i ≤ j) : C d b i ≤ C d b j := cnt_mono _ h
omit [Profile] in
theorem C_le (d : List Word) (b : Bool) (i : Nat) : C d b i ≤ i := cnt_le _ _
omit [Profile] in
theorem C_sub_le (d : List Word) (b : Bool) {i j : Nat} (h : i ≤ j) : C d b j - C d b i ≤ j - i :=
  cnt_sub_le _ h

omit [Profile] in
theorem C_compl (d : List Word) (i : Nat) : C d true i + C d false i = i := by
  have := cnt_compl (fun j => lbit d j == true) i
  unfold C
  have e : (fun i => !(lbit d i == true)) = fun j => lbit d j == false := by
    funext j; cases lbit d j <;> rfl
  rw [e] at this
  exact this

omit [Profile] in
theorem C_word {d : List Word} {k : Nat} (hk : k < d.length) (b : Bool) {r : Nat} (hr : r ≤ 64) :
    C d b (64 * k + r) = C d b (64 * k) + cnt (fun i => d[k].getLsbD i == b) r := by
  unfold C
  rw [cnt_add]
  congr 1
  apply cnt_congr
  intro i hi
  rw [lbit_word (by omega), List.getElem?_eq_getElem hk]; rfl

/-- popcount of the searched kind -/
def pc (zero : Bool) (w : Word) : Nat := if zero then popcountZ w else popcount w

omit [Profile] in
theorem pc_eq (zero : Bool) (w : Word) : pc zero w = cnt (fun i => w.getLsbD i == !zero) 64 := by
  unfold pc
  cases zero with
  | true =>
    rw [if_pos rfl, popcountZ_eq]
    apply cnt_congr; intro i _; cases w.getLsbD i <;> rfl
  | false =>
    simp only [Bool.false_eq_true, if_false]
    unfold popcount
    apply cnt_congr; intro i _; cases w.getLsbD i <;> rfl

omit [Profile] in
theorem C_full_word {d : List Word} {k : Nat} (hk : k < d.length) (zero : Bool) :
    C d (!zero) (64 * (k + 1)) = C d (!zero) (64 * k) + pc zero d[k] := by
  rw [pc_eq, Nat.mul_add, C_word hk _ (by omega)]

/-! ## select block updates -/

/-- The select index of one kind is consistent: `cum i` counts the bits before position `i`, and so does
`T i`, except that the padding behind the vector counts as ones. -/
structure SelInv (zero : Bool) (cum T : Nat → Nat) (slen last : Nat) (sel : List (Nat × Nat)) : Prop where
  lt : last < sel.length
  le : ∀ j e, sel[j]? = some e → j ≤ last → prj zero e ≤ slen - 1 ∧ cum (8192 * prj zero e) ≤ 8192 * j
  mono : ∀ j e e', sel[j]? = some e → sel[j + 1]? = some e' → j + 1 ≤ last → prj zero e ≤ prj zero e'
  rest : ∀ j e, sel[j]? = some e → last < j → prj zero e = 0
  first : ∀ e, sel[0]? = some e → prj zero e = 0
  ge : ∀ j e, sel[j]? = some e → 1 ≤ j → j ≤ last → 8192 * j ≤ T (8192 * (prj zero e + 1))

omit [Profile] in
@[simp] theorem prj_mk (z : Bool) (v : Nat) : prj z (mkSel z v) = v := by
  cases z <;> simp [prj, mkSel]
omit [Profile] in
@[simp] theorem prj_mk_other (z : Bool) (v : Nat) : prj (!z) (mkSel z v) = 0 := by
  cases z <;> simp [prj, mkSel]
omit [Profile] in
@[simp] theorem prj_upd (z : Bool) (e : Nat × Nat) (v : Nat) : prj z (updSel z e v) = v := by
  cases z <;> simp [prj, updSel]
omit [Profile] in
@[simp] theorem prj_upd_other (z : Bool) (e : Nat × Nat) (v : Nat) :
    prj (!z) (updSel z e v) = prj (!z) e := by
  cases z <;> simp [prj, updSel]

/-- what changes when entry `k` gets the index `v` of kind `zero` -/
structure SelUpd (zero : Bool) (sel sel' : List (Nat × Nat)) (k v : Nat) : Prop where
  len : sel.length ≤ sel'.length
  klt : k < sel'.length
  same : ∀ j, j ≠ k → sel'[j]? = sel[j]?
  new : ∃ e, sel'[k]? = some e ∧ prj zero e = v ∧
    ((∃ e0, sel[k]? = some e0 ∧ prj (!zero) e = prj (!zero) e0) ∨
      (sel.length ≤ k ∧ prj (!zero) e = 0))

omit [Profile] in
theorem selUpd_push (zero : Bool) (sel : List (Nat × Nat)) (v : Nat) :
    SelUpd zero sel (sel ++ [mkSel zero v]) sel.length v where
  len := by simp
  klt := by simp
  same := by
    intro j hj
    by_cases h : j < sel.length
    · rw [List.getElem?_append_left h]
    · rw [List.getElem?_eq_none (by simp; omega), List.getElem?_eq_none (by omega)]
  new := ⟨mkSel zero v, by simp, by simp, Or.inr ⟨by omega, by simp⟩⟩

omit [Profile] in
theorem selUpd_set (zero : Bool) (sel : List (Nat × Nat)) (k v : Nat) (hk : k < sel.length) :
    SelUpd zero sel (sel.set k (updSel zero sel[k] v)) k v where
  len := by simp
  klt := by simpa using hk
  same := by intro j hj; rw [List.getElem?_set_ne (by omega)]
  new := ⟨updSel zero sel[k] v, by rw [List.getElem?_set_self hk], by simp,
    Or.inl ⟨sel[k], List.getElem?_eq_getElem hk, by simp⟩⟩

omit [Profile] in
theorem setSelect_eq (zero : Bool) (sel : List (Nat × Nat)) (k v : Nat) (hk : k ≤ sel.length) :
    ∃ sel', RsVec.setSelect zero sel k v = .ok sel' ∧ SelUpd zero sel sel' k v := by
  unfold RsVec.setSelect
  by_cases h : k = sel.length
  · rw [if_pos h]; subst h; exact ⟨_, rfl, selUpd_push zero sel v⟩
  · rw [if_neg h, idx_of_lt (by omega), ok_bind, setIdx_of_lt (by omega)]
    exact ⟨_, rfl, selUpd_set zero sel k v (by omega)⟩

omit [Profile] in
/-- an update of one kind keeps the index of the other kind consistent -/
theorem SelInv.other {zero : Bool} {cum T : Nat → Nat} {slen last k v : Nat} {sel sel' : List (Nat × Nat)}
    (h : SelInv (!zero) cum T slen last sel) (hu : SelUpd zero sel sel' k v) :
    SelInv (!zero) cum T slen last sel' := by
  -- every entry of the new list has either the old index of the other kind, or is beyond the old end
  have key : ∀ j e, sel'[j]? = some e → (∃ e0, sel[j]? = some e0 ∧ prj (!zero) e = prj (!zero) e0) ∨
      (sel.length ≤ j ∧ prj (!zero) e = 0) := by
    intro j e hj
    by_cases hjk : j = k
    · obtain ⟨e', h1, -, h3⟩ := hu.new
      subst hjk
      rw [h1] at hj; cases hj
      exact h3
    · rw [hu.same j hjk] at hj
      exact Or.inl ⟨e, hj, rfl⟩
  have hlt := h.lt
  refine ⟨by have := hu.len; omega, ?_, ?_, ?_, ?_, ?_⟩
  · intro j e hj hl
    rcases key j e hj with ⟨e0, h1, h2⟩ | ⟨h1, h2⟩
    · rw [h2]; exact h.le j e0 h1 hl
    · omega
  · intro j e e' hj hj' hl
    rcases key j e hj with ⟨e0, h1, h2⟩ | ⟨h1, h2⟩
    · rcases key (j + 1) e' hj' with ⟨e1, g1, g2⟩ | ⟨g1, g2⟩
      · rw [h2, g2]; exact h.mono j e0 e1 h1 g1 hl
      · omega
    · omega
  · intro j e hj hl
    rcases key j e hj with ⟨e0, h1, h2⟩ | ⟨h1, h2⟩
    · rw [h2]; exact h.rest j e0 h1 hl
    · exact h2
  · intro e hj
    rcases key 0 e hj with ⟨e0, h1, h2⟩ | ⟨h1, h2⟩
    · rw [h2]; exact h.first e0 h1
    · exact h2
  · intro j e hj h1j hl
    rcases key j e hj with ⟨e0, h1, h2⟩ | ⟨h1, h2⟩
    · rw [h2]; exact h.ge j e0 h1 h1j hl
    · omega

omit [Profile] in
/-- an update of the next entry of the same kind -/
theorem SelInv.next {zero : Bool} {cum T : Nat → Nat} {slen last : Nat} {sel sel' : List (Nat × Nat)}
    (h : SelInv zero cum T slen last sel) (hu : SelUpd zero sel sel' (last + 1) (slen - 1))
    (hc : cum (8192 * (slen - 1)) ≤ 8192 * (last + 1)) (hs : 1 ≤ slen)
    (hT : 8192 * (last + 1) ≤ T (8192 * slen)) :
    SelInv zero cum T slen (last + 1) sel' := by
  obtain ⟨en, hn1, hn2, -⟩ := hu.new
  refine ⟨hu.klt, ?_, ?_, ?_, ?_, ?_⟩
  · intro j e hj hl
    by_cases hjk : j = last + 1
    · subst hjk; rw [hn1] at hj; cases hj
      rw [hn2]; exact ⟨by omega, hc⟩
    · rw [hu.same j hjk] at hj
      exact h.le j e hj (by omega)
  · intro j e e' hj hj' hl
    rw [hu.same j (by omega)] at hj
    by_cases hjk : j + 1 = last + 1
    · rw [hjk] at hj'; rw [hn1] at hj'; cases hj'
      rw [hn2]
      exact (h.le j e hj (by omega)).1
    · rw [hu.same (j + 1) hjk] at hj'
      exact h.mono j e e' hj hj' (by omega)
  · intro j e hj hl
    rw [hu.same j (by omega)] at hj
    exact h.rest j e hj (by omega)
  · intro e hj
    rw [hu.same 0 (by omega)] at hj
    exact h.first e hj
  · intro j e hj h1j hl
    by_cases hjk : j = last + 1
    · subst hjk; rw [hn1] at hj; cases hj
      rw [hn2, show slen - 1 + 1 = slen by omega]; exact hT
    · rw [hu.same j hjk] at hj
      exact h.ge j e hj h1j (by omega)

omit [Profile] in
theorem SelInv.grow {zero : Bool} {cum T : Nat → Nat} {slen slen' last : Nat} {sel : List (Nat × Nat)}
    (h : SelInv zero cum T slen last sel) (hs : slen ≤ slen') : SelInv zero cum T slen' last sel :=
  ⟨h.lt, fun j e hj hl => ⟨by have := (h.le j e hj hl).1; omega, (h.le j e hj hl).2⟩, h.mono, h.rest, h.first,
    h.ge⟩

/-- one step of the select block construction -/
theorem selectStep_eq {zero : Bool} {cum cum' T T' : Nat → Nat} {slen last last' before after : Nat}
    {sel : List (Nat × Nat)}
    (h : SelInv zero cum T slen last sel) (h' : SelInv (!zero) cum' T' slen last' sel) (hs : 1 ≤ slen)
    (hlast : last = before / 8192) (hba : before ≤ after) (hab : after ≤ before + 64)
    (hc : cum (8192 * (slen - 1)) ≤ before) (hT : after ≤ T (8192 * slen)) :
    ∃ sel', RsVec.selectStep zero slen sel last before after = .ok (sel', after / 8192) ∧
      SelInv zero cum T slen (after / 8192) sel' ∧ SelInv (!zero) cum' T' slen last' sel' := by
  unfold RsVec.selectStep
  by_cases hx : after / 8192 > before / 8192
  · have hk : after / 8192 = last + 1 := by omega
    have hlt := h.lt
    rw [if_pos hx, subR_of_le hs, ok_bind]
    obtain ⟨sel', h1, h2⟩ := setSelect_eq zero sel (after / 8192) (slen - 1) (by omega)
    rw [h1, ok_bind]
    rw [hk] at h2 ⊢
    exact ⟨sel', rfl, h.next h2 (by omega) hs (by omega), h'.other h2⟩
  · rw [if_neg hx]
    have hk : after / 8192 = last := by omega
    rw [hk]
    exact ⟨sel, rfl, h, h'⟩

/-- the dummy entry -/
theorem dummySelect_eq {zero : Bool} {cum T : Nat → Nat} {slen last : Nat} {sel : List (Nat × Nat)}
    (h : SelInv zero cum T slen last sel) :
    ∃ sel' e, RsVec.dummySelect zero sel last = .ok sel' ∧ sel[last]? = some e ∧
      SelUpd zero sel sel' (last + 1) (prj zero e) := by
  have hlt := h.lt
  unfold RsVec.dummySelect
  rw [subR_of_le (by omega), ok_bind]
  by_cases hl : last = sel.length - 1
  · rw [if_pos hl, idx_of_lt hlt, ok_bind]
    refine ⟨_, sel[last], rfl, List.getElem?_eq_getElem hlt, ?_⟩
    have : last + 1 = sel.length := by omega
    rw [this]
    exact selUpd_push zero sel _
  · rw [if_neg hl, idx_of_lt (show last + 1 < sel.length by omega), ok_bind,
      dassertR_true (h.rest (last + 1) _ (List.getElem?_eq_getElem (by omega)) (by omega)), ok_bind,
      idx_of_lt hlt, ok_bind, setIdx_of_lt (by omega)]
    exact ⟨_, sel[last], rfl, List.getElem?_eq_getElem hlt, selUpd_set zero sel _ _ (by omega)⟩

/-- the select index as used by the queries -/
structure SelOk (zero : Bool) (cum T : Nat → Nat) (slen last : Nat) (sel : List (Nat × Nat)) : Prop where
  ok : ∀ j, j ≤ last → ∃ e e', sel[j]? = some e ∧ sel[j + 1]? = some e' ∧ prj zero e ≤ prj zero e' ∧
    prj zero e' ≤ slen - 1 ∧ cum (8192 * prj zero e) ≤ 8192 * j
  first : ∀ e, sel[0]? = some e → prj zero e = 0
  ge : ∀ j e, sel[j]? = some e → 1 ≤ j → j ≤ last → 8192 * j ≤ T (8192 * (prj zero e + 1))

omit [Profile] in
theorem SelOk.of_dummy {zero : Bool} {cum T : Nat → Nat} {slen last : Nat} {sel sel' : List (Nat × Nat)}
    {e : Nat × Nat} (h : SelInv zero cum T slen last sel) (he : sel[last]? = some e)
    (hu : SelUpd zero sel sel' (last + 1) (prj zero e)) : SelOk zero cum T slen last sel' := by
  have hlt := h.lt
  refine ⟨?_, fun e hj => h.first e (by rw [← hu.same 0 (by omega)]; exact hj),
    fun j e hj h1 hl => h.ge j e (by rw [← hu.same j (by omega)]; exact hj) h1 hl⟩
  intro j hj
  have hjl : j < sel.length := by omega
  refine ⟨sel[j], ?_⟩
  have h1 : sel'[j]? = some sel[j] := by
    rw [hu.same j (by omega)]; exact List.getElem?_eq_getElem hjl
  obtain ⟨a, b⟩ := h.le j sel[j] (List.getElem?_eq_getElem hjl) hj
  by_cases hjl2 : j = last
  · obtain ⟨en, hn1, hn2, -⟩ := hu.new
    have : sel[j] = e := by
      rw [← hjl2, List.getElem?_eq_getElem hjl] at he; exact Option.some.inj he
    refine ⟨en, h1, by rw [hjl2]; exact hn1, ?_, ?_, b⟩
    · rw [hn2, this]; omega
    · rw [hn2, ← this]; exact a
  · have hj1 : j + 1 < sel.length := by omega
    refine ⟨sel[j + 1], h1, ?_, ?_, ?_, b⟩
    · rw [hu.same (j + 1) (by omega)]; exact List.getElem?_eq_getElem hj1
    · exact h.mono j _ _ (List.getElem?_eq_getElem hjl) (List.getElem?_eq_getElem hj1) (by omega)
    · exact (h.le (j + 1) _ (List.getElem?_eq_getElem hj1) (by omega)).1

omit [Profile] in
theorem SelOk.other {zero : Bool} {cum T : Nat → Nat} {slen last k v : Nat} {sel sel' : List (Nat × Nat)}
    (h : SelOk (!zero) cum T slen last sel) (hu : SelUpd zero sel sel' k v) :
    SelOk (!zero) cum T slen last sel' := by
  have key : ∀ (j : Nat) (e0 : Nat × Nat), sel[j]? = some e0 → ∃ e, sel'[j]? = some e ∧ prj (!zero) e = prj (!zero) e0 := by
    intro j e0 hj
    by_cases hjk : j = k
    · obtain ⟨e', h1, -, h3⟩ := hu.new
      subst hjk
      rcases h3 with ⟨e1, g1, g2⟩ | ⟨g1, g2⟩
      · rw [hj] at g1; cases g1; exact ⟨e', h1, g2⟩
      · rw [List.getElem?_eq_none g1] at hj; cases hj
    · exact ⟨e0, by rw [hu.same j hjk]; exact hj, rfl⟩
  have back : ∀ j e, j ≤ last → sel'[j]? = some e → ∃ e0, sel[j]? = some e0 ∧ prj (!zero) e = prj (!zero) e0 := by
    intro j e hj he
    obtain ⟨e0, _, h1, _⟩ := h.ok j hj
    obtain ⟨f, f1, f2⟩ := key j e0 h1
    rw [f1] at he
    cases he
    exact ⟨e0, h1, f2⟩
  refine ⟨?_, ?_, ?_⟩
  rotate_left
  · intro e he
    obtain ⟨e0, g1, g2⟩ := back 0 e (by omega) he
    rw [g2]; exact h.first e0 g1
  · intro j e he h1 hl
    obtain ⟨e0, g1, g2⟩ := back j e hl he
    rw [g2]; exact h.ge j e0 g1 h1 hl
  intro j hj
  obtain ⟨e, e', h1, h2, h3, h4, h5⟩ := h.ok j hj
  obtain ⟨f, f1, f2⟩ := key j e h1
  obtain ⟨f', f1', f2'⟩ := key (j + 1) e' h2
  exact ⟨f, f', f1, f1', by rw [f2, f2']; exact h3, by rw [f2']; exact h4, by rw [f2]; exact h5⟩

/-! ## the loop -/

/-- Zeros in the vector among the first `k` words. -/
def Zk (v : BV) (k : Nat) : Nat := C v.data false (min (64 * k) v.len)

/-- Bits of a kind among the first `p` positions, where the padding behind the vector counts as ones. -/
def cumAt (d : List Word) (len : Nat) (zero : Bool) (p : Nat) : Nat :=
  if zero then C d false (min p len) else p - C d false (min p len)

omit [Profile] in
theorem cumAt_mono (d : List Word) (len : Nat) (zero : Bool) {p q : Nat} (h : p ≤ q) :
    cumAt d len zero p ≤ cumAt d len zero q := by
  unfold cumAt
  have h1 := C_mono d false (i := min p len) (j := min q len) (by omega)
  have h2 := C_sub_le d false (i := min p len) (j := min q len) (by omega)
  cases zero
  · simp only [Bool.false_eq_true, if_false]; omega
  · simpa using h1

theorem newZeros_eq {v : BV} (h : v.WF) {i : Nat} (hi : i < v.data.length) :
    RsVec.newZeros v.len v.data.length i v.data[i] = .ok (Zk v (i + 1) - Zk v i) ∧
      Zk v i ≤ Zk v (i + 1) ∧ Zk v (i + 1) ≤ Zk v i + 64 ∧ Zk v i = C v.data false (64 * i) := by
  unfold BV.WF at h
  have hz : Zk v i = C v.data false (64 * i) := by
    unfold Zk; rw [Nat.min_eq_left (by omega)]
  have hm : Zk v i ≤ Zk v (i + 1) := by unfold Zk; apply C_mono; omega
  have hs : Zk v (i + 1) ≤ Zk v i + 64 := by
    have := C_sub_le v.data false (i := min (64 * i) v.len) (j := min (64 * (i + 1)) v.len) (by omega)
    unfold Zk; omega
  refine ⟨?_, hm, hs, hz⟩
  unfold RsVec.newZeros
  by_cases hl : i + 1 = v.data.length ∧ v.len % 64 ≠ 0
  · rw [if_pos hl]
    have hz1 : Zk v (i + 1) = C v.data false (64 * i + v.len % 64) := by
      unfold Zk; rw [Nat.min_eq_right (by omega)]; congr 1; omega
    rw [C_word hi _ (by omega)] at hz1
    -- zeros of the word = zeros below + zeros above
    have e1 : popcountZ v.data[i] = cnt (fun j => v.data[i].getLsbD j == false) (v.len % 64) +
        popcountZ (v.data[i] ||| ((1#64 <<< (v.len % 64)) - 1#64)) := by
      have ha : popcountZ v.data[i] = cnt (fun j => v.data[i].getLsbD j == false) 64 := by
        have := pc_eq true v.data[i]; simpa [pc] using this
      have hb : popcountZ (v.data[i] ||| ((1#64 <<< (v.len % 64)) - 1#64)) =
          cnt (fun j => (v.data[i] ||| ((1#64 <<< (v.len % 64)) - 1#64)).getLsbD j == false) 64 := by
        have := pc_eq true (v.data[i] ||| ((1#64 <<< (v.len % 64)) - 1#64))
        simpa only [pc, if_true, Bool.not_true] using this
      rw [ha, hb]
      have hr : v.len % 64 + (64 - v.len % 64) = 64 := by omega
      generalize hgen : (64 : Nat) - v.len % 64 = r at hr
      have split : ∀ f : Nat → Bool, cnt f 64 = cnt f (v.len % 64) +
          cnt (fun j => f (v.len % 64 + j)) r := by
        intro f
        rw [← cnt_add, hr]
      rw [split, split (fun j => (v.data[i] ||| ((1#64 <<< (v.len % 64)) - 1#64)).getLsbD j == false)]
      rw [cnt_eq_zero (f := fun j => (v.data[i] ||| ((1#64 <<< (v.len % 64)) - 1#64)).getLsbD j == false)]
      · rw [Nat.zero_add]
        congr 1
        apply cnt_congr
        intro j hj
        rw [BitVec.getLsbD_or, mask_getLsbD _ _ (by omega)]
        have : ¬ (v.len % 64 + j < v.len % 64) := by omega
        simp [this]
      · intro j hj
        rw [BitVec.getLsbD_or, mask_getLsbD _ _ (by omega)]
        simp [hj]
    rw [subR_of_le (by omega)]
    congr 1
    rw [hz1, hz]; omega
  · rw [if_neg hl, pure_eq_ok]
    congr 1
    have hz1 : Zk v (i + 1) = C v.data false (64 * (i + 1)) := by
      unfold Zk; rw [Nat.min_eq_left (by omega)]
    rw [hz1, hz]
    have := C_full_word hi true
    simp only [Bool.not_true, pc, if_true] at this
    omega

/-- Invariant of the construction loop after `k` words. -/
structure BInv (v : BV) (k : Nat) (st : RsVec.Build) : Prop where
  slen : st.supers.length = (k + 127) / 128
  sval : ∀ s, s < st.supers.length → st.supers[s]? = some (C v.data false (8192 * s))
  blen : st.blocks.length = (k + 7) / 8
  bval : ∀ j, j < st.blocks.length →
    st.blocks[j]? = some (C v.data false (512 * j) - C v.data false (8192 * (j / 16)))
  total : st.total = C v.data false (8192 * ((k + 127) / 128 - 1))
  sum : st.total + st.current = Zk v k
  lz : st.lastZero = Zk v k / 8192
  lo : st.lastOne = (64 * k - Zk v k) / 8192
  sel0 : SelInv true (C v.data false) (cumAt v.data v.len true) st.supers.length st.lastZero st.selects
  sel1 : SelInv false (C v.data true) (cumAt v.data v.len false) st.supers.length st.lastOne st.selects

omit [Profile] in
theorem BInv.init (v : BV) : BInv v 0 RsVec.Build.init where
  slen := rfl
  sval := by intro s hs; simp [RsVec.Build.init] at hs
  blen := rfl
  bval := by intro s hs; simp [RsVec.Build.init] at hs
  total := rfl
  sum := by simp [RsVec.Build.init, Zk, C]
  lz := by simp [RsVec.Build.init, Zk, C]
  lo := by simp [RsVec.Build.init, Zk, C]
  sel0 := by
    refine ⟨by simp [RsVec.Build.init], ?_, ?_, ?_, by simp [RsVec.Build.init, prj], ?_⟩
    · intro j e hj hl
      have : j = 0 := by simp [RsVec.Build.init] at hl; exact hl
      subst this; simp [RsVec.Build.init] at hj; subst hj; simp [prj, C]
    · intro j e e' _ _ hl; simp [RsVec.Build.init] at hl
    · intro j e hj hl
      simp [RsVec.Build.init] at hl hj
      rw [List.getElem?_eq_none (by simp; omega)] at hj; cases hj
    · intro j e _ h1 hl; simp [RsVec.Build.init] at hl; omega
  sel1 := by
    refine ⟨by simp [RsVec.Build.init], ?_, ?_, ?_, by simp [RsVec.Build.init, prj], ?_⟩
    · intro j e hj hl
      have : j = 0 := by simp [RsVec.Build.init] at hl; exact hl
      subst this; simp [RsVec.Build.init] at hj; subst hj; simp [prj, C]
    · intro j e e' _ _ hl; simp [RsVec.Build.init] at hl
    · intro j e hj hl
      simp [RsVec.Build.init] at hl hj
      rw [List.getElem?_eq_none (by simp; omega)] at hj; cases hj
    · intro j e _ h1 hl; simp [RsVec.Build.init] at hl; omega

omit [Profile] in
theorem push_getElem? {α : Type} {l : List α} {a : α} {f : Nat → α} (ha : a = f l.length)
    (h : ∀ s, s < l.length → l[s]? = some (f s)) :
    ∀ s, s < (l ++ [a]).length → (l ++ [a])[s]? = some (f s) := by
  intro s hs
  by_cases h' : s < l.length
  · rw [List.getElem?_append_left h']; exact h s h'
  · have : s = l.length := by simp at hs; omega
    subst this; rw [ha]; simp

/-- Facts after the block descriptors for word `k` have been pushed. -/
theorem pushBlock_inv {v : BV} (hwf : v.WF) {k : Nat} (hk : k < v.data.length) {st : RsVec.Build}
    (h : BInv v k st) :
    let st' := RsVec.pushBlock st k
    st'.supers.length = (k + 1 + 127) / 128 ∧
    (∀ s, s < st'.supers.length → st'.supers[s]? = some (C v.data false (8192 * s))) ∧
    st'.blocks.length = (k + 1 + 7) / 8 ∧
    (∀ j, j < st'.blocks.length →
      st'.blocks[j]? = some (C v.data false (512 * j) - C v.data false (8192 * (j / 16)))) ∧
    st'.total = C v.data false (8192 * ((k + 1 + 127) / 128 - 1)) ∧
    st'.total + st'.current = Zk v k ∧ st'.lastZero = st.lastZero ∧ st'.lastOne = st.lastOne ∧
    st'.selects = st.selects ∧ st.supers.length ≤ st'.supers.length := by
  have hz := (newZeros_eq hwf hk).2.2.2
  have hs := h.slen
  have hb := h.blen
  have hsum := h.sum
  have htot := h.total
  simp only
  unfold RsVec.pushBlock
  by_cases h8 : k % 8 = 0
  · rw [if_pos h8]
    unfold RsVec.pushSuper
    by_cases h128 : k % 128 = 0
    · simp only [if_pos h128]
      refine ⟨by simp; omega, ?_, by simp; omega, ?_, ?_, by omega, trivial, trivial, trivial, by simp⟩
      · apply push_getElem? (f := fun s => C v.data false (8192 * s)) _ h.sval
        rw [hsum, hz, hs]; congr 1; omega
      · apply push_getElem? (f := fun j => C v.data false (512 * j) - C v.data false (8192 * (j / 16)))
          _ h.bval
        rw [hb]
        have : 512 * ((k + 7) / 8) = 8192 * ((k + 7) / 8 / 16) := by omega
        simp [this]
      · rw [hsum, hz]; congr 1; omega
    · simp only [if_neg h128]
      refine ⟨by omega, h.sval, by simp; omega, ?_, ?_, by omega, trivial, trivial, trivial, by omega⟩
      · apply push_getElem? (f := fun j => C v.data false (512 * j) - C v.data false (8192 * (j / 16)))
          _ h.bval
        rw [hb]
        have e1 : 512 * ((k + 7) / 8) = 64 * k := by omega
        have e2 : 8192 * ((k + 7) / 8 / 16) = 8192 * ((k + 127) / 128 - 1) := by omega
        have e3 : st.current = C v.data false (64 * k) - st.total := by omega
        rw [e1, e2, ← htot, e3]
        apply Nat.mod_eq_of_lt
        have h1 := C_sub_le v.data false (i := 8192 * ((k + 127) / 128 - 1)) (j := 64 * k) (by omega)
        rw [← htot] at h1
        omega
      · rw [htot]; congr 2; omega
  · rw [if_neg h8]
    refine ⟨by omega, h.sval, by omega, h.bval, ?_, hsum, rfl, rfl, rfl, by omega⟩
    rw [htot]; congr 2; omega

theorem buildStep_eq {v : BV} (hwf : v.WF) {k : Nat} (hk : k < v.data.length) {st : RsVec.Build}
    (h : BInv v k st) :
    ∃ st', RsVec.buildStep v.len v.data.length st k v.data[k] = .ok st' ∧ BInv v (k + 1) st' := by
  obtain ⟨a1, a2, a3, a4, a5, a6, a7, a8, a9, a10⟩ := pushBlock_inv hwf hk h
  obtain ⟨n1, n2, n3, n4⟩ := newZeros_eq hwf hk
  unfold RsVec.buildStep
  generalize hst : RsVec.pushBlock st k = st1 at *
  simp only
  rw [n1, ok_bind]
  have hall : st1.total + st1.current + (Zk v (k + 1) - Zk v k) = Zk v (k + 1) := by omega
  rw [hall, a6]
  have hle : Zk v k ≤ 64 * k := by rw [n4]; exact C_le _ _ _
  have hle1 : Zk v (k + 1) ≤ 64 * (k + 1) := by omega
  have s0 : SelInv true (C v.data false) (cumAt v.data v.len true) st1.supers.length st1.lastZero st1.selects := by
    rw [a7, a9]; exact h.sel0.grow a10
  have s1 : SelInv false (C v.data true) (cumAt v.data v.len false) st1.supers.length st1.lastOne st1.selects := by
    rw [a8, a9]; exact h.sel1.grow a10
  have c0 : C v.data false (8192 * (st1.supers.length - 1)) ≤ Zk v k := by
    rw [n4]; apply C_mono; omega
  have o1 : C v.data true (64 * k) = 64 * k - Zk v k := by
    have := C_compl v.data (64 * k); omega
  have c1 : C v.data true (8192 * (st1.supers.length - 1)) ≤ 64 * k - Zk v k := by
    rw [← o1]; apply C_mono; omega
  obtain ⟨sel, e1, e2, e3⟩ := selectStep_eq (zero := true) (cum' := C v.data true)
    (last' := st1.lastOne) s0 s1 (by omega) (by rw [a7, h.lz]) n2 n3 c0 (by
      have := cumAt_mono v.data v.len true (p := 64 * (k + 1)) (q := 8192 * st1.supers.length) (by omega)
      exact this)
  rw [e1, ok_bind, subR_of_le (by omega), ok_bind, subR_of_le (by omega), ok_bind]
  obtain ⟨sel2, g1, g2, g3⟩ := selectStep_eq (zero := false) (cum' := C v.data false)
    (last' := Zk v (k + 1) / 8192) (before := k * 64 - Zk v k) (after := (k + 1) * 64 - Zk v (k + 1))
    e3 e2 (by omega) (by rw [a8, h.lo]; congr 1; omega) (by omega) (by omega) (by omega) (by
      have := cumAt_mono v.data v.len false (p := 64 * (k + 1)) (q := 8192 * st1.supers.length) (by omega)
      rw [Nat.mul_comm]
      exact this)
  simp only [g1, ok_bind, pure_eq_ok]
  refine ⟨_, rfl, ?_⟩
  exact {
    slen := a1
    sval := a2
    blen := a3
    bval := a4
    total := a5
    sum := by simp only; omega
    lz := rfl
    lo := by simp only; congr 1; omega
    sel0 := g3
    sel1 := g2 }

theorem buildLoop_eq {v : BV} (hwf : v.WF) :
    ∀ (n k : Nat) (st : RsVec.Build), k + n = v.data.length → BInv v k st →
      ∃ st', RsVec.buildLoop v.len v.data.length st k (v.data.drop k) = .ok st' ∧
        BInv v v.data.length st' := by
  intro n
  induction n with
  | zero =>
    intro k st hk h
    rw [List.drop_of_length_le (by omega)]
    exact ⟨st, rfl, by rw [← hk]; exact h⟩
  | succ n ih =>
    intro k st hk h
    rw [List.drop_eq_getElem_cons (by omega)]
    obtain ⟨st', h1, h2⟩ := buildStep_eq hwf (show k < v.data.length by omega) h
    unfold RsVec.buildLoop
    rw [h1, ok_bind]
    exact ih (k + 1) st' (by omega) h2

/-- The data structure invariant of `RsVec`. -/
structure RsVec.Inv (rs : RsVec) : Prop where
  wf : rs.data.length = (rs.len + 63) / 64
  slen : rs.supers.length = (rs.data.length + 127) / 128
  sval : ∀ s, s < rs.supers.length → rs.supers[s]? = some (C rs.data false (8192 * s))
  blen : rs.blocks.length = (rs.data.length + 7) / 8
  bval : ∀ j, j < rs.blocks.length →
    rs.blocks[j]? = some (C rs.data false (512 * j) - C rs.data false (8192 * (j / 16)))
  r0 : rs.rank0 = C rs.data false rs.len
  r1 : rs.rank1 = C rs.data true rs.len
  sel : ∀ zero, SelOk zero (C rs.data (!zero)) (cumAt rs.data rs.len zero) rs.supers.length (C rs.data (!zero) rs.len / 8192)
    rs.selects
  dummy : ∀ e e', rs.selects[C rs.data false rs.len / 8192]? = some e →
    rs.selects[C rs.data false rs.len / 8192 + 1]? = some e' → e'.1 = e.1

omit [Profile] in
theorem SelOk.le {zero : Bool} {cum T : Nat → Nat} {slen last last' : Nat} {sel : List (Nat × Nat)}
    (h : SelOk zero cum T slen last sel) (hl : last' ≤ last) : SelOk zero cum T slen last' sel :=
  ⟨fun j hj => h.ok j (by omega), h.first, fun j e hj h1 h2 => h.ge j e hj h1 (by omega)⟩

theorem fromBitVec_inv {v : BV} (hwf : v.WF) :
    ∃ rs, RsVec.fromBitVec v = .ok rs ∧ rs.Inv ∧ rs.data = v.data ∧ rs.len = v.len := by
  obtain ⟨st, h1, h2⟩ := buildLoop_eq hwf v.data.length 0 RsVec.Build.init (by omega) (BInv.init v)
  rw [List.drop_zero] at h1
  unfold RsVec.fromBitVec
  rw [h1, ok_bind]
  obtain ⟨sel, e, d1, d2, d3⟩ := dummySelect_eq h2.sel0
  rw [d1, ok_bind]
  have s1 : SelInv false (C v.data true) (cumAt v.data v.len false) st.supers.length st.lastOne sel :=
    SelInv.other (zero := true) h2.sel1 d3
  obtain ⟨sel', e', g1, g2, g3⟩ := dummySelect_eq s1
  rw [g1, ok_bind]
  simp only
  have hz : Zk v v.data.length = C v.data false v.len := by
    unfold Zk; unfold BV.WF at hwf; rw [Nat.min_eq_right (by omega)]
  have hsum : st.total + st.current = C v.data false v.len := by rw [h2.sum, hz]
  rw [hsum, subR_of_le (C_le _ _ _), ok_bind]
  refine ⟨_, rfl, ?_, rfl, rfl⟩
  have k0 : SelOk true (C v.data false) (cumAt v.data v.len true) st.supers.length st.lastZero sel := SelOk.of_dummy h2.sel0 d2 d3
  have k1 : SelOk false (C v.data true) (cumAt v.data v.len false) st.supers.length st.lastOne sel' :=
    SelOk.of_dummy s1 g2 g3
  have k0' : SelOk true (C v.data false) (cumAt v.data v.len true) st.supers.length st.lastZero sel' :=
    SelOk.other (zero := false) k0 g3
  exact {
    wf := hwf
    slen := h2.slen
    sval := h2.sval
    blen := h2.blen
    bval := h2.bval
    r0 := rfl
    r1 := by have := C_compl v.data v.len; simp only; omega
    sel := by
      intro zero
      cases zero with
      | true => exact k0'.le (by rw [h2.lz, hz]; exact Nat.le_refl _)
      | false =>
        apply k1.le
        rw [h2.lo, hz]
        apply Nat.div_le_div_right
        have := C_compl v.data v.len
        unfold BV.WF at hwf
        simp only [Bool.not_false]
        omega
    dummy := by
      simp only
      intro f f' hf hf'
      rw [show C v.data false v.len / 8192 = st.lastZero by rw [h2.lz, hz]] at hf hf'
      have keep : ∀ (j : Nat) (a b : Nat × Nat), sel[j]? = some a → sel'[j]? = some b → b.1 = a.1 := by
        intro j a b ha hb
        by_cases hj : j = st.lastOne + 1
        · obtain ⟨c, c1, _, c3⟩ := g3.new
          subst hj
          rw [hb] at c1
          cases c1
          rcases c3 with ⟨d, d1, d2⟩ | ⟨d1, _⟩
          · rw [ha] at d1; cases d1; simpa [prj] using d2
          · rw [List.getElem?_eq_none d1] at ha; cases ha
        · rw [g3.same j hj, ha] at hb
          cases hb; rfl
      obtain ⟨c, c1, c2, _⟩ := d3.new
      have h3 : sel[st.lastZero]? = some e := by rw [d3.same _ (by omega)]; exact d2
      rw [keep _ _ _ h3 hf, keep _ _ _ c1 hf']
      simpa [prj] using c2 }

theorem buildStep_congr {a b dlen : Nat} (ha : a % 64 = 0) (hb : b % 64 = 0) (st : RsVec.Build) (i : Nat) (w : Word) :
    RsVec.buildStep a dlen st i w = RsVec.buildStep b dlen st i w := by
  unfold RsVec.buildStep RsVec.newZeros
  rw [ha, hb]

theorem buildLoop_congr {a b dlen : Nat} (ha : a % 64 = 0) (hb : b % 64 = 0) : ∀ (ws : List Word) (st : RsVec.Build) (i : Nat),
    RsVec.buildLoop a dlen st i ws = RsVec.buildLoop b dlen st i ws
  | [], _, _ => rfl
  | w :: ws, st, i => by
    unfold RsVec.buildLoop
    rw [buildStep_congr ha hb]
    congr 1
    funext st
    exact buildLoop_congr ha hb ws st (i + 1)

/-- A vector with a limb too many is built like the longer vector, up to the number of ones. -/
theorem fromBitVec_long {v u : BV} (hd : v.data = u.data) (ha : v.len % 64 = 0) (hb : u.len % 64 = 0) {rs : RsVec}
    (h : RsVec.fromBitVec u = .ok rs) :
    RsVec.fromBitVec v = (do
      let r ← subR v.len rs.rank0
      pure { rs with len := v.len, rank1 := r }) := by
  unfold RsVec.fromBitVec at h ⊢
  rw [hd, buildLoop_congr ha hb]
  obtain ⟨st, h1, h⟩ := bind_eq_ok.mp h
  obtain ⟨s1, h2, h⟩ := bind_eq_ok.mp h
  obtain ⟨s2, h3, h⟩ := bind_eq_ok.mp h
  obtain ⟨r, h4, h⟩ := bind_eq_ok.mp h
  cases h
  rw [h1, ok_bind, h2, ok_bind, h3, ok_bind]

end Vers
