import Verif.Model.Wavelet
import Verif.Props.RsVec

/-!
# Helpers for the wavelet matrix: levels, arrangements and ranges
-/

set_option linter.unusedSimpArgs false

namespace Vers.WM

variable [Profile]
open Spec Vers

/-- The vector of one level answers for the bits `bs`. -/
structure LevelOf (rs : RsVec) (bs : List Bool) : Prop where
  len : rs.len = bs.length
  get : ∀ i b, bs[i]? = some b → rs.getUnchecked i = .ok (b2w b)
  rk : ∀ zero i, rs.rank zero i = .ok ((bs.take i).count (!zero))
  sel : ∀ zero k p, IsSelect (!zero) bs k p → rs.select zero k = .ok p
  selGe : ∀ zero k, bs.count (!zero) ≤ k → rs.select zero k = .ok bs.length
  rank0 : rs.rank0 = bs.count false

omit [Profile] in
theorem count_take_lt {b : Bool} {l : List Bool} {k p : Nat} (h : IsSelect b l k p) : k < l.count b := by
  obtain ⟨h1, h2⟩ := h
  have hp : p < l.length := by
    rcases Nat.lt_or_ge p l.length with h | h
    · exact h
    · rw [List.getElem?_eq_none h] at h1; simp at h1
  have : l.count b = (l.take p).count b + (l.drop p).count b := by
    rw [← List.count_append, List.take_append_drop]
  rw [List.drop_eq_getElem_cons hp] at this
  rw [List.getElem?_eq_getElem hp] at h1
  simp at h1
  rw [h1] at this
  simp at this
  omega

theorem level_of_build {v : BV} (h : v.WF) : ∃ rs, RsVec.fromBitVec v = .ok rs ∧ LevelOf rs v.bits := by
  obtain ⟨rs, g1, g2, g3, g4⟩ := fromBitVec_inv h
  have e := bits_of_from g3 g4
  obtain ⟨rs', r1, r2⟩ := C13_rank_partial h
  rw [g1] at r1; injection r1 with r1; subst r1
  obtain ⟨rs', s1, s2⟩ := C14_select_partial h
  rw [g1] at s1; injection s1 with s1; subst s1
  refine ⟨rs, g1, by rw [g4]; simp, ?_, ?_, ?_, ?_, ?_⟩
  · intro i b hb
    rw [BV.bits_getElem?] at hb
    have hi : i < v.len := by
      rcases Nat.lt_or_ge i v.len with h | h
      · exact h
      · rw [if_neg (by omega)] at hb; simp at hb
    rw [if_pos hi] at hb
    have := BV.getUnchecked_eq (BV.lt_of_wf h hi)
    rw [← e] at this
    injection hb with hb
    rw [← hb, ← g3]
    exact this
  · intro zero i
    cases zero
    · exact (r2 i).2
    · exact (r2 i).1
  · intro zero k p hp
    obtain ⟨q, q1, q2⟩ := (s2 zero k).1 (count_take_lt hp)
    rw [q1, C14_select_unique hp q2]
  · intro zero k hk
    rw [(s2 zero k).2 hk]; simp
  · have := RsVec.rankTotal_eq g2 true
    simp only [if_true] at this
    rw [this, g3, g4, BV.count_bits_eq_cnt]; rfl

/-- Elements whose top bit is 0, for `r` remaining bits. -/
def lo (r : Nat) (S : List Nat) : List Nat := S.filter (· < 2 ^ r)

/-- Elements whose top bit is 1, with that bit removed. -/
def hi (r : Nat) (S : List Nat) : List Nat := (S.filter (2 ^ r ≤ ·)).map (· - 2 ^ r)

/-- The top bits. -/
def top (r : Nat) (S : List Nat) : List Bool := S.map fun x => decide (2 ^ r ≤ x)

omit [Profile] in
@[simp] theorem lo_nil (r : Nat) : lo r [] = [] := rfl
omit [Profile] in
@[simp] theorem hi_nil (r : Nat) : hi r [] = [] := rfl
omit [Profile] in
theorem lo_append (r : Nat) (A B : List Nat) : lo r (A ++ B) = lo r A ++ lo r B := List.filter_append ..
omit [Profile] in
theorem hi_append (r : Nat) (A B : List Nat) : hi r (A ++ B) = hi r A ++ hi r B := by
  simp [hi, List.filter_append]
omit [Profile] in
theorem lo_cons_lt {r x : Nat} (S : List Nat) (h : x < 2 ^ r) : lo r (x :: S) = x :: lo r S := by
  simp [lo, h]
omit [Profile] in
theorem lo_cons_ge {r x : Nat} (S : List Nat) (h : 2 ^ r ≤ x) : lo r (x :: S) = lo r S := by
  have : ¬ x < 2 ^ r := by omega
  simp [lo, this]
omit [Profile] in
theorem hi_cons_lt {r x : Nat} (S : List Nat) (h : x < 2 ^ r) : hi r (x :: S) = hi r S := by
  have : ¬ 2 ^ r ≤ x := by omega
  simp [hi, this]
omit [Profile] in
theorem hi_cons_ge {r x : Nat} (S : List Nat) (h : 2 ^ r ≤ x) : hi r (x :: S) = (x - 2 ^ r) :: hi r S := by
  simp [hi, h]

omit [Profile] in
theorem mem_lo {r x : Nat} {S : List Nat} : x ∈ lo r S ↔ x ∈ S ∧ x < 2 ^ r := by simp [lo]
omit [Profile] in
theorem mem_hi {r x : Nat} {S : List Nat} : x ∈ hi r S ↔ x + 2 ^ r ∈ S := by
  simp only [hi, List.mem_map, List.mem_filter, decide_eq_true_eq]
  constructor
  · rintro ⟨y, ⟨h1, h2⟩, h3⟩
    have : x + 2 ^ r = y := by omega
    rw [this]; exact h1
  · intro h
    exact ⟨_, ⟨h, by omega⟩, by omega⟩

omit [Profile] in
theorem length_lo_add_hi (r : Nat) (S : List Nat) : (lo r S).length + (hi r S).length = S.length := by
  induction S with
  | nil => rfl
  | cons x S ih =>
    rcases Nat.lt_or_ge x (2 ^ r) with h | h
    · rw [lo_cons_lt S h, hi_cons_lt S h]; simp; omega
    · rw [lo_cons_ge S h, hi_cons_ge S h]; simp; omega

omit [Profile] in
theorem count_top_false (r : Nat) (S : List Nat) : (top r S).count false = (lo r S).length := by
  induction S with
  | nil => rfl
  | cons x S ih =>
    unfold top at *
    rcases Nat.lt_or_ge x (2 ^ r) with h | h
    · have h' : ¬ 2 ^ r ≤ x := by omega
      rw [lo_cons_lt S h]; simp [h', ih]
    · rw [lo_cons_ge S h]; simp [h, ih]

omit [Profile] in
theorem count_top_true (r : Nat) (S : List Nat) : (top r S).count true = (hi r S).length := by
  have h1 := count_top_false r S
  have h2 := length_lo_add_hi r S
  have h3 := BV.count_true_add_false (top r S)
  have h4 : (top r S).length = S.length := by simp [top]
  omega

omit [Profile] in
theorem top_take (r : Nat) (S : List Nat) (i : Nat) : (top r S).take i = top r (S.take i) := by
  simp [top, List.map_take]

omit [Profile] in
theorem count_lo {r c : Nat} (h : c < 2 ^ r) (S : List Nat) : (lo r S).count c = S.count c := by
  induction S with
  | nil => rfl
  | cons x S ih =>
    rcases Nat.lt_or_ge x (2 ^ r) with hx | hx
    · rw [lo_cons_lt S hx, List.count_cons, List.count_cons, ih]
    · rw [lo_cons_ge S hx, List.count_cons, ih]
      have : x ≠ c := by omega
      simp [this]

omit [Profile] in
theorem count_hi {r c : Nat} (h : 2 ^ r ≤ c) (S : List Nat) : (hi r S).count (c - 2 ^ r) = S.count c := by
  induction S with
  | nil => rfl
  | cons x S ih =>
    rcases Nat.lt_or_ge x (2 ^ r) with hx | hx
    · rw [hi_cons_lt S hx, List.count_cons, ih]
      have : x ≠ c := by omega
      simp [this]
    · rw [hi_cons_ge S hx, List.count_cons, List.count_cons, ih]
      have : (x - 2 ^ r == c - 2 ^ r) = (x == c) := by
        by_cases hxc : x = c
        · subst hxc; simp
        · have : x - 2 ^ r ≠ c - 2 ^ r := by omega
          rw [beq_eq_false_iff_ne.mpr this, beq_eq_false_iff_ne.mpr hxc]
      rw [this]

/-- The levels store the sequence `S`. -/
def Good : List RsVec → List Nat → Prop
  | [], S => ∀ x ∈ S, x = 0
  | rs :: rest, S => (∀ x ∈ S, x < 2 ^ (rest.length + 1)) ∧ LevelOf rs (top rest.length S) ∧
      Good rest (lo rest.length S ++ hi rest.length S)

theorem Good.lt : ∀ {data : List RsVec} {S : List Nat}, Good data S → ∀ x ∈ S, x < 2 ^ data.length
  | [], _, h, x, hx => by rw [show x = 0 from h x hx]; simp
  | _ :: _, _, h, x, hx => h.1 x hx

/-- Positions `s .. e` of `S` hold the elements `B`. -/
def Seg (S : List Nat) (s e : Nat) (B : List Nat) : Prop :=
  ∃ A C, S = A ++ B ++ C ∧ s = A.length ∧ e = A.length + B.length

omit [Profile] in
theorem Seg.le {S B : List Nat} {s e : Nat} (h : Seg S s e B) : s ≤ e := by
  obtain ⟨A, C, h1, h2, h3⟩ := h; omega
omit [Profile] in
theorem Seg.end_le {S B : List Nat} {s e : Nat} (h : Seg S s e B) : e ≤ S.length := by
  obtain ⟨A, C, h1, h2, h3⟩ := h; subst h1; simp; omega
omit [Profile] in
theorem Seg.length {S B : List Nat} {s e : Nat} (h : Seg S s e B) : B.length = e - s := by
  obtain ⟨A, C, h1, h2, h3⟩ := h; omega
omit [Profile] in
theorem Seg.mem {S B : List Nat} {s e : Nat} (h : Seg S s e B) {x : Nat} (hx : x ∈ B) : x ∈ S := by
  obtain ⟨A, C, h1, h2, h3⟩ := h; subst h1; simp [hx]
omit [Profile] in
theorem Seg.of_take {S : List Nat} {s e : Nat} (h : s ≤ e) (h' : e ≤ S.length) :
    Seg S s e ((S.take e).drop s) := by
  refine ⟨S.take s, S.drop e, ?_, by simp; omega, by simp; omega⟩
  have : S.take s = (S.take e).take s := by rw [List.take_take, Nat.min_eq_left h]
  rw [this, List.take_append_drop, List.take_append_drop]

theorem rank_zero_seg {rs : RsVec} {r : Nat} {S B : List Nat} {s e : Nat} (h : LevelOf rs (top r S))
    (hs : Seg S s e B) : ∃ a, rs.rank true s = .ok a ∧ rs.rank true e = .ok (a + (lo r B).length) ∧ a ≤ s ∧
      a + (lo r B).length ≤ e ∧ rs.rank0 = (lo r S).length ∧
      rs.rank false s = .ok (s - a) ∧ rs.rank false e = .ok (e - (a + (lo r B).length)) ∧
      (e - (a + (lo r B).length)) = (s - a) + (hi r B).length ∧
      Seg (lo r S ++ hi r S) a (a + (lo r B).length) (lo r B) ∧
      Seg (lo r S ++ hi r S) (rs.rank0 + (s - a)) (rs.rank0 + (e - (a + (lo r B).length))) (hi r B) := by
  obtain ⟨A, C, h1, h2, h3⟩ := hs
  have hA := length_lo_add_hi r A
  have hB := length_lo_add_hi r B
  have hr0 : rs.rank0 = (lo r S).length := by rw [h.rank0, count_top_false]
  have t1 : S.take s = A := by rw [h1, h2]; simp
  have t2 : S.take e = A ++ B := by
    rw [h1, h3, ← List.length_append, List.take_left]
  refine ⟨(lo r A).length, ?_, ?_, by omega, by omega, hr0, ?_, ?_, by omega, ?_, ?_⟩
  · rw [h.rk, top_take, t1]; simp only [Bool.not_true]; rw [count_top_false]
  · rw [h.rk, top_take, t2]; simp only [Bool.not_true]; rw [count_top_false, lo_append]; simp
  · rw [h.rk, top_take, t1]; simp only [Bool.not_false]; rw [count_top_true]; congr 1; omega
  · rw [h.rk, top_take, t2]; simp only [Bool.not_false]; rw [count_top_true, hi_append]; simp; omega
  · refine ⟨lo r A, lo r C ++ hi r S, ?_, rfl, rfl⟩
    rw [h1]; simp [lo_append]
  · refine ⟨lo r S ++ hi r A, hi r C, ?_, ?_, ?_⟩
    · conv => lhs; rw [h1]
      rw [hi_append, hi_append, ← h1]; simp
    · rw [hr0]; simp; omega
    · rw [hr0]; simp; omega

/-- The reader delivers the bits of `c` for `r` levels from `level` on. -/
def Reads (read : Nat → R Word) : Nat → Nat → Nat → Prop
  | 0, _, c => c = 0
  | r + 1, level, c => c < 2 ^ (r + 1) ∧ read level = .ok (b2w (decide (2 ^ r ≤ c))) ∧
      Reads read r (level + 1) (if c < 2 ^ r then c else c - 2 ^ r)

omit [Profile] in
theorem b2w_eq_zero (b : Bool) : (b2w b = 0#64) ↔ b = false := by cases b <;> decide

theorem go_eq {rs : RsVec} {r c : Nat} (i : Nat) {a b : Nat} (h0 : rs.rank true i = .ok a) (h1 : rs.rank false i = .ok b) :
    go rs (b2w (decide (2 ^ r ≤ c))) i = .ok (if c < 2 ^ r then a else rs.rank0 + b) := by
  unfold go goZero goOne
  by_cases h : c < 2 ^ r
  · rw [if_pos (by rw [b2w_eq_zero]; simp; omega), if_pos h, h0]
  · rw [if_neg (by rw [b2w_eq_zero]; simp; omega), if_neg h, h1]; rfl

theorem rangeLoop_eq (read : Nat → R Word) : ∀ (data : List RsVec) (level s e : Nat) {s' e' : Nat},
    selectDown read data level s = .ok s' → selectDown read data level e = .ok e' →
    rangeLoop read data level s e = .ok (s', e')
  | [], _, s, e, _, _, h1, h2 => by
    simp only [selectDown, pure_eq_ok, Except.ok.injEq] at h1 h2
    simp [rangeLoop, h1, h2]
  | rs :: rest, level, s, e, s', e', h1, h2 => by
    simp only [selectDown, bind_eq_ok] at h1 h2
    obtain ⟨bit, b1, s1, b2, b3⟩ := h1
    obtain ⟨bit', c1, e1, c2, c3⟩ := h2
    rw [b1] at c1; injection c1 with c1; subst c1
    simp only [rangeLoop]
    rw [b1, ok_bind, b2, ok_bind, c2, ok_bind]
    exact rangeLoop_eq read rest _ _ _ b3 c3

theorem down_step {data : List RsVec} {rs : RsVec} {S : List Nat} (h : Good (rs :: data) S) :
    ∀ i, i ≤ S.length → ∃ a b, rs.rank true i = .ok a ∧ rs.rank false i = .ok b ∧
      a = (lo data.length (S.take i)).length ∧ b = (hi data.length (S.take i)).length := by
  intro i hi
  refine ⟨_, _, ?_, ?_, rfl, rfl⟩
  · rw [h.2.1.rk, top_take]; simp only [Bool.not_true]; rw [count_top_false]
  · rw [h.2.1.rk, top_take]; simp only [Bool.not_false]; rw [count_top_true]

omit [Profile] in
theorem take_lo_hi_zero (r : Nat) (S : List Nat) (i : Nat) :
    (lo r S ++ hi r S).take (lo r (S.take i)).length = lo r (S.take i) := by
  conv => lhs; rw [← List.take_append_drop i S]
  rw [lo_append, List.append_assoc, List.take_left' (by rw [List.take_append_drop])]

omit [Profile] in
theorem take_lo_hi_one (r : Nat) (S : List Nat) (i : Nat) :
    (lo r S ++ hi r S).take ((lo r S).length + (hi r (S.take i)).length) = lo r S ++ hi r (S.take i) := by
  have : hi r S = hi r (S.take i) ++ hi r (S.drop i) := by rw [← hi_append, List.take_append_drop]
  rw [this, ← List.append_assoc, ← List.length_append, List.take_left]

omit [Profile] in
theorem exists_lo {r c : Nat} : ∀ (S : List Nat) (p : Nat), (lo r S)[p]? = some c →
    ∃ q, S[q]? = some c ∧ lo r (S.take q) = (lo r S).take p
  | [], p, h => by simp at h
  | x :: S, p, h => by
    rcases Nat.lt_or_ge x (2 ^ r) with hx | hx
    · rw [lo_cons_lt S hx] at h ⊢
      cases p with
      | zero => exact ⟨0, by simpa using h, by simp⟩
      | succ p =>
        obtain ⟨q, g1, g2⟩ := exists_lo S p (by simpa using h)
        exact ⟨q + 1, by simpa using g1, by rw [List.take_succ_cons, List.take_succ_cons, lo_cons_lt _ hx, g2]⟩
    · rw [lo_cons_ge S hx] at h ⊢
      obtain ⟨q, g1, g2⟩ := exists_lo S p h
      exact ⟨q + 1, by simpa using g1, by rw [List.take_succ_cons, lo_cons_ge _ hx, g2]⟩

omit [Profile] in
theorem exists_hi {r c : Nat} (hc : 2 ^ r ≤ c) : ∀ (S : List Nat) (p : Nat), (hi r S)[p]? = some (c - 2 ^ r) →
    ∃ q, S[q]? = some c ∧ hi r (S.take q) = (hi r S).take p
  | [], p, h => by simp at h
  | x :: S, p, h => by
    rcases Nat.lt_or_ge x (2 ^ r) with hx | hx
    · rw [hi_cons_lt S hx] at h ⊢
      obtain ⟨q, g1, g2⟩ := exists_hi hc S p h
      exact ⟨q + 1, by simpa using g1, by rw [List.take_succ_cons, hi_cons_lt _ hx, g2]⟩
    · rw [hi_cons_ge S hx] at h ⊢
      cases p with
      | zero =>
        refine ⟨0, ?_, by simp⟩
        simp at h ⊢; omega
      | succ p =>
        obtain ⟨q, g1, g2⟩ := exists_hi hc S p (by simpa using h)
        exact ⟨q + 1, by simpa using g1, by rw [List.take_succ_cons, List.take_succ_cons, hi_cons_ge _ hx, g2]⟩

/-- The first loop of select, and the upward loop. -/
theorem down_up {read : Nat → R Word} : ∀ (data : List RsVec) (S : List Nat) (level c : Nat), Good data S →
    Reads read data.length level c →
    ∃ β, β + S.count c ≤ S.length ∧
      (∀ i, i ≤ S.length → selectDown read data level i = .ok (β + (S.take i).count c)) ∧
      ∀ j, (j < S.count c → ∃ q, selectUp read data level (β + j) = .ok q ∧ S[q]? = some c ∧ (S.take q).count c = j) ∧
        (S.count c ≤ j → ∃ q, selectUp read data level (β + j) = .ok q ∧ S.length ≤ q)
  | [], S, level, c, hg, hr => by
    have hc : c = 0 := hr
    subst hc
    have hS : S = List.replicate S.length 0 := by
      apply List.eq_replicate_iff.mpr; exact ⟨rfl, hg⟩
    have hcount : ∀ i, i ≤ S.length → (S.take i).count 0 = i := by
      intro i hi
      rw [hS, List.take_replicate, List.count_replicate]; simp; omega
    have hc2 : S.count 0 = S.length := by simpa using hcount S.length (Nat.le_refl _)
    refine ⟨0, by omega, fun i hi => by simp [selectDown, hcount i hi], fun j => ⟨fun hj => ?_, fun hj => ?_⟩⟩
    · refine ⟨j, by simp [selectUp], ?_, hcount j (by omega)⟩
      rw [hc2] at hj
      rw [List.getElem?_eq_getElem hj, hg _ (List.getElem_mem hj)]
    · exact ⟨j, by simp [selectUp], by omega⟩
  | rs :: rest, S, level, c, hg, hr => by
    obtain ⟨h1, h2, h3⟩ := hg
    obtain ⟨r1, r2, r3⟩ := hr
    obtain ⟨β, b0, b1, b2⟩ := down_up rest _ _ _ h3 r3
    have hlen := length_lo_add_hi rest.length S
    have hr0 : rs.rank0 = (lo rest.length S).length := by rw [h2.rank0, count_top_false]
    by_cases hc : c < 2 ^ rest.length
    · rw [if_pos hc] at b0 b1 b2
      refine ⟨β, ?_, ?_, ?_⟩
      · simp only [List.count_append, List.length_append] at b0
        rw [count_lo hc] at b0
        omega
      · intro i hi'
        obtain ⟨a, b, g1, g2, g3, g4⟩ := down_step ⟨h1, h2, h3⟩ i hi'
        simp only [selectDown]
        rw [r2, ok_bind, go_eq i g1 g2, ok_bind, if_pos hc, b1 _ (by
          have := length_lo_add_hi rest.length (S.take i)
          simp at this ⊢; omega), g3, take_lo_hi_zero, count_lo hc]
      · intro j
        have hb2 := b2 j
        have hbit : b2w (decide (2 ^ rest.length ≤ c)) = 0#64 := by rw [b2w_eq_zero]; simp; omega
        refine ⟨fun hj => ?_, fun hj => ?_⟩
        · obtain ⟨q', q1, q2, q3⟩ := hb2.1 (by rw [List.count_append, count_lo hc]; omega)
          have hq' : q' < (lo rest.length S).length := by
            rcases Nat.lt_or_ge q' (lo rest.length S).length with h | h
            · exact h
            · exfalso
              rw [List.take_append, List.take_of_length_le h, List.count_append, count_lo hc] at q3
              omega
          rw [List.getElem?_append_left hq'] at q2
          rw [List.take_append_of_le_length (by omega)] at q3
          -- the position of the q'-th zero
          obtain ⟨q, e1, e2⟩ := exists_lo S q' q2
          refine ⟨q, ?_, e1, ?_⟩
          · simp only [selectUp]
            rw [q1, ok_bind, r2, ok_bind]
            unfold goUp
            rw [if_pos hbit]
            apply h2.sel
            refine ⟨?_, ?_⟩
            · simp only [top, List.getElem?_map, e1]; simp; omega
            · rw [top_take]; simp only [Bool.not_true]; rw [count_top_false, e2]; simp; omega
          · rw [← count_lo hc, e2, q3]
        · have : ∃ q', selectUp read rest (level + 1) (β + j) = .ok q' ∧ (lo rest.length S).length ≤ q' := by
            by_cases hj2 : j < (lo rest.length S ++ hi rest.length S).count c
            · obtain ⟨q', q1, q2, q3⟩ := hb2.1 hj2
              refine ⟨q', q1, ?_⟩
              rcases Nat.lt_or_ge q' (lo rest.length S).length with h | h
              · exfalso
                rw [List.getElem?_append_left h] at q2
                rw [List.take_append_of_le_length (by omega)] at q3
                rw [← count_lo hc S, ← List.take_append_drop q' (lo rest.length S), List.count_append, q3,
                  List.drop_eq_getElem_cons h] at hj
                rw [List.getElem?_eq_getElem h] at q2
                injection q2 with q2
                rw [q2, List.count_cons_self] at hj
                omega
              · exact h
            · obtain ⟨q', q1, q2⟩ := hb2.2 (by omega)
              exact ⟨q', q1, by simp at q2; omega⟩
          obtain ⟨q', q1, q2⟩ := this
          refine ⟨S.length, ?_, Nat.le_refl _⟩
          simp only [selectUp]
          rw [q1, ok_bind, r2, ok_bind]
          unfold goUp
          rw [if_pos hbit, h2.selGe true q' (by simp only [Bool.not_true]; rw [count_top_false]; exact q2)]
          simp [top]
    · have hc' : 2 ^ rest.length ≤ c := by omega
      rw [if_neg hc] at b0 b1 b2
      have hbit : ¬ b2w (decide (2 ^ rest.length ≤ c)) = 0#64 := by rw [b2w_eq_zero]; simp; omega
      refine ⟨β + (lo rest.length S).count (c - 2 ^ rest.length), ?_, ?_, ?_⟩
      · simp only [List.count_append, List.length_append] at b0
        rw [count_hi hc'] at b0
        omega
      · intro i hi'
        obtain ⟨a, b, g1, g2, g3, g4⟩ := down_step ⟨h1, h2, h3⟩ i hi'
        simp only [selectDown]
        rw [r2, ok_bind, go_eq i g1 g2, ok_bind, if_neg hc, hr0, g4, b1 _ (by
          have : (hi rest.length (S.take i)).length ≤ (hi rest.length S).length := by
            conv => rhs; rw [← List.take_append_drop i S, hi_append]
            simp
          simp; omega), take_lo_hi_one, List.count_append, count_hi hc']
        congr 1; omega
      · intro j
        have hb2 := b2 ((lo rest.length S).count (c - 2 ^ rest.length) + j)
        rw [← Nat.add_assoc] at hb2
        have key : ∀ q', selectUp read rest (level + 1) (β + (lo rest.length S).count (c - 2 ^ rest.length) + j) = .ok q' →
            (lo rest.length S).length ≤ q' →
            selectUp read (rs :: rest) level (β + (lo rest.length S).count (c - 2 ^ rest.length) + j) =
              rs.select false (q' - (lo rest.length S).length) := by
          intro q' q1 q2
          simp only [selectUp]
          rw [q1, ok_bind, r2, ok_bind]
          unfold goUp
          rw [if_neg hbit, hr0, subR_of_le q2, ok_bind]
        refine ⟨fun hj => ?_, fun hj => ?_⟩
        · obtain ⟨q', q1, q2, q3⟩ := hb2.1 (by rw [List.count_append, count_hi hc']; omega)
          have hq' : (lo rest.length S).length ≤ q' := by
            rcases Nat.lt_or_ge q' (lo rest.length S).length with h | h
            · exfalso
              rw [List.getElem?_append_left h] at q2
              rw [List.take_append_of_le_length (by omega)] at q3
              have : (lo rest.length S).count (c - 2 ^ rest.length) =
                  ((lo rest.length S).take q').count (c - 2 ^ rest.length) +
                  ((lo rest.length S).drop q').count (c - 2 ^ rest.length) := by
                rw [← List.count_append, List.take_append_drop]
              rw [q3, List.drop_eq_getElem_cons h] at this
              rw [List.getElem?_eq_getElem h] at q2
              injection q2 with q2
              rw [q2] at this
              simp at this
              omega
            · exact h
          rw [List.getElem?_append_right hq'] at q2
          rw [List.take_append, List.take_of_length_le hq', List.count_append] at q3
          obtain ⟨q, e1, e2⟩ := exists_hi hc' S _ q2
          have hlt : q' - (lo rest.length S).length < (hi rest.length S).length := by
            rcases Nat.lt_or_ge (q' - (lo rest.length S).length) (hi rest.length S).length with h | h
            · exact h
            · rw [List.getElem?_eq_none h] at q2; simp at q2
          refine ⟨q, ?_, e1, ?_⟩
          · rw [key q' q1 hq']
            apply h2.sel
            refine ⟨?_, ?_⟩
            · simp only [top, List.getElem?_map, e1]; simp; omega
            · rw [top_take]; simp only [Bool.not_false]; rw [count_top_true, e2]; simp; omega
          · rw [← count_hi hc', e2]; omega
        · have : ∃ q', selectUp read rest (level + 1) (β + (lo rest.length S).count (c - 2 ^ rest.length) + j) = .ok q' ∧
              S.length ≤ q' := by
            obtain ⟨q', q1, q2⟩ := hb2.2 (by rw [List.count_append, count_hi hc']; omega)
            exact ⟨q', q1, by simp at q2; omega⟩
          obtain ⟨q', q1, q2⟩ := this
          refine ⟨S.length, ?_, Nat.le_refl _⟩
          rw [key q' q1 (by omega), h2.selGe false _ (by simp only [Bool.not_false]; rw [count_top_true]; omega)]
          simp [top]

end Vers.WM
