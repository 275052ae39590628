import Verif.Props.EliasFano
import Verif.Props.EditLaws
import Verif.Props.RsVec
import Verif.Props.Sparse
import Verif.Props.Wavelet

/-! # C89: the queries of an Elias-Fano vector and of a wavelet matrix agree with each other

Only the functions of the library are mentioned in the laws. -/

namespace Vers

open Spec

variable [Profile]

section

omit [Profile]

/-- In a sorted sequence, the elements smaller than `x` are the first ones. -/
theorem lt_iff_countP {x : Word} : ∀ {l : List Word}, Sorted l → ∀ (i : Nat) (h : i < l.length),
    l[i] < x ↔ i < l.countP (fun y => decide (y < x))
  | [], _, i, h => by simp at h
  | a :: l, hs, i, h => by
    obtain ⟨h1, h2⟩ := List.pairwise_cons.mp hs
    by_cases ha : a < x
    · rw [List.countP_cons_of_pos (by simpa using ha)]
      cases i with
      | zero => simpa using ha
      | succ i =>
        simp only [List.getElem_cons_succ, Nat.add_lt_add_iff_right]
        exact lt_iff_countP h2 i (by simpa using h)
    · rw [List.countP_cons_of_neg (by simpa using ha)]
      have e : l.countP (fun y => decide (y < x)) = 0 := by
        rw [List.countP_eq_zero]
        intro y hy
        have := h1 y hy
        simp only [decide_eq_true_eq, BitVec.lt_def, BitVec.le_def] at *
        omega
      rw [e]
      constructor
      · intro hx
        cases i with
        | zero => exact absurd hx ha
        | succ i =>
          have hi : i < l.length := by simpa using h
          have := h1 l[i] (List.getElem_mem hi)
          simp only [List.getElem_cons_succ, BitVec.lt_def, BitVec.le_def] at *
          omega
      · intro hx; omega

/-- The successor is the element behind the smaller ones. -/
theorem successor_at {l : List Word} (hs : Sorted l) {x : Word} {o : Option Word} (ho : IsSuccessor l x o) :
    o = l[l.countP (fun y => decide (y < x))]? := by
  have key := lt_iff_countP (x := x) hs
  cases o with
  | none =>
    rw [eq_comm, List.getElem?_eq_none_iff]
    apply Nat.le_of_not_lt
    intro hc
    have := (key _ hc).mp (ho _ (List.getElem_mem _))
    omega
  | some y =>
    obtain ⟨h1, h2, h3⟩ := ho
    obtain ⟨i, hi, rfl⟩ := List.mem_iff_getElem.mp h1
    have hle : l.countP (fun y => decide (y < x)) ≤ i := by
      apply Nat.le_of_not_lt
      intro hc
      have := (key i hi).mpr hc
      simp only [BitVec.lt_def, BitVec.le_def] at *
      omega
    have hc : l.countP (fun y => decide (y < x)) < l.length := by omega
    rw [List.getElem?_eq_getElem hc]
    congr 1
    have h4 : x ≤ l[l.countP (fun y => decide (y < x))] := by
      have : ¬ l[l.countP (fun y => decide (y < x))] < x := fun h => by have := (key _ hc).mp h; omega
      simp only [BitVec.lt_def, BitVec.le_def] at *
      omega
    have h5 := h3 _ (List.getElem_mem hc) h4
    have h6 : l[l.countP (fun y => decide (y < x))] ≤ l[i] := by
      rcases Nat.lt_or_eq_of_le hle with h | h
      · exact List.pairwise_iff_getElem.mp hs _ _ hc hi h
      · simp [h]
    simp only [BitVec.le_def] at *
    exact BitVec.eq_of_toNat_eq (by omega)

/-- The predecessor is the last element that is not greater. -/
theorem predecessor_at {l : List Word} (hs : Sorted l) {x z : Word} (hz : z.toNat = x.toNat + 1) {o : Option Word}
    (ho : IsPredecessor l x o) :
    o = if l.countP (fun y => decide (y < z)) = 0 then none else l[l.countP (fun y => decide (y < z)) - 1]? := by
  have key := lt_iff_countP (x := z) hs
  have hle := List.countP_le_length (p := fun y => decide (y < z)) (l := l)
  cases o with
  | none =>
    rw [if_pos]
    apply Nat.eq_zero_of_not_pos
    intro hc
    have h1 := (key 0 (by omega)).mpr hc
    have h2 := ho _ (List.getElem_mem (h := by omega) : l[0] ∈ l)
    simp only [BitVec.lt_def] at *
    omega
  | some y =>
    obtain ⟨h1, h2, h3⟩ := ho
    obtain ⟨i, hi, rfl⟩ := List.mem_iff_getElem.mp h1
    have hlt : i < l.countP (fun y => decide (y < z)) := (key i hi).mp (by
      simp only [BitVec.lt_def, BitVec.le_def] at *
      omega)
    rw [if_neg (by omega), List.getElem?_eq_getElem (by omega)]
    congr 1
    have h4 := (key (l.countP (fun y => decide (y < z)) - 1) (by omega)).mpr (by omega)
    have h5 := h3 _ (List.getElem_mem _) (by simp only [BitVec.lt_def, BitVec.le_def] at *; omega :
      l[l.countP (fun y => decide (y < z)) - 1] ≤ x)
    have h6 : l[i] ≤ l[l.countP (fun y => decide (y < z)) - 1] := by
      rcases Nat.lt_or_eq_of_le (show i ≤ l.countP (fun y => decide (y < z)) - 1 by omega) with h | h
      · exact List.pairwise_iff_getElem.mp hs _ _ hi _ h
      · simp [← h]
    simp only [BitVec.le_def] at *
    exact BitVec.eq_of_toNat_eq (by omega)

end

/-- C89: in an Elias-Fano vector, the successor of `x` is the element at index `rank(x)`, and the predecessor is the element
before index `rank(x + 1)`; the first occurrence of a stored element is at the index that is its rank, and it is its own
successor and predecessor; an element is the sum of the deltas up to its index. -/
theorem C89_elias_fano {fl : Nat → Nat} (hfl : LogLike fl) {data : List Word} (hs : Sorted data)
    (hl : data.length < 2 ^ 60) :
    ∃ ef, EF.fromSlice fl data = .ok ef ∧
      (∀ x, ∃ r, ef.rank x = .ok r ∧ ef.successor x = ef.get r.toNat) ∧
      (∀ x, x ≠ BitVec.allOnes 64 → ∃ r, ef.rank (x + 1#64) = .ok r ∧
        ef.predecessor x = if r = 0#64 then .ok none else ef.get (r.toNat - 1)) ∧
      (∀ i x, ef.get i = .ok (some x) →
        (∃ r, ef.rank x = .ok r ∧ r.toNat ≤ i ∧ ef.get r.toNat = .ok (some x)) ∧
        ef.successor x = .ok (some x) ∧ ef.predecessor x = .ok (some x)) ∧
      ∀ i x, ef.get i = .ok (some x) → ∃ ds : List Word,
        (List.range (i + 1)).map (fun j => ef.delta j) = ds.map (fun d => .ok (some d)) ∧ ds.sum = x := by
  obtain ⟨ef, h1, -, h2⟩ := C21_get hfl hs hl
  obtain ⟨ef', h1', h3⟩ := C22_predecessor hfl hs hl
  cases h1.symm.trans h1'
  obtain ⟨ef', h1', h4⟩ := C23_successor hfl hs hl
  cases h1.symm.trans h1'
  obtain ⟨ef', h1', h5⟩ := C24_rank hfl hs hl
  cases h1.symm.trans h1'
  obtain ⟨ef', h1', d0, d1, -⟩ := C25_delta hfl hs hl
  cases h1.symm.trans h1'
  refine ⟨ef, h1, fun x => ?_, fun x hx => ?_, fun i x hx => ⟨?_, ?_, ?_⟩, ?_⟩
  · obtain ⟨r, r1, r2⟩ := h5 x
    obtain ⟨o, o1, o2⟩ := h4 x
    exact ⟨r, r1, by rw [o1, h2, r2, successor_at hs o2]⟩
  · obtain ⟨r, r1, r2⟩ := h5 (x + 1#64)
    obtain ⟨o, o1, o2⟩ := h3 x
    have hz : (x + 1#64).toNat = x.toNat + 1 := by
      have : x.toNat ≠ 2 ^ 64 - 1 := fun h => hx (BitVec.eq_of_toNat_eq (by rw [h]; rfl))
      have := x.isLt
      rw [BitVec.toNat_add]
      exact Nat.mod_eq_of_lt (by simp; omega)
    refine ⟨r, r1, ?_⟩
    rw [o1, h2, predecessor_at hs hz o2, ← r2]
    by_cases hr : r = 0#64
    · rw [if_pos (by rw [hr]; rfl), if_pos hr]
    · rw [if_neg (fun h => hr (BitVec.eq_of_toNat_eq (by rw [h]; rfl))), if_neg hr]
  · rw [h2] at hx
    obtain ⟨hi, e⟩ := List.getElem?_eq_some_iff.mp (Except.ok.inj hx)
    obtain ⟨r, r1, r2⟩ := h5 x
    have key := lt_iff_countP (x := x) hs
    have hle : data.countP (fun y => decide (y < x)) ≤ i := by
      apply Nat.le_of_not_lt
      intro hc
      have := (key i hi).mpr hc
      rw [e] at this
      simp [BitVec.lt_def] at this
    refine ⟨r, r1, by omega, ?_⟩
    rw [h2, r2]
    rw [← successor_at hs (o := some x) ⟨e ▸ List.getElem_mem hi, by simp [BitVec.le_def], fun z _ h => h⟩]
  · rw [h2] at hx
    have hm := List.mem_of_getElem? (Except.ok.inj hx)
    obtain ⟨o, o1, o2⟩ := h4 x
    have : IsSuccessor data x (some x) := ⟨hm, by simp [BitVec.le_def], fun z _ h => h⟩
    rw [o1, successor_at hs o2, ← successor_at hs this]
  · rw [h2] at hx
    have hm := List.mem_of_getElem? (Except.ok.inj hx)
    obtain ⟨o, o1, o2⟩ := h3 x
    rw [o1]
    cases o with
    | none =>
      have := o2 x hm
      simp [BitVec.lt_def] at this
    | some y =>
      obtain ⟨-, q2, q3⟩ := o2
      have := q3 x hm (by simp [BitVec.le_def])
      simp only [BitVec.le_def] at *
      rw [BitVec.eq_of_toNat_eq (show y.toNat = x.toNat by omega)]
  · intro i
    induction i with
    | zero =>
      intro x hx
      rw [h2] at hx
      exact ⟨[x], by simp [d0, Except.ok.inj hx], by simp⟩
    | succ i ih =>
      intro x hx
      rw [h2] at hx
      have hx := Except.ok.inj hx
      obtain ⟨hi, -⟩ := List.getElem?_eq_some_iff.mp hx
      obtain ⟨ds, q1, q2⟩ := ih (data[i]'(by omega)) (by rw [h2, List.getElem?_eq_getElem])
      refine ⟨ds ++ [x - data[i]'(by omega)], ?_, ?_⟩
      · rw [List.range_succ, List.map_append, q1, List.map_append, List.map_singleton, List.map_singleton,
          d1 i _ x (List.getElem?_eq_getElem _) hx]
      · rw [List.sum_append, q2, List.sum_singleton, BitVec.add_comm, BitVec.sub_add_cancel]

example := C89_elias_fano logLike_ceilLog2 (data := efExample) (by simp [Sorted, efExample]) (by decide)

/-- C89: in a sparse vector `select1` and `rank1` are inverse to each other on the ones, the two ranks add up, and `select1`
answers the length of the vector exactly for the ranks from the number of ones on. -/
theorem C89_sparse {fl : Nat → Nat} (hfl : LogLike fl) {input : List Word} {len : Word}
    (hs : input.Pairwise (· < ·)) (hb : ∀ x, x ∈ input → x < len) (hn : input.length < 2 ^ 60) :
    ∃ s, Sparse.new fl input len = .ok s ∧
      (∀ p, s.isSet p = .ok (some true) → ∃ r, s.rank1 p = .ok r ∧ s.select1 r.toNat = .ok p) ∧
      (∀ k p, s.select1 k = .ok p → p ≠ s.len → s.isSet p = .ok (some true) ∧ ∃ r, s.rank1 p = .ok r ∧ r.toNat = k) ∧
      (∀ p, ∃ a b, s.rank1 p = .ok a ∧ s.rank0 p = .ok b ∧ a.toNat + b.toNat = min p.toNat s.len.toNat) ∧
      ∃ n, s.rank1 s.len = .ok n ∧ ∀ k, s.select1 k = .ok s.len ↔ n.toNat ≤ k := by
  obtain ⟨s, s1, h⟩ := C27_new hfl hs hb hn
  generalize indicator input len.toNat = l at h
  have lt : ∀ {p : Nat} {b : Bool}, l[p]? = some b → p < l.length := fun hp => (List.getElem?_eq_some_iff.mp hp).1
  have pos : ∀ {p : Nat}, l[p]? = some true → (l.take p).count true < l.count true := by
    intro p hp
    obtain ⟨h1, h2⟩ := List.getElem?_eq_some_iff.mp hp
    have : l.count true = (l.take p).count true + (l.drop p).count true := by
      rw [← List.count_append, List.take_append_drop]
    have : 0 < (l.drop p).count true := List.count_pos_iff.mpr (by
      rw [List.mem_iff_getElem?]
      exact ⟨0, by simpa using hp⟩)
    omega
  refine ⟨s, s1, fun p hp => ?_, fun k p hk hp => ?_, fun p => ?_, ?_⟩
  · rw [h.isSet] at hp
    have hp := Except.ok.inj hp
    obtain ⟨r, r1, r2⟩ := h.rank1 p
    obtain ⟨q, q1, q2⟩ := h.select1 r.toNat (by rw [r2]; exact pos hp)
    refine ⟨r, r1, ?_⟩
    rw [q1, BitVec.eq_of_toNat_eq (C14_select_unique q2 ⟨hp, r2.symm⟩)]
  · by_cases hc : k < l.count true
    · obtain ⟨q, q1, q2, q3⟩ := h.select1 k hc
      rw [q1] at hk
      cases Except.ok.inj hk
      obtain ⟨r, r1, r2⟩ := h.rank1 p
      exact ⟨by rw [h.isSet, q2], r, r1, r2.trans q3⟩
    · rw [h.select1_end k (by omega)] at hk
      exact absurd (Except.ok.inj hk).symm hp
  · obtain ⟨a, a1, a2⟩ := h.rank1 p
    obtain ⟨b, b1, b2⟩ := h.rank0 p
    refine ⟨a, b, a1, b1, ?_⟩
    rw [a2, b2, h.len]
    have : ∀ t : List Bool, t.count true + t.count false = t.length := by
      intro t
      induction t with
      | nil => rfl
      | cons x t ih => cases x <;> simp <;> omega
    unfold rank
    rw [this, List.length_take]
  · obtain ⟨n, n1, n2⟩ := h.rank1 s.len
    rw [h.len] at n2
    unfold rank at n2
    rw [List.take_length] at n2
    refine ⟨n, n1, fun k => ⟨fun hk => ?_, fun hk => h.select1_end k (by omega)⟩⟩
    apply Nat.le_of_not_lt
    intro hc
    obtain ⟨q, q1, q2, q3⟩ := h.select1 k (by omega)
    rw [q1] at hk
    cases Except.ok.inj hk
    have := lt q2
    rw [h.len] at this
    omega

example := C89_sparse logLike_ceilLog2 (input := [3#64, 17#64, 40#64]) (len := 50#64) (by decide) (by simp) (by decide)

open WM

omit [Profile] in
theorem resU64_unique {a b : R (Option Word)} {o : Option Nat} (ha : ResU64 a o) (hb : ResU64 b o) : a = b := by
  obtain ⟨x, rfl, hx⟩ := ha
  obtain ⟨y, rfl, hy⟩ := hb
  congr 1
  cases x <;> cases y <;> cases hx <;> simp_all
  exact BitVec.eq_of_toNat_eq hy.symm

/-- C89: in a wavelet matrix (elements of at most 64 bits), `rank` and `select` are inverse to each other; the ranks of a range
are the differences of the ranks; minimum, maximum and median are quantiles, and the quantiles of the whole sequence
are the sorted sequence; predecessors and successors occur in the range and are their own predecessor and successor.
Partial: the law from `select` to `rank` is for ranks below `2 ^ 63` (`C34_select_u64_partial`). -/
theorem C89_wavelet_partial {m : WM} {k : Nat} {vals : List Nat} (h : Built m k vals) (hk : k ≤ 64) (hn : vals.length < 2 ^ 63) :
    (∀ i w, m.getU64 i = .ok (some w) → ∃ r, m.rankU64 i w = .ok (some r) ∧ m.rankU64 (i + 1) w = .ok (some (r + 1)) ∧
      m.selectU64 r w = .ok (some i)) ∧
    (∀ r w p, r < 2 ^ 63 → m.selectU64 r w = .ok (some p) → m.rankU64 p w = .ok (some r) ∧
      ∃ x, m.getU64 p = .ok (some x) ∧ x.toNat = w.toNat % 2 ^ k) ∧
    (∀ s e w, s < m.len → s ≤ e → e ≤ m.len → ∃ a b, m.rankU64 s w = .ok (some a) ∧ m.rankRangeU64 s e w = .ok (some b) ∧
      m.rankU64 e w = .ok (some (a + b))) ∧
    (∀ s e, s < e → e ≤ m.len → m.rangeMinU64 s e = m.quantileU64 s e 0 ∧
      m.rangeMaxU64 s e = m.quantileU64 s e (e - s - 1) ∧ m.rangeMedianU64 s e = m.quantileU64 s e ((e - s - 1) / 2)) ∧
    (∀ i, m.getSortedU64 i = m.quantileU64 0 m.len i) ∧
    ∀ s e w y, m.predecessorU64 s e w = .ok (some y) ∨ m.successorU64 s e w = .ok (some y) →
      (∃ c, m.rankRangeU64 s e y = .ok (some (c + 1))) ∧ m.predecessorU64 s e y = .ok (some y) ∧
      m.successorU64 s e y = .ok (some y) := by
  obtain ⟨hlen, -, hlt, -, -, hget, -⟩ := C31_access h
  have hget := hget hk
  have rk : ∀ i w, i ≤ vals.length → m.rankU64 i w = .ok (some ((vals.take i).count (w.toNat % 2 ^ k))) :=
    fun i w hi => (C33_rank_u64 h w).2.1 hk i hi
  have cnt : ∀ i (hi : i < vals.length) x, (vals.take (i + 1)).count x =
      (vals.take i).count x + if vals[i] = x then 1 else 0 := by
    intro i hi x
    rw [List.take_succ_eq_append_getElem hi, List.count_append, List.count_singleton]
    simp only [beq_iff_eq]
  have out : ∀ i w, m.getU64 i = .ok (some w) → ∃ hi : i < vals.length, vals[i] = w.toNat ∧ w.toNat % 2 ^ k = w.toNat := by
    intro i w hw
    obtain ⟨o, o1, o2⟩ := hget i
    rw [o1] at hw
    cases Except.ok.inj hw
    obtain ⟨hi, e⟩ := List.getElem?_eq_some_iff.mp o2.symm
    exact ⟨hi, e, Nat.mod_eq_of_lt (e ▸ hlt _ (List.getElem_mem hi))⟩
  have btw : ∀ p, between vals 0 p = vals.take p := fun p => by simp [between]
  refine ⟨fun i w hw => ?_, fun r w p hr hp => ?_, fun s e w h1 h2 h3 => ?_, fun s e h1 h2 => ⟨?_, ?_, ?_⟩, fun i => ?_, ?_⟩
  · obtain ⟨hi, e, em⟩ := out i w hw
    refine ⟨_, rk i w (by omega), ?_, ?_⟩
    · rw [rk (i + 1) w (by omega), cnt i hi, em, if_pos e]
    · have hc := List.count_le_length (a := w.toNat % 2 ^ k) (l := vals.take i)
      rw [List.length_take] at hc
      have hnth : IsNth vals (w.toNat % 2 ^ k) 0 ((vals.take i).count (w.toNat % 2 ^ k)) i :=
        ⟨by omega, by rw [List.getElem?_eq_getElem hi, e, em], by rw [btw]⟩
      rcases ((C34_select_u64_partial h w ((vals.take i).count (w.toNat % 2 ^ k)) (by omega)).1 hk).1 with ⟨p, p1, p2⟩ | ⟨p1, p2⟩
      · rw [p1, isNth_unique p2 hnth]
      · have := isNth_lt hnth
        rw [show between vals 0 vals.length = vals.drop 0 by simp [between]] at this
        omega
  · rcases ((C34_select_u64_partial h w r (by omega)).1 hk).1 with ⟨q, q1, q2⟩ | ⟨q1, -⟩
    · rw [q1] at hp
      cases Except.ok.inj hp
      obtain ⟨-, q3, q4⟩ := q2
      obtain ⟨hi, e⟩ := List.getElem?_eq_some_iff.mp q3
      refine ⟨by rw [rk p w (by omega), ← btw, q4], ?_⟩
      obtain ⟨o, o1, o2⟩ := hget p
      rw [q3] at o2
      obtain ⟨x, rfl, hx⟩ := Option.map_eq_some_iff.mp o2
      exact ⟨x, o1, hx⟩
    · rw [q1] at hp
      cases Except.ok.inj hp
  · rw [hlen] at h1 h3
    refine ⟨_, _, rk s w (by omega), ((C33_rank_u64 h w).1 hk s e h1 h2 h3).1, ?_⟩
    rw [rk e w h3]
    have : vals.take e = vals.take s ++ between vals s e := by
      unfold between
      rw [← List.take_append_drop s (vals.take e), List.take_take, Nat.min_eq_left h2, List.drop_append]
      simp
      omega
    rw [← List.count_append, ← this]
  · rw [hlen] at h2
    have := (C35_quantile_partial h (s := s) (e := e) (by omega)).2.2 hk
    refine resU64_unique this.2 ?_
    have q := this.1 0
    rw [if_pos (by omega), sorted_first] at q
    rw [if_pos (by omega)]
    exact q
  · rw [hlen] at h2
    have := ((C35_max_median h s e).2.2 hk).1
    refine resU64_unique this ?_
    have q := ((C35_quantile_partial h (s := s) (e := e) (by omega)).2.2 hk).1 (e - s - 1)
    have hb : (between vals s e).length = e - s := by simp [between]; omega
    rw [if_pos (by omega), ← hb, sorted_last] at q
    rw [if_pos (by omega)]
    rw [← hb]
    exact q
  · rw [hlen] at h2
    have := ((C35_max_median h s e).2.2 hk).2
    refine resU64_unique this ?_
    have q := ((C35_quantile_partial h (s := s) (e := e) (by omega)).2.2 hk).1 ((e - s - 1) / 2)
    rw [if_pos (by omega)] at q
    rw [if_pos (by omega)]
    exact q
  · rw [hlen]
    refine resU64_unique ((C35_get_sorted h i).2 hk) ?_
    have q := ((C35_quantile_partial h (s := 0) (e := vals.length) (by omega)).2.2 hk).1 i
    rw [btw, List.take_length] at q
    by_cases h0 : 0 < vals.length
    · rw [if_pos (by omega)] at q
      exact q
    · rw [if_neg (by omega)] at q
      have : vals = [] := List.eq_nil_of_length_eq_zero (by omega)
      rw [this] at q ⊢
      simpa [sorted] using q
  · intro s e w y hy
    have nb := fun w => (C36_neighbours h s e).2.2.1 hk w
    have inr : (s < e ∧ e ≤ vals.length) ∧ y.toNat ∈ between vals s e := by
      rcases hy with hy | hy
      · obtain ⟨o, o1, o2⟩ := (nb w).1
        rw [o1] at hy
        cases Except.ok.inj hy
        by_cases hc : s < e ∧ e ≤ vals.length
        · rw [if_pos hc] at o2
          exact ⟨hc, (List.mem_filter.mp (List.max?_mem o2.symm)).1⟩
        · rw [if_neg hc] at o2; cases o2
      · obtain ⟨o, o1, o2⟩ := (nb w).2
        rw [o1] at hy
        cases Except.ok.inj hy
        by_cases hc : s < e ∧ e ≤ vals.length
        · rw [if_pos hc] at o2
          exact ⟨hc, (List.mem_filter.mp (List.min?_mem o2.symm)).1⟩
        · rw [if_neg hc] at o2; cases o2
    obtain ⟨hc, hm⟩ := inr
    have em : y.toNat % 2 ^ k = y.toNat :=
      Nat.mod_eq_of_lt (hlt _ (List.mem_of_mem_take (List.mem_of_mem_drop hm)))
    refine ⟨⟨(between vals s e).count y.toNat - 1, ?_⟩, ?_, ?_⟩
    · have := List.count_pos_iff.mpr hm
      rw [((C33_rank_u64 h y).1 hk s e (by omega) (by omega) hc.2).1, em]
      congr 2
      omega
    · refine resU64_unique (nb y).1 ⟨_, rfl, ?_⟩
      rw [if_pos hc, em, max?_eq (x := y.toNat) (by simp [hm]) (by simp)]
      rfl
    · refine resU64_unique (nb y).2 ⟨_, rfl, ?_⟩
      rw [if_pos hc, em, min?_eq (x := y.toNat) (by simp [hm]) (by simp)]
      rfl

/-- The sequence `[5, 1, 7, 1, 4]`. -/
example : ∃ m, fromSlice [5#64, 1#64, 7#64, 1#64, 4#64] 3 = .ok m ∧ ∀ i, m.getSortedU64 i = m.quantileU64 0 m.len i := by
  obtain ⟨m, m1, m2⟩ := C31_from_slice (k := 3) (by omega) (by omega) [5#64, 1#64, 7#64, 1#64, 4#64]
  exact ⟨m, m1, (C89_wavelet_partial m2 (by omega) (by decide)).2.2.2.2.1⟩

/-- Specification: both calls return, and what they return has the same content. -/
def SameResult (a b : R (Option BV)) : Prop := ∃ x y, a = .ok x ∧ b = .ok y ∧ Option.Rel SameContent x y

omit [Profile] in
theorem resBV_same {k : Nat} {a b : R (Option BV)} {o : Option Nat} (ha : ResBV k a o) (hb : ResBV k b o) : SameResult a b := by
  obtain ⟨x, rfl, hx, wx⟩ := ha
  obtain ⟨y, rfl, hy, wy⟩ := hb
  refine ⟨x, y, rfl, rfl, ?_⟩
  rw [← hy] at hx
  cases x <;> cases y
  · exact .none
  · cases hx
  · cases hx
  · exact .some (sameContent_of_bits (wx _ rfl) (wy _ rfl) (by simpa using hx))

omit [Profile] in
theorem resBV_get {k : Nat} {t : BV} {o : Option Nat} (h : ResBV k (.ok (some t)) o) (hlt : ∀ x ∈ o, x < 2 ^ k) :
    ∃ x, o = some x ∧ t.WF ∧ t.len = k ∧ bitsToNat t.bits = x := by
  obtain ⟨ov, h1, h2, h3⟩ := h
  cases Except.ok.inj h1
  cases o with
  | none => cases h2
  | some x =>
    have e : t.bits = natToBits k x := by simpa using h2
    refine ⟨x, rfl, h3 _ rfl, by rw [← BV.length_bits, e]; simp, ?_⟩
    rw [e, bitsToNat_natToBits, Nat.mod_eq_of_lt (hlt x rfl)]

/-- C89: the laws of `C89_wavelet_partial` for the functions that take and return bit vectors, with elements of any width.
Partial: the law from `select` to `rank` is for ranks below `2 ^ 63` (`C34_select_partial`). -/
theorem C89_wavelet_wide_partial {m : WM} {k : Nat} {vals : List Nat} (h : Built m k vals) (hn : vals.length < 2 ^ 63) :
    (∀ i t, m.getValue i = .ok (some t) → t.len = m.bitsPer ∧ ∃ r, m.rank i t = .ok (some r) ∧
      m.rank (i + 1) t = .ok (some (r + 1)) ∧ m.select r t = .ok (some i)) ∧
    (∀ r t p, BV.WF t → r < 2 ^ 63 → m.select r t = .ok (some p) → m.rank p t = .ok (some r) ∧
      ∃ x, m.getValue p = .ok (some x) ∧ SameContent x t) ∧
    (∀ s e t, BV.WF t → t.len = m.bitsPer → s < m.len → s ≤ e → e ≤ m.len → ∃ a b, m.rank s t = .ok (some a) ∧
      m.rankRange s e t = .ok (some b) ∧ m.rank e t = .ok (some (a + b))) ∧
    (∀ s e, s < e → e ≤ m.len → SameResult (m.rangeMin s e) (m.quantile s e 0) ∧
      SameResult (m.rangeMax s e) (m.quantile s e (e - s - 1)) ∧
      SameResult (m.rangeMedian s e) (m.quantile s e ((e - s - 1) / 2))) ∧
    (∀ i, SameResult (m.getSorted i) (m.quantile 0 m.len i)) ∧
    ∀ s e t y, BV.WF t → m.predecessor s e t = .ok (some y) ∨ m.successor s e t = .ok (some y) →
      (∃ c, m.rankRange s e y = .ok (some (c + 1))) ∧ SameResult (m.predecessor s e y) (.ok (some y)) ∧
      SameResult (m.successor s e y) (.ok (some y)) := by
  obtain ⟨hlen, hbp, hlt, -, hget, -, -⟩ := C31_access h
  have rk : ∀ i t, BV.WF t → t.len = k → i ≤ vals.length → m.rank i t = .ok (some ((vals.take i).count (bitsToNat t.bits))) :=
    fun i t ht hl hi => (C33_rank h ht).2.1 hl i hi
  have cnt : ∀ i (hi : i < vals.length) x, (vals.take (i + 1)).count x =
      (vals.take i).count x + if vals[i] = x then 1 else 0 := by
    intro i hi x
    rw [List.take_succ_eq_append_getElem hi, List.count_append, List.count_singleton]
    simp only [beq_iff_eq]
  have btw : ∀ p, between vals 0 p = vals.take p := fun p => by simp [between]
  refine ⟨fun i t ht => ?_, fun r t p wt hr hp => ?_, fun s e t wt lt h1 h2 h3 => ?_, fun s e h1 h2 => ⟨?_, ?_, ?_⟩,
    fun i => ?_, ?_⟩
  · have g := hget i
    rw [ht] at g
    obtain ⟨x, x1, x2, x3, x4⟩ := resBV_get g (fun x hx => hlt x (List.mem_of_getElem? hx))
    obtain ⟨hi, e⟩ := List.getElem?_eq_some_iff.mp x1
    refine ⟨by rw [hbp, x3], _, rk i t x2 x3 (by omega), ?_, ?_⟩
    · rw [rk (i + 1) t x2 x3 (by omega), cnt i hi, x4, if_pos e]
    · have hc := List.count_le_length (a := bitsToNat t.bits) (l := vals.take i)
      rw [List.length_take] at hc
      have hnth : IsNth vals (bitsToNat t.bits) 0 ((vals.take i).count (bitsToNat t.bits)) i :=
        ⟨by omega, by rw [x1, x4], by rw [btw]⟩
      rcases ((C34_select_partial h x2 ((vals.take i).count (bitsToNat t.bits)) (by omega)).1 x3).1 with ⟨p, p1, p2⟩ | ⟨p1, p2⟩
      · rw [p1, isNth_unique p2 hnth]
      · have := isNth_lt hnth
        rw [show between vals 0 vals.length = vals.drop 0 by simp [between]] at this
        omega
  · obtain ⟨c1, c2, -⟩ := C34_select_partial h wt r (by omega)
    by_cases hl : t.len = k
    · rcases (c1 hl).1 with ⟨q, q1, q2⟩ | ⟨q1, -⟩
      · rw [q1] at hp
        cases Except.ok.inj hp
        obtain ⟨-, q3, q4⟩ := q2
        obtain ⟨hi, e⟩ := List.getElem?_eq_some_iff.mp q3
        refine ⟨by rw [rk p t wt hl (by omega), ← btw, q4], ?_⟩
        obtain ⟨o, o1, o2, o3⟩ := hget p
        rw [q3] at o2
        obtain ⟨x, rfl, hx⟩ := Option.map_eq_some_iff.mp o2
        refine ⟨x, o1, sameContent_of_bits (o3 _ rfl) wt ?_⟩
        rw [hx, ← hl, ← BV.length_bits, natToBits_bitsToNat]
      · rw [q1] at hp
        cases Except.ok.inj hp
    · rw [c2 hl] at hp
      cases Except.ok.inj hp
  · rw [hlen] at h1 h3
    rw [hbp] at lt
    refine ⟨_, _, rk s t wt lt (by omega), ((C33_rank h wt).1 lt s e h1 h2 h3).1, ?_⟩
    rw [rk e t wt lt h3]
    have : vals.take e = vals.take s ++ between vals s e := by
      unfold between
      rw [← List.take_append_drop s (vals.take e), List.take_take, Nat.min_eq_left h2, List.drop_append]
      simp
      omega
    rw [← List.count_append, ← this]
  · rw [hlen] at h2
    have := C35_quantile_partial h (s := s) (e := e) (by omega)
    refine resBV_same this.2.1 ?_
    have q := this.1 0
    rw [if_pos (by omega), sorted_first] at q
    rw [if_pos (by omega)]
    exact q
  · rw [hlen] at h2
    refine resBV_same (C35_max_median h s e).1 ?_
    have q := (C35_quantile_partial h (s := s) (e := e) (by omega)).1 (e - s - 1)
    have hb : (between vals s e).length = e - s := by simp [between]; omega
    rw [if_pos (by omega), ← hb, sorted_last] at q
    rw [if_pos (by omega)]
    rw [← hb]
    exact q
  · rw [hlen] at h2
    refine resBV_same (C35_max_median h s e).2.1 ?_
    have q := (C35_quantile_partial h (s := s) (e := e) (by omega)).1 ((e - s - 1) / 2)
    rw [if_pos (by omega)] at q
    rw [if_pos (by omega)]
    exact q
  · rw [hlen]
    refine resBV_same (C35_get_sorted h i).1 ?_
    have q := (C35_quantile_partial h (s := 0) (e := vals.length) (by omega)).1 i
    rw [btw, List.take_length] at q
    by_cases h0 : 0 < vals.length
    · rw [if_pos (by omega)] at q
      exact q
    · rw [if_neg (by omega)] at q
      have : vals = [] := List.eq_nil_of_length_eq_zero (by omega)
      rw [this] at q ⊢
      simpa [sorted] using q
  · intro s e t y wt hy
    have nb := fun t ht hl => (C36_neighbours h s e).1 t ht hl
    have hl : t.len = k := by
      by_cases hl : t.len = k
      · exact hl
      · obtain ⟨n1, n2⟩ := (C36_neighbours h s e).2.1 t hl
        rw [n1, n2] at hy
        rcases hy with hy | hy <;> cases Except.ok.inj hy
    have inr : (s < e ∧ e ≤ vals.length) ∧ bitsToNat y.bits ∈ between vals s e ∧ y.WF ∧ y.len = k := by
      have mem : ∀ {f : Nat → Bool} {x : Nat}, x ∈ (between vals s e).filter f → x ∈ between vals s e ∧ x < 2 ^ k :=
        fun hx => ⟨(List.mem_filter.mp hx).1,
          hlt _ (List.mem_of_mem_take (List.mem_of_mem_drop (List.mem_filter.mp hx).1))⟩
      rcases hy with hy | hy
      · have o := (nb t wt hl).1
        rw [hy] at o
        by_cases hc : s < e ∧ e ≤ vals.length
        · rw [if_pos hc] at o
          obtain ⟨x, x1, x2, x3, x4⟩ := resBV_get o (fun x hx => (mem (List.max?_mem hx)).2)
          exact ⟨hc, x4 ▸ (mem (List.max?_mem x1)).1, x2, x3⟩
        · rw [if_neg hc] at o
          obtain ⟨x, x1, -⟩ := resBV_get o (by simp)
          cases x1
      · have o := (nb t wt hl).2
        rw [hy] at o
        by_cases hc : s < e ∧ e ≤ vals.length
        · rw [if_pos hc] at o
          obtain ⟨x, x1, x2, x3, x4⟩ := resBV_get o (fun x hx => (mem (List.min?_mem hx)).2)
          exact ⟨hc, x4 ▸ (mem (List.min?_mem x1)).1, x2, x3⟩
        · rw [if_neg hc] at o
          obtain ⟨x, x1, -⟩ := resBV_get o (by simp)
          cases x1
    obtain ⟨hc, hm, wy, ly⟩ := inr
    have own : ResBV k (.ok (some y)) (some (bitsToNat y.bits)) :=
      ⟨_, rfl, by
        have := natToBits_bitsToNat y.bits
        rw [BV.length_bits, ly] at this
        simp [this], fun v hv => by cases hv; exact wy⟩
    refine ⟨⟨(between vals s e).count (bitsToNat y.bits) - 1, ?_⟩, ?_, ?_⟩
    · have := List.count_pos_iff.mpr hm
      rw [((C33_rank h wy).1 ly s e (by omega) (by omega) hc.2).1]
      congr 2
      omega
    · refine resBV_same (nb y wy ly).1 ?_
      rw [if_pos hc, max?_eq (x := bitsToNat y.bits) (by simp [hm]) (by simp)]
      exact own
    · refine resBV_same (nb y wy ly).2 ?_
      rw [if_pos hc, min?_eq (x := bitsToNat y.bits) (by simp [hm]) (by simp)]
      exact own

/-- Elements of 70 bits. -/
example : ∃ m, fromBitVec (BV.fromOnes 140) 70 = .ok m ∧ ∀ i, SameResult (m.getSorted i) (m.quantile 0 m.len i) := by
  obtain ⟨m, m1, m2⟩ := C31_from_bit_vec (k := 70) (by omega) (v := BV.fromOnes 140) (by decide) (by decide)
  exact ⟨m, m1, (C89_wavelet_wide_partial m2 (by decide +kernel)).2.2.2.2.1⟩

end Vers
