import Verif.Proofs.Adapters
import Verif.Props.IterLoop
import Verif.Props.Release

/-!
# Property C84: skipping, taking and stepping over the iterators

The adaptors `skip`, `take` and `step_by` over an iterator, in whichever order they are combined with `rev`, see the elements
they see on a list, in loops and if `next` and `next_back` are called in any order. (`Spec.Skips`, `Spec.Takes` and
`Spec.Steps`, Verif/SpecAdapters.lean.)
-/

namespace Vers

variable [Profile]
open Spec WM

/-! ## The iterators generated for the vector types, and those of the Elias-Fano vector -/

theorem GenIter.sim {α : Type} {v : VecOps α} {l : List α} (h : GenIter.Repr v l) :
    Sim (GenIter.de v) (GenIter.Rel l) (fun r n => n ≤ r.length ∨ l.length + n < 2 ^ 64) (fun _ _ => True) where
  next := GenIter.next_rel h
  nextBack := GenIter.nextBack_rel h
  nth := by
    intro s r n hr hn
    by_cases hle : n ≤ r.length
    · obtain ⟨s', h1, h2⟩ := GenIter.nth_rel h hr hle
      exact ⟨s', h1, fun _ => h2⟩
    · refine ⟨s, ?_, fun hlt => absurd hlt (by omega)⟩
      rw [List.getElem?_eq_none (by omega)]
      exact GenIter.nth_beyond h hr (by omega) (by have := hr.le; have := hr.hi; omega)
  nthBack := by
    intro s r n hr _
    by_cases hle : n ≤ r.length
    · obtain ⟨s', h1, h2⟩ := GenIter.nthBack_rel h hr hle
      exact ⟨s', h1, fun _ => h2⟩
    · refine ⟨s, ?_, fun hlt => absurd hlt (by omega)⟩
      rw [List.getElem?_eq_none (by rw [List.length_reverse]; omega)]
      exact GenIter.nthBack_beyond hr (by omega)
  len := GenIter.len_rel h

theorem EfIter.sim {ef : EF} {data : List Word} {ps : List Nat} (h : ef.Holds data ps) :
    Sim (EfIter.de ef) (EfIter.Rel ef data ps) (fun r n => n ≤ r.length ∨ data.length + n < 2 ^ 64) (fun _ _ => True) where
  next := EfIter.next_rel h
  nextBack := EfIter.nextBack_rel h
  nth := by
    intro s r n hr hn
    by_cases hle : n ≤ r.length
    · obtain ⟨s', h1, h2⟩ := EfIter.nth_rel h hr hle
      exact ⟨s', h1, fun _ => h2⟩
    · refine ⟨s, ?_, fun hlt => absurd hlt (by omega)⟩
      rw [List.getElem?_eq_none (by omega)]
      exact EfIter.nth_beyond h hr (by omega) (by have := hr.pos.le; have := hr.pos.hi; omega)
  nthBack := by
    intro s r n hr _
    by_cases hle : n ≤ r.length
    · obtain ⟨s', h1, h2⟩ := EfIter.nthBack_rel h hr hle
      exact ⟨s', h1, fun _ => h2⟩
    · refine ⟨s, ?_, fun hlt => absurd hlt (by omega)⟩
      rw [List.getElem?_eq_none (by rw [List.length_reverse]; omega)]
      exact EfIter.nthBack_beyond h hr (by omega)
  len := EfIter.len_rel h

/-- What C84 says of the iterator `d` in the state `s` with the remaining elements `r`, for arguments that do not overflow
when added to `N`. -/
structure Adapts {σ α : Type} (N : Nat) (d : DeIter σ α) (s : σ) (r : List α) : Prop where
  skip : ∀ n, N + n < 2 ^ 64 → Skips d s r n
  revSkip : ∀ n, Skips d.rev s r.reverse n
  take : ∀ n, Takes d s r n
  revTake : ∀ n, Takes d.rev s r.reverse n
  step : ∀ k, 0 < k → N + k ≤ 2 ^ 64 → Steps d s r k
  revStep : ∀ k, 0 < k → N + k ≤ 2 ^ 64 → Steps d.rev s r.reverse k

omit [Profile] in
theorem adapts_of_sim {σ α : Type} {d : DeIter σ α} {rel : σ → List α → Prop} {N : Nat}
    (h : Sim d rel (fun r n => n ≤ r.length ∨ N + n < 2 ^ 64) (fun _ _ => True)) {s : σ} {r : List α} (hr : rel s r) :
    Adapts N d s r := by
  have hr' : rel s r.reverse.reverse := by rwa [List.reverse_reverse]
  have lt : ∀ (l : List α) n, n < l.length → n ≤ l.length ∨ N + n < 2 ^ 64 := fun _ _ hl => Or.inl (Nat.le_of_lt hl)
  have lt' : ∀ (l : List α) n, n < l.length → n ≤ l.reverse.length ∨ N + n < 2 ^ 64 :=
    fun l n hl => Or.inl (by rw [List.length_reverse]; exact Nat.le_of_lt hl)
  exact ⟨fun n hn => h.skip hr n (Or.inr fun _ _ => Or.inr hn), fun n => h.rev.skip hr' n (Or.inr fun _ _ => trivial),
    fun n => h.take (fun _ _ _ => trivial) trivial hr n,
    fun n => h.rev.take lt' (Or.inl (by simp)) hr' n,
    fun k hk hN => h.step lt (fun _ _ _ => trivial) hr hk (Or.inl (by simp)) trivial (fun _ _ _ _ => Or.inr (by omega))
      (fun _ _ _ _ => trivial),
    fun k hk hN => h.rev.step (fun _ _ _ => trivial) lt' hr' hk trivial (Or.inr (by omega)) (fun _ _ _ _ => trivial)
      (fun i b hb _ => Or.inl (by rw [List.length_reverse, List.length_take, List.length_drop]; omega))⟩

/-- What C84 says of an iterator of the kind of C20 over the vector `v` of the elements `l`, after any calls. -/
def AdaptsAll {α : Type} (v : VecOps α) (l : List α) : Prop :=
  ∀ ops, CallsOk NthInRange l ops → ∃ it, reach (GenIter.step v) (GenIter.new v) ops = .ok it ∧
    Adapts l.length (GenIter.de v) it (iterRest l ops)

theorem adaptsAll_of_repr {α : Type} {v : VecOps α} {l : List α} (h : GenIter.Repr v l) : AdaptsAll v l := by
  intro ops hops
  obtain ⟨it, g1, g2⟩ := GenIter.reach_eq h ops hops
  exact ⟨it, g1, adapts_of_sim (GenIter.sim h) g2⟩

/-- Partial: the argument of `skip` and `step_by` plus the length is below `2^64`, see `C84_overflow_defect`. The
iterators of the bit vector, after any calls. -/
theorem C84_bit_vec_partial {v : BV} (h : v.WF) (hl : v.len < 2 ^ 64) : AdaptsAll v.vecOps (v.bits.map b2w) :=
  adaptsAll_of_repr (vecOps_repr h hl)

example := C84_bit_vec_partial (v := BV.fromOnes 70) (by decide) (by decide) [.nthBack 3, .next, .nth 0]
  (by simp [CallsOk, iterStep, NthInRange, BV.fromOnes])

/-- Partial in the same way: the element iterators of the rank/select vector. -/
theorem C84_rs_vec_partial {v : BV} (h : v.WF) (hl : v.len < 2 ^ 64) :
    ∃ rs, RsVec.fromBitVec v = .ok rs ∧ AdaptsAll rs.vecOps (v.bits.map b2w) := by
  obtain ⟨rs, h1, h2, h3, h4⟩ := fromBitVec_inv h
  refine ⟨rs, h1, ?_⟩
  rw [vecOps_from h3 h4]
  exact C84_bit_vec_partial h hl

example := C84_rs_vec_partial (v := BV.fromOnes 70) (by decide) (by decide)

/-- Partial in the same way: the four iterators of the wavelet matrix. -/
theorem C84_wavelet_partial {m : WM} {k : Nat} {vals : List Nat} (h : Built m k vals) (hn : vals.length < 2 ^ 64) :
    (∃ l : List BV, l.map BV.bits = vals.map (natToBits k) ∧ AdaptsAll m.valueOps l) ∧
    (∃ l : List BV, l.map BV.bits = (sorted vals).map (natToBits k) ∧ AdaptsAll m.sortedOps l) ∧
    (k ≤ 64 → ∃ l : List Word, l.map BitVec.toNat = vals ∧ AdaptsAll m.numOps l) ∧
    (k ≤ 64 → ∃ l : List Word, l.map BitVec.toNat = sorted vals ∧ AdaptsAll m.sortedNumOps l) := by
  have hs := built_stores h
  refine ⟨?_, ?_, fun hk => ?_, fun hk => ?_⟩
  · obtain ⟨l, l1, l2, l3⟩ := reprValue hs hn
    exact ⟨l, l2, adaptsAll_of_repr l1⟩
  · obtain ⟨l, l1, l2, l3⟩ := reprSorted hs hn
    exact ⟨l, l2, adaptsAll_of_repr l1⟩
  · obtain ⟨l, l1, l2⟩ := reprNum hs hk hn
    exact ⟨l, l2, adaptsAll_of_repr l1⟩
  · obtain ⟨l, l1, l2⟩ := reprSortedNum hs hk hn
    exact ⟨l, l2, adaptsAll_of_repr l1⟩

example : ∃ m, Built m 3 [5, 1, 7, 1] := by
  obtain ⟨m, _, h⟩ := C31_from_slice (k := 3) (by decide) (by decide) [5#64, 1#64, 7#64, 1#64]
  exact ⟨m, h⟩

/-- Partial in the same way: the iterators of the Elias-Fano vector. -/
theorem C84_elias_fano_partial {fl : Nat → Nat} (hfl : LogLike fl) {data : List Word} (hs : Sorted data)
    (hl : data.length < 2 ^ 60) :
    ∃ ef it, EF.fromSlice fl data = .ok ef ∧ EfIter.new ef = .ok it ∧
      ∀ ops, CallsOk NthInRange data ops → ∃ it', reach (EfIter.step ef) it ops = .ok it' ∧
        Adapts data.length (EfIter.de ef) it' (iterRest data ops) := by
  obtain ⟨ef, ps, e1, h, hz⟩ := fromSlice_holds hfl hs hl
  obtain ⟨it, i1, i2⟩ := EfIter.execute_eq h
  refine ⟨ef, it, e1, i1, fun ops hops => ?_⟩
  obtain ⟨_, it', g2, g3⟩ := i2 ops hops
  exact ⟨it', g2, adapts_of_sim (EfIter.sim h) g3⟩

example := C84_elias_fano_partial logLike_ceilLog2 (data := efExample) (by simp [Sorted, efExample]) (by decide)

/-- Defect: after one call of `next` on a vector that is not empty, a loop over `skip(usize::MAX)` sees no elements on a list,
but panics with an arithmetic overflow. -/
theorem C84_overflow_defect (hd : Profile.debug = true) {v : BV} (h : v.WF) (hl : v.len < 2 ^ 64) (h0 : 0 < v.len)
    (n : Nat) (hn : n = 2 ^ 64 - 1) :
    ∃ it, reach (GenIter.step v.vecOps) (GenIter.new v.vecOps) [.next] = .ok it ∧
      (∀ fuel, forLoop (GenIter.de v.vecOps).skipNext (fuel + 1) (it, n) = .error .overflow) ∧
      (iterRest (v.bits.map b2w) [.next]).drop n = [] := by
  have hr := vecOps_repr h hl
  obtain ⟨it, g1, g2⟩ := GenIter.next_rel hr (GenIter.new_rel hr)
  have hlen : (v.bits.map b2w).length = v.len := by simp
  obtain ⟨x, t, hx⟩ : ∃ x t, v.bits.map b2w = x :: t := by
    cases hb : v.bits.map b2w with
    | nil => rw [hb] at hlen; simp at hlen; omega
    | cons x t => exact ⟨x, t, rfl⟩
  rw [hx] at g1
  have hi := GenIter.next_index g1
  have h00 : (GenIter.new v.vecOps).index = 0 := by unfold GenIter.new; split <;> rfl
  refine ⟨it, by simp only [reach, GenIter.step, g1, ok_bind, pure_eq_ok], fun fuel => ?_, ?_⟩
  · have e : (GenIter.de v.vecOps).nth it n = .error .overflow :=
      GenIter.nth_overflow hd (v := v.vecOps) (it := it) (n := n) (by omega) (by omega)
    unfold forLoop DeIter.skipNext
    simp only
    rw [if_pos (by omega), e]; rfl
  · apply List.drop_of_length_le
    simp only [iterRest, iterStep, List.length_tail]
    omega

example (hd : Profile.debug = true) := C84_overflow_defect hd (v := BV.fromOnes 70) (by decide) (by decide) (by decide) _ rfl

/-- Defect of release builds: if the position of the iterator plus `n` exceeds `2^64`, a loop over `skip(n)`, which sees nothing on a
list, starts with an element that the iterator has already passed. -/
theorem C84_overflow_release_defect (hd : Profile.debug = false) {v : BV} (h : v.WF) (hl : v.len < 2 ^ 64) (ops : List IterOp)
    (hops : CallsOk NthInRange (v.bits.map b2w) ops) (hne : iterRest (v.bits.map b2w) ops ≠ []) :
    ∃ it, reach (GenIter.step v.vecOps) (GenIter.new v.vecOps) ops = .ok it ∧
      ∀ j, 0 < j → j < it.index → ∃ s, (GenIter.de v.vecOps).skipNext (it, 2 ^ 64 - it.index + j) =
        .ok (s, (v.bits.map b2w)[j]?) := by
  obtain ⟨it, g1, g2⟩ := C20_nth_release_defect hd h hl ops hops hne
  refine ⟨it, g1, fun j hj hji => ?_⟩
  obtain ⟨it', k1, -⟩ := g2 j hj hji
  have e : (GenIter.de v.vecOps).nth it (2 ^ 64 - it.index + j) = .ok (it', (v.bits.map b2w)[j]?) := k1
  unfold DeIter.skipNext
  simp only
  rw [if_pos (by omega), e]
  exact ⟨_, rfl⟩

example : iterRest ((BV.fromOnes 70).bits.map b2w) [.next, .next, .next] ≠ [] := by decide

/-- Defect: `skip(n)` is a `FusedIterator`, but with `n` above the number of elements the second call of `next` returns the first
element after the first call has returned `None`. -/
theorem C84_fused_defect {v : BV} (h : v.WF) (hl : v.len < 2 ^ 64) {n : Nat} (hn : v.len < n) (hn2 : v.len + n < 2 ^ 64) :
    calls (GenIter.de v.vecOps).skipNext (GenIter.de v.vecOps).skipNextBack [true, true] (GenIter.new v.vecOps, n) =
      .ok [none, (v.bits.map b2w).head?] := by
  have hr := vecOps_repr h hl
  have g := GenIter.new_rel hr
  have hlen : (v.bits.map b2w).length = v.len := by simp
  have e1 : (GenIter.de v.vecOps).nth (GenIter.new v.vecOps) n = .ok (GenIter.new v.vecOps, none) :=
    GenIter.nth_beyond hr g (by omega) (by have := g.le; have := g.hi; omega)
  obtain ⟨s', e2, -⟩ := (GenIter.sim hr).next g
  simp only [calls, if_true, DeIter.skipNext]
  rw [if_pos (by omega), e1]
  simp only [ok_bind, pure_eq_ok]
  rw [if_neg (by omega), e2]
  rfl

example := C84_fused_defect (v := BV.fromOnes 70) (by decide) (by decide) (n := 71) (by decide) (by decide)

/-! ## The select iterators -/

omit [Profile] in
theorem iterRest_sublist {α : Type} : ∀ (ops : List IterOp) (l : List α), (iterRest l ops).Sublist l
  | [], l => List.Sublist.refl l
  | op :: ops, l => (iterRest_sublist ops _).trans (by
      cases op with
      | next => exact List.tail_sublist l
      | nextBack => exact List.dropLast_sublist l
      | nth n => exact List.drop_sublist _ _
      | nthBack n => exact List.take_sublist _ _
      | len => exact List.Sublist.refl l)

omit [Profile] in
/-- Only the first element that remains can be the first one of all. -/
theorem head_ne_of_drop {all r : List Nat} (hs : all.Pairwise (· < ·)) (hsub : r.Sublist all) {a : Nat} (ha : 0 < a)
    (hlt : a < r.length) : (r.drop a).head? ≠ all.head? := by
  intro he
  rw [List.head?_drop, List.getElem?_eq_getElem hlt] at he
  have h1 : r[0] < r[a] := (List.pairwise_iff_getElem.1 (hs.sublist hsub)) 0 a (by omega) hlt ha
  have h2 : r[0] ∈ all := hsub.subset (List.getElem_mem _)
  cases all with
  | nil => cases h2
  | cons x t =>
    simp only [List.head?_cons, Option.some.injEq] at he
    rw [List.pairwise_cons] at hs
    rcases List.mem_cons.1 h2 with h3 | h3
    · omega
    · have := hs.1 _ h3; omega

/-- A call of `nth_back(n)` answers as on a list: at most the elements before the first one are taken, or the first one of `all`
has been taken before, or nothing remains; a release build may also go beyond the first element by more than one. -/
def BackOk (all r : List Nat) (n : Nat) : Prop :=
  n < r.length ∨ r = [] ∨ r.head? ≠ all.head? ∨ (Profile.debug = false ∧ r.length < n)

theorem SelIter.nthBack_release_beyond (hd : Profile.debug = false) {rs : RsVec} {zero : Bool} {it : SelIter} {n : Nat}
    (hn : it.len < n) : ∃ it', it.nthBack rs zero n = .ok (it', none) := by
  unfold SelIter.nthBack SelIter.advanceBackBy
  rw [if_neg (by omega)]
  cases it.nextRankBack with
  | none => exact ⟨_, rfl⟩
  | some x =>
    simp only [SelIter.subBack]
    unfold subR
    split
    · exact ⟨_, rfl⟩
    · rw [wrapR_release hd]; exact ⟨_, rfl⟩

theorem SelIter.nthBack_release_exact (hd : Profile.debug = false) {v : BV} (h : v.WF) (hlen : v.len < 2 ^ 60) {rs : RsVec}
    (h1 : RsVec.fromBitVec v = .ok rs) (h2 : rs.Inv) (h4 : rs.len = v.len) {zero : Bool} {it : SelIter} {l : List Nat}
    (g2 : SelIter.Rel rs zero it l) (n0 : it.nextRank = 0) (n1 : l ≠ []) :
    it.nthBack rs zero l.length = .error .oob := by
  have hll := SelIter.len_rel g2
  have hle := SelIter.len_eq it
  have hpos : 0 < l.length := List.length_pos_iff.mpr n1
  obtain ⟨x, hx⟩ : ∃ x, it.nextRankBack = some x := by
    cases hb : it.nextRankBack with
    | none => simp [SelIter.upTo, hb] at hle; omega
    | some x => exact ⟨x, rfl⟩
  have hu : it.upTo = x + 1 := by simp [SelIter.upTo, hx]
  have hsel := selects_len h h1
  have hx2 : x < 2 ^ 63 := by
    have hxl := (g2.1 x hx).xlt
    have := C_le rs.data (!zero) rs.len
    omega
  unfold SelIter.nthBack SelIter.advanceBackBy
  rw [hx]
  simp only [SelIter.subBack]
  rw [if_pos (by omega), subR_release hd (by omega) (by omega), ok_bind]
  simp only [pure_eq_ok, ok_bind, if_true]
  unfold SelIter.nextBack
  simp only
  rw [if_neg (by omega)]
  unfold SelIter.bwdLocate
  have hwf : v.data.length = (v.len + 63) / 64 := h
  have hr0 := h2.r0
  have := C_le rs.data false rs.len
  rw [idx_of_ge (by omega)]; rfl

theorem SelIter.sim {rs : RsVec} (h : rs.Inv) (zero : Bool) :
    Sim (SelIter.de rs zero) (SelIter.Rel rs zero) (fun _ _ => True)
      (BackOk (positions (!zero) rs.intoBitVec.bits)) where
  next := SelIter.next_rel h
  nextBack := SelIter.nextBack_rel h
  nth := by
    intro s r n hr _
    obtain ⟨s', h1, h2⟩ := SelIter.nth_rel h hr n
    exact ⟨s', h1, fun _ => h2⟩
  nthBack := by
    intro s r n hr hn
    by_cases hop : NthBackOk (positions (!zero) rs.intoBitVec.bits) r (.nthBack n)
    · obtain ⟨s', h1, h2⟩ := SelIter.nthBack_rel h hr n (SelIter.nthBack_cond hr hop)
      exact ⟨s', h1, fun _ => h2⟩
    · rcases hn with hn | hn | hn | ⟨hd, hn⟩
      · exact absurd (Or.inl hn) hop
      · exact absurd (Or.inr (Or.inl hn)) hop
      · exact absurd (Or.inr (Or.inr hn)) hop
      · obtain ⟨s', h1⟩ := SelIter.nthBack_release_beyond hd (rs := rs) (zero := zero) (it := s) (n := n)
          (by rw [SelIter.len_rel hr]; exact hn)
        refine ⟨s', ?_, fun hlt => absurd hlt (by omega)⟩
        rw [List.getElem?_eq_none (by rw [List.length_reverse]; omega)]
        exact h1
  len := SelIter.len_rel

/-- Partial: missing are `rev().skip(n)` and `rev().step_by(k)` if a call of `nth_back` reaches beyond the first element,
see `C84_rev_skip_defect` and `C84_rev_step_defect`. The iterators over the positions of the ones (zeros), after any calls. -/
theorem C84_select_partial {v : BV} (h : v.WF) (zero : Bool) :
    ∃ rs it, RsVec.fromBitVec v = .ok rs ∧ SelIter.new rs zero = .ok it ∧
      ∀ (all : List Nat) (ops : List IterOp), all = positions (!zero) v.bits → CallsOk (NthBackOk all) all ops →
        ∃ it', reach (SelIter.step rs zero) it ops = .ok it' ∧
          (∀ n, Skips (SelIter.de rs zero) it' (iterRest all ops) n) ∧
          (∀ n, Takes (SelIter.de rs zero) it' (iterRest all ops) n) ∧
          (∀ n, Takes (SelIter.de rs zero).rev it' (iterRest all ops).reverse n) ∧
          (∀ k, 0 < k → Steps (SelIter.de rs zero) it' (iterRest all ops) k) ∧
          (∀ n, n = 0 ∨ BackOk all (iterRest all ops) n → Skips (SelIter.de rs zero).rev it' (iterRest all ops).reverse n) ∧
          (∀ k, 0 < k → iterRest all ops = [] ∨ (iterRest all ops).head? ≠ all.head? ∨ k ∣ (iterRest all ops).length - 1 ∨
              (Profile.debug = false ∧ ¬k ∣ (iterRest all ops).length) →
            Steps (SelIter.de rs zero).rev it' (iterRest all ops).reverse k) := by
  obtain ⟨rs, h1, h2, h3, h4⟩ := fromBitVec_inv h
  obtain ⟨it, i1, i2, -⟩ := SelIter.new_rel (zero := zero) h2
  have hs := SelIter.step_ok h2 (zero := zero)
  have hb := bits_of_from h3 h4
  have sim := SelIter.sim h2 zero
  rw [hb] at i2 hs sim
  refine ⟨rs, it, h1, i1, ?_⟩
  rintro all ops rfl hops
  obtain ⟨it', g1, g2⟩ := reach_of_sim (rel := SelIter.Rel rs zero) hs ops it _ i2 hops
  refine ⟨it', g1, ?_⟩
  have hsub := iterRest_sublist ops (positions (!zero) v.bits)
  have hsort : (positions (!zero) v.bits).Pairwise (· < ·) := (positionsFrom_sorted _ _ 0).1
  generalize positions (!zero) v.bits = all at sim g2 hsub hsort ⊢
  generalize iterRest all ops = r at g2 hsub ⊢
  have hr' : SelIter.Rel rs zero it' r.reverse.reverse := by rwa [List.reverse_reverse]
  have hQ : ∀ l n, n < l.length → BackOk all l n := fun l n hn => Or.inl hn
  have hQ' : ∀ (l : List Nat) n, n < l.length → BackOk all l.reverse n := fun l n hn => Or.inl (by rwa [List.length_reverse])
  -- some elements have been taken from the front
  have front : ∀ a b n, 0 < a → BackOk all ((r.drop a).take b) n := by
    intro a b n ha
    by_cases hb : (r.drop a).take b = []
    · exact Or.inr (Or.inl hb)
    · refine Or.inr (Or.inr (Or.inl ?_))
      have hb2 := List.length_pos_iff.mpr hb
      rw [List.length_take, List.length_drop] at hb2
      rw [List.head?_take, if_neg (by omega)]
      exact head_ne_of_drop hsort hsub ha (by omega)
  refine ⟨fun n => sim.skip g2 n (Or.inr fun _ _ => trivial),
    fun n => sim.take hQ (Or.inr (Or.inl rfl)) g2 n,
    fun n => sim.rev.take (fun _ _ _ => trivial) trivial hr' n,
    fun k hk => sim.step (fun _ _ _ => trivial) hQ g2 hk trivial (Or.inr (Or.inl rfl)) (fun _ _ _ _ => trivial)
      (fun i b _ _ => front _ _ _ (Nat.succ_pos _)),
    fun n hn => sim.rev.skip hr' n ?_,
    fun k hk hc => sim.rev.step hQ' (fun _ _ _ => trivial) hr' hk (Or.inr (Or.inl rfl)) trivial (fun i b hb hbk => ?_)
      (fun _ _ _ _ => trivial)⟩
  · rcases hn with hn | hn
    · exact Or.inl hn
    · refine Or.inr fun j hj => ?_
      show BackOk all (r.reverse.take (r.reverse.length - j)).reverse n
      rw [List.take_reverse, List.reverse_reverse, List.length_reverse]
      by_cases hj0 : j = 0
      · subst hj0
        rw [Nat.sub_zero, Nat.sub_self, List.drop_zero]; exact hn
      · by_cases hjl : r.length ≤ j
        · rw [List.length_reverse] at hj
          have : n = 0 := by omega
          subst this
          by_cases h0 : r = []
          · subst h0; exact Or.inr (Or.inl (by simp))
          · have := List.length_pos_iff.mpr h0
            rw [show r.length - (r.length - j) = r.length by omega]
            exact Or.inr (Or.inl (by simp))
        · have := front (r.length - (r.length - j)) r.length n (by omega)
          rwa [List.take_of_length_le (by rw [List.length_drop]; omega)] at this
  · show BackOk all ((r.reverse.drop (k * i + 1)).take b).reverse (k - 1)
    rw [List.length_reverse] at hb
    have e : ((r.reverse.drop (k * i + 1)).take b).reverse = (r.drop (r.length - (k * i + 1 + b))).take b := by
      rw [List.drop_reverse, List.take_reverse, List.reverse_reverse, List.length_take, Nat.min_eq_left (by omega),
        List.drop_take]
      congr 1
      · omega
      · congr 1; omega
    rw [e]
    by_cases hfull : k * i + 1 + b = r.length
    · rw [hfull, Nat.sub_self, List.drop_zero]
      have hlen : (r.take b).length = b := by rw [List.length_take]; omega
      by_cases h0 : b = 0
      · subst h0; exact Or.inr (Or.inl rfl)
      rcases hc with hc | hc | ⟨q, hq⟩ | ⟨hd, hc⟩
      · rw [hc] at hb; simp at hb
      · refine Or.inr (Or.inr (Or.inl ?_))
        rwa [List.head?_take, if_neg h0]
      · exfalso
        have h1 : k * q = k * i + b := by omega
        have h2 : i < q := by
          apply Nat.lt_of_not_le
          intro hle
          have := Nat.mul_le_mul_left k hle
          omega
        have := Nat.mul_le_mul_left k h2
        rw [Nat.mul_succ] at this
        omega
      · refine Or.inr (Or.inr (Or.inr ⟨hd, ?_⟩))
        rw [hlen]
        apply Nat.lt_of_le_of_ne (by omega)
        intro he
        exact hc ⟨i + 1, by rw [Nat.mul_succ]; omega⟩
    · exact front _ _ _ (by omega)

example := C84_select_partial (v := (BV.fromOnes 70).dropLast 3) (by decide) false

/-- Defect: if the first element and at most `n` elements remain, the loop over `rev().skip(n)`, which is empty on a list, panics:
in a debug build with an overflow, in a release build with an index out of bounds if exactly `n` elements remain. -/
theorem C84_rev_skip_defect {v : BV} (h : v.WF) (hlen : v.len < 2 ^ 60) (zero : Bool) :
    ∃ rs it, RsVec.fromBitVec v = .ok rs ∧ SelIter.new rs zero = .ok it ∧
      ∀ (all : List Nat) (ops : List IterOp), all = positions (!zero) v.bits → CallsOk (NthBackOk all) all ops →
        ∃ it', reach (SelIter.step rs zero) it ops = .ok it' ∧
          ∀ n fuel, iterRest all ops ≠ [] → (iterRest all ops).head? = all.head? → (iterRest all ops).length ≤ n →
            (iterRest all ops).reverse.drop n = [] ∧
            (Profile.debug = true → forLoop (SelIter.de rs zero).rev.skipNext (fuel + 1) (it', n) = .error .overflow) ∧
            (Profile.debug = false → n = (iterRest all ops).length →
              forLoop (SelIter.de rs zero).rev.skipNext (fuel + 1) (it', n) = .error .oob) := by
  obtain ⟨rs, h1, h2, h3, h4⟩ := fromBitVec_inv h
  obtain ⟨it, i1, i2, -⟩ := SelIter.new_rel (zero := zero) h2
  have hs := SelIter.step_ok h2 (zero := zero)
  have hb := bits_of_from h3 h4
  rw [hb] at i2 hs
  refine ⟨rs, it, h1, i1, ?_⟩
  rintro all ops rfl hops
  obtain ⟨it', g1, g2⟩ := reach_of_sim (rel := SelIter.Rel rs zero) hs ops it _ i2 hops
  refine ⟨it', g1, fun n fuel hne hhd hle => ?_⟩
  generalize iterRest (positions (!zero) v.bits) ops = r at g2 hne hhd hle ⊢
  have hpos := List.length_pos_iff.mpr hne
  obtain ⟨n0, -⟩ := SelIter.nthBack_front (n := n) g2 (by
    rw [hb]; simp only [NthBackOk, not_or, Nat.not_lt, ne_eq, Classical.not_not]; exact ⟨hle, hne, hhd⟩)
  refine ⟨List.drop_of_length_le (by rw [List.length_reverse]; exact hle), fun hd => ?_, fun hd hn => ?_⟩
  · have e : (SelIter.de rs zero).rev.nth it' n = .error .overflow := SelIter.nthBack_panic hd g2 n0 hne hle
    unfold forLoop DeIter.skipNext
    simp only
    rw [if_pos (by omega), e]; rfl
  · have e : (SelIter.de rs zero).rev.nth it' n = .error .oob := by
      rw [hn]; exact SelIter.nthBack_release_exact hd h hlen h1 h2 h4 g2 n0 hne
    unfold forLoop DeIter.skipNext
    simp only
    rw [if_pos (by omega), e]; rfl

example := C84_rev_skip_defect (v := (BV.fromOnes 70).dropLast 3) (by decide) (by decide) false

/-- Defect: if the first element remains, the loop over `rev().step_by(k)` panics after the last element: in a debug build unless `k` divides
the number of remaining elements minus one, in a release build if `k` divides their number (and is not 1). -/
theorem C84_rev_step_defect {v : BV} (h : v.WF) (hlen : v.len < 2 ^ 60) (zero : Bool) :
    ∃ rs it, RsVec.fromBitVec v = .ok rs ∧ SelIter.new rs zero = .ok it ∧
      ∀ (all : List Nat) (ops : List IterOp), all = positions (!zero) v.bits → CallsOk (NthBackOk all) all ops →
        ∃ it', reach (SelIter.step rs zero) it ops = .ok it' ∧
          ∀ k fuel, 0 < k → iterRest all ops ≠ [] → (iterRest all ops).head? = all.head? →
            (iterRest all ops).length < fuel →
            (Profile.debug = true → ¬k ∣ (iterRest all ops).length - 1 →
              forLoop ((SelIter.de rs zero).rev.stepNext k) fuel (it', true) = .error .overflow) ∧
            (Profile.debug = false → k ≠ 1 → k ∣ (iterRest all ops).length →
              forLoop ((SelIter.de rs zero).rev.stepNext k) fuel (it', true) = .error .oob) := by
  obtain ⟨rs, h1, h2, h3, h4⟩ := fromBitVec_inv h
  obtain ⟨it, i1, i2, -⟩ := SelIter.new_rel (zero := zero) h2
  have hs := SelIter.step_ok h2 (zero := zero)
  have hb := bits_of_from h3 h4
  have sim := SelIter.sim h2 zero
  have front := fun (s : SelIter) (l : List Nat) (n : Nat) => SelIter.nthBack_front (rs := rs) (zero := zero) (s := s) (l := l)
    (n := n)
  rw [hb] at i2 hs sim
  refine ⟨rs, it, h1, i1, ?_⟩
  rintro all ops rfl hops
  obtain ⟨it', g1, g2⟩ := reach_of_sim (rel := SelIter.Rel rs zero) hs ops it _ i2 hops
  refine ⟨it', g1, fun k fuel hk hne hhd hf => ?_⟩
  generalize iterRest (positions (!zero) v.bits) ops = r at g2 hne hhd hf ⊢
  have hr' : SelIter.Rel rs zero it' r.reverse.reverse := by rwa [List.reverse_reverse]
  have hpos := List.length_pos_iff.mpr hne
  have hf' : (every k r.reverse).length < fuel := by
    have := every_length_le k r.reverse
    rw [List.length_reverse] at this
    omega
  have hP : ∀ i, k * (i + 1) < r.reverse.length →
      BackOk (positions (!zero) v.bits) (r.reverse.drop (k * i + 1)).reverse (k - 1) := by
    intro i hi
    refine Or.inl ?_
    rw [List.length_reverse] at hi
    rw [List.length_reverse, List.length_drop, List.length_reverse]
    rw [Nat.mul_succ] at hi
    omega
  have h0 : BackOk (positions (!zero) v.bits) r.reverse.reverse 0 := Or.inl (by simpa using hpos)
  -- the state before the last call of `nth_back`
  have key : ∀ s i, r.length ≤ k * (i + 1) → k * i + 1 < r.length →
      SelIter.Rel rs zero s (r.reverse.drop (k * i + 1)).reverse →
      s.nextRank = 0 ∧ (r.reverse.drop (k * i + 1)).reverse ≠ [] ∧
        (r.reverse.drop (k * i + 1)).reverse.length = r.length - (k * i + 1) := by
    intro s i hi1 hi2 hr
    have hlen : (r.reverse.drop (k * i + 1)).reverse.length = r.length - (k * i + 1) := by
      rw [List.length_reverse, List.length_drop, List.length_reverse]
    have hne' : (r.reverse.drop (k * i + 1)).reverse ≠ [] := by
      intro hc; rw [hc] at hlen; simp at hlen; omega
    refine ⟨(front s _ (k - 1) hr ?_).1, hne', hlen⟩
    rw [hb]
    simp only [NthBackOk, not_or, Nat.not_lt, ne_eq, Classical.not_not]
    rw [Nat.mul_succ] at hi1
    refine ⟨by omega, hne', ?_⟩
    rw [List.drop_reverse, List.reverse_reverse, List.head?_take, if_neg (by omega)]
    exact hhd
  constructor
  · intro hd hndvd
    refine sim.rev.step_error hr' (by simpa using hne) hk h0 hP (fun s i hi1 hi2 hr => ?_) fuel hf'
    rw [List.length_reverse] at hi1 hi2
    have hlt : k * i + 1 < r.length := by
      apply Nat.lt_of_le_of_ne hi1
      intro he
      exact hndvd ⟨i, by omega⟩
    obtain ⟨k1, k2, k3⟩ := key s i hi2 hlt hr
    rw [Nat.mul_succ] at hi2
    exact SelIter.nthBack_panic hd hr k1 k2 (by omega)
  · intro hd hk1 hdvd
    refine sim.rev.step_error hr' (by simpa using hne) hk h0 hP (fun s i hi1 hi2 hr => ?_) fuel hf'
    rw [List.length_reverse] at hi1 hi2
    obtain ⟨q, hq⟩ := hdvd
    have hqi : q = i + 1 := by
      apply Nat.le_antisymm
      · apply Nat.le_of_mul_le_mul_left _ hk
        omega
      · apply Nat.lt_of_not_le
        intro hle
        have := Nat.mul_le_mul_left k hle
        omega
    rw [hqi, Nat.mul_succ] at hq
    obtain ⟨j1, j2, j3⟩ := key s i hi2 (by omega) hr
    have := SelIter.nthBack_release_exact hd h hlen h1 h2 h4 hr j1 j2
    rw [j3, show r.length - (k * i + 1) = k - 1 by omega] at this
    exact this

example := C84_rev_step_defect (v := (BV.fromOnes 70).dropLast 3) (by decide) (by decide) false

/-- The defects on a vector of two ones: a list has the last element with `rev().step_by(2)` and none with `rev().skip(2)`. -/
theorem C84_rev_defect_example :
    (do
      let rs ← RsVec.fromBitVec (BV.fromOnes 2)
      let it ← SelIter.new rs false
      forLoop ((SelIter.de rs false).rev.stepNext 2) 10 (it, true)) =
        .error (if Profile.debug then .overflow else .oob) ∧
    (do
      let rs ← RsVec.fromBitVec (BV.fromOnes 2)
      let it ← SelIter.new rs false
      forLoop (SelIter.de rs false).rev.skipNext 10 (it, 2)) =
        .error (if Profile.debug then .overflow else .oob) ∧
    every 2 [0, 1].reverse = [1] ∧ [0, 1].reverse.drop 2 = [] := by
  decide +revert +kernel

end Vers
