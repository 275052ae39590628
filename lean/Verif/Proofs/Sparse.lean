import Verif.Model.Sparse
import Verif.Proofs.EfIter
import Verif.Props.GenIter
import Verif.Props.EliasFano

/-! # The sparse vector -/

set_option linter.unusedSimpArgs false

namespace Vers

variable [Profile]
open Spec
namespace Sparse

/-- `data` lists the positions of the ones of `l` -/
structure Enum (data : List Word) (l : List Bool) : Prop where
  strict : data.Pairwise (· < ·)
  lt : l.length < 2 ^ 64
  few : data.length < 2 ^ 60
  mem : ∀ p, l[p]? = some true ↔ ∃ x, x ∈ data ∧ x.toNat = p

variable {data : List Word} {l : List Bool}

omit [Profile] in
theorem Enum.sorted (h : Enum data l) : Sorted data :=
  h.strict.imp (fun hab => by rw [BitVec.lt_def] at hab; rw [BitVec.le_def]; omega)

omit [Profile] in
theorem Enum.get_lt (h : Enum data l) {i j : Nat} (hij : i < j) (hj : j < data.length) :
    (data[i]'(by omega)).toNat < data[j].toNat := by
  have := List.pairwise_iff_getElem.mp h.strict i j (by omega) hj hij
  rwa [BitVec.lt_def] at this

omit [Profile] in
theorem Enum.lt_len (h : Enum data l) {x : Word} (hx : x ∈ data) : x.toNat < l.length := by
  have := (h.mem x.toNat).mpr ⟨x, hx, rfl⟩
  exact (List.getElem?_eq_some_iff.mp this).1

omit [Profile] in
theorem Enum.distinct (h : Enum data l) : windowsDistinct data = true := by
  have : ∀ d : List Word, d.Pairwise (· < ·) → windowsDistinct d = true := by
    intro d
    induction d with
    | nil => intro _; rfl
    | cons a d ih =>
      intro hd
      cases d with
      | nil => rfl
      | cons b d =>
        obtain ⟨h1, h2⟩ := List.pairwise_cons.mp hd
        simp only [windowsDistinct, Bool.and_eq_true, decide_eq_true_eq]
        refine ⟨?_, ih h2⟩
        have := h1 b (by simp)
        intro hab; subst hab; rw [BitVec.lt_def] at this; omega
  exact this data h.strict

omit [Profile] in
theorem Enum.countP (h : Enum data l) (i : Nat) :
    data.countP (fun y => decide (y.toNat < i)) = rank true l i := by
  have key : ∀ P, P ≤ l.length → data.countP (fun y => decide (y.toNat < P)) = (l.take P).count true := by
    intro P hP
    obtain ⟨k, k1, k2⟩ := exists_split (n := data.length) (f := fun i => ∃ h : i < data.length, data[i].toNat < P)
      (by
        intro a b hab hb ⟨hb', hf⟩
        refine ⟨by omega, ?_⟩
        rcases Nat.eq_or_lt_of_le hab with h1 | h1
        · subst h1; exact hf
        · have := h.get_lt h1 hb; omega)
    rw [count_take_eq_cnt l true (fun p => l[p]?.getD false) (by
      intro p hp; rw [List.getElem?_eq_getElem hp]; rfl) P hP]
    rw [cnt_of_enum (n := data.length) (p := fun i => (data[i]?.getD 0#64).toNat) ?_ k P ?_ k1 ?_ ?_]
    · apply EF.countP_of_split k1
      intro j hj
      rw [decide_eq_true_eq, ← k2 j hj]
      exact ⟨fun h' => ⟨hj, h'⟩, fun ⟨_, h'⟩ => h'⟩
    · intro a b hab hb
      simp only [List.getElem?_eq_getElem hb, List.getElem?_eq_getElem (show a < data.length by omega),
        Option.getD_some]
      exact h.get_lt hab hb
    · intro x hx
      have hx' : x < l.length := by omega
      have := h.mem x
      rw [List.getElem?_eq_getElem hx'] at this ⊢
      simp only [Option.getD_some, beq_true]
      rw [Option.some.injEq] at this
      rw [this]
      constructor
      · rintro ⟨y, y1, y2⟩
        obtain ⟨j, hj, rfl⟩ := List.getElem_of_mem y1
        exact ⟨j, hj, by rw [List.getElem?_eq_getElem hj]; exact y2.symm⟩
      · rintro ⟨j, hj, hy⟩
        rw [List.getElem?_eq_getElem hj] at hy
        exact ⟨data[j], List.getElem_mem _, hy.symm⟩
    · intro j hj
      have hjl : j < data.length := by omega
      obtain ⟨_, h'⟩ := (k2 j hjl).mpr hj
      simpa [List.getElem?_eq_getElem hjl] using h'
    · intro j hj hjl
      rcases Nat.lt_or_ge data[j].toNat P with h' | h'
      · have := (k2 j hjl).mp ⟨hjl, h'⟩; omega
      · simpa [List.getElem?_eq_getElem hjl] using h'
  unfold rank
  rcases Nat.le_total i l.length with hi | hi
  · exact key i hi
  · have hk := key _ (Nat.le_refl _)
    rw [List.take_length] at hk
    rw [List.take_of_length_le hi, ← hk]
    apply List.countP_congr
    intro x hx
    have := h.lt_len hx
    simp only [decide_eq_true_eq]; omega

omit [Profile] in
theorem Enum.select (h : Enum data l) {k : Nat} (hk : k < data.length) : IsSelect true l k data[k].toNat := by
  refine ⟨(h.mem _).mpr ⟨_, List.getElem_mem _, rfl⟩, ?_⟩
  have := h.countP data[k].toNat
  unfold rank at this
  rw [← this]
  apply EF.countP_of_split (by omega)
  intro j hj
  rw [decide_eq_true_eq]
  constructor
  · intro h'
    rcases Nat.lt_or_ge j k with h1 | h1
    · exact h1
    · rcases Nat.eq_or_lt_of_le h1 with h2 | h2
      · subst h2; omega
      · have := h.get_lt h2 hj; omega
  · intro h'; exact h.get_lt h' hk

omit [Profile] in
theorem Enum.length (h : Enum data l) : data.length = l.count true := by
  have := h.countP l.length
  unfold rank at this
  rw [List.take_length] at this
  rw [← this]
  symm
  rw [List.countP_eq_length]
  intro x hx
  simpa using h.lt_len hx

/-- what all constructors establish -/
theorem new_eq {fl : Nat → Nat} (hfl : LogLike fl) (h : Enum data l) :
    ∃ ef ps, new fl data (BitVec.ofNat 64 l.length) = .ok ⟨ef, BitVec.ofNat 64 l.length⟩ ∧
      (∀ i, ef.get i = .ok data[i]?) ∧ (∀ x, ∃ o, ef.predecessor x = .ok o ∧ IsPredecessor data x o) ∧
      (∀ x : Word, ef.rank x = .ok (BitVec.ofNat 64 (rank true l x.toNat))) ∧ ef.Holds data ps ∧
      ((data = [] ∧ ef.len = 0 ∧ ef.max = 0#64) ∨ ef.Stores data) := by
  obtain ⟨ef, e1, e2, e3, e4⟩ := fromSlice_stores hfl h.sorted h.few
  have hnew : new fl data (BitVec.ofNat 64 l.length) = .ok ⟨ef, BitVec.ofNat 64 l.length⟩ := by
    unfold new
    rw [dassertR_true ((windowsSorted_iff _).mpr h.sorted), ok_bind, dassertR_true h.distinct, ok_bind, e1]
    rfl
  have hrank : ∀ x : Word, data.countP (fun y => decide (y < x)) = rank true l x.toNat := by
    intro x
    rw [← h.countP]
    rfl
  rcases e4 with ⟨rfl, h0⟩ | hst
  · refine ⟨ef, [], hnew, ?_, ?_, ?_, EF.holds_of_empty e3 e2 h0, Or.inl ⟨rfl, e2, ?_⟩⟩
    · intro i; unfold EF.get; rw [e2, if_pos (by simp)]; rfl
    · intro x; refine ⟨none, ?_, fun z hz => by simp at hz⟩
      have e2 : ef.len = 0 := e2
      unfold EF.predecessor; rw [if_pos (Or.inr e2)]; rfl
    · intro x
      have e2 : ef.len = 0 := e2
      unfold EF.rank; rw [if_pos (Or.inr e2), e2, ← hrank]; rfl
    · unfold EF.fromSlice at e1
      rw [if_pos rfl] at e1
      obtain ⟨rs, _, r⟩ := bind_eq_ok.mp e1
      injection r with r
      subst r; rfl
  · obtain ⟨ps, hps⟩ := EF.holds_of_stores hst
    refine ⟨ef, ps, hnew, hst.get, hst.predecessor, ?_, hps, Or.inr hst⟩
    intro x; rw [hst.rank, hrank]

omit [Profile] in
theorem collect_eq {v : BV} (h : v.WF) (hl : v.len < 2 ^ 64) (b : Bool) :
    ∀ (fuel : Nat) (it : GenIter) (r : List Bool) (i : Nat), r.length < fuel →
      GenIter.Rel (v.bits.map b2w) it (r.map b2w) →
      collectBits v (b2w b) fuel it i = .ok ((positionsFrom b i r).map (BitVec.ofNat 64)) := by
  intro fuel
  induction fuel with
  | zero => intro it r i hf; omega
  | succ fuel ih =>
    intro it r i hf hr
    obtain ⟨it', n1, n2⟩ := GenIter.next_rel (vecOps_repr h hl) hr
    unfold collectBits
    rw [n1, ok_bind]
    cases r with
    | nil => rfl
    | cons x r =>
      simp only [List.map_cons, List.head?_cons, List.tail_cons] at n2 ⊢
      rw [ih it' r (i + 1) (by simp at hf; omega) n2, ok_bind]
      rw [positionsFrom]
      by_cases hx : x = b
      · subst hx; simp
      · rw [if_neg (fun h' => hx (b2w_inj.mp h')), if_neg hx]; rfl

omit [Profile] in
theorem collect_all {v : BV} (h : v.WF) (hl : v.len < 2 ^ 64) (b : Bool) :
    collectBits v (b2w b) (v.len + 1) (GenIter.new v.vecOps) 0 =
      .ok ((positions b v.bits).map (BitVec.ofNat 64)) :=
  collect_eq h hl b (v.len + 1) _ v.bits 0 (by simp) (GenIter.new_rel (vecOps_repr h hl))

omit [Profile] in
theorem enum_positions {l : List Bool} (b : Bool) (hl : l.length < 2 ^ 64) (hc : l.count b < 2 ^ 60) :
    Enum ((positions b l).map (BitVec.ofNat 64)) (l.map (· == b)) := by
  obtain ⟨h1, h2⟩ := positionsFrom_sorted b l 0
  have hlt : ∀ p, p ∈ positions b l → p < l.length := by
    intro p hp
    have := ((h2 p).mp hp).2
    simpa using (List.getElem?_eq_some_iff.mp this).1
  refine ⟨?_, by simp; omega, ?_, ?_⟩
  · rw [List.pairwise_map]
    refine List.Pairwise.imp_of_mem ?_ h1
    intro a c ha hc hac
    have := hlt a ha
    have := hlt c hc
    rw [BitVec.lt_def, BitVec.toNat_ofNat, BitVec.toNat_ofNat, Nat.mod_eq_of_lt (by omega),
      Nat.mod_eq_of_lt (by omega)]
    exact hac
  · rw [List.length_map, length_positions]
    exact hc
  · intro p
    rw [List.getElem?_map]
    constructor
    · intro h
      cases hp : l[p]? with
      | none => rw [hp] at h; cases h
      | some x =>
        rw [hp] at h
        simp at h
        subst h
        have hmem : p ∈ positions x l := (h2 p).mpr ⟨by omega, by simpa using hp⟩
        refine ⟨BitVec.ofNat 64 p, List.mem_map.mpr ⟨p, hmem, rfl⟩, ?_⟩
        have := hlt p hmem
        rw [BitVec.toNat_ofNat, Nat.mod_eq_of_lt (by omega)]
    · rintro ⟨x, hx, rfl⟩
      obtain ⟨q, hq, rfl⟩ := List.mem_map.mp hx
      have := hlt q hq
      rw [BitVec.toNat_ofNat, Nat.mod_eq_of_lt (by omega)]
      have := ((h2 q).mp hq).2
      simp at this
      rw [this]; simp

end Sparse
end Vers
