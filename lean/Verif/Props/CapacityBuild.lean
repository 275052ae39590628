import Verif.Proofs.CapacityFits
import Verif.Props.Capacity

/-!
# Property C82: reallocations during construction

The constructors of bit vectors that know the number of bits beforehand ask for the memory once; here they are proved not to
reallocate, for every strategy of the allocator.
-/

set_option linter.unusedSimpArgs false

namespace Vers

variable [Profile]
open Spec

omit [Profile] in
/-- a construction in a vector of sufficient capacity -/
theorem Buf.Follows.fresh {α : Type} {A : Alloc} (hA : A.Valid) {x : Mut Buf α} {f : BV → R (α × BV)} (h : Buf.Follows x f) {c : Nat}
    {a : α} {v' : BV} (hf : f BV.new = .ok (a, v')) (hw : v'.WF) (hl : v'.len ≤ c) :
    ∃ b, x (Buf.withCapacity A c) = (.ok a, b) ∧ b.vec = v' ∧ b.moves = 0 := by
  obtain ⟨b, h1, h2, -, h4⟩ := h.all (Buf.withCapacity A c) a v' hf
  have := hA.first (c / 64 + 1)
  refine ⟨b, h1, h2, (h4 ?_).2⟩
  unfold BV.WF at hw
  show v'.data.length ≤ A.first (c / 64 + 1)
  omega

omit [Profile] in
theorem length_flatMap_natToBits (ws : List Word) (n : Nat) :
    (ws.flatMap fun w => natToBits n w.toNat).length = ws.length * n := by
  induction ws with
  | nil => simp
  | cons w ws ih => rw [List.flatMap_cons, List.length_append, ih, length_natToBits, List.length_cons, Nat.add_mul]; omega

omit [Profile] in
/-- Partial: the width is at least 1, see `C82_pack_zero_defect`. Packing a sequence of integers of `m` bits into any number of
bits each allocates the memory once, and no reallocation takes place. -/
theorem C82_pack_partial {A : Alloc} (hA : A.Valid) {m : Nat} (hm : m = 8 ∨ m = 16 ∨ m = 32 ∨ m = 64) (ws : List Word)
    (hw : ∀ w ∈ ws, w.toNat < 2 ^ m) {n : Nat} (hn : 1 ≤ n) :
    ∃ b, Buf.packK A m ws n = (.ok (), b) ∧ BV.packSequence m ws n = .ok b.vec ∧ b.moves = 0 := by
  obtain ⟨v, h1, h2, h3⟩ := BV.packLoop_refines (m := m) (by omega) (by omega) n hn ws hw BV.wf_new
  have hl : v.len = ws.length * n := by
    have := congrArg List.length h3
    rw [BV.bits_new, List.nil_append, length_flatMap_natToBits, BV.length_bits] at this
    exact this
  obtain ⟨b, e1, e2, e3⟩ := (Buf.Follows.packLoop A m n ws).fresh hA (c := ws.length * n)
    (show Buf.unit (fun v => BV.packLoop m v n ws) BV.new = _ by simp only [Buf.unit]; rw [h1, ok_bind]) h2 (by omega)
  exact ⟨b, e1, by rw [e2]; exact h1, e3⟩

/-- the padding of a `u8` takes two appends -/
example := C82_pack_partial doubling_valid (m := 8) (by decide) [200#64, 3#64, 77#64] (by simp) (n := 100) (by decide)

omit [Profile] in
/-- Defect (a consequence of `C02_append_bits_zero_defect`): packing with width 0 reallocates the vector, which holds no bits, if
the sequence has more elements than limbs fit into the smallest allocation. -/
theorem C82_pack_zero_defect {A : Alloc} (hA : A.Valid) (m : Nat) (ws : List Word) (h : A.first 1 < ws.length) :
    ∃ b, Buf.packK A m ws 0 = (.ok (), b) ∧ b.vec.len = 0 ∧ 0 < b.moves := by
  obtain ⟨v, -, h1, h2, h3, -⟩ := C05_pack_zero_defect m (ws := ws) (by rintro rfl; simp at h)
  obtain ⟨b, e1, e2, -⟩ := (Buf.Follows.packLoop A m 0 ws).all (Buf.withCapacity A 0) () v (by
    show (BV.packLoop m BV.new 0 ws >>= fun v' => Except.ok ((), v')) = _
    rw [show BV.packLoop m BV.new 0 ws = .ok v from h1, ok_bind])
  have h0 : (Buf.withCapacity A 0).vec.data.length ≤ (Buf.withCapacity A 0).cap := Nat.zero_le _
  have := (Buf.Honest.packLoop hA m 0 ws).moved h0 (by
    rw [e1, e2]
    show A.first 1 < v.data.length
    rw [h3]; exact h)
  rw [e1] at this
  refine ⟨b, by unfold Buf.packK; rw [Nat.mul_zero]; exact e1, by rw [e2]; exact h2, this⟩

example := C82_pack_zero_defect doubling_valid 8 [1#64, 2#64] (by decide)

/-- `split_at` allocates the memory of the second vector once. -/
theorem C82_split {A : Alloc} (hA : A.Valid) {v : BV} (h : v.WF) {at_ : Nat} (ha : at_ ≤ v.len) :
    ∃ l b, Buf.splitK A v at_ = (.ok (), b) ∧ v.splitAtUnchecked at_ = .ok (l, b.vec) ∧ b.moves = 0 := by
  obtain ⟨l, r, h1, -, h3, -, h5⟩ := BV.splitAtUnchecked_refines h ha
  have hl : r.len = v.len - at_ := by
    have := congrArg List.length h5
    simpa using this
  have h1' := h1
  unfold BV.splitAtUnchecked at h1
  rw [subR_of_le ha, ok_bind] at h1
  unfold Buf.splitK
  by_cases h0 : v.len - at_ = 0
  · rw [if_pos h0] at h1 ⊢
    cases h1
    exact ⟨v, Buf.withCapacity A 0, rfl, h1', rfl⟩
  · rw [if_neg h0] at h1 ⊢
    obtain ⟨r', e1, e2⟩ := bind_eq_ok.mp h1
    cases e2
    obtain ⟨b, k1, k2, k3⟩ := (Buf.Follows.splitRight A v at_ (v.len - at_)).fresh hA (c := v.len - at_)
      (show Buf.unit _ BV.new = _ by simp only [Buf.unit]; rw [Buf.splitFrom_new, e1, ok_bind]) h3 (by omega)
    exact ⟨_, b, k1, by rw [k2]; exact h1', k3⟩

example := C82_split doubling_valid (v := BV.fromOnes 300) (by decide) (at_ := 70) (by decide)

omit [Profile] in
theorem Buf.appendBoolListK_spec (A : Alloc) : ∀ (l : List Bool) (b : Buf), b.vec.WF →
    ∃ b', Buf.appendBoolListK A l b = (.ok (), b') ∧ BV.appendBoolList b.vec l = .ok b'.vec ∧ b'.vec.WF ∧
      b'.vec.bits = b.vec.bits ++ l ∧ (b'.vec.data.length ≤ b.cap → b'.cap = b.cap ∧ b'.moves = b.moves) := by
  intro l
  induction l with
  | nil => intro b h; exact ⟨b, rfl, rfl, h, by simp, fun _ => ⟨rfl, rfl⟩⟩
  | cons x l ih =>
    intro b h
    obtain ⟨v', r1, r2, r3⟩ := C02_append h x
    have hM := BV.appendM_eq (v := b.vec) (by unfold BV.WF at h; omega) x
    rw [r1] at hM
    obtain ⟨g1, g2, -, g4⟩ := (Buf.Grows.append A x).all b
    rw [hM] at g1 g2
    have g2' : (Buf.appendK A x b).2.vec = v' := g2
    obtain ⟨b', k1, k2, k3, k4, k5⟩ := ih (Buf.appendK A x b).2 (by rw [g2']; exact r2)
    rw [g2'] at k2 k4
    refine ⟨b', ?_, ?_, k3, by rw [k4, r3]; simp, fun hc => ?_⟩
    · unfold Buf.appendBoolListK
      rw [Mut.bind_ok (s' := (Buf.appendK A x b).2) (a := ()) (Prod.ext g1 rfl)]
      exact k1
    · unfold BV.appendBoolList
      rw [r1, ok_bind]; exact k2
    · have hle : v'.data.length ≤ b'.vec.data.length := by
        have e := congrArg List.length k4
        simp only [BV.length_bits, List.length_append] at e
        unfold BV.WF at r2 k3
        omega
      obtain ⟨m1, m2⟩ := g4 (by rw [g2']; omega)
      obtain ⟨m3, m4⟩ := k5 (by rw [m1]; exact hc)
      exact ⟨m3.trans m1, m4.trans m2⟩

omit [Profile] in
/-- `from_bools` allocates the memory once. `from_bits_iter` does so if the iterator reports at least the number of its elements
as their lower bound. -/
theorem C82_from_bools {A : Alloc} (hA : A.Valid) :
    (∀ bits : List Bool, ∃ b, Buf.fromBoolsK A bits = (.ok (), b) ∧ BV.fromBools bits = .ok b.vec ∧ b.moves = 0) ∧
    (∀ (hint : Nat) (bits : List Word), bits.length ≤ hint →
      ∃ b, Buf.fromBitsIterK A hint bits = (.ok (), b) ∧ BV.fromBits bits = .ok b.vec ∧ b.moves = 0) := by
  refine ⟨fun bits => ?_, fun hint bits hh => ?_⟩
  · have := hA.first (bits.length / 64 + 1)
    obtain ⟨b, h1, h2, h3, h4, h5⟩ := Buf.appendBoolListK_spec A bits (Buf.withCapacity A bits.length) BV.wf_new
    have hl : b.vec.len = bits.length := by
      have := congrArg List.length h4
      simpa [Buf.withCapacity, BV.bits_new] using this
    refine ⟨b, h1, h2, (h5 ?_).2⟩
    unfold BV.WF at h3
    show b.vec.data.length ≤ A.first (bits.length / 64 + 1)
    omega
  · have := hA.first (hint / 64 + 1)
    obtain ⟨b, h1, h2, h3⟩ := Buf.appendBitListK_spec A bits (Buf.withCapacity A hint) BV.wf_new (by
      simp only [Buf.withCapacity, BV.new]; omega)
    exact ⟨b, h1, h3, h2⟩

example := (C82_from_bools doubling_valid).1 (List.replicate 300 true)
example := (C82_from_bools doubling_valid).2 100 (List.replicate 100 3#64) (by simp)

omit [Profile] in
/-- `from_bool_iter` asks for no capacity: with an allocator that at least doubles the capacity, the number of reallocations is
logarithmic in the number of bits, and the limbs copied are at most twice those of the result. -/
theorem C82_from_bool_iter {A : Alloc} (hA : A.Valid) (h2 : ∀ c n, 2 * c ≤ A.grow c n) (bits : List Bool) :
    ∃ b, Buf.fromBoolIterK A bits = (.ok (), b) ∧ BV.fromBools bits = .ok b.vec ∧
      b.moves ≤ Nat.log2 ((bits.length + 63) / 64) + 2 ∧ b.copied ≤ 2 * ((bits.length + 63) / 64) := by
  obtain ⟨b, h1, h3, h4, h5, -⟩ := Buf.appendBoolListK_spec A bits Buf.new BV.wf_new
  have am : ∀ l, Buf.Amortised (Buf.appendBoolListK A l) := by
    intro l
    induction l with
    | nil => exact Buf.Amortised.pure ()
    | cons x l ih => exact (Buf.Amortised.append hA h2 x).bind fun _ => ih
  have hl : b.vec.len = bits.length := by
    have := congrArg List.length h5
    simpa [Buf.new, BV.bits_new] using this
  have hd : b.vec.data.length = (bits.length + 63) / 64 := by unfold BV.WF at h4; rw [h4, hl]
  have hR := (am bits).room ((bits.length + 63) / 64) Buf.new (by rw [h1]; exact Nat.le_of_eq hd)
    ⟨Or.inl rfl, by simp [Buf.new], Nat.le_refl _, Nat.le_refl _, Nat.zero_le _⟩
  rw [h1] at hR
  refine ⟨b, h1, h3, ?_, hR.total⟩
  refine Decidable.byContradiction fun hn => ?_
  have a1 : 2 ^ b.moves ≤ 4 * ((bits.length + 63) / 64) + 1 := hR.last
  have a2 : 2 ^ (Nat.log2 ((bits.length + 63) / 64) + 3) ≤ 2 ^ b.moves := Nat.pow_le_pow_right (by omega) (by omega)
  have a3 := Nat.lt_log2_self (n := (bits.length + 63) / 64)
  rw [Nat.pow_add] at a2
  rw [Nat.pow_succ] at a3
  omega

example := C82_from_bool_iter doubling_valid (fun _ _ => Nat.le_max_left _ _) (List.replicate 1000 true)

/-- the construction of an Elias-Fano vector, with the memory of the lower parts -/
theorem fromNonEmptyK_eq (A : Alloc) {fl : Nat → Nat} {data : List Word} {ef : EF} (hd : data ≠ [])
    (h : EF.fromSlice fl data = .ok ef) (hl : data.length * ef.lowerLen < 2 ^ 64) :
    ∃ zero ulen u b, EF.fillLoop zero ef.lowerLen (BV.fromZeros ulen) BV.new 0 data = .ok (u, ef.lower) ∧ ef.lowerLen < 64 ∧
      EF.fillLoopK A zero ef.lowerLen (BV.fromZeros ulen) 0 data (Buf.withCapacity A (data.length * ef.lowerLen)) = (.ok u, b) ∧
      b.vec = ef.lower ∧ EF.fromNonEmptyK A fl data = .ok (ef, b) := by
  unfold EF.fromSlice at h
  rw [if_neg hd] at h
  unfold EF.fromNonEmpty at h
  obtain ⟨_, g1, h⟩ := bind_eq_ok.mp h
  obtain ⟨zero, g2, h⟩ := bind_eq_ok.mp h
  obtain ⟨last, g3, h⟩ := bind_eq_ok.mp h
  obtain ⟨bound, g4, h⟩ := bind_eq_ok.mp h
  obtain ⟨w, g5, h⟩ := bind_eq_ok.mp h
  obtain ⟨_, g6, h⟩ := bind_eq_ok.mp h
  obtain ⟨ulen, g7, h⟩ := bind_eq_ok.mp h
  obtain ⟨cap, g8, h⟩ := bind_eq_ok.mp h
  obtain ⟨⟨u, l⟩, g9, h⟩ := bind_eq_ok.mp h
  obtain ⟨rs, g10, h⟩ := bind_eq_ok.mp h
  cases h
  simp only at hl ⊢
  have hw64 : w < 64 := by
    unfold assertR at g6
    by_cases hc : w < 64
    · exact hc
    · rw [if_neg (by simpa using hc)] at g6; cases g6
  rw [mulU_of_lt hl] at g8
  cases g8
  obtain ⟨b, e1, e2, -⟩ := (Buf.Follows.fill A zero w data (BV.fromZeros ulen) 0).all (Buf.withCapacity A (data.length * w)) u l g9
  refine ⟨zero, ulen, u, b, g9, hw64, e1, e2, ?_⟩
  unfold EF.fromNonEmptyK
  rw [g1, ok_bind, g2, ok_bind, g3, ok_bind, g4, ok_bind, g5, ok_bind, g6, ok_bind, g7, ok_bind, mulU_of_lt hl, ok_bind, e1]
  simp only
  rw [g10, ok_bind, e2]
  rfl

/-- Partial: the lower parts have at least one bit, see `C82_elias_fano_defect`. The construction of an Elias-Fano vector
allocates the memory of the lower parts once. -/
theorem C82_elias_fano_partial {A : Alloc} (hA : A.Valid) {fl : Nat → Nat} (hfl : LogLike fl) {data : List Word}
    (hs : Sorted data) (hn : data ≠ []) (hl : data.length < 2 ^ 60) :
    ∃ ef b, EF.fromSlice fl data = .ok ef ∧ EF.fromNonEmptyK A fl data = .ok (ef, b) ∧ b.vec = ef.lower ∧
      (1 ≤ ef.lowerLen → b.moves = 0) := by
  obtain ⟨ef, e1, _⟩ := fromSlice_inv hfl hs hn hl
  obtain ⟨w, u, w1, w2, w3, u1, u2, u3, -, -, -, l1⟩ := fromSlice_parts hfl hn e1 hs hl
  subst w3
  obtain ⟨z, ulen, u, b, f1, f2, f3, f4, f5⟩ := fromNonEmptyK_eq A hn e1 l1
  refine ⟨ef, b, e1, f5, f4, fun hw => ?_⟩
  obtain ⟨k1, k2⟩ := fillLoop_wf hw (by omega) f1 BV.wf_new
  obtain ⟨b', e1, e2, e3⟩ := (Buf.Follows.fill A z ef.lowerLen data (BV.fromZeros ulen) 0).fresh hA
    (c := data.length * ef.lowerLen) f1 k1 (by rw [k2]; simp [BV.new])
  rw [f3] at e1
  cases e1
  exact e3

/-- lower parts of 2 bits -/
example := C82_elias_fano_partial doubling_valid logLike_ceilLog2 (data := [3#64, 9#64, 20#64]) (by simp [Sorted]) (by decide)
  (by decide)

/-- Defect (a consequence of the limb pushed by `append_bits_unchecked` for width 0, cf. `C56_dense_defect`): if the lower parts
have no bits, the construction reallocates a vector that holds no bits, whenever there are more elements than limbs fit into the
smallest allocation. -/
theorem C82_elias_fano_defect {A : Alloc} (hA : A.Valid) {fl : Nat → Nat} {data : List Word} {ef : EF} (hd : A.first 1 < data.length)
    (h : EF.fromSlice fl data = .ok ef) (hw : ef.lowerLen = 0) :
    ∃ b, EF.fromNonEmptyK A fl data = .ok (ef, b) ∧ b.vec.len = 0 ∧ 0 < b.moves := by
  obtain ⟨z, ulen, u, b, f1, f2, f3, f4, f5⟩ := fromNonEmptyK_eq A (by rintro rfl; simp at hd) h (by rw [hw]; simp)
  rw [hw] at f1 f3
  obtain ⟨k1, k2⟩ := fillLoop_zero f1 rfl
  refine ⟨b, f5, by rw [f4]; exact k2, ?_⟩
  have h0 : (Buf.withCapacity A (data.length * 0)).vec.data.length ≤ (Buf.withCapacity A (data.length * 0)).cap := Nat.zero_le _
  have := (Buf.Honest.fill hA z 0 data (BV.fromZeros ulen) 0).moved h0 (by
    rw [f3, f4, k1]
    show A.first (data.length * 0 / 64 + 1) < 0 + data.length
    rw [Nat.mul_zero, Nat.zero_div, Nat.zero_add, Nat.zero_add]
    exact hd)
  rw [f3] at this
  exact this

/-- the numbers from 0 to 9 -/
example : ∃ ef b, EF.fromNonEmptyK doubling ceilLog2 [0#64, 1#64, 2#64, 3#64, 4#64, 5#64, 6#64, 7#64, 8#64, 9#64] = .ok (ef, b) ∧
    b.vec.len = 0 ∧ 0 < b.moves := by
  have h : (EF.fromSlice ceilLog2 [0#64, 1#64, 2#64, 3#64, 4#64, 5#64, 6#64, 7#64, 8#64, 9#64]).map EF.lowerLen = .ok 0 := by
    decide +revert +kernel
  cases e : EF.fromSlice ceilLog2 [0#64, 1#64, 2#64, 3#64, 4#64, 5#64, 6#64, 7#64, 8#64, 9#64] with
  | error p => rw [e] at h; cases h
  | ok ef =>
    rw [e] at h
    exact ⟨ef, C82_elias_fano_defect doubling_valid (by decide) e (Except.ok.inj h)⟩

omit [Profile] in
/-- The limbs fit into the memory after any sequence of calls with any arguments, also if some of them panic; and a call after
which the vector has more limbs than there was room for has reallocated it. -/
theorem C82_fits {A : Alloc} (hA : A.Valid) (cs : List (BitCall BV)) {b : Buf} (h : b.vec.data.length ≤ b.cap) :
    (attempts (Buf.callK A) b cs).2.vec.data.length ≤ (attempts (Buf.callK A) b cs).2.cap ∧
    (b.cap < (attempts (Buf.callK A) b cs).2.vec.data.length → b.moves < (attempts (Buf.callK A) b cs).2.moves) := by
  have call : ∀ c, Buf.Honest (Buf.callK A c) := by
    intro c
    cases c with
    | append x => exact (Buf.Honest.append hA x).bind fun _ => Buf.Honest.pure _
    | appendBit w => exact (Buf.Honest.appendBit hA w).bind fun _ => Buf.Honest.pure _
    | appendWord w => exact (Buf.Honest.appendWord hA w).bind fun _ => Buf.Honest.pure _
    | appendBits w n => exact (Buf.Honest.appendBits hA w n).bind fun _ => Buf.Honest.pure _
    | dropLast n => exact Buf.Honest.keep ((BV.Steady.dropLast n).bind fun _ => BV.Steady.pure _)
    | set i x => exact Buf.Honest.keep (BV.Steady.set i x)
    | flip i => exact Buf.Honest.keep ((BV.Steady.flip i).bind fun _ => BV.Steady.pure _)
    | extendBitvec o => exact (Buf.Honest.extendBitvec hA o).bind fun _ => Buf.Honest.pure _
    | extend os => exact (Buf.Honest.extend hA os).bind fun _ => Buf.Honest.pure _
    | mask f g o => exact Buf.Honest.keep (BV.Steady.mask _ o)
  have all : ∀ (cs : List (BitCall BV)) (b : Buf), b.vec.data.length ≤ b.cap →
      (attempts (Buf.callK A) b cs).2.vec.data.length ≤ (attempts (Buf.callK A) b cs).2.cap ∧
      b.moves ≤ (attempts (Buf.callK A) b cs).2.moves ∧
      ((attempts (Buf.callK A) b cs).2.moves = b.moves → (attempts (Buf.callK A) b cs).2.cap = b.cap) := by
    intro cs
    induction cs with
    | nil => intro b h; exact ⟨h, Nat.le_refl _, fun _ => rfl⟩
    | cons c cs ih =>
      intro b h
      obtain ⟨h1, h2, h3⟩ := (call c).all b h
      obtain ⟨k1, k2, k3⟩ := ih (Buf.callK A c b).2 h1
      simp only [attempts]
      exact ⟨k1, Nat.le_trans h2 k2, fun e => (k3 (by omega)).trans (h3 (by omega))⟩
  obtain ⟨h1, h2, h3⟩ := all cs b h
  refine ⟨h1, fun hl => ?_⟩
  rcases Nat.lt_or_ge b.moves (attempts (Buf.callK A) b cs).2.moves with h4 | h4
  · exact h4
  · have := h3 (by omega)
    omega

example := C82_fits doubling_valid [.appendBits 7#64 0, .appendBits 7#64 70, .dropLast 500, .flip 3, .extendBitvec (BV.fromOnes 500)]
  (b := Buf.new) (Nat.le_refl _)

end Vers
