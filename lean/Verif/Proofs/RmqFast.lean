import Verif.Proofs.RmqBin
import Verif.Proofs.Pdep

set_option linter.unusedSimpArgs false

/-! # Proofs about the fast RMQ -/

namespace Vers

variable [Profile]

namespace SmallBV

theorem rank0_eq (v : SmallBV) {i : Nat} (hi : i ≤ 128) :
    rank0 v i = .ok (cnt (fun k => !v.getLsbD k) i) := by
  unfold rank0
  rw [dassertR_true hi]
  simp only [ok_bind, pure_eq_ok]
  congr 1
  have hm : ∀ k, k < 128 → ((if i < 128 then 1#128 <<< i else 0#128) - 1#128).getLsbD k = decide (k < i) := by
    intro k hk
    by_cases h : i < 128
    · rw [if_pos h]
      have : (1#128 <<< i - 1#128).toNat = 2 ^ i - 1 := by
        have h1 : (2:Nat) ^ i < 2 ^ 128 := Nat.pow_lt_pow_right (by omega) h
        have h2 : 0 < 2 ^ i := Nat.two_pow_pos i
        rw [BitVec.toNat_sub, BitVec.toNat_shiftLeft, Nat.shiftLeft_eq]
        simp only [BitVec.toNat_ofNat]
        rw [show (1 % 2 ^ 128 * 2 ^ i) % 2 ^ 128 = 2 ^ i by rw [Nat.mod_eq_of_lt (a := 1) (by decide), Nat.one_mul, Nat.mod_eq_of_lt h1]]
        omega
      rw [BitVec.getLsbD, this, Nat.testBit_two_pow_sub_one]
    · rw [if_neg h]
      obtain rfl : i = 128 := by omega
      rw [show (0#128 - 1#128) = BitVec.allOnes 128 from rfl, BitVec.getLsbD_allOnes]
  obtain ⟨c, hc⟩ := Nat.exists_eq_add_of_le hi
  have hg : ∀ g : Nat → Bool, cnt g 128 = cnt g i + cnt (fun j => g (i + j)) c := by
    intro g; rw [← cnt_add, ← hc]
  rw [hg, cnt_eq_zero (n := c), Nat.add_zero]
  · apply cnt_congr
    intro k hk
    simp only [BitVec.getLsbD_and, BitVec.getLsbD_not, hm k (by omega)]
    simp [hk, show k < 128 by omega]
  · intro k hk
    simp only [BitVec.getLsbD_and, BitVec.getLsbD_not, hm _ (show i + k < 128 by omega)]
    simp

theorem select0_eq (v : SmallBV) {r : Nat} (hr : r < cnt (fun k => !v.getLsbD k) 128) :
    ∃ p, select0 v r = .ok p ∧ p < 128 ∧ v.getLsbD p = false ∧ cnt (fun k => !v.getLsbD k) p = r := by
  have hlow : ∀ k, k < 64 → ((v &&& 0xFFFFFFFFFFFFFFFF#128).setWidth 64 : Word).getLsbD k = v.getLsbD k := by
    intro k hk
    have : (0xFFFFFFFFFFFFFFFF#128 : BitVec 128).getLsbD k = true := by
      rw [BitVec.getLsbD, show (0xFFFFFFFFFFFFFFFF#128 : BitVec 128).toNat = 2 ^ 64 - 1 by decide,
        Nat.testBit_two_pow_sub_one]
      simpa using hk
    rw [BitVec.getLsbD_setWidth, BitVec.getLsbD_and, this]
    simp [hk]
  have hhigh : ∀ k, k < 64 → ((v >>> 64).setWidth 64 : Word).getLsbD k = v.getLsbD (64 + k) := by
    intro k hk
    simp [BitVec.getLsbD_setWidth, BitVec.getLsbD_ushiftRight, hk]
  have hpz : popcountZ ((v &&& 0xFFFFFFFFFFFFFFFF#128).setWidth 64) = cnt (fun k => !v.getLsbD k) 64 := by
    rw [popcountZ_eq]
    exact cnt_congr (fun i hi => by rw [hlow i hi])
  unfold select0
  simp only [hpz]
  by_cases h : cnt (fun k => !v.getLsbD k) 64 ≤ r
  · rw [if_pos h]
    have h2 : cnt (fun k => !v.getLsbD k) 128 = cnt (fun k => !v.getLsbD k) 64 +
        cnt (fun k => !v.getLsbD (64 + k)) 64 := cnt_add _ 64 64
    have h3 : popcount (~~~((v >>> 64).setWidth 64 : Word)) = cnt (fun k => !v.getLsbD (64 + k)) 64 := by
      apply cnt_congr
      intro i hi
      simp only [BitVec.getLsbD_not, hhigh i hi]
      simp [hi]
    have h4 := cnt_le (fun k => !v.getLsbD (64 + k)) 64
    rw [Nat.mod_eq_of_lt (by omega)]
    obtain ⟨p, p1, p2, p3, p4⟩ := selectInWord_eq (w := ~~~((v >>> 64).setWidth 64 : Word))
      (k := r - cnt (fun k => !v.getLsbD k) 64) (by rw [h3]; omega)
    refine ⟨64 + p, ?_, by omega, ?_, ?_⟩
    · rw [p1]; rfl
    · rw [BitVec.getLsbD_not, hhigh p p2] at p3
      simpa [p2] using p3
    · rw [cnt_add, ← cnt_congr (f := (~~~((v >>> 64).setWidth 64 : Word)).getLsbD)
        (g := fun j => !v.getLsbD (64 + j)), p4]
      · omega
      · intro i hi
        rw [BitVec.getLsbD_not, hhigh i (by omega)]
        simp [show i < 64 by omega]
  · rw [if_neg h]
    have h3 : popcount (~~~((v &&& 0xFFFFFFFFFFFFFFFF#128).setWidth 64 : Word)) = cnt (fun k => !v.getLsbD k) 64 := hpz
    obtain ⟨p, p1, p2, p3, p4⟩ := selectInWord_eq (w := ~~~((v &&& 0xFFFFFFFFFFFFFFFF#128).setWidth 64 : Word))
      (k := r) (by rw [h3]; omega)
    refine ⟨p, p1, by omega, ?_, ?_⟩
    · rw [BitVec.getLsbD_not, hlow p p2] at p3
      simpa [p2] using p3
    · rw [← p4]
      apply cnt_congr
      intro i hi
      rw [BitVec.getLsbD_not, hlow i (by omega)]
      simp [show i < 64 by omega]

theorem setBit_eq (v : SmallBV) {i : Nat} (hi : i < 128) :
    ∃ w, setBit v i = .ok w ∧ ∀ k, w.getLsbD k = (v.getLsbD k || decide (k = i)) := by
  refine ⟨v ||| (1#128 <<< i), ?_, ?_⟩
  · unfold setBit
    rw [dassertR_true (by omega)]
    simp only [ok_bind]
    rw [if_pos hi]
    rfl
  · intro k
    rw [BitVec.getLsbD_or, BitVec.getLsbD_shiftLeft]
    congr 1
    by_cases h : k = i
    · subst h; simp [hi]
    · simp [h]; omega

end SmallBV

namespace FastRmq

/-- the zeros of `v` up to `n` mark the strict prefix minima of `f` -/
def MinBits (v : SmallBV) (f : Nat → Nat) (n : Nat) : Prop :=
  ∀ k, v.getLsbD k = true ↔ k ≤ n ∧ ∃ t, t < k ∧ f t ≤ f k

/-- the last zero up to `q` is the minimum of the prefix -/
theorem MinBits.last {v : SmallBV} {f : Nat → Nat} {n : Nat} (h : MinBits v f n) (hn : n < 128) {q : Nat}
    (hq : q ≤ n) : ∃ r p, v.rank0 (q + 1) = .ok r ∧ 1 ≤ r ∧ v.select0 (r - 1) = .ok p ∧
      MinOn f 0 q p ∧ v.getLsbD p = false ∧ cnt (fun k => !v.getLsbD k) (p + 1) = r := by
  have h0 : v.getLsbD 0 = false := by
    by_contra hc
    have := (h 0).mp (by simpa using hc)
    obtain ⟨_, t, ht, _⟩ := this
    omega
  have hr : 1 ≤ cnt (fun k => !v.getLsbD k) (q + 1) := by
    have := cnt_mono (fun k => !v.getLsbD k) (show 1 ≤ q + 1 by omega)
    rw [cnt_succ, h0] at this
    simp at this
    omega
  have hmono := cnt_mono (fun k => !v.getLsbD k) (show q + 1 ≤ 128 by omega)
  obtain ⟨p, p1, p2, p3, p4⟩ := SmallBV.select0_eq v (r := cnt (fun k => !v.getLsbD k) (q + 1) - 1) (by omega)
  have hp1 : cnt (fun k => !v.getLsbD k) (p + 1) = cnt (fun k => !v.getLsbD k) (q + 1) := by
    rw [cnt_succ, p4, p3]
    simp
    omega
  have hpq : p ≤ q := by
    by_contra hc
    have := cnt_mono (fun k => !v.getLsbD k) (show q + 1 ≤ p by omega)
    omega
  refine ⟨_, p, SmallBV.rank0_eq v (by omega), hr, p1, ⟨by omega, hpq, ?_⟩, p3, hp1⟩
  intro t
  induction t using Nat.strong_induction_on with
  | _ t ih =>
    intro _ ht
    rcases Nat.lt_trichotomy t p with h1 | h1 | h1
    · by_contra hc
      have := (h p).mpr ⟨by omega, t, h1, by omega⟩
      rw [p3] at this
      cases this
    · subst h1; exact Nat.le_refl _
    · have hb : v.getLsbD t = true := by
        by_contra hc
        have h2 : v.getLsbD t = false := by simpa using hc
        have h3 := cnt_lt_of_true (f := fun k => !v.getLsbD k) (show t < q + 1 by omega) (by simp [h2])
        have h4 := cnt_mono (fun k => !v.getLsbD k) (show p + 1 ≤ t by omega)
        omega
      obtain ⟨_, t', h2, h3⟩ := (h t).mp hb
      have := ih t' h2 (by omega) (by omega)
      omega

/-- invariant of the first loop over a block -/
structure PreInv (block : List Word) (n : Nat) (s : PreState) : Prop where
  mins : s.preMin = s.blockMin
  idx_le : s.blockIdx ≤ n
  val : ev block s.blockIdx = s.preMin.toNat
  le : ∀ t, t ≤ n → s.preMin.toNat ≤ ev block t
  bits : MinBits s.bits (ev block) n

theorem preLoop_eq {block : List Word} (hb : 0 < block.length) (hl : block.length ≤ 128) :
    ∀ n, n < block.length → ∃ s, preLoop block n ⟨0#128, block[0], block[0], 0⟩ = .ok s ∧ PreInv block n s := by
  intro n
  induction n with
  | zero =>
    intro _
    refine ⟨_, rfl, rfl, Nat.le_refl _, by rw [ev_of_lt hb], ?_, ?_⟩
    · intro t ht
      obtain rfl : t = 0 := by omega
      rw [ev_of_lt hb]
    · intro k
      constructor
      · intro h; simp at h
      · rintro ⟨h1, t, h2, _⟩; omega
  | succ n ih =>
    intro hn
    obtain ⟨s, h1, h2⟩ := ih (by omega)
    have hev : ev block (n + 1) = block[n + 1].toNat := ev_of_lt hn
    unfold preLoop
    rw [h1]
    simp only [ok_bind]
    rw [idx_of_lt hn]
    simp only [ok_bind]
    unfold preBits
    by_cases h : block[n + 1] < s.preMin
    · rw [if_pos h]
      have h' : block[n + 1].toNat < s.preMin.toNat := BitVec.lt_def.mp h
      simp only [pure_eq_ok, ok_bind]
      refine ⟨_, rfl, ?_⟩
      unfold preMinimum
      simp only
      rw [if_pos (by rw [← h2.mins]; exact h)]
      refine ⟨rfl, ?_, ?_, ?_, ?_⟩
      · simp only
        rw [Nat.mod_eq_of_lt (by omega)]
      · simp only
        rw [Nat.mod_eq_of_lt (by omega), hev]
      · intro t ht
        simp only
        by_cases e : t = n + 1
        · subst e; omega
        · have := h2.le t (by omega)
          omega
      · intro k
        rw [h2.bits k]
        constructor
        · rintro ⟨g1, g2⟩; exact ⟨by omega, g2⟩
        · rintro ⟨g1, t, g2, g3⟩
          refine ⟨?_, t, g2, g3⟩
          by_contra hc
          obtain rfl : k = n + 1 := by omega
          have := h2.le t (by omega)
          omega
    · rw [if_neg h]
      have h' : s.preMin.toNat ≤ block[n + 1].toNat := by
        have : ¬ block[n + 1].toNat < s.preMin.toNat := fun hc => h (BitVec.lt_def.mpr hc)
        omega
      obtain ⟨w, w1, w2⟩ := SmallBV.setBit_eq s.bits (i := n + 1) (by omega)
      rw [w1]
      simp only [pure_eq_ok, ok_bind]
      refine ⟨_, rfl, ?_⟩
      unfold preMinimum
      simp only
      rw [if_neg (by rw [← h2.mins]; exact h)]
      refine ⟨h2.mins, ?_, h2.val, ?_, ?_⟩
      · have := h2.idx_le
        simp only
        omega
      · intro t ht
        simp only
        by_cases e : t = n + 1
        · subst e; omega
        · exact h2.le t (by omega)
      · intro k
        simp only
        rw [w2 k, Bool.or_eq_true, h2.bits k, decide_eq_true_iff]
        constructor
        · rintro (⟨g1, g2⟩ | g)
          · exact ⟨by omega, g2⟩
          · subst g
            refine ⟨by omega, s.blockIdx, ?_, ?_⟩
            · have := h2.idx_le; omega
            · rw [h2.val, hev]; exact h'
        · rintro ⟨g1, g2⟩
          by_cases e : k = n + 1
          · right; exact e
          · left; exact ⟨by omega, g2⟩

/-- the block read from the end -/
def rev (block : List Word) (t : Nat) : Nat := ev block (block.length - 1 - t)

/-- invariant of the second loop over a block -/
structure SufInv (block : List Word) (n : Nat) (s : SmallBV × Word) : Prop where
  wit : ∃ t, t ≤ n ∧ rev block t = s.2.toNat
  le : ∀ t, t ≤ n → s.2.toNat ≤ rev block t
  bits : MinBits s.1 (rev block) n

theorem sufLoop_eq {block : List Word} (hb : 0 < block.length) (hl : block.length ≤ 128) :
    ∀ n, n < block.length →
      ∃ s, sufLoop block n (0#128, block[block.length - 1]) = .ok s ∧ SufInv block n s := by
  intro n
  induction n with
  | zero =>
    intro _
    have e : rev block 0 = block[block.length - 1].toNat := by
      unfold rev; rw [Nat.sub_zero, ev_of_lt (by omega)]
    refine ⟨_, rfl, ⟨0, by omega, e⟩, ?_, ?_⟩
    · intro t ht
      obtain rfl : t = 0 := by omega
      simp only; omega
    · intro k
      constructor
      · intro h; simp at h
      · rintro ⟨h1, t, h2, _⟩; omega
  | succ n ih =>
    intro hn
    obtain ⟨s, h1, h2⟩ := ih (by omega)
    have hev : rev block (n + 1) = block[block.length - (n + 2)].toNat := by
      unfold rev
      rw [show block.length - 1 - (n + 1) = block.length - (n + 2) by omega, ev_of_lt (by omega)]
    unfold sufLoop
    rw [h1]
    simp only [ok_bind]
    rw [subR_of_le (by omega)]
    simp only [ok_bind]
    rw [idx_of_lt (show block.length - (n + 2) < block.length by omega)]
    simp only [ok_bind]
    by_cases h : block[block.length - (n + 2)] < s.2
    · rw [if_pos h]
      have h' : block[block.length - (n + 2)].toNat < s.2.toNat := BitVec.lt_def.mp h
      refine ⟨_, rfl, ⟨n + 1, by omega, hev⟩, ?_, ?_⟩
      · intro t ht
        simp only
        by_cases e : t = n + 1
        · subst e; omega
        · have := h2.le t (by omega)
          omega
      · intro k
        simp only
        rw [h2.bits k]
        constructor
        · rintro ⟨g1, g2⟩; exact ⟨by omega, g2⟩
        · rintro ⟨g1, t, g2, g3⟩
          refine ⟨?_, t, g2, g3⟩
          by_contra hc
          obtain rfl : k = n + 1 := by omega
          have := h2.le t (by omega)
          omega
    · rw [if_neg h]
      have h' : s.2.toNat ≤ block[block.length - (n + 2)].toNat := by
        have : ¬ block[block.length - (n + 2)].toNat < s.2.toNat := fun hc => h (BitVec.lt_def.mpr hc)
        omega
      obtain ⟨w, w1, w2⟩ := SmallBV.setBit_eq s.1 (i := n + 1) (by omega)
      rw [w1]
      obtain ⟨u, u1, u2⟩ := h2.wit
      refine ⟨_, rfl, ⟨u, by omega, u2⟩, ?_, ?_⟩
      · intro t ht
        simp only
        by_cases e : t = n + 1
        · subst e; omega
        · exact h2.le t (by omega)
      · intro k
        simp only
        rw [w2 k, Bool.or_eq_true, h2.bits k, decide_eq_true_iff]
        constructor
        · rintro (⟨g1, g2⟩ | g)
          · exact ⟨by omega, g2⟩
          · subst g
            exact ⟨by omega, u, by omega, by omega⟩
        · rintro ⟨g1, g2⟩
          by_cases e : k = n + 1
          · right; exact e
          · left; exact ⟨by omega, g2⟩

/-- what `from_vec` stores for a block -/
structure BlockOk (block : List Word) (r : Word × Nat × RmqBlock) : Prop where
  val : ev block r.2.1 = r.1.toNat
  min : MinOn (ev block) 0 (block.length - 1) r.2.1
  pre : MinBits r.2.2.pre (ev block) (block.length - 1)
  suf : MinBits r.2.2.suf (rev block) (block.length - 1)

theorem mkBlock_eq {block : List Word} (hb : 0 < block.length) (hl : block.length ≤ 128) :
    ∃ r, mkBlock block = .ok r ∧ BlockOk block r := by
  obtain ⟨p, p1, p2⟩ := preLoop_eq hb hl (block.length - 1) (by omega)
  obtain ⟨s, s1, s2⟩ := sufLoop_eq hb hl (block.length - 1) (by omega)
  refine ⟨(p.blockMin, p.blockIdx, ⟨p.bits, s.1⟩), ?_, ?_, ⟨by omega, p2.idx_le, ?_⟩, p2.bits, s2.bits⟩
  · unfold mkBlock
    rw [idx_of_lt hb]
    simp only [ok_bind]
    rw [p1]
    simp only [ok_bind]
    rw [subR_of_le hb]
    simp only [ok_bind]
    rw [idx_of_lt (show block.length - 1 < block.length by omega)]
    simp only [ok_bind]
    rw [s1]
    rfl
  · simp only
    rw [p2.val, p2.mins]
  · intro t _ ht
    simp only
    rw [p2.val]
    exact p2.le t ht

omit [Profile] in
theorem chunk_length (data : List Word) (b : Nat) : (chunk data b).length = min 128 (data.length - b * 128) := by
  unfold chunk
  simp

omit [Profile] in
theorem ev_chunk {data : List Word} {b t : Nat} (ht : t < 128) : ev (chunk data b) t = ev data (b * 128 + t) := by
  unfold ev chunk
  rw [List.getD_eq_getElem?_getD, List.getD_eq_getElem?_getD, List.getElem?_take, if_pos ht, List.getElem?_drop]

theorem mkBlocks_eq {data : List Word} : ∀ n, n ≤ (data.length + 127) / 128 →
    ∃ bs, mkBlocks data n = .ok bs ∧ bs.length = n ∧ ∀ b, b < n → ∃ r, bs[b]? = some r ∧ BlockOk (chunk data b) r := by
  intro n
  induction n with
  | zero => intro _; exact ⟨[], rfl, rfl, by intro b hb; omega⟩
  | succ n ih =>
    intro hn
    obtain ⟨bs, h1, h2, h3⟩ := ih (by omega)
    have hl := chunk_length data n
    obtain ⟨r, r1, r2⟩ := mkBlock_eq (block := chunk data n) (by omega) (by omega)
    refine ⟨bs ++ [r], ?_, by simp [h2], ?_⟩
    · unfold mkBlocks
      rw [h1]
      simp only [ok_bind]
      rw [r1]
      rfl
    · intro b hb
      by_cases e : b = n
      · subst e
        refine ⟨r, ?_, r2⟩
        rw [List.getElem?_append_right (by omega), h2]
        simp
      · obtain ⟨r', g1, g2⟩ := h3 b (by omega)
        refine ⟨r', ?_, g2⟩
        rw [List.getElem?_append_left (by omega), g1]

/-- the structure built by `from_vec` -/
structure Ok (s : FastRmq) (data : List Word) : Prop where
  data_eq : s.data = data
  blk : ∃ bs : List (Word × Nat × RmqBlock), bs.length = (data.length + 127) / 128 ∧
    s.blockMinIndices = bs.map (·.2.1) ∧ s.blocks = bs.map (·.2.2) ∧
    BinRmq.Ok s.blockMinima (bs.map (·.1)) ∧
    ∀ b, b < (data.length + 127) / 128 → ∃ r, bs[b]? = some r ∧ BlockOk (chunk data b) r

theorem fromVec_ok {data : List Word} (hlen : data.length ≤ 2 ^ 39 - 128) :
    ∃ s, fromVec data = .ok s ∧ Ok s data := by
  obtain ⟨bs, h1, h2, h3⟩ := mkBlocks_eq (data := data) _ (Nat.le_refl _)
  obtain ⟨bm, b1, b2⟩ := BinRmq.fromVec_ok (data := bs.map (·.1)) (by simp [h2]; omega)
  refine ⟨⟨data, bm, bs.map (·.2.1), bs.map (·.2.2)⟩, ?_, rfl, bs, h2, rfl, rfl, b2, h3⟩
  unfold fromVec
  rw [assertR_true (by omega)]
  simp only [ok_bind]
  rw [h1]
  simp only [ok_bind]
  rw [b1]
  rfl

theorem fromVec_too_long {data : List Word} (h : 2 ^ 39 - 128 < data.length) :
    fromVec data = .error .assertion := by
  unfold fromVec
  by_cases h2 : data.length < 2 ^ 40
  · rw [assertR_true h2]
    simp only [ok_bind]
    obtain ⟨bs, h1, h2, h3⟩ := mkBlocks_eq (data := data) _ (Nat.le_refl _)
    rw [h1]
    simp only [ok_bind]
    unfold BinRmq.fromVec
    rw [assertR_false (by simp [h2]; omega)]
    rfl
  · rw [assertR_false h2]
    rfl

omit [Profile] in
theorem minByKey_eq {l : List Word} : ∀ (xs pre : List Word) (k : Nat) (y : Word), l = pre ++ xs →
    0 < pre.length → MinOn (ev l) 0 (pre.length - 1) k → y.toNat = ev l k →
    ∃ m, minByKey xs pre.length (some (k, y)) = some m ∧ MinOn (ev l) 0 (l.length - 1) m := by
  intro xs
  induction xs with
  | nil =>
    intro pre k y h1 h2 h3 h4
    refine ⟨k, rfl, ?_⟩
    rw [h1] at h3 ⊢
    simpa using h3
  | cons x xs ih =>
    intro pre k y h1 h2 h3 h4
    have hx : ev l pre.length = x.toNat := by
      rw [h1]
      unfold ev
      simp
    have e1 : l = (pre ++ [x]) ++ xs := by rw [h1]; simp
    unfold minByKey
    obtain ⟨k1, k2, k3⟩ := h3
    by_cases h : x < y
    · rw [if_pos h]
      have h' : x.toNat < y.toNat := BitVec.lt_def.mp h
      have := ih (pre ++ [x]) pre.length x e1 (by simp) ⟨by omega, by simp, ?_⟩ hx.symm
      · rw [List.length_append] at this
        exact this
      · intro t _ ht
        simp only [List.length_append, List.length_cons, List.length_nil] at ht
        by_cases e : t = pre.length
        · subst e; exact Nat.le_refl _
        · have := k3 t (by omega) (by omega)
          omega
    · rw [if_neg h]
      have h' : y.toNat ≤ x.toNat := by
        have : ¬ x.toNat < y.toNat := fun hc => h (BitVec.lt_def.mpr hc)
        omega
      have := ih (pre ++ [x]) k y e1 (by simp) ⟨by omega, by simp; omega, ?_⟩ h4
      · rw [List.length_append] at this
        exact this
      · intro t _ ht
        simp only [List.length_append, List.length_cons, List.length_nil] at ht
        by_cases e : t = pre.length
        · subst e; omega
        · exact k3 t (by omega) (by omega)

omit [Profile] in
theorem scan_eq {s : FastRmq} {i j : Nat} (hij : i ≤ j) (hj : j < s.data.length) :
    ∃ m, s.scan i j = .ok m ∧ MinOn (ev s.data) i j m := by
  have hlen : ((s.data.take (j + 1)).drop i).length = j + 1 - i := by simp; omega
  have hev : ∀ t, t ≤ j - i → ev ((s.data.take (j + 1)).drop i) t = ev s.data (i + t) := by
    intro t ht
    unfold ev
    rw [List.getD_eq_getElem?_getD, List.getD_eq_getElem?_getD, List.getElem?_drop, List.getElem?_take,
      if_pos (by omega)]
  unfold scan
  rw [sliceR_of_le (by omega) (by omega)]
  simp only [ok_bind]
  generalize hg : (s.data.take (j + 1)).drop i = l at *
  cases l with
  | nil => simp at hlen; omega
  | cons x xs =>
    have hx : ev (x :: xs) 0 = x.toNat := rfl
    obtain ⟨m, m1, m2, m3, m4⟩ := minByKey_eq (l := x :: xs) xs [x] 0 x rfl (by simp)
      ⟨by omega, by simp, fun t _ ht => by
        obtain rfl : t = 0 := by simp at ht; omega
        exact Nat.le_refl _⟩ hx.symm
    refine ⟨i + m, ?_, by omega, by omega, ?_⟩
    · unfold minByKey
      simp only [List.length_cons, List.length_nil] at m1
      rw [m1]
      rfl
    · intro t h1 h2
      have := m4 (t - i) (by omega) (by omega)
      rw [hev m (by omega), hev (t - i) (by omega)] at this
      rw [show t = i + (t - i) by omega]
      exact this

omit [Profile] in
theorem Ok.block {s : FastRmq} {data : List Word} (h : Ok s data) {b : Nat}
    (hb : b < (data.length + 127) / 128) :
    ∃ r : Word × Nat × RmqBlock, s.blocks[b]? = some r.2.2 ∧ s.blockMinIndices[b]? = some r.2.1 ∧
      BlockOk (chunk data b) r := by
  obtain ⟨bs, h1, h2, h3, h4, h5⟩ := h.blk
  obtain ⟨r, r1, r2⟩ := h5 b hb
  refine ⟨r, ?_, ?_, r2⟩
  · rw [h3, List.getElem?_map, r1]; rfl
  · rw [h2, List.getElem?_map, r1]; rfl

omit [Profile] in
/-- shifts a minimum in a chunk to the whole data -/
theorem MinOn_chunk {data : List Word} {b i j p : Nat} (hj : j < 128)
    (h : MinOn (ev (chunk data b)) i j p) : MinOn (ev data) (b * 128 + i) (b * 128 + j) (b * 128 + p) := by
  obtain ⟨h1, h2, h3⟩ := h
  refine ⟨by omega, by omega, fun t ht1 ht2 => ?_⟩
  have := h3 (t - b * 128) (by omega) (by omega)
  rw [ev_chunk (by omega), ev_chunk (by omega)] at this
  rw [show t = b * 128 + (t - b * 128) by omega]
  exact this

theorem Ok.inBlock {s : FastRmq} {data : List Word} (h : Ok s data) {i j : Nat} (hij : i ≤ j)
    (hj : j < data.length) (hb : i / 128 = j / 128) :
    ∃ m, s.inBlock i j = .ok m ∧ MinOn (ev data) i j m := by
  obtain ⟨r, r1, _, r2⟩ := h.block (b := i / 128) (by omega)
  have hl := chunk_length data (i / 128)
  obtain ⟨ri, pi, a1, a2, a3, a4, a5, a6⟩ := r2.pre.last (by omega) (q := i % 128) (by omega)
  obtain ⟨rj, pj, b1, b2, b3, b4, b5, b6⟩ := r2.pre.last (by omega) (q := j % 128) (by omega)
  unfold FastRmq.inBlock
  rw [idx_of_some r1]
  simp only [ok_bind]
  rw [a1]
  simp only [ok_bind]
  rw [b1]
  simp only [ok_bind]
  by_cases hr : rj > ri
  · rw [if_pos hr, b3]
    refine ⟨_, rfl, ?_⟩
    have hp : i % 128 ≤ pj := by
      by_contra hc
      rw [SmallBV.rank0_eq _ (by omega)] at a1
      injection a1 with a1
      have := cnt_mono (fun k => !r.2.2.pre.getLsbD k) (show pj + 1 ≤ i % 128 + 1 by omega)
      omega
    have h3 : MinOn (ev (chunk data (i / 128))) (i % 128) (j % 128) pj :=
      ⟨hp, b4.2.1, fun t _ ht => b4.2.2 t (by omega) ht⟩
    have := MinOn_chunk (by omega) h3
    rwa [show i / 128 * 128 + i % 128 = i by omega, show i / 128 * 128 + j % 128 = j by omega] at this
  · rw [if_neg hr]
    unfold inBlockSuffix
    rw [SmallBV.rank0_eq _ (by omega)]
    simp only [ok_bind]
    rw [SmallBV.rank0_eq _ (by omega)]
    simp only [ok_bind]
    rw [if_neg (by
      have := cnt_mono (fun k => !r.2.2.suf.getLsbD k) (show 128 - j % 128 ≤ 128 - i % 128 by omega)
      omega)]
    have := scan_eq (s := s) hij (by rw [h.data_eq]; exact hj)
    rwa [h.data_eq] at this

theorem Ok.leftMin {s : FastRmq} {data : List Word} (h : Ok s data) {i : Nat}
    (hb : (i / 128 + 1) * 128 ≤ data.length) :
    ∃ m, s.leftMin i = .ok m ∧ MinOn (ev data) i ((i / 128 + 1) * 128 - 1) m := by
  obtain ⟨r, r1, _, r2⟩ := h.block (b := i / 128) (by omega)
  have hl := chunk_length data (i / 128)
  have hl2 : (chunk data (i / 128)).length = 128 := by omega
  obtain ⟨ri, p, a1, a2, a3, a4, a5, a6⟩ := r2.suf.last (by omega) (q := 127 - i % 128) (by omega)
  unfold FastRmq.leftMin
  rw [idx_of_some r1]
  simp only [ok_bind]
  rw [show 128 - i % 128 = 127 - i % 128 + 1 by omega, a1]
  simp only [ok_bind]
  rw [subR_of_le a2]
  simp only [ok_bind]
  rw [a3]
  simp only [ok_bind]
  obtain ⟨_, c1, c2⟩ := a4
  rw [subR_of_le (by omega)]
  simp only [ok_bind]
  rw [subR_of_le (by omega)]
  refine ⟨_, rfl, by omega, by omega, ?_⟩
  intro t ht1 ht2
  have := c2 (i / 128 * 128 + 127 - t) (by omega) (by omega)
  unfold rev at this
  rw [hl2, ev_chunk (by omega), ev_chunk (by omega)] at this
  rw [show (i / 128 + 1) * 128 - p - 1 = i / 128 * 128 + (128 - 1 - p) by omega]
  rwa [show i / 128 * 128 + (128 - 1 - (i / 128 * 128 + 127 - t)) = t by omega] at this

theorem Ok.rightMin {s : FastRmq} {data : List Word} (h : Ok s data) {j : Nat}
    (hj : j < data.length) :
    ∃ m, s.rightMin j = .ok m ∧ MinOn (ev data) (j / 128 * 128) j m := by
  obtain ⟨r, r1, _, r2⟩ := h.block (b := j / 128) (by omega)
  have hl := chunk_length data (j / 128)
  obtain ⟨ri, p, a1, a2, a3, a4, a5, a6⟩ := r2.pre.last (by omega) (q := j % 128) (by omega)
  unfold FastRmq.rightMin
  rw [idx_of_some r1]
  simp only [ok_bind]
  rw [a1]
  simp only [ok_bind]
  rw [subR_of_le a2]
  simp only [ok_bind]
  rw [a3]
  refine ⟨_, rfl, ?_⟩
  have := MinOn_chunk (by omega) a4
  rwa [Nat.add_zero, show j / 128 * 128 + j % 128 = j by omega] at this

theorem Ok.middleMin {s : FastRmq} {data : List Word} (h : Ok s data) {bi bj : Nat}
    (hb : bi + 1 < bj) (hj : bj * 128 < data.length) :
    ∃ m, s.middleMin bi bj = .ok m ∧ MinOn (ev data) ((bi + 1) * 128) (bj * 128 - 1) m := by
  obtain ⟨bs, h1, h2, h3, h4, h5⟩ := h.blk
  obtain ⟨m, m1, m2, m3, m4⟩ := h4.rangeMin (i := bi + 1) (j := bj - 1) (by omega) (by simp [h1]; omega)
  have hval : ∀ b, b < bj → ∃ r : Word × Nat × RmqBlock, s.blockMinIndices[b]? = some r.2.1 ∧
      ev (bs.map (·.1)) b = ev data (b * 128 + r.2.1) ∧
      MinOn (ev data) (b * 128) (b * 128 + 127) (b * 128 + r.2.1) := by
    intro b hb
    obtain ⟨r, r1, r2⟩ := h5 b (by omega)
    have hl := chunk_length data b
    have hl2 : (chunk data b).length = 128 := by omega
    have hm := r2.min
    rw [hl2] at hm
    have h6 := MinOn_chunk (by omega) hm
    refine ⟨r, ?_, ?_, h6⟩
    · rw [h2, List.getElem?_map, r1]; rfl
    · rw [← ev_chunk (by have := hm.2.1; omega), r2.val]
      unfold ev
      rw [List.getD_eq_getElem?_getD, List.getElem?_map, r1]
      rfl
  obtain ⟨r, r1, r2, r3⟩ := hval m (by omega)
  refine ⟨m * 128 + r.2.1, ?_, ?_, ?_, ?_⟩
  · unfold FastRmq.middleMin
    rw [m1]
    simp only [ok_bind]
    rw [idx_of_some r1]
    rfl
  · have := r3.1
    omega
  · have := r3.2.1
    omega
  · intro t ht1 ht2
    obtain ⟨r', r1', r2', r3'⟩ := hval (t / 128) (by omega)
    have g1 := m4 (t / 128) (by omega) (by omega)
    have g2 := r3'.2.2 t (by omega) (by omega)
    omega

theorem Ok.rangeMin {s : FastRmq} {data : List Word} (h : Ok s data) {i j : Nat} (hij : i ≤ j)
    (hj : j < data.length) : ∃ m, s.rangeMin i j = .ok m ∧ MinOn (ev data) i j m := by
  unfold FastRmq.rangeMin
  by_cases hb : i / 128 = j / 128
  · rw [if_pos hb]; exact h.inBlock hij hj hb
  · rw [if_neg hb]
    obtain ⟨a, a1, a2, a3, a4⟩ := h.leftMin (i := i) (by omega)
    obtain ⟨b, b1, b2, b3, b4⟩ := h.rightMin hj
    rw [a1, b1]
    simp only [ok_bind]
    by_cases hc : i / 128 + 1 < j / 128
    · rw [if_pos hc]
      obtain ⟨c, c1, c2, c3, c4⟩ := h.middleMin hc (by omega)
      rw [c1]
      simp only [ok_bind]
      rw [h.data_eq, minBy_eq (by omega) (by omega)]
      simp only [ok_bind]
      rw [minBy_eq (by split <;> omega) (by omega)]
      refine ⟨_, rfl, ?_, ?_, ?_⟩
      · split <;> (try split) <;> omega
      · split <;> (try split) <;> omega
      · intro t ht1 ht2
        have h1 : ev data (if ev data a ≤ ev data b then a else b) ≤ ev data a ∧
            ev data (if ev data a ≤ ev data b then a else b) ≤ ev data b := by
          split <;> omega
        generalize (if ev data a ≤ ev data b then a else b) = ab at *
        have h2 : ev data (if ev data ab ≤ ev data c then ab else c) ≤ ev data ab ∧
            ev data (if ev data ab ≤ ev data c then ab else c) ≤ ev data c := by
          split <;> omega
        generalize (if ev data ab ≤ ev data c then ab else c) = abc at *
        by_cases t1 : t ≤ (i / 128 + 1) * 128 - 1
        · have := a4 t ht1 t1; omega
        · by_cases t2 : t ≤ j / 128 * 128 - 1
          · have := c4 t (by omega) t2; omega
          · have := b4 t (by omega) ht2; omega
    · rw [if_neg hc, h.data_eq, minBy_eq (by omega) (by omega)]
      exact ⟨_, rfl, MinOn.union ⟨a2, a3, a4⟩ ⟨b2, b3, b4⟩ (by omega) (by omega) (by omega) (by omega)
        (by intro t _ _; omega)⟩

/-- a query with reversed bounds in a complete block: the code finds a suffix minimum between the bounds and
returns the index behind it, or it panics -/
theorem Ok.inBlock_reversed {s : FastRmq} {data : List Word} (h : Ok s data) {i j : Nat} (hij : j < i)
    (hb : i / 128 = j / 128) (hf : (i / 128 + 1) * 128 ≤ data.length) :
    ((∃ x, j ≤ x ∧ x < i ∧ ∀ t, x < t → t < (i / 128 + 1) * 128 → ev data x < ev data t) →
      ∃ x, s.inBlock i j = .ok (x + 1) ∧ x < i ∧ MinOn (ev data) j ((i / 128 + 1) * 128 - 1) x) ∧
    (¬(∃ x, j ≤ x ∧ x < i ∧ ∀ t, x < t → t < (i / 128 + 1) * 128 → ev data x < ev data t) →
      s.inBlock i j = .error (if i = j + 1 then .unwrap else .oob)) := by
  obtain ⟨r, r1, _, r2⟩ := h.block (b := i / 128) (by omega)
  have hl := chunk_length data (i / 128)
  have hl2 : (chunk data (i / 128)).length = 128 := by omega
  obtain ⟨rj, p, b1, b2, b3, b4, b5, b6⟩ := r2.suf.last (by omega) (q := 127 - j % 128) (by omega)
  have hrev : ∀ k, k < 128 → rev (chunk data (i / 128)) k = ev data (i / 128 * 128 + (127 - k)) := by
    intro k hk
    unfold rev
    rw [hl2, ev_chunk (by omega)]
  have hcode : s.inBlock i j = r.2.2.suf.rank0 (128 - i % 128) >>= fun ri =>
      if rj > ri then do
        let p ← r.2.2.suf.select0 (rj - 1)
        subR ((i / 128 + 1) * 128) p
      else s.scan i j := by
    unfold FastRmq.inBlock
    rw [idx_of_some r1, ok_bind, SmallBV.rank0_eq _ (by omega), ok_bind, SmallBV.rank0_eq _ (by omega), ok_bind,
      if_neg (by
        have := cnt_mono (fun k => !r.2.2.pre.getLsbD k) (show j % 128 + 1 ≤ i % 128 + 1 by omega)
        omega)]
    unfold inBlockSuffix
    rw [show 128 - j % 128 = 127 - j % 128 + 1 by omega, b1]
    rfl
  have b1' := b1
  rw [SmallBV.rank0_eq _ (by omega)] at b1'
  injection b1' with b1'
  rw [hcode, SmallBV.rank0_eq _ (by omega), ok_bind]
  constructor
  · rintro ⟨x, x1, x2, x3⟩
    have hz : r.2.2.suf.getLsbD (127 - x % 128) = false := by
      by_contra hc
      obtain ⟨_, t, t1, t2⟩ := (r2.suf _).mp (by simpa using hc)
      rw [hrev t (by omega), hrev _ (by omega)] at t2
      have := x3 (i / 128 * 128 + (127 - t)) (by omega) (by omega)
      rw [show i / 128 * 128 + (127 - (127 - x % 128)) = x by omega] at t2
      omega
    have h1 := cnt_lt_of_true (f := fun k => !r.2.2.suf.getLsbD k)
      (show 127 - x % 128 < 127 - j % 128 + 1 by omega) (by simp [hz])
    have h2 := cnt_mono (fun k => !r.2.2.suf.getLsbD k) (show 128 - i % 128 ≤ 127 - x % 128 by omega)
    have hlt : cnt (fun k => !r.2.2.suf.getLsbD k) (128 - i % 128) < rj := by omega
    rw [if_pos hlt, b3, ok_bind]
    have hp : 128 - i % 128 ≤ p := by
      by_contra hc
      have := cnt_mono (fun k => !r.2.2.suf.getLsbD k) (show p + 1 ≤ 128 - i % 128 by omega)
      omega
    obtain ⟨_, c1, c2⟩ := b4
    refine ⟨i / 128 * 128 + (127 - p), ?_, by omega, by omega, by omega, ?_⟩
    · rw [subR_of_le (by omega)]
      congr 1
      omega
    · intro t t1 t2
      have := c2 (127 - t % 128) (by omega) (by omega)
      rw [hrev _ (by omega), hrev _ (by omega)] at this
      rwa [show i / 128 * 128 + (127 - (127 - t % 128)) = t by omega] at this
  · intro hno
    have hle : ¬cnt (fun k => !r.2.2.suf.getLsbD k) (128 - i % 128) < rj := by
      intro hlt
      have hp : 128 - i % 128 ≤ p := by
        by_contra hc
        have := cnt_mono (fun k => !r.2.2.suf.getLsbD k) (show p + 1 ≤ 128 - i % 128 by omega)
        omega
      obtain ⟨_, c1, c2⟩ := b4
      apply hno
      refine ⟨i / 128 * 128 + (127 - p), by omega, by omega, fun t t1 t2 => ?_⟩
      by_contra hc
      have := (r2.suf p).mpr ⟨by omega, 127 - t % 128, by omega, by
        rw [hrev _ (by omega), hrev _ (by omega),
          show i / 128 * 128 + (127 - (127 - t % 128)) = t by omega]
        omega⟩
      rw [b5] at this
      cases this
    rw [if_neg hle]
    unfold scan
    rw [h.data_eq]
    by_cases e : i = j + 1
    · subst e
      rw [if_pos rfl, sliceR_of_le (by omega) (by omega), ok_bind,
        List.drop_eq_nil_of_le (by rw [List.length_take]; omega)]
      rfl
    · rw [if_neg e]
      unfold sliceR
      rw [if_neg (by omega)]
      rfl

/-- behind the marked part all bits are zero, so the last zero up to `q` is `q` -/
theorem MinBits.last_behind {v : SmallBV} {f : Nat → Nat} {n : Nat} (h : MinBits v f n) {q : Nat}
    (hq : n < q) (hq2 : q < 128) : v.getLsbD q = false ∧ v.rank0 (q + 1) = .ok (cnt (fun k => !v.getLsbD k) q + 1) ∧
      v.select0 (cnt (fun k => !v.getLsbD k) q) = .ok q := by
  have h0 : v.getLsbD q = false := by
    by_contra hc
    have := ((h q).mp (by simpa using hc)).1
    omega
  refine ⟨h0, ?_, ?_⟩
  · rw [SmallBV.rank0_eq v (by omega), cnt_succ, h0]; rfl
  · have hlt := cnt_lt_of_true (f := fun k => !v.getLsbD k) hq2 (by simp [h0])
    obtain ⟨p, p1, p2, p3, p4⟩ := SmallBV.select0_eq v hlt
    rw [p1]
    congr 1
    rcases Nat.lt_trichotomy p q with hc | hc | hc
    · have := cnt_lt_of_true (f := fun k => !v.getLsbD k) hc (by simp [p3]); omega
    · exact hc
    · have := cnt_lt_of_true (f := fun k => !v.getLsbD k) hc (by simp [h0]); omega

/-- the left part of a query that starts in a last block with `d` missing elements -/
theorem Ok.leftMin_last {s : FastRmq} {data : List Word} (h : Ok s data) {i d : Nat} (hi : i < data.length)
    (hd : data.length + d = (i / 128 + 1) * 128) :
    (i % 128 < d → s.leftMin i = .ok i) ∧
    (d ≤ i % 128 → ∃ x, s.leftMin i = .ok (x + d) ∧ MinOn (ev data) (i - d) (data.length - 1) x) := by
  obtain ⟨r, r1, _, r2⟩ := h.block (b := i / 128) (by omega)
  have hl := chunk_length data (i / 128)
  have hl2 : (chunk data (i / 128)).length = 128 - d := by omega
  have hcode : s.leftMin i = r.2.2.suf.rank0 (127 - i % 128 + 1) >>= fun r' => (do
      let r' ← subR r' 1
      let p ← r.2.2.suf.select0 r'
      let q ← subR ((i / 128 + 1) * 128) p
      subR q 1) := by
    unfold FastRmq.leftMin
    rw [idx_of_some r1, show 127 - i % 128 + 1 = 128 - i % 128 by omega]
    rfl
  rw [hcode]
  constructor
  · intro hc
    obtain ⟨-, a1, a2⟩ := r2.suf.last_behind (q := 127 - i % 128) (by omega) (by omega)
    rw [a1, ok_bind, subR_of_le (by omega), ok_bind, Nat.add_sub_cancel, a2, ok_bind, subR_of_le (by omega), ok_bind,
      subR_of_le (by omega)]
    congr 1
    omega
  · intro hc
    obtain ⟨ri, p, a1, a2, a3, a4, a5, a6⟩ := r2.suf.last (by omega) (q := 127 - i % 128) (by omega)
    obtain ⟨_, c1, c2⟩ := a4
    rw [a1, ok_bind, subR_of_le a2, ok_bind, a3, ok_bind, subR_of_le (by omega), ok_bind, subR_of_le (by omega)]
    refine ⟨i / 128 * 128 + (128 - d - 1 - p), by congr 1; omega, by omega, by omega, ?_⟩
    intro t ht1 ht2
    have := c2 (i / 128 * 128 + (128 - d - 1) - t) (by omega) (by omega)
    unfold rev at this
    rw [hl2, ev_chunk (by omega), ev_chunk (by omega)] at this
    rwa [show i / 128 * 128 + (128 - d - 1 - (i / 128 * 128 + (128 - d - 1) - t)) = t by omega] at this

/-- a query with reversed bounds in a last block with `d` missing elements -/
theorem Ok.inBlock_reversed_last {s : FastRmq} {data : List Word} (h : Ok s data) {i j d : Nat} (hij : j < i)
    (hb : i / 128 = j / 128) (hi : i < data.length) (hd : data.length + d = (i / 128 + 1) * 128) :
    (j % 128 < d → s.inBlock i j = .ok (j + 1)) ∧
    (d ≤ j % 128 → (∃ x, j ≤ x + d ∧ x + d < i ∧ ∀ t, x < t → t < data.length → ev data x < ev data t) →
      ∃ x, s.inBlock i j = .ok (x + d + 1) ∧ x + d < i ∧ MinOn (ev data) (j - d) (data.length - 1) x) ∧
    (d ≤ j % 128 → ¬(∃ x, j ≤ x + d ∧ x + d < i ∧ ∀ t, x < t → t < data.length → ev data x < ev data t) →
      s.inBlock i j = .error (if i = j + 1 then .unwrap else .oob)) := by
  obtain ⟨r, r1, _, r2⟩ := h.block (b := i / 128) (by omega)
  have hl := chunk_length data (i / 128)
  have hl2 : (chunk data (i / 128)).length = 128 - d := by omega
  have hrev : ∀ k, k < 128 - d → rev (chunk data (i / 128)) k = ev data (i / 128 * 128 + (127 - d - k)) := by
    intro k hk
    unfold rev
    rw [hl2, ev_chunk (by omega), show 128 - d - 1 - k = 127 - d - k by omega]
  have hcode : s.inBlock i j = r.2.2.suf.rank0 (127 - j % 128 + 1) >>= fun rj =>
      if rj > cnt (fun k => !r.2.2.suf.getLsbD k) (128 - i % 128) then do
        let p ← r.2.2.suf.select0 (rj - 1)
        subR ((i / 128 + 1) * 128) p
      else s.scan i j := by
    unfold FastRmq.inBlock
    rw [idx_of_some r1, ok_bind, SmallBV.rank0_eq _ (by omega), ok_bind, SmallBV.rank0_eq _ (by omega), ok_bind,
      if_neg (by
        have := cnt_mono (fun k => !r.2.2.pre.getLsbD k) (show j % 128 + 1 ≤ i % 128 + 1 by omega)
        omega)]
    unfold inBlockSuffix
    rw [SmallBV.rank0_eq _ (by omega), ok_bind, show 127 - j % 128 + 1 = 128 - j % 128 by omega]
  rw [hcode]
  refine ⟨fun hc => ?_, fun hc => ?_, fun hc => ?_⟩
  · obtain ⟨a0, a1, a2⟩ := r2.suf.last_behind (q := 127 - j % 128) (by omega) (by omega)
    have := cnt_mono (fun k => !r.2.2.suf.getLsbD k) (show 128 - i % 128 ≤ 127 - j % 128 by omega)
    rw [a1, ok_bind, if_pos (by omega), Nat.add_sub_cancel, a2, ok_bind, subR_of_le (by omega)]
    congr 1
    omega
  all_goals
    obtain ⟨rj, p, b1, b2, b3, b4, b5, b6⟩ := r2.suf.last (by omega) (q := 127 - j % 128) (by omega)
    have b1' := b1
    rw [SmallBV.rank0_eq _ (by omega)] at b1'
    injection b1' with b1'
    rw [b1, ok_bind]
  · rintro ⟨x, x1, x2, x3⟩
    have hz : r.2.2.suf.getLsbD (127 - d - x % 128) = false := by
      by_contra hc
      obtain ⟨_, t, t1, t2⟩ := (r2.suf _).mp (by simpa using hc)
      rw [hrev t (by omega), hrev _ (by omega)] at t2
      have := x3 (i / 128 * 128 + (127 - d - t)) (by omega) (by omega)
      rw [show i / 128 * 128 + (127 - d - (127 - d - x % 128)) = x by omega] at t2
      omega
    have h1 := cnt_lt_of_true (f := fun k => !r.2.2.suf.getLsbD k)
      (show 127 - d - x % 128 < 127 - j % 128 + 1 by omega) (by simp [hz])
    have h2 := cnt_mono (fun k => !r.2.2.suf.getLsbD k) (show 128 - i % 128 ≤ 127 - d - x % 128 by omega)
    have hlt : cnt (fun k => !r.2.2.suf.getLsbD k) (128 - i % 128) < rj := by omega
    rw [if_pos hlt, b3, ok_bind]
    have hp : 128 - i % 128 ≤ p := by
      by_contra hc
      have := cnt_mono (fun k => !r.2.2.suf.getLsbD k) (show p + 1 ≤ 128 - i % 128 by omega)
      omega
    obtain ⟨_, c1, c2⟩ := b4
    refine ⟨i / 128 * 128 + (127 - d - p), ?_, by omega, by omega, by omega, ?_⟩
    · rw [subR_of_le (by omega)]
      congr 1
      omega
    · intro t t1 t2
      have := c2 (127 - d - t % 128) (by omega) (by omega)
      rw [hrev _ (by omega), hrev _ (by omega)] at this
      rwa [show i / 128 * 128 + (127 - d - (127 - d - t % 128)) = t by omega] at this
  · intro hno
    have hle : ¬cnt (fun k => !r.2.2.suf.getLsbD k) (128 - i % 128) < rj := by
      intro hlt
      have hp : 128 - i % 128 ≤ p := by
        by_contra hc
        have := cnt_mono (fun k => !r.2.2.suf.getLsbD k) (show p + 1 ≤ 128 - i % 128 by omega)
        omega
      obtain ⟨_, c1, c2⟩ := b4
      apply hno
      refine ⟨i / 128 * 128 + (127 - d - p), by omega, by omega, fun t t1 t2 => ?_⟩
      by_contra hc
      have := (r2.suf p).mpr ⟨by omega, 127 - d - t % 128, by omega, by
        rw [hrev _ (by omega), hrev _ (by omega),
          show i / 128 * 128 + (127 - d - (127 - d - t % 128)) = t by omega]
        omega⟩
      rw [b5] at this
      cases this
    rw [if_neg hle]
    unfold scan
    rw [h.data_eq]
    by_cases e : i = j + 1
    · subst e
      rw [if_pos rfl, sliceR_of_le (by omega) (by omega), ok_bind,
        List.drop_eq_nil_of_le (by rw [List.length_take]; omega)]
      rfl
    · rw [if_neg e]
      unfold sliceR
      rw [if_neg (by omega)]
      rfl

end FastRmq

end Vers
