import Verif.Proofs.WaveletBase

/-!
# Helpers for the wavelet matrix: access, quantiles, predecessor and successor
-/

set_option linter.unusedSimpArgs false

namespace Vers.WM

variable [Profile]
open Spec Vers

variable {T : Type}

/-- `f level bit` appends a bit to the partial result; `Holds level t p` says that `t` holds the prefix `p` of
`level` bits. -/
def Steps (Holds : Nat → T → Nat → Prop) (k : Nat) (f : Nat → Bool → T → R T) : Prop :=
  ∀ l t p b, l < k → Holds l t p → ∃ t', f l b t = .ok t' ∧ Holds (l + 1) t' (2 * p + b.toNat)

omit [Profile] in
theorem pow_step (p r x : Nat) (b : Bool) :
    (2 * p + b.toNat) * 2 ^ r + x = p * 2 ^ (r + 1) + (b.toNat * 2 ^ r + x) := by
  rw [Nat.pow_succ, Nat.add_mul, Nat.mul_comm 2 p, Nat.mul_assoc, Nat.mul_comm 2]; omega

theorem reconstruct_eq {Holds : Nat → T → Nat → Prop} {k : Nat} {f : Word → T → R T}
    (hf : Steps Holds k (fun _ b t => f (b2w b) t)) : ∀ (data : List RsVec) (S : List Nat) (level i x p : Nat) (t : T),
    Good data S → data.length + level = k → S[i]? = some x → Holds level t p →
    ∃ t', reconstruct f data i t = .ok t' ∧ Holds k t' (p * 2 ^ data.length + x)
  | [], S, level, i, x, p, t, hg, hk, hx, ht => by
    have : x = 0 := hg x (List.mem_of_getElem? hx)
    subst this
    have : level = k := by simpa using hk
    subst this
    exact ⟨t, rfl, by simpa using ht⟩
  | rs :: rest, S, level, i, x, p, t, hg, hk, hx, ht => by
    have hlev : level < k := by simp at hk; omega
    have hk' : rest.length + (level + 1) = k := by simp at hk; omega
    obtain ⟨h1, h2, h3⟩ := hg
    have hi : i < S.length := by
      rcases Nat.lt_or_ge i S.length with h | h
      · exact h
      · rw [List.getElem?_eq_none h] at hx; simp at hx
    have hxe : S[i] = x := by rw [List.getElem?_eq_getElem hi] at hx; exact Option.some.inj hx
    obtain ⟨t', f1, f2⟩ := hf level t p (decide (2 ^ rest.length ≤ x)) hlev ht
    simp only [] at f1
    obtain ⟨a, b, g1, g2, g3, g4⟩ := down_step ⟨h1, h2, h3⟩ i (by omega)
    have hS : S = S.take i ++ x :: S.drop (i + 1) := by
      conv => lhs; rw [← List.take_append_drop i S, List.drop_eq_getElem_cons hi, hxe]
    simp only [reconstruct]
    rw [h2.get i (decide (2 ^ rest.length ≤ x)) (by simp [top, hx]), ok_bind, f1, ok_bind, go_eq i g1 g2, ok_bind]
    have hr0 : rs.rank0 = (lo rest.length S).length := by rw [h2.rank0, count_top_false]
    by_cases hc : x < 2 ^ rest.length
    · rw [if_pos hc]
      have hd : decide (2 ^ rest.length ≤ x) = false := by simp; omega
      rw [hd] at f2
      obtain ⟨t'', k1, k2⟩ := reconstruct_eq hf rest _ (level + 1) a x _ t' h3 hk' (by
        rw [hS, lo_append, lo_cons_lt _ hc, List.append_assoc, List.getElem?_append_right (by omega)]
        rw [g3]; simp) f2
      refine ⟨t'', k1, ?_⟩
      rw [pow_step] at k2; simpa using k2
    · rw [if_neg hc]
      have hc' : 2 ^ rest.length ≤ x := by omega
      have hd : decide (2 ^ rest.length ≤ x) = true := by simp; omega
      rw [hd] at f2
      obtain ⟨t'', k1, k2⟩ := reconstruct_eq hf rest _ (level + 1) (rs.rank0 + b) (x - 2 ^ rest.length) _ t' h3 hk' (by
        rw [hr0, List.getElem?_append_right (by omega), Nat.add_sub_cancel_left, hS, hi_append, hi_cons_ge _ hc',
          List.getElem?_append_right (by omega), g4]
        simp) f2
      refine ⟨t'', k1, ?_⟩
      rw [pow_step] at k2
      have : true.toNat * 2 ^ rest.length + (x - 2 ^ rest.length) = x := by simp; omega
      rw [this] at k2; exact k2

/-! ## Order statistics -/

/-- `x` is the `j`-th smallest element of `B` (from 0). -/
def IsQ (B : List Nat) (j x : Nat) : Prop := x ∈ B ∧ B.countP (· < x) ≤ j ∧ j < B.countP (· ≤ x)

omit [Profile] in
theorem countP_lo {r x : Nat} (f : Nat → Bool) (hf : ∀ y, f y = true → y < 2 ^ r) (B : List Nat) :
    (lo r B).countP f = B.countP f := by
  induction B with
  | nil => rfl
  | cons y B ih =>
    rcases Nat.lt_or_ge y (2 ^ r) with hy | hy
    · rw [lo_cons_lt B hy, List.countP_cons, List.countP_cons, ih]
    · rw [lo_cons_ge B hy, List.countP_cons, ih]
      have : f y = false := by
        cases h : f y
        · rfl
        · have := hf y h; omega
      simp [this]

omit [Profile] in
theorem countP_hi {r : Nat} (f : Nat → Bool) (hf : ∀ y, y < 2 ^ r → f y = true) (B : List Nat) :
    B.countP f = (lo r B).length + (hi r B).countP (fun y => f (y + 2 ^ r)) := by
  induction B with
  | nil => rfl
  | cons y B ih =>
    rcases Nat.lt_or_ge y (2 ^ r) with hy | hy
    · rw [lo_cons_lt B hy, hi_cons_lt B hy, List.countP_cons, ih, hf y hy]; simp; omega
    · rw [lo_cons_ge B hy, hi_cons_ge B hy, List.countP_cons, List.countP_cons, ih,
        show y - 2 ^ r + 2 ^ r = y by omega]; omega

omit [Profile] in
theorem isQ_lo {r j x : Nat} {B : List Nat} (h : IsQ (lo r B) j x) : IsQ B j x := by
  obtain ⟨h1, h2, h3⟩ := h
  obtain ⟨h4, h5⟩ := mem_lo.mp h1
  rw [countP_lo (x := x) _ (by intro y hy; simp at hy; omega)] at h2 h3
  exact ⟨h4, h2, h3⟩

omit [Profile] in
theorem isQ_hi {r j x : Nat} {B : List Nat} (hj : (lo r B).length ≤ j) (h : IsQ (hi r B) (j - (lo r B).length) x) :
    IsQ B j (x + 2 ^ r) := by
  obtain ⟨h1, h2, h3⟩ := h
  refine ⟨mem_hi.mp h1, ?_, ?_⟩
  · rw [countP_hi (r := r) _ (by intro y hy; simp; omega)]
    have : (fun y => decide (y + 2 ^ r < x + 2 ^ r)) = fun y => decide (y < x) := by
      funext y; simp
    rw [this]; omega
  · rw [countP_hi (r := r) _ (by intro y hy; simp; omega)]
    have : (fun y => decide (y + 2 ^ r ≤ x + 2 ^ r)) = fun y => decide (y ≤ x) := by
      funext y; simp
    rw [this]; omega

omit [Profile] in
theorem isQ_first {B : List Nat} {x : Nat} (h : IsQ B 0 x) : ∀ y ∈ B, x ≤ y := by
  intro y hy
  have h2 : B.countP (· < x) = 0 := by have := h.2.1; omega
  rw [List.countP_eq_zero] at h2
  have := h2 y hy
  simpa using this

omit [Profile] in
theorem isQ_last {B : List Nat} {x : Nat} (h : IsQ B (B.length - 1) x) : ∀ y ∈ B, y ≤ x := by
  have h1 := h.2.2
  have hle : B.countP (· ≤ x) ≤ B.length := List.countP_le_length
  have hpos : 0 < B.length := List.length_pos_of_mem h.1
  have : B.countP (· ≤ x) = B.length := by omega
  rw [List.countP_eq_length] at this
  intro y hy
  have := this y hy
  simpa using this

theorem quantLoop_eq {Holds : Nat → T → Nat → Prop} {k : Nat} {w0 w1 : Nat → T → R T}
    (hf : Steps Holds k (fun l b t => if b then w1 l t else w0 l t)) :
    ∀ (data : List RsVec) (S : List Nat) (level s e j p : Nat) (B : List Nat) (t : T),
    Good data S → data.length + level = k → Seg S s e B → j < B.length → Holds level t p →
    ∃ t' x, quantLoop w0 w1 data level s e j t = .ok t' ∧ Holds k t' (p * 2 ^ data.length + x) ∧ IsQ B j x
  | [], S, level, s, e, j, p, B, t, hg, hk, hs, hj, ht => by
    have : level = k := by simpa using hk
    subst this
    have hz : ∀ x ∈ B, x = 0 := fun x hx => hg x (hs.mem hx)
    refine ⟨t, 0, rfl, by simpa using ht, ?_, ?_, ?_⟩
    · have := hz _ (List.getElem_mem hj)
      rw [← this]; exact List.getElem_mem hj
    · have : B.countP (· < 0) = 0 := by rw [List.countP_eq_zero]; simp
      omega
    · have : B.countP (· ≤ 0) = B.length := by
        rw [List.countP_eq_length]; intro a ha; simp [hz a ha]
      omega
  | rs :: rest, S, level, s, e, j, p, B, t, hg, hk, hs, hj, ht => by
    have hlev : level < k := by simp at hk; omega
    have hk' : rest.length + (level + 1) = k := by simp at hk; omega
    obtain ⟨h1, h2, h3⟩ := hg
    obtain ⟨a, g1, g2, g3, g4, g5, g6, g7, g8, g9, g10⟩ := rank_zero_seg h2 hs
    have hB := length_lo_add_hi rest.length B
    simp only [quantLoop]
    rw [g1, ok_bind, g2, ok_bind, subR_of_le (by omega), ok_bind, Nat.add_sub_cancel_left]
    by_cases hc : j < (lo rest.length B).length
    · rw [if_pos hc]
      obtain ⟨t', f1, f2⟩ := hf level t p false hlev ht
      simp only [Bool.false_eq_true, if_false] at f1
      rw [f1, ok_bind]
      obtain ⟨t'', x, k1, k2, k3⟩ := quantLoop_eq hf rest _ (level + 1) _ _ j _ _ t' h3 hk' g9 hc f2
      refine ⟨t'', x, k1, ?_, isQ_lo k3⟩
      rw [pow_step] at k2; simpa using k2
    · rw [if_neg hc]
      obtain ⟨t', f1, f2⟩ := hf level t p true hlev ht
      simp only [if_true] at f1
      rw [f1, ok_bind, subR_of_le g3, ok_bind, subR_of_le g4, ok_bind]
      obtain ⟨t'', x, k1, k2, k3⟩ := quantLoop_eq hf rest _ (level + 1) _ _ (j - (lo rest.length B).length) _ _ t' h3
        hk' g10 (by omega) f2
      refine ⟨t'', x + 2 ^ rest.length, k1, ?_, isQ_hi (by omega) k3⟩
      rw [pow_step] at k2
      have : true.toNat * 2 ^ rest.length + x = x + 2 ^ rest.length := by simp; omega
      rw [this] at k2; exact k2

/-! ## Predecessor and successor -/

/-- The stored results of a search: nothing, or a value. -/
def Rep (Holds : Nat → T → Nat → Prop) (k : Nat) : Option T → Option Nat → Prop
  | none, none => True
  | some t, some x => Holds k t x
  | _, _ => False

/-- What the closures of a search do. -/
structure SearchOk (Holds : Nat → T → Nat → Prop) (full : List RsVec) (n : Nat) (ops : Search T) : Prop where
  write : Steps Holds full.length (fun l b t => ops.write (b2w b) l t)
  quant : ∀ (S B : List Nat) (level s e j p : Nat) (t : T), level ≤ full.length → Good (full.drop level) S →
    S.length = n → Seg S s e B → j < B.length → Holds level t p →
    ∃ t' x, ops.quant s e j level t = .ok t' ∧ Holds full.length t' (p * 2 ^ (full.length - level) + x) ∧ IsQ B j x

omit [Profile] in
theorem max?_eq {l : List Nat} {x : Nat} (h : x ∈ l) (h' : ∀ y ∈ l, y ≤ x) : l.max? = some x := by
  rw [List.max?_eq_some_iff]; exact ⟨h, h'⟩

omit [Profile] in
theorem min?_eq {l : List Nat} {x : Nat} (h : x ∈ l) (h' : ∀ y ∈ l, x ≤ y) : l.min? = some x := by
  rw [List.min?_eq_some_iff]; exact ⟨h, h'⟩

/-- The value answered by a search that finds `o` in the current part, else falls back to `fb`. -/
def orElse (base : Nat) (o fb : Option Nat) : Option Nat :=
  match o with
  | some x => some (base + x)
  | none => fb

/-- elements of `B` up to `c` -/
def upTo (c : Nat) (B : List Nat) : List Nat := B.filter (· ≤ c)
/-- elements of `B` from `c` -/
def downTo (c : Nat) (B : List Nat) : List Nat := B.filter (c ≤ ·)

omit [Profile] in
theorem mem_upTo {c x : Nat} {B : List Nat} : x ∈ upTo c B ↔ x ∈ B ∧ x ≤ c := by simp [upTo]
omit [Profile] in
theorem mem_downTo {c x : Nat} {B : List Nat} : x ∈ downTo c B ↔ x ∈ B ∧ c ≤ x := by simp [downTo]

omit [Profile] in
theorem max?_none_of {l : List Nat} (h : ∀ x, x ∉ l) : l.max? = none := by
  rw [List.max?_eq_none_iff]; exact List.eq_nil_iff_forall_not_mem.mpr h
omit [Profile] in
theorem min?_none_of {l : List Nat} (h : ∀ x, x ∉ l) : l.min? = none := by
  rw [List.min?_eq_none_iff]; exact List.eq_nil_iff_forall_not_mem.mpr h

omit [Profile] in
theorem upTo_lo {r c : Nat} (hc : c < 2 ^ r) (B : List Nat) : upTo c (lo r B) = upTo c B := by
  unfold upTo lo
  rw [List.filter_filter]
  apply List.filter_congr
  intro x _
  by_cases h : x ≤ c
  · simp [h]; omega
  · simp [h]

theorem predLoop_eq {Holds : Nat → T → Nat → Prop} {full : List RsVec} {n : Nat} {ops : Search T}
    (ho : SearchOk Holds full n ops) : ∀ (data : List RsVec) (S B : List Nat) (level s e p c : Nat) (t : T)
    (sv : Saved T) (fb : Option Nat),
    data = full.drop level → level ≤ full.length → Good data S → S.length = n → Seg S s e B → B ≠ [] →
    Reads ops.read data.length level c → Holds level t p →
    (∃ o, smaller ops sv = .ok o ∧ Rep Holds full.length o fb) →
    ∃ o, predLoop ops data level s e t sv = .ok o ∧
      Rep Holds full.length o (orElse (p * 2 ^ data.length) (upTo c B).max? fb)
  | [], S, B, level, s, e, p, c, t, sv, fb, hd, hl, hg, hn, hs, hB, hr, ht, hfb => by
    have hlen : full.length = level := by
      have := congrArg List.length hd
      simp at this; omega
    have hc : c = 0 := hr
    subst hc
    have hz : ∀ x ∈ B, x = 0 := fun x hx => hg x (hs.mem hx)
    have hm : (upTo 0 B).max? = some 0 := by
      apply max?_eq
      · rw [mem_upTo]
        obtain ⟨b, hb⟩ := List.exists_mem_of_ne_nil B hB
        rw [← hz b hb]; exact ⟨hb, Nat.le_refl _⟩
      · intro y hy; exact (mem_upTo.mp hy).2
    refine ⟨some t, rfl, ?_⟩
    rw [hm, hlen]
    simpa [orElse, Rep] using ht
  | rs :: rest, S, B, level, s, e, p, c, t, sv, fb, hd, hl, hg, hn, hs, hB, hr, ht, hfb => by
    have hlen : full.length = level + (rest.length + 1) := by
      have := congrArg List.length hd
      simp at this; omega
    have hlev : level < full.length := by omega
    have hd' : rest = full.drop (level + 1) := by
      have := congrArg List.tail hd
      simpa [List.tail_drop] using this
    have hg' := hg
    obtain ⟨h1, h2, h3⟩ := hg
    obtain ⟨r1, r2, r3⟩ := hr
    obtain ⟨a, g1, g2, g3, g4, g5, g6, g7, g8, g9, g10⟩ := rank_zero_seg h2 hs
    have hBl := length_lo_add_hi rest.length B
    have hSl := length_lo_add_hi rest.length S
    have hn' : (lo rest.length S ++ hi rest.length S).length = n := by rw [List.length_append, hSl, hn]
    have hsl := hs.length
    have hsle := hs.le
    simp only [predLoop]
    rw [r2, ok_bind, g1, ok_bind, g2, ok_bind, subR_of_le (by omega), ok_bind, Nat.add_sub_cancel_left]
    by_cases hc : c < 2 ^ rest.length
    · rw [if_pos (by rw [b2w_eq_zero]; simp; omega)]
      rw [if_pos hc] at r3
      by_cases hz : (lo rest.length B).length = 0
      · rw [if_pos hz]
        obtain ⟨o, o1, o2⟩ := hfb
        refine ⟨o, o1, ?_⟩
        have : (upTo c B).max? = none := by
          apply max?_none_of
          intro x hx
          rw [← upTo_lo hc, List.eq_nil_of_length_eq_zero hz] at hx
          simp [upTo] at hx
        rw [this]; exact o2
      · rw [if_neg hz]
        obtain ⟨t', f1, f2⟩ := ho.write level t p false hlev ht
        have f1' : ops.write 0#64 level t = .ok t' := f1
        rw [f1', ok_bind]
        obtain ⟨o, o1, o2⟩ := predLoop_eq ho rest _ _ (level + 1) _ _ _ c t' sv fb hd' (by omega) h3 hn' g9
          (by intro h; rw [h] at hz; simp at hz) r3 f2 hfb
        refine ⟨o, o1, ?_⟩
        rw [upTo_lo hc] at o2
        have := pow_step p rest.length 0 false
        simp at this
        simp only [Bool.toNat_false, Nat.add_zero, List.length_cons] at o2 ⊢
        rw [this] at o2; exact o2
    · have hc' : 2 ^ rest.length ≤ c := by omega
      rw [if_neg (by rw [b2w_eq_zero]; simp; omega), subR_of_le hsle, ok_bind]
      rw [if_neg hc] at r3
      by_cases hz : (lo rest.length B).length = e - s
      · rw [if_pos hz, subR_of_le (by have := List.length_pos_iff.mpr hB; omega), ok_bind]
        obtain ⟨t', x, k1, k2, k3⟩ := ho.quant S B level s e (e - s - 1) p t (by omega) (by rw [← hd]; exact hg') hn hs
          (by have := List.length_pos_iff.mpr hB; omega) ht
        rw [k1, ok_bind]
        refine ⟨some t', rfl, ?_⟩
        have hall : ∀ y ∈ B, y < 2 ^ rest.length := by
          intro y hy
          have : lo rest.length B = B := by
            apply List.filter_eq_self.mpr
            have hll : (lo rest.length B).length = B.length := by omega
            exact List.length_filter_eq_length_iff.mp hll
          rw [← this] at hy
          exact (mem_lo.mp hy).2
        have hm : (upTo c B).max? = some x := by
          apply max?_eq
          · have := hall x k3.1
            rw [mem_upTo]; exact ⟨k3.1, by omega⟩
          · intro y hy
            rw [← hsl] at k3
            exact isQ_last k3 y (mem_upTo.mp hy).1
        rw [hm]
        rw [show full.length - level = (rs :: rest).length by simp; omega] at k2
        exact k2
      · rw [if_neg hz]
        obtain ⟨t', f1, f2⟩ := ho.write level t p true hlev ht
        have f1' : ops.write 1#64 level t = .ok t' := f1
        rw [f1', ok_bind, subR_of_le g3, ok_bind, subR_of_le g4, ok_bind]
        have hpow := pow_step p rest.length 0 true
        simp only [Bool.toNat_true, Nat.add_zero, Nat.one_mul] at hpow
        -- the new fallback
        have hfb' : ∃ fb', (∃ o, smaller ops (save sv level a (a + (lo rest.length B).length) t) = .ok o ∧
              Rep Holds full.length o fb') ∧
            fb' = orElse (p * 2 ^ (rest.length + 1)) (lo rest.length B).max? fb := by
          refine ⟨_, ?_, rfl⟩
          unfold save
          by_cases hlt : a < a + (lo rest.length B).length
          · rw [if_pos hlt]
            simp only [smaller, Nat.add_sub_cancel_left]
            rw [subR_of_le (by omega), ok_bind, unwrapR_some, ok_bind]
            obtain ⟨tw, w1, w2⟩ := ho.write level t p false hlev ht
            have w1' : ops.write 0#64 level t = .ok tw := w1
            rw [w1', ok_bind]
            obtain ⟨tq, x, k1, k2, k3⟩ := ho.quant _ _ (level + 1) _ _ ((lo rest.length B).length - 1) _ tw (by omega)
              (by rw [← hd']; exact h3) hn' g9 (by omega) w2
            rw [k1, ok_bind]
            refine ⟨some tq, rfl, ?_⟩
            have hm : (lo rest.length B).max? = some x := max?_eq k3.1 (isQ_last k3)
            rw [hm]
            rw [show full.length - (level + 1) = rest.length by omega] at k2
            have := pow_step p rest.length x false
            simp only [Bool.toNat_false, Nat.zero_mul, Nat.zero_add] at this
            rw [Bool.toNat_false, this] at k2
            exact k2
          · rw [if_neg hlt]
            have hnil : lo rest.length B = [] := List.eq_nil_of_length_eq_zero (by omega)
            rw [hnil]; exact hfb
        obtain ⟨fb', hf1, hf2⟩ := hfb'
        obtain ⟨o, o1, o2⟩ := predLoop_eq ho rest _ _ (level + 1) _ _ _ (c - 2 ^ rest.length) t' _ fb' hd' (by omega) h3
          hn' g10 (by intro h; rw [h] at hBl; simp at hBl; omega) r3 f2 hf1
        refine ⟨o, o1, ?_⟩
        have hval : orElse ((2 * p + true.toNat) * 2 ^ rest.length) (upTo (c - 2 ^ rest.length) (hi rest.length B)).max? fb' =
            orElse (p * 2 ^ (rs :: rest).length) (upTo c B).max? fb := by
          cases hm : (upTo (c - 2 ^ rest.length) (hi rest.length B)).max? with
          | some x =>
            rw [List.max?_eq_some_iff] at hm
            obtain ⟨m1, m2⟩ := hm
            obtain ⟨m3, m4⟩ := mem_upTo.mp m1
            have : (upTo c B).max? = some (2 ^ rest.length + x) := by
              apply max?_eq
              · rw [mem_upTo]
                have := mem_hi.mp m3
                rw [Nat.add_comm] at this
                exact ⟨this, by omega⟩
              · intro y hy
                obtain ⟨y1, y2⟩ := mem_upTo.mp hy
                rcases Nat.lt_or_ge y (2 ^ rest.length) with hy' | hy'
                · omega
                · have := m2 (y - 2 ^ rest.length) (by
                    rw [mem_upTo, mem_hi, Nat.sub_add_cancel hy']; exact ⟨y1, by omega⟩)
                  omega
            rw [this]
            simp only [orElse, Bool.toNat_true]
            rw [hpow]; simp; omega
          | none =>
            have hno : ∀ y ∈ B, y ≤ c → y < 2 ^ rest.length := by
              intro y hy hyc
              rcases Nat.lt_or_ge y (2 ^ rest.length) with hy' | hy'
              · exact hy'
              · exfalso
                rw [List.max?_eq_none_iff] at hm
                have : y - 2 ^ rest.length ∈ upTo (c - 2 ^ rest.length) (hi rest.length B) := by
                  rw [mem_upTo, mem_hi, Nat.sub_add_cancel hy']; exact ⟨hy, by omega⟩
                rw [hm] at this; simp at this
            have hsame : upTo c B = lo rest.length B := by
              unfold upTo lo
              apply List.filter_congr
              intro x hx
              by_cases hxc : x ≤ c
              · simp [hxc, hno x hx hxc]
              · simp [hxc]; omega
            rw [hsame, hf2]; rfl
        rw [← hval]; exact o2

omit [Profile] in
theorem downTo_hi {r c : Nat} (hc : 2 ^ r ≤ c) {x : Nat} {B : List Nat} :
    x ∈ downTo (c - 2 ^ r) (hi r B) ↔ x + 2 ^ r ∈ downTo c B := by
  rw [mem_downTo, mem_downTo, mem_hi]
  constructor
  · rintro ⟨h1, h2⟩; exact ⟨h1, by omega⟩
  · rintro ⟨h1, h2⟩; exact ⟨h1, by omega⟩

theorem succLoop_eq {Holds : Nat → T → Nat → Prop} {full : List RsVec} {n : Nat} {ops : Search T}
    (ho : SearchOk Holds full n ops) : ∀ (data : List RsVec) (S B : List Nat) (level s e p c : Nat) (t : T)
    (sv : Saved T) (fb : Option Nat),
    data = full.drop level → level ≤ full.length → Good data S → S.length = n → Seg S s e B → B ≠ [] →
    Reads ops.read data.length level c → Holds level t p →
    (∃ o, larger ops sv = .ok o ∧ Rep Holds full.length o fb) →
    ∃ o, succLoop ops data level s e t sv = .ok o ∧
      Rep Holds full.length o (orElse (p * 2 ^ data.length) (downTo c B).min? fb)
  | [], S, B, level, s, e, p, c, t, sv, fb, hd, hl, hg, hn, hs, hB, hr, ht, hfb => by
    have hlen : full.length = level := by
      have := congrArg List.length hd
      simp at this; omega
    have hc : c = 0 := hr
    subst hc
    have hz : ∀ x ∈ B, x = 0 := fun x hx => hg x (hs.mem hx)
    have hm : (downTo 0 B).min? = some 0 := by
      apply min?_eq
      · rw [mem_downTo]
        obtain ⟨b, hb⟩ := List.exists_mem_of_ne_nil B hB
        rw [← hz b hb]; exact ⟨hb, Nat.le_refl _⟩
      · intro y hy; exact (mem_downTo.mp hy).2
    refine ⟨some t, rfl, ?_⟩
    rw [hm, hlen]
    simpa [orElse, Rep] using ht
  | rs :: rest, S, B, level, s, e, p, c, t, sv, fb, hd, hl, hg, hn, hs, hB, hr, ht, hfb => by
    have hlen : full.length = level + (rest.length + 1) := by
      have := congrArg List.length hd
      simp at this; omega
    have hlev : level < full.length := by omega
    have hd' : rest = full.drop (level + 1) := by
      have := congrArg List.tail hd
      simpa [List.tail_drop] using this
    have hg' := hg
    obtain ⟨h1, h2, h3⟩ := hg
    obtain ⟨r1, r2, r3⟩ := hr
    obtain ⟨a, g1, g2, g3, g4, g5, g6, g7, g8, g9, g10⟩ := rank_zero_seg h2 hs
    have hBl := length_lo_add_hi rest.length B
    have hSl := length_lo_add_hi rest.length S
    have hn' : (lo rest.length S ++ hi rest.length S).length = n := by rw [List.length_append, hSl, hn]
    have hsl := hs.length
    have hsle := hs.le
    have hposB := List.length_pos_iff.mpr hB
    simp only [succLoop]
    rw [r2, ok_bind, g1, ok_bind, g2, ok_bind, subR_of_le (by omega), ok_bind, Nat.add_sub_cancel_left]
    by_cases hc : c < 2 ^ rest.length
    · rw [if_pos (by rw [b2w_eq_zero]; simp; omega)]
      rw [if_pos hc] at r3
      by_cases hz : (lo rest.length B).length = 0
      · rw [if_pos hz]
        obtain ⟨t', x, k1, k2, k3⟩ := ho.quant S B level s e 0 p t (by omega) (by rw [← hd]; exact hg') hn hs hposB ht
        rw [k1, ok_bind]
        refine ⟨some t', rfl, ?_⟩
        have hall : ∀ y ∈ B, 2 ^ rest.length ≤ y := by
          intro y hy
          rcases Nat.lt_or_ge y (2 ^ rest.length) with h | h
          · exfalso
            have : y ∈ lo rest.length B := mem_lo.mpr ⟨hy, h⟩
            rw [List.eq_nil_of_length_eq_zero hz] at this; simp at this
          · exact h
        have hm : (downTo c B).min? = some x := by
          apply min?_eq
          · have := hall x k3.1
            rw [mem_downTo]; exact ⟨k3.1, by omega⟩
          · intro y hy
            exact isQ_first k3 y (mem_downTo.mp hy).1
        rw [hm]
        rw [show full.length - level = (rs :: rest).length by simp; omega] at k2
        exact k2
      · rw [if_neg hz]
        obtain ⟨t', f1, f2⟩ := ho.write level t p false hlev ht
        have f1' : ops.write 0#64 level t = .ok t' := f1
        rw [subR_of_le g3, ok_bind, subR_of_le g4, ok_bind, f1', ok_bind]
        have hpow := pow_step p rest.length 0 false
        simp only [Bool.toNat_false, Nat.add_zero, Nat.zero_mul] at hpow
        have hfb' : ∃ fb', (∃ o, larger ops (save sv level (rs.rank0 + (s - a)) (rs.rank0 + (e - (a + (lo rest.length B).length))) t) = .ok o ∧
              Rep Holds full.length o fb') ∧
            fb' = orElse (p * 2 ^ (rest.length + 1) + 2 ^ rest.length) (hi rest.length B).min? fb := by
          refine ⟨_, ?_, rfl⟩
          unfold save
          by_cases hlt : rs.rank0 + (s - a) < rs.rank0 + (e - (a + (lo rest.length B).length))
          · rw [if_pos hlt]
            simp only [larger]
            rw [unwrapR_some, ok_bind]
            obtain ⟨tw, w1, w2⟩ := ho.write level t p true hlev ht
            have w1' : ops.write 1#64 level t = .ok tw := w1
            rw [w1', ok_bind]
            obtain ⟨tq, x, k1, k2, k3⟩ := ho.quant _ _ (level + 1) _ _ 0 _ tw (by omega)
              (by rw [← hd']; exact h3) hn' g10 (by omega) w2
            rw [k1, ok_bind]
            refine ⟨some tq, rfl, ?_⟩
            have hm : (hi rest.length B).min? = some x := min?_eq k3.1 (isQ_first k3)
            rw [hm]
            rw [show full.length - (level + 1) = rest.length by omega] at k2
            have := pow_step p rest.length x true
            simp only [Bool.toNat_true, Nat.one_mul] at this
            rw [Bool.toNat_true, this, ← Nat.add_assoc] at k2
            exact k2
          · rw [if_neg hlt]
            have hnil : hi rest.length B = [] := List.eq_nil_of_length_eq_zero (by omega)
            rw [hnil]; exact hfb
        obtain ⟨fb', hf1, hf2⟩ := hfb'
        obtain ⟨o, o1, o2⟩ := succLoop_eq ho rest _ _ (level + 1) _ _ _ c t' _ fb' hd' (by omega) h3
          hn' g9 (by intro h; rw [h] at hz; simp at hz) r3 f2 hf1
        refine ⟨o, o1, ?_⟩
        have hval : orElse ((2 * p + false.toNat) * 2 ^ rest.length) (downTo c (lo rest.length B)).min? fb' =
            orElse (p * 2 ^ (rs :: rest).length) (downTo c B).min? fb := by
          cases hm : (downTo c (lo rest.length B)).min? with
          | some x =>
            rw [List.min?_eq_some_iff] at hm
            obtain ⟨m1, m2⟩ := hm
            obtain ⟨m3, m4⟩ := mem_downTo.mp m1
            have m5 := mem_lo.mp m3
            have : (downTo c B).min? = some x := by
              apply min?_eq
              · rw [mem_downTo]; exact ⟨m5.1, by omega⟩
              · intro y hy
                obtain ⟨y1, y2⟩ := mem_downTo.mp hy
                rcases Nat.lt_or_ge y (2 ^ rest.length) with hy' | hy'
                · exact m2 y (by rw [mem_downTo, mem_lo]; exact ⟨⟨y1, hy'⟩, y2⟩)
                · omega
            rw [this]
            simp only [orElse, Bool.toNat_false, Nat.add_zero]
            rw [hpow]; simp
          | none =>
            have hno : ∀ y ∈ B, c ≤ y → 2 ^ rest.length ≤ y := by
              intro y hy hyc
              rcases Nat.lt_or_ge y (2 ^ rest.length) with hy' | hy'
              · exfalso
                rw [List.min?_eq_none_iff] at hm
                have : y ∈ downTo c (lo rest.length B) := by
                  rw [mem_downTo, mem_lo]; exact ⟨⟨hy, hy'⟩, hyc⟩
                rw [hm] at this; simp at this
              · exact hy'
            rw [hf2]
            cases hh : (hi rest.length B).min? with
            | none =>
              rw [List.min?_eq_none_iff] at hh
              have : (downTo c B).min? = none := by
                apply min?_none_of
                intro y hy
                obtain ⟨y1, y2⟩ := mem_downTo.mp hy
                have h3 := hno y y1 y2
                have : y - 2 ^ rest.length ∈ hi rest.length B := by
                  rw [mem_hi, Nat.sub_add_cancel h3]; exact y1
                rw [hh] at this; simp at this
              rw [this]; rfl
            | some x =>
              rw [List.min?_eq_some_iff] at hh
              obtain ⟨m1, m2⟩ := hh
              have : (downTo c B).min? = some (2 ^ rest.length + x) := by
                apply min?_eq
                · rw [mem_downTo]
                  have := mem_hi.mp m1
                  rw [Nat.add_comm] at this
                  exact ⟨this, by omega⟩
                · intro y hy
                  obtain ⟨y1, y2⟩ := mem_downTo.mp hy
                  have h3 := hno y y1 y2
                  have := m2 (y - 2 ^ rest.length) (by rw [mem_hi, Nat.sub_add_cancel h3]; exact y1)
                  omega
              rw [this]
              simp only [orElse, List.length_cons]
              rw [Nat.add_assoc]
        rw [← hval]; exact o2
    · have hc' : 2 ^ rest.length ≤ c := by omega
      rw [if_neg (by rw [b2w_eq_zero]; simp; omega), subR_of_le hsle, ok_bind]
      rw [if_neg hc] at r3
      have hmem : ∀ {x}, x ∈ downTo (c - 2 ^ rest.length) (hi rest.length B) ↔ x + 2 ^ rest.length ∈ downTo c B :=
        fun {x} => downTo_hi hc'
      by_cases hz : (lo rest.length B).length = e - s
      · rw [if_pos hz]
        obtain ⟨o, o1, o2⟩ := hfb
        refine ⟨o, o1, ?_⟩
        have : (downTo c B).min? = none := by
          apply min?_none_of
          intro x hx
          have hx' := mem_downTo.mp hx
          have h2 := hmem (x := x - 2 ^ rest.length)
          rw [Nat.sub_add_cancel (by omega)] at h2
          have h3 := h2.mpr hx
          rw [List.eq_nil_of_length_eq_zero (l := hi rest.length B) (by omega)] at h3
          simp [downTo] at h3
        rw [this]; exact o2
      · rw [if_neg hz]
        obtain ⟨t', f1, f2⟩ := ho.write level t p true hlev ht
        have f1' : ops.write 1#64 level t = .ok t' := f1
        rw [f1', ok_bind, subR_of_le g3, ok_bind, subR_of_le g4, ok_bind]
        obtain ⟨o, o1, o2⟩ := succLoop_eq ho rest _ _ (level + 1) _ _ _ (c - 2 ^ rest.length) t' sv fb hd' (by omega) h3
          hn' g10 (by intro h; rw [h] at hBl; simp at hBl; omega) r3 f2 hfb
        refine ⟨o, o1, ?_⟩
        have hpow := pow_step p rest.length 0 true
        simp only [Bool.toNat_true, Nat.add_zero, Nat.one_mul] at hpow
        have hval : orElse ((2 * p + true.toNat) * 2 ^ rest.length) (downTo (c - 2 ^ rest.length) (hi rest.length B)).min? fb =
            orElse (p * 2 ^ (rs :: rest).length) (downTo c B).min? fb := by
          cases hm : (downTo (c - 2 ^ rest.length) (hi rest.length B)).min? with
          | some x =>
            rw [List.min?_eq_some_iff] at hm
            obtain ⟨m1, m2⟩ := hm
            have : (downTo c B).min? = some (2 ^ rest.length + x) := by
              apply min?_eq
              · have := hmem.mp m1
                rwa [Nat.add_comm] at this
              · intro y hy
                obtain ⟨y1, y2⟩ := mem_downTo.mp hy
                have := m2 (y - 2 ^ rest.length) (by rw [hmem, Nat.sub_add_cancel (by omega)]; exact hy)
                omega
            rw [this]
            simp only [orElse, Bool.toNat_true]
            rw [hpow]; simp; omega
          | none =>
            have : (downTo c B).min? = none := by
              apply min?_none_of
              intro y hy
              rw [List.min?_eq_none_iff] at hm
              have hy' := mem_downTo.mp hy
              have h2 := hmem (x := y - 2 ^ rest.length)
              rw [Nat.sub_add_cancel (by omega), hm] at h2
              simpa using h2.mpr hy
            rw [this]; rfl
        rw [← hval]; exact o2

end Vers.WM
