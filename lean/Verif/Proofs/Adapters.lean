import Verif.Proofs.IterLoop
import Verif.Model.Adapters
import Verif.SpecAdapters

/-! # Adaptors over an iterator that simulates a list -/

namespace Vers

open Spec

variable {σ α : Type}

theorem forLoop_of_sim_weak {next : σ → R (σ × Option α)} {rel : σ → List α → Prop}
    (h : ∀ s l, rel s l → ∃ s', next s = .ok (s', l.head?) ∧ (l ≠ [] → rel s' l.tail)) :
    ∀ (l : List α) (s : σ), rel s l → LoopsOver next s l := by
  intro l
  induction l with
  | nil =>
    intro s hr
    obtain ⟨s', h1, -⟩ := h s [] hr
    unfold LoopsOver forLoop
    rw [h1]; rfl
  | cons x l ih =>
    intro s hr
    obtain ⟨s', h1, h2⟩ := h s (x :: l) hr
    have := ih s' (h2 (by simp))
    unfold LoopsOver at this ⊢
    rw [List.length_cons]
    unfold forLoop
    rw [h1, ok_bind]
    simp only [List.head?_cons]
    rw [this]; rfl

theorem forLoop_of_sim_back_weak {next : σ → R (σ × Option α)} {rel : σ → List α → Prop}
    (h : ∀ s l, rel s l → ∃ s', next s = .ok (s', l.getLast?) ∧ (l ≠ [] → rel s' l.dropLast)) (l : List α) (s : σ)
    (hr : rel s l) : LoopsOver next s l.reverse := by
  refine forLoop_of_sim_weak (rel := fun s l => rel s l.reverse) ?_ l.reverse s (by simpa using hr)
  intro s l hr
  obtain ⟨s', h1, h2⟩ := h s _ hr
  refine ⟨s', ?_, fun hl => ?_⟩
  · rw [h1, List.getLast?_reverse]
  · have := h2 (by simpa using hl)
    rwa [List.dropLast_reverse] at this

theorem yieldsBoth_of_sim {next nextBack : σ → R (σ × Option α)} {rel : σ → List α → Prop}
    (h1 : ∀ s l, rel s l → ∃ s', next s = .ok (s', l.head?) ∧ (l ≠ [] → rel s' l.tail))
    (h2 : ∀ s l, rel s l → ∃ s', nextBack s = .ok (s', l.getLast?) ∧ (l ≠ [] → rel s' l.dropLast)) {l : List α} {s : σ}
    (hr : rel s l) : YieldsBoth next nextBack s l := by
  refine ⟨forLoop_of_sim_weak h1 l s hr, forLoop_of_sim_back_weak h2 l s hr, fun ops => ?_⟩
  induction ops generalizing l s with
  | nil => intro _; rfl
  | cons b ops ih =>
    intro hlen
    have main : ∀ (m : List α) (o : Option α) (s' : σ), (l ≠ [] → rel s' m ∧ l.length ≤ m.length + 1) → l = [] ∧ m = [] ∨ l ≠ [] →
        calls next nextBack ops s' = .ok (listCalls ops m) := by
      intro m o s' hm hc
      rcases hc with ⟨rfl, rfl⟩ | hc
      · simp at hlen
        subst hlen; rfl
      · obtain ⟨m1, m2⟩ := hm hc
        rw [List.length_cons] at hlen
        exact ih m1 (by omega)
    have hcase : ∀ f : List α → List α, f [] = [] → l = [] ∧ f l = [] ∨ l ≠ [] := by
      intro f hf
      by_cases hl : l = []
      · exact Or.inl ⟨hl, by rw [hl, hf]⟩
      · exact Or.inr hl
    cases b with
    | true =>
      obtain ⟨s', g1, g2⟩ := h1 s l hr
      have := main l.tail l.head? s' (fun hl => ⟨g2 hl, by rw [List.length_tail]; omega⟩) (hcase List.tail rfl)
      unfold calls
      simp only [if_true]
      rw [g1, ok_bind, this]; rfl
    | false =>
      obtain ⟨s', g1, g2⟩ := h2 s l hr
      have := main l.dropLast l.getLast? s' (fun hl => ⟨g2 hl, by rw [List.length_dropLast]; omega⟩) (hcase List.dropLast rfl)
      unfold calls
      simp only [Bool.false_eq_true, if_false]
      rw [g1, ok_bind, this]; rfl

/-- A loop that sees the elements of `l` and then panics. -/
theorem forLoop_of_sim_error {next : σ → R (σ × Option α)} {rel : σ → List α → Prop} {e : Panic}
    (h : ∀ s x l, rel s (x :: l) → ∃ s', next s = .ok (s', some x) ∧ rel s' l)
    (h0 : ∀ s, rel s [] → next s = .error e) :
    ∀ (l : List α) (s : σ) (fuel : Nat), rel s l → l.length < fuel → forLoop next fuel s = .error e := by
  intro l
  induction l with
  | nil =>
    intro s fuel hr hf
    cases fuel with
    | zero => simp at hf
    | succ fuel => unfold forLoop; rw [h0 s hr]; rfl
  | cons x l ih =>
    intro s fuel hr hf
    cases fuel with
    | zero => simp at hf
    | succ fuel =>
      obtain ⟨s', h1, h2⟩ := h s x l hr
      have := ih s' fuel h2 (by simpa using hf)
      unfold forLoop
      rw [h1, ok_bind]
      simp only
      rw [this]; rfl

/-! ## Every k-th element -/

theorem everyFrom_shift (k : Nat) (l : List α) (i : Nat) :
    ((l.zipIdx (i + k)).filter (fun p => p.2 % k = 0)).map (·.1) =
      ((l.zipIdx i).filter (fun p => p.2 % k = 0)).map (·.1) := by
  induction l generalizing i with
  | nil => rfl
  | cons x l ih =>
    have := ih (i + 1)
    rw [show i + 1 + k = i + k + 1 by omega] at this
    simp only [List.zipIdx_cons, List.filter_cons, Nat.add_mod_right]
    split <;> simp [this]

theorem everyFrom_shift_mul (k q : Nat) (l : List α) (i : Nat) :
    ((l.zipIdx (i + k * q)).filter (fun p => p.2 % k = 0)).map (·.1) =
      ((l.zipIdx i).filter (fun p => p.2 % k = 0)).map (·.1) := by
  induction q with
  | zero => rfl
  | succ q ih => rw [Nat.mul_succ, ← Nat.add_assoc, everyFrom_shift, ih]

theorem everyFrom_skip {k : Nat} (l : List α) : ∀ (m i : Nat), i + m = k → 0 < i →
    ((l.zipIdx i).filter (fun p => p.2 % k = 0)).map (·.1) = every k (l.drop m) := by
  induction l with
  | nil => intro m i _ _; simp [every]
  | cons x l ih =>
    intro m i hm hi
    cases m with
    | zero =>
      have : i = 0 + k := by omega
      rw [this, everyFrom_shift]; rfl
    | succ m =>
      rw [List.zipIdx_cons, List.filter_cons, if_neg (by
        have : i % k = i := Nat.mod_eq_of_lt (by omega)
        simp [this]; omega), ih m (i + 1) (by omega) (by omega)]
      rfl

theorem every_nil (k : Nat) : every k ([] : List α) = [] := rfl

theorem every_length_le (k : Nat) (l : List α) : (every k l).length ≤ l.length := by
  unfold every
  rw [List.length_map]
  exact Nat.le_trans (List.length_filter_le _ _) (by simp)

theorem every_cons {k : Nat} (hk : 0 < k) (x : α) (l : List α) : every k (x :: l) = x :: every k (l.drop (k - 1)) := by
  unfold every
  rw [List.zipIdx_cons, List.filter_cons, if_pos (by simp), List.map_cons, everyFrom_skip l (k - 1) (0 + 1) (by omega) (by omega)]
  rfl

theorem every_append {k : Nat} (a b : List α) (h : k ∣ a.length) : every k (a ++ b) = every k a ++ every k b := by
  obtain ⟨q, hq⟩ := h
  unfold every
  rw [List.zipIdx_append, List.filter_append, List.map_append, hq, everyFrom_shift_mul]

theorem every_short {k : Nat} (hk : 0 < k) {l : List α} (h0 : l ≠ []) (hl : l.length ≤ k) : every k l = [l.head h0] := by
  cases l with
  | nil => exact absurd rfl h0
  | cons x l =>
    rw [List.length_cons] at hl
    rw [every_cons hk, List.drop_of_length_le (by omega), every_nil]; rfl

theorem every_split {k m : Nat} (hk : 0 < k) {l : List α} (hd : k ∣ m) (hm : m < l.length) (h2 : l.length ≤ m + k) :
    every k l = every k (l.take m) ++ [l[m]] := by
  have e : l.drop m = l[m] :: l.drop (m + 1) := List.drop_eq_getElem_cons hm
  conv => lhs; rw [← List.take_append_drop m l]
  rw [every_append _ _ (by rw [List.length_take, Nat.min_eq_left (by omega)]; exact hd), e, every_cons hk,
    List.drop_drop, List.drop_of_length_le (by omega), every_nil]

/-- the last one of them, and the others -/
theorem every_last {k : Nat} (hk : 0 < k) {l : List α} (h0 : 0 < l.length) :
    every k l = every k (l.take (k * ((l.length - 1) / k))) ++ [l[k * ((l.length - 1) / k)]'(by
      have := Nat.mul_div_le (l.length - 1) k; omega)] := by
  have h1 := Nat.mul_div_le (l.length - 1) k
  have h2 := Nat.lt_mul_div_succ (l.length - 1) hk
  rw [Nat.mul_succ] at h2
  exact every_split hk (Nat.dvd_mul_right _ _) (by omega) (by omega)

/-! ## Simulation -/

/-- The iterator `d` behaves as a list, where `nth` may be called if `P` and `nth_back` if `Q`. After `nth`
or `nth_back` beyond the end the state may be anything. -/
structure Sim (d : DeIter σ α) (rel : σ → List α → Prop) (P Q : List α → Nat → Prop) : Prop where
  next : ∀ {s l}, rel s l → ∃ s', d.next s = .ok (s', l.head?) ∧ rel s' l.tail
  nextBack : ∀ {s l}, rel s l → ∃ s', d.nextBack s = .ok (s', l.getLast?) ∧ rel s' l.dropLast
  nth : ∀ {s l n}, rel s l → P l n → ∃ s', d.nth s n = .ok (s', l[n]?) ∧ (n < l.length → rel s' (l.drop (n + 1)))
  nthBack : ∀ {s l n}, rel s l → Q l n → ∃ s', d.nthBack s n = .ok (s', l.reverse[n]?) ∧
    (n < l.length → rel s' (l.take (l.length - (n + 1))))
  len : ∀ {s l}, rel s l → d.len s = l.length

namespace Sim
variable {d : DeIter σ α} {rel : σ → List α → Prop} {P Q : List α → Nat → Prop}

theorem rev (h : Sim d rel P Q) :
    Sim d.rev (fun s l => rel s l.reverse) (fun l n => Q l.reverse n) (fun l n => P l.reverse n) where
  next := by
    intro s l hr
    obtain ⟨s', h1, h2⟩ := h.nextBack hr
    exact ⟨s', by rw [List.getLast?_reverse] at h1; exact h1, by rwa [List.dropLast_reverse] at h2⟩
  nextBack := by
    intro s l hr
    obtain ⟨s', h1, h2⟩ := h.next hr
    exact ⟨s', by rw [List.head?_reverse] at h1; exact h1, by rwa [List.tail_reverse] at h2⟩
  nth := by
    intro s l n hr hq
    obtain ⟨s', h1, h2⟩ := h.nthBack hr hq
    refine ⟨s', by rw [List.reverse_reverse] at h1; exact h1, fun hn => ?_⟩
    have := h2 (by simpa using hn)
    rwa [List.length_reverse, ← List.reverse_drop] at this
  nthBack := by
    intro s l n hr hp
    obtain ⟨s', h1, h2⟩ := h.nth hr hp
    refine ⟨s', h1, fun hn => ?_⟩
    have := h2 (by simpa using hn)
    rwa [List.drop_reverse] at this
  len := by
    intro s l hr
    have := h.len hr
    rw [List.length_reverse] at this
    exact this

theorem skip (h : Sim d rel P Q) {s : σ} {l : List α} (hr : rel s l) (n : Nat)
    (hn : n = 0 ∨ ∀ j, j ≤ l.length - n → P (l.take (l.length - j)) n) : Skips d s l n := by
  refine yieldsBoth_of_sim (rel := fun s m => ∃ l, rel s.1 l ∧
    (s.2 = 0 ∨ ∀ j, j ≤ l.length - s.2 → P (l.take (l.length - j)) s.2) ∧ m = l.drop s.2) ?_ ?_ ⟨l, hr, hn, rfl⟩
  · rintro ⟨s, n⟩ m ⟨l, hr, hn, rfl⟩
    unfold DeIter.skipNext
    simp only
    by_cases h0 : n = 0
    · subst h0
      obtain ⟨s', h1, h2⟩ := h.next hr
      rw [if_neg (by omega), h1, ok_bind]
      exact ⟨_, rfl, fun _ => ⟨l.tail, h2, Or.inl rfl, rfl⟩⟩
    · rw [if_pos (by omega)]
      have hp := (hn.resolve_left h0) 0 (Nat.zero_le _)
      rw [Nat.sub_zero, List.take_length] at hp
      obtain ⟨s', h1, h2⟩ := h.nth hr hp
      rw [h1, ok_bind, List.head?_drop]
      refine ⟨_, rfl, fun hne => ⟨l.drop (n + 1), h2 ?_, Or.inl rfl, ?_⟩⟩
      · have := List.length_pos_iff.mpr hne
        rw [List.length_drop] at this
        omega
      · rw [List.tail_drop]; rfl
  · rintro ⟨s, n⟩ m ⟨l, hr, hn, rfl⟩
    unfold DeIter.skipNextBack
    simp only at hn ⊢
    rw [h.len hr]
    by_cases h0 : n < l.length
    · rw [if_pos (by omega)]
      obtain ⟨s', h1, h2⟩ := h.nextBack hr
      rw [h1, ok_bind]
      refine ⟨(s', n), ?_, fun _ => ⟨l.dropLast, h2, ?_, ?_⟩⟩
      · rw [List.getLast?_drop, if_neg (by omega)]; rfl
      · rcases hn with hn | hn
        · exact Or.inl hn
        · refine Or.inr fun j hj => ?_
          simp only [List.length_dropLast] at hj ⊢
          have := hn (j + 1) (by omega)
          rw [List.dropLast_eq_take, List.take_take, Nat.min_eq_left (by omega), show l.length - 1 - j = l.length - (j + 1) by omega]
          exact this
      · rw [List.dropLast_eq_take, List.dropLast_eq_take, List.length_drop, List.drop_take]
        congr 1; omega
    · rw [if_neg (by omega), List.drop_of_length_le (by omega)]
      exact ⟨_, rfl, fun hne => absurd rfl hne⟩

theorem take (h : Sim d rel P Q) (hQ : ∀ l n, n < l.length → Q l n) (hQ0 : Q [] 0) {s : σ} {l : List α}
    (hr : rel s l) (n : Nat) : Takes d s l n := by
  refine yieldsBoth_of_sim (rel := fun s m => ∃ l, rel s.1 l ∧ m = l.take s.2) ?_ ?_ ⟨l, hr, rfl⟩
  · rintro ⟨s, n⟩ m ⟨l, hr, rfl⟩
    unfold DeIter.takeNext
    simp only
    cases n with
    | zero => exact ⟨_, rfl, fun hne => absurd rfl hne⟩
    | succ n =>
      rw [if_pos (by omega)]
      obtain ⟨s', h1, h2⟩ := h.next hr
      rw [h1, ok_bind]
      refine ⟨(s', n), ?_, fun _ => ⟨l.tail, h2, ?_⟩⟩
      · cases l <;> rfl
      · cases l <;> simp
  · rintro ⟨s, n⟩ m ⟨l, hr, rfl⟩
    unfold DeIter.takeNextBack
    simp only
    by_cases h0 : n = 0
    · subst h0; exact ⟨_, rfl, fun hne => absurd rfl hne⟩
    rw [if_neg h0, h.len hr]
    have hq : Q l (l.length - n) := by
      by_cases hl : l = []
      · subst hl; simpa using hQ0
      · have := List.length_pos_iff.mpr hl
        exact hQ _ _ (by omega)
    obtain ⟨s', h1, h2⟩ := h.nthBack hr hq
    rw [h1, ok_bind]
    refine ⟨(s', n - 1), ?_, fun hne => ⟨_, h2 ?_, ?_⟩⟩
    · congr 2
      by_cases hl : l = []
      · subst hl; simp
      · have := List.length_pos_iff.mpr hl
        rw [List.getElem?_reverse (by omega), List.getLast?_eq_getElem?, List.length_take, List.getElem?_take,
          if_pos (by omega), show l.length - 1 - (l.length - n) = min n l.length - 1 by omega]
    · have := List.length_pos_iff.mpr hne
      rw [List.length_take] at this
      omega
    · rw [List.dropLast_eq_take, List.length_take, List.take_take, List.take_take]
      congr 1; omega

theorem step (h : Sim d rel P Q) (hP : ∀ l n, n < l.length → P l n) (hQ : ∀ l n, n < l.length → Q l n) {s : σ} {l : List α}
    (hr : rel s l) {k : Nat} (hk : 0 < k) (hP0 : P [] 0) (hQ0 : Q [] (k - 1))
    (hPe : ∀ i b, k * i + 1 + b ≤ l.length → b < k → P ((l.drop (k * i + 1)).take b) (k - 1))
    (hQe : ∀ i b, k * i + 1 + b ≤ l.length → b < k → Q ((l.drop (k * i + 1)).take b) b) : Steps d s l k := by
  refine yieldsBoth_of_sim (rel := fun s m =>
    (s.2 = true ∧ ∃ b, b ≤ l.length ∧ rel s.1 (l.take b) ∧ m = every k (l.take b)) ∨
    (s.2 = false ∧ ∃ i b, k * i + 1 + b ≤ l.length ∧ rel s.1 ((l.drop (k * i + 1)).take b) ∧
      m = every k (((l.drop (k * i + 1)).take b).drop (k - 1)))) ?_ ?_
    (Or.inl ⟨rfl, l.length, Nat.le_refl _, by rwa [List.take_length], by rw [List.take_length]⟩)
  · rintro ⟨s, f⟩ m (⟨rfl, b, hb, hr, rfl⟩ | ⟨rfl, i, b, hb, hr, rfl⟩)
    · unfold DeIter.stepNext
      simp only [if_true] at hr ⊢
      have hlen : (l.take b).length = b := by rw [List.length_take]; omega
      have hp : P (l.take b) 0 := by
        by_cases h0 : b = 0
        · subst h0; exact hP0
        · exact hP _ _ (by omega)
      obtain ⟨s', h1, h2⟩ := h.nth hr hp
      rw [h1, ok_bind]
      have e : (l.take b).drop 1 = (l.drop (k * 0 + 1)).take (b - 1) := by
        rw [Nat.mul_zero, Nat.zero_add, List.drop_take]
      rw [Nat.zero_add, e] at h2
      have e' : (l.take b).tail = (l.drop (k * 0 + 1)).take (b - 1) := by rw [← e, List.drop_one]
      clear hr h1 e
      cases hm : l.take b with
      | nil => exact ⟨(s', false), rfl, fun hne => absurd rfl hne⟩
      | cons x t =>
        rw [hm] at hlen h2 e'
        rw [List.length_cons] at hlen h2
        refine ⟨(s', false), by rw [every_cons hk]; rfl, fun _ => Or.inr ⟨rfl, 0, b - 1, by omega, h2 (by omega), ?_⟩⟩
        rw [every_cons hk, List.tail_cons, ← e', List.tail_cons]
    · unfold DeIter.stepNext
      simp only [Bool.false_eq_true, if_false] at hr ⊢
      have hlen : ((l.drop (k * i + 1)).take b).length = b := by rw [List.length_take, List.length_drop]; omega
      by_cases hkb : b < k
      · obtain ⟨s', h1, -⟩ := h.nth hr (hPe i b hb hkb)
        have e : ((l.drop (k * i + 1)).take b).drop (k - 1) = [] := List.drop_of_length_le (by omega)
        rw [h1, ok_bind, e, List.getElem?_eq_none (by omega)]
        exact ⟨(s', false), rfl, fun hne => absurd rfl hne⟩
      · obtain ⟨s', h1, h2⟩ := h.nth hr (hP _ (k - 1) (by omega))
        rw [h1, ok_bind]
        have e2 : ((l.drop (k * i + 1)).take b).drop (k - 1) = ((l.drop (k * i + 1)).take b)[k - 1] ::
            ((l.drop (k * i + 1)).take b).drop (k - 1 + 1) := List.drop_eq_getElem_cons (by omega)
        have e3 : ((l.drop (k * i + 1)).take b).drop (k - 1 + 1) = (l.drop (k * (i + 1) + 1)).take (b - k) := by
          rw [List.drop_take, List.drop_drop, show k * i + 1 + (k - 1 + 1) = k * (i + 1) + 1 by rw [Nat.mul_succ]; omega,
            show b - (k - 1 + 1) = b - k by omega]
        rw [e3] at e2 h2
        refine ⟨(s', false), ?_, fun _ => Or.inr ⟨rfl, i + 1, b - k, ?_, h2 (by omega), ?_⟩⟩
        · rw [e2, every_cons hk, List.getElem?_eq_getElem (by omega)]; rfl
        · rw [Nat.mul_succ]; omega
        · rw [e2, every_cons hk, List.tail_cons]
  · rintro ⟨s, f⟩ m (⟨rfl, b, hb, hr, rfl⟩ | ⟨rfl, i, b, hb, hr, rfl⟩)
    · unfold DeIter.stepNextBack DeIter.stepBackIndex
      simp only [if_true] at hr ⊢
      rw [h.len hr]
      have hlen : (l.take b).length = b := by rw [List.length_take]; omega
      rw [hlen]
      by_cases h0 : b = 0
      · subst h0
        simp only [Nat.zero_mod, if_true, List.take_zero] at hr ⊢
        obtain ⟨s', h1, -⟩ := h.nthBack hr hQ0
        rw [h1, ok_bind]
        exact ⟨(s', true), rfl, fun hne => absurd rfl hne⟩
      · have hm := every_last hk (l := l.take b) (by omega)
        have h1 := Nat.mul_div_le (b - 1) k
        have key : b - ((if b % k = 0 then k - 1 else b % k - 1) + 1) = k * ((b - 1) / k) ∧
            (if b % k = 0 then k - 1 else b % k - 1) < b := by
          have a1 := Nat.div_add_mod b k
          have a4 := Nat.mod_lt b hk
          generalize b / k = q at a1
          generalize b % k = r at a1 a4 ⊢
          by_cases hr0 : r = 0
          · obtain ⟨q0, rfl⟩ : ∃ q0, q = q0 + 1 := ⟨q - 1, by
              cases q with
              | zero => rw [Nat.mul_zero] at a1; omega
              | succ q => rfl⟩
            rw [Nat.mul_succ] at a1
            have : (b - 1) / k = q0 := by
              rw [show b - 1 = k * q0 + (k - 1) by omega, Nat.mul_add_div hk, Nat.div_eq_of_lt (by omega)]; rfl
            rw [this, if_pos hr0]; omega
          · have : (b - 1) / k = q := by
              rw [show b - 1 = k * q + (r - 1) by omega, Nat.mul_add_div hk, Nat.div_eq_of_lt (by omega)]; rfl
            rw [this, if_neg hr0]; omega
        simp only [hlen] at hm
        generalize (if b % k = 0 then k - 1 else b % k - 1) = j at key ⊢
        obtain ⟨k1, k2⟩ := key
        obtain ⟨s', g1, g2⟩ := h.nthBack hr (hQ (l.take b) j (by omega))
        rw [g1, ok_bind]
        rw [hlen] at g2
        refine ⟨(s', true), ?_, fun _ => Or.inl ⟨rfl, k * ((b - 1) / k), by omega, ?_, ?_⟩⟩
        · rw [hm, List.getLast?_concat, List.getElem?_reverse (by omega),
            show (l.take b).length - 1 - j = k * ((b - 1) / k) by omega, List.getElem?_eq_getElem (by omega)]; rfl
        · have := g2 k2
          rwa [k1, List.take_take, Nat.min_eq_left (by omega)] at this
        · rw [hm, List.dropLast_concat, List.take_take, Nat.min_eq_left (by omega)]
    · unfold DeIter.stepNextBack DeIter.stepBackIndex
      simp only [Bool.false_eq_true, if_false] at hr ⊢
      rw [h.len hr]
      have hlen : ((l.drop (k * i + 1)).take b).length = b := by rw [List.length_take, List.length_drop]; omega
      rw [hlen]
      by_cases hkb : b < k
      · rw [Nat.mod_eq_of_lt hkb]
        obtain ⟨s', h1, -⟩ := h.nthBack hr (hQe i b hb hkb)
        have e : ((l.drop (k * i + 1)).take b).drop (k - 1) = [] := List.drop_of_length_le (by omega)
        rw [h1, ok_bind, e, List.getElem?_eq_none (by rw [List.length_reverse]; omega)]
        exact ⟨(s', false), rfl, fun hne => absurd rfl hne⟩
      · have a1 := Nat.div_add_mod b k
        have a4 := Nat.mod_lt b hk
        have a5 : 0 < b / k := Nat.div_pos (by omega) hk
        generalize b / k = q at a1 a5
        generalize b % k = j at a1 a4 ⊢
        obtain ⟨q, rfl⟩ : ∃ q0, q = q0 + 1 := ⟨q - 1, by omega⟩
        rw [Nat.mul_succ] at a1
        generalize hw : (l.drop (k * i + 1)).take b = r at hr hlen
        have hclen : (r.drop (k - 1)).length = b - (k - 1) := by rw [List.length_drop, hlen]
        have hm := every_split (m := k * q) hk (l := r.drop (k - 1)) (Nat.dvd_mul_right _ _) (by omega) (by omega)
        obtain ⟨s', g1, g2⟩ := h.nthBack hr (hQ r j (by omega))
        rw [g1, ok_bind]
        rw [hlen] at g2
        have e : b - (j + 1) = k * q + (k - 1) := by omega
        refine ⟨(s', false), ?_, fun _ => Or.inr ⟨rfl, i, k * q + (k - 1), by omega, ?_, ?_⟩⟩
        · rw [hm, List.getLast?_concat, List.getElem?_reverse (by omega), List.getElem_drop,
            show r.length - 1 - j = k - 1 + k * q by omega, List.getElem?_eq_getElem (by omega)]; rfl
        · have := g2 (by omega)
          rw [e, ← hw, List.take_take, Nat.min_eq_left (by omega)] at this
          exact this
        · rw [hm, List.dropLast_concat, ← hw, List.drop_take, List.drop_take, List.take_take, Nat.min_eq_left (by omega),
            show k * q + (k - 1) - (k - 1) = k * q by omega]

/-- If the last call of `nth` panics, so does the loop. -/
theorem step_error (h : Sim d rel P Q) {s : σ} {l : List α} (hr : rel s l) (hl : l ≠ []) {k : Nat} (hk : 0 < k) (h0 : P l 0)
    (hP : ∀ i, k * (i + 1) < l.length → P (l.drop (k * i + 1)) (k - 1)) {e : Panic}
    (hE : ∀ s i, k * i < l.length → l.length ≤ k * (i + 1) → rel s (l.drop (k * i + 1)) → d.nth s (k - 1) = .error e)
    (fuel : Nat) (hf : (every k l).length < fuel) : forLoop (d.stepNext k) fuel (s, true) = .error e := by
  refine forLoop_of_sim_error (rel := fun s m => (s.2 = true ∧ rel s.1 l ∧ m = every k l) ∨
    ∃ i, s.2 = false ∧ k * i < l.length ∧ rel s.1 (l.drop (k * i + 1)) ∧ m = every k (l.drop (k * (i + 1)))) ?_ ?_ _ _ _
    (Or.inl ⟨rfl, hr, rfl⟩) hf
  · rintro ⟨s, b⟩ x m (⟨rfl, hr, hm⟩ | ⟨i, rfl, hi, hr, hm⟩)
    · unfold DeIter.stepNext
      simp only [if_true]
      obtain ⟨s', h1, h2⟩ := h.nth hr h0
      rw [h1, ok_bind]
      cases l with
      | nil => exact absurd rfl hl
      | cons y l =>
        rw [every_cons hk] at hm
        injection hm with hx hm
        subst hx
        refine ⟨_, rfl, Or.inr ⟨0, rfl, by simp, h2 (by simp), ?_⟩⟩
        rw [hm]
        congr 1
        rw [Nat.zero_add, Nat.mul_one]
        obtain ⟨k, rfl⟩ : ∃ j, k = j + 1 := ⟨k - 1, by omega⟩
        rfl
    · by_cases hlt : k * (i + 1) < l.length
      · unfold DeIter.stepNext
        simp only [Bool.false_eq_true, if_false]
        obtain ⟨s', h1, h2⟩ := h.nth hr (hP i hlt)
        rw [h1, ok_bind]
        have e1 : k * i + 1 + (k - 1) = k * (i + 1) := by rw [Nat.mul_succ]; omega
        rw [List.getElem?_drop, e1, List.getElem?_eq_getElem hlt]
        rw [List.drop_drop, show k * i + 1 + (k - 1 + 1) = k * (i + 1) + 1 by omega, List.length_drop] at h2
        have e2 : l.drop (k * (i + 1)) = l[k * (i + 1)] :: l.drop (k * (i + 1) + 1) := List.drop_eq_getElem_cons hlt
        rw [e2, every_cons hk] at hm
        injection hm with hx hm
        refine ⟨_, by rw [hx]; rfl, Or.inr ⟨i + 1, rfl, hlt, h2 (by omega), ?_⟩⟩
        rw [hm, List.drop_drop]
        congr 2
        rw [Nat.mul_succ k (i + 1)]; omega
      · rw [List.drop_of_length_le (by omega)] at hm
        cases hm
  · rintro ⟨s, b⟩ (⟨rfl, hr, hm⟩ | ⟨i, rfl, hi, hr, hm⟩)
    · cases l with
      | nil => exact absurd rfl hl
      | cons y l => rw [every_cons hk] at hm; cases hm
    · unfold DeIter.stepNext
      simp only [Bool.false_eq_true, if_false]
      rw [hE s i hi ?_ hr]
      · rfl
      · apply Nat.le_of_not_lt
        intro hlt
        rw [List.drop_eq_getElem_cons hlt, every_cons hk] at hm
        cases hm

end Sim
end Vers
