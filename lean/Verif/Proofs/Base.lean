import Verif.Model.Prelude
import Verif.Spec

/-! # Basic lemmas: the panic monad, vector access, counting -/

namespace Vers

variable [Profile]

omit [Profile] in
@[simp] theorem ok_bind {α β : Type} (a : α) (f : α → R β) : ((Except.ok a : R α) >>= f) = f a := rfl
omit [Profile] in
@[simp] theorem error_bind {α β : Type} (e : Panic) (f : α → R β) :
    ((Except.error e : R α) >>= f) = Except.error e := rfl
omit [Profile] in
@[simp] theorem pure_eq_ok {α : Type} (a : α) : (pure a : R α) = Except.ok a := rfl

omit [Profile] in
theorem bind_eq_ok {α β : Type} {x : R α} {f : α → R β} {b : β} :
    (x >>= f) = .ok b ↔ ∃ a, x = .ok a ∧ f a = .ok b := by
  cases x <;> simp

omit [Profile] in
theorem idx_of_lt {α : Type} {l : List α} {i : Nat} (h : i < l.length) : idx l i = .ok l[i] := by
  simp [idx, List.getElem?_eq_getElem h]

omit [Profile] in
theorem idx_of_some {α : Type} {l : List α} {i : Nat} {a : α} (h : l[i]? = some a) :
    idx l i = .ok a := by simp [idx, h]

omit [Profile] in
theorem idx_eq_ok {α : Type} {l : List α} {i : Nat} {a : α} : idx l i = .ok a ↔ l[i]? = some a := by
  unfold idx; split <;> simp_all

omit [Profile] in
theorem idx_of_ge {α : Type} {l : List α} {i : Nat} (h : l.length ≤ i) : idx l i = .error .oob := by
  simp [idx, List.getElem?_eq_none h]

omit [Profile] in
theorem setIdx_of_lt {α : Type} {l : List α} {i : Nat} {a : α} (h : i < l.length) :
    setIdx l i a = .ok (l.set i a) := by simp [setIdx, h]

theorem wrapR_debug (hd : Profile.debug = true) {α : Type} (x : α) : wrapR x = (.error .overflow : R α) := if_pos hd
theorem wrapR_release (hd : Profile.debug = false) {α : Type} (x : α) : wrapR x = .ok x := by
  unfold wrapR; rw [hd]; rfl
theorem wrapR_map {α β : Type} (x : α) (f : α → β) : (do let r ← wrapR x; pure (f r) : R β) = wrapR (f x) := by
  unfold wrapR; split <;> rfl

theorem addU_of_lt {a b : Nat} (h : a + b < 2 ^ 64) : addU a b = .ok (a + b) := if_pos h
theorem addU_overflow (hd : Profile.debug = true) {a b : Nat} (h : 2 ^ 64 ≤ a + b) :
    addU a b = .error .overflow := by
  rw [addU, if_neg (by omega), wrapR_debug hd]
theorem mulU_of_lt {a b : Nat} (h : a * b < 2 ^ 64) : mulU a b = .ok (a * b) := if_pos h
theorem mulU_overflow (hd : Profile.debug = true) {a b : Nat} (h : 2 ^ 64 ≤ a * b) :
    mulU a b = .error .overflow := by
  rw [mulU, if_neg (by omega), wrapR_debug hd]
theorem subR_of_le {a b : Nat} (h : b ≤ a) : subR a b = .ok (a - b) := by simp [subR, h]
theorem subR_overflow (hd : Profile.debug = true) {a b : Nat} (h : a < b) : subR a b = .error .overflow := by
  rw [subR, if_neg (by omega), wrapR_debug hd]

omit [Profile] in
theorem assertR_true {c : Prop} [Decidable c] (h : c) : assertR c = .ok () := by simp [assertR, h]
omit [Profile] in
theorem assertR_false {c : Prop} [Decidable c] (h : ¬c) : assertR c = .error .assertion := by
  simp [assertR, h]
theorem dassertR_true {c : Prop} [Decidable c] (h : c) : dassertR c = .ok () := by simp [dassertR, h]
theorem dassertR_false (hd : Profile.debug = true) {c : Prop} [Decidable c] (h : ¬c) :
    dassertR c = .error .assertion := by
  simp [dassertR, h, hd]
theorem dassertR_release (hd : Profile.debug = false) {c : Prop} [Decidable c] : dassertR c = .ok () := by
  simp [dassertR, hd]

omit [Profile] in
theorem prefixR_of_le {α : Type} {l : List α} {n : Nat} (h : n ≤ l.length) :
    prefixR l n = .ok (l.take n) := by simp [prefixR, h]

omit [Profile] in
theorem sliceR_of_le {α : Type} {l : List α} {a b : Nat} (h : a ≤ b) (h' : b ≤ l.length) :
    sliceR l a b = .ok ((l.take b).drop a) := by simp [sliceR, h, h']

omit [Profile] in
@[simp] theorem unwrapR_some {α : Type} (a : α) : unwrapR (some a) = .ok a := rfl

/-! ## cnt -/

omit [Profile] in
@[simp] theorem cnt_zero (f : Nat → Bool) : cnt f 0 = 0 := rfl
omit [Profile] in
theorem cnt_succ (f : Nat → Bool) (n : Nat) : cnt f (n + 1) = cnt f n + (f n).toNat := rfl

omit [Profile] in
theorem cnt_add (f : Nat → Bool) (a b : Nat) :
    cnt f (a + b) = cnt f a + cnt (fun j => f (a + j)) b := by
  induction b with
  | zero => simp
  | succ b ih => rw [← Nat.add_assoc, cnt_succ, ih, cnt_succ]; omega

omit [Profile] in
theorem cnt_congr {f g : Nat → Bool} {n : Nat} (h : ∀ i, i < n → f i = g i) : cnt f n = cnt g n := by
  induction n with
  | zero => rfl
  | succ n ih =>
    rw [cnt_succ, cnt_succ, ih (fun i hi => h i (by omega)), h n (by omega)]

omit [Profile] in
theorem cnt_le (f : Nat → Bool) (n : Nat) : cnt f n ≤ n := by
  induction n with
  | zero => simp
  | succ n ih =>
    rw [cnt_succ]
    cases f n <;> simp <;> omega

omit [Profile] in
theorem cnt_mono (f : Nat → Bool) {a b : Nat} (h : a ≤ b) : cnt f a ≤ cnt f b := by
  obtain ⟨c, rfl⟩ := Nat.exists_eq_add_of_le h
  rw [cnt_add]; omega

omit [Profile] in
theorem cnt_sub_le (f : Nat → Bool) {a b : Nat} (h : a ≤ b) : cnt f b - cnt f a ≤ b - a := by
  obtain ⟨c, rfl⟩ := Nat.exists_eq_add_of_le h
  rw [cnt_add]
  have := cnt_le (fun j => f (a + j)) c
  omega

omit [Profile] in
theorem cnt_compl (f : Nat → Bool) (n : Nat) : cnt f n + cnt (fun i => !f i) n = n := by
  induction n with
  | zero => simp
  | succ n ih =>
    rw [cnt_succ, cnt_succ]
    cases f n <;> simp <;> omega

omit [Profile] in
theorem cnt_false (n : Nat) : cnt (fun _ => false) n = 0 := by
  induction n with
  | zero => rfl
  | succ n ih => simp [cnt_succ, ih]

omit [Profile] in
theorem cnt_true (n : Nat) : cnt (fun _ => true) n = n := by
  induction n with
  | zero => rfl
  | succ n ih => simp [cnt_succ, ih]

omit [Profile] in
theorem cnt_eq_zero {f : Nat → Bool} {n : Nat} (h : ∀ i, i < n → f i = false) : cnt f n = 0 := by
  rw [cnt_congr (g := fun _ => false) h, cnt_false]

omit [Profile] in
theorem cnt_lt_of_true {f : Nat → Bool} {a b : Nat} (h : a < b) (hf : f a = true) :
    cnt f a < cnt f b := by
  have h1 := cnt_mono f (show a + 1 ≤ b from h)
  rw [cnt_succ, hf] at h1
  simp at h1; omega

omit [Profile] in
/-- a position is determined by its rank -/
theorem cnt_inj {f : Nat → Bool} {a b : Nat} (ha : f a = true) (hb : f b = true)
    (h : cnt f a = cnt f b) : a = b := by
  rcases Nat.lt_trichotomy a b with h1 | h1 | h1
  · have := cnt_lt_of_true h1 ha; omega
  · exact h1
  · have := cnt_lt_of_true h1 hb; omega

omit [Profile] in
/-- if more than `k` hits exist below `n`, the `k`-th hit exists -/
theorem exists_of_lt_cnt {f : Nat → Bool} {n k : Nat} (h : k < cnt f n) :
    ∃ p, p < n ∧ f p = true ∧ cnt f p = k := by
  induction n with
  | zero => simp at h
  | succ n ih =>
    by_cases h1 : k < cnt f n
    · obtain ⟨p, hp, h2, h3⟩ := ih h1
      exact ⟨p, by omega, h2, h3⟩
    · rw [cnt_succ] at h
      cases hf : f n with
      | false => simp [hf] at h; omega
      | true => simp [hf] at h; exact ⟨n, by omega, hf, by omega⟩

omit [Profile] in
theorem cnt_eq_countP_range (f : Nat → Bool) (n : Nat) : cnt f n = (List.range n).countP f := by
  induction n with
  | zero => rfl
  | succ n ih =>
    rw [List.range_succ, List.countP_append, cnt_succ, ih]
    cases h : f n <;> simp [h]

omit [Profile] in
theorem popcount_le (w : Word) : popcount w ≤ 64 := cnt_le _ _

omit [Profile] in
theorem popcountZ_eq (w : Word) : popcountZ w = cnt (fun i => !w.getLsbD i) 64 := by
  unfold popcountZ popcount
  apply cnt_congr
  intro i hi
  simp [hi]

omit [Profile] in
theorem popcount_add_popcountZ (w : Word) : popcount w + popcountZ w = 64 := by
  rw [popcountZ_eq]; exact cnt_compl _ _

/-! ## lists as functions -/

omit [Profile] in
theorem count_take_eq_cnt (l : List Bool) (b : Bool) (f : Nat → Bool)
    (hf : ∀ i, i < l.length → l[i]? = some (f i)) (i : Nat) (hi : i ≤ l.length) :
    (l.take i).count b = cnt (fun j => f j == b) i := by
  induction i with
  | zero => simp
  | succ i ih =>
    have h1 := hf i (by omega)
    rw [List.take_add_one, List.count_append, ih (by omega), cnt_succ, h1]
    cases f i <;> cases b <;> simp

/-! ## Option/list helpers -/

omit [Profile] in
theorem getElem?_map_range {α : Type} (f : Nat → α) (n i : Nat) :
    ((List.range n).map f)[i]? = if i < n then some (f i) else none := by
  by_cases h : i < n <;> simp [h]

end Vers
