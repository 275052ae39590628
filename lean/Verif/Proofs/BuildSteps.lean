import Verif.Model.BuildSteps
import Verif.Proofs.RsIterSteps

/-! # The number of steps of the constructors -/

set_option linter.unusedSimpArgs false
set_option linter.unusedSectionVars false
set_option linter.unusedVariables false

namespace Vers

variable [Profile]
open Counted

namespace Counted

omit [Profile]

theorem within_words {α : Type} (lazy : Bool) (n : Nat) (a : α) : Within (words lazy n a) (pure a) n :=
  ⟨rfl, by show (if lazy then 0 else n) ≤ n; split <;> omega⟩

/-- bind, with the value of the first computation -/
theorem Within.bindOk {α β : Type} {x : Counted α} {y : R α} {f : α → Counted β} {g : α → R β} {a b n : Nat}
    (h : Within x y a) (hn : a + b ≤ n) (hf : ∀ v, y = .ok v → Within (f v) (g v) b) :
    Within (x >>= f) (y >>= g) n := by
  rcases hy : y with e | v
  · refine ⟨?_, ?_⟩
    · rw [result_bind, h.same, hy]; rfl
    · show (match x.result with
        | .ok a => (⟨x.steps + (f a).steps, (f a).result⟩ : Counted β)
        | .error e => ⟨x.steps, .error e⟩).steps ≤ _
      rw [h.same, hy]
      have := h.le
      show x.steps ≤ n
      omega
  · have hb := hf v hy
    rw [bind_of (h.same.trans hy)]
    have := h.le
    have := hb.le
    exact ⟨hb.same, by show x.steps + (f v).steps ≤ n; omega⟩

/-- after a new vector -/
theorem words_bind {α β : Type} {lazy : Bool} {m : Nat} {a : α} {f : α → Counted β} {y : R β} {b n : Nat}
    (hn : m + b ≤ n) (hf : Within (f a) y b) : Within (words lazy m a >>= f) y n :=
  (within_words lazy m a).bindOk (g := fun _ => y) hn fun v hv => by cases hv; exact hf

/-- the steps of a computation that does not panic -/
theorem ok_split {α β : Type} {x : Counted α} {f : α → Counted β} {b : β} (h : (x >>= f).result = .ok b) :
    ∃ a, x.result = .ok a ∧ (f a).result = .ok b ∧ (x >>= f).steps = x.steps + (f a).steps := by
  rcases hx : x.result with e | a
  · rw [result_bind, hx] at h; cases h
  · rw [bind_of hx] at h ⊢; exact ⟨a, rfl, h, rfl⟩

end Counted

namespace RsVec

theorem buildLoopC_within (len dlen : Nat) : ∀ ws st i,
    Within (buildLoopC len dlen st i ws) (buildLoop len dlen st i ws) ws.length
  | [], st, _ => within_pure st _
  | w :: ws, st, i => tick_bind fun st => buildLoopC_within len dlen ws st (i + 1)

theorem fromBitVecC_within (v : BV) : Within (fromBitVecC v) (fromBitVec v) (v.data.length + 2) :=
  (buildLoopC_within _ _ _ _ _).bind (Nat.le_refl _) fun _ =>
    tick_bind fun _ => tick_bind fun _ => free_bind fun _ => within_pure _ _

end RsVec

namespace BinRmq

theorem innerC_within (data : List Word) (rl i : Nat) : ∀ n res,
    Within (innerC data rl i n res) (inner data rl i n res) n
  | 0, res => within_pure res _
  | n + 1, res => (innerC_within data rl i n res).bind (Nat.le_refl _) fun _ => within_tick _

theorem outerC_within (data : List Word) (rl : Nat) : ∀ n res,
    Within (outerC data rl n res) (outer data rl n res) (n * data.length)
  | 0, res => within_pure res _
  | n + 1, res => (outerC_within data rl n res).bind (by rw [Nat.succ_mul]; exact Nat.le_refl _) fun _ =>
      innerC_within data rl n _ _

theorem initColC_within (rl : Nat) : ∀ n res, Within (initColC rl n res) (initCol rl n res) n
  | 0, res => within_pure res _
  | n + 1, res => (initColC_within rl n res).bind (Nat.le_refl _) fun _ => within_tick _

theorem fromVecC_within (lazy : Bool) (data : List Word) :
    Within (fromVecC lazy data) (fromVec data) (2 * (data.length * (log2Ceil data.length + 1))) :=
  free_bind fun _ => words_bind (b := data.length + log2Ceil data.length * data.length)
    (by rw [Nat.mul_comm (log2Ceil data.length), Nat.mul_add]; omega)
    ((initColC_within _ _ _).bind (Nat.le_refl _) fun _ => (outerC_within data _ _ _).map)

end BinRmq

theorem log2Ceil_mono {a b : Nat} (h : a ≤ b) : log2Ceil a ≤ log2Ceil b := by
  unfold log2Ceil
  by_cases ha : a ≤ 1
  · rw [if_pos ha]; exact Nat.zero_le _
  · rw [if_neg ha, if_neg (by omega)]
    have h1 : Nat.log2 (a - 1) ≤ Nat.log2 (b - 1) :=
      (Nat.le_log2 (by omega)).2 (Nat.le_trans (Nat.log2_self_le (by omega)) (by omega))
    omega

namespace FastRmq

theorem preLoopC_within (block : List Word) : ∀ n s, Within (preLoopC block n s) (preLoop block n s) n
  | 0, s => within_pure s _
  | n + 1, s => (preLoopC_within block n s).bind (Nat.le_refl _) fun _ =>
      tick_bind fun _ => free_bind fun _ => within_pure _ _

theorem sufLoopC_within (block : List Word) : ∀ n s, Within (sufLoopC block n s) (sufLoop block n s) n
  | 0, s => within_pure s _
  | n + 1, s => (sufLoopC_within block n s).bind (Nat.le_refl _) fun _ =>
      tick_bind fun _ => free_bind fun _ => (within_pure _ _).ite (free_bind fun _ => within_pure _ _)

theorem mkBlockC_within (block : List Word) :
    Within (mkBlockC block) (mkBlock block) (2 * block.length + 1) :=
  tick_bind fun _ => (preLoopC_within _ _ _).bind (b := block.length) (by omega) fun _ =>
    free_bind fun _ => free_bind fun _ => ((sufLoopC_within _ _ _).map).mono (by omega)

theorem mkBlocksC_within (data : List Word) : ∀ n,
    Within (mkBlocksC data n) (mkBlocks data n) (2 * min (128 * n) data.length + n)
  | 0 => within_pure _ _
  | n + 1 => (mkBlocksC_within data n).bind (b := 2 * (chunk data n).length + 1)
      (by
        have hc : (chunk data n).length = min 128 (data.length - n * 128) := by
          unfold chunk; rw [List.length_take, List.length_drop]
        rw [hc]; omega)
      fun _ => (mkBlockC_within _).map

theorem mkBlocks_length (data : List Word) : ∀ n bs, mkBlocks data n = .ok bs → bs.length = n
  | 0, _, h => by cases h; rfl
  | n + 1, bs, h => by
    obtain ⟨bs', h1, h⟩ := bind_eq_ok.1 h
    obtain ⟨b, -, h⟩ := bind_eq_ok.1 h
    cases h
    rw [List.length_append, mkBlocks_length data n bs' h1]; rfl

theorem fromVecC_within (lazy : Bool) (data : List Word) : Within (fromVecC lazy data) (fromVec data)
    (2 * data.length + (data.length + 127) / 128
      + 2 * ((data.length + 127) / 128 * (log2Ceil ((data.length + 127) / 128) + 1))) :=
  free_bind fun _ => (mkBlocksC_within data _).bindOk
    (b := 2 * ((data.length + 127) / 128 * (log2Ceil ((data.length + 127) / 128) + 1)))
    (by
      have : min (128 * ((data.length + 127) / 128)) data.length ≤ data.length := Nat.min_le_right _ _
      omega)
    fun bs h => by
      have hl := mkBlocks_length data _ bs h
      have hw := BinRmq.fromVecC_within lazy (bs.map (·.1))
      rw [List.length_map, hl] at hw
      exact hw.map

end FastRmq

/-! ## sizes kept by the loops -/

omit [Profile] in
theorem setIdx_length {α : Type} {l l' : List α} {i : Nat} {a : α} (h : setIdx l i a = .ok l') :
    l'.length = l.length := by
  unfold setIdx at h
  split at h
  · cases h; exact List.length_set
  · cases h

omit [Profile] in
theorem BV.length_fromZeros (n : Nat) : (BV.fromZeros n).data.length = (n + 63) / 64 := by
  unfold BV.fromZeros
  by_cases h : n % 64 ≠ 0
  · simp only [if_pos h]; rw [List.length_append, List.length_replicate, List.length_singleton]; omega
  · simp only [if_neg h]; rw [List.length_replicate]; omega

omit [Profile] in
theorem BV.setUnchecked_length {v v' : BV} {p : Nat} {x : Word} (h : v.setUnchecked p x = .ok v') :
    v'.data.length = v.data.length := by
  obtain ⟨w, -, h⟩ := bind_eq_ok.1 h
  obtain ⟨d, hd, h⟩ := bind_eq_ok.1 h
  cases h
  exact setIdx_length hd

omit [Profile] in
theorem BV.set_length {v v' : BV} {p : Nat} {x : Word} (h : v.set p x = .ok (some v')) :
    v'.data.length = v.data.length := by
  unfold BV.set at h
  split at h
  · cases h
  · obtain ⟨w, hw, h⟩ := bind_eq_ok.1 h
    cases h
    exact BV.setUnchecked_length hw

namespace WM

omit [Profile] in
theorem fillBits_length {lookup : Nat → R Word} : ∀ ps i z v zv, fillBits lookup ps i z v = .ok zv →
    zv.2.data.length = v.data.length
  | [], _, _, _, _, h => by cases h; rfl
  | p :: ps, i, z, v, zv, h => by
    obtain ⟨b, -, h⟩ := bind_eq_ok.1 h
    split at h
    · exact fillBits_length ps _ _ _ _ h
    · obtain ⟨o, ho, h⟩ := bind_eq_ok.1 h
      obtain ⟨v', hv, h⟩ := bind_eq_ok.1 h
      cases o with
      | none => cases hv
      | some w =>
        cases hv
        rw [fillBits_length ps _ _ _ _ h]
        exact BV.set_length ho

theorem splitPerm_length {v : BV} : ∀ ps i zb ob next next', splitPerm v ps i zb ob next = .ok next' →
    next'.length = next.length
  | [], _, _, _, _, _, h => by cases h; rfl
  | p :: ps, i, zb, ob, next, next', h => by
    obtain ⟨b, -, h⟩ := bind_eq_ok.1 h
    split at h
    · obtain ⟨l, hl, h⟩ := bind_eq_ok.1 h
      rw [splitPerm_length ps _ _ _ _ _ h]; exact setIdx_length hl
    · obtain ⟨l, hl, h⟩ := bind_eq_ok.1 h
      rw [splitPerm_length ps _ _ _ _ _ h]; exact setIdx_length hl

theorem sortLevels_length {k n : Nat} {lookup : Nat → Nat → R Word} : ∀ r level perm next vs,
    sortLevels k n lookup r level perm next = .ok vs →
    vs.length = r ∧ ∀ v ∈ vs, v.data.length = (n + 63) / 64
  | 0, _, _, _, _, h => by cases h; exact ⟨rfl, fun _ h => absurd h List.not_mem_nil⟩
  | r + 1, level, perm, next, vs, h => by
    obtain ⟨zv, hz, h⟩ := bind_eq_ok.1 h
    have hl : zv.2.data.length = (n + 63) / 64 := by
      rw [fillBits_length _ _ _ _ _ hz, BV.length_fromZeros]
    have key : ∀ rest : List BV, rest.length = r → (∀ v ∈ rest, v.data.length = (n + 63) / 64) →
        (zv.2 :: rest).length = r + 1 ∧ ∀ v ∈ zv.2 :: rest, v.data.length = (n + 63) / 64 := by
      intro rest h1 h2
      refine ⟨by rw [List.length_cons, h1], fun v hv => ?_⟩
      rcases List.mem_cons.1 hv with rfl | hv
      · exact hl
      · exact h2 v hv
    split at h
    · obtain ⟨nx, -, h⟩ := bind_eq_ok.1 h
      obtain ⟨rest, hr, h⟩ := bind_eq_ok.1 h
      cases h
      obtain ⟨h1, h2⟩ := sortLevels_length r _ _ _ _ hr
      exact key rest h1 h2
    · obtain ⟨rest, hr, h⟩ := bind_eq_ok.1 h
      cases h
      obtain ⟨h1, h2⟩ := sortLevels_length r _ _ _ _ hr
      exact key rest h1 h2

/-! ## the sorting constructors -/

omit [Profile] in
theorem fillBitsC_within (lookup : Nat → R Word) : ∀ ps i z v,
    Within (fillBitsC lookup ps i z v) (fillBits lookup ps i z v) ps.length
  | [], _, _, _ => within_pure _ _
  | p :: ps, i, z, v => tick_bind fun b => (fillBitsC_within lookup ps _ _ _).ite
      (free_bind fun _ => free_bind fun _ => fillBitsC_within lookup ps _ _ _)

theorem splitPermC_within (v : BV) : ∀ ps i zb ob next,
    Within (splitPermC v ps i zb ob next) (splitPerm v ps i zb ob next) ps.length
  | [], _, _, _, _ => within_pure _ _
  | p :: ps, i, zb, ob, next => tick_bind fun b =>
      (free_bind fun _ => splitPermC_within v ps _ _ _ _).ite (free_bind fun _ => splitPermC_within v ps _ _ _ _)

theorem sortLevelsC_within (lazy : Bool) (k n : Nat) (lookup : Nat → Nat → R Word) : ∀ r level perm next,
    perm.length = n → next.length = n →
    Within (sortLevelsC lazy k n lookup r level perm next) (sortLevels k n lookup r level perm next)
      (r * (2 * n + (n + 63) / 64))
  | 0, _, _, _, _, _ => within_pure _ _
  | r + 1, level, perm, next, hp, hn => by
    refine words_bind (b := 2 * n + r * (2 * n + (n + 63) / 64)) (by
      have : (r + 1) * (2 * n + (n + 63) / 64) = r * (2 * n + (n + 63) / 64) + (2 * n + (n + 63) / 64) :=
        Nat.succ_mul _ _
      omega) ?_
    refine (fillBitsC_within _ perm 0 0 _).bind (b := n + r * (2 * n + (n + 63) / 64)) (by omega) fun zv => ?_
    refine Within.ite ?_ ?_
    · refine (splitPermC_within zv.2 perm 0 0 zv.1 next).bindOk (b := r * (2 * n + (n + 63) / 64)) (by omega)
        fun nx hx => ?_
      exact (sortLevelsC_within lazy k n lookup r _ nx perm ((splitPerm_length _ _ _ _ _ _ hx).trans hn) hp).map
    · exact ((sortLevelsC_within lazy k n lookup r _ perm next hp hn).map).mono (by omega)

theorem buildAllC_within (m : Nat) : ∀ vs : List BV, (∀ v ∈ vs, v.data.length ≤ m) →
    Within (buildAllC vs) (buildAll vs) (vs.length * (m + 2))
  | [], _ => within_pure _ _
  | v :: vs, h => by
    have hv := h v List.mem_cons_self
    refine ((RsVec.fromBitVecC_within v).mono (m := m + 2) (by omega)).bind (b := vs.length * (m + 2))
      (by rw [List.length_cons, Nat.succ_mul]; omega) fun _ => ?_
    exact (buildAllC_within m vs fun v hv => h v (List.mem_cons_of_mem _ hv)).map

theorem permutationSortingC_within (lazy : Bool) (k n : Nat) (lookup : Nat → Nat → R Word) :
    Within (permutationSortingC lazy k n lookup) (permutationSorting k n lookup)
      (2 * n + k * (2 * n + 2 * ((n + 63) / 64) + 2)) := by
  have e : k * (2 * n + 2 * ((n + 63) / 64) + 2) = k * (2 * n + (n + 63) / 64) + k * ((n + 63) / 64 + 2) := by
    have : 2 * n + 2 * ((n + 63) / 64) + 2 = 2 * n + (n + 63) / 64 + ((n + 63) / 64 + 2) := by omega
    rw [this, Nat.mul_add]
  refine words_bind (b := n + k * (2 * n + 2 * ((n + 63) / 64) + 2)) (by omega) ?_
  refine words_bind (b := k * (2 * n + 2 * ((n + 63) / 64) + 2)) (by omega) ?_
  refine (sortLevelsC_within lazy k n lookup k 0 _ _ List.length_range List.length_replicate).bindOk
    (b := k * ((n + 63) / 64 + 2)) (Nat.le_of_eq e.symm) fun vs hv => ?_
  obtain ⟨h1, h2⟩ := sortLevels_length _ _ _ _ _ hv
  have := (buildAllC_within ((n + 63) / 64) vs fun v hv => Nat.le_of_eq (h2 v hv)).map (f := fun d => (⟨d⟩ : WM))
  rw [h1] at this
  exact this

/-! ## the prefix counting constructors -/

theorem countLoopC_within (k : Nat) (lookup : Nat → Nat → R Word) (elem : Nat → R Word) : ∀ n s,
    Within (countLoopC k lookup elem n s) (countLoop k lookup elem n s) n
  | 0, s => within_pure s _
  | n + 1, s => (countLoopC_within k lookup elem n s).bind (Nat.le_refl _) fun _ => tick_bind fun _ =>
      free_bind fun _ => free_bind fun _ => free_bind fun _ => free_bind fun _ => free_bind fun _ => within_pure _ _

theorem histLoopC_within : ∀ n hist, Within (histLoopC n hist) (histLoop n hist) n
  | 0, s => within_pure s _
  | n + 1, s => (histLoopC_within n s).bind (Nat.le_refl _) fun _ => tick_bind fun _ =>
      free_bind fun _ => within_free _ _

theorem borderLoopC_within (level : Nat) (hist : List Nat) : ∀ n borders,
    Within (borderLoopC level hist n borders) (borderLoop level hist n borders) n
  | 0, s => within_pure s _
  | n + 1, s => (borderLoopC_within level hist n s).bind (Nat.le_refl _) fun _ => tick_bind fun _ =>
      free_bind fun _ => within_free _ _

theorem placeLoopC_within (k level : Nat) (lookup : Nat → Nat → R Word) (elem : Nat → R Word) : ∀ n s,
    Within (placeLoopC k level lookup elem n s) (placeLoop k level lookup elem n s) n
  | 0, s => within_pure s _
  | n + 1, s => (placeLoopC_within k level lookup elem n s).bind (Nat.le_refl _) fun _ => tick_bind fun _ =>
      free_bind fun _ => free_bind fun _ => free_bind fun _ => free_bind fun _ => within_pure _ _

theorem pcLevelsC_within (lazy : Bool) (k n : Nat) (lookup : Nat → Nat → R Word) (elem : Nat → R Word) :
    ∀ l hist borders acc, Within (pcLevelsC lazy k n lookup elem l hist borders acc)
      (pcLevels k n lookup elem l hist borders acc) (2 * 2 ^ (l + 1) + l * (n + (n + 63) / 64))
  | 0, _, _, acc => within_pure acc _
  | l + 1, hist, borders, acc => by
    have e : 2 ^ (l + 1 + 1) = 2 * 2 ^ (l + 1) := by rw [Nat.pow_succ]; omega
    have e' : (l + 1) * (n + (n + 63) / 64) = l * (n + (n + 63) / 64) + (n + (n + 63) / 64) := Nat.succ_mul _ _
    rw [e, e']
    generalize hq : l * (n + (n + 63) / 64) = q
    generalize hp : 2 ^ (l + 1) = p
    refine (histLoopC_within _ _).bind (b := p + 2 * p + q + n + (n + 63) / 64) (by omega) fun hist => ?_
    refine free_bind fun borders => ?_
    refine (borderLoopC_within _ _ _ _).bind (b := 2 * p + q + n + (n + 63) / 64) (by omega) fun borders => ?_
    refine words_bind (b := 2 * p + q + n) (by omega) ?_
    refine (placeLoopC_within _ _ _ _ _ _).bind (b := 2 * p + q) (by omega) fun s => ?_
    rw [← hp, ← hq]
    exact pcLevelsC_within lazy k n lookup elem l _ _ _

theorem countLoop_length {k : Nat} {lookup : Nat → Nat → R Word} {elem : Nat → R Word} : ∀ n s s',
    countLoop k lookup elem n s = .ok s' → s'.2.data.length = s.2.data.length
  | 0, _, _, h => by cases h; rfl
  | n + 1, s, s', h => by
    obtain ⟨t, ht, h⟩ := bind_eq_ok.1 h
    obtain ⟨_, -, h⟩ := bind_eq_ok.1 h
    obtain ⟨_, -, h⟩ := bind_eq_ok.1 h
    obtain ⟨_, -, h⟩ := bind_eq_ok.1 h
    obtain ⟨_, -, h⟩ := bind_eq_ok.1 h
    obtain ⟨_, -, h⟩ := bind_eq_ok.1 h
    obtain ⟨v, hv, h⟩ := bind_eq_ok.1 h
    cases h
    rw [← countLoop_length n s t ht]
    exact BV.setUnchecked_length hv

theorem placeLoop_length {k level : Nat} {lookup : Nat → Nat → R Word} {elem : Nat → R Word} : ∀ n s s',
    placeLoop k level lookup elem n s = .ok s' → s'.2.data.length = s.2.data.length
  | 0, _, _, h => by cases h; rfl
  | n + 1, s, s', h => by
    obtain ⟨t, ht, h⟩ := bind_eq_ok.1 h
    obtain ⟨_, -, h⟩ := bind_eq_ok.1 h
    obtain ⟨_, -, h⟩ := bind_eq_ok.1 h
    obtain ⟨_, -, h⟩ := bind_eq_ok.1 h
    obtain ⟨v, hv, h⟩ := bind_eq_ok.1 h
    obtain ⟨_, -, h⟩ := bind_eq_ok.1 h
    cases h
    rw [← placeLoop_length n s t ht]
    exact BV.setUnchecked_length hv

theorem pcLevels_length {k n : Nat} {lookup : Nat → Nat → R Word} {elem : Nat → R Word} : ∀ l hist borders acc vs,
    pcLevels k n lookup elem l hist borders acc = .ok vs → (∀ v ∈ acc, v.data.length = (n + 63) / 64) →
    ∀ v ∈ vs, v.data.length = (n + 63) / 64
  | 0, _, _, _, _, h, ha => by cases h; exact ha
  | l + 1, hist, borders, acc, vs, h, ha => by
    obtain ⟨_, -, h⟩ := bind_eq_ok.1 h
    obtain ⟨_, -, h⟩ := bind_eq_ok.1 h
    obtain ⟨_, -, h⟩ := bind_eq_ok.1 h
    obtain ⟨s, hs, h⟩ := bind_eq_ok.1 h
    refine pcLevels_length l _ _ _ _ h fun v hv => ?_
    rcases List.mem_cons.1 hv with rfl | hv
    · rw [placeLoop_length _ _ _ hs, BV.length_fromZeros]
    · exact ha v hv

theorem prefixCountingC_within (lazy : Bool) (k n : Nat) (lookup : Nat → Nat → R Word) (elem : Nat → R Word) :
    Within (prefixCountingC lazy k n lookup elem) (prefixCounting k n lookup elem)
      (2 * 2 ^ k + 2 * 2 ^ (k - 1 + 1) + n + (n + 63) / 64 + k * (n + (n + 63) / 64)
        + k * ((n + 63) / 64 + 2)) := by
  refine (within_free _ 0).bindOk (Nat.le_of_eq (Nat.zero_add _)) fun size hs => ?_
  have hsz : size ≤ 2 ^ k := by
    by_cases hk : k < 64
    · rw [if_pos hk] at hs; cases hs; exact Nat.le_refl _
    · rw [if_neg hk] at hs
      unfold wrapR at hs
      split at hs
      · cases hs
      · cases hs
        exact Nat.pow_le_pow_right (by omega) (Nat.mod_le _ _)
  have hq : (k - 1) * (n + (n + 63) / 64) ≤ k * (n + (n + 63) / 64) := Nat.mul_le_mul_right _ (Nat.sub_le _ _)
  generalize h0 : k * (n + (n + 63) / 64) = q at *
  generalize h3 : k * ((n + 63) / 64 + 2) = t
  generalize h2 : 2 ^ (k - 1 + 1) = p
  refine words_bind (b := size + 2 * p + n + (n + 63) / 64 + q + t) (by omega) ?_
  refine words_bind (b := 2 * p + n + (n + 63) / 64 + q + t) (by omega) ?_
  refine words_bind (b := 2 * p + n + q + t) (by omega) ?_
  refine (countLoopC_within k lookup elem n _).bindOk (b := 2 * p + q + t) (by omega) fun s hs' => ?_
  refine (pcLevelsC_within lazy k n lookup elem (k - 1) _ _ _).bindOk (b := t) (by rw [h2]; omega) fun vs hv => ?_
  have hall : ∀ v ∈ (s.2 :: vs).take k, v.data.length ≤ (n + 63) / 64 := by
    intro v hv'
    rcases List.mem_cons.1 (List.mem_of_mem_take hv') with rfl | hv'
    · rw [countLoop_length _ _ _ hs', BV.length_fromZeros]; exact Nat.le_refl _
    · exact Nat.le_of_eq (pcLevels_length _ _ _ _ _ hv (fun _ h => absurd h List.not_mem_nil) v hv')
  refine ((buildAllC_within _ _ hall).mono ?_).map
  rw [← h3]
  exact Nat.mul_le_mul_right _ (by rw [List.length_take]; exact Nat.min_le_left _ _)

/-! ## the lower bound -/

theorem histLoopC_steps : ∀ n hist h', (histLoopC n hist).result = .ok h' → (histLoopC n hist).steps = n
  | 0, _, _, _ => rfl
  | n + 1, hist, h', h => by
    unfold histLoopC at h ⊢
    obtain ⟨x, hx, h, e⟩ := ok_split h
    rw [e, histLoopC_steps n hist x hx]
    obtain ⟨a, -, h, e⟩ := ok_split h
    rw [e]
    obtain ⟨b, -, -, e⟩ := ok_split h
    rw [e]; rfl

theorem borderLoopC_steps (level : Nat) (hist : List Nat) : ∀ n borders h',
    (borderLoopC level hist n borders).result = .ok h' → (borderLoopC level hist n borders).steps = n
  | 0, _, _, _ => rfl
  | n + 1, borders, h', h => by
    unfold borderLoopC at h ⊢
    obtain ⟨x, hx, h, e⟩ := ok_split h
    rw [e, borderLoopC_steps level hist n borders x hx]
    obtain ⟨a, -, h, e⟩ := ok_split h
    rw [e]
    obtain ⟨b, -, -, e⟩ := ok_split h
    rw [e]; rfl

theorem pcLevelsC_steps (lazy : Bool) (k n : Nat) (lookup : Nat → Nat → R Word) (elem : Nat → R Word) :
    ∀ l hist borders acc vs, (pcLevelsC lazy k n lookup elem l hist borders acc).result = .ok vs →
      2 * 2 ^ (l + 1) ≤ (pcLevelsC lazy k n lookup elem l hist borders acc).steps + l + 4
  | 0, _, _, _, _, _ => by omega
  | l + 1, hist, borders, acc, vs, h => by
    unfold pcLevelsC at h ⊢
    obtain ⟨hist', h1, h, e⟩ := ok_split h
    rw [e, histLoopC_steps _ _ _ h1]
    obtain ⟨b, -, h, e⟩ := ok_split h
    rw [e]
    obtain ⟨b', h2, h, e⟩ := ok_split h
    rw [e, borderLoopC_steps _ _ _ _ _ h2]
    obtain ⟨v, -, h, e⟩ := ok_split h
    rw [e]
    obtain ⟨s, -, h, e⟩ := ok_split h
    rw [e]
    have ih := pcLevelsC_steps lazy k n lookup elem l _ _ _ _ h
    have e : 2 ^ (l + 1 + 1) = 2 * 2 ^ (l + 1) := by rw [Nat.pow_succ]; omega
    have hp : 0 < 2 ^ (l + 1) := Nat.two_pow_pos _
    rw [e]
    omega

theorem prefixCountingC_steps {lazy : Bool} {k n : Nat} {lookup : Nat → Nat → R Word} {elem : Nat → R Word} {m : WM}
    (hk : 1 ≤ k) (h : (prefixCountingC lazy k n lookup elem).result = .ok m) :
    2 * 2 ^ k ≤ (prefixCountingC lazy k n lookup elem).steps + k + 3 := by
  unfold prefixCountingC at h ⊢
  obtain ⟨_, -, h, e⟩ := ok_split h
  rw [e]
  obtain ⟨_, -, h, e⟩ := ok_split h
  rw [e]
  obtain ⟨_, -, h, e⟩ := ok_split h
  rw [e]
  obtain ⟨_, -, h, e⟩ := ok_split h
  rw [e]
  obtain ⟨_, -, h, e⟩ := ok_split h
  rw [e]
  obtain ⟨_, h1, h, e⟩ := ok_split h
  rw [e]
  have := pcLevelsC_steps lazy k n lookup elem (k - 1) _ _ _ _ h1
  rw [show k - 1 + 1 = k by omega] at this
  omega

end WM

end Vers
