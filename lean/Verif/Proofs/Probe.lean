import Verif.SpecProbe
import Verif.Proofs.Base

/-!
# The number of cells read: composition
-/

namespace Vers

open Spec

namespace Probes

variable {K S α β γ : Type} {same : K → S → S → Prop} {s : S}

theorem mono {n m : Nat} {f : S → α} (h : Probes same n f s) (hm : n ≤ m) : Probes same m f s := by
  obtain ⟨L, h1, h2⟩ := h
  exact ⟨L, by omega, h2⟩

theorem const (a : α) : Probes same 0 (fun _ => a) s := ⟨[], by simp, fun _ _ => rfl⟩

theorem cell (k : K) {f : S → α} (h : ∀ s', same k s s' → f s' = f s) : Probes same 1 f s :=
  ⟨[k], by simp, fun s' hs => h s' (hs k (by simp))⟩

theorem map {n : Nat} {f : S → α} (g : α → β) (h : Probes same n f s) : Probes same n (fun s => g (f s)) s := by
  obtain ⟨L, h1, h2⟩ := h
  exact ⟨L, h1, fun s' hs => congrArg g (h2 s' hs)⟩

/-- The value of `p` is read first. -/
theorem seq {n m : Nat} {p : S → γ} (F : γ → S → α) (hp : Probes same n p s) (h : Probes same m (F (p s)) s) :
    Probes same (n + m) (fun s => F (p s) s) s := by
  obtain ⟨L, h1, h2⟩ := hp
  obtain ⟨M, g1, g2⟩ := h
  refine ⟨L ++ M, by simp; omega, fun s' hs => ?_⟩
  show F (p s') s' = F (p s) s
  rw [h2 s' (fun k hk => hs k (by simp [hk]))]
  exact g2 s' (fun k hk => hs k (by simp [hk]))

theorem bind {n m : Nat} {f : S → R α} {g : S → α → R β} (hf : Probes same n f s)
    (hg : ∀ a, f s = .ok a → Probes same m (fun s => g s a) s) : Probes same (n + m) (fun s => f s >>= g s) s := by
  refine seq (fun x s => x >>= g s) hf ?_
  cases hx : f s with
  | error e => exact mono (const _) (by omega)
  | ok a => exact hg a hx

/-- A condition on the contents. -/
theorem ite {n m : Nat} {c : S → Prop} [∀ s, Decidable (c s)] {f g : S → α} (hc : Probes same n c s)
    (hf : c s → Probes same m f s) (hg : ¬ c s → Probes same m g s) :
    Probes same (n + m) (fun s => if c s then f s else g s) s := by
  obtain ⟨L, h1, h2⟩ := hc
  by_cases hs : c s
  · obtain ⟨M, g1, g2⟩ := hf hs
    refine ⟨L ++ M, by simp; omega, fun s' h => ?_⟩
    have : c s' := by rw [h2 s' (fun k hk => h k (by simp [hk]))]; exact hs
    show (if c s' then f s' else g s') = if c s then f s else g s
    rw [if_pos this, if_pos hs]
    exact g2 s' (fun k hk => h k (by simp [hk]))
  · obtain ⟨M, g1, g2⟩ := hg hs
    refine ⟨L ++ M, by simp; omega, fun s' h => ?_⟩
    have : ¬ c s' := by rw [h2 s' (fun k hk => h k (by simp [hk]))]; exact hs
    show (if c s' then f s' else g s') = if c s then f s else g s
    rw [if_neg this, if_neg hs]
    exact g2 s' (fun k hk => h k (by simp [hk]))

/-- A condition that does not depend on the contents. -/
theorem iteConst {m : Nat} {c : Prop} [Decidable c] {f g : S → α}
    (hf : c → Probes same m f s) (hg : ¬ c → Probes same m g s) :
    Probes same m (fun s => if c then f s else g s) s := by
  by_cases hs : c
  · simp only [if_pos hs]; exact hf hs
  · simp only [if_neg hs]; exact hg hs

/-- A query of a component. -/
theorem sub {J T : Type} {same' : J → T → T → Prop} {n : Nat} {f : T → α} (proj : S → T) (inj : J → K)
    (hi : ∀ j s', same (inj j) s s' → same' j (proj s) (proj s')) (h : Probes same' n f (proj s)) :
    Probes same n (fun s => f (proj s)) s := by
  obtain ⟨L, h1, h2⟩ := h
  refine ⟨L.map inj, by simpa using h1, fun s' hs => h2 _ fun j hj => hi j s' (hs _ (List.mem_map_of_mem hj))⟩

/-- Access to an element of a vector. -/
theorem idx {X : Type} (k : K) (v : S → List X) (i : Nat) (h : ∀ s', same k s s' → (v s')[i]? = (v s)[i]?) :
    Probes same 1 (fun s => Vers.idx (v s) i) s :=
  cell k fun s' hs => by unfold Vers.idx; rw [h s' hs]

/-- A slice: the length is checked and the elements are read. -/
theorem slice {X : Type} (c : K) (k : Nat → K) (v : S → List X) (a b : Nat)
    (hc : ∀ s', same c s s' → (v s').length = (v s).length)
    (h : ∀ i s', same (k i) s s' → (v s')[i]? = (v s)[i]?) :
    Probes same (b - a + 1) (fun s => sliceR (v s) a b) s := by
  refine ⟨c :: (List.range (b - a)).map (fun i => k (a + i)), by simp, fun s' hs => ?_⟩
  have e := hc s' (hs c (by simp))
  unfold sliceR
  simp only [e]
  split
  · congr 1
    apply List.ext_getElem?
    intro i
    rw [List.getElem?_drop, List.getElem?_drop, List.getElem?_take, List.getElem?_take]
    split
    · exact h _ s' (hs _ (List.mem_cons_of_mem _ (List.mem_map.mpr ⟨i, by simp; omega, rfl⟩)))
    · rfl
  · rfl

end Probes
end Vers
