import Verif.Proofs.ProbeRs
import Verif.Proofs.TimeTree

/-!
# The number of cells read by queries of the tree
-/

namespace Vers

open Spec MMT Lookup

variable [Profile]

namespace MMT

variable {t : MMT}

omit [Profile] in
theorem leftChild_in {i c : Nat} (h : t.leftChild i = some c) : c < t.nodes.length := (leftChild_some h).2

omit [Profile] in
theorem rightChild_in {i c : Nat} (h : t.rightChild i = some c) : c < t.nodes.length := (rightChild_some h).2

omit [Profile] in
theorem nonZero_eq {i c : Nat} (h : nonZero i = some c) : c = i := by
  unfold nonZero at h
  split at h <;> cases h
  rfl

theorem bwdDown_lt {f : Nat} (hf : t.firstLeaf = .ok f) : ∀ (fuel node : Nat) (rel : Int) (m : Nat) (e : Int),
    node < t.nodes.length → t.bwdDown fuel node rel = .ok (some (m, e)) → f ≤ m ∧ m < t.nodes.length
  | 0, _, _, _, _, _, h => by cases h
  | fuel + 1, node, rel, m, e, hn, h => by
    unfold bwdDown at h
    obtain ⟨_, -, h⟩ := bind_eq_ok.mp h
    obtain ⟨leaf, hleaf, h⟩ := bind_eq_ok.mp h
    split at h
    · rename_i hl
      unfold isLeaf at hleaf
      rw [hf, ok_bind] at hleaf
      have hleaf := Except.ok.inj hleaf
      rw [hl, decide_eq_true_iff] at hleaf
      have h := Except.ok.inj h
      obtain ⟨x, h1, h2⟩ := Option.map_eq_some_iff.mp h
      cases h2
      rw [nonZero_eq h1]; exact ⟨hleaf, hn⟩
    · split at h
      · cases h
      · rename_i r hr
        obtain ⟨hit, -, h⟩ := bind_eq_ok.mp h
        split at h
        · exact bwdDown_lt hf fuel r _ m e (rightChild_in hr) h
        · split at h
          · cases h
          · rename_i l hl
            obtain ⟨tot, -, h⟩ := bind_eq_ok.mp h
            obtain ⟨rel', -, h⟩ := bind_eq_ok.mp h
            obtain ⟨hit', -, h⟩ := bind_eq_ok.mp h
            split at h
            · exact bwdDown_lt hf fuel l _ m e (leftChild_in hl) h
            · cases h

theorem bwdUp_lt {f : Nat} (hf : t.firstLeaf = .ok f) (down : Nat) : ∀ (fuel node : Nat) (rel : Int) (m : Nat) (e : Int),
    node < t.nodes.length → t.bwdUp down fuel node rel = .ok (some (m, e)) → f ≤ m ∧ m < t.nodes.length
  | 0, _, _, _, _, _, h => by cases h
  | fuel + 1, node, rel, m, e, hn, h => by
    have hpar : t.parent node = some ((node - 1) / 2) := by unfold parent; rw [if_pos hn]
    unfold bwdUp at h
    simp only [hpar, unwrapR, ok_bind] at h
    obtain ⟨_, -, h⟩ := bind_eq_ok.mp h
    split at h
    · split at h
      · rename_i p hp
        rw [nonZero_eq hp] at h
        exact bwdUp_lt hf down fuel _ _ m e (by omega) h
      · cases h
    · split at h
      · cases h
      · rename_i l hl
        have hl' : l < t.nodes.length := by
          unfold leftSibling at hl
          split at hl
          · rw [nonZero_eq hl]; omega
          · cases hl
        obtain ⟨hit, -, h⟩ := bind_eq_ok.mp h
        split at h
        · exact bwdDown_lt hf down l _ m e hl' h
        · split at h
          · rename_i p hp
            rw [nonZero_eq hp] at h
            obtain ⟨tot, -, h⟩ := bind_eq_ok.mp h
            obtain ⟨rel', -, h⟩ := bind_eq_ok.mp h
            exact bwdUp_lt hf down fuel _ _ m e (by omega) h
          · cases h

/-- The block found is one of the tree. -/
theorem bwdSearch_lt {start f b : Nat} {rel e : Int} {budget : Nat} (hf : t.firstLeaf = .ok f)
    (h : t.bwdSearch start rel budget = .ok (some (b, e))) : b < t.nodes.length - f := by
  unfold bwdSearch at h
  rw [hf, ok_bind] at h
  split at h
  · cases h
  · obtain ⟨n, h1, h⟩ := bind_eq_ok.mp h
    obtain ⟨o, h2, h⟩ := bind_eq_ok.mp h
    have hn : n = start + f := by
      cases hz : nonZero (start + f) with
      | none => rw [hz] at h1; cases h1
      | some x => rw [hz] at h1; cases h1; exact nonZero_eq hz
    subst hn
    cases o with
    | none => cases h
    | some q =>
      obtain ⟨c, h3, h⟩ := bind_eq_ok.mp h
      have hb := bwdUp_lt hf budget budget _ rel q.1 q.2 (by omega) h2
      rw [subR_of_le hb.1] at h3
      cases h3
      cases h
      omega

/-! ## Cells of the min-max tree -/

/-- The trees whose min-max tree has `n` nodes. -/
abbrev OfSize (n : Nat) := { t : BpTree // t.mmt.nodes.length = n }

end MMT

namespace BpTree

variable {n : Nat}

/-- The contents of a cell are the same. -/
def sameIn (c : TreeCell) (a b : OfSize n) : Prop := c.same a.1 b.1

omit [Profile] in
/-- The number of nodes is one more cell. -/
theorem lift {α : Type} {c : Nat} {f : BpTree → α} (t : BpTree)
    (h : Probes sameIn c (fun x : OfSize t.mmt.nodes.length => f x.1) ⟨t, rfl⟩) : Probes TreeCell.same (c + 1) f t := by
  obtain ⟨L, h1, h2⟩ := h
  refine ⟨TreeCell.nodeCount :: L, by simpa using h1, fun t' ht => ?_⟩
  exact h2 ⟨t', ht TreeCell.nodeCount (by simp)⟩ fun k hk => ht k (by simp [hk])

omit [Profile] in
theorem reads_vec {α : Type} {c : Nat} {f : RsVec → α} (t : OfSize n) (h : Probes RsCell.same c f t.1.vec) :
    Probes sameIn c (fun t : OfSize n => f t.1.vec) t :=
  Probes.sub (fun t : OfSize n => t.1.vec) TreeCell.vec (fun _ _ h => h) h

omit [Profile] in
/-- A computation that depends on one node. -/
theorem reads_node {α : Type} {f : OfSize n → α} (t : OfSize n) (i : Nat)
    (h : ∀ t' : OfSize n, t'.1.mmt.nodes[i]? = t.1.mmt.nodes[i]? → f t' = f t) : Probes sameIn 1 f t :=
  Probes.cell (TreeCell.node i) h

theorem reads_total (t : OfSize n) (i : Nat) : Probes sameIn 1 (fun t : OfSize n => t.1.mmt.totalExcess i) t :=
  reads_node t i fun t' h => by unfold MMT.totalExcess idx; rw [h]

theorem reads_inRange (t : OfSize n) (i : Nat) (e : Int) :
    Probes sameIn 1 (fun t : OfSize n => t.1.mmt.inRange i e) t :=
  reads_node t i fun t' h => by unfold MMT.inRange MMT.minExcess MMT.maxExcess idx; rw [h]

theorem reads_inRangeBwd (t : OfSize n) (i : Nat) (e : Int) :
    Probes sameIn 1 (fun t : OfSize n => t.1.mmt.inRangeBwd i e) t :=
  reads_node t i fun t' h => by
    unfold MMT.inRangeBwd MMT.totalExcess MMT.inRange MMT.minExcess MMT.maxExcess idx; rw [h]

omit [Profile] in
theorem count_of (t : OfSize n) : t.1.mmt.nodes.length = n := t.2

/-- The position of the first leaf in a tree with `n` nodes. -/
def firstOf (n : Nat) : R Nat := MMT.firstLeaf ⟨List.replicate n ExcessNode.default⟩

theorem firstLeaf_of (t : OfSize n) : t.1.mmt.firstLeaf = firstOf n := by
  unfold firstOf MMT.firstLeaf; rw [t.2, List.length_replicate]

omit [Profile] in
theorem leftChild_of (t : OfSize n) (i : Nat) :
    t.1.mmt.leftChild i = if i * 2 + 1 < n then nonZero (i * 2 + 1) else none := by
  unfold MMT.leftChild; rw [t.2]

omit [Profile] in
theorem rightChild_of (t : OfSize n) (i : Nat) :
    t.1.mmt.rightChild i = if i * 2 + 2 < n then nonZero (i * 2 + 2) else none := by
  unfold MMT.rightChild; rw [t.2]

omit [Profile] in
theorem parent_of (t : OfSize n) (i : Nat) : t.1.mmt.parent i = if i < n then some ((i - 1) / 2) else none := by
  unfold MMT.parent; rw [t.2]

omit [Profile] in
theorem rightSibling_of (t : OfSize n) (i : Nat) : t.1.mmt.rightSibling i =
    if i % 2 = 1 then if i + 1 ≥ n then none else some (i + 1) else none := by
  unfold MMT.rightSibling; rw [t.2]

theorem reads_fwdDown (t : OfSize n) : ∀ (b node : Nat) (rel : Int),
    Probes sameIn (3 * b) (fun t : OfSize n => t.1.mmt.fwdDown b node rel) t
  | 0, _, _ => Probes.const _
  | b + 1, node, rel => by
    unfold MMT.fwdDown MMT.isLeaf
    simp only [firstLeaf_of, leftChild_of, rightChild_of, count_of]
    refine Probes.mono (n := 0 + (0 + 3 * (b + 1))) ?_ (by omega)
    refine Probes.bind (Probes.const _) fun _ _ => ?_
    refine Probes.bind (Probes.const _) fun leaf _ => ?_
    refine Probes.iteConst (fun _ => Probes.mono (Probes.const _) (by omega)) fun _ => ?_
    generalize (if node * 2 + 1 < n then nonZero (node * 2 + 1) else none) = o
    generalize (if node * 2 + 2 < n then nonZero (node * 2 + 2) else none) = q
    match o, q with
    | none, _ => exact Probes.mono (Probes.const _) (by omega)
    | some l, q =>
      refine Probes.mono (n := 1 + (3 * b + 2)) ?_ (by omega)
      refine Probes.bind (reads_inRange t l rel) fun hit _ => ?_
      refine Probes.iteConst (fun _ => Probes.mono (reads_fwdDown t b l rel) (by omega)) fun _ => ?_
      match q with
      | none => exact Probes.mono (Probes.const _) (by omega)
      | some r =>
        refine Probes.mono (n := 1 + (0 + (1 + 3 * b))) ?_ (by omega)
        refine Probes.bind (reads_total t l) fun tot _ => ?_
        refine Probes.bind (Probes.const _) fun rel' _ => ?_
        refine Probes.bind (reads_inRange t r rel') fun hit _ => ?_
        exact Probes.iteConst (fun _ => reads_fwdDown t b r rel') fun _ => Probes.mono (Probes.const _) (by omega)

theorem reads_bwdDown (t : OfSize n) : ∀ (b node : Nat) (rel : Int),
    Probes sameIn (3 * b) (fun t : OfSize n => t.1.mmt.bwdDown b node rel) t
  | 0, _, _ => Probes.const _
  | b + 1, node, rel => by
    unfold MMT.bwdDown MMT.isLeaf
    simp only [firstLeaf_of, leftChild_of, rightChild_of, count_of]
    refine Probes.mono (n := 0 + (0 + 3 * (b + 1))) ?_ (by omega)
    refine Probes.bind (Probes.const _) fun _ _ => ?_
    refine Probes.bind (Probes.const _) fun leaf _ => ?_
    refine Probes.iteConst (fun _ => Probes.mono (Probes.const _) (by omega)) fun _ => ?_
    generalize (if node * 2 + 1 < n then nonZero (node * 2 + 1) else none) = q
    generalize (if node * 2 + 2 < n then nonZero (node * 2 + 2) else none) = o
    match o, q with
    | none, _ => exact Probes.mono (Probes.const _) (by omega)
    | some r, q =>
      refine Probes.mono (n := 1 + (3 * b + 2)) ?_ (by omega)
      refine Probes.bind (reads_inRangeBwd t r rel) fun hit _ => ?_
      refine Probes.iteConst (fun _ => Probes.mono (reads_bwdDown t b r rel) (by omega)) fun _ => ?_
      match q with
      | none => exact Probes.mono (Probes.const _) (by omega)
      | some l =>
        refine Probes.mono (n := 1 + (0 + (1 + 3 * b))) ?_ (by omega)
        refine Probes.bind (reads_total t r) fun tot _ => ?_
        refine Probes.bind (Probes.const _) fun rel' _ => ?_
        refine Probes.bind (reads_inRangeBwd t l rel') fun hit _ => ?_
        exact Probes.iteConst (fun _ => reads_bwdDown t b l rel') fun _ => Probes.mono (Probes.const _) (by omega)

theorem reads_fwdUp (t : OfSize n) (d : Nat) : ∀ (b node : Nat) (rel : Int),
    Probes sameIn (2 * b + 3 * d) (fun t : OfSize n => t.1.mmt.fwdUp d b node rel) t
  | 0, _, _ => Probes.mono (Probes.const _) (by omega)
  | b + 1, node, rel => by
    unfold MMT.fwdUp
    simp only [parent_of, rightSibling_of, count_of]
    refine Probes.mono (n := 0 + (2 * b + 2 + 3 * d)) ?_ (by omega)
    refine Probes.bind (Probes.const _) fun _ _ => ?_
    refine Probes.iteConst (fun _ => ?_) fun _ => ?_
    · refine Probes.mono (n := 0 + (2 * b + 3 * d)) ?_ (by omega)
      refine Probes.bind (Probes.const _) fun p _ => ?_
      match nonZero p with
      | none => exact Probes.mono (Probes.const _) (by omega)
      | some p => exact reads_fwdUp t d b p rel
    · generalize (if node % 2 = 1 then if node + 1 ≥ n then none else some (node + 1) else none) = o
      match o with
      | none => exact Probes.mono (Probes.const _) (by omega)
      | some r =>
        refine Probes.mono (n := 1 + (2 * b + 1 + 3 * d)) ?_ (by omega)
        refine Probes.bind (reads_inRange t r rel) fun hit _ => ?_
        refine Probes.iteConst (fun _ => Probes.mono (reads_fwdDown t d r rel) (by omega)) fun _ => ?_
        refine Probes.mono (n := 0 + (1 + (2 * b + 3 * d))) ?_ (by omega)
        refine Probes.bind (Probes.const _) fun p _ => ?_
        match nonZero p with
        | none => exact Probes.mono (Probes.const _) (by omega)
        | some p =>
          refine Probes.mono (n := 1 + (0 + (2 * b + 3 * d))) ?_ (by omega)
          refine Probes.bind (reads_total t r) fun tot _ => ?_
          exact Probes.bind (Probes.const _) fun rel' _ => reads_fwdUp t d b p rel'

theorem reads_bwdUp (t : OfSize n) (d : Nat) : ∀ (b node : Nat) (rel : Int),
    Probes sameIn (2 * b + 3 * d) (fun t : OfSize n => t.1.mmt.bwdUp d b node rel) t
  | 0, _, _ => Probes.mono (Probes.const _) (by omega)
  | b + 1, node, rel => by
    unfold MMT.bwdUp
    simp only [parent_of, count_of]
    refine Probes.mono (n := 0 + (2 * b + 2 + 3 * d)) ?_ (by omega)
    refine Probes.bind (Probes.const _) fun _ _ => ?_
    refine Probes.iteConst (fun _ => ?_) fun _ => ?_
    · refine Probes.mono (n := 0 + (2 * b + 3 * d)) ?_ (by omega)
      refine Probes.bind (Probes.const _) fun p _ => ?_
      match nonZero p with
      | none => exact Probes.mono (Probes.const _) (by omega)
      | some p => exact reads_bwdUp t d b p rel
    · match leftSibling node with
      | none => exact Probes.mono (Probes.const _) (by omega)
      | some l =>
        refine Probes.mono (n := 1 + (2 * b + 1 + 3 * d)) ?_ (by omega)
        refine Probes.bind (reads_inRangeBwd t l rel) fun hit _ => ?_
        refine Probes.iteConst (fun _ => Probes.mono (reads_bwdDown t d l rel) (by omega)) fun _ => ?_
        refine Probes.mono (n := 0 + (1 + (2 * b + 3 * d))) ?_ (by omega)
        refine Probes.bind (Probes.const _) fun p _ => ?_
        match nonZero p with
        | none => exact Probes.mono (Probes.const _) (by omega)
        | some p =>
          refine Probes.mono (n := 1 + (0 + (2 * b + 3 * d))) ?_ (by omega)
          refine Probes.bind (reads_total t l) fun tot _ => ?_
          exact Probes.bind (Probes.const _) fun rel' _ => reads_bwdUp t d b p rel'

theorem reads_mmtFwd (t : OfSize n) {b : Nat} (hb : t.1.mmt.Enough b) (start : Nat) (rel : Int) :
    Probes sameIn (5 * b) (fun t : OfSize n => t.1.mmt.fwdSearch start rel) t := by
  have e : (fun t : OfSize n => t.1.mmt.fwdSearch start rel) = fun t : OfSize n => t.1.mmt.fwdSearch start rel b := by
    funext t'
    refine (MMT.fwdSearch_budget (b := b) ?_ start rel).symm
    unfold MMT.Enough at hb ⊢
    rw [t'.2]; rw [t.2] at hb; exact hb
  rw [e]
  unfold MMT.fwdSearch
  simp only [firstLeaf_of, count_of]
  refine Probes.mono (n := 0 + 5 * b) ?_ (by omega)
  refine Probes.bind (Probes.const _) fun f _ => ?_
  refine Probes.iteConst (fun _ => Probes.mono (Probes.const _) (by omega)) fun _ => ?_
  refine Probes.mono (n := 0 + (2 * b + 3 * b + 0)) ?_ (by omega)
  refine Probes.bind (Probes.const _) fun m _ => ?_
  exact Probes.bind (reads_fwdUp t b b m rel) fun o _ => Probes.const _

theorem reads_mmtBwd (t : OfSize n) {b : Nat} (hb : t.1.mmt.Enough b) (start : Nat) (rel : Int) :
    Probes sameIn (5 * b) (fun t : OfSize n => t.1.mmt.bwdSearch start rel) t := by
  have e : (fun t : OfSize n => t.1.mmt.bwdSearch start rel) = fun t : OfSize n => t.1.mmt.bwdSearch start rel b := by
    funext t'
    refine (MMT.bwdSearch_budget (b := b) ?_ start rel).symm
    unfold MMT.Enough at hb ⊢
    rw [t'.2]; rw [t.2] at hb; exact hb
  rw [e]
  unfold MMT.bwdSearch
  simp only [firstLeaf_of, count_of]
  refine Probes.mono (n := 0 + 5 * b) ?_ (by omega)
  refine Probes.bind (Probes.const _) fun f _ => ?_
  refine Probes.iteConst (fun _ => Probes.mono (Probes.const _) (by omega)) fun _ => ?_
  refine Probes.mono (n := 0 + (2 * b + 3 * b + 0)) ?_ (by omega)
  refine Probes.bind (Probes.const _) fun m _ => ?_
  exact Probes.bind (reads_bwdUp t b b m rel) fun o _ => Probes.const _

/-! ## Scans of a block -/

theorem reads_scanFwd (vec : RsVec) : ∀ (c i : Nat) (rel : Int),
    Probes RsCell.same c (fun vec => scanFwd vec c i rel) vec
  | 0, _, _ => Probes.const _
  | c + 1, i, rel => by
    unfold scanFwd
    refine Probes.mono (n := 1 + (0 + c)) ?_ (by omega)
    refine Probes.bind (vec.reads_getUnchecked i) fun w _ => ?_
    refine Probes.bind (Probes.const _) fun r _ => ?_
    exact Probes.iteConst (fun _ => Probes.mono (Probes.const _) (by omega)) fun _ => reads_scanFwd vec c (i + 1) r

theorem reads_scanBwd (vec : RsVec) : ∀ (c i : Nat) (rel : Int),
    Probes RsCell.same c (fun vec => scanBwd vec c i rel) vec
  | 0, _, _ => Probes.const _
  | c + 1, i, rel => by
    unfold scanBwd
    refine Probes.mono (n := 1 + (0 + c)) ?_ (by omega)
    refine Probes.bind (vec.reads_getUnchecked _) fun w _ => ?_
    refine Probes.bind (Probes.const _) fun r _ => ?_
    exact Probes.iteConst (fun _ => Probes.mono (Probes.const _) (by omega)) fun _ => reads_scanBwd vec c (i - 1) r

theorem reads_getBits (vec : RsVec) (pos len : Nat) :
    Probes RsCell.same 2 (fun vec => vec.getBitsUnchecked pos len) vec := by
  unfold RsVec.getBitsUnchecked BV.getBitsRaw
  refine Probes.mono (n := 0 + (1 + (0 + 1))) ?_ (by omega)
  refine Probes.bind (Probes.const _) fun _ _ => ?_
  refine Probes.bind (vec.reads_limb _) fun w _ => ?_
  refine Probes.bind (Probes.const _) fun e _ => ?_
  refine Probes.iteConst (fun _ => Probes.mono (Probes.const _) (by omega)) fun _ => ?_
  exact Probes.bind (n := 1) (m := 0) (vec.reads_limb _) fun w2 _ => Probes.const _

theorem reads_lookup (vec : RsVec) (k : Variant) (i : Nat) : Probes RsCell.same 2 (fun vec => block vec k i) vec := by
  unfold block
  exact Probes.bind (n := 2) (m := 0) (reads_getBits vec i _) fun w _ => Probes.const _

/-- The continuation of a search. -/
theorem reads_orElse {S : Type} {K : Type} {same : K → S → S → Prop} {s : S} {c : Nat} (f : Found)
    {g : S → Int → R Found} (h : ∀ rel, Probes same c (fun s => g s rel) s) :
    Probes same c (fun s => f.orElse (g s)) s := by
  cases f with
  | «at» i => exact Probes.mono (Probes.const _) (by omega)
  | miss rel => exact h rel

theorem reads_tabFwd (vec : RsVec) (k : Variant) : ∀ (c i : Nat) (rel : Int),
    Probes RsCell.same (2 * c) (fun vec => tabFwd vec k c i rel) vec
  | 0, _, _ => Probes.const _
  | c + 1, i, rel => by
    unfold tabFwd
    refine Probes.mono (n := 2 + (0 + 2 * c)) ?_ (by omega)
    refine Probes.bind (reads_lookup vec k i) fun b _ => ?_
    refine Probes.bind (Probes.const _) fun f _ => ?_
    exact reads_orElse _ fun r => reads_tabFwd vec k c _ r

theorem reads_tabBwd (vec : RsVec) (k : Variant) (a : Nat) : ∀ (c : Nat) (rel : Int),
    Probes RsCell.same (2 * c) (fun vec => tabBwd vec k a c rel) vec
  | 0, _ => Probes.const _
  | c + 1, rel => by
    unfold tabBwd
    refine Probes.mono (n := 2 + (0 + 2 * c)) ?_ (by omega)
    refine Probes.bind (reads_lookup vec k _) fun b _ => ?_
    refine Probes.bind (Probes.const _) fun f _ => ?_
    exact reads_orElse _ fun r => reads_tabBwd vec k a c r

omit [Profile] in
theorem steps_le (a b s : Nat) (hs : 0 < s) : steps a b s ≤ b - a := by
  unfold steps
  rcases Nat.eq_zero_or_pos (b - a) with h | h
  · rw [h]; simp only [Nat.zero_add]
    rw [Nat.div_eq_of_lt (by omega)]; omega
  · rw [Nat.div_le_iff_le_mul_add_pred hs]
    have : b - a ≤ s * (b - a) := Nat.le_mul_of_pos_left _ hs
    omega

omit [Profile] in
theorem size_pos (k : Variant) : 0 < k.size := by cases k <;> decide

theorem reads_fwdBlock (t : OfSize n) (bs : Nat) (k : Variant) (start j : Nat) (rel : Int) (hj : j * bs ≤ start + 1) :
    Probes sameIn (2 * bs + 1) (fun t : OfSize n => t.1.fwdBlock bs k start j rel) t := by
  unfold fwdBlock
  have hk := size_pos k
  refine Probes.mono (n := 1 + 2 * bs) ?_ (by omega)
  refine Probes.seq (p := fun t : OfSize n => t.1.vec.len) (fun len t => do
      let bb := min ((j + 1) * bs) len
      let lb := min ((start + 1 + k.size - 1) / k.size * k.size) bb
      let ub := max lb (bb / k.size * k.size)
      let f ← scanFwd t.1.vec (lb - (start + 1)) (start + 1) rel
      f.orElse (fun rel => do
        let f ← tabFwd t.1.vec k (steps lb ub k.size) lb rel
        f.orElse (fun rel => scanFwd t.1.vec (bb - ub) ub rel))) (reads_vec t (RsVec.reads_len _)) ?_
  dsimp only
  generalize hb : min ((j + 1) * bs) t.1.vec.len = bb
  have hbb : bb ≤ start + 1 + bs := by rw [Nat.succ_mul] at hb; omega
  have h0 : start + 1 ≤ (start + 1 + k.size - 1) / k.size * k.size := by
    have := Nat.div_add_mod (start + 1 + k.size - 1) k.size
    have := Nat.mod_lt (start + 1 + k.size - 1) hk
    rw [Nat.mul_comm]; omega
  generalize hl : min ((start + 1 + k.size - 1) / k.size * k.size) bb = lb
  generalize hu : max lb (bb / k.size * k.size) = ub
  have h1 : bb / k.size * k.size ≤ bb := Nat.div_mul_le_self _ _
  have hst := steps_le lb ub k.size hk
  refine Probes.mono (n := (lb - (start + 1)) + (2 * steps lb ub k.size + (bb - ub))) ?_ (by omega)
  refine Probes.bind (reads_vec t (reads_scanFwd _ _ _ _)) fun f _ => ?_
  refine reads_orElse f fun rel => ?_
  refine Probes.bind (reads_vec t (reads_tabFwd _ _ _ _ _)) fun f _ => ?_
  exact reads_orElse f fun rel => reads_vec t (reads_scanFwd _ _ _ _)

theorem reads_bwdBlock (t : OfSize n) (bs : Nat) (k : Variant) (start j : Nat) (rel : Int)
    (hj : start ≤ (j + 1) * bs) (hs : 0 < start) (hlen : j * bs ≤ t.1.vec.len) :
    Probes sameIn (2 * bs + 1) (fun t : OfSize n => t.1.bwdBlock bs k start j rel) t := by
  unfold bwdBlock
  have hk := size_pos k
  refine Probes.mono (n := 1 + 2 * bs) ?_ (by omega)
  refine Probes.seq (p := fun t : OfSize n => t.1.vec.len) (fun len t => do
      let bb := min (j * bs) len
      let s ← subR start 1
      let lb := max (s / k.size * k.size) bb
      let f ← scanBwd t.1.vec (start - lb) start rel
      f.orElse (fun rel => tabBwd t.1.vec k bb (steps bb lb k.size) rel)) (reads_vec t (RsVec.reads_len _)) ?_
  dsimp only
  generalize hb : min (j * bs) t.1.vec.len = bb
  have hbb : start ≤ bb + bs := by rw [Nat.succ_mul] at hj; omega
  refine Probes.mono (n := 0 + 2 * bs) ?_ (by omega)
  refine Probes.bind (Probes.const _) fun s h => ?_
  rw [subR_of_le (by omega)] at h
  cases h
  have h1 : (start - 1) / k.size * k.size ≤ start - 1 := Nat.div_mul_le_self _ _
  generalize hl : max ((start - 1) / k.size * k.size) bb = lb
  have hst := steps_le bb lb k.size hk
  refine Probes.mono (n := (start - lb) + 2 * steps bb lb k.size) ?_ (by omega)
  refine Probes.bind (reads_vec t (reads_scanBwd _ _ _ _)) fun f _ => ?_
  exact reads_orElse f fun rel => reads_vec t (reads_tabBwd _ _ _ _ _)

/-- The blocks that the backward search on the min-max tree finds start in the sequence. -/
def BlocksIn (t : BpTree) (bs : Nat) : Prop :=
  ∀ start rel b e, t.mmt.bwdSearch start rel = .ok (some (b, e)) → b * bs ≤ t.vec.len

theorem reads_fwdSearch (t : OfSize n) {b : Nat} (hb : t.1.mmt.Enough b) (bs : Nat) (k : Variant) (i : Nat) (rel : Int) :
    Probes sameIn (4 * bs + 5 * b + 3) (fun t : OfSize n => t.1.fwdSearch bs k i rel) t := by
  unfold fwdSearch
  refine Probes.mono (n := 1 + (2 * bs + 1 + (5 * b + (2 * bs + 1)))) ?_ (by omega)
  refine Probes.bind (reads_vec t (Probes.map (fun l => subR l 1) (RsVec.reads_len _))) fun last _ => ?_
  refine Probes.iteConst (fun _ => Probes.mono (Probes.const _) (by omega)) fun _ => ?_
  refine Probes.iteConst (fun _ => Probes.mono (Probes.const _) (by omega)) fun _ => ?_
  refine Probes.bind (reads_fwdBlock t bs k i _ rel (Nat.div_mul_le_self _ _)) fun f _ => ?_
  cases f with
  | «at» i => exact Probes.mono (Probes.const _) (by omega)
  | miss rel =>
    refine Probes.bind (reads_mmtFwd t hb _ rel) fun o _ => ?_
    match o with
    | none => exact Probes.mono (Probes.const _) (by omega)
    | some (q, rel) =>
      refine Probes.mono (n := 0 + (2 * bs + 1 + 0)) ?_ (by omega)
      refine Probes.bind (Probes.const _) fun s hs => ?_
      refine Probes.bind (reads_fwdBlock t bs k s q rel ?_) fun f _ => Probes.const _
      rcases Nat.lt_or_ge (q * bs) 1 with h | h
      · omega
      · rw [subR_of_le h] at hs
        cases hs
        omega

theorem reads_bwdSearch (t : OfSize n) {b : Nat} (hb : t.1.mmt.Enough b) {bs : Nat} (hL : t.1.BlocksIn bs)
    (k : Variant) (i : Nat) (rel : Int) :
    Probes sameIn (4 * bs + 5 * b + 3) (fun t : OfSize n => t.1.bwdSearch bs k i rel) t := by
  unfold bwdSearch
  refine Probes.mono (n := 1 + (2 * bs + 1 + (5 * b + (2 * bs + 1)))) ?_ (by omega)
  refine Probes.ite (c := fun t : OfSize n => i ≥ t.1.vec.len)
    (reads_vec t (Probes.map (fun l => i ≥ l) (RsVec.reads_len _)))
    (fun _ => Probes.mono (Probes.const _) (by omega)) fun hi => ?_
  refine Probes.iteConst (fun _ => Probes.mono (Probes.const _) (by omega)) fun h0 => ?_
  refine Probes.iteConst (fun _ => Probes.mono (Probes.const _) (by omega)) fun hbs => ?_
  have h1 : (i - 1) / bs * bs ≤ i - 1 := Nat.div_mul_le_self _ _
  have h2 : i ≤ ((i - 1) / bs + 1) * bs := by
    have := Nat.div_add_mod (i - 1) bs
    have := Nat.mod_lt (i - 1) (Nat.pos_of_ne_zero hbs)
    rw [Nat.succ_mul, Nat.mul_comm]; omega
  refine Probes.bind (reads_bwdBlock t bs k i _ rel h2 (by omega) (by omega)) fun f _ => ?_
  cases f with
  | «at» i => exact Probes.mono (Probes.const _) (by omega)
  | miss rel =>
    refine Probes.bind (reads_mmtBwd t hb _ rel) fun o ho => ?_
    match o with
    | none => exact Probes.mono (Probes.const _) (by omega)
    | some (q, rel) =>
      refine Probes.mono (n := 2 * bs + 1 + 0) ?_ (by omega)
      refine Probes.bind (reads_bwdBlock t bs k _ q rel (Nat.le_refl _) ?_ (hL _ _ _ _ ho)) fun f _ => Probes.const _
      exact Nat.mul_pos (by omega) (Nat.pos_of_ne_zero hbs)

theorem reads_get (t : OfSize n) (i : Nat) : Probes sameIn 2 (fun t : OfSize n => t.1.vec.get i) t :=
  reads_vec t (RsVec.reads_get _ i)

theorem reads_rank (t : OfSize n) (zero : Bool) (i : Nat) :
    Probes sameIn 12 (fun t : OfSize n => t.1.vec.rank zero i) t :=
  reads_vec t (RsVec.reads_rank _ zero i)

theorem reads_assertNode (t : OfSize n) (i : Nat) : Probes sameIn 2 (fun t : OfSize n => t.1.assertNode i) t := by
  unfold assertNode
  refine Probes.iteConst (fun _ => ?_) fun _ => Probes.mono (Probes.const _) (by omega)
  exact Probes.bind (n := 2) (m := 0) (reads_get t i) fun w _ => Probes.const _

/-- A query with a test of the length first. -/
theorem reads_inside {α : Type} {c : Nat} {t : OfSize n} (i : Nat) {a : R α} {f : OfSize n → R α}
    (hf : Probes sameIn c f t) : Probes sameIn (c + 1) (fun t : OfSize n => if i ≥ t.1.vec.len then a else f t) t :=
  Probes.mono (Probes.ite (n := 1) (m := c) (c := fun t : OfSize n => i ≥ t.1.vec.len)
    (reads_vec t (Probes.map (fun l => i ≥ l) (RsVec.reads_len _)))
    (fun _ => Probes.mono (Probes.const _) (by omega)) fun _ => hf) (by omega)

section Queries

variable (t : OfSize n) {b : Nat} (hb : t.1.mmt.Enough b) {bs : Nat} (hL : t.1.BlocksIn bs) (k : Variant)
include hb

theorem reads_close (i : Nat) : Probes sameIn (4 * bs + 5 * b + 4) (fun t : OfSize n => t.1.close bs k i) t := by
  unfold close
  exact reads_inside i (reads_fwdSearch t hb bs k i _)

include hL in
theorem reads_opening (i : Nat) : Probes sameIn (4 * bs + 5 * b + 4) (fun t : OfSize n => t.1.opening bs k i) t := by
  unfold opening
  exact reads_inside i (reads_bwdSearch t hb hL k i _)

include hL in
theorem reads_enclose (i : Nat) : Probes sameIn (4 * bs + 5 * b + 5) (fun t : OfSize n => t.1.enclose bs k i) t := by
  unfold enclose
  refine reads_inside i ?_
  refine Probes.mono (n := 1 + (4 * bs + 5 * b + 3)) ?_ (by omega)
  exact Probes.bind (reads_vec t (RsVec.reads_getUnchecked _ i)) fun w _ => reads_bwdSearch t hb hL k i _

include hL in
theorem reads_parent (i : Nat) : Probes sameIn (4 * bs + 5 * b + 7) (fun t : OfSize n => t.1.parent bs k i) t := by
  unfold parent
  refine Probes.mono (n := 2 + (4 * bs + 5 * b + 5)) ?_ (by omega)
  exact Probes.bind (reads_assertNode t i) fun _ _ => reads_enclose t hb hL k i

theorem reads_nextSibling (i : Nat) :
    Probes sameIn (4 * bs + 5 * b + 8) (fun t : OfSize n => t.1.nextSibling bs k i) t := by
  unfold nextSibling
  refine Probes.mono (n := 2 + (4 * bs + 5 * b + 4 + 2)) ?_ (by omega)
  refine Probes.bind (reads_assertNode t i) fun _ _ => ?_
  refine Probes.bind (reads_close t hb k i) fun o _ => ?_
  match o with
  | none => exact Probes.mono (Probes.const _) (by omega)
  | some j => exact Probes.bind (n := 2) (m := 0) (reads_get t _) fun w _ => Probes.const _

include hL in
theorem reads_previousSibling (i : Nat) :
    Probes sameIn (4 * bs + 5 * b + 8) (fun t : OfSize n => t.1.previousSibling bs k i) t := by
  unfold previousSibling
  refine Probes.mono (n := 2 + (2 + (4 * bs + 5 * b + 4))) ?_ (by omega)
  refine Probes.bind (reads_assertNode t i) fun _ _ => ?_
  refine Probes.iteConst (fun _ => Probes.mono (Probes.const _) (by omega)) fun _ => ?_
  refine Probes.bind (reads_get t _) fun w _ => ?_
  exact Probes.iteConst (fun _ => reads_opening t hb hL k _) fun _ => Probes.mono (Probes.const _) (by omega)

include hL in
theorem reads_lastChild (i : Nat) :
    Probes sameIn (8 * bs + 10 * b + 12) (fun t : OfSize n => t.1.lastChild bs k i) t := by
  unfold lastChild
  refine Probes.mono (n := 2 + (0 + (2 + (4 * bs + 5 * b + 4 + (4 * bs + 5 * b + 4))))) ?_ (by omega)
  refine Probes.bind (reads_assertNode t i) fun _ _ => ?_
  refine Probes.bind (Probes.const _) fun j _ => ?_
  refine Probes.bind (reads_get t _) fun w _ => ?_
  refine Probes.iteConst (fun _ => ?_) fun _ => Probes.mono (Probes.const _) (by omega)
  refine Probes.bind (reads_close t hb k i) fun o _ => ?_
  match o with
  | none => exact Probes.mono (Probes.const _) (by omega)
  | some j =>
    refine Probes.mono (n := 0 + (4 * bs + 5 * b + 4)) ?_ (by omega)
    exact Probes.bind (Probes.const _) fun j _ => reads_opening t hb hL k j

theorem reads_levelNext (i : Nat) :
    Probes sameIn (8 * bs + 10 * b + 7) (fun t : OfSize n => t.1.levelNext bs k i) t := by
  unfold levelNext
  refine Probes.mono (n := 4 * bs + 5 * b + 4 + (4 * bs + 5 * b + 3)) ?_ (by omega)
  refine Probes.bind (reads_close t hb k i) fun o _ => ?_
  match o with
  | none => exact Probes.mono (Probes.const _) (by omega)
  | some j => exact reads_fwdSearch t hb bs k j _

include hL in
theorem reads_levelPrev (i : Nat) :
    Probes sameIn (8 * bs + 10 * b + 7) (fun t : OfSize n => t.1.levelPrev bs k i) t := by
  unfold levelPrev
  refine Probes.mono (n := 4 * bs + 5 * b + 3 + (4 * bs + 5 * b + 4)) ?_ (by omega)
  refine Probes.bind (reads_bwdSearch t hb hL k i _) fun o _ => ?_
  match o with
  | none => exact Probes.mono (Probes.const _) (by omega)
  | some j => exact reads_opening t hb hL k j

theorem reads_subtreeSize (i : Nat) :
    Probes sameIn (4 * bs + 5 * b + 30) (fun t : OfSize n => t.1.subtreeSize bs k i) t := by
  unfold subtreeSize
  refine Probes.mono (n := 2 + (4 * bs + 5 * b + 4 + (12 + (12 + 0)))) ?_ (by omega)
  refine Probes.bind (reads_assertNode t i) fun _ _ => ?_
  refine Probes.bind (reads_close t hb k i) fun o _ => ?_
  match o with
  | none => exact Probes.mono (Probes.const _) (by omega)
  | some c =>
    refine Probes.bind (reads_rank t false c) fun x _ => ?_
    exact Probes.bind (reads_rank t false i) fun y _ => Probes.const _

theorem reads_isAncestor (i j : Nat) :
    Probes sameIn (4 * bs + 5 * b + 8) (fun t : OfSize n => t.1.isAncestor bs k i j) t := by
  unfold isAncestor
  refine Probes.mono (n := 2 + (2 + (4 * bs + 5 * b + 4 + 0))) ?_ (by omega)
  refine Probes.bind (reads_assertNode t i) fun _ _ => ?_
  refine Probes.bind (reads_assertNode t j) fun _ _ => ?_
  exact Probes.bind (reads_close t hb k i) fun o _ => Probes.const _

include hL in
theorem reads_levelAncestor (i : Nat) (l : Word) :
    Probes sameIn (4 * bs + 5 * b + 3) (fun t : OfSize n => t.1.levelAncestor bs k i l) t := by
  unfold levelAncestor
  refine Probes.iteConst (fun _ => Probes.mono (Probes.const _) (by omega)) fun _ => ?_
  refine Probes.mono (n := 0 + (4 * bs + 5 * b + 3)) ?_ (by omega)
  exact Probes.bind (Probes.const _) fun e _ => reads_bwdSearch t hb hL k i e

theorem reads_levelLeftmost (l : Word) :
    Probes sameIn (4 * bs + 5 * b + 3) (fun t : OfSize n => t.1.levelLeftmost bs k l) t := by
  unfold levelLeftmost
  exact Probes.iteConst (fun _ => Probes.mono (Probes.const _) (by omega)) fun _ => reads_fwdSearch t hb bs k 0 _

omit hb in
theorem reads_size : Probes sameIn 13 (fun t : OfSize n => t.1.size) t := by
  unfold size
  exact Probes.seq (n := 1) (m := 12) (p := fun t : OfSize n => t.1.vec.len) (fun l t => t.1.vec.rank false l)
    (reads_vec t (RsVec.reads_len _)) (reads_rank t false _)

include hL in
theorem reads_levelRightmost (l : Word) :
    Probes sameIn (8 * bs + 10 * b + 20) (fun t : OfSize n => t.1.levelRightmost bs k l) t := by
  unfold levelRightmost
  refine Probes.mono (n := 13 + (0 + (4 * bs + 5 * b + 3 + (4 * bs + 5 * b + 4)))) ?_ (by omega)
  refine Probes.bind (reads_size t) fun m _ => ?_
  refine Probes.bind (Probes.const _) fun i _ => ?_
  refine Probes.bind (reads_bwdSearch t hb hL k i _) fun o _ => ?_
  match o with
  | none => exact Probes.mono (Probes.const _) (by omega)
  | some j => exact reads_opening t hb hL k j

end Queries

/-! ## Queries that take constant time -/

theorem reads_excess (t : OfSize n) (i : Nat) : Probes sameIn 25 (fun t : OfSize n => t.1.excess i) t := by
  unfold excess
  refine Probes.mono (n := 1 + (0 + (12 + (12 + 0)))) ?_ (by omega)
  refine Probes.bind (reads_vec t (Probes.map (fun l => dassertR (i < l)) (RsVec.reads_len _))) fun _ _ => ?_
  refine Probes.bind (Probes.const _) fun j _ => ?_
  refine Probes.bind (reads_rank t false j) fun x _ => ?_
  exact Probes.bind (reads_rank t true j) fun y _ => Probes.const _

theorem reads_depth (t : OfSize n) (i : Nat) : Probes sameIn 27 (fun t : OfSize n => t.1.depth i) t := by
  unfold depth
  refine Probes.bind (n := 2) (m := 25) (reads_assertNode t i) fun _ _ => ?_
  exact Probes.bind (n := 25) (m := 0) (reads_excess t i) fun e _ => Probes.const _

theorem reads_firstChild (t : OfSize n) (i : Nat) : Probes sameIn 4 (fun t : OfSize n => t.1.firstChild i) t := by
  unfold firstChild
  refine Probes.bind (n := 2) (m := 2) (reads_assertNode t i) fun _ _ => ?_
  refine Probes.bind (n := 0) (m := 2) (Probes.const _) fun j _ => ?_
  exact Probes.bind (n := 2) (m := 0) (reads_get t j) fun w _ => Probes.const _

theorem reads_isLeaf (t : OfSize n) (i : Nat) : Probes sameIn 4 (fun t : OfSize n => t.1.isLeaf i) t := by
  unfold isLeaf
  refine Probes.bind (n := 2) (m := 2) (reads_assertNode t i) fun _ _ => ?_
  refine Probes.bind (n := 0) (m := 2) (Probes.const _) fun j _ => ?_
  exact Probes.bind (n := 2) (m := 0) (reads_get t j) fun w _ => Probes.const _

theorem reads_nodeIndex (t : OfSize n) (i : Nat) : Probes sameIn 14 (fun t : OfSize n => t.1.nodeIndex i) t := by
  unfold nodeIndex
  exact Probes.bind (n := 2) (m := 12) (reads_assertNode t i) fun _ _ => reads_rank t false i

theorem reads_root (t : OfSize n) : Probes sameIn 1 (fun t : OfSize n => t.1.root) t := by
  unfold root
  exact reads_vec t (Probes.map (fun l => if l = 0 then none else some 0) (RsVec.reads_len _))

end BpTree
end Vers
