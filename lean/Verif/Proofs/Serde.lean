import Verif.Model.Serde
import Verif.Proofs.Space

set_option linter.unusedSimpArgs false

namespace Vers.Serde

variable [Profile]
open Spec

/-- Reading returns what was written, for the values with `P`. -/
def Rt {α : Type} (c : Codec α) (P : α → Prop) : Prop := ∀ f x, P x → c.de (c.ser f x) = some x

omit [Profile] in
theorem rt_uint (b : Nat) : Rt (uint b) (· < 2 ^ b) := by
  intro f x h
  show (if (0 : Int) ≤ (x : Int) ∧ (x : Int).toNat < 2 ^ b then some (x : Int).toNat else none) = some x
  rw [Int.toNat_natCast, if_pos ⟨Int.natCast_nonneg x, h⟩]

omit [Profile] in
theorem rt_sint : Rt sint (fun i => -2 ^ 63 ≤ i ∧ i < 2 ^ 63) := by
  intro f x h
  show (if _ then _ else _) = _
  rw [if_pos h]

omit [Profile] in
theorem rt_word (b : Nat) : Rt (word b) (fun _ => True) := by
  intro f x _
  have := rt_uint b f x.toNat x.isLt
  simp [word, this]

omit [Profile] in
theorem rt_seq {α : Type} {c : Codec α} {P : α → Prop} (h : Rt c P) : Rt (seqOf c) (fun l => ∀ x ∈ l, P x) := by
  intro f l
  show _ → deList c (l.map (c.ser f)) = some l
  induction l with
  | nil => intro _; rfl
  | cons x l ih =>
    intro hl
    simp [deList, h f x (hl x (by simp)), ih (fun y hy => hl y (by simp [hy]))]

omit [Profile] in
theorem rt_words : ∀ f (l : List Word), (seqOf (word 64)).de ((seqOf (word 64)).ser f l) = some l :=
  fun f l => rt_seq (rt_word 64) f l (fun _ _ => trivial)

omit [Profile] in
theorem rt_w (b : Nat) : ∀ f (w : BitVec b), (word b).de ((word b).ser f w) = some w := fun f w => rt_word b f w trivial

omit [Profile] in
theorem rt_blockDescriptor : Rt blockDescriptor (· < 2 ^ 16) := by
  intro f x h
  have := rt_uint 16 f x h
  simp only [blockDescriptor]
  generalize uint 16 = c0 at this ⊢
  cases f <;> simp [struct, field, this]

omit [Profile] in
theorem rt_superBlockDescriptor : Rt superBlockDescriptor (· < 2 ^ 64) := by
  intro f x h
  have := rt_uint 64 f x h
  simp only [superBlockDescriptor]
  generalize uint 64 = c0 at this ⊢
  cases f <;> simp [struct, field, this]

omit [Profile] in
theorem rt_selectDescriptor : Rt selectDescriptor (fun e => e.1 < 2 ^ 64 ∧ e.2 < 2 ^ 64) := by
  intro f x h
  have h1 := rt_uint 64 f x.1 h.1
  have h2 := rt_uint 64 f x.2 h.2
  simp only [selectDescriptor]
  generalize uint 64 = c0 at h1 h2 ⊢
  cases f <;> simp [struct, field, h1, h2]

omit [Profile] in
theorem rt_bitVec : Rt bitVec (fun v => v.len < 2 ^ 64) := by
  intro f x h
  have h1 := rt_uint 64 f x.len h
  have h2 := rt_words f x.data
  simp only [bitVec]
  generalize uint 64 = c0 at h1 h2 ⊢
  generalize seqOf (word 64) = c1 at h1 h2 ⊢
  cases f <;> simp [struct, field, h1, h2]

/-- Every number is in the range of its type. -/
structure FitsRs (r : RsVec) : Prop where
  len : r.len < 2 ^ 64
  blocks : ∀ x ∈ r.blocks, x < 2 ^ 16
  supers : ∀ x ∈ r.supers, x < 2 ^ 64
  selects : ∀ e ∈ r.selects, e.1 < 2 ^ 64 ∧ e.2 < 2 ^ 64
  rank0 : r.rank0 < 2 ^ 64
  rank1 : r.rank1 < 2 ^ 64

omit [Profile] in
theorem rt_rsVec : Rt rsVec FitsRs := by
  intro f x h
  have h1 := rt_words f x.data
  have h2 := rt_uint 64 f x.len h.len
  have h3 := rt_seq rt_blockDescriptor f x.blocks h.blocks
  have h4 := rt_seq rt_superBlockDescriptor f x.supers h.supers
  have h5 := rt_seq rt_selectDescriptor f x.selects h.selects
  have h6 := rt_uint 64 f x.rank0 h.rank0
  have h7 := rt_uint 64 f x.rank1 h.rank1
  simp only [rsVec]
  generalize seqOf (word 64) = c0 at h1 h2 h3 h4 h5 h6 h7 ⊢
  generalize seqOf blockDescriptor = c1 at h1 h2 h3 h4 h5 h6 h7 ⊢
  generalize seqOf superBlockDescriptor = c2 at h1 h2 h3 h4 h5 h6 h7 ⊢
  generalize seqOf selectDescriptor = c3 at h1 h2 h3 h4 h5 h6 h7 ⊢
  generalize uint 64 = c4 at h1 h2 h3 h4 h5 h6 h7 ⊢
  cases f <;> simp [struct, field, h1, h2, h3, h4, h5, h6, h7]

structure FitsEf (e : EF) : Prop where
  upper : FitsRs e.upper
  lower : e.lower.len < 2 ^ 64
  lowerLen : e.lowerLen < 2 ^ 64
  len : e.len < 2 ^ 64

omit [Profile] in
theorem rt_eliasFano : Rt eliasFano FitsEf := by
  intro f x h
  have h1 := rt_rsVec f x.upper h.upper
  have h2 := rt_bitVec f x.lower h.lower
  have h3 := rt_w 64 f x.zero
  have h4 := rt_w 64 f x.max
  have h5 := rt_uint 64 f x.lowerLen h.lowerLen
  have h6 := rt_uint 64 f x.len h.len
  simp only [eliasFano]
  generalize rsVec = c0 at h1 h2 h3 h4 h5 h6 ⊢
  generalize bitVec = c1 at h1 h2 h3 h4 h5 h6 ⊢
  generalize word 64 = c2 at h1 h2 h3 h4 h5 h6 ⊢
  generalize uint 64 = c3 at h1 h2 h3 h4 h5 h6 ⊢
  cases f <;> simp [struct, field, h1, h2, h3, h4, h5, h6]

omit [Profile] in
theorem rt_sparse : Rt sparse (fun s => FitsEf s.vec) := by
  intro f x h
  have h1 := rt_eliasFano f x.vec h
  have h2 := rt_w 64 f x.len
  simp only [sparse]
  generalize eliasFano = c0 at h1 h2 ⊢
  generalize word 64 = c1 at h1 h2 ⊢
  cases f <;> simp [struct, field, h1, h2]

omit [Profile] in
theorem rt_binRmq : Rt binRmq (fun s => ∀ x ∈ s.results, x < 2 ^ 32) := by
  intro f x h
  have h1 := rt_words f x.data
  have h2 := rt_seq (rt_uint 32) f x.results h
  simp only [binRmq]
  generalize seqOf (word 64) = c0 at h1 h2 ⊢
  generalize seqOf (uint 32) = c1 at h1 h2 ⊢
  cases f <;> simp [struct, field, h1, h2]

omit [Profile] in
theorem rt_rmqBlock : Rt rmqBlock (fun _ => True) := by
  intro f x _
  have h1 := rt_w 128 f x.pre
  have h2 := rt_w 128 f x.suf
  simp only [rmqBlock]
  generalize word 128 = c0 at h1 h2 ⊢
  cases f <;> simp [struct, field, h1, h2]

omit [Profile] in
theorem rt_fastRmq : Rt fastRmq (fun s => (∀ x ∈ s.blockMinima.results, x < 2 ^ 32) ∧ ∀ x ∈ s.blockMinIndices, x < 2 ^ 8) := by
  intro f x h
  have h1 := rt_words f x.data
  have h2 := rt_binRmq f x.blockMinima h.1
  have h3 := rt_seq (rt_uint 8) f x.blockMinIndices h.2
  have h4 := rt_seq rt_rmqBlock f x.blocks (fun _ _ => trivial)
  simp only [fastRmq]
  generalize seqOf (word 64) = c0 at h1 h2 h3 h4 ⊢
  generalize binRmq = c1 at h1 h2 h3 h4 ⊢
  generalize seqOf (uint 8) = c2 at h1 h2 h3 h4 ⊢
  generalize seqOf rmqBlock = c3 at h1 h2 h3 h4 ⊢
  cases f <;> simp [struct, field, h1, h2, h3, h4]

omit [Profile] in
theorem rt_wavelet : Rt wavelet (fun m => ∀ r ∈ m.data, FitsRs r) := by
  intro f x h
  have h1 := rt_seq rt_rsVec f x.data h
  simp only [wavelet]
  generalize seqOf rsVec = c0 at h1 ⊢
  cases f <;> simp [struct, field, h1]

def FitsNode (n : ExcessNode) : Prop :=
  (-2 ^ 63 ≤ n.total ∧ n.total < 2 ^ 63) ∧ (-2 ^ 63 ≤ n.minE ∧ n.minE < 2 ^ 63) ∧ (-2 ^ 63 ≤ n.maxE ∧ n.maxE < 2 ^ 63)

omit [Profile] in
theorem rt_excessNode : Rt excessNode FitsNode := by
  intro f x h
  have h1 := rt_sint f x.total h.1
  have h2 := rt_sint f x.minE h.2.1
  have h3 := rt_sint f x.maxE h.2.2
  simp only [excessNode]
  generalize sint = c0 at h1 h2 h3 ⊢
  cases f <;> simp [struct, field, h1, h2, h3]

omit [Profile] in
theorem rt_minMaxTree : Rt minMaxTree (fun t => ∀ n ∈ t.nodes, FitsNode n) := by
  intro f x h
  have h1 := rt_seq rt_excessNode f x.nodes h
  simp only [minMaxTree]
  generalize seqOf excessNode = c0 at h1 ⊢
  cases f <;> simp [struct, field, h1]

omit [Profile] in
theorem rt_bpTree : Rt bpTree (fun t => FitsRs t.vec ∧ ∀ n ∈ t.mmt.nodes, FitsNode n) := by
  intro f x h
  have h1 := rt_rsVec f x.vec h.1
  have h2 := rt_minMaxTree f x.mmt h.2
  simp only [bpTree]
  generalize rsVec = c0 at h1 h2 ⊢
  generalize minMaxTree = c1 at h1 h2 ⊢
  cases f <;> simp [struct, field, h1, h2]

/-! ## Constructed structures -/

/-- All indices of the select blocks are below `n`. -/
def SelLe (n : Nat) (sel : List (Nat × Nat)) : Prop := ∀ e ∈ sel, e.1 ≤ n ∧ e.2 ≤ n

omit [Profile] in
theorem SelLe.mono {n m : Nat} {sel : List (Nat × Nat)} (h : SelLe n sel) (hm : n ≤ m) : SelLe m sel :=
  fun e he => ⟨Nat.le_trans (h e he).1 hm, Nat.le_trans (h e he).2 hm⟩

omit [Profile] in
theorem mem_of_idx {α : Type} {l : List α} {i : Nat} {x : α} (h : idx l i = .ok x) : x ∈ l := by
  unfold idx at h
  split at h
  · rename_i hx; cases h; exact List.mem_of_getElem? hx
  · cases h

omit [Profile] in
theorem mem_of_setIdx {α : Type} {l l' : List α} {i : Nat} {x y : α} (h : setIdx l i x = .ok l') (hy : y ∈ l') :
    y = x ∨ y ∈ l := by
  unfold setIdx at h
  split at h
  · cases h; exact (List.mem_or_eq_of_mem_set hy).symm
  · cases h

omit [Profile] in
theorem SelLe.mk {n : Nat} {z : Bool} {v : Nat} (hv : v ≤ n) : (mkSel z v).1 ≤ n ∧ (mkSel z v).2 ≤ n := by
  cases z <;> simp [mkSel, hv]

omit [Profile] in
theorem SelLe.upd {n : Nat} {z : Bool} {v : Nat} {e : Nat × Nat} (he : e.1 ≤ n ∧ e.2 ≤ n) (hv : v ≤ n) :
    (updSel z e v).1 ≤ n ∧ (updSel z e v).2 ≤ n := by
  cases z <;> simp [updSel, hv, he]

omit [Profile] in
theorem SelLe.prj {n : Nat} {z : Bool} {e : Nat × Nat} (he : e.1 ≤ n ∧ e.2 ≤ n) : Vers.prj z e ≤ n := by
  cases z <;> simp [Vers.prj, he]

omit [Profile] in
theorem setSelect_le {n : Nat} {z : Bool} {sel sel' : List (Nat × Nat)} {k v : Nat} (hs : SelLe n sel) (hv : v ≤ n)
    (h : RsVec.setSelect z sel k v = .ok sel') : SelLe n sel' := by
  unfold RsVec.setSelect at h
  split at h
  · cases h
    intro e he
    rcases List.mem_append.mp he with h1 | h1
    · exact hs e h1
    · rw [List.mem_singleton.mp h1]; exact SelLe.mk hv
  · obtain ⟨e, h1, h2⟩ := bind_eq_ok.mp h
    intro y hy
    rcases mem_of_setIdx h2 hy with h3 | h3
    · rw [h3]; exact SelLe.upd (hs e (mem_of_idx h1)) hv
    · exact hs y h3

theorem selectStep_le {n : Nat} {z : Bool} {sel : List (Nat × Nat)} {last b a : Nat} {p : List (Nat × Nat) × Nat}
    (hn : 1 ≤ n) (hs : SelLe n sel) (h : RsVec.selectStep z n sel last b a = .ok p) : SelLe n p.1 := by
  unfold RsVec.selectStep at h
  split at h
  · obtain ⟨s, h1, h⟩ := bind_eq_ok.mp h
    obtain ⟨sel', h2, h⟩ := bind_eq_ok.mp h
    cases h
    refine setSelect_le hs ?_ h2
    rw [subR_of_le hn] at h1
    cases h1; omega
  · cases h; exact hs

theorem dummySelect_le {n : Nat} {z : Bool} {sel sel' : List (Nat × Nat)} {last : Nat}
    (hs : SelLe n sel) (h : RsVec.dummySelect z sel last = .ok sel') : SelLe n sel' := by
  unfold RsVec.dummySelect at h
  obtain ⟨m, h1, h⟩ := bind_eq_ok.mp h
  split at h
  · obtain ⟨e, h2, h⟩ := bind_eq_ok.mp h
    cases h
    intro y hy
    rcases List.mem_append.mp hy with h3 | h3
    · exact hs y h3
    · rw [List.mem_singleton.mp h3]; exact SelLe.mk (SelLe.prj (hs e (mem_of_idx h2)))
  · obtain ⟨e1, h2, h⟩ := bind_eq_ok.mp h
    obtain ⟨_, _, h⟩ := bind_eq_ok.mp h
    obtain ⟨e, h3, h⟩ := bind_eq_ok.mp h
    intro y hy
    rcases mem_of_setIdx h hy with h4 | h4
    · rw [h4]; exact SelLe.upd (hs e1 (mem_of_idx h2)) (SelLe.prj (hs e (mem_of_idx h3)))
    · exact hs y h4

/-- What the loop preserves. -/
structure FitsBuild (st : RsVec.Build) : Prop where
  blocks : ∀ x ∈ st.blocks, x < 2 ^ 16
  sel : SelLe st.supers.length st.selects

omit [Profile] in
theorem pushBlock_fits {st : RsVec.Build} {i : Nat} (h : FitsBuild st) : FitsBuild (RsVec.pushBlock st i) := by
  have h1 : FitsBuild (RsVec.pushSuper st i) := by
    unfold RsVec.pushSuper
    split
    · exact ⟨h.blocks, h.sel.mono (by simp)⟩
    · exact h
  unfold RsVec.pushBlock
  split
  · refine ⟨?_, h1.sel⟩
    intro x hx
    rcases List.mem_append.mp hx with h2 | h2
    · exact h1.blocks x h2
    · rw [List.mem_singleton.mp h2]; omega
  · exact h

theorem buildLoop_fits {len dlen : Nat} : ∀ {ws : List Word} {st st' : RsVec.Build} {i : Nat}, i = 0 ∨ 1 ≤ st.supers.length → FitsBuild st →
    RsVec.buildLoop len dlen st i ws = .ok st' → FitsBuild st'
  | [], st, st', i, _, h, e => by unfold RsVec.buildLoop at e; cases e; exact h
  | w :: ws, st, st', i, hi, h, e => by
    unfold RsVec.buildLoop at e
    obtain ⟨st1, e1, e⟩ := bind_eq_ok.mp e
    have hp := pushBlock_fits (i := i) h
    have hn : 1 ≤ (RsVec.pushBlock st i).supers.length := by
      have h1 : 1 ≤ (RsVec.pushSuper st i).supers.length ∨ i ≠ 0 := by
        unfold RsVec.pushSuper
        split
        · left; simp
        · right; omega
      unfold RsVec.pushBlock
      split
      · show 1 ≤ (RsVec.pushSuper st i).supers.length
        rcases h1 with h1 | h1
        · exact h1
        · unfold RsVec.pushSuper
          split
          · simp
          · omega
      · omega
    refine buildLoop_fits (Or.inr ?_) ?_ e
    · unfold RsVec.buildStep at e1
      obtain ⟨nz, _, e1⟩ := bind_eq_ok.mp e1
      obtain ⟨p0, f0, e1⟩ := bind_eq_ok.mp e1
      obtain ⟨_, _, e1⟩ := bind_eq_ok.mp e1
      obtain ⟨_, _, e1⟩ := bind_eq_ok.mp e1
      obtain ⟨p1, f1, e1⟩ := bind_eq_ok.mp e1
      cases e1
      exact hn
    unfold RsVec.buildStep at e1
    obtain ⟨nz, _, e1⟩ := bind_eq_ok.mp e1
    obtain ⟨p0, f0, e1⟩ := bind_eq_ok.mp e1
    obtain ⟨_, _, e1⟩ := bind_eq_ok.mp e1
    obtain ⟨_, _, e1⟩ := bind_eq_ok.mp e1
    obtain ⟨p1, f1, e1⟩ := bind_eq_ok.mp e1
    cases e1
    exact ⟨hp.blocks, selectStep_le hn (selectStep_le hn hp.sel f0) f1⟩

theorem fits_rsVec {v : BV} (hw : v.WF) (hl : v.len < 2 ^ 64) {rs : RsVec} (h : RsVec.fromBitVec v = .ok rs) :
    FitsRs rs := by
  obtain ⟨rs', h1, inv, e1, e2⟩ := fromBitVec_inv hw
  rw [h] at h1; cases h1
  have hl' : rs.len < 2 ^ 64 := by rw [e2]; exact hl
  have hd := inv.wf
  have hsl := inv.slen
  have hr : ∀ b, C rs.data b rs.len ≤ rs.len := fun b => C_le _ _ _
  have hb : (∀ x ∈ rs.blocks, x < 2 ^ 16) ∧ SelLe rs.supers.length rs.selects := by
    unfold RsVec.fromBitVec at h
    obtain ⟨st, s1, h⟩ := bind_eq_ok.mp h
    obtain ⟨sel, s2, h⟩ := bind_eq_ok.mp h
    obtain ⟨sel', s3, h⟩ := bind_eq_ok.mp h
    obtain ⟨_, _, h⟩ := bind_eq_ok.mp h
    cases h
    have hf : FitsBuild st := by
      refine buildLoop_fits (Or.inl rfl) ⟨?_, ?_⟩ s1
      · intro x hx; cases hx
      · intro e he
        rw [List.mem_singleton.mp he]; simp
    exact ⟨hf.blocks, dummySelect_le (dummySelect_le hf.sel s2) s3⟩
  refine ⟨hl', hb.1, ?_, ?_, ?_, ?_⟩
  · intro x hx
    obtain ⟨s, s1, s2⟩ := List.mem_iff_getElem.mp hx
    have := inv.sval s s1
    rw [List.getElem?_eq_getElem s1, s2] at this
    injection this with this
    have := C_le rs.data false (8192 * s)
    omega
  · intro e he
    have := hb.2 e he
    omega
  · rw [inv.r0]; have := hr false; omega
  · rw [inv.r1]; have := hr true; omega

theorem fits_empty {rs : RsVec} (h : RsVec.fromBitVec BV.new = .ok rs) : FitsRs rs :=
  fits_rsVec (by rfl) (by decide) h

theorem fits_eliasFano {fl : Nat → Nat} (hfl : LogLike fl) {data : List Word} {ef : EF} (hs : Sorted data)
    (h : EF.fromSlice fl data = .ok ef) (hl : data.length < 2 ^ 60) : FitsEf ef := by
  by_cases hne : data = []
  · subst hne
    unfold EF.fromSlice at h
    rw [if_pos rfl] at h
    obtain ⟨rs, h1, h⟩ := bind_eq_ok.mp h
    cases h
    exact ⟨fits_empty h1, Nat.two_pow_pos 64, Nat.two_pow_pos 64, Nat.two_pow_pos 64⟩
  · obtain ⟨w, u, _, w1, w2, u1, u2, u3, l1, l2, s1, s2⟩ := fromSlice_parts hfl hne h hs hl
    have hll : ef.lower.len < 2 ^ 64 := by
      rcases Nat.eq_zero_or_pos w with hw | hw
      · rw [(l2 hw).2]; exact Nat.two_pow_pos 64
      · rw [(l1 hw).2]; exact s2
    refine ⟨fits_rsVec u1 (by rw [u2]; exact s1) u3, hll, by rw [w2]; exact Nat.lt_trans w1 (by decide), ?_⟩
    unfold EF.fromSlice at h
    rw [if_neg hne] at h
    unfold EF.fromNonEmpty at h
    obtain ⟨_, _, h⟩ := bind_eq_ok.mp h
    obtain ⟨_, _, h⟩ := bind_eq_ok.mp h
    obtain ⟨_, _, h⟩ := bind_eq_ok.mp h
    obtain ⟨_, _, h⟩ := bind_eq_ok.mp h
    obtain ⟨_, _, h⟩ := bind_eq_ok.mp h
    obtain ⟨_, _, h⟩ := bind_eq_ok.mp h
    obtain ⟨_, _, h⟩ := bind_eq_ok.mp h
    obtain ⟨_, _, h⟩ := bind_eq_ok.mp h
    obtain ⟨_, _, h⟩ := bind_eq_ok.mp h
    obtain ⟨_, _, h⟩ := bind_eq_ok.mp h
    cases h
    show data.length < 2 ^ 64
    omega

theorem fits_binRmq {data : List Word} {s : BinRmq} (h : BinRmq.fromVec data = .ok s) : ∀ x ∈ s.results, x < 2 ^ 32 := by
  unfold BinRmq.fromVec at h
  obtain ⟨_, _, h⟩ := bind_eq_ok.mp h
  obtain ⟨r1, h1, h⟩ := bind_eq_ok.mp h
  obtain ⟨r2, h2, h⟩ := bind_eq_ok.mp h
  cases h
  have a1 : ∀ n r r', (∀ x ∈ r, x < 2 ^ 32) → BinRmq.initCol (log2Ceil data.length + 1) n r = .ok r' → ∀ x ∈ r', x < 2 ^ 32 := by
    intro n
    induction n with
    | zero => intro r r' hr e; unfold BinRmq.initCol at e; cases e; exact hr
    | succ n ih =>
      intro r r' hr e
      unfold BinRmq.initCol at e
      obtain ⟨q, q1, e⟩ := bind_eq_ok.mp e
      intro x hx
      rcases mem_of_setIdx e hx with h3 | h3
      · rw [h3]; decide
      · exact ih r q hr q1 x h3
  have a2 : ∀ i n r r', (∀ x ∈ r, x < 2 ^ 32) → BinRmq.inner data (log2Ceil data.length + 1) i n r = .ok r' →
      ∀ x ∈ r', x < 2 ^ 32 := by
    intro i n
    induction n with
    | zero => intro r r' hr e; unfold BinRmq.inner at e; cases e; exact hr
    | succ n ih =>
      intro r r' hr e
      unfold BinRmq.inner at e
      obtain ⟨q, q1, e⟩ := bind_eq_ok.mp e
      unfold BinRmq.step at e
      obtain ⟨_, _, e⟩ := bind_eq_ok.mp e
      obtain ⟨d, _, e⟩ := bind_eq_ok.mp e
      intro x hx
      rcases mem_of_setIdx e hx with h3 | h3
      · rw [h3]; exact Nat.mod_lt _ (by decide)
      · exact ih r q hr q1 x h3
  have a3 : ∀ n r r', (∀ x ∈ r, x < 2 ^ 32) → BinRmq.outer data (log2Ceil data.length + 1) n r = .ok r' →
      ∀ x ∈ r', x < 2 ^ 32 := by
    intro n
    induction n with
    | zero => intro r r' hr e; unfold BinRmq.outer at e; cases e; exact hr
    | succ n ih =>
      intro r r' hr e
      unfold BinRmq.outer at e
      obtain ⟨q, q1, e⟩ := bind_eq_ok.mp e
      exact a2 _ _ q r' (ih r q hr q1) e
  refine a3 _ _ _ (a1 _ _ _ ?_ h1) h2
  intro x hx
  rw [(List.mem_replicate.mp hx).2]; decide

theorem preLoop_fits {block : List Word} : ∀ {n : Nat} {s s' : FastRmq.PreState}, s.blockIdx < 2 ^ 8 →
    FastRmq.preLoop block n s = .ok s' → s'.blockIdx < 2 ^ 8
  | 0, s, s', h, e => by unfold FastRmq.preLoop at e; cases e; exact h
  | n + 1, s, s', h, e => by
    unfold FastRmq.preLoop at e
    obtain ⟨q, q1, e⟩ := bind_eq_ok.mp e
    obtain ⟨x, _, e⟩ := bind_eq_ok.mp e
    obtain ⟨p, p1, e⟩ := bind_eq_ok.mp e
    cases e
    have hq := preLoop_fits h q1
    have hp : p.blockIdx < 2 ^ 8 := by
      unfold FastRmq.preBits at p1
      split at p1
      · cases p1; exact hq
      · obtain ⟨_, _, p1⟩ := bind_eq_ok.mp p1
        cases p1; exact hq
    unfold FastRmq.preMinimum
    split
    · show (n + 1) % 256 < 256; omega
    · exact hp

theorem mkBlocks_fits {data : List Word} : ∀ {n : Nat} {bs : List (Word × Nat × RmqBlock)},
    FastRmq.mkBlocks data n = .ok bs → ∀ r ∈ bs, r.2.1 < 2 ^ 8
  | 0, bs, e => by unfold FastRmq.mkBlocks at e; cases e; intro r hr; cases hr
  | n + 1, bs, e => by
    unfold FastRmq.mkBlocks at e
    obtain ⟨q, q1, e⟩ := bind_eq_ok.mp e
    obtain ⟨b, b1, e⟩ := bind_eq_ok.mp e
    cases e
    intro r hr
    rcases List.mem_append.mp hr with h | h
    · exact mkBlocks_fits q1 r h
    · rw [List.mem_singleton.mp h]
      unfold FastRmq.mkBlock at b1
      obtain ⟨_, _, b1⟩ := bind_eq_ok.mp b1
      obtain ⟨p, p1, b1⟩ := bind_eq_ok.mp b1
      obtain ⟨_, _, b1⟩ := bind_eq_ok.mp b1
      obtain ⟨_, _, b1⟩ := bind_eq_ok.mp b1
      obtain ⟨_, _, b1⟩ := bind_eq_ok.mp b1
      cases b1
      exact preLoop_fits (Nat.two_pow_pos 8) p1

theorem fits_fastRmq {data : List Word} {s : FastRmq} (h : FastRmq.fromVec data = .ok s) :
    (∀ x ∈ s.blockMinima.results, x < 2 ^ 32) ∧ ∀ x ∈ s.blockMinIndices, x < 2 ^ 8 := by
  unfold FastRmq.fromVec at h
  obtain ⟨_, _, h⟩ := bind_eq_ok.mp h
  obtain ⟨bs, h1, h⟩ := bind_eq_ok.mp h
  obtain ⟨bm, h2, h⟩ := bind_eq_ok.mp h
  cases h
  refine ⟨fits_binRmq h2, fun x hx => ?_⟩
  obtain ⟨r, r1, r2⟩ := List.mem_map.mp hx
  rw [← r2]; exact mkBlocks_fits h1 r r1

theorem buildAll_fits : ∀ {vs : List BV} {data : List RsVec}, WM.buildAll vs = .ok data →
    (∀ v ∈ vs, v.WF ∧ v.len < 2 ^ 64) → ∀ r ∈ data, FitsRs r
  | [], _, h, _, r, hr => by unfold WM.buildAll at h; cases h; cases hr
  | v :: vs, data, h, hv, r, hr => by
    unfold WM.buildAll at h
    obtain ⟨q, h1, h⟩ := bind_eq_ok.mp h
    obtain ⟨rest, h2, h⟩ := bind_eq_ok.mp h
    cases h
    rcases List.mem_cons.mp hr with h3 | h3
    · rw [h3]
      exact fits_rsVec (hv v List.mem_cons_self).1 (hv v List.mem_cons_self).2 h1
    · exact buildAll_fits h2 (fun x hx => hv x (List.mem_cons_of_mem _ hx)) r h3

theorem fits_wavelet {m : WM} {k : Nat} {vals : List Nat} (h : WM.Built m k vals) (hl : vals.length < 2 ^ 64) :
    ∀ r ∈ m.data, FitsRs r := by
  obtain ⟨vs, v1, v2, v3⟩ := WM.built_vecs h
  refine buildAll_fits v1 (fun v hv => ?_)
  obtain ⟨h1, h2⟩ := WM.goodV_len v3 v hv
  exact ⟨h1, by rw [h2]; exact hl⟩

theorem fits_mmt {v : BV} (hw : v.WF) {bs : Nat} (hbs : 0 < bs) (hl : v.len ≤ 9223372036854775807) {t : BpTree}
    (h : BpTree.fromBitVector bs v = .ok t) : ∀ n ∈ t.mmt.nodes, FitsNode n := by
  by_cases h0 : v.len = 0
  · unfold BpTree.fromBitVector at h
    obtain ⟨m, h1, h⟩ := bind_eq_ok.mp h
    obtain ⟨_, _, h⟩ := bind_eq_ok.mp h
    cases h
    unfold MMT.excessTree at h1
    rw [if_pos (by simp [BV.isEmpty, h0])] at h1
    cases h1
    intro n hn; cases hn
  · obtain ⟨t', t1, t2⟩ := BpTree.fromBitVector_rep hw hbs (show 0 < v.len by omega) hl
    rw [h] at t1; cases t1
    obtain ⟨K, L, hm⟩ := t2.mmt
    intro n hn
    obtain ⟨x, x1, x2⟩ := List.mem_iff_getElem.mp hn
    have hc := hm.cells x x1
    rw [List.getElem?_eq_getElem x1, x2] at hc
    injection hc with hc
    rw [hc]
    have hlen : ∀ a b, (sec v.bits a b).length ≤ v.len := by
      intro a b
      have := BV.length_bits v
      unfold sec
      simp only [List.length_drop, List.length_take]
      omega
    have hlen := hlen (MMT.lo K bs x) (MMT.hi K bs x)
    have h1 := excess_natAbs_le (sec v.bits (MMT.lo K bs x) (MMT.hi K bs x))
    have h2 := minPre_natAbs_le (sec v.bits (MMT.lo K bs x) (MMT.hi K bs x))
    have h3 := maxPre_natAbs_le (sec v.bits (MMT.lo K bs x) (MMT.hi K bs x))
    unfold MMT.hv segNode FitsNode
    simp only
    omega

end Vers.Serde
