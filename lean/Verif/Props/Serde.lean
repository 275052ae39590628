import Verif.Proofs.Serde
import Verif.Props.EliasFano
import Verif.Props.Sparse
import Verif.Props.Wavelet

/-!
# Property C54: serialization round trip

For every structure a constructor can build and for both kinds of formats, reading what was written yields the
same structure; hence every query on it has the same result as before. Lengths are `usize` values, i.e. below
2^64.
-/

namespace Vers

variable [Profile]
open Spec Serde

/-- Writing and reading again yields the structure itself, in formats with and without field names. -/
def RoundTrips {α : Type} (c : Codec α) (x : α) : Prop :=
  c.de (c.ser .named x) = some x ∧ c.de (c.ser .compact x) = some x

omit [Profile] in
theorem RoundTrips.of_rt {α : Type} {c : Codec α} {P : α → Prop} (h : Rt c P) {x : α} (hx : P x) : RoundTrips c x :=
  ⟨h .named x hx, h .compact x hx⟩

omit [Profile] in
theorem C54_bit_vec (v : BV) (hl : v.len < 2 ^ 64) : RoundTrips bitVec v := .of_rt rt_bitVec hl

example := C54_bit_vec (BV.fromOnes 70) (by decide)

theorem C54_rs_vec {v : BV} (h : v.WF) (hl : v.len < 2 ^ 64) :
    ∃ rs, RsVec.fromBitVec v = .ok rs ∧ RoundTrips rsVec rs := by
  obtain ⟨rs, h1, _⟩ := fromBitVec_inv h
  exact ⟨rs, h1, .of_rt rt_rsVec (fits_rsVec h hl h1)⟩

example := C54_rs_vec (v := BV.fromOnes 70) (by decide) (by decide)

theorem C54_elias_fano {fl : Nat → Nat} (hfl : LogLike fl) {data : List Word} {ef : EF} (hs : Sorted data)
    (h : EF.fromSlice fl data = .ok ef) (hl : data.length < 2 ^ 60) : RoundTrips eliasFano ef :=
  .of_rt rt_eliasFano (fits_eliasFano hfl hs h hl)

theorem C54_sparse {fl : Nat → Nat} (hfl : LogLike fl) {input : List Word} {len : Word} {s : Sparse}
    (hs : Sorted input) (h : Sparse.new fl input len = .ok s) (hl : input.length < 2 ^ 60) :
    RoundTrips sparse s := by
  refine .of_rt rt_sparse ?_
  unfold Sparse.new at h
  obtain ⟨_, _, h⟩ := bind_eq_ok.mp h
  obtain ⟨_, _, h⟩ := bind_eq_ok.mp h
  obtain ⟨vec, h1, h⟩ := bind_eq_ok.mp h
  cases h
  exact fits_eliasFano hfl hs h1 hl

example : ∃ s, Sparse.new ceilLog2 [3#64, 17#64, 40#64] 50#64 = .ok s ∧ RoundTrips sparse s := by
  obtain ⟨s, h, _⟩ := C27_new logLike_ceilLog2 (input := [3#64, 17#64, 40#64]) (len := 50#64) (by decide) (by simp) (by decide)
  exact ⟨s, h, C54_sparse logLike_ceilLog2 (by simp [Sorted]) h (by decide)⟩

theorem C54_binary_rmq {data : List Word} {s : BinRmq} (h : BinRmq.fromVec data = .ok s) : RoundTrips binRmq s :=
  .of_rt rt_binRmq (fits_binRmq h)

theorem C54_fast_rmq {data : List Word} {s : FastRmq} (h : FastRmq.fromVec data = .ok s) : RoundTrips fastRmq s :=
  .of_rt rt_fastRmq (fits_fastRmq h)

example : ∃ s, FastRmq.fromVec [4#64, 10#64, 3#64] = .ok s ∧ RoundTrips fastRmq s := by
  obtain ⟨s, h, _⟩ := FastRmq.fromVec_ok (data := [4#64, 10#64, 3#64]) (by decide)
  exact ⟨s, h, C54_fast_rmq h⟩

theorem C54_wavelet {m : WM} {k : Nat} {vals : List Nat} (h : WM.Built m k vals) (hl : vals.length < 2 ^ 64) :
    RoundTrips wavelet m := .of_rt rt_wavelet (fits_wavelet h hl)

/-- The length is at most `i64::MAX`, otherwise the construction may overflow. -/
theorem C54_bp_tree {v : BV} (hw : v.WF) {bs : Nat} (hbs : 0 < bs) (hl : v.len ≤ 9223372036854775807) {t : BpTree}
    (h : BpTree.fromBitVector bs v = .ok t) : RoundTrips bpTree t :=
  .of_rt rt_bpTree ⟨fits_rsVec hw (by omega) (BpTree.fromBitVector_vec h), fits_mmt hw hbs hl h⟩

example : ∃ t, BpTree.fromBitVector 8 ⟨[0b0011#64], 4⟩ = .ok t ∧ RoundTrips bpTree t := by
  obtain ⟨t, h⟩ : ∃ t, BpTree.fromBitVector 8 ⟨[0b0011#64], 4⟩ = .ok t := ⟨_, rfl⟩
  exact ⟨t, h, C54_bp_tree (by decide) (by decide) (by decide) h⟩

omit [Profile] in
/-- Reading does not validate: there is a stored value from which a bit vector is read that does not hold the
bits it claims to have, and reading its first bit panics. No constructor builds such a vector. -/
theorem C54_unvalidated_defect :
    ∃ v, bitVec.de (.map [("len", .num 64), ("data", .seq [])]) = some v ∧ ¬ v.WF ∧ v.get 0 = .error .oob :=
  ⟨⟨[], 64⟩, by rfl, by decide, by rfl⟩

/-- The block size is not part of the written data: a tree written with one block size can be read as a tree with
another one, and then answers wrongly. Twelve nested nodes with block size 64, read with block size 8: the root has
no closing parenthesis. -/
theorem C54_block_size_defect :
    ∃ t, BpTree.fromBitVector 64 ⟨[4095#64], 24⟩ = .ok t ∧ RoundTrips bpTree t ∧
      t.close 64 .u8 0 = .ok (some 23) ∧ t.close 8 .u8 0 = .ok none := by
  have h : BpTree.fromBitVector 64 ⟨[4095#64], 24⟩ =
      .ok (((BpTree.fromBitVector 64 ⟨[4095#64], 24⟩).toOption).get (by decide +revert +kernel)) := by
    decide +revert +kernel
  refine ⟨_, h, C54_bp_tree (by decide) (by omega) (by decide) h, ?_, ?_⟩
  · decide +revert +kernel
  · decide +revert +kernel

example : ∃ ef, EF.fromSlice ceilLog2 efExample = .ok ef ∧ RoundTrips eliasFano ef := by
  have hs : Sorted efExample := by unfold Sorted efExample; decide
  obtain ⟨ef, e, _⟩ := fromSlice_inv logLike_ceilLog2 hs (by decide) (by decide)
  exact ⟨ef, e, C54_elias_fano logLike_ceilLog2 hs e (by decide)⟩

example : ∃ s, BinRmq.fromVec [4#64, 10#64, 3#64] = .ok s ∧ RoundTrips binRmq s := by
  obtain ⟨s, s1, _⟩ := BinRmq.fromVec_ok (data := [4#64, 10#64, 3#64]) (by decide)
  exact ⟨s, s1, C54_binary_rmq s1⟩

example : ∃ t, BpTree.fromBitVector 8 ⟨[0b001011#64], 6⟩ = .ok t ∧ RoundTrips bpTree t := by
  obtain ⟨t, t1, _⟩ := BpTree.fromBitVector_rep (v := ⟨[0b001011#64], 6⟩) (bs := 8) (by decide) (by omega) (by decide)
    (by decide)
  exact ⟨t, t1, C54_bp_tree (by decide) (by omega) (by decide) t1⟩

/-- What a format with field names may present: every field must occur exactly once; the order of the fields and fields
with other names do not matter. -/
def ReadsFields {α : Type} (c : Codec α) (names : List String) : Prop :=
  (∀ l x, c.de (.map l) = some x → ∀ n ∈ names, l.countP (fun p => p.1 = n) = 1) ∧
  (∀ x, ∃ fs, c.ser .named x = .map fs ∧ fs.map (·.1) = names ∧
    ∀ extra l, (∀ p ∈ extra, p.1 ∉ names) → l.Perm (fs ++ extra) → c.de (.map l) = c.de (.map fs))

omit [Profile] in
theorem field_some {l : List (String × Value)} {i : Nat} {n : String} {v : Value} (h : field (.map l) i n = some v) :
    l.countP (fun p => p.1 = n) = 1 := by
  rw [List.countP_eq_length_filter]
  simp only [field] at h
  split at h
  · next p hp => rw [hp]; rfl
  · cases h

omit [Profile] in
theorem field_perm {fs extra l : List (String × Value)} {n : String} (i : Nat) (hn : n ∈ fs.map (·.1))
    (hd : (fs.map (·.1)).Nodup) (he : ∀ p ∈ extra, p.1 ∉ fs.map (·.1)) (h : l.Perm (fs ++ extra)) :
    field (.map l) i n = field (.map fs) i n := by
  have h1 : (fs.filter (fun p => p.1 = n)).length = 1 := by
    rw [← List.countP_eq_length_filter]
    have e : fs.countP (fun p => p.1 = n) = (fs.map (·.1)).count n := by
      rw [List.count, List.countP_map]
      exact List.countP_congr fun p _ => by simp
    rw [e]
    exact (hd.count (a := n)).trans (if_pos hn)
  have h2 : extra.filter (fun p => p.1 = n) = [] := by
    rw [List.filter_eq_nil_iff]
    intro p hp hpn
    exact he p hp (by rw [of_decide_eq_true hpn]; exact hn)
  have h3 := h.filter (fun p => p.1 = n)
  rw [List.filter_append, h2, List.append_nil] at h3
  obtain ⟨p, hp⟩ := List.length_eq_one_iff.mp h1
  rw [hp, List.perm_singleton] at h3
  simp only [field]
  rw [h3, hp]

omit [Profile] in
theorem bind_field {α β : Type} {l : List (String × Value)} {i : Nat} {n : String} {g : Value → Option α} {k : α → Option β}
    {x : β} (h : ((field (.map l) i n).bind g).bind k = some x) :
    l.countP (fun p => p.1 = n) = 1 ∧ ∃ a, k a = some x := by
  cases hf : field (.map l) i n with
  | none => rw [hf] at h; cases h
  | some v =>
    refine ⟨field_some hf, ?_⟩
    rw [hf] at h
    cases hg : g v with
    | none => simp [hg] at h
    | some a => exact ⟨a, by simpa [hg] using h⟩

omit [Profile] in
/-- How documents with field names are read: a document in which a field is missing or repeated is rejected, the order of
the fields and unknown fields are ignored. -/
theorem C54_documents :
    ReadsFields bitVec ["data", "len"] ∧
    ReadsFields rsVec ["data", "len", "blocks", "super_blocks", "select_blocks", "rank0", "rank1"] ∧
    ReadsFields eliasFano ["upper_vec", "lower_vec", "universe_zero", "universe_max", "lower_len", "len"] ∧
    ReadsFields sparse ["vec", "len"] ∧ ReadsFields binRmq ["data", "results"] ∧
    ReadsFields fastRmq ["data", "block_minima", "block_min_indices", "blocks"] ∧
    ReadsFields wavelet ["data"] ∧ ReadsFields bpTree ["vec", "min_max_tree"] := by
  refine ⟨⟨?_, fun x => ⟨_, rfl, rfl, fun extra l he hp => ?_⟩⟩, ⟨?_, fun x => ⟨_, rfl, rfl, fun extra l he hp => ?_⟩⟩, ⟨?_, fun x => ⟨_, rfl, rfl, fun extra l he hp => ?_⟩⟩, ⟨?_, fun x => ⟨_, rfl, rfl, fun extra l he hp => ?_⟩⟩, ⟨?_, fun x => ⟨_, rfl, rfl, fun extra l he hp => ?_⟩⟩, ⟨?_, fun x => ⟨_, rfl, rfl, fun extra l he hp => ?_⟩⟩, ⟨?_, fun x => ⟨_, rfl, rfl, fun extra l he hp => ?_⟩⟩, ⟨?_, fun x => ⟨_, rfl, rfl, fun extra l he hp => ?_⟩⟩⟩
  · intro l x h
    obtain ⟨c0, _, h⟩ := bind_field h
    obtain ⟨c1, _, h⟩ := bind_field h
    simp only [List.mem_cons, List.not_mem_nil, or_false]
    rintro n (rfl | rfl) <;> assumption
  · have key := fun i n hn => field_perm (n := n) i hn (by simp) he hp
    simp only [bitVec, key 0 "data" (by simp), key 1 "len" (by simp)]
  · intro l x h
    obtain ⟨c0, _, h⟩ := bind_field h
    obtain ⟨c1, _, h⟩ := bind_field h
    obtain ⟨c2, _, h⟩ := bind_field h
    obtain ⟨c3, _, h⟩ := bind_field h
    obtain ⟨c4, _, h⟩ := bind_field h
    obtain ⟨c5, _, h⟩ := bind_field h
    obtain ⟨c6, _, h⟩ := bind_field h
    simp only [List.mem_cons, List.not_mem_nil, or_false]
    rintro n (rfl | rfl | rfl | rfl | rfl | rfl | rfl) <;> assumption
  · have key := fun i n hn => field_perm (n := n) i hn (by simp) he hp
    simp only [rsVec, key 0 "data" (by simp), key 1 "len" (by simp), key 2 "blocks" (by simp), key 3 "super_blocks" (by simp), key 4 "select_blocks" (by simp), key 5 "rank0" (by simp), key 6 "rank1" (by simp)]
  · intro l x h
    obtain ⟨c0, _, h⟩ := bind_field h
    obtain ⟨c1, _, h⟩ := bind_field h
    obtain ⟨c2, _, h⟩ := bind_field h
    obtain ⟨c3, _, h⟩ := bind_field h
    obtain ⟨c4, _, h⟩ := bind_field h
    obtain ⟨c5, _, h⟩ := bind_field h
    simp only [List.mem_cons, List.not_mem_nil, or_false]
    rintro n (rfl | rfl | rfl | rfl | rfl | rfl) <;> assumption
  · have key := fun i n hn => field_perm (n := n) i hn (by simp) he hp
    simp only [eliasFano, key 0 "upper_vec" (by simp), key 1 "lower_vec" (by simp), key 2 "universe_zero" (by simp), key 3 "universe_max" (by simp), key 4 "lower_len" (by simp), key 5 "len" (by simp)]
  · intro l x h
    obtain ⟨c0, _, h⟩ := bind_field h
    obtain ⟨c1, _, h⟩ := bind_field h
    simp only [List.mem_cons, List.not_mem_nil, or_false]
    rintro n (rfl | rfl) <;> assumption
  · have key := fun i n hn => field_perm (n := n) i hn (by simp) he hp
    simp only [sparse, key 0 "vec" (by simp), key 1 "len" (by simp)]
  · intro l x h
    obtain ⟨c0, _, h⟩ := bind_field h
    obtain ⟨c1, _, h⟩ := bind_field h
    simp only [List.mem_cons, List.not_mem_nil, or_false]
    rintro n (rfl | rfl) <;> assumption
  · have key := fun i n hn => field_perm (n := n) i hn (by simp) he hp
    simp only [binRmq, key 0 "data" (by simp), key 1 "results" (by simp)]
  · intro l x h
    obtain ⟨c0, _, h⟩ := bind_field h
    obtain ⟨c1, _, h⟩ := bind_field h
    obtain ⟨c2, _, h⟩ := bind_field h
    obtain ⟨c3, _, h⟩ := bind_field h
    simp only [List.mem_cons, List.not_mem_nil, or_false]
    rintro n (rfl | rfl | rfl | rfl) <;> assumption
  · have key := fun i n hn => field_perm (n := n) i hn (by simp) he hp
    simp only [fastRmq, key 0 "data" (by simp), key 1 "block_minima" (by simp), key 2 "block_min_indices" (by simp), key 3 "blocks" (by simp)]
  · intro l x h
    obtain ⟨c0, _, h⟩ := bind_field h
    simp only [List.mem_cons, List.not_mem_nil, or_false]
    rintro n rfl
    assumption
  · have key := fun i n hn => field_perm (n := n) i hn (by simp) he hp
    simp only [wavelet, key 0 "data" (by simp)]
  · intro l x h
    obtain ⟨c0, _, h⟩ := bind_field h
    obtain ⟨c1, _, h⟩ := bind_field h
    simp only [List.mem_cons, List.not_mem_nil, or_false]
    rintro n (rfl | rfl) <;> assumption
  · have key := fun i n hn => field_perm (n := n) i hn (by simp) he hp
    simp only [bpTree, key 0 "vec" (by simp), key 1 "min_max_tree" (by simp)]

omit [Profile] in
example : bitVec.de (.map [("len", .num 3), ("comment", .num 0), ("data", .seq [.num 5])]) = some ⟨[5#64], 3⟩ ∧
    bitVec.de (.map [("len", .num 3), ("len", .num 3), ("data", .seq [.num 5])]) = none ∧
    bitVec.de (.map [("data", .seq [.num 5])]) = none := ⟨rfl, rfl, rfl⟩

end Vers
