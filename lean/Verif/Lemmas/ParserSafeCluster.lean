/-
No file leads mkvparser's clusters into undefined behaviour, and what they hand out lies inside the file.
-/
import Verif.Lemmas.ParserSafe
import Verif.Lemmas.ParserClusterAt
import Verif.Props.Blocks
import Verif.Model.ParserCues

namespace Verif.Par
open Verif

/-! ### Blocks -/

theorem readFlag_safe (r : Rdr) (p : Nat) : Safe (readFlag r p) := by
  unfold readFlag
  split
  · exact Safe.ok _
  · exact Safe.err _

theorem xiphSize_safe (r : Rdr) : ∀ (f p n : Nat), Safe (xiphSize r f p n)
  | 0, _, _ => Safe.err _
  | f + 1, p, n => by
    unfold xiphSize
    exact Safe.bind (readFlag_safe _ _) fun _ _ => Safe.ite (fun _ => Safe.ok _) fun _ => xiphSize_safe r f _ _

theorem xiphSizes_safe (r : Rdr) (stop : Nat) : ∀ (n p : Nat), Safe (xiphSizes r stop n p)
  | 0, _ => Safe.ok _
  | n + 1, p => by
    unfold xiphSizes
    exact Safe.bind (xiphSize_safe _ _ _ _) fun _ _ => Safe.bind Safe.refuse fun _ _ =>
      Safe.bind (xiphSizes_safe r stop n _) fun _ _ => Safe.ok _

theorem layFrames_safe (stop : Nat) : ∀ (ls : List Nat) (p : Nat), Safe (layFrames stop ls p)
  | [], _ => Safe.ok _
  | l :: ls, p => by
    unfold layFrames
    exact Safe.bind Safe.refuse fun _ _ => Safe.bind (layFrames_safe stop ls _) fun _ _ => Safe.ok _

theorem ebmlSizes_safe (r : Rdr) (stop : Nat) : ∀ (n p fs s : Nat), Safe (ebmlSizes r stop n p fs s)
  | 0, _, _, _ => Safe.ok _
  | n + 1, p, fs, s => by
    unfold ebmlSizes
    exact Safe.bind Safe.refuse fun _ _ => Safe.bind (Safe.orErr (readUInt_safe _ _)) fun _ _ =>
      Safe.bind Safe.refuse fun _ _ => Safe.bind Safe.refuse fun _ _ => Safe.bind Safe.refuse fun _ _ =>
      Safe.bind Safe.refuse fun _ _ => Safe.bind (ebmlSizes_safe r stop n _ _ _) fun _ _ => Safe.ok _

theorem lastSize_safe (stop pos size : Nat) : Safe (lastSize stop pos size) := by
  unfold lastSize
  exact Safe.bind Safe.refuse fun _ _ => Safe.bind Safe.refuse fun _ _ => Safe.bind Safe.refuse fun _ _ => Safe.ok _

theorem finishLace_safe (stop : Nat) (ls : List Nat) (p : Nat) : Safe (finishLace stop ls p) := by
  unfold finishLace
  exact Safe.bind (layFrames_safe _ _ _) fun _ _ => Safe.bind Safe.refuse fun _ _ => Safe.ok _

theorem parseFrames_safe (r : Rdr) (stop : Nat) (flags : UInt8) (pos : Nat) : Safe (parseFrames r stop flags pos) := by
  unfold parseFrames
  refine Safe.ite (fun _ => Safe.bind Safe.refuse fun _ _ => Safe.bind Safe.refuse fun _ _ => Safe.ok _) fun _ =>
    Safe.bind Safe.refuse fun _ _ => Safe.bind (readFlag_safe _ _) fun _ _ => Safe.bind Safe.refuse fun _ _ =>
    Safe.ite (fun _ => ?_) fun _ => Safe.ite (fun _ => ?_) fun _ => ?_
  · unfold xiphLace
    exact Safe.bind (xiphSizes_safe _ _ _ _) fun _ _ => Safe.bind (lastSize_safe _ _ _) fun _ _ => finishLace_safe _ _ _
  · unfold fixedLace
    exact Safe.bind Safe.refuse fun _ _ => Safe.bind Safe.refuse fun _ _ => Safe.bind Safe.refuse fun _ _ =>
      finishLace_safe _ _ _
  · unfold ebmlLace
    exact Safe.bind Safe.refuse fun _ _ => Safe.bind (Safe.orErr (readUInt_safe _ _)) fun _ _ =>
      Safe.bind Safe.refuse fun _ _ => Safe.bind Safe.refuse fun _ _ => Safe.bind Safe.refuse fun _ _ =>
      Safe.bind Safe.refuse fun _ _ => Safe.ite (fun _ => finishLace_safe _ _ _) fun _ =>
      Safe.bind (ebmlSizes_safe _ _ _ _ _ _) fun _ _ => Safe.bind (lastSize_safe _ _ _) fun _ _ => finishLace_safe _ _ _

theorem blockParse_safe {r : Rdr} (hr : r.Fails) (start size : Nat) (dp : Int) : Safe (blockParse r start size dp) := by
  unfold blockParse
  exact Safe.bind (Safe.orErr (readUInt_safe _ _)) fun _ _ => Safe.bind Safe.refuse fun _ _ =>
    Safe.bind Safe.refuse fun _ _ => Safe.bind Safe.refuse fun _ _ =>
    Safe.bind (Safe.orErr (unserializeInt_safe hr _ _)) fun _ _ => Safe.bind Safe.refuse fun _ _ =>
    Safe.bind Safe.refuse fun _ _ => Safe.bind Safe.refuse fun _ _ => Safe.bind (readFlag_safe _ _) fun _ _ =>
    Safe.bind (parseFrames_safe _ _ _ _) fun _ _ => Safe.ok _

/-! ### Block groups -/

theorem unserializeNonneg_safe {r : Rdr} (hr : r.Fails) (pos size : Int) : Safe (unserializeNonneg r pos size) := by
  unfold unserializeNonneg
  split
  · split
    · exact Safe.err _
    · exact Safe.ok _
  · exact Safe.err _
  · rename_i e; exact absurd e (unserializeUInt_safe hr _ _)

/-- A signed integer whose bytes are there can be read. -/
theorem unserializeInt_there {r : Rdr} {pos size : Nat} (h1 : 1 ≤ size) (h8 : size ≤ 8)
    (h : pos + size ≤ r.data.length) : ∃ v, unserializeInt r pos size = .ok v := by
  unfold unserializeInt
  rw [if_neg (by omega)]
  obtain ⟨b, hb⟩ := getElem?_of_lt (d := r.data) (p := pos) (by omega)
  have e : (pos : Int).toNat = pos := by omega
  rw [e, byte_ok hb]
  simp only
  rw [unserializeUIntLoop_eq _ _ _ _ (by omega)]
  exact ⟨_, rfl⟩

theorem groupField_safe {r : Rdr} (hr : r.Fails) {id pos size : Nat} (a : GroupAcc)
    (h : size = 0 ∨ pos + size ≤ r.data.length) : Safe (groupField r id pos size a) := by
  unfold groupField
  refine Safe.ite (fun _ => Safe.ok _) fun _ => Safe.ite (fun _ => ?_) fun _ => Safe.ite (fun _ => ?_) fun _ => Safe.ok _
  · exact Safe.bind Safe.refuse fun _ _ => Safe.bind (unserializeNonneg_safe hr _ _) fun _ _ => Safe.ok _
  · refine Safe.bind Safe.refuse fun _ h' => ?_
    rw [Res.refuse_eq_ok] at h'
    obtain ⟨v, hv⟩ := unserializeInt_there (r := r) (pos := pos) (size := size) (by omega) (by omega) (by omega)
    rw [hv]
    exact Safe.ok _

theorem fieldLength_ok {r : Rdr} {pos limit n : Nat} (h : fieldLength r pos limit = .ok n) :
    pos < r.data.length := by
  simp only [fieldLength, Res.bind_eq_ok, Res.refuse_eq_ok] at h
  obtain ⟨_, h1, _⟩ := h
  omega

/-- What `CreateBlockGroup` asserts has been checked by `ParseBlockGroup`. -/
theorem groupLoop_safe {r : Rdr} (hr : r.Fails) {stop : Nat} (hs : stop ≤ r.data.length) :
    ∀ (f pos : Nat) (dp : Int) (res : Nat × Int) (a : GroupAcc), blockGroupLoop r stop f pos dp = .ok res →
      Safe (groupLoop r stop f pos a) := by
  intro f
  induction f with
  | zero => intro pos dp res a _; exact Safe.ok _
  | succ f ih =>
    intro pos dp res a h
    unfold blockGroupLoop at h
    unfold groupLoop
    refine Safe.ite (fun hlt => ?_) fun _ => Safe.ok _
    rw [if_pos hlt] at h
    simp only [Res.bind_eq_ok] at h
    obtain ⟨l1, -, ⟨id, len⟩, hid, _, -, l2, -, ⟨size, len2⟩, hsz, _, hst, h⟩ := h
    simp only [Res.refuse_eq_ok] at hst h
    refine Safe.bind (Safe.orErr (readID_safe _ _)) fun x hx => ?_
    rw [Res.orErr_eq_ok, hid] at hx
    cases hx
    refine Safe.bind Safe.refuse fun _ _ => ?_
    simp only at hsz hst h ⊢
    rw [hsz]
    refine Safe.bind (Safe.ok _) fun x hx => ?_
    cases hx
    refine Safe.bind (Safe.assert (by omega)) fun _ _ => ?_
    simp only at hst h ⊢
    by_cases h0 : size = 0
    · rw [if_pos h0] at h
      subst h0
      exact Safe.bind (groupField_safe hr _ (.inl rfl)) fun _ _ => Safe.bind Safe.refuse fun _ _ => ih _ _ _ _ h
    · rw [if_neg h0] at h
      simp only [Res.bind_eq_ok] at h
      obtain ⟨_, -, dp', -, h⟩ := h
      by_cases hA : id ≠ 0xA1
      · rw [if_pos hA] at h
        simp only [Res.bind_eq_ok, Res.refuse_eq_ok] at h
        obtain ⟨_, hle, h⟩ := h
        exact Safe.bind (groupField_safe hr _ (.inr (by omega))) fun _ _ => Safe.bind Safe.refuse fun _ _ => ih _ _ _ _ h
      · rw [if_neg hA] at h
        simp only [Res.bind_eq_ok, Res.refuse_eq_ok] at h
        obtain ⟨_, hle, _, -, h⟩ := h
        exact Safe.bind (groupField_safe hr _ (.inr (by omega))) fun _ _ => Safe.bind Safe.refuse fun _ _ => ih _ _ _ _ h

theorem fieldLength_safe (r : Rdr) (pos limit : Nat) : Safe (fieldLength r pos limit) := by
  unfold fieldLength
  exact Safe.bind Safe.refuse fun _ _ => Safe.bind (getUIntLength_safe _ _) fun _ _ => Safe.bind Safe.refuse fun _ _ =>
    Safe.bind Safe.refuse fun _ _ => Safe.bind Safe.refuse fun _ _ => Safe.bind Safe.refuse fun _ _ => Safe.ok _

theorem checkBlockHead_safe {r : Rdr} (hr : r.Fails) (pos stop : Nat) : Safe (checkBlockHead r pos stop) := by
  unfold checkBlockHead
  refine Safe.bind (fieldLength_safe _ _ _) fun _ _ => Safe.bind (readUInt_safe _ _) fun _ _ => Safe.bind Safe.refuse fun _ _ =>
    Safe.bind Safe.refuse fun _ _ => Safe.bind Safe.refuse fun _ _ => Safe.bind Safe.refuse fun _ _ =>
    Safe.bind Safe.refuse fun _ _ => Safe.bind ?_ fun _ _ => Safe.bind Safe.refuse fun _ _ => Safe.refuse
  split
  · exact Safe.ok _
  · rename_i e
    rw [if_pos (by rw [byte_error e]; exact hr)]
    exact Safe.err _

theorem blockGroupLoop_safe {r : Rdr} (hr : r.Fails) (stop : Nat) :
    ∀ (f pos : Nat) (dp : Int), Safe (blockGroupLoop r stop f pos dp)
  | 0, _, _ => Safe.ok _
  | f + 1, pos, dp => by
    unfold blockGroupLoop
    refine Safe.ite (fun hlt => ?_) fun _ => Safe.ok _
    refine Safe.bind (fieldLength_safe _ _ _) fun _ _ => Safe.bind (readID_safe _ _) fun _ _ =>
      Safe.bind Safe.refuse fun _ _ => Safe.bind (fieldLength_safe _ _ _) fun _ _ => Safe.bind (readUInt_safe _ _) fun _ _ =>
      Safe.bind Safe.refuse fun _ _ => Safe.ite (fun _ => blockGroupLoop_safe hr stop f _ _) fun _ =>
      Safe.bind Safe.refuse fun _ _ => Safe.bind (Safe.ite (fun _ => unserializeInt_safe hr _ _) fun _ => Safe.ok _) fun _ _ =>
      Safe.ite (fun _ => Safe.bind Safe.refuse fun _ _ => blockGroupLoop_safe hr stop f _ _) fun _ =>
      Safe.bind Safe.refuse fun _ _ => Safe.bind (checkBlockHead_safe hr _ _) fun _ _ => blockGroupLoop_safe hr stop f _ _

theorem parseBlockGroup_safe {r : Rdr} (hr : r.Fails) (hw : r.Whole) (size pos : Nat) :
    Safe (parseBlockGroup r size pos) := by
  unfold parseBlockGroup
  unfold Rdr.Whole at hw
  refine Safe.bind (Safe.assert (by omega)) fun _ _ => Safe.bind Safe.refuse fun _ _ => Safe.bind Safe.refuse fun _ h => ?_
  rw [Res.refuse_eq_ok] at h
  refine Safe.bind (blockGroupLoop_safe hr _ _ _ _) fun x hx => Safe.bind Safe.refuse fun _ _ =>
    Safe.bind ?_ fun _ _ => Safe.ok _
  unfold createBlockGroup
  refine Safe.bind (groupLoop_safe hr (by omega) _ _ _ _ _ hx) fun y _ => ?_
  obtain ⟨q, a⟩ := y
  simp only
  split
  · exact Safe.err _
  · exact Safe.bind Safe.refuse fun _ _ => Safe.bind (blockParse_safe hr _ _ _) fun _ _ => Safe.ok _

theorem parseSimpleBlock_safe {r : Rdr} (hr : r.Fails) (hw : r.Whole) (size pos : Nat) :
    Safe (parseSimpleBlock r size pos) := by
  unfold parseSimpleBlock createSimpleBlock
  unfold Rdr.Whole at hw
  exact Safe.bind (Safe.assert (by omega)) fun _ _ => Safe.bind (checkBlockHead_safe hr _ _) fun _ _ =>
    Safe.bind (Safe.bind (blockParse_safe hr _ _ _) fun _ _ => Safe.ok _) fun _ _ => Safe.ok _

/-! ### Clusters -/

theorem fieldIn_safe (r : Rdr) (stop : Option Nat) (pos : Nat) : Safe (fieldIn r stop pos) := by
  unfold fieldIn
  exact Safe.bind Safe.refuse fun _ _ => Safe.bind (getUIntLength_safe _ _) fun _ _ => Safe.bind Safe.refuse fun _ _ =>
    Safe.bind Safe.refuse fun _ _ => Safe.bind Safe.refuse fun _ _ => Safe.bind Safe.refuse fun _ _ => Safe.ok _

theorem headField_safe (r : Rdr) (stop : Option Nat) (pos : Nat) : Safe (headField r stop pos) := by
  unfold headField
  exact Safe.bind Safe.refuse fun _ _ => Safe.bind (getUIntLength_safe _ _) fun _ _ => Safe.bind Safe.refuse fun _ _ =>
    Safe.bind Safe.refuse fun _ _ => Safe.bind Safe.refuse fun _ _ =>
    Safe.ite (fun _ => Safe.ok _) fun _ => Safe.bind Safe.refuse fun _ _ => Safe.ok _

theorem hasBlockLoop_safe (r : Rdr) (stop : Option Nat) : ∀ (f pos : Nat), Safe (hasBlockLoop r stop f pos)
  | 0, _ => by
    unfold hasBlockLoop
    exact Safe.ite (fun _ => Safe.ok _) fun _ => Safe.err _
  | f + 1, pos => by
    unfold hasBlockLoop
    exact Safe.ite (fun _ => Safe.ok _) fun _ => Safe.bind (fieldIn_safe _ _ _) fun _ _ => Safe.bind (readID_safe _ _) fun _ _ =>
      Safe.ite (fun _ => Safe.ok _) fun _ => Safe.bind Safe.refuse fun _ _ => Safe.bind (fieldIn_safe _ _ _) fun _ _ =>
      Safe.bind (readUInt_safe _ _) fun _ _ => Safe.bind Safe.refuse fun _ _ =>
      Safe.ite (fun _ => hasBlockLoop_safe r stop f _) fun _ => Safe.bind Safe.refuse fun _ _ =>
      Safe.bind Safe.refuse fun _ _ => Safe.ite (fun _ => Safe.ok _) fun _ => hasBlockLoop_safe r stop f _

theorem hasBlockEntries_safe {r : Rdr} (hw : r.Whole) (stop : Option Nat) (pos : Nat) :
    Safe (hasBlockEntries r stop pos) := by
  unfold hasBlockEntries
  unfold Rdr.Whole at hw
  refine Safe.bind (Safe.assert (by omega)) fun _ _ => Safe.ite (fun _ => Safe.ok _) fun _ =>
    Safe.bind (headField_safe _ _ _) fun x _ => ?_
  split
  · exact Safe.ok _
  refine Safe.bind (readID_safe _ _) fun _ _ => Safe.bind Safe.refuse fun _ _ => Safe.bind (headField_safe _ _ _) fun x _ => ?_
  split
  · exact Safe.ok _
  exact Safe.bind (readUInt_safe _ _) fun _ _ => Safe.ite (fun _ => Safe.ok _) fun _ =>
    Safe.ite (fun _ => hasBlockLoop_safe _ _ _ _) fun _ => Safe.bind Safe.refuse fun _ _ =>
    Safe.ite (fun _ => Safe.ok _) fun _ => hasBlockLoop_safe _ _ _ _

/-- If there is a cluster header at `p` that states a size, the cluster ends within the data. -/
def EndsInside (r : Rdr) (p : Nat) : Prop :=
  ∀ id len size len2, readID r p = .ok (id, len) → readUInt r ((p + len : Nat) : Int) = .ok (size, len2) →
    size ≠ unknownSize len2 → p + len + len2 + size ≤ r.data.length

theorem hasBlockEntries_inside {r : Rdr} (hw : r.Whole) {stop : Option Nat} {pos : Nat}
    (h : hasBlockEntries r stop pos = .ok true) : EndsInside r pos := by
  unfold Rdr.Whole at hw
  intro id len size len2 hid hsz hu
  unfold hasBlockEntries at h
  rw [Res.bind_eq_ok] at h
  obtain ⟨_, -, h⟩ := h
  split at h
  · cases h
  rw [Res.bind_eq_ok] at h
  obtain ⟨x, -, h⟩ := h
  cases x with
  | none => cases h
  | some x =>
    simp only [Res.bind_eq_ok] at h
    obtain ⟨⟨id', len'⟩, hid', _, -, y, -, h⟩ := h
    rw [hid] at hid'
    cases hid'
    cases y with
    | none => cases h
    | some y =>
      simp only [Res.bind_eq_ok] at h
      obtain ⟨⟨size', len2'⟩, hsz', h⟩ := h
      rw [hsz] at hsz'
      cases hsz'
      simp only [if_neg hu] at h
      split at h
      · cases h
      rw [Res.bind_eq_ok] at h
      obtain ⟨_, -, h⟩ := h
      split at h
      · cases h
      · omega

/-- The frames of the entry are there, and so is the block. -/
structure Entry.Inside (r : Rdr) (e : Entry) : Prop where
  some : e.block.frames ≠ []
  frames : ∀ f ∈ e.block.frames, 0 < f.len ∧ f.pos + f.len ≤ r.data.length

/-- What is true of a cluster object made from a file that is there completely. -/
structure ReadCluster.Ok (r : Rdr) (c : ReadCluster) : Prop where
  inside : EndsInside r c.start
  fresh : c.timecode = none → c.pos = c.start ∧ c.size = none ∧ c.entries = none
  loaded : c.timecode ≠ none → c.start + 4 ≤ c.pos ∧ c.pos ≤ r.data.length
  time : ∀ t ∈ c.timecode, t < 2 ^ 63
  sized : ∀ n ∈ c.size, c.pos ≤ c.start + n ∧ c.start + n ≤ r.data.length
  entries : ∀ e ∈ c.entries.getD [], e.Inside r
  count : (c.entries.getD []).length ≤ c.pos

theorem past_false {stop : Option Nat} {p s : Nat} (h : ¬ past stop p = true) (hs : s ∈ stop) : p ≤ s := by
  cases hs
  simp [past] at h
  exact h

theorem reached_false {stop : Option Nat} {p s : Nat} (h : ¬ reached stop p = true) (hs : s ∈ stop) : p < s := by
  cases hs
  simp [reached] at h
  exact h

theorem reached_true {stop : Option Nat} {p : Nat} (h : reached stop p = true) : ∃ s ∈ stop, s ≤ p := by
  cases stop with
  | none => simp [reached] at h
  | some s => exact ⟨s, rfl, by simpa [reached] using h⟩

theorem readUInt_pos {r : Rdr} {p v n : Nat} (h : readUInt r (p : Int) = .ok (v, n)) :
    1 ≤ n ∧ p + n ≤ r.data.length := by
  obtain ⟨q, e, h1, h2, _⟩ := readUInt_sound h
  omega

theorem clusterLoadLoop_safe {r : Rdr} (hr : r.Fails) (stop : Option Nat) :
    ∀ (f pos : Nat) (a : LoadAcc), Safe (clusterLoadLoop r stop f pos a)
  | 0, _, _ => by
    unfold clusterLoadLoop
    exact Safe.ite (fun _ => Safe.ok _) fun _ => Safe.err _
  | f + 1, pos, a => by
    unfold clusterLoadLoop
    exact Safe.ite (fun _ => Safe.ok _) fun _ => Safe.bind (fieldIn_safe _ _ _) fun _ _ => Safe.bind (readID_safe _ _) fun _ _ =>
      Safe.ite (fun _ => Safe.ok _) fun _ => Safe.bind (fieldIn_safe _ _ _) fun _ _ =>
      Safe.bind (readUInt_safe _ _) fun _ _ => Safe.bind Safe.refuse fun _ _ => Safe.bind Safe.refuse fun _ _ =>
      Safe.ite (fun _ => clusterLoadLoop_safe hr stop f _ _) fun _ => Safe.bind Safe.refuse fun _ _ =>
      Safe.ite (fun _ => Safe.bind Safe.refuse fun _ _ => Safe.bind (unserializeUInt_safe hr _ _) fun _ _ =>
        Safe.bind Safe.refuse fun _ _ => clusterLoadLoop_safe hr stop f _ _) fun _ =>
      Safe.ite (fun _ => Safe.ok _) fun _ => clusterLoadLoop_safe hr stop f _ _

theorem unserializeUInt_small {r : Rdr} {pos size : Int} {v : Int} (h : unserializeUInt r pos size = .ok v) :
    v < 2 ^ 63 := by
  unfold unserializeUInt at h
  split at h
  · cases h
  split at h
  · cases h
    unfold toI64
    split <;> omega
  · cases h
  · cases h

/-- What the loop of `Cluster::Load` finds is inside. -/
theorem clusterLoadLoop_found {r : Rdr} {stop : Option Nat} {lo : Nat} :
    ∀ (f pos : Nat) (a : LoadAcc) (p : Nat) (a' : LoadAcc), lo ≤ pos →
      (∀ t ∈ a.timecode, t < 2 ^ 63 ∧ lo + 2 ≤ a.newPos ∧ a.newPos ≤ r.data.length ∧ ∀ s ∈ stop, a.newPos ≤ s) →
      clusterLoadLoop r stop f pos a = .ok (p, a') →
      ∀ t ∈ a'.timecode, t < 2 ^ 63 ∧ lo + 2 ≤ a'.newPos ∧ a'.newPos ≤ r.data.length ∧ ∀ s ∈ stop, a'.newPos ≤ s := by
  intro f
  induction f with
  | zero =>
    intro pos a p a' _ ha h
    unfold clusterLoadLoop at h
    split at h
    · cases h; exact ha
    · cases h
  | succ f ih =>
    intro pos a p a' hlo ha h
    unfold clusterLoadLoop at h
    split at h
    · cases h; exact ha
    simp only [Res.bind_eq_ok] at h
    obtain ⟨_, -, ⟨id, len⟩, hid, h⟩ := h
    simp only at h
    have := readID_len hid
    split at h
    · cases h; exact ha
    simp only [Res.bind_eq_ok, Res.refuse_eq_ok] at h
    obtain ⟨_, -, ⟨size, len2⟩, hsz, _, -, _, hst, h⟩ := h
    simp only at h hst
    have := readUInt_pos hsz
    split at h
    · exact ih _ _ _ _ (by omega) ha h
    simp only [Res.bind_eq_ok, Res.refuse_eq_ok] at h
    obtain ⟨_, hst2, h⟩ := h
    split at h
    · simp only [Res.bind_eq_ok, Res.refuse_eq_ok] at h
      obtain ⟨_, hd, t, ht, _, h0, h⟩ := h
      refine ih _ _ _ _ (by omega) ?_ h
      intro t' ht'
      simp only [Option.mem_def, Option.some.injEq] at ht'
      have := unserializeUInt_small ht
      refine ⟨by omega, by simp only; omega, by simp only; omega, fun s hs => past_false hst2 hs⟩
    split at h
    · cases h; exact ha
    · exact ih _ _ _ _ (by omega) ha h

theorem ReadCluster.load_safe {r : Rdr} (hr : r.Fails) (c : ReadCluster) : Safe (c.load r) := by
  unfold ReadCluster.load
  refine Safe.ite (fun _ => Safe.ok _) fun _ => Safe.bind Safe.refuse fun _ _ => Safe.bind Safe.refuse fun _ _ =>
    Safe.bind (fieldIn_safe _ _ _) fun _ _ => Safe.bind (readID_safe _ _) fun _ _ => Safe.bind Safe.refuse fun _ _ =>
    Safe.bind (fieldIn_safe _ _ _) fun _ _ => Safe.bind (Safe.orErr (readUInt_safe _ _)) fun _ _ =>
    Safe.bind Safe.refuse fun _ _ => Safe.bind (clusterLoadLoop_safe hr _ _ _ _) fun _ _ =>
    Safe.bind Safe.refuse fun _ _ => ?_
  split
  · exact Safe.err _
  · exact Safe.bind Safe.refuse fun _ _ => Safe.ok _

/-- Loading a cluster. -/
theorem ReadCluster.Ok.load {r : Rdr} {c c' : ReadCluster} (h : c.Ok r) (hl : c.load r = .ok c') :
    c'.Ok r ∧ c'.timecode ≠ none ∧ c'.start = c.start ∧ c.pos ≤ c'.pos ∧ c'.entries = c.entries ∧
      (c.timecode ≠ none → c' = c) := by
  unfold ReadCluster.load at hl
  by_cases ht : c.timecode.isSome
  · rw [if_pos ht] at hl
    cases hl
    refine ⟨h, fun e => by simp [e] at ht, rfl, Nat.le_refl _, rfl, fun _ => rfl⟩
  rw [if_neg ht] at hl
  have ht : c.timecode = none := by simpa using ht
  obtain ⟨f1, f2, f3⟩ := h.fresh ht
  simp only [Res.bind_eq_ok, Res.refuse_eq_ok] at hl
  obtain ⟨_, -, _, -, _, -, ⟨id, len⟩, hid, _, -, _, -, ⟨size, len2⟩, hsz, _, h0, ⟨p, a⟩, hloop, _, hst, hl⟩ := hl
  rw [Res.orErr_eq_ok] at hsz
  simp only at hsz h0 hloop hst hl
  have := readID_len hid
  have := readUInt_pos hsz
  rw [f1] at hid hsz hloop
  have key := clusterLoadLoop_found (lo := c.start + len + len2) _ _ _ _ _ (Nat.le_refl _) (fun t ht => by cases ht) hloop
  cases hat : a.timecode with
  | none => rw [hat] at hl; cases hl
  | some t =>
    obtain ⟨k1, k2, k3, k4⟩ := key t hat
    rw [hat] at hl
    simp only [Res.bind_eq_ok] at hl
    obtain ⟨_, -, hl⟩ := hl
    cases hl
    refine ⟨⟨h.inside, fun e => by simp at e, fun _ => ⟨by simp only; omega, k3⟩, ?_, ?_, ?_, ?_⟩, by simp, rfl,
      by simp only; omega, rfl, fun e => absurd ht e⟩
    · intro t' ht'
      cases ht'
      exact k1
    · intro n hn
      by_cases hu : size = unknownSize len2
      · simp [hu] at hn
      · have hin := h.inside _ _ _ _ hid hsz hu
        rw [f1] at hn
        simp only [if_neg hu, Option.map_some, Option.mem_def, Option.some.injEq] at hn
        have := k4 (c.start + len + len2 + size) (by simp [if_neg hu])
        simp only
        omega
    · intro e he
      rw [f3] at he
      simp at he
    · rw [f3]; simp

theorem ReadCluster.Ok.kept {r : Rdr} {c : ReadCluster} (h : c.Ok r) :
    (c.kept r).Ok r ∧ (c.kept r).start = c.start ∧ c.pos ≤ (c.kept r).pos ∧ (c.kept r).entries = c.entries := by
  unfold ReadCluster.kept
  split
  · rename_i c' e
    obtain ⟨h1, h2, h3, h4, h5, h6⟩ := h.load e
    exact ⟨h1, h3, h4, h5⟩
  · exact ⟨h, rfl, Nat.le_refl _, rfl⟩

theorem clusterChild_safe {r : Rdr} (hr : r.Fails) (hw : r.Whole) (c : ReadCluster) (id pos size : Nat) :
    Safe (clusterChild r c id pos size) := by
  unfold clusterChild
  have hb : Safe (if id = 0xA0 then do
      let e ← parseBlockGroup r size pos
      .ok (some (.block (c.add e)))
    else if id = 0xA3 then do
      let e ← parseSimpleBlock r size pos
      .ok (some (.block (c.add e)))
    else .ok none : Res (Option ParseEnd)) :=
    Safe.ite (fun _ => Safe.bind (parseBlockGroup_safe hr hw _ _) fun _ _ => Safe.ok _) fun _ =>
      Safe.ite (fun _ => Safe.bind (parseSimpleBlock_safe hr hw _ _) fun _ _ => Safe.ok _) fun _ => Safe.ok _
  simp only
  split
  · refine Safe.ite (fun _ => Safe.ite (fun _ => Safe.err _) fun _ => Safe.ok _) fun _ => hb
  · exact Safe.ite (fun _ => Safe.ok _) fun _ => Safe.ite (fun _ => Safe.err _) fun _ => hb

theorem clusterParseLoop_safe {r : Rdr} (hr : r.Fails) (hw : r.Whole) (c : ReadCluster) :
    ∀ (f pos : Nat), Safe (clusterParseLoop r c f pos)
  | 0, _ => by
    unfold clusterParseLoop
    exact Safe.ite (fun _ => Safe.ok _) fun _ => Safe.ite (fun _ => Safe.ok _) fun _ => Safe.err _
  | f + 1, pos => by
    unfold clusterParseLoop
    refine Safe.ite (fun _ => Safe.ok _) fun _ => Safe.ite (fun _ => Safe.ok _) fun _ =>
      Safe.bind (fieldIn_safe _ _ _) fun _ _ => Safe.bind (Safe.orErr (readID_safe _ _)) fun _ _ =>
      Safe.ite (fun _ => Safe.ok _) fun _ => Safe.bind (fieldIn_safe _ _ _) fun _ _ =>
      Safe.bind (readUInt_safe _ _) fun _ _ => Safe.bind Safe.refuse fun _ _ => Safe.bind Safe.refuse fun _ _ =>
      Safe.ite (fun _ => clusterParseLoop_safe hr hw c f _) fun _ =>
      Safe.bind (clusterChild_safe hr hw _ _ _ _) fun x _ => ?_
    split
    · exact Safe.ok _
    · exact clusterParseLoop_safe hr hw c f _

theorem ReadCluster.parse_safe {r : Rdr} (hr : r.Fails) (hw : r.Whole) (c : ReadCluster) : Safe (c.parse r) := by
  unfold ReadCluster.parse
  refine Safe.bind (c.load_safe hr) fun c' _ => Safe.bind Safe.refuse fun _ _ => Safe.ite (fun _ => Safe.ok _) fun _ =>
    Safe.bind Safe.refuse fun _ _ => Safe.bind (clusterParseLoop_safe hr hw _ _ _) fun x _ => ?_
  split
  · exact Safe.ok _
  · unfold parseFinish
    refine Safe.bind Safe.refuse fun _ _ => Safe.bind Safe.refuse fun _ _ => ?_
    split
    · exact Safe.ok _
    · exact Safe.bind Safe.refuse fun _ _ => Safe.bind Safe.refuse fun _ _ => Safe.bind Safe.refuse fun _ _ => Safe.ok _

theorem ReadCluster.Ok.stop_le {r : Rdr} {c : ReadCluster} (h : c.Ok r) {s : Nat} (hs : s ∈ c.stop) :
    c.pos ≤ s ∧ s ≤ r.data.length ∧ c.size = some (s - c.start) ∧ c.start ≤ s := by
  unfold ReadCluster.stop at hs
  cases hn : c.size with
  | none => rw [hn] at hs; cases hs
  | some n =>
    rw [hn] at hs
    simp only [Option.map_some, Option.mem_def, Option.some.injEq] at hs
    subst hs
    have := h.sized n hn
    exact ⟨this.1, this.2, by simp, by omega⟩

/-- Adding an entry. -/
theorem ReadCluster.Ok.add {r : Rdr} {c : ReadCluster} (h : c.Ok r) (ht : c.timecode ≠ none) {pos size p : Nat} {e : Entry}
    (hp : c.pos < pos) (hs : ∀ s ∈ c.stop, pos + size ≤ s) (hd : pos + size ≤ r.data.length)
    (he : parseSimpleBlock r size pos = .ok (e, p) ∨ parseBlockGroup r size pos = .ok (e, p)) :
    (c.add (e, p)).Ok r ∧ c.pos < p := by
  obtain ⟨k1, k2, -, k3⟩ := Verif.Props.C14_entry_frames_inside he
  refine ⟨⟨h.inside, fun e => absurd e ht, fun _ => ?_, h.time, fun n hn => ?_, fun x hx => ?_, ?_⟩, by omega⟩
  · have := h.loaded ht
    simp only [ReadCluster.add]
    omega
  · have := h.sized n hn
    have hn : c.size = some n := hn
    have := hs (c.start + n) (by unfold ReadCluster.stop; rw [hn]; rfl)
    simp only [ReadCluster.add]
    omega
  · simp only [ReadCluster.add, Option.getD_some, List.mem_append, List.mem_singleton] at hx
    rcases hx with hx | hx
    · exact h.entries x hx
    · subst hx
      exact ⟨k2, fun f hf => ⟨(k3 f hf).2.1, by have := (k3 f hf).2.2; omega⟩⟩
  · have := h.count
    simp only [ReadCluster.add, Option.getD_some, List.length_append, List.length_singleton]
    omega

/-- How the loop of `Cluster::Parse` may end. -/
def ReadCluster.Ends (r : Rdr) (c : ReadCluster) : ParseEnd → Prop
  | .block c' => c'.Ok r ∧ c'.timecode = c.timecode ∧ c'.start = c.start ∧ c.pos < c'.pos ∧
      ∃ e, c'.entries.getD [] = c.entries.getD [] ++ [e]
  | .none c' p => ∃ n, c' = { c with size := some n } ∧ c.pos ≤ p ∧ p ≤ c.start + n ∧ c.start + n ≤ r.data.length

theorem ReadCluster.Ok.closeAt {r : Rdr} {c : ReadCluster} (h : c.Ok r) (ht : c.timecode ≠ none) {p : Nat} (h1 : c.pos ≤ p)
    (h2 : p ≤ r.data.length) (h3 : ∀ s ∈ c.stop, p ≤ s) : c.Ends r (.none (c.closeAt p) p) := by
  have := h.loaded ht
  cases hn : c.size with
  | none => exact ⟨p - c.start, by simp [ReadCluster.closeAt, hn], h1, by omega, by omega⟩
  | some n =>
    have := h.sized n hn
    have := h3 (c.start + n) (by unfold ReadCluster.stop; rw [hn]; rfl)
    exact ⟨n, by simp [ReadCluster.closeAt, hn], h1, by omega, by omega⟩

theorem ReadCluster.Ok.stopped {r : Rdr} {c : ReadCluster} (h : c.Ok r) {p s : Nat} (hs : s ∈ c.stop) (h1 : c.pos ≤ p)
    (h2 : p ≤ s) : c.Ends r (.none c p) := by
  obtain ⟨k1, k2, k3, k4⟩ := h.stop_le hs
  exact ⟨s - c.start, by rw [← k3], h1, by omega, by omega⟩

theorem clusterChild_ends {r : Rdr} (hw : r.Whole) {c : ReadCluster} (h : c.Ok r) (ht : c.timecode ≠ none) {id pos size : Nat}
    (hp : c.pos < pos) (hs : ∀ s ∈ c.stop, pos ≤ s) {x : Option ParseEnd} (hx : clusterChild r c id pos size = .ok x) :
    (∀ e ∈ x, c.Ends r e) ∧ (x = none → pos + size ≤ r.data.length ∧ ∀ s ∈ c.stop, pos + size ≤ s) := by
  unfold Rdr.Whole at hw
  have block : (∀ s ∈ c.stop, pos + size ≤ s) → pos + size ≤ r.data.length → (if id = 0xA0 then do
      let e ← parseBlockGroup r size pos
      .ok (some (.block (c.add e)))
    else if id = 0xA3 then do
      let e ← parseSimpleBlock r size pos
      .ok (some (.block (c.add e)))
    else .ok none : Res (Option ParseEnd)) = .ok x → 
    (∀ e ∈ x, c.Ends r e) ∧ (x = none → pos + size ≤ r.data.length ∧ ∀ s ∈ c.stop, pos + size ≤ s) := by
    intro h1 h2 hx
    split at hx
    · rw [Res.bind_eq_ok] at hx
      obtain ⟨⟨e, p⟩, he, hx⟩ := hx
      cases hx
      obtain ⟨k1, k2⟩ := h.add ht hp h1 h2 (.inr he)
      refine ⟨fun y hy => ?_, fun e => by cases e⟩
      cases hy
      exact ⟨k1, rfl, rfl, k2, e, rfl⟩
    split at hx
    · rw [Res.bind_eq_ok] at hx
      obtain ⟨⟨e, p⟩, he, hx⟩ := hx
      cases hx
      obtain ⟨k1, k2⟩ := h.add ht hp h1 h2 (.inl he)
      refine ⟨fun y hy => ?_, fun e => by cases e⟩
      cases hy
      exact ⟨k1, rfl, rfl, k2, e, rfl⟩
    · cases hx
      exact ⟨fun y hy => (by cases hy), fun _ => ⟨h2, h1⟩⟩
  unfold clusterChild at hx
  simp only at hx
  cases hcs : c.stop with
  | some s =>
    obtain ⟨k1, k2, k3, k4⟩ := h.stop_le hcs
    rw [hcs] at hx
    simp only at hx
    split at hx
    · split at hx
      · cases hx
      · cases hx
        refine ⟨fun y hy => ?_, fun e => by cases e⟩
        cases hy
        exact h.stopped hcs k1 (Nat.le_refl _)
    · have h1 : ∀ s' ∈ c.stop, pos + size ≤ s' := fun s' hs' => by
        rw [hcs] at hs'
        cases hs'
        omega
      rw [← hcs]
      exact block h1 (by omega) hx
  | none =>
    have hnone : c.size = none := by
      unfold ReadCluster.stop at hcs
      simpa using hcs
    rw [hcs] at hx
    simp only at hx
    have := h.loaded ht
    split at hx
    · cases hx
      refine ⟨fun y hy => ?_, fun e => by cases e⟩
      cases hy
      exact ⟨_, rfl, by omega, by omega, by omega⟩
    split at hx
    · cases hx
    · rw [← hcs]
      exact block (fun s hs => by rw [hcs] at hs; cases hs) (by omega) hx

theorem clusterParseLoop_ends {r : Rdr} (hw : r.Whole) {c : ReadCluster} (h : c.Ok r) (ht : c.timecode ≠ none) :
    ∀ (f pos : Nat) (e : ParseEnd), c.pos ≤ pos → pos ≤ r.data.length → (∀ s ∈ c.stop, pos ≤ s) →
      clusterParseLoop r c f pos = .ok e → c.Ends r e := by
  have hw' := hw
  unfold Rdr.Whole at hw
  intro f
  induction f with
  | zero =>
    intro pos e h1 h2 h3 hl
    unfold clusterParseLoop at hl
    split at hl
    · cases hl
      obtain ⟨s, hs, hle⟩ := reached_true ‹_›
      exact h.stopped hs h1 (h3 s hs)
    split at hl
    · cases hl
      exact h.closeAt ht h1 h2 h3
    · cases hl
  | succ f ih =>
    intro pos e h1 h2 h3 hl
    unfold clusterParseLoop at hl
    split at hl
    · cases hl
      obtain ⟨s, hs, hle⟩ := reached_true ‹_›
      exact h.stopped hs h1 (h3 s hs)
    split at hl
    · cases hl
      exact h.closeAt ht h1 h2 h3
    simp only [Res.bind_eq_ok] at hl
    obtain ⟨_, -, ⟨id, len⟩, hid, hl⟩ := hl
    rw [Res.orErr_eq_ok] at hid
    have := readID_len hid
    simp only at hl
    split at hl
    · cases hl
      exact h.closeAt ht h1 h2 h3
    simp only [Res.bind_eq_ok, Res.refuse_eq_ok] at hl
    obtain ⟨_, -, ⟨size, len2⟩, hsz, _, -, _, hst, hl⟩ := hl
    simp only at hl hst
    have := readUInt_pos hsz
    have hst : ∀ s ∈ c.stop, pos + len + len2 ≤ s := fun s hs => past_false hst hs
    split at hl
    · exact ih _ _ (by omega) (by omega) hst hl
    rw [Res.bind_eq_ok] at hl
    obtain ⟨x, hx, hl⟩ := hl
    obtain ⟨k1, k2⟩ := clusterChild_ends hw' h ht (by omega) hst hx
    cases x with
    | some y =>
      cases hl
      exact k1 _ rfl
    | none => exact ih _ _ (by omega) (k2 rfl).1 (k2 rfl).2 hl

/-- Parsing the next entry of a cluster. -/
theorem ReadCluster.Ok.parse {r : Rdr} (hw : r.Whole) {c c' : ReadCluster} {ended : Bool} (h : c.Ok r)
    (hp : c.parse r = .ok (c', ended)) :
    c'.Ok r ∧ c'.timecode ≠ none ∧ c'.start = c.start ∧
      (ended = false → c.pos < c'.pos ∧ ∃ e, c'.entries.getD [] = c.entries.getD [] ++ [e]) ∧
      (ended = true → c.pos ≤ c'.pos ∧ c'.entries.getD [] = c.entries.getD [] ∧ c'.size ≠ none) := by
  unfold ReadCluster.parse at hp
  rw [Res.bind_eq_ok] at hp
  obtain ⟨c1, hl, hp⟩ := hp
  obtain ⟨h1, ht, hs, hpos, hent, -⟩ := h.load hl
  rw [Res.bind_eq_ok] at hp
  obtain ⟨_, -, hp⟩ := hp
  split at hp
  · cases hp
    obtain ⟨s, hs', -⟩ := reached_true ‹_›
    refine ⟨h1, ht, hs, fun e => (by cases e), fun _ => ⟨hpos, by rw [hent], ?_⟩⟩
    rw [(h1.stop_le hs').2.2.1]
    simp
  rw [Res.bind_eq_ok] at hp
  obtain ⟨_, -, hp⟩ := hp
  rw [Res.bind_eq_ok] at hp
  obtain ⟨x, hx, hp⟩ := hp
  have hld := h1.loaded ht
  have key := clusterParseLoop_ends hw h1 ht _ _ _ (Nat.le_refl _) hld.2 (fun s hs => (h1.stop_le hs).1) hx
  cases x with
  | block c2 =>
    cases hp
    obtain ⟨k1, k2, k3, k4, e, k5⟩ := key
    exact ⟨k1, by rw [k2]; exact ht, k3.trans hs, fun _ => ⟨by omega, e, by rw [k5, hent]⟩, fun e => by cases e⟩
  | none c2 p =>
    obtain ⟨n, rfl, k1, k2, k3⟩ := key
    have hres : c' = { c1 with size := some n, pos := p } ∧ ended = true := by
      simp only [parseFinish, Res.bind_eq_ok] at hp
      obtain ⟨_, -, _, -, hp⟩ := hp
      split at hp
      · cases hp; exact ⟨rfl, rfl⟩
      · simp only [Res.bind_eq_ok] at hp
        obtain ⟨_, -, _, -, _, -, hp⟩ := hp
        cases hp; exact ⟨rfl, rfl⟩
    obtain ⟨rfl, rfl⟩ := hres
    refine ⟨⟨h1.inside, fun e => absurd e ht, fun _ => ⟨by simp only; omega, by simp only; omega⟩, h1.time, fun m hm => ?_, h1.entries, ?_⟩,
      ht, hs, fun e => (by cases e), fun _ => ⟨by simp only; omega, by simp only [hent], by simp⟩⟩
    · cases hm
      exact ⟨k2, k3⟩
    · have := h1.count
      simp only
      omega

end Verif.Par
