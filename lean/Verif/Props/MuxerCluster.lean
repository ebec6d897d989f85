/-
C18-C20, C52: what a muxer cluster writes.
-/
import Verif.Lemmas.MuxerAccurate

namespace Verif.Props
open Verif Verif.Mux Spec

/-- A new cluster, `Cluster::Cluster` and `Init`, mkvmuxer/mkvmuxer.cc:2453-2485. -/
def newCluster (timecode scale : Nat) (writeLast fixed : Bool) : Cluster :=
  { timecode := timecode, scale := scale, writeLast := writeLast, fixedTimecode := fixed }

/-- The inputs are of a size that occurs: frames below 2 GiB, additional data below 4 GiB, times
that the `int64` arithmetic can handle. -/
def Offerable (tc scale : Nat) (fs : List Frame) : Prop :=
  tc < 2 ^ 63 ∧ ∀ f ∈ fs, (f.frame.length + 4 < 2 ^ 31 ∧ (∀ a, f.additional = some a → a.length < 2 ^ 32)) ∧
    f.timestamp / scale < 2 ^ 63

/-- No output call made between `s` and `s'` failed. -/
def NoCallFailed (s s' : Sink) : Prop := ∀ i, s.calls ≤ i → i < s'.calls → s.plan i = none

private theorem newCluster_holds (tc scale : Nat) (wl fixed : Bool) {s : Sink} (hs : s.pos = s.data.length) :
    (newCluster tc scale wl fixed).Holds s s.data [] :=
  ⟨hs, rfl, rfl, fun _ => ⟨rfl, rfl, rfl, rfl⟩, fun h => (nomatch h), fun _ hf => (nomatch hf)⟩

private theorem not_clean {s s' : Sink} (h : Sink.FailedTo s s') : ¬ NoCallFailed s s' := fun hc => by
  obtain ⟨-, i, a, b, c⟩ := h
  exact c (hc i a b)

/-! ### C18 and C19 -/

/-- **C18 (cluster).** Frames are offered, one after the other, to a new cluster with time code `tc`
that writes them at once.  Unless an output call failed (and then some call was answered with
failure), a frame is accepted exactly if it is valid and its time, in ticks and relative to the
cluster, lies between 0 and 0x7FFF; the file then holds, after what was there before, one cluster
with exactly the accepted frames in order, each with that relative time. -/
theorem C18_relative_time {tc scale : Nat} {fixed : Bool} {fs : List Frame} {s : Sink}
    (hs : s.pos = s.data.length) (hfs : Offerable tc scale fs) :
    (∃ rs c' s', Cluster.addAll fs (newCluster tc scale false fixed) s = (rs, c', s') ∧
      rs.length = fs.length ∧
      (∀ p ∈ fs.zip rs, (p.2 = .ok () ↔ p.1.isValid = true ∧
        (0 < scale ∧ tc ≤ p.1.timestamp / scale ∧ p.1.timestamp / scale ≤ tc + 0x7FFF)) ∧
        (p.2 ≠ .ok () → ∃ e, p.2 = .err e)) ∧
      ((accepted fs rs = [] ∧ s'.data = s.data) ∨
        ∃ body, ClusterBody tc scale (accepted fs rs) body ∧
          s'.data = s.data ++ (clusterId ++ (sizeUnknown ++ body)))) ∨
    (∃ n e, n < fs.length ∧ (Cluster.addAll fs (newCluster tc scale false fixed) s).1[n]? = some (.err e) ∧
      ¬ NoCallFailed s (Cluster.addAll (fs.take (n + 1)) (newCluster tc scale false fixed) s).2.2) := by
  obtain ⟨rs, c', s', h⟩ := addAll_direct (newCluster_holds tc scale false fixed hs) rfl hfs.1 hfs.2
  rcases h with ⟨h1, h2, -, k, hh, h6, h7⟩ | ⟨n, e, h1, h2, h3⟩
  · refine .inl ⟨rs, c', s', h1, h2, fun p hp => ⟨h6 p hp, fun hne => ?_⟩, ?_⟩
    · exact (h7 p.2 (List.of_mem_zip hp).2).resolve_left hne
    · cases hhw : c'.headerWritten
      · obtain ⟨a, -, b, -⟩ := hh.noHeader hhw
        exact .inl ⟨b, a⟩
      · obtain ⟨a, -, -⟩ := hh.header hhw
        refine .inr ⟨c'.body (accepted fs rs), ?_, ?_⟩
        · have := Cluster.body_spec (c := c') (ws := accepted fs rs) (k.timecode ▸ hfs.1)
            fun f hf => (hh.fit f hf)
          rwa [k.timecode, k.scale] at this
        · rw [a, clusterHead_eq, unknownSize_eq, List.append_assoc]; rfl
  · exact .inr ⟨n, e, h1, h2, not_clean h3⟩

/-- Non-vacuity: of three frames, the one before the cluster and the one too far after it are
refused. -/
example :
    let f (t : Nat) : Frame := { frame := [1, 2, 3], isKey := true, trackNumber := 1, timestamp := t }
    let s : Sink := { data := [0xAA], pos := 1, calls := 0, plan := fun _ => none }
    let r := Cluster.addAll [f 4999999, f 32772000000, f 32773000000] (newCluster 5 1000000 false false) s
    Offerable 5 1000000 [f 4999999, f 32772000000, f 32773000000] ∧
    r.1 = [.err 0, .ok (), .err 0] ∧
    r.2.2.data = [0xAA] ++ (clusterId ++ (sizeUnknown ++ [0xE7, 0x81, 5, 0xA3, 0x87, 0x81, 0x7F, 0xFF, 0x80, 1, 2, 3])) := by
  refine ⟨⟨by omega, fun f hf => ?_⟩, by decide +kernel, by decide +kernel⟩
  simp only [List.mem_cons, List.not_mem_nil, or_false] at hf
  rcases hf with rfl | rfl | rfl <;> exact ⟨⟨by simp, fun a h => (nomatch h)⟩, by decide⟩

/-- **C19 (open cluster), partial.** At every point of a history the payload size the cluster
reports is the number of payload bytes after its 12-byte header, and the size of the whole element
it reports is the number of bytes it has written; or else an output call failed and a frame was
answered with failure.  After a failed output call the equation is false, see
`C19_failed_write_unaccounted`; what then remains is `C19_never_overstates`. -/
theorem C19_open_partial {tc scale : Nat} {fixed : Bool} {fs : List Frame} {s : Sink}
    (hs : s.pos = s.data.length) (hfs : Offerable tc scale fs) :
    (∃ rs c' s', Cluster.addAll fs (newCluster tc scale false fixed) s = (rs, c', s') ∧
      NoCallFailed s s' ∧ c'.blocksAdded = (accepted fs rs).length ∧
      ((accepted fs rs = [] ∧ s'.data = s.data ∧ c'.payloadSize = 0) ∨
        ∃ body, ClusterBody tc scale (accepted fs rs) body ∧
          s'.data = s.data ++ (clusterId ++ (sizeUnknown ++ body)) ∧
          c'.payloadSize = body.length ∧ c'.size = s'.data.length - s.data.length)) ∨
    (∃ n e, n < fs.length ∧ (Cluster.addAll fs (newCluster tc scale false fixed) s).1[n]? = some (.err e) ∧
      ¬ NoCallFailed s (Cluster.addAll (fs.take (n + 1)) (newCluster tc scale false fixed) s).2.2) := by
  obtain ⟨rs, c', s', h⟩ := addAll_direct (newCluster_holds tc scale false fixed hs) rfl hfs.1 hfs.2
  rcases h with ⟨h1, h2, hcl, k, hh, h6, h7⟩ | ⟨n, e, h1, h2, h3⟩
  · refine .inl ⟨rs, c', s', h1, hcl.2.2, hh.blocks, ?_⟩
    cases hhw : c'.headerWritten
    · obtain ⟨a, b, c, -⟩ := hh.noHeader hhw
      exact .inl ⟨c, a, b⟩
    · obtain ⟨a, b, -⟩ := hh.header hhw
      have e : s'.data = s.data ++ (clusterId ++ (sizeUnknown ++ c'.body (accepted fs rs))) := by
        rw [a, clusterHead_eq, unknownSize_eq, List.append_assoc]; rfl
      refine .inr ⟨c'.body (accepted fs rs), ?_, e, b, ?_⟩
      · have := Cluster.body_spec (c := c') (ws := accepted fs rs) (k.timecode ▸ hfs.1)
          fun f hf => (hh.fit f hf)
        rwa [k.timecode, k.scale] at this
      · rw [e]
        unfold Cluster.size
        rw [b, show ebmlMasterElementSize kMkvCluster 0xFFFFFFFFFFFFFFFF = 12 by decide]
        simp [clusterId, sizeUnknown]; omega
  · exact .inr ⟨n, e, h1, h2, not_clean h3⟩

/-- **C19 (closed cluster), partial.** The cluster is then finalised.  If finalisation reports
success, no output call failed and the size field holds exactly the number of payload bytes; nothing
else in the file changed, and the write cursor is back at the end.  (On an output that cannot seek,
the size field keeps saying "unknown".)  It fails only if an output call failed, if nothing was
written to the cluster, or if the payload is too large for the size field. -/
theorem C19_closed_partial {tc scale : Nat} {fixed seekable : Bool} {fs : List Frame} {s : Sink}
    (hs : s.pos = s.data.length) (hfs : Offerable tc scale fs) :
    (∃ rs c' s' r c'' s'', Cluster.addAll fs (newCluster tc scale false fixed) s = (rs, c', s') ∧
      Cluster.finalizePlain seekable c' s' = (r, c'', s'') ∧
      (r = .ok () →
        NoCallFailed s s'' ∧ c''.finalized = true ∧ s''.pos = s''.data.length ∧
        ∃ body, ClusterBody tc scale (accepted fs rs) body ∧ c''.payloadSize = body.length ∧
          s''.data = s.data ++ (clusterId ++ ((if seekable then vint 8 body.length else sizeUnknown) ++ body))) ∧
      (r ≠ .ok () → ¬ NoCallFailed s s'' ∨ (accepted fs rs = [] ∧ s''.data = s.data) ∨
        2 ^ 56 ≤ s''.data.length + 1)) ∨
    (∃ n e, n < fs.length ∧ (Cluster.addAll fs (newCluster tc scale false fixed) s).1[n]? = some (.err e) ∧
      ¬ NoCallFailed s (Cluster.addAll (fs.take (n + 1)) (newCluster tc scale false fixed) s).2.2) := by
  obtain ⟨rs, c', s', h⟩ := addAll_direct (newCluster_holds tc scale false fixed hs) rfl hfs.1 hfs.2
  rcases h with ⟨h1, h2, hcl, k, hh, h6, h7⟩ | ⟨n, e, h1, h2, h3⟩
  rotate_left
  · exact .inr ⟨n, e, h1, h2, not_clean h3⟩
  have hfin : Cluster.finalizePlain seekable c' s' = Cluster.close seekable c' s' := by
    unfold Cluster.finalizePlain Cluster.finalize
    have hw : c'.writeLast = false := k.writeLast
    rw [M.get_bind, if_neg (by simp [hw]), M.get_bind, if_neg (by simp [hh.open_])]
    have : Cluster.flush false 0 c' s' = (.ok (), c', s') := by
      unfold Cluster.flush; rw [if_pos (by simp [hw])]
    rw [M.bind_of_ok this]
  have hbody : ClusterBody tc scale (accepted fs rs) (c'.body (accepted fs rs)) := by
    have := Cluster.body_spec (c := c') (ws := accepted fs rs) (k.timecode ▸ hfs.1)
      fun f hf => (hh.fit f hf)
    rwa [k.timecode, k.scale] at this
  rcases close_spec (seekable := seekable) hh with ⟨s'', g1, g2, g3⟩ | ⟨e, s'', g1, g2⟩
  · refine .inl ⟨rs, c', s', .ok (), _, s'', h1, hfin.trans g1, fun _ => ⟨(hcl.trans g2).2.2, rfl, g3.atEnd,
      c'.body (accepted fs rs), hbody, g3.payload, ?_⟩, fun h => absurd rfl h⟩
    rw [g3.data, clusterHead_eq, unknownSize_eq, List.append_assoc]; rfl
  · refine .inl ⟨rs, c', s', .err e, c', s'', h1, hfin.trans g1, fun h => (nomatch h), fun _ => ?_⟩
    rcases g2 with g2 | ⟨a, b, rfl⟩ | ⟨a, -, b⟩
    · exact .inl (not_clean (hcl.failed g2))
    · exact .inr (.inl ⟨a, (hh.noHeader b).1⟩)
    · exact .inr (.inr (by omega))

/-- Non-vacuity: two frames (the second as a BlockGroup with a duration), then finalisation on a
seekable output; the size field is patched. -/
example :
    let s : Sink := { data := [0xAA], pos := 1, calls := 0, plan := fun _ => none }
    let r := Cluster.addAll [{ frame := [1, 2], isKey := true, trackNumber := 1, timestamp := 7000000 },
        { frame := [3], isKey := true, trackNumber := 2, timestamp := 8000000, duration := 4000000, durationSet := true }]
      (newCluster 5 1000000 false false) s
    let r' := Cluster.finalizePlain true r.2.1 r.2.2
    r'.1 = .ok () ∧
    r'.2.2.data = [0xAA] ++ (clusterId ++ (vint 8 23 ++
      ([0xE7, 0x81, 5] ++ [0xA3, 0x86, 0x81, 0, 2, 0x80, 1, 2] ++
       [0xA0, 0x8A, 0xA1, 0x85, 0x82, 0, 3, 0, 3, 0x9B, 0x81, 4]))) := by
  decide +kernel

/-- **C19, the claim is false after a failed output call.**  The second frame's block is cut short
by the output after two bytes; the call reports failure.  Adding a third frame and finalising then
succeed, and the size field says 19 bytes although 21 bytes of payload are there: the cluster's
last two bytes are outside the element. -/
theorem C19_failed_write_unaccounted :
    let s : Sink := { data := [], pos := 0, calls := 0, plan := fun i => if i = 24 then some 0 else none }
    let f (t : Nat) : Frame := { frame := [1, 2], isKey := true, trackNumber := 1, timestamp := t }
    let r := Cluster.addAll [f 7000000, f 8000000, f 9000000] (newCluster 5 1000000 false false) s
    let r' := Cluster.finalizePlain true r.2.1 r.2.2
    (r.1[0]? = some (.ok ()) ∧ (∃ e, r.1[1]? = some (.err e)) ∧ r.1[2]? = some (.ok ())) ∧
    r'.1 = .ok () ∧
    r'.2.2.data = clusterId ++ (vint 8 19 ++ [0xE7, 0x81, 5, 0xA3, 0x86, 0x81, 0, 2, 0x80, 1, 2,
      0xA3, 0x86, 0xA3, 0x86, 0x81, 0, 4, 0x80, 1, 2]) := by
  refine ⟨⟨by decide +kernel, ⟨-1, by decide +kernel⟩, by decide +kernel⟩, by decide +kernel, by decide +kernel⟩

/-- **C19 under output failures.**  Whatever the output does, what was in the file before the
cluster stays, and the payload size the cluster reports never exceeds the bytes written after it. -/
theorem C19_never_overstates {tc scale : Nat} {fixed : Bool} {fs : List Frame} {s : Sink}
    (hs : s.pos = s.data.length) (hfs : Offerable tc scale fs) :
    s.data <+: (Cluster.addAll fs (newCluster tc scale false fixed) s).2.2.data ∧
    (Cluster.addAll fs (newCluster tc scale false fixed) s).2.1.payloadSize + s.data.length ≤
      (Cluster.addAll fs (newCluster tc scale false fixed) s).2.2.data.length := by
  have := addAll_bound (fs := fs) (c := newCluster tc scale false fixed) hs rfl rfl hfs.1 hfs.2
  exact ⟨this.1, by simpa [newCluster] using this.2⟩

/-! ### C20 and C52: clusters that hold frames back -/

/-- The frames a cluster with time code `tc` can take: valid, of a size that occurs, and with a
time that the cluster can express. -/
def Takeable (tc scale : Nat) (fs : List Frame) : Prop :=
  Offerable tc scale fs ∧ 0 < scale ∧
  ∀ f ∈ fs, f.isValid = true ∧ tc ≤ f.timestamp / scale ∧ f.timestamp / scale ≤ tc + 0x7FFF

private theorem newCluster_acc (tc scale : Nat) (fixed : Bool) {s : Sink} (hs : s.pos = s.data.length)
    (h : tc < 2 ^ 63) : (newCluster tc scale true fixed).Acc s s.data [] [] :=
  ⟨newCluster_holds tc scale true fixed hs, rfl, rfl, h, fun _ hf => (nomatch hf), fun _ => rfl,
    fun _ _ => rfl, fun _ => rfl⟩

theorem sameData_copy {f : Frame} (h : f.isValid = true) : SameData f f.copy := by
  unfold Frame.copy
  split
  · rename_i b bs e; exact ⟨rfl, rfl, rfl, rfl, e.symm, fun _ => rfl, rfl⟩
  · rename_i hn
    have : f.additional = none := by
      cases ha : f.additional with
      | none => rfl
      | some a =>
        cases a with
        | nil => unfold Frame.isValid at h; simp [ha] at h
        | cons b bs => exact absurd ha (hn b bs)
    exact ⟨rfl, rfl, rfl, rfl, this.symm, fun h => absurd this h, rfl⟩

theorem sameData_finish (d p : Nat) (f : Frame) : SameData f (finish d p f) := by
  unfold finish
  split
  · exact ⟨rfl, rfl, rfl, rfl, rfl, fun _ => rfl, rfl⟩
  · split <;> exact ⟨rfl, rfl, rfl, rfl, rfl, fun _ => rfl, rfl⟩

theorem _root_.Verif.Spec.SameData.trans {f g h : Frame} (a : SameData f g) (b : SameData g h) : SameData f h :=
  ⟨b.1.trans a.1, b.2.trans a.2, b.3.trans a.3, b.4.trans a.4, b.5.trans a.5,
    fun hn => (b.6 (by rw [a.5]; exact hn)).trans (a.6 hn), b.7.trans a.7⟩

theorem _root_.Verif.Spec.SameAll.append {a b c d : List Frame} (h : SameAll a c) (h' : SameAll b d) :
    SameAll (a ++ b) (c ++ d) := by
  induction h with
  | nil => exact h'
  | cons x _ ih => exact .cons x ih

theorem sameAll_copy {fs : List Frame} (h : ∀ f ∈ fs, f.isValid = true) : SameAll fs (fs.map Frame.copy) := by
  induction fs with
  | nil => exact .nil
  | cons f fs ih =>
    exact .cons (sameData_copy (h f List.mem_cons_self)) (ih fun g hg => h g (List.mem_cons_of_mem _ hg))

theorem ofTrack_map_copy (t : Nat) (fs : List Frame) :
    ofTrack t (fs.map Frame.copy) = (ofTrack t fs).map Frame.copy := by
  unfold ofTrack
  rw [List.filter_map]
  congr 1
  apply List.filter_congr
  intro f _
  simp [copy_trackNumber]

theorem split_last {α : Type} (l : List α) : l = [] ∨ ∃ init x, l = init ++ [x] := by
  rcases List.eq_nil_or_concat l with h | ⟨a, b, h⟩
  · exact .inl h
  · exact .inr ⟨a, b, by rw [h]; simp⟩

theorem sameAll_seal (b : Bool) (d : Nat) {fs : List Frame} (h : ∀ f ∈ fs, f.isValid = true) :
    SameAll fs (sealTrack b d (fs.map Frame.copy)) := by
  cases b
  · exact sameAll_copy h
  · rcases split_last fs with rfl | ⟨init, f, rfl⟩
    · exact .nil
    · rw [List.map_append, List.map_cons, List.map_nil, sealTrack_append]
      refine SameAll.append (sameAll_copy fun g hg => h g (List.mem_append_left _ hg)) (.cons ?_ .nil)
      exact (sameData_copy (h f (by simp))).trans (sameData_finish ..)

/-- **C20, partial.** Takeable frames are offered, one after the other, to a new cluster that holds
frames back, and the cluster is finalised.  Then either an output call failed and a call was
answered with failure, or every frame was accepted and, if finalisation succeeds, the file holds one
cluster with frames `ws` such that for every track the frames of that track in `ws` carry the same
media data as the offered frames of that track, in the same order (so none is lost or duplicated);
and if the frames were offered in timestamp order, `ws` is in timestamp order.  (Finalisation can
fail only because of a failed output call, because nothing was offered, or because the file is
larger than 2^56 - 2 bytes.)

Partial: the English claim has no condition on the order of the offered frames; without it the
timestamps may decrease, see `C20_unordered_input`, and frames that the cluster cannot take lead to
undefined behaviour, see `C20_use_after_free`. -/
theorem C20_merge_partial {tc scale : Nat} {fixed seekable setLast : Bool} {duration : Nat}
    {fs : List Frame} {s : Sink} (hs : s.pos = s.data.length) (hfs : Takeable tc scale fs) :
    (∃ rs c' s' r c'' s'', Cluster.addAll fs (newCluster tc scale true fixed) s = (rs, c', s') ∧
      rs.length = fs.length ∧ (∀ r ∈ rs, r = .ok ()) ∧
      Cluster.finalize seekable setLast duration c' s' = (r, c'', s'') ∧
      (r = .ok () → ∃ ws body, ClusterBody tc scale ws body ∧
        s''.data = s.data ++ (clusterId ++ ((if seekable then vint 8 body.length else sizeUnknown) ++ body)) ∧
        (∀ t, SameAll (framesOf t fs) (framesOf t ws)) ∧
        (InOrder fs → InOrder ws)) ∧
      (r ≠ .ok () → (∃ e, r = .err e) ∧
        (¬ NoCallFailed s s'' ∨ fs = [] ∨ 2 ^ 56 ≤ s''.data.length + 1))) ∨
    (∃ n e, n < fs.length ∧ (Cluster.addAll fs (newCluster tc scale true fixed) s).1[n]? = some (.err e) ∧
      ¬ NoCallFailed s (Cluster.addAll (fs.take (n + 1)) (newCluster tc scale true fixed) s).2.2) := by
  obtain ⟨⟨htc, hoff⟩, hsc, hv⟩ := hfs
  have hgood : ∀ f ∈ fs, (newCluster tc scale true fixed).Good f ∧
      f.timestamp / (newCluster tc scale true fixed).scale < 2 ^ 63 := fun f hf =>
    ⟨⟨(hv f hf).1, (hoff f hf).1, hsc, (hv f hf).2⟩, (hoff f hf).2⟩
  rcases addAll_acc (newCluster_acc tc scale fixed hs htc) (fun _ hf => (nomatch hf)) hgood with
    ⟨rs, c', s', h1, h2, h3, h4, h5, ws', h6, h7⟩ | ⟨n, e, h1, h2, h3⟩
  rotate_left
  · exact .inr ⟨n, e, h1, h2, not_clean h3⟩
  rw [List.nil_append] at h6 h7
  have htime : c'.TimeOk (fs.map Frame.copy) := by
    intro f hf
    obtain ⟨g, hg, rfl⟩ := List.mem_map.mp hf
    rw [copy_timestamp, h5.scale]
    exact (hgood g hg).2
  obtain ⟨r, c'', s'', g1, g2⟩ := finalize_acc seekable setLast duration h6 htime
  refine .inl ⟨rs, c', s', r, c'', s'', h1, h2, h3, g1, ?_⟩
  rcases g2 with ⟨rfl, hcl, hcfg, ws, hclosed, -, hdone, hord⟩ | ⟨⟨e, rfl⟩, hf⟩
  · refine ⟨fun _ => ⟨ws, c''.body ws, ?_, ?_, ?_, ?_⟩, fun h => absurd rfl h⟩
    · have hcfg' := h5.trans hcfg
      have := Cluster.body_spec (c := c'') (ws := ws) (hcfg'.timecode ▸ htc)
        fun f hf => (hclosed.fit f hf)
      rwa [hcfg'.timecode, hcfg'.scale] at this
    · rw [hclosed.data, clusterHead_eq, unknownSize_eq, List.append_assoc]
    · intro t
      have := hdone t
      rw [ofTrack_map_copy] at this
      show SameAll (ofTrack t fs) (ofTrack t ws)
      rw [this]
      exact sameAll_seal _ _ fun f hf => (hv f (mem_ofTrack.mp hf).1).1
    · intro ho
      have hso : SortedTs (fs.map Frame.copy) := by
        unfold SortedTs
        rw [List.pairwise_map]
        refine List.Pairwise.imp ?_ ho
        intro a b h
        rw [copy_timestamp, copy_timestamp]; exact h
      exact hord (fun t => hso.ofTrack t)
        (h7 hso ⟨List.Pairwise.nil, fun w hw => (nomatch hw)⟩)
  · refine ⟨fun h => (nomatch h), fun _ => ⟨⟨e, rfl⟩, ?_⟩⟩
    rcases hf with hf | hf | hf
    · exact .inl (not_clean (h4.failed hf))
    · exact .inr (.inl (by simpa using hf))
    · exact .inr (.inr hf)

/-- Non-vacuity: two tracks; the frames of track 2 are released only at finalisation. -/
example :
    let f (n t : Nat) : Frame := { frame := [n.toUInt8, t.toUInt8], isKey := true, trackNumber := n, timestamp := t }
    let s : Sink := { data := [], pos := 0, calls := 0, plan := fun _ => none }
    let r := Cluster.addAll [f 1 5, f 2 6, f 1 7, f 2 7, f 1 9] (newCluster 5 1 true false) s
    let r' := Cluster.finalize true true 20 r.2.1 r.2.2
    Takeable 5 1 [f 1 5, f 2 6, f 1 7, f 2 7, f 1 9] ∧ InOrder [f 1 5, f 2 6, f 1 7, f 2 7, f 1 9] ∧
    r.1 = [.ok (), .ok (), .ok (), .ok (), .ok ()] ∧ r'.1 = .ok () ∧
    r'.2.2.data = clusterId ++ (vint 8 53 ++ ([0xE7, 0x81, 5] ++
      [0xA3, 0x86, 0x81, 0, 0, 0x80, 1, 5] ++ [0xA3, 0x86, 0x82, 0, 1, 0x80, 2, 6] ++
      [0xA3, 0x86, 0x81, 0, 2, 0x80, 1, 7] ++
      [0xA0, 0x8B, 0xA1, 0x86, 0x82, 0, 2, 0, 2, 7, 0x9B, 0x81, 13] ++
      [0xA0, 0x8B, 0xA1, 0x86, 0x81, 0, 4, 0, 1, 9, 0x9B, 0x81, 11])) := by
  refine ⟨⟨⟨by omega, fun f hf => ?_⟩, by omega, fun f hf => ?_⟩, by unfold InOrder; decide +kernel,
    by decide +kernel, by decide +kernel, by decide +kernel⟩
  all_goals
    simp only [List.mem_cons, List.not_mem_nil, or_false] at hf
    rcases hf with rfl | rfl | rfl | rfl | rfl
  all_goals first
    | exact ⟨⟨by simp, fun a h => (nomatch h)⟩, by decide⟩
    | decide

/-- `after` is `before` with the last frame given the rest of the time up to `duration` as its
duration, unless it came with one.  (A frame that is not a key frame then needs a reference: the
frame before it in the track.) -/
def LastGetsDuration (duration : Nat) (before after : List Frame) : Prop :=
  (before = [] ∧ after = []) ∨
  ∃ init f g, before = init ++ [f] ∧ after = init ++ [g] ∧ SameData f g ∧
    (f.durationSet = true → g = f) ∧
    (f.durationSet = false → g.duration = duration - f.timestamp ∧ g.durationSet = true ∧
      (f.isKey = false → f.referenceBlockTimestampSet = false →
        g.referenceBlockTimestamp = ((init.getLast?.map (·.timestamp)).getD 0 : Nat) ∧
        g.referenceBlockTimestampSet = true) ∧
      (f.isKey = true ∨ f.referenceBlockTimestampSet = true →
        g.referenceBlockTimestamp = f.referenceBlockTimestamp ∧
        g.referenceBlockTimestampSet = f.referenceBlockTimestampSet))

theorem lastGetsDuration_seal {d : Nat} {fs : List Frame} (hd : d < 2 ^ 63)
    (hfs : ∀ f ∈ fs, f.timestamp ≤ d) : LastGetsDuration d fs (sealTrack true d fs) := by
  rcases split_last fs with rfl | ⟨init, f, rfl⟩
  · exact .inl ⟨rfl, rfl⟩
  · rw [sealTrack_append]
    refine .inr ⟨init, f, finish d (lastTime init) f, rfl, rfl, sameData_finish .., ?_, ?_⟩
    · intro h; unfold finish; rw [if_pos h]
    · intro h
      have h1 := hfs f (by simp)
      have hp : lastTime init ≤ d := by
        unfold lastTime
        rcases split_last init with rfl | ⟨i, x, rfl⟩
        · simp
        · simp; exact hfs x (by simp)
      have hsub : subU64 d f.timestamp = d - f.timestamp := by
        unfold subU64 toU64; omega
      have hi : toI64 (lastTime init) = ((lastTime init : Nat) : Int) := by
        unfold toI64; omega
      unfold finish
      rw [if_neg (by simp [h])]
      by_cases hk : (!f.isKey && !f.referenceBlockTimestampSet) = true
      · rw [if_pos hk]
        refine ⟨hsub, rfl, fun _ _ => ⟨hi, rfl⟩, fun h' => ?_⟩
        simp at hk
        rcases h' with h' | h'
        · rw [hk.1] at h'; cases h'
        · rw [hk.2] at h'; cases h'
      · rw [if_neg hk]
        refine ⟨hsub, rfl, fun a b => ?_, fun _ => ⟨rfl, rfl⟩⟩
        rw [a, b] at hk; simp at hk

/-- **C52.** In the same history, finalised with the end time `duration` of the cluster: if
finalisation succeeds, the file holds one cluster in which the last block of every track has the time
from its timestamp to that end as its duration (unless it came with a duration), and every other
block is as it was offered. -/
theorem C52_last_durations {tc scale : Nat} {fixed seekable : Bool} {duration : Nat}
    {fs : List Frame} {s : Sink} (hs : s.pos = s.data.length) (hfs : Takeable tc scale fs)
    (hd : duration < 2 ^ 63) (hmax : ∀ f ∈ fs, f.timestamp ≤ duration)
    {rs : List (Res Unit)} {c' c'' : Cluster} {s' s'' : Sink}
    (hadd : Cluster.addAll fs (newCluster tc scale true fixed) s = (rs, c', s'))
    (hall : ∀ r ∈ rs, r = .ok ())
    (hfin : Cluster.finalize seekable true duration c' s' = (.ok (), c'', s'')) :
    ∃ ws body, ClusterBody tc scale ws body ∧
      s''.data = s.data ++ (clusterId ++ ((if seekable then vint 8 body.length else sizeUnknown) ++ body)) ∧
      ∀ t, LastGetsDuration duration ((framesOf t fs).map Frame.copy) (framesOf t ws) := by
  obtain ⟨⟨htc, hoff⟩, hsc, hv⟩ := hfs
  have hgood : ∀ f ∈ fs, (newCluster tc scale true fixed).Good f ∧
      f.timestamp / (newCluster tc scale true fixed).scale < 2 ^ 63 := fun f hf =>
    ⟨⟨(hv f hf).1, (hoff f hf).1, hsc, (hv f hf).2⟩, (hoff f hf).2⟩
  rcases addAll_acc (newCluster_acc tc scale fixed hs htc) (fun _ hf => (nomatch hf)) hgood with
    ⟨rs', c1, s1, h1, h2, h3, h4, h5, ws', h6, h7⟩ | ⟨n, e, h1, h2, h3⟩
  rotate_left
  · rw [hadd] at h2
    have := hall _ (List.mem_of_getElem? h2)
    cases this
  rw [hadd] at h1
  injection h1 with e1 e2
  injection e2 with e2 e3
  subst e1 e2 e3
  rw [List.nil_append] at h6 h7
  have htime : c'.TimeOk (fs.map Frame.copy) := by
    intro f hf
    obtain ⟨g, hg, rfl⟩ := List.mem_map.mp hf
    rw [copy_timestamp, h5.scale]
    exact (hgood g hg).2
  obtain ⟨r, c2, s2, g1, g2⟩ := finalize_acc seekable true duration h6 htime
  rw [hfin] at g1
  injection g1 with e1 e2
  injection e2 with e2 e3
  subst e1 e2 e3
  rcases g2 with ⟨-, hcl, hcfg, ws, hclosed, -, hdone, hord⟩ | ⟨⟨e, he⟩, hf⟩
  · refine ⟨ws, c''.body ws, ?_, ?_, ?_⟩
    · have hcfg' := h5.trans hcfg
      have := Cluster.body_spec (c := c'') (ws := ws) (hcfg'.timecode ▸ htc)
        fun f hf => (hclosed.fit f hf)
      rwa [hcfg'.timecode, hcfg'.scale] at this
    · rw [hclosed.data, clusterHead_eq, unknownSize_eq, List.append_assoc]
    · intro t
      have := hdone t
      rw [ofTrack_map_copy] at this
      show LastGetsDuration duration ((ofTrack t fs).map Frame.copy) (ofTrack t ws)
      rw [this]
      refine lastGetsDuration_seal hd fun f hf => ?_
      obtain ⟨g, hg, rfl⟩ := List.mem_map.mp hf
      rw [copy_timestamp]
      exact hmax g (mem_ofTrack.mp hg).1
  · cases he

/-- Non-vacuity: a non-key last frame gets a duration and a reference. -/
example :
    let f (k : Bool) (t : Nat) : Frame := { frame := [7], isKey := k, trackNumber := 1, timestamp := t }
    let s : Sink := { data := [], pos := 0, calls := 0, plan := fun _ => none }
    let r := Cluster.addAll [f true 5, f false 9] (newCluster 5 1 true false) s
    let r' := Cluster.finalize true true 20 r.2.1 r.2.2
    r.1 = [.ok (), .ok ()] ∧ r'.1 = .ok () ∧
    r'.2.2.data = clusterId ++ (vint 8 25 ++ ([0xE7, 0x81, 5] ++
      [0xA3, 0x85, 0x81, 0, 0, 0x80, 7] ++
      [0xA0, 0x8D, 0xA1, 0x85, 0x81, 0, 4, 0, 7, 0xFB, 0x81, 5, 0x9B, 0x81, 11])) := by
  decide +kernel

/-- **C20 is false for frames offered out of order**, even if each track is in order: the frame at
10 has been released when the one at 5 (of another track) arrives. -/
theorem C20_unordered_input :
    let f (n t : Nat) : Frame := { frame := [n.toUInt8, t.toUInt8], isKey := true, trackNumber := n, timestamp := t }
    let s : Sink := { data := [], pos := 0, calls := 0, plan := fun _ => none }
    let r := Cluster.addAll [f 1 10, f 1 20, f 2 5] (newCluster 0 1 true false) s
    let r' := Cluster.finalize true false 0 r.2.1 r.2.2
    r.1 = [.ok (), .ok (), .ok ()] ∧ r'.1 = .ok () ∧
    r'.2.2.data = clusterId ++ (vint 8 27 ++ ([0xE7, 0x81, 0] ++
      [0xA3, 0x86, 0x81, 0, 10, 0x80, 1, 10] ++ [0xA3, 0x86, 0x82, 0, 5, 0x80, 2, 5] ++
      [0xA3, 0x86, 0x81, 0, 20, 0x80, 1, 20])) := by
  decide +kernel

/-- **C20 is false for frames the cluster cannot take.**  The second frame's time cannot be
expressed in this cluster.  It is accepted, because it is held back; the next call reports failure,
having deleted the frame but not removed it from the queue; the call after that uses the deleted
frame. -/
theorem C20_use_after_free :
    let f (t : Nat) : Frame := { frame := [1], isKey := true, trackNumber := 1, timestamp := t }
    let s : Sink := { data := [], pos := 0, calls := 0, plan := fun _ => none }
    (Cluster.addAll [f 0, f 40000, f 40001, f 40002] (newCluster 0 1 true false) s).1 =
      [.ok (), .ok (), .err 0, .ub] := by
  decide +kernel

end Verif.Props
