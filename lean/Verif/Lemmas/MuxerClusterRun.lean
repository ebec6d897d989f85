/-
Histories of calls on a muxer cluster.
-/
import Verif.Lemmas.MuxerCluster
import Verif.Spec.Muxer
import Verif.Lemmas.Scalars

namespace Verif
theorem Sink.okFor_clean {s : Sink} {bs : Bytes} {k : Nat} (h : s.okFor k) :
    Mux.Sink.CleanTo s (s.put bs k) := by
  refine ⟨rfl, by simp [Sink.put], fun i h1 h2 => ?_⟩
  have := h (i - s.calls) (by simp only [Sink.put] at h2; omega)
  rwa [show s.calls + (i - s.calls) = i by omega] at this

theorem Sink.Torn.failed {s s' : Sink} {bs : Bytes} (h : s.Torn s' bs) : Mux.Sink.FailedTo s s' :=
  ⟨h.plan, h.cause⟩

theorem seek_cases (s : Sink) (p : Nat) :
    (Sink.seek p s = (.ok (), { s with pos := p, calls := s.calls + 1 }) ∧
      Mux.Sink.CleanTo s { s with pos := p, calls := s.calls + 1 }) ∨
    (Sink.seek p s = (.err (-1), { s with calls := s.calls + 1 }) ∧
      Mux.Sink.FailedTo s { s with calls := s.calls + 1 }) := by
  unfold Sink.seek
  cases h : s.plan s.calls with
  | none =>
    refine .inl ⟨rfl, rfl, Nat.le_succ _, fun i h1 h2 => ?_⟩
    have : i = s.calls := by simp only at h2; omega
    rw [this, h]
  | some n => exact .inr ⟨rfl, rfl, s.calls, Nat.le_refl _, Nat.lt_succ_self _, by rw [h]; simp⟩

/-- Replacing a field in the middle of the file. -/
theorem overwrite_mid (a old new b : Bytes) (h : old.length = new.length) :
    overwrite (a ++ (old ++ b)) a.length new = a ++ (new ++ b) := by
  unfold overwrite
  rw [List.take_left, ← h, ← List.drop_drop, List.drop_left, List.drop_left]
  simp

end Verif

namespace Verif.Mux
open Verif Spec

theorem unknownSize_eq : unknownSize = sizeUnknown := by decide
theorem clusterHead_eq (b : Bytes) : clusterHead b = clusterId ++ b := by
  unfold clusterHead
  rw [show beBytes 4 kMkvCluster = clusterId by decide]

theorem isUIntElement (id v : Nat) : IsUIntElement id v (element id (beBytes (getUIntSize v) v)) :=
  ⟨_, (getUIntSize_bounds v).1, (getUIntSize_bounds v).2, fun h => getUIntSize_fits h, rfl⟩

theorem isIntElement (id : Nat) (v : Int) : IsIntElement id v (element id (twosBytes (getIntSize v) v)) :=
  ⟨_, (getIntSize_bounds v).1, (getIntSize_bounds v).2, fun h1 h2 => (getIntSize_spec h1 h2).1, rfl⟩

theorem isBlock_frameBytes {tc scale : Nat} {f : Frame} (h : f.isValid = true ∧ FitsTime tc scale f) :
    IsBlock tc scale f (frameBytes tc scale f) := by
  obtain ⟨v1, v2, v3, v4⟩ := isValid_bounds h.1
  refine ⟨h.2.2.1, h.2.2.2, v1, v2, v3, v4, ?_⟩
  have hc : f.canBeSimpleBlock = true ↔ f.additional = none ∧ f.discardPadding = 0 ∧ f.duration = 0 := by
    unfold Frame.canBeSimpleBlock
    simp [and_assoc]
  unfold frameBytes
  by_cases hs : f.canBeSimpleBlock = true
  · rw [if_pos hs, if_pos (hc.mp hs)]; rfl
  · rw [if_neg hs, if_neg (fun h => hs (hc.mpr h))]
    refine ⟨additionsBytes f, discardBytes f, refBytes f scale, durBytes f scale, ?_, ?_, ?_, ?_, rfl⟩
    · unfold IsAdditions additionsBytes
      cases f.additional with
      | none => rfl
      | some a => exact ⟨_, isUIntElement _ _, rfl⟩
    · unfold discardBytes
      by_cases h0 : f.discardPadding = 0
      · rw [if_pos h0, if_neg (by simp [h0])]
      · rw [if_neg h0, if_pos h0]; exact isIntElement _ _
    · unfold refBytes
      cases f.isKey
      · simp only [Bool.false_eq_true, if_false, Bool.not_false, if_true]
        exact isUIntElement _ _
      · rfl
    · unfold durBytes
      by_cases h0 : f.duration / scale = 0
      · rw [if_pos h0, if_neg (by omega)]
      · rw [if_neg h0, if_pos (Nat.pos_of_ne_zero h0)]; exact isUIntElement _ _

theorem blocks_of_fit {tc scale : Nat} {ws : List Frame} (h : ∀ f ∈ ws, f.isValid = true ∧ FitsTime tc scale f) :
    Blocks tc scale ws (ws.map (frameBytes tc scale)).flatten := by
  induction ws with
  | nil => exact .nil
  | cons f ws ih =>
    exact .cons (isBlock_frameBytes (h f List.mem_cons_self))
      (ih fun g hg => h g (List.mem_cons_of_mem _ hg))

theorem Cluster.body_spec {c : Cluster} (hc : c.timecode < 2 ^ 63) {ws : List Frame}
    (h : ∀ f ∈ ws, f.isValid = true ∧ FitsTime c.timecode c.scale f) :
    ClusterBody c.timecode c.scale ws (c.body ws) := by
  refine ⟨if c.fixedTimecode then 8 else getUIntSize c.timecode, _, ?_, ?_, ?_, blocks_of_fit h, rfl⟩
  · have := getUIntSize_bounds c.timecode; split <;> omega
  · have := getUIntSize_bounds c.timecode; split <;> omega
  · split
    · exact Nat.lt_trans hc (by decide)
    · exact getUIntSize_fits (Nat.lt_trans hc (by decide))

/-- Patching the size field of the cluster at the end of the file. -/
theorem patchSize_spec {s : Sink} {pre body : Bytes} (hs : s.AtEnd)
    (hd : s.data = pre ++ (clusterHead unknownSize ++ body)) :
    (∃ s', Cluster.patchSize (pre.length + 4) body.length s = (.ok (), s') ∧ Sink.CleanTo s s' ∧
      body.length + 1 < 2 ^ 56 ∧ s'.AtEnd ∧
      s'.data = pre ++ (clusterHead (vint 8 body.length) ++ body)) ∨
    (∃ e s', Cluster.patchSize (pre.length + 4) body.length s = (.err e, s') ∧
      (Sink.FailedTo s s' ∨ (2 ^ 56 ≤ body.length + 1 ∧ Sink.CleanTo s s' ∧ s'.data = s.data))) := by
  unfold Cluster.patchSize
  have hp : Sink.position s = (.ok s.pos, s) := rfl
  rw [W.bind_of_ok hp]
  rcases seek_cases s (pre.length + 4) with ⟨h1, c1⟩ | ⟨h1, f1⟩
  rotate_left
  · rw [W.bind_of_err h1]; exact .inr ⟨_, _, rfl, .inl f1⟩
  rw [W.bind_of_ok h1]
  have hlen : s.data.length = pre.length + 4 + 8 + body.length := by
    rw [hd]; simp [clusterHead, unknownSize]; omega
  by_cases hv : body.length + 1 < 2 ^ 56
  rotate_left
  · have : writeUIntSize body.length 8 { s with pos := pre.length + 4, calls := s.calls + 1 } =
        (.err (-1), { s with pos := pre.length + 4, calls := s.calls + 1 }) :=
      writeUIntSize_refuses (n := 8) (by omega) (by omega) (by omega) _
    rw [W.bind_of_err this]
    exact .inr ⟨_, _, rfl, .inr ⟨by omega, c1, rfl⟩⟩
  have hw : Sink.Within { s with pos := pre.length + 4, calls := s.calls + 1 } := by
    unfold Sink.Within; simp only; omega
  have em : Emits (writeUIntSize body.length 8) () (vint 8 body.length) :=
    writeUIntSize_emits (v := body.length) (n := 8) (by omega) (by omega) hv
  rcases em.casesAt hw with ⟨k, h2, ok2⟩ | ⟨e, s2, h2, t2⟩
  rotate_left
  · rw [W.bind_of_err h2]
    exact .inr ⟨_, _, rfl, .inl (c1.failed t2.failed)⟩
  rw [W.bind_of_ok h2]
  have c2 := c1.trans (Sink.okFor_clean (bs := vint 8 body.length) ok2)
  have hdata : overwrite s.data (pre.length + 4) (vint 8 body.length) =
      pre ++ (clusterHead (vint 8 body.length) ++ body) := by
    have := overwrite_mid (pre ++ beBytes 4 kMkvCluster) unknownSize (vint 8 body.length) body
      (by simp [unknownSize, vint])
    simp only [List.length_append, beBytes_length] at this
    rw [hd]
    simpa [clusterHead] using this
  rcases seek_cases (Sink.put { s with pos := pre.length + 4, calls := s.calls + 1 }
    (vint 8 body.length) k) s.pos with ⟨h3, c3⟩ | ⟨h3, f3⟩
  · refine .inl ⟨_, h3, c2.trans c3, hv, ?_, hdata⟩
    unfold Sink.AtEnd at *
    simp only [Sink.put, hdata]
    rw [hs, hlen]
    simp [clusterHead, vint]; omega
  · rw [h3]
    exact .inr ⟨_, _, rfl, .inl (c2.failed f3)⟩

/-- The cluster is closed: its size field (on seekable output) holds the payload size. -/
structure Cluster.Closed (c : Cluster) (seekable : Bool) (s : Sink) (pre : Bytes) (ws : List Frame) :
    Prop where
  atEnd : s.AtEnd
  closed : c.finalized = true
  blocks : c.blocksAdded = ws.length
  payload : c.payloadSize = (c.body ws).length
  sizePos : c.sizePosition = some (pre.length + 4)
  data : s.data = pre ++ (clusterHead (if seekable then vint 8 (c.body ws).length else unknownSize) ++
    c.body ws)
  small : seekable = true → (c.body ws).length + 1 < 2 ^ 56
  fit : ∀ f ∈ ws, f.isValid = true ∧ FitsTime c.timecode c.scale f

theorem close_spec {c : Cluster} {s : Sink} {seekable : Bool} {pre : Bytes} {ws : List Frame}
    (h : c.Holds s pre ws) :
    (∃ s', Cluster.close seekable c s = (.ok (), { c with finalized := true }, s') ∧
      Sink.CleanTo s s' ∧ ({ c with finalized := true } : Cluster).Closed seekable s' pre ws) ∨
    (∃ e s', Cluster.close seekable c s = (.err e, c, s') ∧
      (Sink.FailedTo s s' ∨ (ws = [] ∧ c.headerWritten = false ∧ s' = s) ∨
        (2 ^ 56 ≤ (c.body ws).length + 1 ∧ Sink.CleanTo s s' ∧ (c.body ws).length ≤ s'.data.length))) := by
  by_cases hh : c.headerWritten = true
  rotate_left
  · have hh : c.headerWritten = false := by simpa using hh
    obtain ⟨h1, h2, h3, h4⟩ := h.noHeader hh
    refine .inr ⟨0, s, ?_, .inr (.inl ⟨h3, hh, rfl⟩)⟩
    unfold Cluster.close
    rw [M.get_bind, h4]
    rfl
  · obtain ⟨h1, h2, h3⟩ := h.header hh
    have hrun : Cluster.close seekable c s = (do
          M.lift (if seekable then Cluster.patchSize (pre.length + 4) (c.body ws).length else pure ())
          M.modify fun c => { c with finalized := true } : M Cluster Unit) c s := by
      unfold Cluster.close
      rw [M.get_bind, h3, h2]
    rw [hrun]
    cases seekable
    · rw [if_neg (by simp)]
      refine .inl ⟨s, rfl, .refl s, ⟨h.atEnd, rfl, h.blocks, h2, h3, ?_, fun h => (nomatch h), h.fit⟩⟩
      simp only [Bool.false_eq_true, if_false]; exact h1
    · rw [if_pos rfl]
      rcases patchSize_spec h.atEnd h1 with ⟨s', p1, p2, p3, p4, p5⟩ | ⟨e, s', p1, p2⟩
      · rw [M.bind_of_ok (M.lift_of p1)]
        exact .inl ⟨s', rfl, p2, ⟨p4, rfl, h.blocks, h2, h3, p5, fun _ => p3, h.fit⟩⟩
      · rw [M.bind_of_err (M.lift_of p1)]
        refine .inr ⟨e, s', rfl, ?_⟩
        rcases p2 with p2 | p2
        · exact .inl p2
        · refine .inr (.inr ⟨p2.1, p2.2.1, ?_⟩)
          have e := congrArg List.length (p2.2.2.trans h1)
          simp only [List.length_append] at e
          omega

theorem withHeader_payload (c : Cluster) (p : Nat) :
    (c.withHeader p).payloadSize ≤ c.payloadSize + c.pendingHead.length := by
  unfold Cluster.withHeader Cluster.pendingHead
  split
  · simp
  · simp [Cluster.afterHeader]

/-- Whatever the output does, the payload size never grows by more than the file. -/
theorem doWriteFrame_bound {c : Cluster} {s : Sink} {f : Frame} (hs : s.AtEnd)
    (hf : c.finalized = false) (hsm : SmallFrame f) (hc : c.timecode < 2 ^ 63)
    (ht : f.timestamp / c.scale < 2 ^ 63) :
    ∃ r c' s', Cluster.doWriteFrame f c s = (r, c', s') ∧ s'.AtEnd ∧ c.Keeps c' ∧
      s.data <+: s'.data ∧
      c'.payloadSize + s.data.length ≤ c.payloadSize + s'.data.length := by
  cases hv : f.isValid
  · exact ⟨_, c, s, doWriteFrame_invalid hv, hs, .refl c, List.prefix_rfl, Nat.le_refl _⟩
  have hw := withHeader_payload c s.data.length
  rcases doWriteFrame_spec (f := f) hs hf hv hsm hc ht with
    ⟨hfit, s', h1, n⟩ | ⟨hfit, s', h1, n⟩ | ⟨e, c', s', h1, h2, b⟩
  · refine ⟨_, _, s', h1, n.atEnd hs, (Cluster.Keeps.withHeader c _).afterBlock f, ?_, ?_⟩
    · rw [n.data]; exact List.prefix_append _ _
    · rw [n.data]; simp [Cluster.afterBlock]; omega
  · refine ⟨_, _, s', h1, n.atEnd hs, Cluster.Keeps.withHeader c _, ?_, ?_⟩
    · rw [n.data]; exact List.prefix_append _ _
    · rw [n.data]; simp; omega
  · obtain ⟨p, -, hp⟩ := b.pre
    refine ⟨_, c', s', h1, b.atEnd, ?_, ?_, ?_⟩
    · rcases h2 with h2 | ⟨rfl, -⟩
      · exact .sizePos h2
      · exact .withHeader c _
    · rw [hp]; exact List.prefix_append _ _
    · rcases h2 with ⟨p, rfl⟩ | ⟨rfl, h3⟩
      · rw [hp]; simp
      · omega

/-- Offering frames to a cluster one after the other; the outcomes, the cluster and the output. -/
def Cluster.addAll : List Frame → Cluster → Sink → List (Res Unit) × Cluster × Sink
  | [], c, s => ([], c, s)
  | f :: fs, c, s =>
    match Cluster.addFrame f c s with
    | (r, c', s') =>
      match Cluster.addAll fs c' s' with
      | (rs, c'', s'') => (r :: rs, c'', s'')

theorem addAll_cons {f : Frame} {fs : List Frame} {c c' : Cluster} {s s' : Sink} {r : Res Unit}
    (h : Cluster.addFrame f c s = (r, c', s')) :
    Cluster.addAll (f :: fs) c s =
      (r :: (Cluster.addAll fs c' s').1, (Cluster.addAll fs c' s').2.1, (Cluster.addAll fs c' s').2.2) := by
  rw [Cluster.addAll, h]

/-- The frames whose call reported success. -/
def accepted : List Frame → List (Res Unit) → List Frame
  | f :: fs, r :: rs => if r = .ok () then f :: accepted fs rs else accepted fs rs
  | _, _ => []

theorem addFrame_direct {c : Cluster} {s : Sink} {f : Frame} (hw : c.writeLast = false) :
    Cluster.addFrame f c s = Cluster.doWriteFrame f c s := by
  unfold Cluster.addFrame
  rw [M.get_bind, hw]
  cases hv : f.isValid
  · rw [doWriteFrame_invalid hv]; rfl
  · simp

theorem addAll_bound {fs : List Frame} : ∀ {c : Cluster} {s : Sink} (_ : s.AtEnd)
    (_ : c.finalized = false) (_ : c.writeLast = false) (_ : c.timecode < 2 ^ 63)
    (_ : ∀ f ∈ fs, SmallFrame f ∧ f.timestamp / c.scale < 2 ^ 63),
    s.data <+: (Cluster.addAll fs c s).2.2.data ∧
    (Cluster.addAll fs c s).2.1.payloadSize + s.data.length ≤
      c.payloadSize + (Cluster.addAll fs c s).2.2.data.length := by
  induction fs with
  | nil => intro c s _ _ _ _ _; exact ⟨List.prefix_rfl, Nat.le_refl _⟩
  | cons f fs ih =>
    intro c s hs hf hw hc hfs
    obtain ⟨hsm, ht⟩ := hfs f List.mem_cons_self
    obtain ⟨r, c1, s1, h1, h2, k, h3, h4⟩ := doWriteFrame_bound (f := f) hs hf hsm hc ht
    rw [addAll_cons ((addFrame_direct (f := f) (s := s) hw).trans h1)]
    obtain ⟨g1, g2⟩ := ih h2 (k.finalized.trans hf) (k.writeLast.trans hw) (k.timecode ▸ hc)
      (fun g hg => by rw [k.scale]; exact hfs g (List.mem_cons_of_mem _ hg))
    exact ⟨h3.trans g1, by simp only; omega⟩

/-- A history of frames offered to an open cluster that writes them at once. -/
theorem addAll_direct {fs : List Frame} : ∀ {c : Cluster} {s : Sink} {pre : Bytes} {ws : List Frame}
    (_ : c.Holds s pre ws) (_ : c.writeLast = false) (_ : c.timecode < 2 ^ 63)
    (_ : ∀ f ∈ fs, SmallFrame f ∧ f.timestamp / c.scale < 2 ^ 63),
    ∃ rs c' s', Cluster.addAll fs c s = (rs, c', s') ∧ rs.length = fs.length ∧ Sink.CleanTo s s' ∧
        c.Keeps c' ∧ c'.Holds s' pre (ws ++ accepted fs rs) ∧
        (∀ p ∈ fs.zip rs, p.2 = .ok () ↔ p.1.isValid = true ∧ FitsTime c.timecode c.scale p.1) ∧
        (∀ r ∈ rs, r = .ok () ∨ ∃ e, r = .err e) ∨
    ∃ n e, n < fs.length ∧ (Cluster.addAll fs c s).1[n]? = some (.err e) ∧
      Sink.FailedTo s (Cluster.addAll (fs.take (n + 1)) c s).2.2 := by
  induction fs with
  | nil =>
    intro c s pre ws h hw hc hfs
    exact ⟨[], c, s, .inl ⟨rfl, rfl, .refl s, .refl c, by simpa [accepted] using h, by simp, by simp⟩⟩
  | cons f fs ih =>
    intro c s pre ws h hw hc hfs
    obtain ⟨hsm, ht⟩ := hfs f List.mem_cons_self
    obtain ⟨r, c1, s1, h1, k, hcase⟩ := doWriteFrame_holds h hsm hc ht
    have hadd := (addFrame_direct (f := f) (s := s) hw).trans h1
    -- the rest of the history
    have rest : ∀ ws', Sink.CleanTo s s1 → c1.Holds s1 pre ws' →
        (∃ rs c' s', Cluster.addAll fs c1 s1 = (rs, c', s') ∧ rs.length = fs.length ∧
          Sink.CleanTo s s' ∧ c.Keeps c' ∧ c'.Holds s' pre (ws' ++ accepted fs rs) ∧
          (∀ p ∈ fs.zip rs, p.2 = .ok () ↔ p.1.isValid = true ∧ FitsTime c.timecode c.scale p.1) ∧
          (∀ r ∈ rs, r = .ok () ∨ ∃ e, r = .err e)) ∨
        ∃ n e, n < fs.length ∧ (Cluster.addAll fs c1 s1).1[n]? = some (.err e) ∧
          Sink.FailedTo s (Cluster.addAll (fs.take (n + 1)) c1 s1).2.2 := by
      intro ws' hcl hh
      have := ih hh (k.writeLast.trans hw) (k.timecode ▸ hc) (fun g hg => by
        rw [k.scale]; exact hfs g (List.mem_cons_of_mem _ hg))
      rcases this with ⟨rs, c', s', g⟩
      rcases g with ⟨g1, g2, g3, g4, g5, g6, g7⟩ | ⟨n, e, g1, g2, g3⟩
      · refine .inl ⟨rs, c', s', g1, g2, hcl.trans g3, ?_, g5, ?_, g7⟩
        · exact ⟨g4.1.trans k.1, g4.2.trans k.2, g4.3.trans k.3, g4.4.trans k.4, g4.5.trans k.5,
            g4.6.trans k.6, g4.7.trans k.7, g4.8.trans k.8⟩
        · intro p hp
          have := g6 p hp
          rwa [k.timecode, k.scale] at this
      · exact .inr ⟨n, e, g1, g2, hcl.failed g3⟩
    have conclude : ∀ ws' : List Frame, Sink.CleanTo s s1 → c1.Holds s1 pre ws' →
        (∀ rs, ws' ++ accepted fs rs = ws ++ accepted (f :: fs) (r :: rs)) →
        (r = .ok () ↔ f.isValid = true ∧ FitsTime c.timecode c.scale f) →
        (r = .ok () ∨ ∃ e, r = .err e) →
        ∃ rs c' s', Cluster.addAll (f :: fs) c s = (rs, c', s') ∧ rs.length = (f :: fs).length ∧
          Sink.CleanTo s s' ∧ c.Keeps c' ∧ c'.Holds s' pre (ws ++ accepted (f :: fs) rs) ∧
          (∀ p ∈ (f :: fs).zip rs, p.2 = .ok () ↔ p.1.isValid = true ∧ FitsTime c.timecode c.scale p.1) ∧
          (∀ r ∈ rs, r = .ok () ∨ ∃ e, r = .err e) ∨
        ∃ n e, n < (f :: fs).length ∧ (Cluster.addAll (f :: fs) c s).1[n]? = some (.err e) ∧
          Sink.FailedTo s (Cluster.addAll ((f :: fs).take (n + 1)) c s).2.2 := by
      intro ws' hcl hh hws hiff hre
      rcases rest ws' hcl hh with ⟨rs, c', s', g1, g2, g3, g4, g5, g6, g7⟩ | ⟨n, e, g1, g2, g3⟩
      · refine ⟨r :: rs, c', s', .inl ⟨?_, by simp [g2], g3, g4, hws rs ▸ g5, ?_, ?_⟩⟩
        · rw [addAll_cons hadd, g1]
        · intro p hp
          rw [List.zip_cons_cons, List.mem_cons] at hp
          rcases hp with rfl | hp
          · exact hiff
          · exact g6 p hp
        · intro x hx
          rcases List.mem_cons.mp hx with rfl | hx
          · exact hre
          · exact g7 x hx
      · refine ⟨[], c, s, .inr ⟨n + 1, e, by simp; omega, ?_, ?_⟩⟩
        · rw [addAll_cons hadd]; simpa using g2
        · rw [List.take_succ_cons, addAll_cons hadd]; exact g3
    rcases hcase with ⟨rfl, hv, hfit, hcl, hh, -⟩ | ⟨⟨e, rfl⟩, hbad, hcl, hh, -⟩ | ⟨⟨e, rfl⟩, hfail⟩
    · exact conclude _ hcl hh (fun rs => by simp [accepted]) ⟨fun _ => ⟨hv, hfit⟩, fun _ => rfl⟩ (.inl rfl)
    · refine conclude _ hcl hh (fun rs => by simp [accepted]) ⟨fun h => (nomatch h), fun h => ?_⟩
        (.inr ⟨e, rfl⟩)
      rcases hbad with hb | hb
      · rw [hb] at h; exact absurd h.1 (by simp)
      · exact absurd h.2 hb
    · refine ⟨[], c, s, .inr ⟨0, e, by simp, ?_, ?_⟩⟩
      · rw [addAll_cons hadd]; simp
      · rw [List.take_succ_cons, addAll_cons hadd]
        simpa [Cluster.addAll] using hfail

end Verif.Mux
