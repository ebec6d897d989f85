/-
The muxer never shortens the file.
-/
import Verif.Lemmas.MuxerSegment

namespace Verif.Mux
open Verif Spec

/-- The routine does not shorten the file. -/
def Grows {α : Type} (w : W α) : Prop := ∀ s, s.data.length ≤ (w s).2.data.length

theorem Grows.pure {α : Type} (a : α) : Grows (pure a : W α) := fun _ => Nat.le_refl _
theorem Grows.fail {α : Type} (c : Int) : Grows (W.fail c : W α) := fun _ => Nat.le_refl _
theorem Grows.ub {α : Type} : Grows (W.ub : W α) := fun _ => Nat.le_refl _
theorem Grows.position : Grows Sink.position := fun _ => Nat.le_refl _

theorem overwrite_grows (d : Bytes) (p : Nat) (bs : Bytes) : d.length ≤ (overwrite d p bs).length := by
  simp [overwrite]; omega

theorem Grows.write (bs : Bytes) : Grows (Sink.write bs) := by
  intro s
  unfold Sink.write
  cases s.plan s.calls with
  | none => exact overwrite_grows _ _ _
  | some n => exact overwrite_grows _ _ _

theorem Grows.seek (p : Nat) : Grows (Sink.seek p) := by
  intro s
  unfold Sink.seek
  cases s.plan s.calls <;> exact Nat.le_refl _

theorem Grows.bind {α β : Type} {w : W α} {f : α → W β} (h : Grows w) (hf : ∀ a, Grows (f a)) : Grows (w >>= f) := by
  intro s
  have h1 := h s
  rw [W.bind_run]
  rcases hw : w s with ⟨r, s'⟩
  rw [hw] at h1
  cases r with
  | ok a => exact Nat.le_trans h1 (hf a s')
  | err c => exact h1
  | ub => exact h1

theorem Grows.ite {α : Type} {c : Prop} [Decidable c] {a b : W α} (h1 : Grows a) (h2 : Grows b) :
    Grows (if c then a else b) := by split <;> assumption

/-- The routine does not shorten the file, and if the header has been written it remains so. -/
def GrowsM {α : Type} (m : M Seg α) : Prop := ∀ g s, g.headerWritten = true →
  (m g s).2.1.headerWritten = true ∧ s.data.length ≤ (m g s).2.2.data.length

/-- The routine does not shorten the file. -/
def GrowsC {α : Type} (m : M Cluster α) : Prop := ∀ c s, s.data.length ≤ (m c s).2.2.data.length

theorem GrowsC.bind {α β : Type} {m : M Cluster α} {f : α → M Cluster β} (h : GrowsC m) (hf : ∀ a, GrowsC (f a)) :
    GrowsC (m >>= f) := by
  intro c s
  have h1 := h c s
  rw [M.bind_run]
  rcases hw : m c s with ⟨r, c', s'⟩
  rw [hw] at h1
  cases r with
  | ok a => exact Nat.le_trans h1 (hf a c' s')
  | err e => exact h1
  | ub => exact h1

theorem GrowsC.pure {α : Type} (a : α) : GrowsC (pure a) := fun _ _ => Nat.le_refl _
theorem GrowsC.get : GrowsC M.get := fun _ _ => Nat.le_refl _
theorem GrowsC.modify (f : Cluster → Cluster) : GrowsC (M.modify f) := fun _ _ => Nat.le_refl _
theorem GrowsC.fail {α : Type} : GrowsC (M.fail : M Cluster α) := fun _ _ => Nat.le_refl _
theorem GrowsC.ub {α : Type} : GrowsC (M.ub : M Cluster α) := fun _ _ => Nat.le_refl _
theorem GrowsC.lift {α : Type} {w : W α} (h : Grows w) : GrowsC (M.lift w) := fun _ s => h s
theorem GrowsC.ite {α : Type} {c : Prop} [Decidable c] {a b : M Cluster α} (h1 : GrowsC a) (h2 : GrowsC b) :
    GrowsC (if c then a else b) := by split <;> assumption
theorem GrowsC.attempt {m : M Cluster Unit} (h : GrowsC m) : GrowsC (M.attempt m) := by
  intro c s
  have h1 := h c s
  unfold M.attempt
  rcases hw : m c s with ⟨r, c', s'⟩
  rw [hw] at h1
  cases r <;> exact h1

theorem GrowsM.bind {α β : Type} {m : M Seg α} {f : α → M Seg β} (h : GrowsM m) (hf : ∀ a, GrowsM (f a)) :
    GrowsM (m >>= f) := by
  intro g s hw
  have h1 := h g s hw
  rw [M.bind_run]
  rcases hm : m g s with ⟨r, g', s'⟩
  rw [hm] at h1
  cases r with
  | ok a => exact ⟨(hf a g' s' h1.1).1, Nat.le_trans h1.2 (hf a g' s' h1.1).2⟩
  | err e => exact h1
  | ub => exact h1

theorem GrowsM.pure {α : Type} (a : α) : GrowsM (pure a) := fun _ _ h => ⟨h, Nat.le_refl _⟩
theorem GrowsM.get : GrowsM M.get := fun _ _ h => ⟨h, Nat.le_refl _⟩
theorem GrowsM.modify {f : Seg → Seg} (hf : ∀ g, (f g).headerWritten = g.headerWritten) : GrowsM (M.modify f) :=
  fun g _ h => ⟨(hf g).trans h, Nat.le_refl _⟩
theorem GrowsM.fail {α : Type} : GrowsM (M.fail : M Seg α) := fun _ _ h => ⟨h, Nat.le_refl _⟩
theorem GrowsM.ub {α : Type} : GrowsM (M.ub : M Seg α) := fun _ _ h => ⟨h, Nat.le_refl _⟩
theorem GrowsM.lift {α : Type} {w : W α} (h : Grows w) : GrowsM (M.lift w) := fun _ s hw => ⟨hw, h s⟩
theorem GrowsM.ite {α : Type} {c : Prop} [Decidable c] {a b : M Seg α} (h1 : GrowsM a) (h2 : GrowsM b) :
    GrowsM (if c then a else b) := by split <;> assumption
theorem GrowsM.attempt {m : M Seg Unit} (h : GrowsM m) : GrowsM (M.attempt m) := by
  intro c s hw
  have h1 := h c s hw
  unfold M.attempt
  rcases hm : m c s with ⟨r, c', s'⟩
  rw [hm] at h1
  cases r <;> exact h1
theorem GrowsM.onCur {m : M Cluster Unit} (h : GrowsC m) : GrowsM (Seg.onCur m) := by
  intro g s hw
  unfold Seg.onCur
  split
  · exact ⟨hw, Nat.le_refl _⟩
  · rename_i c hc
    exact ⟨hw, h c s⟩

theorem serializeLoop_grows (v : Int) : ∀ n, Grows (serializeLoop v n)
  | 0 => .pure _
  | n + 1 => (Grows.write _).bind fun _ => serializeLoop_grows v n

theorem serializeInt_grows (v n : Int) : Grows (serializeInt v n) := by
  unfold serializeInt; exact .ite (.fail _) (serializeLoop_grows _ _)

theorem writeUIntSize_grows (v : Nat) (n : Int) : Grows (writeUIntSize v n) := by
  unfold writeUIntSize
  refine .ite (.fail _) (.ite ?_ ?_)
  · exact .ite (.fail _) (serializeInt_grows _ _)
  · split
    · exact .ub
    · exact serializeInt_grows _ _

theorem writeUInt_grows (v : Nat) : Grows (writeUInt v) := writeUIntSize_grows _ _
theorem writeID_grows (v : Nat) : Grows (writeID v) := serializeInt_grows _ _
theorem writeMaster_grows (t n : Nat) : Grows (writeEbmlMasterElement t n) :=
  (writeID_grows _).bind fun _ => writeUInt_grows _
theorem writeBuf32_grows (v : Bytes) : Grows (writeBuf32 v) := .write _

theorem writeUIntFixed_grows (t v n : Nat) : Grows (writeEbmlElementUIntFixed t v n) :=
  (writeID_grows _).bind fun _ => .ite (.ite (.fail _) ((writeUInt_grows _).bind fun _ => serializeInt_grows _ _))
    ((writeUInt_grows _).bind fun _ => serializeInt_grows _ _)

theorem writeEbmlInt_grows (t : Nat) (v : Int) : Grows (writeEbmlElementInt t v) :=
  (writeID_grows _).bind fun _ => (writeUInt_grows _).bind fun _ => serializeInt_grows _ _

theorem writeBinary_grows (t : Nat) (v : Option Bytes) : Grows (writeEbmlElementBinary t v) := by
  cases v with
  | none => exact .fail _
  | some b =>
    unfold writeEbmlElementBinary
    exact .ite (.fail _) ((writeID_grows _).bind fun _ => (writeUInt_grows _).bind fun _ => writeBuf32_grows _)

theorem Grows.when {c : Bool} {w : W Unit} (h : Grows w) : Grows (W.when c w) := .ite h (.pure _)

theorem writeAdditions_grows (f : Frame) (z : BlockSizes) : Grows (writeAdditions f z) :=
  .ite ((writeMaster_grows _ _).bind fun _ => (writeMaster_grows _ _).bind fun _ =>
    (writeUIntFixed_grows _ _ _).bind fun _ => writeBinary_grows _ _) (.pure _)

theorem writeBlock_grows (f : Frame) (tc : Int) (scale : Nat) : Grows (writeBlock f tc scale) :=
  (writeMaster_grows _ _).bind fun _ => (writeMaster_grows _ _).bind fun _ =>
  (writeUInt_grows _).bind fun _ => (serializeInt_grows _ _).bind fun _ => (serializeInt_grows _ _).bind fun _ =>
  (writeBuf32_grows _).bind fun _ => (writeAdditions_grows _ _).bind fun _ =>
  (Grows.when (writeEbmlInt_grows _ _)).bind fun _ => (Grows.when (writeUIntFixed_grows _ _ _)).bind fun _ =>
  (Grows.when (writeUIntFixed_grows _ _ _)).bind fun _ => .pure _

theorem writeSimpleBlock_grows (f : Frame) (tc : Int) : Grows (writeSimpleBlock f tc) :=
  (writeID_grows _).bind fun _ => .ite .ub ((writeUInt_grows _).bind fun _ =>
  (writeUInt_grows _).bind fun _ => (serializeInt_grows _ _).bind fun _ => (serializeInt_grows _ _).bind fun _ =>
  (writeBuf32_grows _).bind fun _ => .pure _)

theorem writeFrame_grows (f : Frame) (tc scale : Nat) : Grows (writeFrame f tc scale) :=
  .ite (.fail _) (.ite (.fail _) (.ite (writeSimpleBlock_grows _ _) (writeBlock_grows _ _ _)))

theorem clusterHeader_grows : GrowsC Cluster.writeClusterHeader :=
  GrowsC.get.bind fun _ => .ite .fail ((GrowsC.lift (writeID_grows _)).bind fun _ =>
  (GrowsC.lift Grows.position).bind fun _ => (GrowsC.modify _).bind fun _ =>
  (GrowsC.lift (serializeInt_grows _ _)).bind fun _ => (GrowsC.lift (writeUIntFixed_grows _ _ _)).bind fun _ =>
  .modify _)

theorem doWriteFrame_grows (f : Frame) : GrowsC (Cluster.doWriteFrame f) :=
  .ite .fail (GrowsC.bind (GrowsC.get.bind fun _ => .ite .fail (.ite clusterHeader_grows (.pure _))) fun _ =>
  GrowsC.get.bind fun _ => (GrowsC.lift (writeFrame_grows _ _ _)).bind fun _ => .modify _)

theorem releaseLoop_grows (t : Nat) : ∀ q, GrowsC (Cluster.releaseLoop t q)
  | [] => .pure _
  | [_] => .pure _
  | f :: g :: rest => GrowsC.get.bind fun _ => .ite (.pure _) ((GrowsC.attempt (doWriteFrame_grows f)).bind fun _ =>
      .ite ((GrowsC.modify _).bind fun _ => releaseLoop_grows t (g :: rest)) ((GrowsC.modify _).bind fun _ => .fail))

theorem addFrame_grows (f : Frame) : GrowsC (Cluster.addFrame f) :=
  GrowsC.get.bind fun _ => .ite .fail (.ite (doWriteFrame_grows f) (.ite .ub ((GrowsC.modify _).bind fun _ =>
    releaseLoop_grows _ _)))

theorem mergeLoop_grows (l : Bool) (d : Nat) : ∀ n, GrowsC (Cluster.mergeLoop l d n)
  | 0 => .pure _
  | n + 1 => by
    refine GrowsC.get.bind fun c => ?_
    cases Cluster.pick c.stored with
    | none => exact .pure _
    | some f =>
      refine (GrowsC.attempt (doWriteFrame_grows _)).bind fun _ => (GrowsC.modify _).bind fun _ => ?_
      exact .ite (mergeLoop_grows l d n) .fail

theorem finalize_grows (k l : Bool) (d : Nat) : GrowsC (Cluster.finalize k l d) := by
  refine GrowsC.get.bind fun _ => .ite .fail (GrowsC.bind ?_ fun _ => GrowsC.get.bind fun c => ?_)
  · intro c s
    unfold Cluster.flush
    split
    · exact Nat.le_refl _
    · split
      · exact Nat.le_refl _
      · exact mergeLoop_grows _ _ _ c s
  · cases c.sizePosition with
    | none => exact .fail
    | some p => exact (GrowsC.lift (.ite (Grows.position.bind fun _ => (Grows.seek _).bind fun _ =>
        (writeUIntSize_grows _ _).bind fun _ => Grows.seek _) (.pure _))).bind fun _ => .modify _

theorem ite_header {c : Prop} [Decidable c] {a b g : Seg} (h1 : a.headerWritten = g.headerWritten)
    (h2 : b.headerWritten = g.headerWritten) : (if c then a else b).headerWritten = g.headerWritten := by
  split <;> assumption

theorem addCuePoint_grows (ts t : Nat) : GrowsM (Seg.addCuePoint ts t) := by
  intro g s h
  unfold Seg.addCuePoint
  split
  · exact ⟨h, Nat.le_refl _⟩
  · exact ⟨h, Nat.le_refl _⟩

theorem maybeCue_grows (f : Frame) : GrowsM (Seg.maybeCue f) :=
  GrowsM.get.bind fun _ => .ite (addCuePoint_grows _ _) (.pure _)

theorem noteDiscard_grows (f : Frame) : GrowsM (Seg.noteDiscard f) :=
  .modify fun _ => ite_header rfl rfl

theorem writeQueued_grows (f : Frame) : GrowsM (Seg.writeQueued f) :=
  (noteDiscard_grows f).bind fun _ => (GrowsM.onCur (addFrame_grows f)).bind fun _ =>
  (maybeCue_grows f).bind fun _ => .modify fun _ => ite_header rfl rfl

theorem writeAllLoop_grows : ∀ q, GrowsM (Seg.writeAllLoop q)
  | [] => .pure _
  | f :: fs => (GrowsM.attempt (writeQueued_grows f)).bind fun _ => writeAllLoop_grows fs

theorem writeFramesAll_grows : GrowsM Seg.writeFramesAll :=
  GrowsM.get.bind fun _ => .ite (.pure _) (.ite .fail (.ite .ub ((writeAllLoop_grows _).bind fun _ =>
    .modify fun _ => rfl)))

theorem lessLoop_grows (ts : Nat) : ∀ q, GrowsM (Seg.lessLoop ts q)
  | [] => .pure _
  | [_] => .pure _
  | f :: g :: rest => .ite (.pure _) ((GrowsM.attempt (writeQueued_grows f)).bind fun _ =>
      (lessLoop_grows ts (g :: rest)).bind fun _ => .pure _)

theorem less_grows (ts : Nat) : GrowsM (Seg.writeFramesLessThan ts) :=
  GrowsM.bind GrowsM.get fun _ => .ite (.pure _) (.ite .ub ((lessLoop_grows _ _).bind fun _ =>
    .modify fun _ => rfl))

theorem endCluster_grows (ts : Nat) : GrowsM (Seg.endCluster ts) :=
  GrowsM.bind GrowsM.get fun _ => .ite (.pure _) (.onCur (finalize_grows _ _ _))

theorem startCluster_grows (ts : Nat) : GrowsM (Seg.startCluster ts) :=
  GrowsM.bind (.modify fun _ => ite_header rfl rfl) fun _ => GrowsM.get.bind fun _ =>
    .ite .ub (.ite .ub (GrowsM.bind (m := Seg.maxOffset) (fun _ _ h => ⟨h, Nat.le_refl _⟩) fun _ => .modify fun _ => rfl))

theorem makeNewCluster_grows (ts : Nat) : GrowsM (Seg.makeNewCluster ts) :=
  (less_grows ts).bind fun _ => (endCluster_grows ts).bind fun _ => startCluster_grows ts

theorem doNewCluster_grows (k : TrackKind) (ts : Nat) (key : Bool) : ∀ n, GrowsM (Seg.doNewCluster k ts key n)
  | 0 => .ub
  | n + 1 => GrowsM.get.bind fun _ => .ite .fail (GrowsM.bind (.modify fun _ => rfl) fun _ =>
      GrowsM.bind (.ite (makeNewCluster_grows ts) (.pure _)) fun _ => writeFramesAll_grows.bind fun _ =>
      .ite (.pure _) (doNewCluster_grows k ts key n))

theorem writeDirect_grows (f : Frame) : GrowsM (Seg.writeDirect f) :=
  GrowsM.get.bind fun _ => .ite .ub ((GrowsM.onCur (addFrame_grows _)).bind fun _ =>
    (maybeCue_grows f).bind fun _ => .modify fun _ => rfl)

theorem noteFar_grows (f : Frame) : GrowsM (Seg.noteFar f) :=
  .modify fun g => by
    cases g.cur with
    | none => rfl
    | some c => exact ite_header rfl rfl

theorem checkHeaderInfo_grows : GrowsM Seg.checkHeaderInfo := by
  intro g s h
  unfold Seg.checkHeaderInfo
  rw [M.get_bind, if_pos h]
  exact ⟨h, Nat.le_refl _⟩

theorem call_grows (x : SegCall) : GrowsM (Seg.call x) := by
  cases x with
  | force => exact .modify fun _ => rfl
  | frame f =>
    refine checkHeaderInfo_grows.bind fun _ => GrowsM.get.bind fun g => .ite .fail ?_
    cases g.tracks.byNumber f.trackNumber with
    | none => exact .fail
    | some t =>
      exact (noteDiscard_grows f).bind fun _ => (noteFar_grows f).bind fun _ => GrowsM.get.bind fun _ =>
        .ite (.ite .ub (.modify fun _ => rfl)) ((doNewCluster_grows _ _ _ _).bind fun _ => writeDirect_grows f)

/-- A history of calls never shortens the file. -/
theorem run_grows : ∀ (xs : List SegCall) (g : Seg) (s : Sink), g.headerWritten = true →
    (Seg.run xs g s).2.1.headerWritten = true ∧ s.data.length ≤ (Seg.run xs g s).2.2.data.length
  | [], _, _, h => ⟨h, Nat.le_refl _⟩
  | x :: xs, g, s, h => by
    have h1 := call_grows x g s h
    rcases hc : Seg.call x g s with ⟨r, g', s'⟩
    rw [hc] at h1
    rw [run_cons hc]
    have h2 := run_grows xs g' s' h1.1
    exact ⟨h2.1, Nat.le_trans h1.2 h2.2⟩

theorem run_append (a b : List SegCall) (g : Seg) (s : Sink) :
    (Seg.run (a ++ b) g s).2 = (Seg.run b (Seg.run a g s).2.1 (Seg.run a g s).2.2).2 := by
  induction a generalizing g s with
  | nil => rfl
  | cons x a ih =>
    rcases hc : Seg.call x g s with ⟨r, g', s'⟩
    rw [List.cons_append, run_cons hc, run_cons hc]
    exact ih g' s'

theorem floatLoop_grows (b : Nat) : ∀ n, Grows (serializeFloatLoop b n)
  | 0 => .pure _
  | n + 1 => (Grows.write _).bind fun _ => floatLoop_grows b n

theorem serializeFloat_grows (b : Nat) : Grows (serializeFloat b) := floatLoop_grows b 4

theorem infoFinalize_grows (k : Bool) (i : SegInfo) : Grows (SegInfo.finalize k i) := by
  unfold SegInfo.finalize
  cases i.duration with
  | none => exact .pure _
  | some b =>
    refine .ite (.pure _) ?_
    cases i.durationPos with
    | none => exact .fail _
    | some p => exact Grows.position.bind fun _ => (Grows.seek _).bind fun _ =>
        Grows.bind ((writeID_grows _).bind fun _ => (writeUInt_grows _).bind fun _ => serializeFloat_grows _) fun _ =>
        Grows.seek _

theorem cuePoint_grows (c : CuePoint) : Grows c.write :=
  .ite (.fail _) ((writeMaster_grows _ _).bind fun _ => Grows.position.bind fun _ =>
    Grows.bind ((writeUIntFixed_grows _ _ _).bind fun _ => (writeMaster_grows _ _).bind fun _ =>
      (writeUIntFixed_grows _ _ _).bind fun _ => (writeUIntFixed_grows _ _ _).bind fun _ =>
      .ite (writeUIntFixed_grows _ _ _) (.pure _)) fun _ => Grows.position.bind fun _ => .ite (.fail _) (.pure _))

theorem writeCuePoints_grows : ∀ cs, Grows (writeCuePoints cs)
  | [] => .pure _
  | c :: cs => (cuePoint_grows c).bind fun _ => writeCuePoints_grows cs

theorem cuesWrite_grows (q : Cues) : Grows q.write :=
  (writeMaster_grows _ _).bind fun _ => Grows.position.bind fun _ => (writeCuePoints_grows _).bind fun _ =>
    Grows.position.bind fun _ => .ite (.fail _) (.pure _)

theorem voidFill_grows : ∀ n, Grows (voidFill n)
  | 0 => .pure _
  | n + 1 => (Grows.write _).bind fun _ => voidFill_grows n

theorem writeVoid_grows (n : Nat) : Grows (writeVoidElement n) :=
  .ite (.fail _) (Grows.position.bind fun _ => (writeID_grows _).bind fun _ => (writeUInt_grows _).bind fun _ =>
    (voidFill_grows _).bind fun _ => Grows.position.bind fun _ => .ite (.fail _) (.pure _))

theorem seekEntries_grows : ∀ es, Grows (SeekHead.writeEntries es)
  | [] => .pure _
  | _ :: es => .ite (Grows.bind ((writeMaster_grows _ _).bind fun _ => (writeUIntFixed_grows _ _ _).bind fun _ =>
      writeUIntFixed_grows _ _ _) fun _ => seekEntries_grows es) (seekEntries_grows es)

theorem seekFinalize_grows (k : Bool) (h : SeekHead) : Grows (SeekHead.finalize k h) :=
  .ite (.pure _) (.ite (.pure _) (Grows.position.bind fun _ => (Grows.seek _).bind fun _ =>
    Grows.bind ((writeMaster_grows _ _).bind fun _ => seekEntries_grows _) fun _ =>
    Grows.bind (Grows.position.bind fun _ => (writeVoid_grows _).bind fun _ => .ite (.fail _) (.pure _)) fun _ =>
    Grows.seek _))

theorem writeString_grows (t : Nat) (v : Option Bytes) : Grows (writeEbmlElementString t v) := by
  cases v with
  | none => exact .fail _
  | some b => exact (writeID_grows _).bind fun _ => (writeUInt_grows _).bind fun _ => writeBuf32_grows _

theorem ebmlHeader_grows (v : Nat) (d : Option Bytes) : Grows (writeEbmlHeader v d) :=
  (writeMaster_grows _ _).bind fun _ => (writeUIntFixed_grows _ _ _).bind fun _ =>
    (writeUIntFixed_grows _ _ _).bind fun _ => (writeUIntFixed_grows _ _ _).bind fun _ =>
    (writeUIntFixed_grows _ _ _).bind fun _ => (writeString_grows _ _).bind fun _ =>
    (writeUIntFixed_grows _ _ _).bind fun _ => writeUIntFixed_grows _ _ _

theorem patchSegment_grows (g : Seg) : Grows g.patchSegmentSize :=
  Grows.position.bind fun _ => .ite (.fail _) ((Grows.when ((Grows.seek _).bind fun _ =>
    (ebmlHeader_grows _ _).bind fun _ => Grows.position.bind fun _ => .ite (.fail _) (.pure _))).bind fun _ =>
    (Grows.seek _).bind fun _ => (writeUIntSize_grows _ _).bind fun _ => Grows.seek _)

theorem addSeekEntry_grows (id : Nat) : GrowsM (Seg.addSeekEntry id) := by
  refine GrowsM.bind (m := Seg.maxOffset) (fun _ _ h => ⟨h, Nat.le_refl _⟩) fun off => GrowsM.get.bind fun g => ?_
  cases g.seekHead.addSeekEntry id (toU64 off) with
  | none => exact .fail
  | some h => exact .modify fun _ => rfl

/-- The last part of finalisation never shortens the file. -/
theorem finalizeFile_grows (d : Option Nat) : GrowsM (Seg.finalizeFile d) :=
  GrowsM.bind (.modify fun _ => rfl) fun _ => GrowsM.get.bind fun _ =>
    (GrowsM.lift (infoFinalize_grows _ _)).bind fun _ =>
    GrowsM.bind (.ite (addSeekEntry_grows _) (.pure _)) fun _ => (GrowsM.lift Grows.position).bind fun _ =>
    GrowsM.bind (.modify fun _ => rfl) fun _ => (GrowsM.lift (Grows.when (cuesWrite_grows _))).bind fun _ =>
    GrowsM.get.bind fun _ => (GrowsM.lift (seekFinalize_grows _ _)).bind fun _ =>
    GrowsM.lift (Grows.when (patchSegment_grows _))

theorem endLast_grows : GrowsM Seg.endLast :=
  GrowsM.get.bind fun _ => .ite (.onCur (Mux.finalize_grows _ _ _)) (.pure _)

/-- If the file is short in the end, it was short all the time. -/
theorem SmallRun.of_end {xs : List SegCall} {g : Seg} {s : Sink} (hg : g.headerWritten = true)
    (h : (Seg.run xs g s).2.2.data.length + 1 < 2 ^ 56) : SmallRun xs g s := by
  intro n
  have h1 := run_grows (xs.take n) g s hg
  have h2 := run_grows (xs.drop n) (Seg.run (xs.take n) g s).2.1 (Seg.run (xs.take n) g s).2.2 h1.1
  have h3 := run_append (xs.take n) (xs.drop n) g s
  rw [List.take_append_drop] at h3
  rw [h3] at h
  omega

end Verif.Mux
