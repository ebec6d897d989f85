/-
Lemmas about the members the duration is computed from.
-/
import Verif.Lemmas.MuxerDuration
import Verif.Props.MuxerSegment

namespace Verif.Mux
open Verif Verif.Spec

/-- The routine leaves the tracks alone. -/
def StaysM {α : Type} (m : M Seg α) : Prop := ∀ g s, (m g s).2.1.tracks = g.tracks ∧ (m g s).2.1.hasVideo = g.hasVideo

theorem StaysM.bind {α β : Type} {m : M Seg α} {f : α → M Seg β} (h : StaysM m) (hf : ∀ a, StaysM (f a)) :
    StaysM (m >>= f) := by
  intro g s
  have h1 := h g s
  rw [M.bind_run]
  rcases hm : m g s with ⟨r, g', s'⟩
  rw [hm] at h1
  cases r with
  | ok a => exact ⟨(hf a g' s').1.trans h1.1, (hf a g' s').2.trans h1.2⟩
  | err e => exact h1
  | ub => exact h1

theorem StaysM.pure {α : Type} (a : α) : StaysM (pure a) := fun _ _ => ⟨rfl, rfl⟩
theorem StaysM.get : StaysM M.get := fun _ _ => ⟨rfl, rfl⟩
theorem StaysM.modify {f : Seg → Seg} (hf : ∀ g, (f g).tracks = g.tracks ∧ (f g).hasVideo = g.hasVideo) :
    StaysM (M.modify f) := fun g _ => hf g
theorem StaysM.fail {α : Type} : StaysM (M.fail : M Seg α) := fun _ _ => ⟨rfl, rfl⟩
theorem StaysM.ub {α : Type} : StaysM (M.ub : M Seg α) := fun _ _ => ⟨rfl, rfl⟩
theorem StaysM.lift {α : Type} (w : W α) : StaysM (M.lift w) := fun _ _ => ⟨rfl, rfl⟩
theorem StaysM.ite {α : Type} {c : Prop} [Decidable c] {a b : M Seg α} (h1 : StaysM a) (h2 : StaysM b) :
    StaysM (if c then a else b) := by split <;> assumption
theorem StaysM.attempt {m : M Seg Unit} (h : StaysM m) : StaysM (M.attempt m) := by
  intro c s
  have h1 := h c s
  unfold M.attempt
  rcases hm : m c s with ⟨r, c', s'⟩
  rw [hm] at h1
  cases r <;> exact h1
theorem StaysM.onCur (m : M Cluster Unit) : StaysM (Seg.onCur m) := by
  intro g s
  unfold Seg.onCur
  split <;> exact ⟨rfl, rfl⟩
theorem StaysM.maxOffset : StaysM Seg.maxOffset := fun _ _ => ⟨rfl, rfl⟩
theorem StaysM.onInfo (m : M SegInfo Unit) : StaysM (Seg.onInfo m) := fun _ _ => ⟨rfl, rfl⟩
theorem StaysM.onSeekHead (m : M SeekHead Unit) : StaysM (Seg.onSeekHead m) := fun _ _ => ⟨rfl, rfl⟩

private theorem ite_stays {c : Prop} [Decidable c] {a b g : Seg} (h1 : a.tracks = g.tracks ∧ a.hasVideo = g.hasVideo)
    (h2 : b.tracks = g.tracks ∧ b.hasVideo = g.hasVideo) :
    (if c then a else b).tracks = g.tracks ∧ (if c then a else b).hasVideo = g.hasVideo := by split <;> assumption

theorem addSeekEntry_stays (id : Nat) : StaysM (Seg.addSeekEntry id) :=
  StaysM.maxOffset.bind fun off => StaysM.get.bind fun g => by
    split
    · exact .fail
    · exact .modify fun _ => ⟨rfl, rfl⟩

theorem writeOptional_stays (id : Nat) : ∀ w, StaysM (Seg.writeOptional id w)
  | none => .pure _
  | some w => (addSeekEntry_stays id).bind fun _ => .lift w

theorem reserve_stays : StaysM Seg.reserve :=
  StaysM.get.bind fun _ => .ite (StaysM.bind (.modify fun _ => ⟨rfl, rfl⟩) fun _ => .onSeekHead _) (.pure _)

theorem writeSegmentHeader_stays : StaysM Seg.writeSegmentHeader :=
  StaysM.get.bind fun _ => (StaysM.lift _).bind fun _ => (StaysM.lift _).bind fun _ =>
    StaysM.bind (.modify fun _ => ⟨rfl, rfl⟩) fun _ => (StaysM.lift _).bind fun _ => (StaysM.lift _).bind fun _ =>
    StaysM.bind (.modify fun _ => ⟨rfl, rfl⟩) fun _ => (StaysM.lift _).bind fun _ => (StaysM.lift _).bind fun _ =>
    StaysM.bind (.modify fun _ => ⟨rfl, rfl⟩) fun _ => reserve_stays.bind fun _ => (addSeekEntry_stays _).bind fun _ =>
    (StaysM.onInfo _).bind fun _ => (addSeekEntry_stays _).bind fun _ => (StaysM.lift _).bind fun _ =>
    (writeOptional_stays _ _).bind fun _ => (writeOptional_stays _ _).bind fun _ => .modify fun _ => ⟨rfl, rfl⟩

theorem chooseCuesTrack_stays : StaysM Seg.chooseCuesTrack :=
  StaysM.get.bind fun _ => .ite (by
    split
    · exact .fail
    · exact .modify fun _ => ⟨rfl, rfl⟩) (.pure _)

theorem checkHeaderInfo_stays : StaysM Seg.checkHeaderInfo :=
  StaysM.get.bind fun _ => .ite (.pure _) (writeSegmentHeader_stays.bind fun _ => (addSeekEntry_stays _).bind fun _ =>
    chooseCuesTrack_stays)

theorem addCuePoint_stays (ts t : Nat) : StaysM (Seg.addCuePoint ts t) := by
  intro g s
  unfold Seg.addCuePoint
  split <;> exact ⟨rfl, rfl⟩

theorem maybeCue_stays (f : Frame) : StaysM (Seg.maybeCue f) :=
  StaysM.get.bind fun _ => .ite (addCuePoint_stays _ _) (.pure _)

theorem noteDiscard_stays (f : Frame) : StaysM (Seg.noteDiscard f) := .modify fun _ => ite_stays ⟨rfl, rfl⟩ ⟨rfl, rfl⟩

theorem writeQueued_stays (f : Frame) : StaysM (Seg.writeQueued f) :=
  (noteDiscard_stays f).bind fun _ => (StaysM.onCur _).bind fun _ => (maybeCue_stays f).bind fun _ =>
    .modify fun _ => ite_stays ⟨rfl, rfl⟩ ⟨rfl, rfl⟩

theorem writeAllLoop_stays : ∀ q, StaysM (Seg.writeAllLoop q)
  | [] => .pure _
  | f :: fs => (StaysM.attempt (writeQueued_stays f)).bind fun _ => writeAllLoop_stays fs

theorem writeFramesAll_stays : StaysM Seg.writeFramesAll :=
  StaysM.get.bind fun _ => .ite (.pure _) (.ite .fail (.ite .ub ((writeAllLoop_stays _).bind fun _ =>
    .modify fun _ => ⟨rfl, rfl⟩)))

theorem lessLoop_stays (ts : Nat) : ∀ q, StaysM (Seg.lessLoop ts q)
  | [] => .pure _
  | [_] => .pure _
  | f :: g :: rest => .ite (.pure _) ((StaysM.attempt (writeQueued_stays f)).bind fun _ =>
      (lessLoop_stays ts (g :: rest)).bind fun _ => .pure _)

theorem less_stays (ts : Nat) : StaysM (Seg.writeFramesLessThan ts) :=
  StaysM.bind StaysM.get fun _ => .ite (.pure _) (.ite .ub ((lessLoop_stays _ _).bind fun _ => .modify fun _ => ⟨rfl, rfl⟩))

theorem endCluster_stays (ts : Nat) : StaysM (Seg.endCluster ts) :=
  StaysM.bind StaysM.get fun _ => .ite (.pure _) (.onCur _)

theorem startCluster_stays (ts : Nat) : StaysM (Seg.startCluster ts) :=
  StaysM.bind (.modify fun _ => ite_stays ⟨rfl, rfl⟩ ⟨rfl, rfl⟩) fun _ => StaysM.get.bind fun _ =>
    .ite .ub (.ite .ub (StaysM.maxOffset.bind fun _ => .modify fun _ => ⟨rfl, rfl⟩))

theorem makeNewCluster_stays (ts : Nat) : StaysM (Seg.makeNewCluster ts) :=
  (less_stays ts).bind fun _ => (endCluster_stays ts).bind fun _ => startCluster_stays ts

theorem doNewCluster_stays (k : TrackKind) (ts : Nat) (key : Bool) : ∀ n, StaysM (Seg.doNewCluster k ts key n)
  | 0 => .ub
  | n + 1 => StaysM.get.bind fun _ => .ite .fail (StaysM.bind (.modify fun _ => ⟨rfl, rfl⟩) fun _ =>
      StaysM.bind (.ite (makeNewCluster_stays ts) (.pure _)) fun _ => writeFramesAll_stays.bind fun _ =>
        .ite (.pure _) (doNewCluster_stays k ts key n))

theorem writeDirect_stays (f : Frame) : StaysM (Seg.writeDirect f) :=
  StaysM.get.bind fun _ => .ite .ub ((StaysM.onCur _).bind fun _ => (maybeCue_stays f).bind fun _ =>
    .modify fun _ => ⟨rfl, rfl⟩)

theorem noteFar_stays (f : Frame) : StaysM (Seg.noteFar f) :=
  .modify fun g => by
    cases g.cur with
    | none => exact ⟨rfl, rfl⟩
    | some c => exact ite_stays ⟨rfl, rfl⟩ ⟨rfl, rfl⟩

theorem call_stays (x : SegCall) : StaysM (Seg.call x) := by
  cases x with
  | force => exact .modify fun _ => ⟨rfl, rfl⟩
  | frame f =>
    refine checkHeaderInfo_stays.bind fun _ => StaysM.get.bind fun g => .ite .fail ?_
    cases g.tracks.byNumber f.trackNumber with
    | none => exact .fail
    | some t =>
      exact (noteDiscard_stays f).bind fun _ => (noteFar_stays f).bind fun _ => StaysM.get.bind fun _ =>
        .ite (.ite .ub (.modify fun _ => ⟨rfl, rfl⟩)) ((doNewCluster_stays _ _ _ _).bind fun _ => writeDirect_stays f)

theorem waits_of_queues {g : Seg} {f : Frame} (h : g.queues f = false) : g.waits f = false := by
  unfold Seg.queues at h
  unfold Seg.waits
  simp only [h, Bool.false_and]

theorem counted_cons {x : SegCall} {xs : List SegCall} {g g' : Seg} {s s' : Sink} {r : Res Unit}
    (h : Seg.call x g s = (r, g', s')) (n : Counts) :
    Seg.counted (x :: xs) g s n = Seg.counted xs g' s' (n.after g x r) := by
  rw [Seg.counted, h]

/-- The duration remembered is that of the last frame, if that does not wait. -/
theorem counted_last : ∀ {xs : List SegCall} {g : Seg} {s : Sink} (n : Counts),
    (acceptedFrames xs (Seg.run xs g s).1 = [] → (Seg.counted xs g s n).lastBlockDuration = n.lastBlockDuration) ∧
    ∀ f, (acceptedFrames xs (Seg.run xs g s).1).getLast? = some f → g.queues f = false →
      (Seg.counted xs g s n).lastBlockDuration = f.duration := by
  intro xs
  induction xs with
  | nil =>
    intro g s n
    exact ⟨fun _ => rfl, fun f hf => by simp [Seg.run, acceptedFrames] at hf⟩
  | cons x xs ih =>
    intro g s n
    rcases hc : Seg.call x g s with ⟨r, g', s'⟩
    have hst := call_stays x g s
    rw [hc] at hst
    have hq : ∀ f, g'.queues f = g.queues f := fun f => by
      unfold Seg.queues
      rw [hst.1, hst.2]
    rw [counted_cons hc, run_cons hc]
    have skip : ∀ {m : Counts}, n.after g x r = m → m.lastBlockDuration = n.lastBlockDuration →
        acceptedFrames (x :: xs) (r :: (Seg.run xs g' s').1) = acceptedFrames xs (Seg.run xs g' s').1 →
        (acceptedFrames (x :: xs) (r :: (Seg.run xs g' s').1) = [] →
          (Seg.counted xs g' s' (n.after g x r)).lastBlockDuration = n.lastBlockDuration) ∧
        ∀ f, (acceptedFrames (x :: xs) (r :: (Seg.run xs g' s').1)).getLast? = some f → g.queues f = false →
          (Seg.counted xs g' s' (n.after g x r)).lastBlockDuration = f.duration := by
      intro m hm hl ha
      rw [ha, hm]
      refine ⟨fun h => ((ih m).1 h).trans hl, fun f hf h => (ih m).2 f hf ((hq f).trans h)⟩
    cases r with
    | err c => exact skip (by cases x <;> rfl) rfl rfl
    | ub => exact skip (by cases x <;> rfl) rfl rfl
    | ok u =>
      cases x with
      | force => exact skip rfl rfl rfl
      | frame y =>
        have ha : acceptedFrames (.frame y :: xs) (.ok u :: (Seg.run xs g' s').1) =
            y :: acceptedFrames xs (Seg.run xs g' s').1 := rfl
        rw [ha]
        refine ⟨fun h => by simp at h, fun f hf h => ?_⟩
        cases hacc : acceptedFrames xs (Seg.run xs g' s').1 with
        | nil =>
          rw [hacc] at hf
          simp only [List.getLast?_singleton, Option.some.injEq] at hf
          subst hf
          rw [((ih _).1 hacc)]
          unfold Counts.after
          simp only [waits_of_queues h, Bool.false_eq_true, if_false]
        | cons z zs =>
          rw [hacc, List.getLast?_cons_cons, ← hacc] at hf
          exact (ih _).2 f hf ((hq f).trans h)

/-- The duration remembered is that of some frame. -/
theorem counted_mem : ∀ {xs : List SegCall} {g : Seg} {s : Sink} (n : Counts),
    (Seg.counted xs g s n).lastBlockDuration = n.lastBlockDuration ∨
      ∃ f, .frame f ∈ xs ∧ (Seg.counted xs g s n).lastBlockDuration = f.duration := by
  intro xs
  induction xs with
  | nil => exact fun n => .inl rfl
  | cons x xs ih =>
    intro g s n
    rcases hc : Seg.call x g s with ⟨r, g', s'⟩
    rw [counted_cons hc]
    rcases ih (g := g') (s := s') (n.after g x r) with h | ⟨f, hf, h⟩
    · rw [h]
      unfold Counts.after
      split
      · rename_i f
        dsimp only
        split
        · exact .inl rfl
        · exact .inr ⟨f, by simp, rfl⟩
      · exact .inl rfl
    · exact .inr ⟨f, by simp [hf], h⟩

theorem estimateLoop_ge (g : Seg) (n : Counts) : ∀ (is : List Nat) (d : Nat), d ≤ g.estimateLoop n is d ∧
    (∀ i ∈ is, 2 ≤ n.written (i + 1) → g.trackDuration n i ≤ g.estimateLoop n is d) ∧
    (g.estimateLoop n is d = d ∨ ∃ i ∈ is, 2 ≤ n.written (i + 1) ∧ g.estimateLoop n is d = g.trackDuration n i) := by
  intro is
  induction is with
  | nil => exact fun d => ⟨Nat.le_refl _, by simp, .inl rfl⟩
  | cons i is ih =>
    intro d
    unfold Seg.estimateLoop
    split
    · rename_i hw
      obtain ⟨h1, h2, h3⟩ := ih d
      refine ⟨h1, fun j hj hj2 => ?_, ?_⟩
      · rcases List.mem_cons.mp hj with rfl | hj
        · omega
        · exact h2 j hj hj2
      · rcases h3 with h3 | ⟨j, hj, h3⟩
        · exact .inl h3
        · exact .inr ⟨j, by simp [hj], h3⟩
    · rename_i hw
      obtain ⟨h1, h2, h3⟩ := ih (if g.trackDuration n i > d then g.trackDuration n i else d)
      have hd : d ≤ (if g.trackDuration n i > d then g.trackDuration n i else d) ∧
          g.trackDuration n i ≤ (if g.trackDuration n i > d then g.trackDuration n i else d) := by split <;> omega
      refine ⟨Nat.le_trans hd.1 h1, fun j hj hj2 => ?_, ?_⟩
      · rcases List.mem_cons.mp hj with rfl | hj
        · exact Nat.le_trans hd.2 h1
        · exact h2 j hj hj2
      · rcases h3 with h3 | ⟨j, hj, h3⟩
        · rw [h3]
          split
          · exact .inr ⟨i, by simp, by omega, rfl⟩
          · exact .inl rfl
        · exact .inr ⟨j, by simp [hj], h3⟩

/-- Times in order: the last frame is the latest. -/
theorem last_latest {acc : List Frame} (h : (acc.map Frame.timestamp).Pairwise (· ≤ ·)) {f : Frame} (hf : acc.getLast? = some f) :
    ∀ a ∈ acc, a.timestamp ≤ f.timestamp := by
  obtain ⟨ys, rfl⟩ := List.getLast?_eq_some_iff.mp hf
  rw [List.map_append, List.pairwise_append] at h
  intro a ha
  rcases List.mem_append.mp ha with ha | ha
  · exact h.2.2 _ (List.mem_map_of_mem ha) _ (by simp)
  · rw [List.mem_singleton.mp ha]; exact Nat.le_refl _

/-- The time remembered at finalisation. -/
theorem flush_time {g : Seg} {head : Bytes} (hg : g.Ready head) {t : SegSt} {s : Sink} {acc : List Frame}
    (hb : g.Between head t s acc) (ho : ∃ f ∈ acc, g.queues f = false) {f : Frame} (hf : acc.getLast? = some f)
    (hs : (acc.map Frame.timestamp).Pairwise (· ≤ ·)) :
    (Seg.writeFramesAll (g.put t) s).2.1.lastTs = f.timestamp ∧ (Seg.writeFramesAll (g.put t) s).2.1.info = g.info := by
  rcases hb.state with ⟨-, hacc, -⟩ | ⟨ps, ws, c, hop, hne, hacc, -, hw⟩
  · obtain ⟨f, hf, hq⟩ := ho
    have := hacc.queues hb.held f hf
    rw [hq] at this; cases this
  · obtain ⟨t', s', c', e, -, -, -, -, l, l'⟩ := writeFramesAll_open hg hop hb.used hw
    rw [e]
    refine ⟨Nat.le_antisymm ?_ ?_, rfl⟩
    · refine l.2 _ (hb.last _ (last_latest hs hf)) fun q hq =>
        hacc.bound (last_latest hs hf) q (List.mem_append_right _ hq)
    · rcases hb.seen f hf with h | ⟨q, hq, h⟩
      · exact Nat.le_trans h l.1
      · exact Nat.le_trans h (l' q hq)

end Verif.Mux
