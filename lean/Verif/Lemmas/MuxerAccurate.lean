/-
The muxer cluster that holds frames back to give the last one of each track a duration.
-/
import Verif.Lemmas.MuxerClusterRun

namespace Verif.Mux
open Verif Spec

/-- The frames of one track, in order. -/
def ofTrack (t : Nat) (fs : List Frame) : List Frame := fs.filter fun f => f.trackNumber == t

theorem ofTrack_append (t : Nat) (a b : List Frame) : ofTrack t (a ++ b) = ofTrack t a ++ ofTrack t b :=
  List.filter_append ..

theorem ofTrack_self {t : Nat} {f : Frame} (h : f.trackNumber = t) : ofTrack t [f] = [f] := by
  simp [ofTrack, h]

theorem ofTrack_other {t : Nat} {f : Frame} (h : f.trackNumber ≠ t) : ofTrack t [f] = [] := by
  simp [ofTrack, h]

theorem mem_ofTrack {t : Nat} {f : Frame} {fs : List Frame} :
    f ∈ ofTrack t fs ↔ f ∈ fs ∧ f.trackNumber = t := by simp [ofTrack]

theorem ofTrack_id {t : Nat} {fs : List Frame} (h : ∀ f ∈ fs, f.trackNumber = t) : ofTrack t fs = fs :=
  List.filter_eq_self.mpr fun f hf => by simp [h f hf]

/-- Timestamp of the last frame, 0 if there is none. -/
def lastTime (fs : List Frame) : Nat := (fs.getLast?.map (·.timestamp)).getD 0

theorem lastTime_append (fs : List Frame) (f : Frame) : lastTime (fs ++ [f]) = f.timestamp := by
  simp [lastTime]

/-- Timestamps do not decrease. -/
def SortedTs (fs : List Frame) : Prop := fs.Pairwise fun a b => a.timestamp ≤ b.timestamp

/-- Frames that a cluster can take. -/
def Cluster.Good (c : Cluster) (f : Frame) : Prop :=
  f.isValid = true ∧ SmallFrame f ∧ FitsTime c.timecode c.scale f

theorem copy_valid {f : Frame} (h : f.isValid = true) : f.copy = f ∨ f.copy = { f with addId := 0 } := by
  unfold Frame.copy
  split
  · rename_i h1; left; cases f; simp_all
  · rename_i h1
    right
    cases ha : f.additional with
    | none => cases f; simp_all
    | some a =>
      cases a with
      | nil => unfold Frame.isValid at h; simp [ha] at h
      | cons b bs => exact absurd ha (h1 b bs)

theorem copy_trackNumber (f : Frame) : f.copy.trackNumber = f.trackNumber := by
  unfold Frame.copy; split <;> rfl
theorem copy_timestamp (f : Frame) : f.copy.timestamp = f.timestamp := by
  unfold Frame.copy; split <;> rfl

theorem Cluster.Good.copy {c : Cluster} {f : Frame} (h : c.Good f) : c.Good f.copy := by
  obtain ⟨h1, h2, h3⟩ := h
  rcases copy_valid h1 with e | e
  · rw [e]; exact ⟨h1, h2, h3⟩
  · rw [e]
    exact ⟨h1, h2, h3⟩

theorem Cluster.Keeps.good {c c' : Cluster} (h : c.Keeps c') {f : Frame} (g : c.Good f) : c'.Good f := by
  unfold Cluster.Good; rw [h.timecode, h.scale]; exact g

theorem mem_trackKeys {t : Nat} : t ∈ trackKeys ↔ 1 ≤ t ∧ t ≤ 126 := by
  unfold trackKeys; simp; omega

theorem Cluster.Good.key {c : Cluster} {f : Frame} (h : c.Good f) : f.trackNumber ∈ trackKeys := by
  have := isValid_bounds h.1
  rw [mem_trackKeys]; omega

/-- State of a cluster that holds frames back, between calls: `offered` are the copies of the
frames offered so far, `ws` the frames written so far. -/
structure Cluster.Acc (c : Cluster) (s : Sink) (pre : Bytes) (ws offered : List Frame) : Prop where
  holds : c.Holds s pre ws
  mode : c.writeLast = true
  alive : c.dangling = false
  tc : c.timecode < 2 ^ 63
  good : ∀ f ∈ offered, c.Good f
  queued : ∀ t, ofTrack t ws ++ c.stored t = ofTrack t offered
  kept : ∀ t, c.stored t = [] → ofTrack t offered = []
  last : ∀ t, c.lastTs t = lastTime (ofTrack t ws)

/-- Everything written comes before everything held back. -/
def OrdSt (st : Nat → List Frame) (ws : List Frame) : Prop :=
  SortedTs ws ∧ ∀ w ∈ ws, ∀ t, ∀ f ∈ st t, w.timestamp ≤ f.timestamp

@[simp] theorem upd_self {α : Type} (f : Nat → α) (t : Nat) (a : α) : upd f t a t = a := by simp [upd]
theorem upd_other {α : Type} (f : Nat → α) {t u : Nat} (a : α) (h : u ≠ t) : upd f t a u = f u := by
  simp [upd, h]

theorem Cluster.Acc.stored_track {c : Cluster} {s : Sink} {pre : Bytes} {ws offered : List Frame}
    (h : c.Acc s pre ws offered) {t : Nat} {f : Frame} (hf : f ∈ c.stored t) :
    f ∈ offered ∧ f.trackNumber = t := by
  have : f ∈ ofTrack t offered := by rw [← h.queued t]; exact List.mem_append_right _ hf
  exact mem_ofTrack.mp this

theorem SortedTs.ofTrack {fs : List Frame} (h : SortedTs fs) (t : Nat) : SortedTs (ofTrack t fs) :=
  List.Pairwise.filter _ h

theorem Cluster.Acc.stored_sorted {c : Cluster} {s : Sink} {pre : Bytes} {ws offered : List Frame}
    (h : c.Acc s pre ws offered) (hs : ∀ t, SortedTs (Verif.Mux.ofTrack t offered)) (t : Nat) :
    SortedTs (c.stored t) := by
  have := hs t
  rw [← h.queued t] at this
  exact (List.pairwise_append.mp this).2.1

theorem mustWait_false {st : Nat → List Frame} {t : Nat} {f : Frame} (h : Cluster.mustWait st t f = false)
    {u : Nat} (hu : u ∈ trackKeys) (hne : u ≠ t) {g : Frame} {rest : List Frame} (hg : st u = g :: rest) :
    f.timestamp ≤ g.timestamp := by
  unfold Cluster.mustWait at h
  rw [List.any_eq_false] at h
  have := h u hu
  rw [hg] at this
  simp [hne] at this
  exact this

/-- Writing `f` keeps the order, when `f` is not after anything held back. -/
theorem OrdSt.write {st : Nat → List Frame} {ws : List Frame} {f f' : Frame} {t : Nat} {rest : List Frame}
    (h : OrdSt st ws) (hf : st t = f :: rest) (hts : f'.timestamp = f.timestamp)
    (hle : ∀ u, ∀ g ∈ st u, f.timestamp ≤ g.timestamp) :
    OrdSt (upd st t rest) (ws ++ [f']) := by
  constructor
  · unfold SortedTs
    rw [List.pairwise_append]
    refine ⟨h.1, List.pairwise_singleton _ _, ?_⟩
    intro a ha b hb
    rw [List.mem_singleton.mp hb, hts]
    exact h.2 a ha t f (by rw [hf]; exact List.mem_cons_self)
  · intro w hw u g hg
    have hg' : g ∈ st u := by
      by_cases e : u = t
      · subst e; rw [upd_self] at hg; rw [hf]; exact List.mem_cons_of_mem _ hg
      · rwa [upd_other _ _ e] at hg
    rcases List.mem_append.mp hw with hw | hw
    · exact h.2 w hw u g hg'
    · rw [List.mem_singleton.mp hw, hts]; exact hle u g hg'

/-- A held-back frame is written: everything but the queue changes as the code says. -/
theorem Cluster.Acc.write {c c' : Cluster} {s s' : Sink} {pre : Bytes} {ws offered : List Frame}
    (h : c.Acc s pre ws offered) {t : Nat} {f g : Frame} {rest : List Frame}
    (hf : c.stored t = f :: g :: rest) (k : c.Keeps c') (hh : c'.Holds s' pre (ws ++ [f]))
    (hl : c'.lastTs = upd c.lastTs f.trackNumber f.timestamp) :
    ({ c' with stored := upd c'.stored t (g :: rest) } : Cluster).Acc s' pre (ws ++ [f]) offered := by
  have hft : f.trackNumber = t := (h.stored_track (t := t) (by rw [hf]; exact List.mem_cons_self)).2
  refine ⟨⟨hh.1, hh.2, hh.3, hh.4, hh.5, hh.6⟩, k.writeLast.trans h.mode, k.dangling.trans h.alive,
    k.timecode ▸ h.tc, fun x hx => k.good (h.good x hx), ?_, ?_, ?_⟩
  · intro u
    simp only [k.stored]
    rw [ofTrack_append]
    by_cases e : u = t
    · subst e
      rw [upd_self, ofTrack_self hft, ← h.queued u, hf]
      simp
    · rw [upd_other _ _ e, ofTrack_other (by rw [hft]; exact Ne.symm e), List.append_nil]
      exact h.queued u
  · intro u
    simp only [k.stored]
    by_cases e : u = t
    · subst e; simp
    · rw [upd_other _ _ e]; exact h.kept u
  · intro u
    simp only [hl, hft]
    rw [ofTrack_append]
    by_cases e : u = t
    · subst e; rw [upd_self, ofTrack_self hft, lastTime_append]
    · rw [upd_other _ _ e, ofTrack_other (by rw [hft]; exact Ne.symm e), List.append_nil]
      exact h.last u

theorem attempt_ok {σ : Type} {m : M σ Unit} {c c' : σ} {s s' : Sink} (h : m c s = (.ok (), c', s')) :
    M.attempt m c s = (.ok true, c', s') := by unfold M.attempt; rw [h]
theorem attempt_err {σ : Type} {m : M σ Unit} {c c' : σ} {s s' : Sink} {e : Int}
    (h : m c s = (.err e, c', s')) : M.attempt m c s = (.ok false, c', s') := by unfold M.attempt; rw [h]

/-- Members that never change while a cluster is open. -/
structure Cluster.SameCfg (c c' : Cluster) : Prop where
  timecode : c'.timecode = c.timecode
  scale : c'.scale = c.scale
  fixedTimecode : c'.fixedTimecode = c.fixedTimecode
  positionForCues : c'.positionForCues = c.positionForCues

theorem Cluster.SameCfg.refl (c : Cluster) : c.SameCfg c := ⟨rfl, rfl, rfl, rfl⟩
theorem Cluster.SameCfg.trans {a b c : Cluster} (h : a.SameCfg b) (h' : b.SameCfg c) : a.SameCfg c :=
  ⟨h'.1.trans h.1, h'.2.trans h.2, h'.3.trans h.3, h'.4.trans h.4⟩
theorem Cluster.Keeps.cfg {c c' : Cluster} (h : c.Keeps c') : c.SameCfg c' := ⟨h.1, h.3, h.5, h.2⟩
theorem Cluster.SameCfg.good {c c' : Cluster} (h : c.SameCfg c') {f : Frame} (g : c.Good f) :
    c'.Good f := by
  unfold Cluster.Good; rw [h.timecode, h.scale]; exact g
theorem Cluster.SameCfg.body {c c' : Cluster} (h : c.SameCfg c') (ws : List Frame) :
    c'.body ws = c.body ws := by
  unfold Cluster.body Cluster.tcBytes
  rw [h.timecode, h.scale, h.fixedTimecode]

/-- The bound on times in ticks that the writing routines need. -/
def Cluster.TimeOk (c : Cluster) (fs : List Frame) : Prop := ∀ f ∈ fs, f.timestamp / c.scale < 2 ^ 63

theorem releaseLoop_acc (t : Nat) : ∀ (q : List Frame) {c : Cluster} {s : Sink} {pre : Bytes}
    {ws offered : List Frame} (_ : c.Acc s pre ws offered) (_ : c.TimeOk offered) (_ : c.stored t = q),
    ∃ r c' s', Cluster.releaseLoop t q c s = (r, c', s') ∧
      ((r = .ok () ∧ Sink.CleanTo s s' ∧ c.SameCfg c' ∧ ∃ ws', c'.Acc s' pre ws' offered ∧
          ((∀ t, SortedTs (ofTrack t offered)) → OrdSt c.stored ws → OrdSt c'.stored ws')) ∨
       ((∃ e, r = .err e) ∧ Sink.FailedTo s s'))
  | [], c, s, pre, ws, offered, h, _, _ =>
    ⟨_, c, s, rfl, .inl ⟨rfl, .refl s, .refl c, ws, h, fun _ h => h⟩⟩
  | [f], c, s, pre, ws, offered, h, _, _ =>
    ⟨_, c, s, rfl, .inl ⟨rfl, .refl s, .refl c, ws, h, fun _ h => h⟩⟩
  | f :: g :: rest, c, s, pre, ws, offered, h, ht, hq => by
    unfold Cluster.releaseLoop
    rw [M.get_bind]
    cases hw : Cluster.mustWait c.stored t f
    rotate_left
    · exact ⟨_, c, s, rfl, .inl ⟨rfl, .refl s, .refl c, ws, h, fun _ h => h⟩⟩
    rw [if_neg (by simp)]
    have hfo := h.stored_track (t := t) (f := f) (by rw [hq]; exact List.mem_cons_self)
    have hgood := h.good f hfo.1
    obtain ⟨r, c1, s1, h1, k, hcase⟩ := doWriteFrame_holds h.holds hgood.2.1 h.tc (ht f hfo.1)
    rcases hcase with ⟨rfl, -, -, hcl, hh, hl⟩ | ⟨-, hbad, -⟩ | ⟨⟨e, rfl⟩, hfail⟩
    · rw [M.bind_of_ok (attempt_ok h1), if_pos rfl, M.modify_bind]
      have hacc := h.write hq k hh hl
      have hcfg : c.SameCfg { c1 with stored := upd c1.stored t (g :: rest) } :=
        ⟨k.timecode, k.scale, k.fixedTimecode, k.positionForCues⟩
      obtain ⟨r', c', s', e1, e2⟩ := releaseLoop_acc t (g :: rest) hacc
        (fun x hx => by
          show x.timestamp / c1.scale < _
          rw [k.scale]; exact ht x hx) (by simp)
      refine ⟨r', c', s', e1, ?_⟩
      rcases e2 with ⟨a, b, hc, ws', d, o⟩ | ⟨a, b⟩
      · refine .inl ⟨a, hcl.trans b, hcfg.trans hc, ws', d, fun hs ho => o hs ?_⟩
        simp only [k.stored]
        refine ho.write hq rfl ?_
        intro u x hx
        by_cases e : u = t
        · subst e
          have := h.stored_sorted hs u
          rw [hq] at this hx
          rcases List.mem_cons.mp hx with rfl | hx
          · exact Nat.le_refl _
          · exact List.rel_of_pairwise_cons this hx
        · have hux := h.stored_track (t := u) hx
          have hu : u ∈ trackKeys := hux.2 ▸ (h.good x hux.1).key
          cases hsu : c.stored u with
          | nil => rw [hsu] at hx; cases hx
          | cons y ys =>
            have h1 := mustWait_false hw hu e hsu
            have h2 := h.stored_sorted hs u
            rw [hsu] at h2 hx
            rcases List.mem_cons.mp hx with rfl | hx
            · exact h1
            · exact Nat.le_trans h1 (List.rel_of_pairwise_cons h2 hx)
      · exact .inr ⟨a, hcl.failed b⟩
    · rcases hbad with hb | hb
      · rw [hgood.1] at hb; cases hb
      · exact absurd hgood.2.2 hb
    · rw [M.bind_of_ok (attempt_err h1)]
      exact ⟨_, _, s1, rfl, .inr ⟨⟨0, rfl⟩, hfail⟩⟩

/-- One call in a cluster that holds frames back. -/
theorem addFrame_acc {c : Cluster} {s : Sink} {pre : Bytes} {ws offered : List Frame} {f : Frame}
    (h : c.Acc s pre ws offered) (ht : c.TimeOk offered) (hf : c.Good f)
    (hft : f.timestamp / c.scale < 2 ^ 63) :
    ∃ r c' s', Cluster.addFrame f c s = (r, c', s') ∧
      ((r = .ok () ∧ Sink.CleanTo s s' ∧ c.SameCfg c' ∧ ∃ ws', c'.Acc s' pre ws' (offered ++ [f.copy]) ∧
          (SortedTs (offered ++ [f.copy]) → OrdSt c.stored ws → OrdSt c'.stored ws')) ∨
       ((∃ e, r = .err e) ∧ Sink.FailedTo s s')) := by
  unfold Cluster.addFrame
  rw [M.get_bind, if_neg (by simp [hf.1]), if_neg (by simp [h.mode]), if_neg (by simp [h.alive]),
    M.modify_bind]
  have hacc : ({ c with stored := upd c.stored f.trackNumber (c.stored f.trackNumber ++ [f.copy]) } :
      Cluster).Acc s pre ws (offered ++ [f.copy]) := by
    refine ⟨⟨h.holds.1, h.holds.2, h.holds.3, h.holds.4, h.holds.5, h.holds.6⟩, h.mode, h.alive, h.tc,
      ?_, ?_, ?_, h.last⟩
    · intro x hx
      rcases List.mem_append.mp hx with hx | hx
      · exact h.good x hx
      · rw [List.mem_singleton.mp hx]; exact hf.copy
    · intro u
      simp only
      rw [ofTrack_append]
      by_cases e : u = f.trackNumber
      · subst e
        rw [upd_self, ofTrack_self (copy_trackNumber f), ← List.append_assoc, h.queued]
      · rw [upd_other _ _ e, ofTrack_other (by rw [copy_trackNumber]; exact Ne.symm e), List.append_nil]
        exact h.queued u
    · intro u hu
      simp only at hu
      rw [ofTrack_append]
      by_cases e : u = f.trackNumber
      · subst e; simp at hu
      · rw [upd_other _ _ e] at hu
        rw [h.kept u hu, ofTrack_other (by rw [copy_trackNumber]; exact Ne.symm e)]; rfl
  obtain ⟨r, c', s', e1, e2⟩ := releaseLoop_acc f.trackNumber (c.stored f.trackNumber ++ [f.copy]) hacc (fun x hx => by
      rcases List.mem_append.mp hx with hx | hx
      · exact ht x hx
      · rw [List.mem_singleton.mp hx, copy_timestamp]; exact hft) (by simp)
  refine ⟨r, c', s', e1, ?_⟩
  rcases e2 with ⟨a, b, hc, ws', d, o⟩ | e2
  · refine .inl ⟨a, b, ⟨hc.1, hc.2, hc.3, hc.4⟩, ws', d, fun hs ho => o (fun t => hs.ofTrack t) ?_⟩
    refine ⟨ho.1, fun w hw u g hg => ?_⟩
    simp only at hg
    by_cases e : u = f.trackNumber
    · subst e
      rw [upd_self] at hg
      rcases List.mem_append.mp hg with hg | hg
      · exact ho.2 w hw _ g hg
      · rw [List.mem_singleton.mp hg]
        have hwo : w ∈ offered := by
          have : w ∈ ofTrack w.trackNumber offered := by
            rw [← h.queued]; exact List.mem_append_left _ (mem_ofTrack.mpr ⟨hw, rfl⟩)
          exact (mem_ofTrack.mp this).1
        exact (List.pairwise_append.mp hs).2.2 w hwo _ (List.mem_singleton.mpr rfl)
    · rw [upd_other _ _ e] at hg; exact ho.2 w hw u g hg
  · exact .inr e2

/-- A history of calls in a cluster that holds frames back. -/
theorem addAll_acc {fs : List Frame} : ∀ {c : Cluster} {s : Sink} {pre : Bytes} {ws offered : List Frame}
    (_ : c.Acc s pre ws offered) (_ : c.TimeOk offered)
    (_ : ∀ f ∈ fs, c.Good f ∧ f.timestamp / c.scale < 2 ^ 63),
    (∃ rs c' s', Cluster.addAll fs c s = (rs, c', s') ∧ rs.length = fs.length ∧ (∀ r ∈ rs, r = .ok ()) ∧
        Sink.CleanTo s s' ∧ c.SameCfg c' ∧ ∃ ws', c'.Acc s' pre ws' (offered ++ fs.map Frame.copy) ∧
          (SortedTs (offered ++ fs.map Frame.copy) → OrdSt c.stored ws → OrdSt c'.stored ws')) ∨
    (∃ n e, n < fs.length ∧ (Cluster.addAll fs c s).1[n]? = some (.err e) ∧
      Sink.FailedTo s (Cluster.addAll (fs.take (n + 1)) c s).2.2) := by
  induction fs with
  | nil =>
    intro c s pre ws offered h ht hfs
    exact .inl ⟨[], c, s, rfl, rfl, by simp, .refl s, .refl c, ws, by simpa using h, fun _ h => h⟩
  | cons f fs ih =>
    intro c s pre ws offered h ht hfs
    obtain ⟨hg, hft⟩ := hfs f List.mem_cons_self
    obtain ⟨r, c1, s1, h1, hcase⟩ := addFrame_acc h ht hg hft
    rcases hcase with ⟨rfl, hcl, hcfg, ws1, hacc, ho⟩ | ⟨⟨e, rfl⟩, hfail⟩
    · have := ih hacc (fun x hx => by
          rw [hcfg.scale]
          rcases List.mem_append.mp hx with hx | hx
          · exact ht x hx
          · rw [List.mem_singleton.mp hx, copy_timestamp]; exact hft)
        (fun g hg' => by
          obtain ⟨a, b⟩ := hfs g (List.mem_cons_of_mem _ hg')
          exact ⟨hcfg.good a, by rw [hcfg.scale]; exact b⟩)
      rcases this with ⟨rs, c', s', g1, g2, g3, g4, g5, ws', g6, g7⟩ | ⟨n, e, g1, g2, g3⟩
      · refine .inl ⟨.ok () :: rs, c', s', ?_, by simp [g2], ?_, hcl.trans g4, hcfg.trans g5, ws', ?_, ?_⟩
        · rw [addAll_cons h1, g1]
        · intro x hx
          rcases List.mem_cons.mp hx with rfl | hx
          · rfl
          · exact g3 x hx
        · simpa using g6
        · intro hs hord
          have e : offered ++ List.map Frame.copy (f :: fs) =
            (offered ++ [f.copy]) ++ fs.map Frame.copy := by simp
          rw [e] at hs
          exact g7 hs (ho (List.pairwise_append.mp hs).1 hord)
      · refine .inr ⟨n + 1, e, by simp; omega, ?_, ?_⟩
        · rw [addAll_cons h1]; simpa using g2
        · rw [List.take_succ_cons, addAll_cons h1]; exact hcl.failed g3
    · refine .inr ⟨0, e, by simp, ?_, ?_⟩
      · rw [addAll_cons h1]; simp
      · rw [List.take_succ_cons, addAll_cons h1]
        simpa [Cluster.addAll] using hfail

/-! ### Closing the cluster -/

theorem foldl_least (rest : List Frame) (f : Frame) :
    let m := rest.foldl (fun m g => if g.timestamp < m.timestamp then g else m) f
    m ∈ f :: rest ∧ ∀ g ∈ f :: rest, m.timestamp ≤ g.timestamp := by
  induction rest generalizing f with
  | nil => simp
  | cons x xs ih =>
    simp only [List.foldl_cons]
    by_cases h : x.timestamp < f.timestamp
    · rw [if_pos h]
      obtain ⟨h1, h2⟩ := ih x
      refine ⟨List.mem_cons_of_mem _ h1, fun g hg => ?_⟩
      rcases List.mem_cons.mp hg with rfl | hg
      · exact Nat.le_trans (h2 x List.mem_cons_self) (Nat.le_of_lt h)
      · exact h2 g hg
    · rw [if_neg h]
      obtain ⟨h1, h2⟩ := ih f
      refine ⟨?_, fun g hg => ?_⟩
      · rcases List.mem_cons.mp h1 with e | h1
        · rw [e]; exact List.mem_cons_self
        · exact List.mem_cons_of_mem _ (List.mem_cons_of_mem _ h1)
      · rcases List.mem_cons.mp hg with rfl | hg
        · exact h2 g List.mem_cons_self
        · rcases List.mem_cons.mp hg with rfl | hg
          · exact Nat.le_trans (h2 f List.mem_cons_self) (Nat.le_of_not_lt h)
          · exact h2 g (List.mem_cons_of_mem _ hg)

theorem pick_none {st : Nat → List Frame} (h : Cluster.pick st = none) {t : Nat} (ht : t ∈ trackKeys) :
    st t = [] := by
  unfold Cluster.pick at h
  split at h
  · rename_i hf
    unfold Cluster.fronts at hf
    rw [List.filterMap_eq_nil_iff] at hf
    have := hf t ht
    simpa using this
  · cases h

theorem pick_some {st : Nat → List Frame} {f : Frame} (h : Cluster.pick st = some f) :
    (∃ t rest, t ∈ trackKeys ∧ st t = f :: rest) ∧
    ∀ u ∈ trackKeys, ∀ g rest, st u = g :: rest → f.timestamp ≤ g.timestamp := by
  unfold Cluster.pick at h
  split at h
  · cases h
  · rename_i x xs hf
    obtain ⟨h1, h2⟩ := foldl_least xs x
    injection h with h
    rw [h] at h1 h2
    rw [← hf] at h1 h2
    unfold Cluster.fronts at h1 h2
    constructor
    · obtain ⟨t, a, b⟩ := List.mem_filterMap.mp h1
      cases hst : st t with
      | nil => rw [hst] at b; cases b
      | cons y ys =>
        rw [hst] at b
        simp at b
        exact ⟨t, ys, a, by rw [hst, b]⟩
    · intro u hu g rest hg
      exact h2 g (List.mem_filterMap.mpr ⟨u, hu, by rw [hg]; rfl⟩)

theorem sum_upd {l : List Nat} (hl : l.Nodup) {t : Nat} (ht : t ∈ l) (st : Nat → List Frame) (q : List Frame) :
    (l.map fun u => (upd st t q u).length).sum + (st t).length = (l.map fun u => (st u).length).sum + q.length := by
  induction l with
  | nil => cases ht
  | cons a l ih =>
    rw [List.nodup_cons] at hl
    simp only [List.map_cons, List.sum_cons]
    rcases List.mem_cons.mp ht with rfl | ht
    · have : (l.map fun u => (upd st t q u).length) = l.map fun u => (st u).length := by
        apply List.map_congr_left
        intro u hu
        rw [upd_other]
        rintro rfl; exact hl.1 hu
      rw [this, upd_self]; omega
    · have h1 := ih hl.2 ht
      rw [upd_other st q (by rintro rfl; exact hl.1 ht)]
      omega

theorem heldBack_zero {st : Nat → List Frame} (h : Cluster.heldBack st = 0) {t : Nat} (ht : t ∈ trackKeys) :
    st t = [] := by
  unfold Cluster.heldBack at h
  have : ∀ l : List Nat, (l.map fun u => (st u).length).sum = 0 → ∀ u ∈ l, st u = [] := by
    intro l
    induction l with
    | nil => intro _ u hu; cases hu
    | cons a l ih =>
      intro h u hu
      simp only [List.map_cons, List.sum_cons] at h
      rcases List.mem_cons.mp hu with rfl | hu
      · exact List.eq_nil_of_length_eq_zero (by omega)
      · exact ih (by omega) u hu
  exact this _ h t ht

theorem trackKeys_nodup : trackKeys.Nodup := List.nodup_range'

theorem heldBack_tail {st : Nat → List Frame} {t : Nat} (ht : t ∈ trackKeys) {f : Frame} {rest : List Frame}
    (h : st t = f :: rest) : Cluster.heldBack (upd st t rest) + 1 = Cluster.heldBack st := by
  have := sum_upd trackKeys_nodup ht st rest
  unfold Cluster.heldBack
  rw [h] at this
  simp only [List.length_cons] at this
  omega

/-- What closing does to the last frame of a track, `prev` being the time of the frame before. -/
def finish (duration prev : Nat) (f : Frame) : Frame :=
  if f.durationSet then f
  else if !f.isKey && !f.referenceBlockTimestampSet then
    { f with duration := subU64 duration f.timestamp, durationSet := true,
             referenceBlockTimestamp := toI64 prev, referenceBlockTimestampSet := true }
  else { f with duration := subU64 duration f.timestamp, durationSet := true }

/-- A track's frames after closing. -/
def sealTrack (setLast : Bool) (duration : Nat) (fs : List Frame) : List Frame :=
  match setLast, fs.getLast? with
  | true, some f => fs.dropLast ++ [finish duration (lastTime fs.dropLast) f]
  | _, _ => fs

theorem sealTrack_append (duration : Nat) (fs : List Frame) (f : Frame) :
    sealTrack true duration (fs ++ [f]) = fs ++ [finish duration (lastTime fs) f] := by
  simp [sealTrack]

theorem finish_track (d p : Nat) (f : Frame) : (finish d p f).trackNumber = f.trackNumber := by
  unfold finish; split
  · rfl
  · split <;> rfl
theorem finish_time (d p : Nat) (f : Frame) : (finish d p f).timestamp = f.timestamp := by
  unfold finish; split
  · rfl
  · split <;> rfl

theorem finish_good {c : Cluster} {f : Frame} (d p : Nat) (h : c.Good f) : c.Good (finish d p f) := by
  obtain ⟨h1, h2, h3⟩ := h
  unfold finish
  split
  · exact ⟨h1, h2, h3⟩
  · split
    · rename_i hk
      refine ⟨?_, h2, h3⟩
      unfold Frame.isValid at h1 ⊢
      simp only
      repeat' split at h1
      all_goals simp_all
    · rename_i hk
      refine ⟨?_, h2, h3⟩
      unfold Frame.isValid at h1 ⊢
      simp only
      repeat' split at h1
      all_goals first | cases h1 | skip
      rename_i a b c d
      rw [if_neg a, if_neg b, if_neg c, if_neg]
      intro hc
      simp at hc hk
      obtain ⟨⟨-, x⟩, y⟩ := hc
      rw [hk x] at y; cases y

/-- The closing loop: tracks with an empty queue are done. -/
structure Cluster.Merging (c : Cluster) (s : Sink) (pre : Bytes) (ws offered : List Frame)
    (setLast : Bool) (duration : Nat) : Prop where
  holds : c.Holds s pre ws
  tc : c.timecode < 2 ^ 63
  good : ∀ f ∈ offered, c.Good f
  queued : ∀ t, c.stored t ≠ [] → ofTrack t ws ++ c.stored t = ofTrack t offered
  done : ∀ t, c.stored t = [] → ofTrack t ws = sealTrack setLast duration (ofTrack t offered)
  last : ∀ t, c.stored t ≠ [] → c.lastTs t = lastTime (ofTrack t ws)

theorem Cluster.Acc.merging {c : Cluster} {s : Sink} {pre : Bytes} {ws offered : List Frame}
    (h : c.Acc s pre ws offered) (setLast : Bool) (duration : Nat) :
    c.Merging s pre ws offered setLast duration := by
  refine ⟨h.holds, h.tc, h.good, fun t _ => h.queued t, fun t ht => ?_, fun t _ => h.last t⟩
  have h1 := h.kept t ht
  have h2 := h.queued t
  rw [ht, List.append_nil] at h2
  rw [h2, h1]
  unfold sealTrack; cases setLast <;> rfl

theorem Cluster.Merging.stored_track {c : Cluster} {s : Sink} {pre : Bytes} {ws offered : List Frame}
    {setLast : Bool} {d : Nat} (h : c.Merging s pre ws offered setLast d) {t : Nat} {f : Frame}
    (hf : f ∈ c.stored t) : f ∈ offered ∧ f.trackNumber = t := by
  have : f ∈ ofTrack t offered := by
    rw [← h.queued t (by intro e; rw [e] at hf; cases hf)]; exact List.mem_append_right _ hf
  exact mem_ofTrack.mp this

theorem closeFrame_eq {c : Cluster} {setLast : Bool} {d : Nat} {f : Frame} {t : Nat} (ht : f.trackNumber = t) :
    c.closeFrame setLast d f =
      if setLast = true ∧ (c.stored t).length = 1 then finish d (c.lastTs t) f else f := by
  subst ht
  unfold Cluster.closeFrame finish
  cases setLast <;> cases f.durationSet <;> simp

theorem Cluster.Merging.write {c c' : Cluster} {s s' : Sink} {pre : Bytes} {ws offered : List Frame}
    {setLast : Bool} {d : Nat} (h : c.Merging s pre ws offered setLast d) {t : Nat} {f : Frame}
    {rest : List Frame} (hf : c.stored t = f :: rest) (k : c.Keeps c')
    (hh : c'.Holds s' pre (ws ++ [c.closeFrame setLast d f]))
    (hl : c'.lastTs = upd c.lastTs f.trackNumber f.timestamp) :
    ({ c' with stored := upd c'.stored t rest } : Cluster).Merging s' pre
      (ws ++ [c.closeFrame setLast d f]) offered setLast d := by
  have hft : f.trackNumber = t := (h.stored_track (t := t) (by rw [hf]; exact List.mem_cons_self)).2
  have hct : (c.closeFrame setLast d f).trackNumber = t := by
    rw [closeFrame_eq hft]; split
    · rw [finish_track]; exact hft
    · exact hft
  have hq := h.queued t (by rw [hf]; simp)
  refine ⟨⟨hh.1, hh.2, hh.3, hh.4, hh.5, hh.6⟩, k.timecode ▸ h.tc, fun x hx => k.good (h.good x hx),
    ?_, ?_, ?_⟩
  · intro u hu
    simp only [k.stored] at hu ⊢
    rw [ofTrack_append]
    by_cases e : u = t
    · subst e
      rw [upd_self] at hu ⊢
      rw [ofTrack_self hct, closeFrame_eq hft, if_neg, ← hq, hf]
      · simp
      · rintro ⟨-, h1⟩
        rw [hf] at h1
        simp only [List.length_cons] at h1
        exact hu (List.eq_nil_of_length_eq_zero (by omega))
    · rw [upd_other _ _ e] at hu ⊢
      rw [ofTrack_other (by rw [hct]; exact Ne.symm e), List.append_nil]
      exact h.queued u hu
  · intro u hu
    simp only [k.stored] at hu
    rw [ofTrack_append]
    by_cases e : u = t
    · subst e
      rw [upd_self] at hu
      subst hu
      rw [ofTrack_self hct, closeFrame_eq hft, hf, ← hq, hf]
      cases setLast
      · simp [sealTrack]
      · rw [sealTrack_append, if_pos ⟨rfl, rfl⟩, h.last u (by rw [hf]; simp)]
    · rw [upd_other _ _ e] at hu
      rw [ofTrack_other (by rw [hct]; exact Ne.symm e), List.append_nil]
      exact h.done u hu
  · intro u hu
    simp only [k.stored] at hu
    simp only [hl, hft]
    rw [ofTrack_append]
    by_cases e : u = t
    · subst e
      rw [upd_self] at hu
      rw [upd_self, ofTrack_self hct, lastTime_append, closeFrame_eq hft]
      split
      · rw [finish_time]
      · rfl
    · rw [upd_other _ _ e] at hu ⊢
      rw [ofTrack_other (by rw [hct]; exact Ne.symm e), List.append_nil]
      exact h.last u hu

theorem Cluster.Merging.stored_sorted {c : Cluster} {s : Sink} {pre : Bytes} {ws offered : List Frame}
    {setLast : Bool} {d : Nat} (h : c.Merging s pre ws offered setLast d)
    (hs : ∀ t, SortedTs (Verif.Mux.ofTrack t offered)) (t : Nat) : SortedTs (c.stored t) := by
  by_cases e : c.stored t = []
  · rw [e]; exact List.Pairwise.nil
  · have := hs t
    rw [← h.queued t e] at this
    exact (List.pairwise_append.mp this).2.1

theorem mergeLoop_spec (setLast : Bool) (d : Nat) : ∀ (n : Nat) {c : Cluster} {s : Sink} {pre : Bytes}
    {ws offered : List Frame} (_ : c.Merging s pre ws offered setLast d) (_ : c.TimeOk offered)
    (_ : Cluster.heldBack c.stored = n),
    ∃ r c' s', Cluster.mergeLoop setLast d n c s = (r, c', s') ∧
      ((r = .ok () ∧ Sink.CleanTo s s' ∧ c.SameCfg c' ∧ (∀ t, c'.stored t = []) ∧
          ∃ ws', c'.Merging s' pre ws' offered setLast d ∧
          ((∀ t, SortedTs (ofTrack t offered)) → OrdSt c.stored ws → SortedTs ws')) ∨
       ((∃ e, r = .err e) ∧ Sink.FailedTo s s')) := by
  intro n
  induction n with
  | zero =>
    intro c s pre ws offered h ht hn
    refine ⟨_, c, s, rfl, .inl ⟨rfl, .refl s, .refl c, fun t => ?_, ws, h, fun _ ho => ho.1⟩⟩
    cases hst : c.stored t with
    | nil => rfl
    | cons f fs =>
      have hm : f ∈ c.stored t := by rw [hst]; exact List.mem_cons_self
      obtain ⟨h1, h2⟩ := h.stored_track hm
      rw [heldBack_zero hn (h2 ▸ (h.good f h1).key)] at hm
      cases hm
  | succ n ih =>
    intro c s pre ws offered h ht hn
    unfold Cluster.mergeLoop
    rw [M.get_bind]
    cases hp : Cluster.pick c.stored with
    | none =>
      exfalso
      have : Cluster.heldBack c.stored = 0 := by
        unfold Cluster.heldBack
        have : (trackKeys.map fun t => (c.stored t).length) = trackKeys.map fun _ => 0 :=
          List.map_congr_left fun t ht => by rw [pick_none hp ht]; rfl
        rw [this]
        have z : ∀ l : List Nat, (l.map fun _ => 0).sum = 0 := fun l => by
          induction l with
          | nil => rfl
          | cons a l ih => rw [List.map_cons, List.sum_cons, ih]
        exact z _
      omega
    | some f =>
      obtain ⟨⟨t, rest, htk, hst⟩, hleast⟩ := pick_some hp
      have hm : f ∈ c.stored t := by rw [hst]; exact List.mem_cons_self
      obtain ⟨hfo, hft⟩ := h.stored_track hm
      have hgood : c.Good (c.closeFrame setLast d f) := by
        rw [closeFrame_eq hft]; split
        · exact finish_good _ _ (h.good f hfo)
        · exact h.good f hfo
      have hct : (c.closeFrame setLast d f).timestamp = f.timestamp := by
        rw [closeFrame_eq hft]; split
        · exact finish_time ..
        · rfl
      have hctr : (c.closeFrame setLast d f).trackNumber = f.trackNumber := by
        rw [closeFrame_eq hft]; split
        · exact finish_track ..
        · rfl
      obtain ⟨r, c1, s1, h1, k, hcase⟩ := doWriteFrame_holds h.holds hgood.2.1 h.tc
        (by rw [hct]; exact ht f hfo)
      simp only
      rcases hcase with ⟨rfl, -, -, hcl, hh, hl⟩ | ⟨-, hbad, -⟩ | ⟨⟨e, rfl⟩, hfail⟩
      · rw [M.bind_of_ok (attempt_ok h1), M.modify_bind, if_pos rfl]
        rw [hctr, hct] at hl
        have hst1 : c1.stored f.trackNumber = f :: rest := by rw [k.stored, hft]; exact hst
        have hm' := h.write hst k hh hl
        have e1 : ({ c1 with stored := upd c1.stored f.trackNumber (c1.stored f.trackNumber).tail } : Cluster)
            = { c1 with stored := upd c1.stored t rest } := by rw [hst1, hft]; rfl
        rw [e1]
        have hcfg : c.SameCfg { c1 with stored := upd c1.stored t rest } :=
        ⟨k.timecode, k.scale, k.fixedTimecode, k.positionForCues⟩
        obtain ⟨r', c', s', g1, g2⟩ := ih hm' (fun x hx => by
            show x.timestamp / c1.scale < _
            rw [k.scale]; exact ht x hx)
          (by
            show Cluster.heldBack (upd c1.stored t rest) = n
            have := heldBack_tail htk hst
            rw [k.stored]; omega)
        refine ⟨r', c', s', g1, ?_⟩
        rcases g2 with ⟨a, b, hc, e, ws', hmm, ho⟩ | ⟨a, b⟩
        · refine .inl ⟨a, hcl.trans b, hcfg.trans hc, e, ws', hmm, fun hs hord => ho hs ?_⟩
          simp only [k.stored]
          refine hord.write hst hct ?_
          intro u x hx
          obtain ⟨hxo, hxt⟩ := h.stored_track hx
          have hu : u ∈ trackKeys := hxt ▸ (h.good x hxo).key
          cases hsu : c.stored u with
          | nil => rw [hsu] at hx; cases hx
          | cons y ys =>
            have h1 := hleast u hu y ys hsu
            have h2 := h.stored_sorted hs u
            rw [hsu] at h2 hx
            rcases List.mem_cons.mp hx with rfl | hx
            · exact h1
            · exact Nat.le_trans h1 (List.rel_of_pairwise_cons h2 hx)
        · exact .inr ⟨a, hcl.failed b⟩
      · rcases hbad with hb | hb
        · rw [hgood.1] at hb; cases hb
        · exact absurd hgood.2.2 hb
      · rw [M.bind_of_ok (attempt_err h1), M.modify_bind]
        exact ⟨_, _, s1, rfl, .inr ⟨⟨0, rfl⟩, hfail⟩⟩

theorem sealTrack_length (b : Bool) (d : Nat) (fs : List Frame) : (sealTrack b d fs).length = fs.length := by
  unfold sealTrack
  split
  · rename_i f h
    have : fs ≠ [] := by intro e; rw [e] at h; cases h
    have := List.length_pos_iff.mpr this
    simp; omega
  · rfl

/-- `Finalize` on a cluster that holds frames back. -/
theorem finalize_acc {c : Cluster} {s : Sink} {pre : Bytes} {ws offered : List Frame}
    (seekable setLast : Bool) (d : Nat) (h : c.Acc s pre ws offered) (ht : c.TimeOk offered) :
    ∃ r c' s', Cluster.finalize seekable setLast d c s = (r, c', s') ∧
      ((r = .ok () ∧ Sink.CleanTo s s' ∧ c.SameCfg c' ∧
          ∃ ws', c'.Closed seekable s' pre ws' ∧ (∀ t, c'.stored t = []) ∧
            (∀ t, ofTrack t ws' = sealTrack setLast d (ofTrack t offered)) ∧
            ((∀ t, SortedTs (ofTrack t offered)) → OrdSt c.stored ws → SortedTs ws')) ∨
       ((∃ e, r = .err e) ∧ (Sink.FailedTo s s' ∨ offered = [] ∨ 2 ^ 56 ≤ s'.data.length + 1))) := by
  unfold Cluster.finalize
  rw [M.get_bind, if_neg (by simp [h.holds.open_])]
  obtain ⟨r, c1, s1, h1, hcase⟩ := mergeLoop_spec setLast d _ (h.merging setLast d) ht rfl
  have hflush : Cluster.flush setLast d c s = (r, c1, s1) := by
    unfold Cluster.flush
    rw [if_neg (by simp [h.mode]), if_neg (by simp [h.alive])]
    exact h1
  rcases hcase with ⟨rfl, hcl, hcfg, hemp, ws', hm, ho⟩ | ⟨⟨e, rfl⟩, hf⟩
  rotate_left
  · rw [M.bind_of_err hflush]
    exact ⟨_, c1, s1, rfl, .inr ⟨⟨e, rfl⟩, .inl hf⟩⟩
  rw [M.bind_of_ok hflush]
  rcases close_spec (seekable := seekable) hm.holds with ⟨s', g1, g2, g3⟩ | ⟨e, s', g1, g2⟩
  · refine ⟨_, _, s', g1, .inl ⟨rfl, hcl.trans g2, ⟨hcfg.1, hcfg.2, hcfg.3, hcfg.4⟩, ws', g3, hemp,
      fun t => hm.done t (hemp t), ho⟩⟩
  · refine ⟨_, _, s', g1, .inr ⟨⟨e, rfl⟩, ?_⟩⟩
    rcases g2 with g2 | ⟨rfl, -, -⟩ | ⟨a, -, b⟩
    · exact .inl (hcl.failed g2)
    · refine .inr (.inl ?_)
      cases offered with
      | nil => rfl
      | cons f fs =>
        have := congrArg List.length (hm.done f.trackNumber (hemp _))
        rw [sealTrack_length] at this
        simp [ofTrack] at this
    · exact .inr (.inr (by omega))

end Verif.Mux
