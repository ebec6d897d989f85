/-
The conversion of a WebM file, in terms of the frames that mkvparser shows.
-/
import Verif.Model.Webm2Pes
import Verif.Lemmas.Sample
import Verif.Lemmas.ParserHeadersAt
import Verif.Spec.EbmlHeader
import Verif.Props.M2ts

namespace Verif.Pes
open Verif Verif.Par Verif.Mux Verif.Spec

section
variable {σ : Type} {receive : σ → Bytes → Option σ}

/-- One frame that is shown. -/
def convertOne (receive : σ → Bytes → Option σ) (n : Nat) (vp9 : Bool) (k : Int) (s : SeenFrame) (st : σ) : Res σ :=
  if s.track = n then
    match writePesPacket vp9 s.data (Ticks.nanosecondsTo90KhzTicks (s.time * k)) with
    | none => .err (-1)
    | some packet =>
      match receive st packet with
      | none => .err (-1)
      | some st => .ok st
  else .ok st

def convertMany (receive : σ → Bytes → Option σ) (n : Nat) (vp9 : Bool) (k : Int) : List SeenFrame → σ → Res σ
  | [], st => .ok st
  | s :: ss, st => convertOne receive n vp9 k s st >>= convertMany receive n vp9 k ss

theorem res_bind_assoc {α β γ : Type} (x : Res α) (f : α → Res β) (g : β → Res γ) : (x >>= f) >>= g = x >>= fun a => f a >>= g := by
  cases x <;> rfl

theorem res_bind_pure {α : Type} (x : Res α) : (x >>= fun a => .ok a) = x := by
  cases x <;> rfl

theorem convertMany_append (n : Nat) (vp9 : Bool) (k : Int) : ∀ (a b : List SeenFrame) (st : σ),
    convertMany receive n vp9 k (a ++ b) st = convertMany receive n vp9 k a st >>= convertMany receive n vp9 k b
  | [], _, _ => rfl
  | s :: a, b, st => by
    rw [List.cons_append, convertMany, convertMany, res_bind_assoc]
    congr 1
    funext st
    exact convertMany_append n vp9 k a b st

/-- A frame whose time can be represented. -/
structure Timed (n : Nat) (k : Int) (s : SeenFrame) : Prop where
  time : s.track = n → 0 ≤ s.time
  range : s.track = n → s.time * k < 2 ^ 63

theorem convertFrames_ok {r : Rdr} {n : Nat} {vp9 : Bool} {k tc : Int} {e : Entry} (hk : 0 < k) (hn : e.block.track = n) :
    ∀ (fs : List BFrame) {ss : List SeenFrame} (st : σ), (∀ f ∈ fs, f ∈ e.block.frames) → e.Inside r → watchFrames r tc e fs = .ok ss →
      (∀ s ∈ ss, Timed n k s) →
      convertFrames receive r vp9 k tc e.block fs st = convertMany receive n vp9 k ss st
  | [], ss, st, _, _, h, _ => by
    cases h
    rfl
  | f :: fs, ss, st, hin, hi, h, hu => by
    unfold watchFrames at h
    obtain ⟨time, hT, h⟩ := Res.bind_eq_ok.mp h
    obtain ⟨data, h2, h⟩ := Res.bind_eq_ok.mp h
    obtain ⟨rest, h3, h⟩ := Res.bind_eq_ok.mp h
    cases h
    obtain ⟨u1, u2⟩ := hu _ List.mem_cons_self
    have hrec : ∀ st', convertFrames receive r vp9 k tc e.block fs st' = convertMany receive n vp9 k rest st' := fun st' =>
      convertFrames_ok hk hn fs st' (fun g hg => hin g (by simp [hg])) hi h3 (fun s hs => hu s (by simp [hs]))
    obtain ⟨i1, i2⟩ := hi.frames f (hin f (by simp))
    unfold convertFrames
    rw [Vtt.blockGetTime_of hT hk (u1 hn) (by have := u2 hn; simp only at this; omega), Res.bind_ok]
    rw [Res.refuse_neg (by omega), Res.bind_ok]
    rw [convertMany, convertOne, if_pos hn]
    cases hrd : f.read r with
    | error c => rw [hrd] at h2; cases h2
    | ok d =>
      rw [hrd] at h2
      cases h2
      simp only
      cases writePesPacket vp9 data (Ticks.nanosecondsTo90KhzTicks (time * k)) with
      | none => rfl
      | some p =>
        simp only
        cases receive st p with
        | none => rfl
        | some st' => exact hrec st'

theorem convertMany_other (n : Nat) (vp9 : Bool) (k : Int) : ∀ {ss : List SeenFrame} (st : σ), (∀ s ∈ ss, s.track ≠ n) →
    convertMany receive n vp9 k ss st = .ok st
  | [], _, _ => rfl
  | s :: ss, st, h => by
    rw [convertMany, convertOne, if_neg (h s (by simp)), Res.bind_ok]
    exact convertMany_other n vp9 k st fun s hs => h s (by simp [hs])

theorem watchFrames_track {r : Rdr} {tc : Int} {e : Entry} : ∀ (fs : List BFrame) {ss : List SeenFrame},
    watchFrames r tc e fs = .ok ss → ∀ s ∈ ss, s.track = e.block.track
  | [], ss, h, s, hs => by
    cases h
    cases hs
  | f :: fs, ss, h, s, hs => by
    unfold watchFrames at h
    obtain ⟨time, hT, h⟩ := Res.bind_eq_ok.mp h
    obtain ⟨data, h2, h⟩ := Res.bind_eq_ok.mp h
    obtain ⟨rest, h3, h⟩ := Res.bind_eq_ok.mp h
    cases h
    rcases List.mem_cons.mp hs with rfl | hs
    · rfl
    · exact watchFrames_track fs h3 s hs

theorem convertEntry_ok {r : Rdr} {n : Nat} {vp9 : Bool} {k tc : Int} {e : Entry} {ss : List SeenFrame} (hk : 0 < k)
    (hi : e.Inside r) (h : watchEntry r tc e = .ok ss) (hu : ∀ s ∈ ss, Timed n k s) (st : σ) :
    convertEntry receive r n vp9 k tc e st = convertMany receive n vp9 k ss st := by
  unfold convertEntry
  by_cases hn : e.block.track = n
  · rw [if_pos hn]
    exact convertFrames_ok hk hn _ st (fun _ h => h) hi h hu
  · rw [if_neg hn, convertMany_other]
    intro s hs
    rw [watchFrames_track _ h s hs]
    exact hn

theorem convertFrom_ok {r : Rdr} (hr : r.Fails) (hw : r.Whole) {n : Nat} {vp9 : Bool} {k tc : Int} (hk : 0 < k) :
    ∀ (fuel : Nat) {c : ReadCluster} {idx : Nat} {e : Entry} {ss : List SeenFrame} (st : σ), c.Ok r →
      (c.entries.getD [])[idx]? = some e → watchFrom r tc fuel c idx e = .ok ss → (∀ s ∈ ss, Timed n k s) →
      convertFrom receive r n vp9 k tc fuel c idx e st = convertMany receive n vp9 k ss st
  | 0, c, idx, e, ss, st, _, _, h, _ => by cases h
  | m + 1, c, idx, e, ss, st, hc, hidx, h, hu => by
    unfold watchFrom at h
    obtain ⟨fs, h1, h⟩ := Res.bind_eq_ok.mp h
    obtain ⟨⟨c', e'⟩, h2, h⟩ := Res.bind_eq_ok.mp h
    have hi := hc.entries e (List.mem_of_getElem? hidx)
    unfold convertFrom
    cases e' with
    | none =>
      cases h
      rw [convertEntry_ok hk hi h1 hu, h2]
      exact res_bind_pure _
    | some e' =>
      obtain ⟨rest, h3, h⟩ := Res.bind_eq_ok.mp h
      cases h
      rw [convertEntry_ok hk hi h1 (fun s hs => hu s (List.mem_append_left _ hs)), h2, convertMany_append]
      simp only
      congr 1
      funext st
      have hg := hc.getNext hr hw (idx := idx) (List.getElem?_eq_some_iff.mp hidx).1
      exact convertFrom_ok hr hw hk m st (hg.grows _ _ h2).1.ok (hc.getNext_at hw h2) h3
        (fun s hs => hu s (List.mem_append_right _ hs))

theorem convertCluster_ok {r : Rdr} (hr : r.Fails) (hw : r.Whole) {n : Nat} {vp9 : Bool} {k : Int} (hk : 0 < k)
    {fuel : Nat} {c : ReadCluster} {ss : List SeenFrame} (st : σ) (hc : c.Ok r) (h : watchCluster r fuel c = .ok ss)
    (hu : ∀ s ∈ ss, Timed n k s) : convertCluster receive r n vp9 k fuel c st = convertMany receive n vp9 k ss st := by
  unfold watchCluster at h
  obtain ⟨⟨c1, tc⟩, h1, h⟩ := Res.bind_eq_ok.mp h
  obtain ⟨⟨c2, e⟩, h2, h⟩ := Res.bind_eq_ok.mp h
  have hc1 : c1.Ok r := by
    unfold ReadCluster.getTimeCode at h1
    split at h1
    · rename_i c' hl
      cases h1
      exact (hc.load hl).1
    · cases h1
      exact hc
    · cases h1
  unfold convertCluster
  rw [h1, Res.bind_ok]
  simp only at h2 ⊢
  rw [h2]
  cases e with
  | none => cases h; rfl
  | some e =>
    simp only
    simp only at h
    have hg := hc1.getFirst hr hw
    refine convertFrom_ok hr hw hk fuel st (hg.grows _ _ h2).1.ok ?_ h hu
    unfold ReadCluster.getFirst at h2
    split at h2
    · rename_i e1 es he
      cases h2
      rw [he]
      rfl
    · obtain ⟨⟨c3, b⟩, hp, hx⟩ := Res.bind_eq_ok.mp h2
      simp only [Res.ok.injEq, Prod.mk.injEq] at hx
      obtain ⟨rfl, hy⟩ := hx
      rw [← hy, List.head?_eq_getElem?]

theorem convertClusters_ok {r : Rdr} (hr : r.Fails) (hw : r.Whole) {n : Nat} {vp9 : Bool} {k : Int} (hk : 0 < k)
    {g : ReadSegment} (hg : g.Ok r) {rounds : Nat} : ∀ (fuel : Nat) (idx : Option Nat) {ss : List SeenFrame} (st : σ),
      watchClusters r g rounds fuel idx = .ok ss → (∀ s ∈ ss, Timed n k s) →
      convertClusters receive r n vp9 k g rounds fuel idx st = convertMany receive n vp9 k ss st
  | fuel, none, ss, st, h, _ => by
    unfold watchClusters at h
    cases h
    cases fuel <;> rfl
  | 0, some _, ss, st, h, _ => by cases h
  | m + 1, some idx, ss, st, h, hu => by
    unfold watchClusters at h
    unfold convertClusters
    cases hc : g.clusters[idx]? with
    | none => rw [hc] at h; cases h
    | some c =>
      rw [hc] at h
      simp only at h ⊢
      obtain ⟨fs, h1, h⟩ := Res.bind_eq_ok.mp h
      obtain ⟨rest, h2, h⟩ := Res.bind_eq_ok.mp h
      cases h
      rw [convertCluster_ok hr hw hk st (hg.clusters c (List.mem_of_getElem? hc)) h1 (fun s hs => hu s (List.mem_append_left _ hs)),
        convertMany_append]
      congr 1
      funext st
      exact convertClusters_ok hr hw hk hg m _ st h2 (fun s hs => hu s (List.mem_append_right _ hs))

/-- The whole conversion of any file that mkvparser can show. -/
theorem convert_ok {r : Rdr} {file : Bytes} (ho : Opened r file) {fuel : Nat} (hf : file.length < fuel)
    {g g' : ReadSegment} (hc : createInstance r 0 = .ok g) (hl : g.load r fuel = (g', .ok ())) {tracks : List ReadTrack}
    {info : ReadInfo} (ht : g'.tracks = some tracks) (hi : g'.info = some info) (hk : 0 < info.timecodeScale)
    {fs : List SeenFrame} (hw : watch r fuel g' = .ok fs) {n : Nat} {vp9 : Bool} (hv : findVideo tracks 0 = .ok (n, vp9))
    (hu : ∀ s ∈ fs, Timed n info.timecodeScale s) (st : σ) :
    convert receive r fuel st = convertMany receive n vp9 info.timecodeScale fs st := by
  have hwh : r.Whole := by unfold Rdr.Whole; rw [ho.total, ho.data]
  have hok := ((createInstance_state hc).load ho.fails hwh (by rw [ho.data]; exact hf)).2
  rw [hl] at hok
  unfold convert
  rw [hc]
  simp only
  rw [hl]
  simp only
  rw [ht, hi]
  simp only
  rw [hv, Res.bind_ok]
  exact convertClusters_ok ho.fails hwh hk hok _ _ st hw hu

end

end Verif.Pes
