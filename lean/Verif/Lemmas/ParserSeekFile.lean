/-
Seeking in a file by the cues of its clusters.
-/
import Verif.Lemmas.ParserSeek
import Verif.Lemmas.ParserOpens

namespace Verif.Props
open Verif Spec Mux Par

/-! ### Loading the cue points -/

theorem loadCuePoints_of {r : Rdr} {q' : Par.Cues} (hd : q'.doneParsing = true) : ∀ (n : Nat) {q : Par.Cues} {fuel : Nat}, n < fuel →
    loadTimes r n q = some q' → loadCuePoints r fuel q = .ok q' := by
  intro n
  induction n with
  | zero =>
    intro q fuel hf h
    obtain ⟨m, rfl⟩ : ∃ m, fuel = m + 1 := ⟨fuel - 1, by omega⟩
    rw [loadTimes] at h
    cases h
    rw [loadCuePoints, hd]
    rfl
  | succ n ih =>
    intro q fuel hf h
    obtain ⟨m, rfl⟩ : ∃ m, fuel = m + 1 := ⟨fuel - 1, by omega⟩
    rw [loadTimes] at h
    rw [loadCuePoints]
    by_cases hq : q.doneParsing = true
    · unfold Par.Cues.loadCuePoint at h
      rw [if_pos (by simpa [Par.Cues.doneParsing] using hq)] at h
      cases h
    · rw [if_neg hq]
      split at h
      · rename_i q2 hq2
        rw [hq2]
        exact ih (by omega) h
      · cases h

theorem cuesPayload_count (q : List Cue) : q.length ≤ (Spec.cuesPayload q).length := by
  induction q with
  | nil => simp
  | cons c q ih =>
    have hpos := List.length_pos_iff.mpr (Par.element_ne_nil Mux.kMkvCuePoint (cuePoint c.time c.track c.pos c.block))
    rw [Par.cuesPayload_cons, List.length_append, List.length_cons]
    omega

theorem loadCuePoints_ok {r : Rdr} {at' fuel : Nat} {q : List Cue} (h0 : 0 < at') (hread : ∀ c ∈ q, Readable c)
    (hpl : At r.data at' (Spec.cuesPayload q)) (hf : q.length < fuel) :
    ∃ p, loadCuePoints r fuel (Par.Cues.new at' (Spec.cuesPayload q).length) = .ok p ∧
      p.points = q.map loadedCue ∧ p.count = q.length := by
  cases q with
  | nil =>
    obtain ⟨m, rfl⟩ : ∃ m, fuel = m + 1 := ⟨fuel - 1, by omega⟩
    exact ⟨_, by rw [loadCuePoints, if_pos (by simp [Par.Cues.doneParsing, Par.Cues.new, Spec.cuesPayload, elements])], rfl, rfl⟩
  | cons c q =>
    obtain ⟨p, g1, g2, g3, g4, g5, g6⟩ := loadTimes_new h0 (by simp) hread hpl
    exact ⟨p, loadCuePoints_of (by unfold Par.Cues.doneParsing; rw [g4, g5, g6]; simp) _ hf g1, g2, g3⟩

/-! ### The places the cues name -/

section
variable {scale track : Nat} {numbered : Bool}

/-- The frames of each cluster. -/
def watchedClusters (scale : Nat) (cs : List (Nat × ClusterOf)) : List (List SeenFrame) :=
  cs.map fun c => c.2.frames.map (Frame.asWatched scale)

theorem watchedClusters_flatten (cs : List (Nat × ClusterOf)) :
    (watchedClusters scale cs).flatten = (clusterFrames cs).map (Frame.asWatched scale) := by
  unfold watchedClusters clusterFrames
  rw [List.map_flatten, List.map_map]
  rfl

theorem asWatched_track (f : Frame) : (f.asWatched scale).track = f.trackNumber := rfl
theorem asWatched_time (f : Frame) : (f.asWatched scale).time = ((f.timestamp / scale : Nat) : Int) := rfl

theorem dropWhile_none {fs : List Frame} (h : ∀ f ∈ fs, f.trackNumber ≠ track) :
    (fs.map (Frame.asWatched scale)).dropWhile (fun f => decide (f.track ≠ track)) = [] := by
  induction fs with
  | nil => rfl
  | cons f fs ih =>
    rw [List.map_cons, List.dropWhile_cons_of_pos]
    · exact ih fun x hx => h x (by simp [hx])
    · have := h f (by simp)
      exact decide_eq_true this

theorem dropWhile_first {fs : List Frame} {n : Nat} {f : Frame} (h : FirstBlock track fs n f) :
    ∃ rest, (fs.map (Frame.asWatched scale)).dropWhile (fun f => decide (f.track ≠ track)) = f.asWatched scale :: rest ∧
      (fs.drop (n - 1)).map (Frame.asWatched scale) = f.asWatched scale :: rest ∧ fs[n - 1]? = some f ∧ 1 ≤ n ∧
      f.trackNumber = track := by
  obtain ⟨before, after, rfl, rfl, ht, hb⟩ := h
  refine ⟨after.map (Frame.asWatched scale), ?_, by simp, by simp, by omega, ht⟩
  rw [List.map_append, List.dropWhile_append, dropWhile_none hb]
  rw [List.isEmpty_nil, if_pos rfl, List.map_cons, List.dropWhile_cons_of_neg (by simp [asWatched_track, ht])]

/-- One place for each cue. -/
theorem cues_places {cs : List (Nat × ClusterOf)} {q : List Cue} (h : CuesOf scale track numbered cs q) :
    q.length = (landings track (watchedClusters scale cs)).length ∧
    ∀ (i : Nat) (c : Cue), q[i]? = some c → ∃ k off cl n f rest, cs[k]? = some (off, cl) ∧ FirstBlock track cl.frames n f ∧
      c = ⟨f.timestamp / scale, track, off, if numbered = true ∧ 1 < n then some n else none⟩ ∧
      (landings track (watchedClusters scale cs))[i]? = some (f.asWatched scale :: rest) ∧
      f.asWatched scale :: rest =
        (cl.frames.drop (n - 1) ++ ((cs.drop (k + 1)).map fun c => c.2.frames).flatten).map (Frame.asWatched scale) := by
  induction h with
  | nil => exact ⟨rfl, fun i c hc => by cases hc⟩
  | skip h hr ih =>
    rename_i off cl cs q
    have e : landings track (watchedClusters scale ((off, cl) :: cs)) = landings track (watchedClusters scale cs) := by
      show landings track (cl.frames.map (Frame.asWatched scale) :: watchedClusters scale cs) = _
      rw [landings, dropWhile_none h]
    rw [e]
    refine ⟨ih.1, fun i c hc => ?_⟩
    obtain ⟨k, off', cl', n, f, rest, a1, a2, a3, a4, a5⟩ := ih.2 i c hc
    exact ⟨k + 1, off', cl', n, f, rest, by simpa using a1, a2, a3, a4, by simpa using a5⟩
  | cue h hr ih =>
    rename_i off n f cl cs q
    obtain ⟨rest, d1, d2, d3, d4, d5⟩ := dropWhile_first (scale := scale) h
    have e : landings track (watchedClusters scale ((off, cl) :: cs)) =
        ((f.asWatched scale :: rest) ++ (watchedClusters scale cs).flatten) :: landings track (watchedClusters scale cs) := by
      show landings track (cl.frames.map (Frame.asWatched scale) :: watchedClusters scale cs) = _
      rw [landings, d1]
    rw [e]
    refine ⟨by simp [ih.1], fun i c hc => ?_⟩
    cases i with
    | zero =>
      simp only [List.getElem?_cons_zero, Option.some.injEq] at hc
      subst hc
      refine ⟨0, off, cl, n, f, rest ++ (watchedClusters scale cs).flatten, rfl, h, rfl, rfl, ?_⟩
      rw [← List.cons_append, ← d2, watchedClusters_flatten, ← List.map_append]
      rfl
    | succ i =>
      obtain ⟨k, off', cl', n, f, rest, a1, a2, a3, a4, a5⟩ := ih.2 i c (by simpa using hc)
      exact ⟨k + 1, off', cl', n, f, rest, by simpa using a1, a2, a3, by simpa using a4, by simpa using a5⟩

/-- The times of the cues are times of frames of the track, in the order of the file. -/
theorem cues_times {cs : List (Nat × ClusterOf)} {q : List Cue} (h : CuesOf scale track numbered cs q) :
    ∃ fs : List SeenFrame, fs.Sublist ((watchedClusters scale cs).flatten.filter fun f => decide (f.track = track)) ∧
      q.map (fun c => (c.time : Int)) = fs.map (·.time) := by
  induction h with
  | nil => exact ⟨[], List.nil_sublist _, rfl⟩
  | skip h hr ih =>
    rename_i off cl cs q
    obtain ⟨fs, h1, h2⟩ := ih
    refine ⟨fs, ?_, h2⟩
    show fs.Sublist ((cl.frames.map (Frame.asWatched scale) :: watchedClusters scale cs).flatten.filter _)
    rw [List.flatten_cons, List.filter_append]
    exact h1.trans (List.sublist_append_right _ _)
  | cue h hr ih =>
    rename_i off n f cl cs q
    obtain ⟨fs, h1, h2⟩ := ih
    refine ⟨f.asWatched scale :: fs, ?_, by rw [List.map_cons, List.map_cons, h2]; rfl⟩
    show (f.asWatched scale :: fs).Sublist ((cl.frames.map (Frame.asWatched scale) :: watchedClusters scale cs).flatten.filter _)
    rw [List.flatten_cons, List.filter_append]
    obtain ⟨before, after, e, -, ht, -⟩ := h
    refine List.Sublist.append (l₁ := [f.asWatched scale]) ?_ h1
    rw [List.singleton_sublist, List.mem_filter]
    exact ⟨List.mem_map_of_mem (by rw [e]; simp), by simp [asWatched_track, ht]⟩

theorem track_pos {tc : Nat} {fs : List Frame} {bs : Bytes} (h : Blocks tc scale fs bs) : ∀ f ∈ fs, 1 ≤ f.trackNumber := by
  induction h with
  | nil => simp
  | cons h _ ih =>
    intro g hg
    rcases List.mem_cons.mp hg with rfl | hg
    · exact h.2.2.2.1
    · exact ih g hg

theorem cues_readable {cs : List (Nat × ClusterOf)} {q : List Cue}
    (hq : CuesOf scale track numbered cs q) : ∀ {off : Nat} {sized : Bool} {bs : Bytes}, ClustersAt scale sized off cs bs →
    off + bs.length < 2 ^ 48 → (∀ f ∈ clusterFrames cs, Fine scale f) → ∀ c ∈ q, Readable c := by
  induction hq with
  | nil => intro _ _ _ _ _ _ c hc; cases hc
  | skip h hr ih =>
    intro off sized bs hc hl ht
    cases hc with
    | cons h' hr' =>
      rw [List.length_append] at hl
      exact ih hr' (by omega) fun f hf => ht f (by simp only [clusterFrames] at hf ⊢; simp [hf])
  | cue h hr ih =>
    intro off sized bs hc hl ht
    cases hc with
    | cons h' hr' =>
      rename_i n f c cs q b bs
      rw [List.length_append] at hl
      intro x hx
      rcases List.mem_cons.mp hx with rfl | hx
      · obtain ⟨body, ⟨w, blocks, -, -, -, hb, rfl⟩, -, rfl⟩ := h'
        obtain ⟨b1, b2⟩ := blocks_facts hb
        obtain ⟨before, after, e, hn, htr, -⟩ := h
        have hf : f ∈ c.frames := by rw [e]; simp
        have hlen := congrArg List.length e
        simp only [List.length_append, List.length_cons] at hlen hl
        have h126 := b2 f hf
        have h1 := track_pos hb f hf
        have htime := (ht f (by simp [clusterFrames, hf])).time
        refine ⟨htime, by simp only; omega, by simp only; omega, by simp only; omega, ?_⟩
        intro x hx
        simp only at hx
        split at hx
        · cases hx; omega
        · cases hx
      · exact ih hr' (by omega) (fun f hf => ht f (by simp only [clusterFrames] at hf ⊢; simp [hf])) x hx

theorem clusters_ordered {sized : Bool} {off : Nat} {cs : List (Nat × ClusterOf)} {bs : Bytes} (h : ClustersAt scale sized off cs bs) :
    (cs.map (·.1)).Pairwise (· < ·) ∧ ∀ c ∈ cs, off ≤ c.1 := by
  induction h with
  | nil => exact ⟨.nil, by simp⟩
  | cons h hr ih =>
    rename_i off c cs b bs
    have hb : 0 < b.length := by
      obtain ⟨body, -, -, rfl⟩ := h
      simp [clusterId]
    constructor
    · rw [List.map_cons, List.pairwise_cons]
      refine ⟨fun x hx => ?_, ih.1⟩
      obtain ⟨y, hy, rfl⟩ := List.mem_map.mp hx
      have := ih.2 y hy
      simp only
      omega
    · intro x hx
      rcases List.mem_cons.mp hx with rfl | hx
      · exact Nat.le_refl _
      · have := ih.2 x hx; omega

/-! ### Where a seek should arrive -/

theorem landing_at {time i : Nat} {cs : List (List SeenFrame)} {l : List SeenFrame}
    (hl : (landings track cs)[i]? = some l)
    (hord : ∀ (i j : Nat) a b, i ≤ j → (landings track cs)[i]? = some a → (landings track cs)[j]? = some b →
      startTime scale a ≤ startTime scale b)
    (h1 : (∀ d ∈ landings track cs, (time : Int) ≤ startTime scale d) → i = 0)
    (h2 : (∃ d ∈ landings track cs, startTime scale d < time) → startTime scale l ≤ time ∧
      ∀ k d, i < k → (landings track cs)[k]? = some d → (time : Int) < startTime scale d) :
    landing scale track time cs = some l := by
  unfold landing
  generalize landings track cs = ls at *
  cases ls with
  | nil => cases hl
  | cons a ls =>
    simp only
    by_cases h : (time : Int) ≤ startTime scale a
    · rw [if_pos h]
      have : i = 0 := h1 fun d hd => by
        obtain ⟨k, hk⟩ := List.getElem?_of_mem hd
        have := hord 0 k a d (by omega) rfl hk
        omega
      subst this
      exact hl
    · rw [if_neg h]
      obtain ⟨b1, b2⟩ := h2 ⟨a, by simp, by omega⟩
      generalize hall : a :: ls = all at *
      have hi := (List.getElem?_eq_some_iff.mp hl).1
      rw [← List.take_append_drop (i + 1) all, List.filter_append, List.filter_eq_self.mpr, List.filter_eq_nil_iff.mpr,
        List.append_nil, List.getLast?_eq_getElem?, List.length_take, Nat.min_eq_left (by omega),
        List.getElem?_take_of_lt (by omega)]
      · exact hl
      · intro d hd
        obtain ⟨k, hk⟩ := List.getElem?_of_mem hd
        rw [List.getElem?_drop] at hk
        have := b2 _ d (by omega) hk
        simp only [decide_eq_true_eq]
        omega
      · intro d hd
        obtain ⟨k, hk⟩ := List.getElem?_of_mem hd
        have hkl := (List.getElem?_eq_some_iff.mp hk).1
        rw [List.length_take] at hkl
        rw [List.getElem?_take_of_lt (by omega)] at hk
        have := hord k i d l (by omega) hk hl
        simp only [decide_eq_true_eq]
        omega

/-- What `Cues::Find` answers for cue points that are those of the clusters: the place where the seek should arrive. -/
theorem finds_place {cs : List (Nat × ClusterOf)} {q : List Cue} (hq : CuesOf scale track numbered cs q)
    (hnum : numbered = true ∨ ∀ f ∈ (watchedClusters scale cs).flatten, f.track = track) (hscale : 1 ≤ scale)
    (hord : ((watchedClusters scale cs).flatten.filter fun f => decide (f.track = track)).Pairwise fun a b => a.time ≤ b.time)
    (hmax : ∀ f ∈ (watchedClusters scale cs).flatten, f.time * scale ≤ llongMax)
    {p : Par.Cues} (l2 : p.points = q.map loadedCue) (l3 : p.count = q.length) (time : Nat) :
    (landing scale track time (watchedClusters scale cs) = none ∧ p.find scale time track = .ok none) ∨
    ∃ (k off n : Nat) (cl : ClusterOf) (f : Frame) (cp : Par.CuePoint) (tp : TrackPosition), cs[k]? = some (off, cl) ∧
      cl.frames[n]? = some f ∧ p.find scale time track = .ok (some (cp, tp)) ∧ tp.pos = (off : Int) ∧
      tp.block = (n : Int) + 1 ∧ tp.track = f.trackNumber ∧ cp.timecode = ((f.timestamp / scale : Nat) : Int) ∧
      landing scale track time (watchedClusters scale cs) =
        some ((cl.frames.drop n ++ ((cs.drop (k + 1)).map fun c => c.2.frames).flatten).map (Frame.asWatched scale)) := by
  obtain ⟨p1, p2⟩ := cues_places hq
  cases hq0 : q with
  | nil =>
    subst hq0
    have : landings track (watchedClusters scale cs) = [] := List.length_eq_zero_iff.mp p1.symm
    refine .inl ⟨?_, ?_⟩
    · unfold landing
      rw [this]
    · unfold Par.Cues.find
      rw [if_pos (.inr (.inl l2))]
  | cons c0 q0 =>
    right
    -- the key of each place
    have hkey : ∀ (i : Nat) (c : Cue), q[i]? = some c → ∃ l, (landings track (watchedClusters scale cs))[i]? = some l ∧
        startTime scale l = scale * (c.time : Int) := by
      intro i c hc
      obtain ⟨k, off', cl, n, f, rest, a1, a2, a3, a4, a5⟩ := p2 i c hc
      refine ⟨_, a4, ?_⟩
      subst a3
      simp only [startTime, List.head?_cons, Option.elim, asWatched_time]
      rw [Int.mul_comm]
    have hkey' : ∀ (i : Nat) (l : List SeenFrame), (landings track (watchedClusters scale cs))[i]? = some l → ∃ c, q[i]? = some c ∧
        startTime scale l = scale * (c.time : Int) := by
      intro i l hl
      have hi := (List.getElem?_eq_some_iff.mp hl).1
      rw [← p1] at hi
      obtain ⟨l', e1, e2⟩ := hkey i q[i] (List.getElem?_eq_getElem hi)
      rw [hl] at e1
      cases e1
      exact ⟨_, List.getElem?_eq_getElem hi, e2⟩
    obtain ⟨fs, s1, s2⟩ := cues_times hq
    have hsorted : (q.map fun c => (c.time : Int)).Pairwise (· ≤ ·) := by
      rw [s2, List.pairwise_map]
      exact hord.sublist s1
    have htimes : ∀ c ∈ q, (scale : Int) * (c.time : Int) ≤ llongMax := by
      intro c hc
      have : (c.time : Int) ∈ fs.map (·.time) := by rw [← s2]; exact List.mem_map_of_mem (f := fun c : Cue => (c.time : Int)) hc
      obtain ⟨f, hf, e⟩ := List.mem_map.mp this
      have := hmax f (List.mem_filter.mp (s1.subset hf)).1
      rw [e, Int.mul_comm] at this
      exact this
    have hle : ∀ (i j : Nat) (c d : Cue), i ≤ j → q[i]? = some c → q[j]? = some d → c.time ≤ d.time := by
      intro i j c d hij hc hd
      obtain ⟨i1, i2⟩ := List.getElem?_eq_some_iff.mp hc
      obtain ⟨j1, j2⟩ := List.getElem?_eq_some_iff.mp hd
      rcases Nat.lt_or_ge i j with hlt | hge
      · have := List.pairwise_iff_getElem.mp hsorted i j (by simpa using i1) (by simpa using j1) hlt
        simp only [List.getElem_map, i2, j2] at this
        omega
      · have : i = j := by omega
        subst this
        rw [hc] at hd
        cases hd
        exact Nat.le_refl _
    have hget : ∀ (i : Nat) (c : Par.CuePoint), (q.map loadedCue)[i]? = some c → ∃ d, q[i]? = some d ∧ c = loadedCue d := by
      intro i c hc
      rw [List.getElem?_map] at hc
      cases hx : q[i]? with
      | none => rw [hx] at hc; cases hc
      | some d => rw [hx] at hc; cases hc; exact ⟨d, rfl, rfl⟩
    obtain ⟨i, c, f1, f2, f3, f4⟩ := C28_find (q := p) (ps := q.map loadedCue) (scale := scale) (time := time) track
      (by rw [l2, l3]; exact List.take_of_length_le (by simp)) (by rw [List.length_map, l3]) (by rw [hq0]; simp) (by omega)
      (by
        intro c hc
        obtain ⟨d, hd, rfl⟩ := List.mem_map.mp hc
        exact ⟨by simp only [loadedCue]; omega, htimes d hd⟩)
      (by
        intro i j c d hij hc hd
        obtain ⟨c', hc', rfl⟩ := hget i c hc
        obtain ⟨d', hd', rfl⟩ := hget j d hd
        have := hle i j c' d' hij hc' hd'
        simp only [loadedCue]
        omega) (by omega)
    obtain ⟨d, d1, rfl⟩ := hget i c f1
    obtain ⟨k, off', cl, n, f, rest, a1, a2, a3, a4, a5⟩ := p2 i d d1
    obtain ⟨l, k1, k2⟩ := hkey i d d1
    have hl : landing scale track time (watchedClusters scale cs) = some l := by
      refine landing_at k1 ?_ ?_ ?_
      · intro i j a b hij ha hb
        obtain ⟨x, x1, x2⟩ := hkey' i a ha
        obtain ⟨y, y1, y2⟩ := hkey' j b hb
        rw [x2, y2]
        exact Int.mul_le_mul_of_nonneg_left (by exact_mod_cast hle i j x y hij x1 y1) (by omega)
      · intro hall
        refine f3 fun e he => ?_
        obtain ⟨e', he', rfl⟩ := List.mem_map.mp he
        obtain ⟨j, hj⟩ := List.getElem?_of_mem he'
        obtain ⟨l', b1, b2⟩ := hkey j e' hj
        have := hall l' (List.mem_of_getElem? b1)
        rw [b2] at this
        exact this
      · rintro ⟨e, he, hlt⟩
        obtain ⟨j, hj⟩ := List.getElem?_of_mem he
        obtain ⟨x, x1, x2⟩ := hkey' j e hj
        obtain ⟨t1, t2⟩ := f4 ⟨loadedCue x, List.mem_map_of_mem (List.mem_of_getElem? x1), by rw [x2] at hlt; exact hlt⟩
        refine ⟨by rw [k2]; exact t1, fun j' e' hj' he' => ?_⟩
        obtain ⟨y, y1, y2⟩ := hkey' j' e' he'
        have := t2 j' (loadedCue y) hj' (by rw [List.getElem?_map, y1]; rfl)
        rw [y2]
        exact this
    rw [k1] at a4
    cases a4
    -- the block
    obtain ⟨_, g1, g2, g3, g4, g5⟩ := dropWhile_first (scale := scale) a2
    have hblock : blockOf d.block = (n - 1 : Nat) + 1 := by
      rw [a3]
      simp only
      rcases hnum with hn | hn
      · rw [hn]
        by_cases h1 : 1 < n
        · rw [if_pos ⟨rfl, h1⟩]
          simp only [blockOf]
          omega
        · rw [if_neg (fun h => h1 h.2)]
          simp only [blockOf]
          omega
      · have : n = 1 := by
          obtain ⟨before, after, e, en, -, hb⟩ := a2
          cases before with
          | nil => simpa using en
          | cons b bs =>
            exfalso
            refine hb b (by simp) (hn (b.asWatched scale) ?_)
            rw [watchedClusters_flatten]
            refine List.mem_map_of_mem ?_
            simp only [clusterFrames, List.mem_flatten, List.mem_map]
            exact ⟨cl.frames, ⟨_, List.mem_of_getElem? a1, rfl⟩, by rw [e]; simp⟩
        subst this
        rw [if_neg (by omega)]
        simp [blockOf]
    have hfind : ((loadedCue d).positions.find? fun p => decide (p.track = (track : Int))) = some ⟨d.track, d.pos, blockOf d.block⟩ := by
      simp only [loadedCue]
      rw [List.find?_cons_of_pos (by rw [a3]; simp)]
    refine ⟨k, off', n - 1, cl, f, loadedCue d, ⟨d.track, d.pos, blockOf d.block⟩, a1, g3, by rw [f2, hfind]; rfl, by rw [a3],
      by simp only; rw [hblock]; omega, by rw [a3, g5], by rw [a3]; rfl, ?_⟩
    rw [hl, a5]

/-- Seeking in a file with these clusters and their cues. -/
theorem seeks_file {file : Bytes} {h : Shown} {cs : List (Nat × ClusterOf)} {cues : Option (Nat × Bytes)} {q : List Cue}
    {off : Nat} {sized : Bool} {bs : Bytes} (ho : Opens file h scale cs cues)
    (hc : (∃ at', cues = some (at', Spec.cuesPayload q) ∧ 0 < at') ∨ (cues = none ∧ q = []))
    (hcs : ClustersAt scale sized off cs bs) (hsm : off + bs.length < 2 ^ 48) (hq : CuesOf scale track numbered cs q)
    (hnum : numbered = true ∨ ∀ f ∈ (watchedClusters scale cs).flatten, f.track = track)
    (hfine : ∀ f ∈ clusterFrames cs, Fine scale f) (hscale : 1 ≤ scale) (hinfo : h.info.timecodeScale = scale)
    (hord : ((watchedClusters scale cs).flatten.filter fun f => decide (f.track = track)).Pairwise fun a b => a.time ≤ b.time)
    (hmax : ∀ f ∈ (watchedClusters scale cs).flatten, f.time * scale ≤ llongMax) :
    SeeksAs file scale track (watchedClusters scale cs) := by
  intro r hr htotal fuel hfuel
  obtain ⟨pos, head, g, g', h1, -, h3, h4, h5, -, -, -, h9, h10, h11, h12, h13, -⟩ := ho r hr htotal fuel hfuel
  have hw : r.Whole := by unfold Rdr.Whole; rw [htotal, hr]
  have hlens : ∀ fs ∈ cs.map (fun c => (g'.start + c.1, c.2)), fs.2.frames.length < fuel := by
    intro fs hfs
    obtain ⟨c, hc, rfl⟩ := List.mem_map.mp hfs
    have := h12 c hc
    simp only
    omega
  refine ⟨pos, head, g, g', h1, h3, h4, ?_, ?_⟩
  · rw [h9.watched hw fun fs hfs => Nat.le_of_lt (hlens fs hfs)]
    simp only [watchedClusters, List.map_map, Function.comp_def]
  intro time
  obtain ⟨p1, p2⟩ := cues_places hq
  rcases hc with ⟨at', rfl, hat⟩ | ⟨rfl, rfl⟩
  case inr =>
    have : landings track (watchedClusters scale cs) = [] := List.length_eq_zero_iff.mp p1.symm
    unfold seekTo landing
    rw [h10, this]
    rfl
  have hread := cues_readable hq hcs hsm hfine
  have hpl := h11 (at', Spec.cuesPayload q) rfl
  simp only at hpl
  have hcount := cuesPayload_count q
  have hfit : (Spec.cuesPayload q).length ≤ file.length := by
    by_cases h0 : Spec.cuesPayload q = []
    · rw [h0]; simp
    · have := hpl.le h0
      rw [hr] at this
      omega
  obtain ⟨p, l1, l2, l3⟩ := loadCuePoints_ok (fuel := fuel) (by omega) hread hpl (by omega)
  have hseek : seekTo r fuel g' time track = (do
      match ← p.find scale time track with
      | none => .ok none
      | some (cp, tp) => do
        match ← g'.getBlock r fuel cp tp with
        | (g, .entry k idx e) => do
          let fs ← playOn r fuel g k idx e
          .ok (some fs)
        | _ => .ok none) := by
    unfold seekTo
    rw [h10, h5]
    simp only [Option.map_some]
    rw [l1, Res.bind_ok, hinfo]
    rfl
  rw [hseek]
  rcases finds_place hq hnum hscale hord hmax l2 l3 time with ⟨e1, e2⟩ | ⟨k, off', n, cl, f, cp, tp, a1, a2, a3, a4, a5, a6, a7, a8⟩
  · rw [e1, e2, Res.bind_ok]
  · obtain ⟨o1, o2⟩ := clusters_ordered hcs
    obtain ⟨g2', e, b1, b2⟩ := getBlock_ok hw h9 (fuel := fuel) (k := k) (i := n) (x := (g'.start + off', cl)) (f := f)
      (by rw [List.getElem?_map, a1]; rfl) a2 hlens (by rw [List.length_map]; omega)
      (by
        rw [List.map_map, List.pairwise_map]
        rw [List.pairwise_map] at o1
        exact o1.imp fun h => by simp only [Function.comp]; omega)
      (by
        intro y hy
        obtain ⟨c, -, rfl⟩ := List.mem_map.mp hy
        simp only
        omega)
      (cp := cp) (tp := tp)
      (by rw [a4]; simp only; omega) a5 a6 a7
    rw [a3]
    simp only [Res.bind_ok]
    rw [b1, Res.bind_ok]
    simp only
    rw [b2, Res.bind_ok]
    rw [← List.map_drop, List.map_map]
    simp only [Function.comp_def]
    rw [a8]

end

end Verif.Props
