/-
C66: whatever the bytes of a file, and whatever calls an application makes, mkvparser does not go wrong.
-/
import Verif.Lemmas.AnyFile

namespace Verif.Props
open Verif Verif.Par Verif.Spec

/-! ### A file -/

/-- A file of 126 bytes: a video track, two clusters with a block each, and a timecode scale of 2^62 ns. -/
private def strange : Bytes := [
  0x1A, 0x45, 0xDF, 0xA3, 0x9F, 0x42, 0x86, 0x81, 0x01, 0x42, 0xF7, 0x81, 0x01, 0x42, 0xF2, 0x81, 0x04, 0x42, 0xF3, 0x81,
  0x08, 0x42, 0x82, 0x84, 0x77, 0x65, 0x62, 0x6D, 0x42, 0x87, 0x81, 0x04, 0x42, 0x85, 0x81, 0x02, 0x18, 0x53, 0x80, 0x67,
  0x40, 0x54, 0x15, 0x49, 0xA9, 0x66, 0x94, 0x2A, 0xD7, 0xB1, 0x88, 0x40, 0x00, 0x00, 0x00, 0x00, 0x00, 0x00, 0x00, 0x4D,
  0x80, 0x81, 0x6D, 0x57, 0x41, 0x81, 0x77, 0x16, 0x54, 0xAE, 0x6B, 0x97, 0xAE, 0x95, 0xD7, 0x81, 0x01, 0x73, 0xC5, 0x81,
  0x01, 0x83, 0x81, 0x01, 0x86, 0x81, 0x56, 0xE0, 0x86, 0xB0, 0x81, 0x01, 0xBA, 0x81, 0x01, 0x1F, 0x43, 0xB6, 0x75, 0x8A,
  0xE7, 0x81, 0x01, 0xA3, 0x85, 0x81, 0x00, 0x00, 0x80, 0x07, 0x1F, 0x43, 0xB6, 0x75, 0x8B, 0xE7, 0x81, 0x02, 0xA3, 0x86,
  0x81, 0x00, 0x00, 0x80, 0x09, 0x0A]

private def open' (file : Bytes) : Rdr := ⟨file, -1, by decide, file.length⟩

private theorem opened (file : Bytes) : Opened (open' file) file := ⟨rfl, rfl, by simp [open']⟩

/-- The answers to some calls after opening a file, by what they are: an error, nothing handed out, or the payloads
of the frames of the entry handed out. -/
private def seen (file : Bytes) (calls : List ApiCall) : Option (List (Option (Option (List Bytes)))) :=
  match createInstance (open' file) 36 with
  | .ok g => some ((answers (open' file) (file.length + 1) g calls).map fun x =>
    match x with
    | .ok none => some none
    | .ok (some e) => some (some (e.block.frames.map fun f => (file.drop f.pos).take f.len))
    | _ => none)
  | _ => none

/-! ### Any file, any calls -/

/-- C66: for every file, every place to look for a segment, and every series of calls of `ParseHeaders`,
`LoadCluster`, `Load`, of `GetTimeCode`, `GetFirst`, `GetNext`, `GetLast` on the clusters handed out so far, and of
`Track::GetFirst` and `Track::GetNext`: nothing undefined happens, no call fails to return, and every frame handed out is inside the file and can be read.

Missing for the full property: the times in nanoseconds (see `C66_cluster_time` and the counterexamples below), a
reader that gets the file piece by piece, and the calls not listed. -/
theorem C66_any_file_partial {r : Rdr} {file : Bytes} (ho : Opened r file) {fuel : Nat} (hf : file.length < fuel) :
    ebmlHeadParse r ≠ .ub ∧
    ∀ pos, createInstance r pos ≠ .ub ∧
      ∀ g, createInstance r pos = .ok g → ∀ calls, ∀ x ∈ answers r fuel g calls, Sound r file x :=
  ⟨ebmlHeadParse_safe ho.fails, fun pos => ⟨createInstance_safe r pos,
    fun _ hg calls x hx => answers_sound ho hf calls (createInstance_state hg) x hx⟩⟩

example : seen strange [.first 0, .headers, .headers, .loadCluster, .loadCluster, .next 0 5, .first 0, .next 0 0, .last 1,
      .timeCode 1, .loadCluster, .load] =
    some [some none, some none, some none, some none, some none, some none, some (some [[7]]), some none,
      some (some [[9, 10]]), some none, some none, none] := by decide +kernel

-- with calls on the track
example : seen strange [.trackFirst 0, .headers, .trackFirst 0, .loadCluster, .trackFirst 0, .trackNext 0 0 0, .loadCluster,
      .trackNext 0 0 0, .trackNext 0 1 0, .trackNext 0 1 5, .trackFirst 1] =
    some [some none, some none, none, some none, some (some [[7]]), none, some none, some (some [[9, 10]]), some none, some none,
      some none] := by decide +kernel

-- the end of the file is missing
example : seen (strange.take 125) [.headers, .loadCluster, .loadCluster, .last 0, .last 1, .load] =
    some [some none, some none, some none, some (some [[7]]), some none, none] := by decide +kernel

-- the first cluster has no timecode
example : seen (strange.set 100 0xE6) [.headers, .loadCluster, .loadCluster, .first 0, .last 0, .last 1] =
    some [some none, some none, some none, none, none, some (some [[9, 10]])] := by decide +kernel

/-- C66, a whole player: `Load`, and then for every cluster, entry and frame, in order, the time code and the
payload, as mkvparser_sample.cc does: whatever the file, nothing undefined happens. -/
theorem C66_shown {r : Rdr} {file : Bytes} (ho : Opened r file) {fuel : Nat} (hf : file.length < fuel) {pos : Nat}
    {g : ReadSegment} (hg : createInstance r pos = .ok g) :
    (g.load r fuel).2 ≠ .ub ∧ watch r fuel (g.load r fuel).1 ≠ .ub := by
  have hok := createInstance_state hg
  have hw : r.Whole := by unfold Rdr.Whole; rw [ho.total, ho.data]
  have hf' : r.data.length < fuel := by rw [ho.data]; exact hf
  have h := perform_ok ho hf hok .load
  refine ⟨fun e => h.1.1 ?_, watch_safe ho.fails hw hf' h.2⟩
  show Res.map _ _ = _
  rw [e]
  rfl

/-- C66, cues: however often `LoadCuePoint` is called on a Cues element of any file, nothing undefined happens; and
nothing undefined happens when a cue point is looked for, as long as no time in nanoseconds exceeds the range of
`long long`. -/
theorem C66_cues {r : Rdr} {file : Bytes} (ho : Opened r file) {start : Nat} (hs : 0 < start) (size n : Nat) :
    loadCues r n (Cues.new start size) ≠ .ub ∧
    ∀ q, loadCues r n (Cues.new start size) = .ok q → ∀ scale time track,
      (∀ c ∈ q.points, scale * c.timecode ≤ llongMax) → q.find scale time track ≠ .ub := by
  have h0 : (Cues.new start size).Ok := ⟨hs, by simp [Cues.new], by simp [Cues.new], fun i c hi => by simp [Cues.new] at hi⟩
  obtain ⟨h1, h2⟩ := loadCues_ok ho.fails n h0
  exact ⟨h1, fun q hq scale time track hsc => (h2 q hq).find hsc⟩

/-- C66, times of clusters: `Cluster::GetTime` on any cluster of a segment whose information has been read is
defined exactly if the time in nanoseconds is in the range of `long long`. -/
theorem C66_cluster_time {r : Rdr} {file : Bytes} (ho : Opened r file) (c : ReadCluster) {i : ReadInfo} {start size : Nat}
    (hi : infoParse r start size = .ok i) :
    c.getTime r (some i.timecodeScale) = .ub ↔
      ∃ c' t, c.getTimeCode r = .ok (c', t) ∧ 0 ≤ t ∧ 2 ^ 63 ≤ t * i.timecodeScale := by
  have hsc := infoParse_scale hi
  unfold ReadCluster.getTime
  have hsafe : c.getTimeCode r ≠ .ub := by
    unfold ReadCluster.getTimeCode
    have := c.load_safe ho.fails
    cases hl : c.load r with
    | ok c' => exact fun e => by cases e
    | err e => exact fun e => by cases e
    | ub => exact absurd hl this
  cases ht : c.getTimeCode r with
  | ub => exact absurd ht hsafe
  | err e => exact ⟨fun e => (by cases e), fun ⟨_, _, e, _⟩ => (by cases e)⟩
  | ok x =>
    obtain ⟨c', t⟩ := x
    show (if t < 0 then Res.ok t else if i.timecodeScale < 1 then .ub
      else if t * i.timecodeScale < 2 ^ 63 then .ok (t * i.timecodeScale) else .ub) = .ub ↔ _
    constructor
    · intro h
      split at h
      · cases h
      · rw [if_neg (by omega)] at h
        split at h
        · cases h
        · exact ⟨c', t, rfl, by omega, by omega⟩
    · rintro ⟨_, _, e, h1, h2⟩
      cases e
      rw [if_neg (by omega), if_neg (by omega), if_neg (by omega)]

/-! ### Times that do not fit -/

/-- The first cluster of a file and the scale of its times. -/
private def clusterTimes (file : Bytes) : Option (List (Res Int)) :=
  match createInstance (open' file) 36 with
  | .ok g =>
    let g' := (g.load (open' file) (file.length + 1)).1
    some (g'.clusters.map fun c => c.getTime (open' file) (g'.info.map (·.timecodeScale)))
  | _ => none

/-- C66 fails for `Cluster::GetTime`: with a file that says that a tick lasts 2^62 ns, the time of the cluster at
tick 2 is a signed overflow. -/
theorem C66_cluster_time_overflow : ∃ file, clusterTimes file = some [.ok (2 ^ 62), .ub] :=
  ⟨strange, by decide +kernel⟩

/-- C66 fails for `Chapters::Atom::GetStartTime`: a chapter that starts at tick 2 in such a file. -/
theorem C66_chapter_time_overflow : ∃ file : Bytes, ∃ a,
    chaptersParse (open' file) 0 file.length = .ok [[a]] ∧ a.start = 2 ∧
      ReadAtom.getTime (some (2 ^ 62)) a.start = .ub :=
  ⟨[0x45, 0xB9, 0x85, 0xB6, 0x83, 0x91, 0x81, 0x02], { start := 2 }, by decide +kernel⟩

/-- C66 fails for `Cues::Find`: a cue point at tick 2 in such a file.  It has been loaded without complaint. -/
theorem C66_cue_time_overflow : ∃ file : Bytes,
    loadCues (open' file) 1 (Cues.new 5 (file.length - 5)) ≠ .ub ∧
    (loadCues (open' file) 1 (Cues.new 5 (file.length - 5))).bind (fun q => q.find (2 ^ 62) 0 1) = .ub :=
  ⟨[0x1C, 0x53, 0xBB, 0x6B, 0x8D, 0xBB, 0x8B, 0xB3, 0x81, 0x02, 0xB7, 0x86, 0xF7, 0x81, 0x01, 0xF1, 0x81, 0x05],
    (C66_cues (opened _) (by decide) _ 1).1, by decide +kernel⟩

-- with another scale the cue point is found
example : (loadCues (open' [0x1C, 0x53, 0xBB, 0x6B, 0x8D, 0xBB, 0x8B, 0xB3, 0x81, 0x02, 0xB7, 0x86, 0xF7, 0x81, 0x01,
      0xF1, 0x81, 0x05]) 1 (Cues.new 5 13)).bind (fun q => (q.find 1000000 0 1).map fun x => x.map (·.1.timecode)) =
    .ok (some 2) := by decide +kernel

end Verif.Props
