/-
C23: moving the cues in front of the clusters.  C26: cue points round trip.  C28: looking up a cue.
-/
import Verif.Lemmas.ParserCues
import Verif.Lemmas.ParserFind

namespace Verif.Props
open Verif Spec

/-! ### C23 -/

private theorem lastIndex_eq {h : Mux.SeekHead} {id i : Nat} {p : Nat} (hh : h.entries.length = 5)
    (hi : h.entries[i]? = some (id, p)) (honly : ∀ k e, h.entries[k]? = some e → e.1 = id → k = i) :
    h.lastIndex id = i := by
  have hlt : i < 5 := by
    rcases Nat.lt_or_ge i 5 with h1 | h1
    · exact h1
    · rw [List.getElem?_eq_none (by omega)] at hi; cases hi
  have hk : ∀ k, k < 5 → (h.getId k = id ↔ k = i) := by
    intro k hk
    unfold Mux.SeekHead.getId
    cases hx : h.entries[k]? with
    | none =>
      rw [List.getElem?_eq_none_iff] at hx
      omega
    | some e =>
      simp only
      constructor
      · exact honly k e hx
      · intro h1
        subst h1
        rw [hi] at hx
        cases hx; rfl
  unfold Mux.SeekHead.lastIndex
  show List.foldl _ 0 [0, 1, 2, 3, 4] = i
  simp only [List.foldl_cons, List.foldl_nil, hk 0 (by omega), hk 1 (by omega), hk 2 (by omega),
    hk 3 (by omega), hk 4 (by omega)]
  have : i = 0 ∨ i = 1 ∨ i = 2 ∨ i = 3 ∨ i = 4 := by omega
  rcases this with rfl | rfl | rfl | rfl | rfl <;> decide

private theorem moveCues_seek {h : Mux.SeekHead} {i j first old size : Nat} (hh : h.entries.length = 5)
    (hfirst : first < 2 ^ 62) (hsize : size < 2 ^ 62)
    (hi : h.entries[i]? = some (0x1F43B675, first)) (hj : h.entries[j]? = some (0x1C53BB6B, old))
    (honly : ∀ k e, h.entries[k]? = some e → (e.1 = 0x1F43B675 → k = i) ∧ (e.1 = 0x1C53BB6B → k = j)) :
    h.moveCues size =
      { h with entries := (h.entries.set j (0x1C53BB6B, first)).set i (0x1F43B675, first + size) } := by
  have e1 := lastIndex_eq hh hi fun k e he => (honly k e he).1
  have e2 := lastIndex_eq hh hj fun k e he => (honly k e he).2
  have hjl : j < h.entries.length := by
    rcases Nat.lt_or_ge j h.entries.length with h1 | h1
    · exact h1
    · rw [List.getElem?_eq_none h1] at hj; cases hj
  unfold Mux.SeekHead.moveCues
  simp only [Mux.kMkvCues]
  rw [e1, e2]
  have g1 : h.getPosition i = first := by unfold Mux.SeekHead.getPosition; rw [hi]
  rw [g1]
  have g2 : (h.setSeekEntry j 0x1C53BB6B first).getPosition j = first := by
    unfold Mux.SeekHead.getPosition Mux.SeekHead.setSeekEntry
    simp [hjl]
  rw [g2, Nat.mod_eq_of_lt (by omega), Nat.add_comm]
  rfl

/-- C23, with a bound for the size of the Cues element. -/
theorem moving_cues {q : Mux.Cues} {h : Mux.SeekHead} {i j first old : Nat}
    (hn : q.entries.length < 2 ^ 31)
    (hr : ∀ c ∈ q.entries, c.InRange ∧ c.clusterPos < 2 ^ 62)
    (hh : h.entries.length = 5) (hfirst : first < 2 ^ 62)
    (hi : h.entries[i]? = some (0x1F43B675, first)) (hj : h.entries[j]? = some (0x1C53BB6B, old))
    (honly : ∀ k e, h.entries[k]? = some e → (e.1 = 0x1F43B675 → k = i) ∧ (e.1 = 0x1C53BB6B → k = j)) :
    ∃ q' h', (cuesElement (q'.entries.map Mux.CuePoint.cue)).length < 2 ^ 40 ∧ (∀ depth, 7 * q.entries.length < depth →
        Mux.moveCuesBeforeClusters depth q h = some (q', h')) ∧
      let size := (cuesElement (q'.entries.map Mux.CuePoint.cue)).length
      q'.entries = q.entries.map (fun c => { c with clusterPos := c.clusterPos + size }) ∧
      h' = { h with entries := (h.entries.set j (0x1C53BB6B, first)).set i (0x1F43B675, first + size) } := by
  obtain ⟨m, m1, m2, m3⟩ := Mux.Cues.move_spec (q := q) (depth := 7 * q.entries.length + 1) (by omega)
    (by omega) (fun c hc => by have := (hr c hc).2; omega)
  have hmap : m.cues = q.entries.map fun c =>
      { c with clusterPos := c.clusterPos + Mux.Cues.size { q with entries := m.cues } } := by
    conv => lhs; rw [m3]
    apply List.ext_getElem?
    intro k
    rw [Mux.shift_get, List.getElem?_map]
  have hrange : ∀ c ∈ m.cues, c.InRange := by
    intro c hc
    rw [hmap] at hc
    obtain ⟨d, hd, rfl⟩ := List.mem_map.mp hc
    obtain ⟨⟨a1, a2, a3, a4⟩, a5⟩ := hr d hd
    have hl : m.cues.length = q.entries.length := by rw [hmap, List.length_map]
    have hx := Mux.Cues.size_ext { q with entries := m.cues }
    have := Mux.ext_le m.cues
    simp only at hx
    exact ⟨a1, a2, by simp only; omega, a4⟩
  have hsize := Mux.Cues.size_bytes (q := { q with entries := m.cues }) hrange
  simp only at hsize
  rw [hsize] at hmap
  have hsmall : (cuesElement (m.cues.map Mux.CuePoint.cue)).length < 2 ^ 40 := by
    have hl : m.cues.length = q.entries.length := by rw [hmap, List.length_map]
    have hx := Mux.Cues.size_ext { q with entries := m.cues }
    have := Mux.ext_le m.cues
    simp only at hx
    omega
  refine ⟨{ q with entries := m.cues }, h.moveCues (Mux.Cues.size { q with entries := m.cues }),
    hsmall, fun depth hd => ?_, ?_⟩
  · unfold Mux.moveCuesBeforeClusters
    rw [Mux.Cues.move_mono m1 (by omega)]
  · refine ⟨hmap, ?_⟩
    rw [hsize]
    exact moveCues_seek hh hfirst (by omega) hi hj honly

/-- C23.  Take any cue points (fewer than `2^31`, the table is indexed with `int32_t`) with file
positions below `2^62`, and any seek head with an entry for the first cluster and one for the cues.
The recursion ends: its depth is at most seven times the number of cue points plus one, however the
code's result is observed (any larger bound gives the same answer).  Afterwards every cue point is
unchanged except that its cluster position has grown by the number of bytes the Cues element now
takes; the seek head gives the old place of the first cluster for the cues, and for the first
cluster that place plus the same number of bytes; the other seek entries are untouched. -/
theorem C23_moving_cues {q : Mux.Cues} {h : Mux.SeekHead} {i j first old : Nat}
    (hn : q.entries.length < 2 ^ 31)
    (hr : ∀ c ∈ q.entries, c.InRange ∧ c.clusterPos < 2 ^ 62)
    (hh : h.entries.length = 5) (hfirst : first < 2 ^ 62)
    (hi : h.entries[i]? = some (0x1F43B675, first)) (hj : h.entries[j]? = some (0x1C53BB6B, old))
    (honly : ∀ k e, h.entries[k]? = some e → (e.1 = 0x1F43B675 → k = i) ∧ (e.1 = 0x1C53BB6B → k = j)) :
    ∃ q' h', (∀ depth, 7 * q.entries.length < depth →
        Mux.moveCuesBeforeClusters depth q h = some (q', h')) ∧
      let size := (cuesElement (q'.entries.map Mux.CuePoint.cue)).length
      q'.entries = q.entries.map (fun c => { c with clusterPos := c.clusterPos + size }) ∧
      h' = { h with entries := (h.entries.set j (0x1C53BB6B, first)).set i (0x1F43B675, first + size) } := by
  obtain ⟨q', h', -, h1, h2⟩ := moving_cues hn hr hh hfirst hi hj honly
  exact ⟨q', h', h1, h2⟩

/-- Finding: when the seek head has no entry for the cues (all five slots taken, or the user turned
it off), the code overwrites the first slot, here the entry of the segment information. -/
theorem C23_missing_cues_entry_overwrites :
    ∃ q' h', Mux.moveCuesBeforeClusters 8 { entries := [{ track := 1, clusterPos := 300 }] }
        { entries := [(0x1549A966, 100), (0x1654AE6B, 200), (0x1F43B675, 300), (0, 0), (0, 0)] } =
        some (q', h') ∧
      h'.entries = [(0x1C53BB6B, 300), (0x1654AE6B, 200), (0x1F43B675, 319), (0, 0), (0, 0)] :=
  ⟨_, _, rfl, by decide +kernel⟩

/-! Non-vacuity: a position just below a width boundary makes its cue point grow while moving. -/

private def someCues : Mux.Cues :=
  { entries := [{ time := 0, track := 1, clusterPos := 250 }, { time := 5000, track := 1, clusterPos := 65534, blockNumber := 3 }] }

private def someHead : Mux.SeekHead :=
  { entries := [(0x1549A966, 100), (0x1654AE6B, 200), (0x1F43B675, 300), (0x1C53BB6B, 70000), (0, 0)] }

example : (∀ c ∈ someCues.entries, c.InRange ∧ c.clusterPos < 2 ^ 62) ∧
    someHead.entries.length = 5 ∧ someHead.entries[2]? = some (0x1F43B675, 300) ∧
    someHead.entries[3]? = some (0x1C53BB6B, 70000) ∧
    (∀ k e, someHead.entries[k]? = some e → (e.1 = 0x1F43B675 → k = 2) ∧ (e.1 = 0x1C53BB6B → k = 3)) := by
  refine ⟨?_, rfl, rfl, rfl, ?_⟩
  · intro c hc
    simp only [someCues, List.mem_cons, List.not_mem_nil, or_false] at hc
    rcases hc with rfl | rfl <;> exact ⟨⟨by decide, by decide, by decide, by decide⟩, by decide⟩
  · intro k e hk
    match k with
    | 0 => cases hk; decide
    | 1 => cases hk; decide
    | 2 => cases hk; decide
    | 3 => cases hk; decide
    | 4 => cases hk; decide
    | k + 5 => simp [someHead] at hk

example : someCues.size = 37 ∧ ∃ q' h', Mux.moveCuesBeforeClusters 15 someCues someHead = some (q', h') ∧
    q'.size = 39 ∧ q'.entries.map (·.clusterPos) = [289, 65573] :=
  ⟨by decide +kernel, _, _, rfl, by decide +kernel, by decide +kernel⟩

/-! ### C26 -/

/-- Calling `LoadCuePoint` `n` times, each call answering true. -/
def loadTimes (r : Par.Rdr) : Nat → Par.Cues → Option Par.Cues
  | 0, q => some q
  | n + 1, q =>
    match q.loadCuePoint r with
    | .ok (true, q') => loadTimes r n q'
    | _ => none

/-- What a reader should report for a cue point: time, and one position with track, cluster
position and block number (1 unless a larger one was to be written). -/
def reported (c : Mux.CuePoint) : Par.CuePoint :=
  ⟨c.time, [⟨c.track, c.clusterPos, if c.outputBlockNumber ∧ 1 < c.blockNumber then c.blockNumber else 1⟩]⟩

private theorem reported_eq (c : Mux.CuePoint) : reported c = Par.loadedCue c.cue := by
  unfold reported Par.loadedCue Mux.CuePoint.cue Mux.CuePoint.block Mux.CuePoint.numbered
  cases c.outputBlockNumber <;> by_cases h : 1 < c.blockNumber <;> simp [h, Par.blockOf]

/-- A cue point with numbers a reader can hold. -/
structure Plain (c : Mux.CuePoint) : Prop where
  time : c.time < 2 ^ 63
  track1 : 1 ≤ c.track
  track : c.track < 2 ^ 63
  pos1 : 1 ≤ c.clusterPos
  pos : c.clusterPos < 2 ^ 63
  number : c.blockNumber < 2 ^ 63

private theorem Plain.inRange {c : Mux.CuePoint} (h : Plain c) : c.InRange := by
  obtain ⟨a, b, d, e, f, g⟩ := h
  exact ⟨by omega, by omega, by omega, by omega⟩

private theorem Plain.readable {c : Mux.CuePoint} (h : Plain c) : Par.Readable c.cue := by
  obtain ⟨a, b, d, e, f, g⟩ := h
  refine ⟨a, b, d, f, fun x hx => ?_⟩
  simp only [Mux.CuePoint.cue, Mux.CuePoint.block] at hx
  split at hx
  · cases hx; exact g
  · cases hx

private theorem loadTimes_at {r : Par.Rdr} : ∀ (rest done : List Cue) (q : Par.Cues),
    q.points = done.map Par.loadedCue ++ Par.preloaded q.pos rest → q.points ≠ [] →
    q.count = done.length → 0 < q.pos → (∀ c ∈ rest, Par.Readable c) →
    At r.data q.pos (Spec.cuesPayload rest) → q.start + q.size = q.pos + (Spec.cuesPayload rest).length →
    ∃ q', loadTimes r rest.length q = some q' ∧ q'.points = (done ++ rest).map Par.loadedCue ∧
      q'.count = (done ++ rest).length ∧ q'.start = q.start ∧ q'.size = q.size ∧
      q'.pos = q.start + q.size := by
  intro rest
  induction rest with
  | nil =>
    intro done q hp _ hc _ _ _ hs
    refine ⟨q, rfl, by simpa [Par.preloaded] using hp, by simpa using hc, rfl, rfl, ?_⟩
    simp [Spec.cuesPayload, elements] at hs
    omega
  | cons c cs ih =>
    intro done q hp hne hc h0 hr ha hs
    have hstep := Par.load_next hp hc h0 (hr c (by simp)) ha hs
    have hpos := List.length_pos_iff.mpr (Par.element_ne_nil Mux.kMkvCuePoint (cuePoint c.time c.track c.pos c.block))
    rw [Par.cuesPayload_cons] at ha hs
    rw [List.length_append] at hs
    have hload : q.loadCuePoint r = q.loadLoop r := by
      unfold Par.Cues.loadCuePoint
      rw [if_neg (by omega)]
      unfold Par.Cues.init
      rw [if_pos hne]
    rw [List.length_cons, loadTimes, hload, hstep]
    simp only
    obtain ⟨q', g1, g2, g3, g4, g5, g6⟩ := ih (done ++ [c]) { q with
      points := (done ++ [c]).map Par.loadedCue ++
        Par.preloaded (q.pos + (element Mux.kMkvCuePoint (cuePoint c.time c.track c.pos c.block)).length) cs,
      count := done.length + 1,
      pos := q.pos + (element Mux.kMkvCuePoint (cuePoint c.time c.track c.pos c.block)).length }
      rfl (by simp) (by simp) (by simp only; omega) (fun x hx => hr x (by simp [hx]))
      (at_append.mp ha).2 (by simp only; omega)
    refine ⟨q', g1, by simpa using g2, by simpa using g3, g4, g5, g6⟩

/-- Loading all cue points of a Cues element whose payload is at `at'`. -/
theorem loadTimes_new {r : Par.Rdr} {at' : Nat} {cs : List Cue} (h0 : 0 < at') (hne : cs ≠ [])
    (hread : ∀ c ∈ cs, Par.Readable c) (hpl : At r.data at' (Spec.cuesPayload cs)) :
    ∃ p, loadTimes r cs.length (Par.Cues.new at' (Spec.cuesPayload cs).length) = some p ∧
      p.points = cs.map Par.loadedCue ∧ p.count = cs.length ∧ p.start = at' ∧
      p.size = (Spec.cuesPayload cs).length ∧ p.pos = at' + (Spec.cuesPayload cs).length := by
  have hinit := Par.init_walk (stop := at' + (Spec.cuesPayload cs).length) (ps := []) h0 hread hpl rfl
  obtain ⟨p, g1, g2, g3, g4, g5, g6⟩ := loadTimes_at cs []
    { start := at', size := (Spec.cuesPayload cs).length, pos := at', points := Par.preloaded at' cs }
    rfl (by cases cs with
      | nil => exact absurd rfl hne
      | cons c cs => simp [Par.preloaded]) rfl h0 hread hpl rfl
  refine ⟨p, ?_, g2, g3, g4, g5, g6⟩
  cases cs with
  | nil => exact absurd rfl hne
  | cons c cs =>
    have hpos := List.length_pos_iff.mpr (Par.element_ne_nil Mux.kMkvCuePoint (cuePoint c.time c.track c.pos c.block))
    have : 0 < (Spec.cuesPayload (c :: cs)).length := by
      rw [Par.cuesPayload_cons, List.length_append]; omega
    have hfirst : (Par.Cues.new at' (Spec.cuesPayload (c :: cs)).length).loadCuePoint r =
        ({ start := at', size := (Spec.cuesPayload (c :: cs)).length, pos := at',
           points := Par.preloaded at' (c :: cs) } : Par.Cues).loadCuePoint r := by
      unfold Par.Cues.loadCuePoint
      rw [if_neg (by simp only [Par.Cues.new]; omega), if_neg (by simp only; omega)]
      have e1 : (Par.Cues.new at' (Spec.cuesPayload (c :: cs)).length).init r = .ok (true,
          { start := at', size := (Spec.cuesPayload (c :: cs)).length, pos := at',
            points := Par.preloaded at' (c :: cs) }) := by
        unfold Par.Cues.init Par.Cues.new
        rw [if_neg (by simp)]
        simp only
        rw [hinit]
        simp
      rw [e1]
      unfold Par.Cues.init
      rw [if_pos (by simp [Par.preloaded])]
    rw [List.length_cons, loadTimes, hfirst]
    rw [List.length_cons, loadTimes] at g1
    exact g1

/-- C26.  Cue points whose numbers fit the signed 64-bit integers of the reader are written at the
end of the file.  Either an output call failed, and that is reported; or the Cues element is
appended, its size is exactly what `Cues::Size` had announced, and mkvparser, finding the element
there, loads them one by one with the same time, track, cluster position and block number, and
then is done.

Partial: see `C26_large_time_unreadable`. -/
theorem C26_cues_round_trip_partial {q : Mux.Cues} (hq : ∀ c ∈ q.entries, Plain c) (hne : q.entries ≠ [])
    (hn : q.entries.length < 2 ^ 31) {s : Sink} (hs : s.pos = s.data.length) :
    (∃ s' written, q.write s = (.ok (), s') ∧ s'.data = s.data ++ written ∧ s'.pos = s'.data.length ∧
      written.length = q.size ∧
      ∀ r : Par.Rdr, (∃ post, r.data = s'.data ++ post) → s'.data.length ≤ llongMax →
        ∃ hd p, Par.parseElementHeader r s.data.length s'.data.length = .ok hd ∧ hd.id = 0x1C53BB6B ∧
          hd.pos + hd.size = s'.data.length ∧
          loadTimes r q.entries.length (Par.Cues.new hd.pos hd.size) = some p ∧
          p.points = q.entries.map reported ∧ p.count = q.entries.length ∧ p.doneParsing = true ∧
          p.loadCuePoint r = .ok (false, p)) ∨
    (∃ c s', q.write s = (.err c, s') ∧ ∃ i, s.calls ≤ i ∧ i < s'.calls ∧ s.plan i ≠ none) := by
  have hem := Mux.Cues.write_emits (q := q)
    (fun c hc => ⟨(hq c hc).inRange, (hq c hc).track1, (hq c hc).pos1⟩) (by omega)
  have hsz := Mux.Cues.size_bytes (q := q) fun c hc => (hq c hc).inRange
  rcases hem.cases hs with ⟨s', h1, n1⟩ | ⟨c, s', h1, b1⟩
  · refine .inl ⟨s', _, h1, n1.data, n1.atEnd hs, hsz.symm, ?_⟩
    rintro r ⟨post, hr⟩ hmax
    have i0 := Mux.cue_isId.1
    have hd := n1.data
    have hlen : s'.data.length = s.data.length + (element Mux.kMkvCues
        (Spec.cuesPayload (q.entries.map Mux.CuePoint.cue))).length := by
      rw [hd, List.length_append]; rfl
    have hat : At r.data s.data.length (element Mux.kMkvCues
        (Spec.cuesPayload (q.entries.map Mux.CuePoint.cue))) :=
      At.of_eq (post := post) (by rw [hr, hd, List.append_assoc]; rfl)
    have hsmall : (Spec.cuesPayload (q.entries.map Mux.CuePoint.cue)).length + 1 < 2 ^ 56 := by
      rw [Mux.cuesPayload_len fun c hc => (hq c hc).inRange]
      have := Mux.cuesPayload_le q.entries
      omega
    have hel := Par.element_length_id i0 (Spec.cuesPayload (q.entries.map Mux.CuePoint.cue))
    have hpl := Par.at_payload i0 hat
    have hread : ∀ c ∈ q.entries.map Mux.CuePoint.cue, Par.Readable c := by
      intro c hc
      obtain ⟨d, hd, rfl⟩ := List.mem_map.mp hc
      exact (hq d hd).readable
    generalize hcs : q.entries.map Mux.CuePoint.cue = cs at *
    have hcl : cs.length = q.entries.length := by rw [← hcs, List.length_map]
    have hcne : cs ≠ [] := by
      intro h0; rw [h0] at hcl; exact hne (List.length_eq_zero_iff.mp hcl.symm)
    obtain ⟨p, g1, g2, g3, g4, g5, g6⟩ := loadTimes_new (by omega) hcne hread hpl
    refine ⟨_, p, Par.parseElementHeader_at i0 hat hsmall (by omega) hmax, rfl, ?_, ?_, ?_, ?_, ?_, ?_⟩
    · simp only; omega
    · rw [← hcl]; exact g1
    · rw [g2, ← hcs]
      simp only [List.map_map]
      exact List.map_congr_left fun c _ => (reported_eq c).symm
    · rw [g3]; exact hcl
    · unfold Par.Cues.doneParsing
      rw [g4, g5, g6]; simp
    · unfold Par.Cues.loadCuePoint
      rw [if_pos (by rw [g4, g5, g6]; omega)]
  · exact .inr ⟨c, s', h1, b1.cause⟩

/-- C26: a cue point without a track number or a cluster position is refused, and nothing is
written. -/
theorem C26_refused (c : Mux.CuePoint) (h : c.track = 0 ∨ c.clusterPos = 0) (s : Sink) :
    c.write s = (.err 0, s) := by
  unfold Mux.CuePoint.write
  rw [if_pos (by omega)]; rfl

private def farCue : Mux.CuePoint := { time := 2 ^ 63, track := 1, clusterPos := 100 }

/-- Finding: a time of `2^63` or more is written, but the reader takes it for an error code and does
not load the cue point. -/
theorem C26_large_time_unreadable :
    ∃ s', Mux.CuePoint.write farCue ⟨[0], 1, 0, fun _ => none⟩ = (.ok (), s') ∧
      ∃ c, Par.cueLoad { data := s'.data } ⟨-1, []⟩ = .ok (false, c) := by
  refine ⟨(Mux.CuePoint.write farCue ⟨[0], 1, 0, fun _ => none⟩).2, ?_, ⟨-(2 ^ 63), []⟩, by decide +kernel⟩
  have : (Mux.CuePoint.write farCue ⟨[0], 1, 0, fun _ => none⟩).1 = .ok () := by decide +kernel
  rw [← this]

example : ∀ c ∈ someCues.entries, Plain c := by
  intro c hc
  simp only [someCues, List.mem_cons, List.not_mem_nil, or_false] at hc
  rcases hc with rfl | rfl <;> exact ⟨by decide, by decide, by decide, by decide, by decide, by decide⟩

example : ((someCues.write ⟨[1, 2, 3], 3, 0, fun _ => none⟩).1 = .ok ()) ∧
    someCues.entries.map reported = [⟨0, [⟨1, 250, 1⟩]⟩, ⟨5000, [⟨1, 65534, 3⟩]⟩] := by
  constructor <;> decide +kernel

/-! ### C28 -/

/-- C28.  The first `count` entries of the table are loaded cue points, in ascending order of time,
and their times in nanoseconds can be represented.  A lookup gives: the first cue point when no cue
point is earlier than the requested time; otherwise the last one that is not later.  Of that cue
point it reports the first position for the requested track, and fails when there is none. -/
theorem C28_find {q : Par.Cues} {ps : List Par.CuePoint} {scale time : Int} (track : Int)
    (hps : q.points.take q.count = ps) (hlen : ps.length = q.count) (hne : ps ≠ []) (hscale : 1 ≤ scale)
    (hload : ∀ c ∈ ps, 0 ≤ c.timecode ∧ scale * c.timecode ≤ llongMax)
    (hord : ∀ (i j : Nat) (c d : Par.CuePoint), i ≤ j → ps[i]? = some c → ps[j]? = some d →
      c.timecode ≤ d.timecode)
    (ht : 0 ≤ time) :
    ∃ i c, ps[i]? = some c ∧
      q.find scale time track = .ok ((c.positions.find? fun p => p.track = track).map fun p => (c, p)) ∧
      ((∀ d ∈ ps, time ≤ scale * d.timecode) → i = 0) ∧
      ((∃ d ∈ ps, scale * d.timecode < time) →
        scale * c.timecode ≤ time ∧ ∀ k d, i < k → ps[k]? = some d → time < scale * d.timecode) := by
  have hsrt : Par.Sorted scale ps := ⟨hload, hord⟩
  have hs0 : 0 ≤ scale := by omega
  have htake : ps = q.points.take ps.length := by rw [hlen, hps]
  have hpos : 0 < ps.length := List.length_pos_iff.mpr hne
  have hget : ∀ k, k < ps.length → q.points[k]? = ps[k]? := by
    intro k hk
    conv => rhs; rw [htake]
    rw [List.getElem?_take_of_lt hk]
  obtain ⟨c0, hc0⟩ : ∃ c, ps[0]? = some c := ⟨_, List.getElem?_eq_getElem hpos⟩
  have hpne : q.points ≠ [] := by
    intro h0; rw [h0] at hps; simp at hps; exact hne hps
  unfold Par.Cues.find
  rw [if_neg (by simp only [not_or]; exact ⟨by omega, hpne, by omega⟩), hget 0 hpos, hc0]
  simp only
  rw [hsrt.getTime hc0]
  simp only
  by_cases h0 : time ≤ scale * c0.timecode
  · rw [if_pos h0]
    refine ⟨0, c0, hc0, rfl, fun _ => rfl, ?_⟩
    rintro ⟨d, hd, hlt⟩
    obtain ⟨k, hk⟩ := List.getElem?_of_mem hd
    have := hsrt.le hs0 (Nat.zero_le k) hc0 hk
    omega
  · rw [if_neg h0]
    obtain ⟨m, m1, m2, m3, m4, m5⟩ := Par.findLoop_spec hs0 htake hsrt time 0 ps.length (by omega)
      (by omega) (by intro k c hk; omega) (fun k c hk hc => by
        rw [List.getElem?_eq_none hk] at hc; cases hc)
    rw [← hlen, m3]
    simp only
    have hm0 : m ≠ 0 := by
      intro h
      subst h
      have := m5 0 c0 (by omega) hc0
      omega
    obtain ⟨c, hc⟩ : ∃ c, ps[m - 1]? = some c := ⟨_, List.getElem?_eq_getElem (by omega)⟩
    have hle := m4 (m - 1) c (by omega) hc
    unfold Par.Cues.findPick
    rw [if_neg (by omega), hget (m - 1) (by omega), hc]
    simp only
    rw [hsrt.getTime hc]
    simp only
    rw [if_neg (by omega)]
    refine ⟨m - 1, c, hc, rfl, ?_, fun _ => ⟨hle, fun k d hk hd => m5 k d (by omega) hd⟩⟩
    intro hall
    exact absurd (hall c0 (List.mem_of_getElem? hc0)) h0

/-- Finding: the time of a cue point is computed without a check; a large time in the file makes the
multiplication overflow, which is undefined. -/
theorem C28_time_overflow : Par.CuePoint.getTime 1000000 ⟨9223372036855, []⟩ = .ub := by decide

private def threeCues : Par.Cues :=
  { start := 1, size := 10, pos := 11, count := 3, points :=
    [⟨0, [⟨1, 10, 1⟩]⟩, ⟨5, [⟨1, 20, 1⟩, ⟨2, 20, 2⟩]⟩, ⟨9, [⟨2, 30, 1⟩]⟩] }

example : threeCues.find 1000000 6000000 2 = .ok (some (⟨5, [⟨1, 20, 1⟩, ⟨2, 20, 2⟩]⟩, ⟨2, 20, 2⟩)) ∧
    threeCues.find 1000000 9000000 1 = .ok none := by
  constructor <;> decide +kernel

example : ∀ c ∈ threeCues.points, 0 ≤ c.timecode ∧ (1000000 : Int) * c.timecode ≤ llongMax := by
  decide

end Verif.Props
