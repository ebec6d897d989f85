/-
The whole run of the demuxer on a recording.
-/
import Verif.Lemmas.VttWalk
import Verif.Lemmas.VttChapters
import Verif.Lemmas.ParserOpens

namespace Verif.Vtt
open Verif Verif.Par Verif.Mux Verif.Spec Verif.Vtt.Spec

/-! ### The map of output files -/

theorem mem_setFile {x : VttFile} : ∀ {m : List VttFile} {y : VttFile}, x.key ∉ m.map (·.key) → (y ∈ setFile x m ↔ y = x ∨ y ∈ m)
  | [], y, _ => by simp [setFile]
  | z :: zs, y, h => by
    rw [List.map_cons, List.mem_cons, not_or] at h
    unfold setFile
    by_cases h1 : x.key < z.key
    · rw [if_pos h1]; simp
    · rw [if_neg h1, if_neg h.1, List.mem_cons, mem_setFile h.2, List.mem_cons]
      constructor
      · rintro (h | h | h)
        · exact .inr (.inl h)
        · exact .inl h
        · exact .inr (.inr h)
      · rintro (h | h | h)
        · exact .inr (.inl h)
        · exact .inl h
        · exact .inr (.inr h)

theorem setFile_sorted {x : VttFile} : ∀ {m : List VttFile}, (m.map (·.key)).Pairwise (· < ·) → x.key ∉ m.map (·.key) →
    ((setFile x m).map (·.key)).Pairwise (· < ·)
  | [], _, _ => by simp [setFile]
  | z :: zs, hp, h => by
    have hp' := hp
    rw [List.map_cons, List.pairwise_cons] at hp
    rw [List.map_cons, List.mem_cons, not_or] at h
    unfold setFile
    by_cases h1 : x.key < z.key
    · rw [if_pos h1, List.map_cons, List.pairwise_cons]
      refine ⟨?_, hp'⟩
      intro k hk
      rw [List.map_cons, List.mem_cons] at hk
      rcases hk with rfl | hk
      · exact h1
      · exact Nat.lt_trans h1 (hp.1 k hk)
    · rw [if_neg h1, if_neg h.1, List.map_cons, List.pairwise_cons]
      refine ⟨?_, setFile_sorted hp.2 h.2⟩
      intro k hk
      obtain ⟨y, hy, rfl⟩ := List.mem_map.mp hk
      rcases (mem_setFile h.2).mp hy with rfl | hy
      · have := h.1
        omega
      · exact hp.1 _ (List.mem_map_of_mem hy)

/-- An entry for this track. -/
def Entry' (t : ReadTrack) (x : VttFile) : Prop :=
  0 < t.info.number ∧ ∃ c k, t.info.codecId = some c ∧ vttKind c = some k ∧ x = { key := t.info.number.toNat, kind := k }

theorem mapTracks_spec : ∀ (ts : List ReadTrack) (m : List VttFile), (m.map (·.key)).Pairwise (· < ·) →
    (ts.map (·.info.number)).Nodup → (∀ t ∈ ts, ∀ x ∈ m, t.info.number ≠ x.key) →
    ((mapTracks ts m).map (·.key)).Pairwise (· < ·) ∧ ∀ x, x ∈ mapTracks ts m ↔ x ∈ m ∨ ∃ t ∈ ts, Entry' t x
  | [], m, hp, _, _ => ⟨hp, fun x => by simp [mapTracks]⟩
  | t :: ts, m, hp, hn, hd => by
    rw [List.map_cons, List.nodup_cons] at hn
    have skip : (∀ x, ¬ Entry' t x) → ((mapTracks ts m).map (·.key)).Pairwise (· < ·) ∧
        ∀ x, x ∈ mapTracks ts m ↔ x ∈ m ∨ ∃ u ∈ t :: ts, Entry' u x := by
      intro hno
      obtain ⟨h1, h2⟩ := mapTracks_spec ts m hp hn.2 fun u hu => hd u (by simp [hu])
      refine ⟨h1, fun x => ?_⟩
      rw [h2 x]
      constructor
      · rintro (h | ⟨u, hu, h⟩)
        · exact .inl h
        · exact .inr ⟨u, by simp [hu], h⟩
      · rintro (h | ⟨u, hu, h⟩)
        · exact .inl h
        · rw [List.mem_cons] at hu
          rcases hu with rfl | hu
          · exact absurd h (hno x)
          · exact .inr ⟨u, hu, h⟩
    unfold mapTracks
    by_cases h0 : t.info.number ≤ 0
    · rw [if_pos h0]
      exact skip fun x h => by have := h.1; omega
    · rw [if_neg h0]
      cases hc : t.info.codecId with
      | none =>
        simp only
        exact skip fun x ⟨_, c, k, h, _⟩ => by rw [hc] at h; cases h
      | some c =>
        simp only
        cases hk : vttKind c with
        | none =>
          simp only
          refine skip fun x ⟨_, c', k, h, h', _⟩ => ?_
          rw [hc] at h
          cases h
          rw [hk] at h'
          cases h'
        | some k =>
          simp only
          have hnew : ({ key := t.info.number.toNat, kind := k } : VttFile).key ∉ m.map (·.key) := by
            intro h
            obtain ⟨x, hx, he⟩ := List.mem_map.mp h
            have := hd t (by simp) x hx
            simp only at he
            omega
          obtain ⟨h1, h2⟩ := mapTracks_spec ts _ (setFile_sorted hp hnew) hn.2 (by
            intro u hu x hx
            rcases (mem_setFile hnew).mp hx with rfl | hx
            · intro he
              refine hn.1 ?_
              simp only at he
              have : t.info.number = u.info.number := by omega
              rw [this]
              exact List.mem_map_of_mem hu
            · exact hd u (by simp [hu]) x hx)
          refine ⟨h1, fun x => ?_⟩
          rw [h2 x, mem_setFile hnew]
          constructor
          · rintro ((rfl | h) | ⟨u, hu, h⟩)
            · exact .inr ⟨t, by simp, by omega, c, k, hc, hk, rfl⟩
            · exact .inl h
            · exact .inr ⟨u, by simp [hu], h⟩
          · rintro (h | ⟨u, hu, h⟩)
            · exact .inl (.inr h)
            · rw [List.mem_cons] at hu
              rcases hu with rfl | hu
              · obtain ⟨-, c', k', e1, e2, e3⟩ := h
                rw [hc] at e1
                cases e1
                rw [hk] at e2
                cases e2
                exact .inl (.inl e3)
              · exact .inr ⟨u, hu, h⟩

theorem buildMap_spec {g : ReadSegment} {ts : List ReadTrack} (ht : g.tracks = some ts) (hn : (ts.map (·.info.number)).Nodup)
    (hpos : ∀ t ∈ ts, 0 < t.info.number) :
    ((buildMap g).map (·.key)).Pairwise (· < ·) ∧
      ∀ x, x ∈ buildMap g ↔ (g.chapters.isSome = true ∧ x = { key := 0, kind := .chapters }) ∨ ∃ t ∈ ts, Entry' t x := by
  unfold buildMap
  rw [ht, Option.getD_some]
  by_cases hc : g.chapters.isSome = true
  · rw [if_pos hc]
    obtain ⟨h1, h2⟩ := mapTracks_spec ts [{ key := 0, kind := .chapters }] (by simp) hn (by
      intro t htm x hx
      rw [List.mem_singleton] at hx
      subst hx
      have := hpos t htm
      simp only
      omega)
    refine ⟨h1, fun x => ?_⟩
    rw [h2 x, List.mem_singleton]
    simp [hc]
  · rw [if_neg hc]
    obtain ⟨h1, h2⟩ := mapTracks_spec ts [] (by simp) hn (by simp)
    refine ⟨h1, fun x => ?_⟩
    rw [h2 x]
    simp [hc]

theorem nodup_of_lt : ∀ {l : List Nat}, l.Pairwise (· < ·) → l.Nodup := by
  intro l h
  exact h.imp fun hab => by omega

/-! ### The run -/

/-- What the parser shows of a cue in a block of this track. -/
def seenCue (scale n : Nat) (c : Cue) : SeenFrame where
  time := (millisOf c.start * 1000000).toNat / scale
  track := n
  data := makeFrame c
  key := true
  duration := ((millisOf c.stop - millisOf c.start) * 1000000).toNat / scale
  padding := 0
  additional := none

theorem div_back {scale : Nat} {v : Int} (hs : scale ∣ 1000000) (h0 : 0 ≤ v) :
    (((v * 1000000).toNat / scale : Nat) : Int) * scale = v * 1000000 := by
  have e : (v * 1000000).toNat = v.toNat * 1000000 := by omega
  have : (v * 1000000).toNat / scale * scale = (v * 1000000).toNat := by
    rw [e]
    exact Nat.div_mul_cancel (Nat.dvd_trans hs (Nat.dvd_mul_left _ _))
  have : (((v * 1000000).toNat / scale * scale : Nat) : Int) = ((v * 1000000).toNat : Int) := by rw [this]
  push_cast at this
  omega

/-- The frame made of a cue is shown like this. -/
theorem frame_seen {scale n : Nat} {c : Cue} {f : Frame} (hp : Proper c) (ho : millisOf c.start ≤ millisOf c.stop)
    (hr : millisOf c.stop * 1000000 < 2 ^ 63) (h : TrackCue.frame ⟨n, c⟩ = .ok f) : f.asWatched scale = seenCue scale n c := by
  have h0 := millis_nonneg hp.start.1
  unfold TrackCue.frame at h
  simp only at h
  rw [ns_ok h0 (by omega), Res.bind_ok, ns_ok (by omega) hr, Res.bind_ok, i64_ok (by omega), Res.bind_ok,
    toU64_nat (by omega) (by omega), toU64_nat (by omega) (by omega)] at h
  cases h
  unfold Frame.asWatched Frame.asSeen seenCue
  simp only
  rw [show millisOf c.stop * 1000000 - millisOf c.start * 1000000 = (millisOf c.stop - millisOf c.start) * 1000000 by omega]
  rfl

/-- The text of a frame, as far as there is one. -/
def textOf (k : Int) (s : SeenFrame) : Bytes :=
  match demuxSeen k s with
  | .ok t => t
  | _ => []

theorem seenCue_good {scale n : Nat} {c : Cue} {keys : List Nat} (hs : scale ∣ 1000000) (hp : Proper c) (hk : Keepable c)
    (ho : millisOf c.start < millisOf c.stop) :
    Good scale keys (textOf scale) (seenCue scale n c) ∧ textOf scale (seenCue scale n c) = cueText c := by
  have h0 := millis_nonneg hp.start.1
  have hpos : 0 < scale := Nat.pos_of_dvd_of_pos hs (by decide)
  have e1 := div_back (v := millisOf c.start) hs h0
  have e2 := div_back (v := millisOf c.stop - millisOf c.start) hs (by omega)
  have hr := hk.range
  have ht : demuxSeen scale (seenCue scale n c) = .ok (cueText c) := demuxSeen_ok hp hk rfl e1 e2
  refine ⟨⟨fun _ => Int.natCast_nonneg _, fun _ => ?_, fun _ => ?_, fun _ => ?_⟩, ?_⟩
  · show 0 < ((millisOf c.stop - millisOf c.start) * 1000000).toNat / scale
    have hle : scale ≤ 1000000 := Nat.le_of_dvd (by decide) hs
    exact Nat.div_pos (by omega) hpos
  · show (((millisOf c.start * 1000000).toNat / scale : Nat) : Int) * scale +
      ((((millisOf c.stop - millisOf c.start) * 1000000).toNat / scale : Nat) : Int) * scale ≤ _
    rw [e1, e2]
    omega
  · rw [textOf, ht]
  · rw [textOf, ht]

/-- The text of an output file: the header and these cues. -/
def outText (cs : List Cue) : Bytes := "WEBVTT\n".toUTF8.toList ++ cs.flatMap cueText

theorem flatMap_seen {scale n : Nat} (hs : scale ∣ 1000000) : ∀ (cs : List Cue),
    (∀ c ∈ cs, Proper c ∧ Keepable c ∧ millisOf c.start < millisOf c.stop) →
    (cs.map (seenCue scale n)).flatMap (textOf scale) = cs.flatMap cueText
  | [], _ => rfl
  | c :: cs, h => by
    obtain ⟨h1, h2, h3⟩ := h c (by simp)
    rw [List.map_cons, List.flatMap_cons, List.flatMap_cons, (seenCue_good (keys := []) hs h1 h2 h3).2,
      flatMap_seen hs cs fun x hx => h x (by simp [hx])]

/-- The run of the demuxer on a file that opens like this. -/
theorem demux_opens {file : Bytes} {h : Shown} {scale : Nat} {cs : List (Nat × ClusterOf)} {cues : Option (Nat × Bytes)}
    (ho : Opens file h scale cs cues) (hs : scale ∣ 1000000) (hinfo : h.info.timecodeScale = scale)
    (hdoc : h.docType = "webm".toUTF8.toList) (hn : (h.tracks.map (·.info.number)).Nodup)
    (hpos : ∀ t ∈ h.tracks, 0 < t.info.number) {of : Nat → List Cue}
    (hof : ∀ n, ∀ c ∈ of n, Proper c ∧ Keepable c)
    (hch : match h.chapters with
      | none => True
      | some [] => of 0 = []
      | some [as] => chapterCues (some (scale : Int)) as = .ok ((of 0).flatMap cueText)
      | some _ => False)
    (hframes : ∀ t ∈ h.tracks, ∀ x, Entry' t x →
      (((clusterFrames cs).map (Frame.asWatched scale)).filter (·.track = x.key) = (of x.key).map (seenCue scale x.key) ∧
        ∀ c ∈ of x.key, millisOf c.start < millisOf c.stop))
    (hsome : h.chapters ≠ none ∨ ∃ t ∈ h.tracks, ∃ x, Entry' t x)
    (hzero : ∀ f ∈ clusterFrames cs, f.trackNumber ≠ 0)
    {r : Rdr} (hr : r.data = file) (htotal : r.total = file.length) {fuel : Nat} (hfuel : file.length < fuel) :
    ∃ m : List VttFile, vttdemux r fuel = .ok m ∧ (m.map (·.key)).Pairwise (· < ·) ∧
      (∀ k kind, (∃ x ∈ m, x.key = k ∧ x.kind = kind) ↔
        (h.chapters ≠ none ∧ k = 0 ∧ kind = .chapters) ∨ ∃ t ∈ h.tracks, Entry' t { key := k, kind := kind }) ∧
      ∀ x ∈ m, x.text = outText (of x.key) := by
  have hw : r.Whole := by unfold Rdr.Whole; rw [htotal, hr]
  have hsc : 0 < scale := Nat.pos_of_dvd_of_pos hs (by decide)
  obtain ⟨pos, head, g, g', h1, h2, h3, h4, h5, h6, h7, h8, h9, -, -, h10, h11, -⟩ := ho r hr htotal fuel hfuel
  obtain ⟨b1, b2⟩ := buildMap_spec h6 hn hpos
  have hinfo' : g'.info.map (·.timecodeScale) = some (scale : Int) := by rw [h5]; simp [hinfo]
  rw [h7] at b2
  have hne : ¬ ((buildMap g').isEmpty = true) := by
    intro he
    have he : buildMap g' = [] := by simpa using he
    rcases hsome with hc | ⟨t, ht, x, hx⟩
    · have := (b2 { key := 0, kind := .chapters }).mpr (.inl ⟨by cases hh : h.chapters with
        | none => exact absurd hh hc
        | some _ => rfl, rfl⟩)
      rw [he] at this
      cases this
    · have := (b2 x).mpr (.inr ⟨t, ht, hx⟩)
      rw [he] at this
      cases this
  -- the files before the clusters are looked at
  let m0 := (buildMap g').map fun x => { x with text := "WEBVTT\n".toUTF8.toList }
  have hm0k : m0.map (·.key) = (buildMap g').map (·.key) := by simp [m0, List.map_map, Function.comp_def]
  let chap : Bytes := if h.chapters = none then [] else (of 0).flatMap cueText
  have hwc : writeChapters g' m0 = .ok (m0.map fun x => { x with text := x.text ++ (if x.key = 0 then chap else []) }) := by
    have hmap : ∀ b : Bytes, appendText 0 b m0 = m0.map fun x => { x with text := x.text ++ (if x.key = 0 then b else []) } :=
      fun b => appendText_map 0 b m0 (by rw [hm0k]; exact nodup_of_lt b1)
    have hnil : m0 = m0.map fun x => { x with text := x.text ++ (if x.key = 0 then ([] : Bytes) else []) } := by
      simp
    unfold writeChapters
    cases hh : h.chapters with
    | none =>
      have hno : ¬ (m0.any (fun x => decide (x.key = 0)) = true) := by
        rw [any_key, hm0k]
        intro hm
        obtain ⟨x, hx, hx0⟩ := List.mem_map.mp hm
        rcases (b2 x).mp hx with ⟨hc, -⟩ | ⟨t, ht, hp, c, k, -, -, rfl⟩
        · rw [hh] at hc; cases hc
        · simp only at hx0
          omega
      rw [if_neg hno]
      simp only [chap, hh, if_true]
      rw [← hnil]
    | some l =>
      have hyes : m0.any (fun x => decide (x.key = 0)) = true := by
        rw [any_key, hm0k]
        exact List.mem_map.mpr ⟨_, (b2 { key := 0, kind := .chapters }).mpr (.inl ⟨by rw [hh]; rfl, rfl⟩), rfl⟩
      rw [if_pos hyes, h7, hh]
      rw [hh] at hch
      have hcn : chap = (of 0).flatMap cueText := by simp [chap, hh]
      match l, hch with
      | [], hch =>
        simp only at hch
        simp only
        rw [hcn, hch, List.flatMap_nil, ← hnil]
      | [as], hch =>
        simp only at hch
        simp only
        rw [hinfo', hch, hcn, ← hmap]
        rfl
  let m1 := m0.map fun x => { x with text := x.text ++ (if x.key = 0 then chap else []) }
  have hm1k : m1.map (·.key) = (buildMap g').map (·.key) := by
    rw [← hm0k]
    simp [m1, List.map_map, Function.comp_def]
  have hgood : ∀ x ∈ cs.map (fun c => (g'.start + c.1, c.2)), ∀ f ∈ x.2.frames,
      Good scale (m1.map (·.key)) (textOf scale) (f.asWatched scale) := by
    intro x hx f hf
    obtain ⟨y, hy, rfl⟩ := List.mem_map.mp hx
    have hfm : f ∈ clusterFrames cs := by
      unfold clusterFrames
      exact List.mem_flatten.mpr ⟨_, List.mem_map_of_mem hy, hf⟩
    by_cases hk : (f.asWatched scale).track ∈ m1.map (·.key)
    · rw [hm1k] at hk
      obtain ⟨z, hz, hzk⟩ := List.mem_map.mp hk
      rcases (b2 z).mp hz with ⟨-, rfl⟩ | ⟨t, ht, he⟩
      · exact absurd hzk.symm (hzero f hfm)
      · obtain ⟨e1, e2⟩ := hframes t ht z he
        have hin : f.asWatched scale ∈ (of z.key).map (seenCue scale z.key) := by
          rw [← e1, List.mem_filter]
          exact ⟨List.mem_map_of_mem hfm, by simpa using hzk.symm⟩
        obtain ⟨c, hc, hcf⟩ := List.mem_map.mp hin
        rw [← hcf]
        obtain ⟨p1, p2⟩ := hof _ c hc
        exact (seenCue_good hs p1 p2 (e2 c hc)).1
    · exact ⟨fun h => absurd h hk, fun h => absurd h hk, fun h => absurd h hk, fun h => absurd h hk⟩
  have hwalk := processAll_ok (text := textOf scale) (k := scale) (by omega) hw hinfo' h9 (fuel := fuel) (m := m1) (by
      intro fs hfs
      obtain ⟨c, hc, rfl⟩ := List.mem_map.mp hfs
      have := h10 c hc
      simp only
      omega) (by rw [List.length_map]; omega) hgood
  rw [taken_map _ _ _ (by rw [hm1k]; exact nodup_of_lt b1)] at hwalk
  have hfs : ((cs.map (fun c => (g'.start + c.1, c.2))).map (·.2.frames)).flatten = clusterFrames cs := by
    unfold clusterFrames
    rw [List.map_map]
    rfl
  rw [hfs] at hwalk
  let m2 : List VttFile := m1.map fun x => { x with text := x.text ++
    (((clusterFrames cs).map (Frame.asWatched scale)).filter (·.track = x.key)).flatMap (textOf scale) }
  refine ⟨m2, ?_, ?_, ?_, ?_⟩
  · unfold vttdemux
    rw [h1]
    simp only
    have hwebm : ¬ (head.docType.map cText ≠ some "webm".toUTF8.toList) := by
      rw [h2, hdoc]
      decide +kernel
    rw [Res.refuse_neg hwebm, Res.bind_ok, h3]
    simp only
    rw [h4]
    simp only
    rw [Res.refuse_neg hne, Res.bind_ok]
    unfold writeFiles
    show (writeChapters g' m0 >>= fun m => processClusters r g' fuel fuel g'.getFirst m) = .ok m2
    rw [hwc, Res.bind_ok]
    exact hwalk
  · have : m2.map (·.key) = m1.map (·.key) := by simp [m2, List.map_map, Function.comp_def]
    rw [this, hm1k]
    exact b1
  · intro k kind
    have back : (∃ x ∈ m2, x.key = k ∧ x.kind = kind) ↔ ({ key := k, kind := kind } : VttFile) ∈ buildMap g' := by
      constructor
      · rintro ⟨x, hx, hk, hkind⟩
        obtain ⟨y, hy, rfl⟩ := List.mem_map.mp hx
        obtain ⟨z, hz, rfl⟩ := List.mem_map.mp hy
        obtain ⟨w, hw', rfl⟩ := List.mem_map.mp hz
        simp only at hk hkind
        have htext : w.text = [] := by
          rcases (b2 w).mp hw' with ⟨-, rfl⟩ | ⟨_, _, _, _, _, _, _, rfl⟩ <;> rfl
        have : w = { key := k, kind := kind } := by
          cases w
          simp only at hk hkind htext
          subst hk hkind htext
          rfl
        rw [← this]
        exact hw'
      · intro hm
        exact ⟨_, List.mem_map_of_mem (List.mem_map_of_mem (List.mem_map_of_mem hm)), rfl, rfl⟩
    rw [back, b2]
    constructor
    · rintro (⟨a, e⟩ | h)
      · cases e
        refine .inl ⟨?_, rfl, rfl⟩
        intro hh
        rw [hh] at a
        cases a
      · exact .inr h
    · rintro (⟨a, rfl, rfl⟩ | h)
      · refine .inl ⟨?_, rfl⟩
        cases hh : h.chapters with
        | none => exact absurd hh a
        | some _ => rfl
      · exact .inr h
  · intro x hx
    obtain ⟨y, hy, rfl⟩ := List.mem_map.mp hx
    obtain ⟨z, hz, rfl⟩ := List.mem_map.mp hy
    obtain ⟨w, hw', rfl⟩ := List.mem_map.mp hz
    simp only
    unfold outText
    rcases (b2 w).mp hw' with ⟨hc, rfl⟩ | ⟨t, ht, he⟩
    · have hempty : List.filter (fun s => decide (s.track = 0)) ((clusterFrames cs).map (Frame.asWatched scale)) = [] := by
        rw [List.filter_eq_nil_iff]
        intro s hsm
        obtain ⟨f, hf, rfl⟩ := List.mem_map.mp hsm
        have := hzero f hf
        show ¬ (decide (f.trackNumber = 0) = true)
        simpa using this
      have hcn : chap = (of 0).flatMap cueText := by
        have : h.chapters ≠ none := fun hh => by rw [hh] at hc; cases hc
        simp [chap, this]
      simp only [if_true]
      rw [hempty, hcn, List.flatMap_nil, List.append_nil]
    · have hk0 : w.key ≠ 0 := by
        obtain ⟨hp, _, _, _, _, rfl⟩ := he
        simp only
        omega
      obtain ⟨e1, e2⟩ := hframes t ht w he
      rw [if_neg hk0, List.append_nil, e1, flatMap_seen hs]
      intro c hc
      obtain ⟨p1, p2⟩ := hof _ c hc
      exact ⟨p1, p2, e2 c hc⟩

end Verif.Vtt
