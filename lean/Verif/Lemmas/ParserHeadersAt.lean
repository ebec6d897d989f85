/-
mkvparser reads the start of a file of the muxer: the Segment element, and the elements before the first cluster.
-/
import Verif.Lemmas.ParserSegmentAt
import Verif.Lemmas.ParserChapters
import Verif.Lemmas.SeekHead

namespace Verif.Par
open Verif Spec Mux

/-- From `p` with the object `g`, the loop of `ParseHeaders` comes to `q` with `g'`. -/
def Passes (r : Rdr) (g : ReadSegment) (p : Nat) (g' : ReadSegment) (q : Nat) : Prop :=
  ∀ F, r.data.length + 2 - p ≤ F → ∃ F', r.data.length + 2 - q ≤ F' ∧ headersLoop r F g p = headersLoop r F' g' q

theorem Passes.refl {r : Rdr} (g : ReadSegment) (p : Nat) : Passes r g p g p := fun F hF => ⟨F, hF, rfl⟩

theorem Passes.trans {r : Rdr} {a b c : ReadSegment} {p q s : Nat} (h : Passes r a p b q) (h' : Passes r b q c s) :
    Passes r a p c s := by
  intro F hF
  obtain ⟨F', h1, h2⟩ := h F hF
  obtain ⟨F2, h3, h4⟩ := h' F' h1
  exact ⟨F2, h3, h2.trans h4⟩

/-- What has been read so far; the rest of the object is as it was created. -/
structure Has (g : ReadSegment) (start : Nat) (size : Option Nat) (info : Option ReadInfo) (tracks : Option (List ReadTrack))
    (chapters : Option (List (List ReadAtom))) (tags : Option (List (List ReadSimpleTag))) (cues : Option (Nat × Nat)) : Prop where
  start : g.start = start
  size : g.size = size
  info : g.info = info
  tracks : g.tracks = tracks
  chapters : g.chapters = chapters
  tags : g.tags = tags
  cues : g.cues = cues
  clusters : g.clusters = []

theorem pass_elem {r : Rdr} {g g' : ReadSegment} {p n id m : Nat} {payload : Bytes} (hw : r.Whole)
    (hst : ∀ s ∈ g.stop, s = r.data.length) (he : ElemAt r p n id m payload) (hne : id ≠ kMkvCluster)
    (hfit : p + n + m + payload.length ≤ r.data.length)
    (hx : headersElement r g id (p + n + m) payload.length = .ok g') :
    Passes r g p g' (p + n + m + payload.length) := by
  have hr := hw.sane
  have hd := he.head
  have hm := he.m1
  intro F hF
  obtain ⟨k, rfl⟩ : ∃ k, F = k + 1 := ⟨F - 1, by omega⟩
  refine ⟨k, by omega, ?_⟩
  rw [headersLoop]
  have hstep : headersStep r g p = .ok (some (g', p + n + m + payload.length)) := by
    unfold headersStep
    rw [if_neg ?_]
    · rw [hd.headers1 hr (fun s hs => by have := hst s hs; omega), Res.bind_ok, hd.readId]
      simp only [Res.orErr_ok, Res.bind_ok]
      rw [if_neg hne, hd.headers2 hr (fun s hs => by have := hst s hs; omega), Res.bind_ok, hd.readSize]
      simp only [Res.bind_ok]
      rw [Res.refuse_neg (by rw [past_neg (fun s hs => by have := hst s hs; omega)]; decide), Res.bind_ok,
        Res.refuse_neg (by omega), Res.bind_ok, hx, Res.bind_ok]
    · unfold Rdr.Whole at hw
      rw [reached_neg (fun s hs => by have := hst s hs; omega)]
      unfold atEnd
      simp
      omega
  rw [hstep]

theorem pass_element {r : Rdr} {g g' : ReadSegment} {p n id : Nat} {payload : Bytes} (hw : r.Whole)
    (hst : ∀ s ∈ g.stop, s = r.data.length) (hid : IsId n id) (hsz : payload.length + 1 < 2 ^ 56)
    (hat : At r.data p (element id payload)) (hne : id ≠ kMkvCluster)
    (hx : headersElement r g id (p + n + sizeWidth payload.length) payload.length = .ok g') :
    Passes r g p g' (p + (element id payload).length) := by
  have hl := element_length_id hid payload
  have hle := hat.le (element_ne_nil _ _)
  have := pass_elem hw hst (elemAt hid hsz hat) hne (by omega) hx
  rw [hl]
  simpa only [Nat.add_assoc] using this

/-- An element with something that can be read from it. -/
theorem ReadAs.at {α : Type} {read : Rdr → Nat → Nat → Res α} {r : Rdr} {p n id : Nat} {payload : Bytes} {x : α}
    (hread : ∃ h, parseElementHeader r p r.data.length = .ok h ∧ h.id = id ∧ h.pos + h.size = p + (element id payload).length ∧
      read r h.pos h.size = .ok x) (hid : IsId n id) (hsz : payload.length + 1 < 2 ^ 56)
    (hat : At r.data p (element id payload)) (hmax : r.data.length ≤ 2 ^ 63 - 1) :
    read r (p + n + sizeWidth payload.length) payload.length = .ok x := by
  obtain ⟨h, h1, -, -, h4⟩ := hread
  have hle := hat.le (element_ne_nil _ _)
  rw [parseElementHeader_at hid hat hsz hle (by unfold llongMax; omega)] at h1
  cases h1
  exact h4

/-- The space at the start. -/
def RegionOk (b : Bytes) : Prop :=
  b = [] ∨ (∃ n, b = element 0xEC (List.replicate n 0)) ∨
    ∃ es n, b = element 0x114D9B74 (seekEntries es) ++ element 0xEC (List.replicate n 0) ∧ es.length < 2 ^ 31 ∧
      ∀ e ∈ es, (∃ n, IsId n e.1) ∧ e.2 < 2 ^ 63

private theorem elem_small {id : Nat} {payload : Bytes} {n : Nat} (hid : IsId n id) (h : (element id payload).length < 2 ^ 48) :
    payload.length + 1 < 2 ^ 56 := by
  have := element_length_id hid payload
  omega

section
variable {r : Rdr} {start : Nat} {size : Option Nat}

theorem void_pass (hw : r.Whole) {g : ReadSegment} (hst : ∀ s ∈ g.stop, s = r.data.length) {p k : Nat}
    (hat : At r.data p (element 0xEC (List.replicate k 0))) (hmax : r.data.length < 2 ^ 48) :
    Passes r g p g (p + (element 0xEC (List.replicate k 0)).length) := by
  have hid : IsId 1 0xEC := by unfold IsId; decide +kernel
  have hle := hat.le (element_ne_nil _ _)
  exact pass_element hw hst hid (elem_small hid (by omega)) hat (by decide) rfl

theorem region_pass (hw : r.Whole) {g : ReadSegment} (hg : Has g start size none none none none none)
    (hst : ∀ s ∈ g.stop, s = r.data.length) {p : Nat} {b : Bytes} (hb : RegionOk b) (hsk : g.seekHead = none)
    (hat : At r.data p b) (hmax : r.data.length < 2 ^ 48) :
    ∃ g', Passes r g p g' (p + b.length) ∧ Has g' start size none none none none none := by
  rcases hb with rfl | ⟨n, rfl⟩ | ⟨es, n, rfl, hl, hes⟩
  · exact ⟨g, Passes.refl g p, hg⟩
  · exact ⟨g, void_pass hw hst hat hmax, hg⟩
  · rw [at_append] at hat
    have hid : IsId 4 0x114D9B74 := by unfold IsId; decide +kernel
    have hle := hat.1.le (element_ne_nil _ _)
    have hsz := elem_small hid (payload := seekEntries es) (by omega)
    have hel := element_length_id hid (seekEntries es)
    have hsk2 := seekHeadParse_at (r := r) hes hl (at_payload hid hat.1) (by unfold llongMax; omega)
    have h1 : Passes r g p { g with seekHead := some _ } _ := pass_element hw hst hid hsz hat.1 (by decide) (by
      unfold headersElement
      rw [if_neg (by decide), if_neg (by decide), if_neg (by decide), if_pos (by decide), hsk, if_neg (by decide), hsk2, Res.bind_ok])
    have h2 := void_pass (g := { g with seekHead := some (seekReport (p + 4 + sizeWidth (seekEntries es).length) es, []) }) hw hst hat.2 hmax
    rw [List.length_append, ← Nat.add_assoc]
    exact ⟨_, h1.trans h2, ⟨hg.start, hg.size, hg.info, hg.tracks, hg.chapters, hg.tags, hg.cues, hg.clusters⟩⟩

theorem info_pass (hw : r.Whole) {g : ReadSegment} (hg : Has g start size none none none none none)
    (hst : ∀ s ∈ g.stop, s = r.data.length) {p scale : Nat} {duration : Option UInt32} {date : Option Int} {muxing writing : Bytes}
    (h : ReadableInfo scale duration muxing writing)
    (hat : At r.data p (infoElement scale (duration.map UInt32.toNat) date muxing writing)) (hmax : r.data.length < 2 ^ 48) :
    ∃ g', Passes r g p g' (p + (infoElement scale (duration.map UInt32.toNat) date muxing writing).length) ∧
      Has g' start size (some (seenInfo scale duration muxing writing)) none none none none := by
  have hid : IsId 4 0x1549A966 := by unfold IsId; decide +kernel
  rw [← infoTree_bytes] at hat ⊢
  unfold infoTree at hat ⊢
  rw [group_bytes] at hat ⊢
  have hle := hat.le (element_ne_nil _ _)
  have hl := element_length_id hid (fieldsTree (infoFields scale (duration.map UInt32.toNat) date muxing writing)).bytes
  have hx := infoParse_ok (r := r) h rfl (at_payload hid hat) (by unfold llongMax; omega)
  refine ⟨_, pass_element (g' := { g with info := some _ }) hw hst hid (elem_small hid (by omega)) hat (by decide) ?_,
    ⟨hg.start, hg.size, rfl, hg.tracks, hg.chapters, hg.tags, hg.cues, hg.clusters⟩⟩
  unfold headersElement
  rw [if_pos (by decide), hg.info, Res.refuse_neg (by decide), Res.bind_ok, hx, Res.bind_ok]

theorem tracks_pass (hw : r.Whole) {g : ReadSegment} {i : ReadInfo} (hg : Has g start size (some i) none none none none)
    (hst : ∀ s ∈ g.stop, s = r.data.length) {p : Nat} {ts : List Mux.Track} (h : ∀ t ∈ ts, ReadableTrack t)
    (hf : (tracksTree ts).Fits) (hd : (ts.map (·.number)).Nodup) (hat : At r.data p (tracksTree ts).bytes)
    (hmax : r.data.length < 2 ^ 48) :
    ∃ g', Passes r g p g' (p + (tracksTree ts).bytes.length) ∧ Has g' start size (some i) (some (ts.map seenTrack)) none none none := by
  have hid : IsId 4 0x1654AE6B := by unfold IsId; decide +kernel
  unfold tracksTree at *
  rw [group_fits] at hf
  rw [group_bytes] at hat ⊢
  have hle := hat.le (element_ne_nil _ _)
  have hl := element_length_id hid (each trackTree ts).bytes
  have hx := tracksParse_ok (r := r) h hf.2 hd (at_payload hid hat) (by unfold llongMax; omega)
  refine ⟨_, pass_element (g' := { g with tracks := some _ }) hw hst hid hf.1 hat (by decide) ?_,
    ⟨hg.start, hg.size, hg.info, rfl, hg.chapters, hg.tags, hg.cues, hg.clusters⟩⟩
  unfold headersElement
  rw [if_neg (by decide), if_pos (by decide), hg.tracks, Res.refuse_neg (by decide), Res.bind_ok, hx, Res.bind_ok]

theorem chapters_pass (hw : r.Whole) {g : ReadSegment} {i : ReadInfo} {ts : List ReadTrack}
    (hg : Has g start size (some i) (some ts) none none none)
    (hst : ∀ s ∈ g.stop, s = r.data.length) {p : Nat} {ch : Option (List Chapter)}
    (h : ∀ cs ∈ ch, (chaptersTree cs).Fits ∧ ∀ c ∈ cs, ChapterOk c ∧ ReadableChapter c ∧ ReadsUnsigned c.uid)
    (hat : At r.data p ((ch.map fun c => (chaptersTree c).bytes).getD [])) (hmax : r.data.length < 2 ^ 48) :
    ∃ g', Passes r g p g' (p + ((ch.map fun c => (chaptersTree c).bytes).getD []).length) ∧
      Has g' start size (some i) (some ts) (ch.map seenChapters) none none := by
  cases ch with
  | none => exact ⟨g, Passes.refl g p, hg⟩
  | some cs =>
    obtain ⟨hf, hcs⟩ := h cs rfl
    have hid : IsId 4 0x1043A770 := by unfold IsId; decide +kernel
    have hat' : At r.data p (chaptersTree cs).bytes := hat
    show ∃ g', Passes r g p g' (p + (chaptersTree cs).bytes.length) ∧ _
    have hb : (chaptersTree cs).bytes = element 0x1043A770 (group 0x45B9 (each chapterTree cs)).bytes := by
      unfold chaptersTree; rw [group_bytes 0x1043A770]
    have hsz : (group 0x45B9 (each chapterTree cs)).bytes.length + 1 < 2 ^ 56 := by
      unfold chaptersTree at hf; rw [group_fits] at hf; exact hf.1
    have hat2 := hat'
    rw [hb] at hat2
    have hle := hat2.le (element_ne_nil _ _)
    have hx := chapters_at (r := r) (fun c hc => (hcs c hc).1) hf (fun c hc => (hcs c hc).2.1) hat' (by rw [hb]; exact hle)
      (by omega)
    rw [hb] at hx
    have hx' := ReadAs.at hx hid hsz hat2 (by omega)
    have hs : (if cs = [] then [] else [cs.map readBack]) = seenChapters cs := by
      unfold seenChapters
      rw [List.map_congr_left fun c hc => readBack_eq (hcs c hc).2.2]
    rw [hs] at hx'
    rw [hb]
    refine ⟨_, pass_element (g' := { g with chapters := some _ }) hw hst hid hsz hat2 (by decide) ?_,
      ⟨hg.start, hg.size, hg.info, hg.tracks, rfl, hg.tags, hg.cues, hg.clusters⟩⟩
    unfold headersElement
    rw [if_neg (by decide), if_neg (by decide), if_neg (by decide), if_neg (by decide), if_pos (by decide), hg.chapters,
      if_neg (by decide), hx', Res.bind_ok]

theorem tags_pass (hw : r.Whole) {g : ReadSegment} {i : ReadInfo} {ts : List ReadTrack} {ch : Option (List (List ReadAtom))}
    (hg : Has g start size (some i) (some ts) ch none none)
    (hst : ∀ s ∈ g.stop, s = r.data.length) {p : Nat} {tg : Option (List Tag)}
    (h : ∀ cs ∈ tg, (tagsTree cs).Fits ∧ ∀ c ∈ cs, TagOk c ∧ ReadableTag c)
    (hat : At r.data p ((tg.map fun c => (tagsTree c).bytes).getD [])) (hmax : r.data.length < 2 ^ 48) :
    ∃ g', Passes r g p g' (p + ((tg.map fun c => (tagsTree c).bytes).getD []).length) ∧
      Has g' start size (some i) (some ts) ch (tg.map seenTags) none := by
  cases tg with
  | none => exact ⟨g, Passes.refl g p, hg⟩
  | some cs =>
    obtain ⟨hf, hcs⟩ := h cs rfl
    have hid : IsId 4 0x1254C367 := by unfold IsId; decide +kernel
    have hat' : At r.data p (tagsTree cs).bytes := hat
    show ∃ g', Passes r g p g' (p + (tagsTree cs).bytes.length) ∧ _
    unfold tagsTree at hat' hf ⊢
    rw [group_fits] at hf
    rw [group_bytes] at hat' ⊢
    have hle := hat'.le (element_ne_nil _ _)
    have hl := element_length_id hid (each (fun t => group 0x7373 (each simpleTagTree t)) cs).bytes
    have hx := tagsParse_ok (r := r) (fun c hc => (hcs c hc).2) (fun c hc => (hcs c hc).1) hf.2 rfl (at_payload hid hat')
      (by unfold llongMax; omega)
    refine ⟨_, pass_element (g' := { g with tags := some _ }) hw hst hid hf.1 hat' (by decide) ?_,
      ⟨hg.start, hg.size, hg.info, hg.tracks, hg.chapters, rfl, hg.cues, hg.clusters⟩⟩
    unfold headersElement
    rw [if_neg (by decide), if_neg (by decide), if_neg (by decide), if_neg (by decide), if_neg (by decide), if_pos (by decide),
      hg.tags, if_neg (by decide), hx, Res.bind_ok]

theorem cues_pass (hw : r.Whole) {g : ReadSegment} {i : Option ReadInfo} {ts : Option (List ReadTrack)}
    {ch : Option (List (List ReadAtom))} {tg : Option (List (List ReadSimpleTag))} (hg : Has g start size i ts ch tg none)
    (hst : ∀ s ∈ g.stop, s = r.data.length) {p : Nat} {q : List Cue}
    (hat : At r.data p (cuesElement q)) (hmax : r.data.length < 2 ^ 48) :
    ∃ g', Passes r g p g' (p + (cuesElement q).length) ∧ 
      Has g' start size i ts ch tg (some (p + 4 + sizeWidth (Spec.cuesPayload q).length, (Spec.cuesPayload q).length)) := by
  have hid : IsId 4 0x1C53BB6B := by unfold IsId; decide +kernel
  unfold cuesElement at *
  have hle := hat.le (element_ne_nil _ _)
  have hx : headersElement r g 0x1C53BB6B (p + 4 + sizeWidth (Spec.cuesPayload q).length) (Spec.cuesPayload q).length =
      .ok { g with cues := g.cues.or (some (p + 4 + sizeWidth (Spec.cuesPayload q).length, (Spec.cuesPayload q).length)) } := by
    unfold headersElement
    rw [if_neg (by decide), if_neg (by decide), if_pos (by decide)]
  exact ⟨_, pass_element hw hst hid (elem_small hid (by omega)) hat (by decide) hx,
    ⟨hg.start, hg.size, hg.info, hg.tracks, hg.chapters, hg.tags, by simp [hg.cues], hg.clusters⟩⟩

/-- The end of the headers: a cluster, or the end of the file. -/
theorem headers_end (hw : r.Whole) {g : ReadSegment} {i : ReadInfo} {ts : List ReadTrack}
    {ch : Option (List (List ReadAtom))} {tg : Option (List (List ReadSimpleTag))} {cu : Option (Nat × Nat)}
    (hg : Has g start size (some i) (some ts) ch tg cu)
    (hst : ∀ s ∈ g.stop, s = r.data.length) {q F : Nat} (hF : 1 ≤ F)
    (hq : q = r.data.length ∨ ∃ m v, HeadAt r q 4 kMkvCluster m v) :
    headersLoop r F g q = ({ g with pos := q }, .ok ()) := by
  have hr := hw.sane
  have hle : q ≤ r.data.length := by
    rcases hq with h | ⟨m, v, h⟩
    · omega
    · have := h.le; omega
  have hstep : headersStep r g q = .ok none := by
    unfold headersStep
    rcases hq with h | ⟨m, v, h⟩
    · rw [if_pos]
      left
      unfold atEnd Rdr.Whole at *
      simp
      omega
    · have hl := h.le
      have hm := h.m1
      rw [if_neg ?_]
      · rw [h.headers1 hr (fun s hs => by have := hst s hs; omega), Res.bind_ok, h.readId]
        simp only [Res.orErr_ok, Res.bind_ok]
        rw [if_pos trivial]
      · unfold Rdr.Whole at hw
        rw [reached_neg (fun s hs => by have := hst s hs; omega)]
        unfold atEnd
        simp
        omega
  obtain ⟨k, rfl⟩ : ∃ k, F = k + 1 := ⟨F - 1, by omega⟩
  rw [headersLoop, hstep]
  simp only
  rw [show ({ g with pos := (q : Int) } : ReadSegment).stop = g.stop from rfl,
    past_neg (fun s hs => by have := hst s hs; omega), if_neg (by decide), hg.info, hg.tracks, if_neg (by simp), if_neg (by simp)]

/-- `CreateInstance` finds the Segment element. -/
theorem createInstance_ok (hw : r.Whole) {p m v : Nat} (h : HeadAt r p 4 kMkvSegment m v) :
    createInstance r p = .ok { start := p + 4 + m, pos := (p + 4 + m : Nat)
                               size := if v = unknownSize m ∨ (p + 4 + m + v > r.data.length) then none else some v } := by
  have hr := hw.sane
  have hle := h.le
  have hm := h.m1
  unfold Rdr.Whole at hw
  unfold createInstance
  rw [Res.refuse_neg (by omega), Res.bind_ok]
  obtain ⟨k, hk⟩ : ∃ k, r.data.length + 1 - p = k + 1 := ⟨r.data.length - p, by omega⟩
  rw [hk, createLoop, Res.refuse_neg (by unfold atEnd; simp; omega), Res.bind_ok, h.create1 hr, Res.bind_ok, h.readId]
  simp only [Res.orErr_ok, Res.bind_ok]
  rw [h.create2 hr, Res.bind_ok, h.readSize]
  simp only [Res.bind_ok]
  rw [if_pos trivial]
  have e : (v = unknownSize m ∨ r.total < 0 ∨ ((p + 4 + m + v : Nat) : Int) > r.total) ↔
      (v = unknownSize m ∨ p + 4 + m + v > r.data.length) := by omega
  simp only [e]

end

end Verif.Par
