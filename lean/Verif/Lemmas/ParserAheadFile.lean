/-
Following the seek head of a file of the muxer.
-/
import Verif.Lemmas.ParserAhead
import Verif.Lemmas.ParserSeekFile

namespace Verif.Par
open Verif Spec Mux

/-! ### The seek head stays -/

theorem headersElement_seekHead {r : Rdr} {g g' : ReadSegment} {id pos size : Nat}
    {x : List SeekEntry × List (Nat × Nat)} (hx : g.seekHead = some x)
    (h : headersElement r g id pos size = .ok g') : g'.seekHead = some x := by
  unfold headersElement at h
  split at h
  · obtain ⟨-, -, h⟩ := Res.bind_eq_ok.mp h
    obtain ⟨_, -, h⟩ := Res.bind_eq_ok.mp h
    cases h; exact hx
  · split at h
    · obtain ⟨-, -, h⟩ := Res.bind_eq_ok.mp h
      obtain ⟨_, -, h⟩ := Res.bind_eq_ok.mp h
      cases h; exact hx
    · split at h
      · cases h; exact hx
      · split at h
        · rw [if_pos (by rw [hx]; rfl)] at h
          cases h; exact hx
        · split at h
          · split at h
            · cases h; exact hx
            · obtain ⟨_, -, h⟩ := Res.bind_eq_ok.mp h
              cases h; exact hx
          · split at h
            · split at h
              · cases h; exact hx
              · obtain ⟨_, -, h⟩ := Res.bind_eq_ok.mp h
                cases h; exact hx
            · cases h; exact hx

theorem headersLoop_seekHead {r : Rdr} {x : List SeekEntry × List (Nat × Nat)} : ∀ (F : Nat) {g g' : ReadSegment} {p : Nat} {y : Res Unit},
    g.seekHead = some x → headersLoop r F g p = (g', y) → g'.seekHead = some x := by
  intro F
  induction F with
  | zero => intro g g' p y hx h; rw [headersLoop] at h; cases h; exact hx
  | succ F ih =>
    intro g g' p y hx h
    rw [headersLoop] at h
    split at h
    · rename_i g1 p1 hs
      refine ih ?_ h
      unfold headersStep at hs
      split at hs
      · cases hs
      · obtain ⟨-, -, hs⟩ := Res.bind_eq_ok.mp hs
        obtain ⟨⟨id, len⟩, -, hs⟩ := Res.bind_eq_ok.mp hs
        simp only at hs
        split at hs
        · cases hs
        · obtain ⟨-, -, hs⟩ := Res.bind_eq_ok.mp hs
          obtain ⟨⟨size, len2⟩, -, hs⟩ := Res.bind_eq_ok.mp hs
          simp only at hs
          obtain ⟨-, -, hs⟩ := Res.bind_eq_ok.mp hs
          obtain ⟨-, -, hs⟩ := Res.bind_eq_ok.mp hs
          obtain ⟨g2, h2, hs⟩ := Res.bind_eq_ok.mp hs
          cases hs
          exact headersElement_seekHead hx h2
    · cases h; exact hx
    · cases h; exact hx
    · cases h; exact hx

/-- The seek head at the start of the segment is read. -/
theorem region_seekHead {r : Rdr} (hw : r.Whole) {g : ReadSegment} (hst : ∀ s ∈ g.stop, s = r.data.length) {p n : Nat}
    {es : List (Nat × Nat)} (hl : es.length < 2 ^ 31) (hes : ∀ e ∈ es, (∃ n, IsId n e.1) ∧ e.2 < 2 ^ 63) (hsk : g.seekHead = none)
    (hat : At r.data p (element 0x114D9B74 (seekEntries es) ++ element 0xEC (List.replicate n 0))) (hmax : r.data.length < 2 ^ 48) :
    ∃ g1 q1 p0, Passes r g p g1 q1 ∧ g1.seekHead = some (seekReport p0 es, []) := by
  rw [at_append] at hat
  have hid : IsId 4 0x114D9B74 := by unfold IsId; decide +kernel
  have hle := hat.1.le (element_ne_nil _ _)
  have hel := element_length_id hid (seekEntries es)
  have hsk2 := seekHeadParse_at (r := r) hes hl (at_payload hid hat.1) (by unfold llongMax; omega)
  exact ⟨{ g with seekHead := some (seekReport (p + 4 + sizeWidth (seekEntries es).length) es, []) }, _, _,
    pass_element hw hst hid (by omega) hat.1 (by decide) (by
      unfold headersElement
      rw [if_neg (by decide), if_neg (by decide), if_neg (by decide), if_pos (by decide), hsk, if_neg (by decide), hsk2, Res.bind_ok]),
    rfl⟩

/-- The header of a file whose segment has a known size. -/
theorem headed {r : Rdr} {docType payload : Bytes} {i : ReadInfo} {ts : List ReadTrack}
    {ch : Option (List (List ReadAtom))} {tg : Option (List (List ReadSimpleTag))} {es : List (Nat × Nat)} {at' : Nat}
    {cu : Option (Nat × Nat)}
    (hdoc : docType ≠ [] ∧ docType.length ≤ 20000000) (hw : r.Whole)
    (hr : r.data = ebmlHeader docType 4 ++ (segmentId ++ (vint 8 payload.length ++ payload))) (hmax : r.data.length < 2 ^ 48)
    (hpass : ∀ start, At r.data start payload → start + payload.length = r.data.length →
      ∃ g g1 q1 p0, Passes r { start := start, pos := (start : Nat), size := some payload.length } start g (start + at') ∧
        Has g start (some payload.length) (some i) (some ts) ch tg (cu.map fun c => (start + c.1, c.2)) ∧
        (start + at' = r.data.length ∨ ∃ m v, HeadAt r (start + at') 4 kMkvCluster m v) ∧
        Passes r { start := start, pos := (start : Nat), size := some payload.length } start g1 q1 ∧
        g1.seekHead = some (seekReport p0 es, [])) :
    ∃ pos head g g' p0, ebmlHeadParse r = .ok (.done pos head) ∧ createInstance r pos = .ok g ∧ g.parseHeaders r = (g', .ok ()) ∧
      Has g' g'.start (some payload.length) (some i) (some ts) ch tg (cu.map fun c => (g'.start + c.1, c.2)) ∧
      g'.seekHead = some (seekReport p0 es, []) ∧ At r.data g'.start payload ∧ g'.start + payload.length = r.data.length ∧
      g'.stop = some r.data.length ∧ g'.pos = (g'.start + at' : Nat) := by
  have e1 : segmentId.length = 4 := rfl
  have e2 : (vint 8 payload.length).length = 8 := vint_length _ _
  have hlen : r.data.length = (ebmlHeader docType 4).length + (4 + (8 + payload.length)) := by
    rw [hr]
    simp only [List.length_append, e1, e2]
  have hat : At r.data 0 (ebmlHeader docType 4 ++ (segmentId ++ (vint 8 payload.length ++ payload))) :=
    At.of_eq (pre := []) (post := []) (by rw [hr]; simp)
  simp only [at_append, Nat.zero_add] at hat
  obtain ⟨a1, a2, a3, a4⟩ := hat
  have hhead : HeadAt r (ebmlHeader docType 4).length 4 kMkvSegment 8 (if true then payload.length else 2 ^ 56 - 1) :=
    segment_head (by rw [at_append]; exact ⟨a2, a3⟩) (by omega)
  rw [if_pos rfl] at hhead
  have hc := createInstance_ok hw hhead
  have hu : unknownSize 8 = 2 ^ 56 - 1 := by decide
  rw [hu, if_neg (by omega)] at hc
  rw [e1, e2] at a4
  obtain ⟨g, g1, q1, p0, h1, h2, h3, h4, h5⟩ := hpass _ a4 (by omega)
  have hstop : ∀ s ∈ g.stop, s = r.data.length := by
    intro s hs
    unfold ReadSegment.stop at hs
    rw [h2.start, h2.size] at hs
    simp at hs
    omega
  have hq : (ebmlHeader docType 4).length + 4 + 8 + at' ≤ r.data.length := by
    rcases h3 with h | ⟨m, v, h⟩
    · omega
    · have := h.le; omega
  obtain ⟨F', hF', hloop⟩ := h1 (r.data.length + 2 - ((ebmlHeader docType 4).length + 4 + 8)) (Nat.le_refl _)
  rw [headers_end hw h2 hstop (by omega) h3] at hloop
  obtain ⟨F2, -, hloop2⟩ := h4 (r.data.length + 2 - ((ebmlHeader docType 4).length + 4 + 8)) (Nat.le_refl _)
  rw [hloop] at hloop2
  have hE := Props.C25_round_trip (r := r) (d := docType) (v := 4) (pre := [])
    (post := segmentId ++ (vint 8 payload.length ++ payload)) (by decide) (by decide) hdoc.1 hdoc.2
    (by rw [hr]; rfl) (by decide) (by simp) (.inr hw) (by unfold llongMax; omega)
  rw [List.length_nil, Nat.zero_add] at hE
  have hs : ({ g with pos := (((ebmlHeader docType 4).length + 4 + 8 + at' : Nat) : Int) } : ReadSegment).start =
      (ebmlHeader docType 4).length + 4 + 8 := h2.start
  refine ⟨(ebmlHeader docType 4).length, _, _, _, p0, hE, hc, ?_, ?_, headersLoop_seekHead F2 h5 hloop2.symm, ?_, ?_, ?_, ?_⟩
  · unfold ReadSegment.parseHeaders
    unfold Rdr.Whole at hw
    rw [if_neg (by omega), if_neg (by simp only; omega), if_neg]
    · exact hloop
    · rw [past_neg (fun s hs => by
        unfold ReadSegment.stop at hs
        simp at hs
        simp only [Int.toNat_natCast]
        omega)]
      simp [ReadSegment.stop, beyond]
      omega
  · refine (fun (k : ∀ S, g.start = S → Has { g with pos := (((ebmlHeader docType 4).length + 4 + 8 + at' : Nat) : Int) } S
        (some payload.length) (some i) (some ts) ch tg (cu.map fun c => (S + c.1, c.2))) => k _ rfl) ?_
    intro S hS
    have hS' := h2.start.symm.trans hS
    subst hS'
    exact ⟨h2.start, h2.size, h2.info, h2.tracks, h2.chapters, h2.tags, h2.cues, h2.clusters⟩
  · rw [hs]; exact a4
  · rw [hs]; omega
  · show (g.size.map (g.start + ·)) = _
    rw [h2.size, h2.start]
    simp only [Option.map_some, Option.some.injEq]
    omega
  · rw [hs]

/-- `ParseCues` at a Cues element. -/
theorem parseCues_ok {r : Rdr} (hw : r.Whole) {g : ReadSegment} (hst : ∀ s ∈ g.stop, s = r.data.length) {off m : Nat} {payload : Bytes}
    (he : ElemAt r (g.start + off) 4 kMkvCues m payload) (hfit : g.start + off + 4 + m + payload.length ≤ r.data.length)
    (hmax : r.data.length < 2 ^ 48) (hc : g.cues = none) :
    ∃ b, g.parseCues r (off : Int) = .ok ({ g with cues := if payload.length = 0 then none else some (g.start + off + 4 + m, payload.length) }, b) := by
  have hr := hw.sane
  have hd := he.head
  have hm := hd.m1
  unfold ReadSegment.parseCues
  rw [if_neg (by rw [hc]; simp), Res.refuse_neg (by omega), Res.bind_ok]
  unfold Rdr.Whole at hw
  unfold Res.assert
  rw [if_pos (by omega), Res.bind_ok, if_pos (by unfold llongMax; omega), Res.bind_ok]
  simp only [Int.toNat_natCast]
  rw [if_neg (by omega), hd.in1 hr (fun s hs => by have := hst s hs; omega), Res.bind_ok, hd.readId]
  simp only [Res.orErr_ok, Res.bind_ok]
  rw [Res.refuse_neg (by simp), Res.bind_ok, if_pos (past_neg (fun s hs => by have := hst s hs; omega)), Res.bind_ok,
    hd.in2 hr (fun s hs => by have := hst s hs; omega), Res.bind_ok, hd.readSize]
  simp only [Res.bind_ok]
  by_cases h0 : payload.length = 0
  · rw [if_pos h0, if_pos h0]
    refine ⟨false, ?_⟩
    rw [← hc]
  · rw [if_neg h0, if_neg h0, if_pos (past_neg (fun s hs => by have := hst s hs; omega)), Res.bind_ok,
      Res.refuse_neg (by rw [past_neg (fun s hs => by have := hst s hs; omega)]; decide), Res.bind_ok, beyond_neg hr (by omega),
      if_neg (by decide), Res.refuse_neg (by omega), Res.bind_ok]
    exact ⟨true, rfl⟩

theorem seekReport_find (id : Nat) : ∀ (es : List (Nat × Nat)) (p : Nat),
    ((seekReport p es).find? fun e => decide (e.id = id)).map (·.pos) =
      ((es.find? fun e => decide (e.1 = id)).map fun e => (e.2 : Int)) := by
  intro es
  induction es with
  | nil => intro p; rfl
  | cons e es ih =>
    intro p
    rw [seekReport, List.find?_cons, List.find?_cons]
    simp only
    cases decide (e.1 = id) with
    | true => rfl
    | false => exact ih _

theorem places_cues (p : Parts) : (p.places.find? fun e => decide (e.1 = 0x1C53BB6B)) = if p.cues.isSome then some (0x1C53BB6B, p.cuesAt) else none := by
  unfold Parts.places
  cases p.chapters <;> cases p.tags <;> cases p.cues <;> simp

theorem places_clusters (p : Parts) : (p.places.find? fun e => decide (e.1 = 0x1F43B675)) = some (0x1F43B675, p.clustersAt) := by
  unfold Parts.places
  cases p.chapters <;> cases p.tags <;> cases p.cues <;> simp

theorem frontPlaces_cues (p : Parts) : (p.frontPlaces.find? fun e => decide (e.1 = 0x1C53BB6B)) =
    if p.cues.isSome then some (0x1C53BB6B, p.clustersAt) else none := by
  unfold Parts.frontPlaces Parts.clustersAt
  cases p.chapters <;> cases p.tags <;> cases p.cues <;> simp

theorem frontPlaces_clusters (p : Parts) : (p.frontPlaces.find? fun e => decide (e.1 = 0x1F43B675)) =
    some (0x1F43B675, p.frontClustersAt) := by
  unfold Parts.frontPlaces
  cases p.chapters <;> cases p.tags <;> cases p.cues <;> simp

end Verif.Par

namespace Verif.Props
open Verif Verif.Par Verif.Mux Spec

theorem _root_.Verif.Par.SizedChain.first {r : Rdr} {scale p q : Nat} {x : Nat × ClusterOf} {xs : List (Nat × ClusterOf)}
    (h : SizedChain r scale p (x :: xs) q) : x.1 = p := by
  cases h with
  | cons h _ _ => rfl

/-- A segment of which the header and the place of the cues are known. -/
structure ReadyAhead (r : Rdr) (scale : Nat) (g : ReadSegment) (off : Nat) (cs : List (Nat × ClusterOf)) (q : List Cue) : Prop where
  unloaded : g.clusters = []
  stop : g.stop = some r.data.length
  info : ∃ i, g.info = some i ∧ i.timecodeScale = scale
  chain : ∃ e tl, SizedChain r scale (g.start + off) (cs.map fun c => (g.start + c.1, c.2)) e ∧ TailAt r e tl
  cues : (∃ c, 0 < c ∧ g.cues = some (c, (Spec.cuesPayload q).length) ∧ At r.data c (Spec.cuesPayload q)) ∨ (g.cues = none ∧ q = [])
  seek : seekHeadPlace g 0x1F43B675 = some (off : Int)
  pos : 0 < off

section
variable {r : Rdr} {scale track off : Nat} {numbered : Bool} {g : ReadSegment} {cs xs : List (Nat × ClusterOf)} {q : List Cue} {a : Ahead}

/-- One seek. -/
theorem seekAhead_ok (hw : r.Whole) (hR : ReadyAhead r scale g off cs q) (hq : CuesOf scale track numbered cs q)
    (hread : ∀ c ∈ q, Readable c)
    (hnum : numbered = true ∨ ∀ f ∈ (watchedClusters scale cs).flatten, f.track = track) (hscale : 1 ≤ scale)
    (hord : ((watchedClusters scale cs).flatten.filter fun f => decide (f.track = track)).Pairwise fun a b => a.time ≤ b.time)
    (hmax : ∀ f ∈ (watchedClusters scale cs).flatten, f.time * scale ≤ llongMax) {fuel : Nat} (hfuel : r.data.length < fuel)
    (hk : Knows r scale g (cs.map fun c => (g.start + c.1, c.2)) a xs) (time : Nat) :
    ∃ a' ys, seekAhead r fuel track a time = .ok (a', landing scale track time (watchedClusters scale cs)) ∧
      Knows r scale g (cs.map fun c => (g.start + c.1, c.2)) a' ys := by
  obtain ⟨i, hi, hsc⟩ := hR.info
  rcases hR.cues with ⟨c, h0, hcu, hpl⟩ | ⟨hcu, rfl⟩
  case inr =>
    have : landings track (watchedClusters scale cs) = [] := List.length_eq_zero_iff.mp (cues_places hq).1.symm
    unfold seekAhead landing
    rw [hk.seg, hcu, this]
    exact ⟨a, xs, rfl, hk⟩
  have hcount := cuesPayload_count q
  have hfit : (Spec.cuesPayload q).length ≤ r.data.length := by
    by_cases h0 : Spec.cuesPayload q = []
    · rw [h0]; simp
    · have := hpl.le h0
      omega
  obtain ⟨p, l1, l2, l3⟩ := loadCuePoints_ok (fuel := fuel) h0 hread hpl (by omega)
  obtain ⟨e, tl, hchain, htail⟩ := hR.chain
  unfold seekAhead
  rw [hk.seg, hcu, hi]
  simp only
  rw [l1, Res.bind_ok, hsc]
  rcases finds_place hq hnum hscale hord hmax l2 l3 time with ⟨e1, e2⟩ | ⟨k, off', n, cl, f, cp, tp, a1, a2, a3, a4, a5, a6, a7, a8⟩
  · rw [e1, e2, Res.bind_ok]
    exact ⟨a, xs, rfl, hk⟩
  rw [a3, a8]
  simp only [Res.bind_ok]
  have hx : (cs.map fun c => (g.start + c.1, c.2))[k]? = some (g.start + off', cl) := by rw [List.getElem?_map, a1]; rfl
  have hxm := List.mem_of_getElem? hx
  obtain ⟨hkl, hxe⟩ := List.getElem?_eq_some_iff.mp hx
  have hsplit : (cs.map fun c => (g.start + c.1, c.2)) = (cs.map fun c => (g.start + c.1, c.2)).take k ++
      (g.start + off', cl) :: (cs.map fun c => (g.start + c.1, c.2)).drop (k + 1) := by
    conv => lhs; rw [← List.take_append_drop k (cs.map fun c => (g.start + c.1, c.2)), List.drop_eq_getElem_cons hkl, hxe]
  have hsc' := hchain
  rw [hsplit] at hsc'
  obtain ⟨len, w, blocks, c1, c2, -, -⟩ := hsc'.split
  obtain ⟨b, ys, j, b1, b2, b3⟩ := hk.locate hchain.sorted.1 hxm (c1.fresh hw c2) (off := tp.pos) (by rw [a4]; simp only; omega)
  obtain ⟨d, -, d2, d3⟩ := b2.get b3
  have hcnt := hchain.count
  have hcl := hcnt.2 _ hxm
  have htl := htail.le
  simp only at hcl
  obtain ⟨c3, es, done, rest, bl, en, k1, k2, k3, k4, k5, k6⟩ := getEntryFor_ok (tracks := g.tracks) hw d3 a2
    (fuel := fuel) (by omega) a5 a6 a7
  obtain ⟨p1, p2⟩ := b2.put b3 (c := c3) ⟨k2, c3, es, done, rest, bl, k3, k4, k6, by
    intro h0; simp only at h0; rw [h0] at a2; cases a2⟩
  have hgb : a.getBlock r fuel cp tp = .ok (b.put j c3, some (j, n, en)) := by
    unfold Ahead.getBlock
    rw [b1, Res.bind_ok]
    simp only
    rw [d2]
    simp only
    rw [b2.seg, k1, Res.bind_ok]
    rfl
  rw [hgb, Res.bind_ok]
  simp only
  rw [p2]
  simp only
  have hlen : es.length = done.length := by simpa using congrArg List.length k4.shown
  have hfl : done.length + rest.length = cl.frames.length := by rw [← List.length_append, k6]
  unfold ReadCluster.getTimeCode
  rw [k3]
  simp only [Res.bind_ok]
  rw [k4.timecode]
  simp only [Option.elim]
  rw [watchFrom_ok hw fuel k4 k5 (by omega), k6, Res.bind_ok]
  rcases p1.getNext hw hR.stop rfl (by have := hR.pos; omega) hsplit hchain htail b3 with ⟨g0, g1⟩ | ⟨y, post', a', zs, k', g0, g1, g2, g3⟩
  · rw [g1, Res.bind_ok]
    simp only
    rw [playAhead_none, Res.bind_ok]
    refine ⟨_, _, ?_, p1⟩
    have : cs.drop (k + 1) = [] := by
      rw [← List.map_drop] at g0
      exact List.map_eq_nil_iff.mp g0
    simp only [this, List.map_nil, List.flatten_nil, List.append_nil]
  · rw [g1, Res.bind_ok]
    simp only
    have hsplit2 : (cs.map fun c => (g.start + c.1, c.2)) = ((cs.map fun c => (g.start + c.1, c.2)).take k ++ [(g.start + off', cl)]) ++ y :: post' := by
      rw [List.append_assoc, List.singleton_append, ← g0]; exact hsplit
    have hpl' : post'.length < fuel := by
      have := congrArg List.length hsplit2
      simp only [List.length_append, List.length_cons, List.length_nil] at this
      have := hcnt.1
      omega
    obtain ⟨a2', ws, i1, i2⟩ := playAhead_ok hw hR.stop rfl (by have := hR.pos; omega) hchain htail (rounds := fuel) (by omega) post'
      hsplit2 g2 g3 hpl'
    rw [i1, Res.bind_ok]
    refine ⟨_, _, ?_, i2⟩
    rw [← g0, ← List.map_drop, List.map_append, List.map_map]
    rfl

/-- One seek after the other. -/
theorem seekAll_ok (hw : r.Whole) (hR : ReadyAhead r scale g off cs q) (hq : CuesOf scale track numbered cs q)
    (hread : ∀ c ∈ q, Readable c)
    (hnum : numbered = true ∨ ∀ f ∈ (watchedClusters scale cs).flatten, f.track = track) (hscale : 1 ≤ scale)
    (hord : ((watchedClusters scale cs).flatten.filter fun f => decide (f.track = track)).Pairwise fun a b => a.time ≤ b.time)
    (hmax : ∀ f ∈ (watchedClusters scale cs).flatten, f.time * scale ≤ llongMax) {fuel : Nat} (hfuel : r.data.length < fuel)
    (times : List Nat) : ∀ {a : Ahead} {xs : List (Nat × ClusterOf)}, Knows r scale g (cs.map fun c => (g.start + c.1, c.2)) a xs →
    ∃ a' ys, seekAll r fuel track a times = .ok (a', times.map fun t => landing scale track t (watchedClusters scale cs)) ∧
      Knows r scale g (cs.map fun c => (g.start + c.1, c.2)) a' ys := by
  induction times with
  | nil => intro a xs hk; exact ⟨a, xs, rfl, hk⟩
  | cons t ts ih =>
    intro a xs hk
    obtain ⟨a1, x1, h1, h2⟩ := seekAhead_ok hw hR hq hread hnum hscale hord hmax hfuel hk t
    obtain ⟨a2, x2, h3, h4⟩ := ih h2
    refine ⟨a2, x2, ?_, h4⟩
    rw [seekAll, h1, Res.bind_ok]
    simp only
    rw [h3]
    rfl

/-- Playing from the place the seek head names. -/
theorem playFromSeekHead_ok (hw : r.Whole) (hR : ReadyAhead r scale g off cs q) (hne : cs ≠ []) {fuel : Nat} (hfuel : r.data.length < fuel)
    (hk : Knows r scale g (cs.map fun c => (g.start + c.1, c.2)) a xs) :
    ∃ a' ys, playFromSeekHead r fuel a = .ok (a', (watchedClusters scale cs).flatten) ∧
      Knows r scale g (cs.map fun c => (g.start + c.1, c.2)) a' ys := by
  obtain ⟨e, tl, hchain, htail⟩ := hR.chain
  cases cs with
  | nil => exact absurd rfl hne
  | cons c cs =>
    have hc := hchain
    rw [List.map_cons] at hc
    obtain ⟨len, w, blocks, c1, c2, -, -⟩ := SizedChain.split (pre := []) hc
    have hoff : g.start + c.1 = g.start + off := hc.first
    obtain ⟨b, ys, j, b1, b2, b3⟩ := hk.locate hchain.sorted.1 (x := (g.start + c.1, c.2)) (by simp) (c1.fresh hw c2) (off := (off : Int))
      (by simp only; omega)
    have hcnt := hchain.count.1
    have htl := htail.le
    simp only [List.map_cons, List.length_cons, List.length_map] at hcnt
    obtain ⟨a2', ws, i1, i2⟩ := playAhead_ok hw hR.stop rfl (by have := hR.pos; omega) hchain htail (rounds := fuel) (by omega)
      (cs.map fun c => (g.start + c.1, c.2)) (pre := []) (List.map_cons ..) b2 b3 (fuel := fuel) (by rw [List.length_map]; omega)
    refine ⟨a2', ws, ?_, i2⟩
    unfold playFromSeekHead Ahead.findOrPreload
    rw [hk.seg, hR.seek]
    simp only
    rw [if_neg (by omega), b1, Res.bind_ok]
    simp only
    rw [i1, watchedClusters_flatten, clusterFrames]
    simp only [List.map_cons, List.map_map, Function.comp_def]

/-- Everything, in any order. -/
theorem ready_ahead (hw : r.Whole) (hR : ReadyAhead r scale g off cs q) (hq : CuesOf scale track numbered cs q)
    (hread : ∀ c ∈ q, Readable c)
    (hnum : numbered = true ∨ ∀ f ∈ (watchedClusters scale cs).flatten, f.track = track) (hscale : 1 ≤ scale)
    (hord : ((watchedClusters scale cs).flatten.filter fun f => decide (f.track = track)).Pairwise fun a b => a.time ≤ b.time)
    (hmax : ∀ f ∈ (watchedClusters scale cs).flatten, f.time * scale ≤ llongMax) {fuel : Nat} (hfuel : r.data.length < fuel)
    (hne : cs ≠ []) (before after : List Nat) : ∃ a1 a2 a3,
      seekAll r fuel track ⟨g, []⟩ before = .ok (a1, before.map fun t => landing scale track t (watchedClusters scale cs)) ∧
      playFromSeekHead r fuel a1 = .ok (a2, (watchedClusters scale cs).flatten) ∧
      seekAll r fuel track a2 after = .ok (a3, after.map fun t => landing scale track t (watchedClusters scale cs)) := by
  have hk : Knows r scale g (cs.map fun c => (g.start + c.1, c.2)) ⟨g, []⟩ [] :=
    ⟨rfl, hR.unloaded, .nil, .nil, by simp, fun x hx => by
      obtain ⟨c, -, rfl⟩ := List.mem_map.mp hx
      simp only
      omega⟩
  obtain ⟨a1, x1, h1, h2⟩ := seekAll_ok hw hR hq hread hnum hscale hord hmax hfuel before hk
  obtain ⟨a2, x2, h3, h4⟩ := playFromSeekHead_ok hw hR hne hfuel h2
  obtain ⟨a3, x3, h5, -⟩ := seekAll_ok hw hR hq hread hnum hscale hord hmax hfuel after h4
  exact ⟨a1, a2, a3, h1, h3, h5⟩

theorem places_small {p : Parts} (hsize : p.payload.length < 2 ^ 48) :
    p.places.length < 2 ^ 31 ∧ ∀ e ∈ p.places, (∃ n, IsId n e.1) ∧ e.2 < 2 ^ 63 := by
  refine ⟨by have := (places_ids p).1; omega, fun e he => ⟨⟨4, (places_ids p).2 e he⟩, ?_⟩⟩
  have hb : p.cuesAt + (p.cues.getD []).length < 2 ^ 48 := by
    simp only [Parts.cuesAt, Parts.clustersAt, Parts.tagsAt, Parts.chaptersAt, Parts.tracksAt]
    simp only [Parts.payload, List.length_append] at hsize
    omega
  simp only [Parts.places, List.mem_append, List.mem_cons, List.not_mem_nil, or_false] at he
  simp only [Parts.cuesAt, Parts.clustersAt, Parts.tagsAt, Parts.chaptersAt, Parts.tracksAt] at hb he
  rcases he with ((((rfl | rfl) | he) | he) | rfl) | he
  · simp only; omega
  · simp only; omega
  · split at he
    · rw [List.mem_singleton.mp he]; simp only; omega
    · cases he
  · split at he
    · rw [List.mem_singleton.mp he]; simp only; omega
    · cases he
  · simp only; omega
  · split at he
    · rw [List.mem_singleton.mp he]; simp only; omega
    · cases he

theorem frontPlaces_small {p : Parts} (hsize : p.frontPayload.length < 2 ^ 48) :
    p.frontPlaces.length < 2 ^ 31 ∧ ∀ e ∈ p.frontPlaces, (∃ n, IsId n e.1) ∧ e.2 < 2 ^ 63 := by
  refine ⟨by have := (frontPlaces_ids p).1; omega, fun e he => ⟨⟨4, (frontPlaces_ids p).2 e he⟩, ?_⟩⟩
  have hb : p.frontClustersAt + p.clusters.length < 2 ^ 48 := by
    simp only [Parts.frontClustersAt, Parts.tagsAt, Parts.chaptersAt, Parts.tracksAt]
    simp only [Parts.frontPayload, List.length_append] at hsize
    omega
  simp only [Parts.frontPlaces, List.mem_append, List.mem_cons, List.not_mem_nil, or_false] at he
  simp only [Parts.frontClustersAt, Parts.tagsAt, Parts.chaptersAt, Parts.tracksAt] at hb he
  rcases he with ((((rfl | rfl) | he) | he) | rfl) | he
  · simp only; omega
  · simp only; omega
  · split at he
    · rw [List.mem_singleton.mp he]; simp only; omega
    · cases he
  · split at he
    · rw [List.mem_singleton.mp he]; simp only; omega
    · cases he
  · simp only; omega
  · split at he
    · rw [List.mem_singleton.mp he]; simp only; omega
    · cases he

theorem _root_.Verif.Par.SizedChain.start_head {r : Rdr} {scale p q : Nat} {xs : List (Nat × ClusterOf)}
    (h : SizedChain r scale p xs q) (hne : xs ≠ []) : ∃ m v, HeadAt r p 4 kMkvCluster m v := by
  cases h with
  | nil => exact absurd rfl hne
  | cons h _ _ => exact ⟨_, _, h.head⟩

theorem seekHeadPlace_of {g : ReadSegment} {p0 id at' : Nat} {es : List (Nat × Nat)} (h : g.seekHead = some (seekReport p0 es, []))
    (hf : (es.find? fun e => decide (e.1 = id)) = some (id, at')) : seekHeadPlace g id = some (at' : Int) := by
  unfold seekHeadPlace
  rw [h, Option.bind_some, seekReport_find, hf]
  rfl

/-- A file whose clusters come before the cues. -/
theorem ahead_file {p : Parts} {docType : Bytes} {ts : List Track} {ch : Option (List Chapter)} {tg : Option (List Tag)}
    {scale : Nat} {du : Option UInt32} {date : Option Int} {muxing writing : Bytes} {file : Bytes} {cs : List (Nat × ClusterOf)}
    (hv : Viewable docType scale du muxing writing ts ch tg) (hreg : p.HasSeekHead true)
    (hi : p.info = infoElement scale (du.map UInt32.toNat) date muxing writing) (htr : p.tracks = (tracksTree ts).bytes)
    (hch : p.chapters = ch.map fun c => (chaptersTree c).bytes) (htg : p.tags = tg.map fun t => (tagsTree t).bytes)
    (hfile : file = p.file docType true) (hmax : file.length < 2 ^ 48) {q : List Cue} (hcues : p.cues = some (cuesElement q))
    (hcs : ClustersAt scale true p.clustersAt cs p.clusters) (hne : cs ≠ []) (hfine : ∀ f ∈ clusterFrames cs, Fine scale f)
    (hq : CuesOf scale track numbered cs q)
    (hnum : numbered = true ∨ ∀ f ∈ (watchedClusters scale cs).flatten, f.track = track) (hscale : 1 ≤ scale)
    (hord : ((watchedClusters scale cs).flatten.filter fun f => decide (f.track = track)).Pairwise fun a b => a.time ≤ b.time)
    (hlong : ∀ f ∈ (watchedClusters scale cs).flatten, f.time * scale ≤ llongMax) :
    SeeksAheadAs file scale track (watchedClusters scale cs) := by
  intro r hr htotal fuel hfuel
  have hw : r.Whole := by unfold Rdr.Whole; rw [htotal, hr]
  have hmax' : r.data.length < 2 ^ 48 := by rw [hr]; exact hmax
  have hsize : p.payload.length < 2 ^ 48 := by
    have : p.payload.length ≤ (p.file docType true).length := by
      simp only [Parts.file, List.length_append]; omega
    rw [← hfile] at this; omega
  obtain ⟨es1, es2⟩ := places_small hsize
  have hrok := regionOk hreg hsize
  have hstart : ∀ start, At r.data start p.payload → start + p.payload.length = r.data.length →
      ∃ e tl, SizedChain r scale (start + p.clustersAt) (cs.map fun c => (start + c.1, c.2)) e ∧ TailAt r e tl ∧
        At r.data (start + p.cuesAt) (cuesElement q) ∧ start + p.cuesAt + (cuesElement q).length = r.data.length := by
    intro start hat hend
    obtain ⟨g, -, -, h3⟩ := start_pass (rest := p.clusters ++ p.cues.getD []) (size := some p.payload.length) hw hmax' hv hrok hi htr
      hch htg (by intro n hn; cases hn; exact hend) hat
    have hl : start + p.clustersAt + p.clusters.length + (p.cues.getD []).length = r.data.length := by
      rw [← hend]
      simp only [Parts.payload, List.length_append, Parts.clustersAt, Parts.tagsAt, Parts.chaptersAt, Parts.tracksAt]
      omega
    rw [at_append] at h3
    rw [hcues] at hl h3
    simp only [Option.getD_some] at hl h3
    have e1 : start + p.cuesAt = start + p.clustersAt + p.clusters.length := by unfold Parts.cuesAt; omega
    rw [e1]
    have ht := (cues_tail (start := start) (p := p.cuesAt) (q := q) (by rw [e1]; exact h3.2) (by rw [e1]; exact hl) hmax').1
    rw [e1] at ht
    exact ⟨_, _, SizedChain.of hcs hmax' rfl h3.1 (by omega) hfine, ht, h3.2, hl⟩
  have hreg' := hreg
  unfold Parts.HasSeekHead at hreg'
  rw [if_pos rfl] at hreg'
  obtain ⟨n, hn⟩ := hreg'
  obtain ⟨pos, head, g, g', p0, h1, h2, h3, h4, h5, h6, h7, h8, -⟩ := headed (payload := p.payload) (docType := docType)
    (i := seenInfo scale du muxing writing) (ts := ts.map seenTrack) (ch := ch.map seenChapters) (tg := tg.map seenTags)
    (es := p.places) (at' := p.clustersAt) (cu := none) hv.docType hw (by rw [hr, hfile]; rfl) hmax' (by
      intro start hat hend
      have hs : ∀ n ∈ some p.payload.length, start + n = r.data.length := by intro n hn; cases hn; exact hend
      obtain ⟨g, k1, k2, -⟩ := start_pass (rest := p.clusters ++ p.cues.getD []) (size := some p.payload.length) hw hmax' hv hrok hi
        htr hch htg hs hat
      have hat' := hat
      unfold Parts.payload at hat'
      rw [at_append] at hat'
      obtain ⟨g1, q1, p0, m1, m2⟩ := region_seekHead (g := { start := start, pos := (start : Nat), size := some p.payload.length }) hw
        (by intro s hs; unfold ReadSegment.stop at hs; simp at hs; omega) es1 es2 rfl (hn ▸ hat'.1) hmax'
      obtain ⟨e, tl, c1, -⟩ := hstart start hat hend
      exact ⟨g, g1, q1, p0, k1, k2, .inr (c1.start_head (by simpa using hne)), m1, m2⟩)
  obtain ⟨e, tl, c1, c2, c3, c4⟩ := hstart g'.start h6 h7
  have hid : IsId 4 0x1C53BB6B := by unfold IsId; decide +kernel
  have hla := element_length_id hid (Spec.cuesPayload q)
  have hpa := at_payload hid c3
  unfold cuesElement at c3 c4
  obtain ⟨b, hb⟩ := parseCues_ok (g := g') (off := p.cuesAt) hw (by rw [h8]; intro s hs; cases hs; rfl)
    (elemAt hid (by omega) c3) (by omega) hmax' (by rw [h4.cues]; rfl)
  have hR : ReadyAhead r scale { g' with cues := (if (Spec.cuesPayload q).length = 0 then none
      else some (g'.start + p.cuesAt + 4 + sizeWidth (Spec.cuesPayload q).length, (Spec.cuesPayload q).length)) } p.clustersAt cs q := by
    refine ⟨h4.clusters, h8, ⟨_, h4.info, rfl⟩, ⟨e, tl, c1, c2⟩, ?_, ?_, ?_⟩
    · by_cases h0 : (Spec.cuesPayload q).length = 0
      · have := cuesPayload_count q
        exact .inr ⟨by simp only [h0, if_true], List.length_eq_zero_iff.mp (by omega)⟩
      · exact .inl ⟨_, by omega, by simp only [h0, if_false], hpa⟩
    · exact seekHeadPlace_of h5 (places_clusters p)
    · have : 0 < p.info.length := by
        rw [hi]; exact List.length_pos_iff.mpr (element_ne_nil _ _)
      simp only [Parts.clustersAt, Parts.tagsAt, Parts.chaptersAt, Parts.tracksAt]
      omega
  refine ⟨pos, head, g, g', _, h1, h2, h3, h4.clusters, ?_, hR.unloaded, fun before after =>
    ready_ahead hw hR hq (cues_readable hq hcs (by
        simp only [Parts.payload, List.length_append] at hsize
        simp only [Parts.clustersAt, Parts.tagsAt, Parts.chaptersAt, Parts.tracksAt]
        omega) hfine) hnum hscale hord hlong (by rw [hr]; exact hfuel) hne before after⟩
  unfold followToCues
  rw [seekHeadPlace_of h5 (id := 0x1C53BB6B) (by rw [places_cues, hcues]; rfl)]
  simp only
  rw [hb, Res.bind_ok]

/-- A file whose cues come first. -/
theorem ahead_front {p : Parts} {docType : Bytes} {ts : List Track} {ch : Option (List Chapter)} {tg : Option (List Tag)}
    {scale : Nat} {du : Option UInt32} {date : Option Int} {muxing writing : Bytes} {file : Bytes} {cs : List (Nat × ClusterOf)}
    (hv : Viewable docType scale du muxing writing ts ch tg) (hreg : p.HasFrontSeekHead)
    (hi : p.info = infoElement scale (du.map UInt32.toNat) date muxing writing) (htr : p.tracks = (tracksTree ts).bytes)
    (hch : p.chapters = ch.map fun c => (chaptersTree c).bytes) (htg : p.tags = tg.map fun t => (tagsTree t).bytes)
    (hfile : file = p.frontFile docType) (hmax : file.length < 2 ^ 48) {q : List Cue} (hcues : p.cues = some (cuesElement q))
    (hcs : ClustersAt scale true p.frontClustersAt cs p.clusters) (hne : cs ≠ []) (hfine : ∀ f ∈ clusterFrames cs, Fine scale f)
    (hq : CuesOf scale track numbered cs q)
    (hnum : numbered = true ∨ ∀ f ∈ (watchedClusters scale cs).flatten, f.track = track) (hscale : 1 ≤ scale)
    (hord : ((watchedClusters scale cs).flatten.filter fun f => decide (f.track = track)).Pairwise fun a b => a.time ≤ b.time)
    (hlong : ∀ f ∈ (watchedClusters scale cs).flatten, f.time * scale ≤ llongMax) :
    SeeksAheadAs file scale track (watchedClusters scale cs) := by
  intro r hr htotal fuel hfuel
  have hw : r.Whole := by unfold Rdr.Whole; rw [htotal, hr]
  have hmax' : r.data.length < 2 ^ 48 := by rw [hr]; exact hmax
  have hsize : p.frontPayload.length < 2 ^ 48 := by
    have : p.frontPayload.length ≤ (p.frontFile docType).length := by
      simp only [Parts.frontFile, List.length_append]; omega
    rw [← hfile] at this; omega
  obtain ⟨es1, es2⟩ := frontPlaces_small hsize
  have hrok := frontRegionOk hreg hsize
  have hid : IsId 4 0x1C53BB6B := by unfold IsId; decide +kernel
  have hfc : p.frontClustersAt = p.clustersAt + (cuesElement q).length := by
    simp only [Parts.frontClustersAt, Parts.clustersAt, hcues, Option.getD_some]
  have hstart : ∀ start, At r.data start p.frontPayload → start + p.frontPayload.length = r.data.length →
      ∃ e, SizedChain r scale (start + p.frontClustersAt) (cs.map fun c => (start + c.1, c.2)) e ∧ TailAt r e none ∧
        At r.data (start + p.clustersAt) (cuesElement q) ∧
        ∃ g', Passes r { start := start, pos := (start : Nat), size := some p.frontPayload.length } start g' (start + p.frontClustersAt) ∧
          Has g' start (some p.frontPayload.length) (some (seenInfo scale du muxing writing)) (some (ts.map seenTrack))
            (ch.map seenChapters) (tg.map seenTags)
            ((some (p.clustersAt + 4 + sizeWidth (Spec.cuesPayload q).length, (Spec.cuesPayload q).length)).map
              fun c => (start + c.1, c.2)) := by
    intro start hat hend
    obtain ⟨g, h1, h2, h3⟩ := start_pass (rest := p.cues.getD [] ++ p.clusters) (size := some p.frontPayload.length) hw hmax' hv hrok hi
      htr hch htg (by intro n hn; cases hn; exact hend) hat
    rw [hcues, Option.getD_some, at_append] at h3
    have hst : ∀ s ∈ g.stop, s = r.data.length := by
      intro s hs
      unfold ReadSegment.stop at hs
      rw [h2.start, h2.size] at hs
      simp at hs
      omega
    obtain ⟨g', c1, c2⟩ := cues_pass (q := q) hw h2 hst h3.1 hmax'
    have hl : start + p.clustersAt + (cuesElement q).length + p.clusters.length = r.data.length := by
      rw [← hend]
      simp only [Parts.frontPayload, List.length_append, Parts.clustersAt, Parts.tagsAt, Parts.chaptersAt, Parts.tracksAt, hcues,
        Option.getD_some]
      omega
    have hfc' : start + p.frontClustersAt = start + p.clustersAt + (cuesElement q).length := by omega
    rw [← hfc'] at hl
    refine ⟨_, SizedChain.of hcs hmax' rfl (by rw [hfc']; exact h3.2) (by omega) hfine, .inl ⟨hl, rfl⟩, h3.1, g', ?_, ?_⟩
    · rw [hfc']; exact h1.trans c1
    · simp only [Option.map_some]
      rw [← Nat.add_assoc, ← Nat.add_assoc]
      exact c2
  have hreg' := hreg
  obtain ⟨n, hn⟩ := hreg'
  obtain ⟨pos, head, g, g', p0, h1, h2, h3, h4, h5, h6, h7, h8, -⟩ := headed (payload := p.frontPayload) (docType := docType)
    (i := seenInfo scale du muxing writing) (ts := ts.map seenTrack) (ch := ch.map seenChapters) (tg := tg.map seenTags)
    (es := p.frontPlaces) (at' := p.frontClustersAt)
    (cu := some (p.clustersAt + 4 + sizeWidth (Spec.cuesPayload q).length, (Spec.cuesPayload q).length)) hv.docType hw
    (by rw [hr, hfile]; rfl) hmax' (by
      intro start hat hend
      have hat' := hat
      unfold Parts.frontPayload at hat'
      rw [at_append] at hat'
      obtain ⟨g1, q1, p0, m1, m2⟩ := region_seekHead (g := { start := start, pos := (start : Nat), size := some p.frontPayload.length }) hw
        (by intro s hs; unfold ReadSegment.stop at hs; simp at hs; omega) es1 es2 rfl (hn ▸ hat'.1) hmax'
      obtain ⟨e, c1, -, -, g, k1, k2⟩ := hstart start hat hend
      exact ⟨g, g1, q1, p0, k1, k2, .inr (c1.start_head (by simpa using hne)), m1, m2⟩)
  obtain ⟨e, c1, c2, c3, -⟩ := hstart g'.start h6 h7
  have hpa := at_payload hid c3
  refine ⟨pos, head, g, g', g', h1, h2, h3, h4.clusters, ?_, h4.clusters, fun before after =>
    ready_ahead hw (off := p.frontClustersAt) (q := q) ⟨h4.clusters, h8, ⟨_, h4.info, rfl⟩, ⟨e, none, c1, c2⟩, ?_, ?_, ?_⟩ hq
      (cues_readable hq hcs (by
        simp only [Parts.frontPayload, List.length_append] at hsize
        simp only [Parts.frontClustersAt, Parts.tagsAt, Parts.chaptersAt, Parts.tracksAt]
        omega) hfine) hnum hscale hord hlong (by rw [hr]; exact hfuel) hne before after⟩
  · unfold followToCues
    rw [seekHeadPlace_of h5 (id := 0x1C53BB6B) (by rw [frontPlaces_cues, hcues]; rfl)]
    simp only
    unfold ReadSegment.parseCues
    rw [if_pos (by rw [h4.cues]; rfl), Res.bind_ok]
  · refine .inl ⟨_, ?_, by rw [h4.cues]; rfl, ?_⟩
    · simp only; omega
    · simp only
      rw [← Nat.add_assoc, ← Nat.add_assoc]
      exact hpa
  · exact seekHeadPlace_of h5 (frontPlaces_clusters p)
  · have : 0 < p.info.length := by
      rw [hi]; exact List.length_pos_iff.mpr (element_ne_nil _ _)
    simp only [Parts.frontClustersAt, Parts.tagsAt, Parts.chaptersAt, Parts.tracksAt]
    omega

end

end Verif.Props
