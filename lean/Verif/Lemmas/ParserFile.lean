/-
mkvparser shows a complete file of the muxer.
-/
import Verif.Lemmas.ParserHeadersAt
import Verif.Props.EbmlHeader

namespace Verif.Par
open Verif Spec Mux

theorem TailAt.le {r : Rdr} {q : Nat} {cues : Option (Nat × Nat)} (h : TailAt r q cues) : q ≤ r.data.length := by
  rcases h with ⟨h, -⟩ | ⟨m, payload, -, h, -⟩ <;> omega

theorem Chain.ends {r : Rdr} {scale p q : Nat} {cs : List (Nat × ClusterOf)} (h : Chain r scale p cs q) {cues : Option (Nat × Nat)}
    (ht : TailAt r q cues) : EndsAt r p := by
  cases h with
  | nil =>
    rcases ht with ⟨h, -⟩ | ⟨m, payload, he, -⟩
    · exact .inl h
    · exact .inr ⟨_, _, _, .inr rfl, he.head⟩
  | cons h _ _ _ => exact .inr ⟨_, _, _, .inl rfl, h.head⟩

theorem Chain.length {r : Rdr} {scale p q : Nat} {cs : List (Nat × ClusterOf)} (h : Chain r scale p cs q) : p + cs.length ≤ q := by
  induction h with
  | nil => simp
  | cons h _ _ _ ih =>
    have := h.total
    simp only [List.length_cons]
    omega

theorem Chain.frames {r : Rdr} {scale p q : Nat} {cs : List (Nat × ClusterOf)} (h : Chain r scale p cs q) :
    ∀ fs ∈ cs.map (fun c => (c.1, c.2.frames)), fs.2.length ≤ r.data.length := by
  induction h with
  | nil => intro fs h; cases h
  | cons h _ _ _ ih =>
    intro fs hfs
    rcases List.mem_cons.mp hfs with rfl | hfs
    · have := (blocks_facts h.isBlocks).1
      have := h.total
      have := h.fit
      simp only
      omega
    · exact ih fs hfs

theorem Chain.count {r : Rdr} {scale p q : Nat} {cs : List (Nat × ClusterOf)} (h : Chain r scale p cs q) :
    p + (clusterFrames cs).length ≤ q := by
  induction h with
  | nil => simp [clusterFrames]
  | cons h _ _ _ ih =>
    have := (blocks_facts h.isBlocks).1
    have := h.total
    simp only [clusterFrames, List.map_cons, List.flatten_cons, List.length_append] at ih ⊢
    omega

theorem Chain.one {r : Rdr} {scale p q : Nat} {sized : Bool} {c : ClusterOf} {cs : List (Nat × ClusterOf)} {b : Bytes}
    {cues : Option (Nat × Nat)}
    (h : IsCluster scale sized c b) (hat : At r.data p b) (hmax : b.length + 1 < 2 ^ 56) (hf : ∀ f ∈ c.frames, Fine scale f)
    (hrest : Chain r scale (p + b.length) cs q) (ht : TailAt r q cues) :
    Chain r scale p ((p, c) :: cs) q := by
  obtain ⟨w, blocks, hc⟩ := clusterIn h hat hmax
  exact .cons hc (.inr (hrest.ends ht)) hf hrest

theorem Chain.more {r : Rdr} {scale off q : Nat} {sized : Bool} {cs : List (Nat × ClusterOf)} {ds : List (Nat × ClusterOf)} {bs : Bytes}
    {cues : Option (Nat × Nat)} {start : Nat}
    (h : ClustersAt scale sized off cs bs) (hmax : r.data.length < 2 ^ 48) : ∀ {p : Nat}, p = start + off → At r.data p bs →
    p + bs.length ≤ r.data.length → (∀ f ∈ clusterFrames cs, Fine scale f) →
    Chain r scale (p + bs.length) ds q → TailAt r q cues →
    Chain r scale p ((cs.map fun c => (start + c.1, c.2)) ++ ds) q := by
  induction h with
  | nil => intro p _ _ _ _ hd _; simpa using hd
  | cons h hr ih =>
    rename_i off c cs b bs
    intro p hp hat hle hf hd ht
    rw [at_append] at hat
    rw [List.length_append] at hle hd
    rw [← Nat.add_assoc] at hd
    have hrest := ih (by omega) hat.2 (by omega) (fun f hf' => hf f (by simp only [clusterFrames, List.map_cons, List.flatten_cons] at *; exact List.mem_append_right _ hf')) hd ht
    rw [List.map_cons, List.cons_append, ← hp]
    exact Chain.one h hat.1 (by omega) (fun f hf' => hf f (by simp only [clusterFrames, List.map_cons, List.flatten_cons]; exact List.mem_append_left _ hf')) hrest ht

/-- Up to the tags. -/
theorem start_pass {r : Rdr} (hw : r.Whole) (hmax : r.data.length < 2 ^ 48) {p : Parts} {docType : Bytes} {ts : List Track}
    {ch : Option (List Chapter)} {tg : Option (List Tag)} {scale : Nat} {du : Option UInt32} {date : Option Int}
    {muxing writing : Bytes} (hv : Viewable docType scale du muxing writing ts ch tg) (hreg : RegionOk p.region)
    (hi : p.info = infoElement scale (du.map UInt32.toNat) date muxing writing) (htr : p.tracks = (tracksTree ts).bytes)
    (hch : p.chapters = ch.map fun c => (chaptersTree c).bytes) (htg : p.tags = tg.map fun t => (tagsTree t).bytes)
    {start : Nat} {size : Option Nat} (hsize : ∀ n ∈ size, start + n = r.data.length) {rest : Bytes}
    (hat : At r.data start (p.region ++ (p.info ++ (p.tracks ++ (p.chapters.getD [] ++ (p.tags.getD [] ++ rest)))))) :
    ∃ g', Passes r { start := start, pos := (start : Nat), size := size } start g' (start + p.clustersAt) ∧
      Has g' start size (some (seenInfo scale du muxing writing)) (some (ts.map seenTrack)) (ch.map seenChapters) (tg.map seenTags) none ∧
      At r.data (start + p.clustersAt) rest := by
  have stop : ∀ {g : ReadSegment} {i t c k}, Has g start size i t c k none → ∀ s ∈ g.stop, s = r.data.length := by
    intro g i t c k hg s hs
    unfold ReadSegment.stop at hs
    rw [hg.start, hg.size] at hs
    cases hz : size with
    | none => rw [hz] at hs; cases hs
    | some n =>
      rw [hz] at hs
      have := hsize n hz
      simp at hs
      omega
  simp only [at_append] at hat
  obtain ⟨a1, a2, a3, a4, a5, a6⟩ := hat
  have hg0 : Has { start := start, pos := (start : Nat), size := size } start size none none none none none :=
    ⟨rfl, rfl, rfl, rfl, rfl, rfl, rfl, rfl⟩
  obtain ⟨g1, p1, hg1⟩ := region_pass hw hg0 (stop hg0) hreg rfl a1 hmax
  rw [hi] at a2
  obtain ⟨g2, p2, hg2⟩ := info_pass hw hg1 (stop hg1) hv.info a2 hmax
  rw [← hi] at p2
  rw [htr] at a3
  obtain ⟨g3, p3, hg3⟩ := tracks_pass hw hg2 (stop hg2) hv.tracks.2 hv.tracks.1 hv.numbers a3 hmax
  rw [← htr] at p3
  rw [hch] at a4
  obtain ⟨g4, p4, hg4⟩ := chapters_pass hw hg3 (stop hg3) hv.chapters a4 hmax
  rw [← hch] at p4
  rw [htg] at a5
  obtain ⟨g5, p5, hg5⟩ := tags_pass hw hg4 (stop hg4) hv.tags a5 hmax
  rw [← htg] at p5
  refine ⟨g5, ?_, hg5, ?_⟩
  · have := p1.trans (p2.trans (p3.trans (p4.trans p5)))
    simpa only [Parts.clustersAt, Parts.tagsAt, Parts.chaptersAt, Parts.tracksAt, Nat.add_assoc] using this
  · simpa only [Parts.clustersAt, Parts.tagsAt, Parts.chaptersAt, Parts.tracksAt, Nat.add_assoc] using a6

theorem segment_head {r : Rdr} {p n : Nat} {known : Bool}
    (hat : At r.data p (segmentId ++ (if known then vint 8 n else sizeUnknown))) (hn : n < 2 ^ 48) :
    HeadAt r p 4 kMkvSegment 8 (if known then n else 2 ^ 56 - 1) := by
  rw [at_append] at hat
  have hid : beBytes 4 kMkvSegment = segmentId := by decide
  have hs : (if known then vint 8 n else sizeUnknown) = vint 8 (if known then n else 2 ^ 56 - 1) := by
    cases known
    · rw [if_neg (by decide), if_neg (by decide)]; decide +kernel
    · rfl
  refine ⟨by unfold IsId; decide +kernel, by decide, by decide, ?_, by rw [hid]; exact hat.1, by rw [← hs]; exact hat.2⟩
  cases known
  · rw [if_neg (by decide)]; decide
  · show n < 2 ^ 56; omega

/-- What loading a file gives: the header, the cluster objects, and the place and the payload of the cues (offsets are from the start of
the segment's payload). -/
def Opens (file : Bytes) (h : Shown) (scale : Nat) (cs : List (Nat × ClusterOf)) (cues : Option (Nat × Bytes)) : Prop :=
  ∀ r : Rdr, r.data = file → r.total = file.length → ∀ fuel, file.length < fuel →
    ∃ pos head g g', ebmlHeadParse r = .ok (.done pos head) ∧ head.docType = some h.docType ∧
      createInstance r pos = .ok g ∧ g.load r fuel = (g', .ok ()) ∧
      g'.info = some h.info ∧ g'.tracks = some h.tracks ∧ g'.chapters = h.chapters ∧ g'.tags = h.tags ∧
      LoadedAll r scale g'.clusters (cs.map fun c => (g'.start + c.1, c.2)) ∧
      g'.cues = (cues.map fun c => (g'.start + c.1, c.2.length)) ∧
      (∀ c ∈ cues, At r.data (g'.start + c.1) c.2) ∧
      (∀ c ∈ cs, c.2.frames.length ≤ file.length) ∧ cs.length ≤ file.length ∧
      (clusterFrames cs).length ≤ file.length ∧ g'.pos = (file.length : Nat) ∧ ∀ s ∈ g'.stop, s = file.length

theorem Opens.watched {file : Bytes} {h : Shown} {scale : Nat} {cs : List (Nat × ClusterOf)} {cues : Option (Nat × Bytes)}
    (ho : Opens file h scale cs cues) : WatchedAs file h ((clusterFrames cs).map (Frame.asWatched scale)) := by
  intro r hr htotal fuel hfuel
  obtain ⟨pos, head, g, g', h1, h2, h3, h4, h5, h6, h7, h8, h9, -, -, h10, h11, -⟩ := ho r hr htotal fuel hfuel
  refine ⟨pos, head, g, g', h1, h2, h3, h4, h5, h6, h7, h8, ?_⟩
  have hw : r.Whole := by unfold Rdr.Whole; rw [htotal, hr]
  rw [watch_ok hw h9 ?_ ?_]
  · simp only [clusterFrames, List.map_map, Function.comp_def]
  · intro fs hfs
    obtain ⟨c, hc, rfl⟩ := List.mem_map.mp hfs
    have := h10 c hc
    simp only
    omega
  · rw [List.length_map]; omega

/-- A file whose parts are read as shown. -/
theorem opened {docType payload : Bytes} {known : Bool} {h : Shown} {scale : Nat} {cs : List (Nat × ClusterOf)}
    {cues : Option (Nat × Bytes)}
    (hdoc : h.docType ≠ [] ∧ h.docType.length ≤ 20000000) (hd : h.docType = docType) {file : Bytes}
    (hfile : file = ebmlHeader docType 4 ++ (segmentId ++ ((if known then vint 8 payload.length else sizeUnknown) ++ payload)))
    (hmax : file.length < 2 ^ 48)
    (hpass : ∀ r : Rdr, r.Whole → r.data = file → ∀ start size, (∀ n ∈ size, start + n = r.data.length) → At r.data start payload →
      start + payload.length = r.data.length →
      ∃ g c q cu tl, Passes r { start := start, pos := (start : Nat), size := size } start g c ∧
        Has g start size (some h.info) (some h.tracks) h.chapters h.tags cu ∧
        Chain r scale c (cs.map fun c => (start + c.1, c.2)) q ∧ TailAt r q tl ∧
        cu.or tl = (cues.map fun c => (start + c.1, c.2.length)) ∧ (∀ c ∈ cues, At r.data (start + c.1) c.2) ∧ (cs ≠ [] ∨ q = r.data.length)) :
    Opens file h scale cs cues := by
  intro r hr htotal fuel hfuel
  subst hd
  have hw : r.Whole := by unfold Rdr.Whole; rw [htotal, hr]
  have hmax' : r.data.length < 2 ^ 48 := by rw [hr]; exact hmax
  have hlen : r.data.length = (ebmlHeader h.docType 4).length + (4 + (8 + payload.length)) := by
    have e1 : segmentId.length = 4 := rfl
    have e2 : (if known = true then vint 8 payload.length else sizeUnknown).length = 8 := by
      cases known
      · rfl
      · exact vint_length _ _
    rw [hr, hfile]
    simp only [List.length_append, e1, e2]
  have hat : At r.data 0 (ebmlHeader h.docType 4 ++ (segmentId ++ ((if known then vint 8 payload.length else sizeUnknown) ++ payload))) :=
    At.of_eq (pre := []) (post := []) (by rw [hr, hfile]; simp)
  simp only [at_append, Nat.zero_add] at hat
  obtain ⟨a1, a2, a3, a4⟩ := hat
  have hhead : HeadAt r (ebmlHeader h.docType 4).length 4 kMkvSegment 8 (if known then payload.length else 2 ^ 56 - 1) :=
    segment_head (by rw [at_append]; exact ⟨a2, a3⟩) (by omega)
  have hc := createInstance_ok hw hhead
  have e1 : segmentId.length = 4 := rfl
  have e2 : (if known = true then vint 8 payload.length else sizeUnknown).length = 8 := by
    cases known
    · rfl
    · exact vint_length _ _
  rw [e1, e2] at a4
  have hsize : (if (if known = true then payload.length else 2 ^ 56 - 1) = unknownSize 8 ∨
      (ebmlHeader h.docType 4).length + 4 + 8 + (if known = true then payload.length else 2 ^ 56 - 1) > r.data.length then none
      else some (if known = true then payload.length else 2 ^ 56 - 1)) = if known = true then some payload.length else none := by
    cases known
    · rw [if_pos (.inl (by rw [if_neg (by decide)]; decide))]; rfl
    · have hu : unknownSize 8 = 2 ^ 56 - 1 := by decide
      rw [hu, if_neg (by simp only [if_true]; omega)]; rfl
  rw [hsize] at hc
  obtain ⟨g, c, q, cu, tl, hp, hg, hchain, htail, hct, hcp, hne⟩ := hpass r hw hr ((ebmlHeader h.docType 4).length + 4 + 8)
    (if known = true then some payload.length else none) (by
      intro n hn
      cases known
      · cases hn
      · cases hn; omega) a4 (by omega)
  have hstop : ∀ {g' : ReadSegment}, g'.start = (ebmlHeader h.docType 4).length + 4 + 8 →
      g'.size = (if known = true then some payload.length else none) → ∀ s ∈ g'.stop, s = r.data.length := by
    intro g' h1 h2 s hs
    unfold ReadSegment.stop at hs
    rw [h1, h2] at hs
    cases known
    · cases hs
    · simp at hs; omega
  have hcq := hchain.length
  have hql := htail.le
  obtain ⟨F', hF', hloop⟩ := hp (r.data.length + 2 - ((ebmlHeader h.docType 4).length + 4 + 8)) (Nat.le_refl _)
  rw [headers_end hw hg (hstop hg.start hg.size) (by omega) (by
    rcases hne with hne | hne
    · obtain ⟨x, xs, rfl⟩ : ∃ x xs, cs = x :: xs := by
        cases cs with
        | nil => exact absurd rfl hne
        | cons x xs => exact ⟨x, xs, rfl⟩
      rw [List.map_cons] at hchain
      cases hchain with
      | cons hC _ _ _ => exact .inr ⟨_, _, hC.head⟩
    · rcases hchain.ends htail with he | ⟨id, m, v, rfl | rfl, hh⟩
      · exact .inl he
      · exact .inr ⟨_, _, hh⟩
      · have := hh.le
        have := hh.m1
        generalize (cs.map fun c => ((ebmlHeader h.docType 4).length + 4 + 8 + c.1, c.2)) = ds at hchain
        cases hchain with
        | nil => omega
        | cons hC _ _ _ => exact .inr ⟨_, _, hC.head⟩)] at hloop
  have hA : StateA r scale { g with pos := (c : Nat) } [] c :=
    ⟨rfl, by show LoadedAll r scale g.clusters []; rw [hg.clusters]; exact .nil, hstop hg.start hg.size⟩
  obtain ⟨g', l1, l2, l3, l4⟩ := loadAll_ok (fuel := fuel) hw (by rw [hr]; exact hfuel) hchain htail (.inl hA)
    (by rw [List.length_map] at *; rw [hr] at *; omega)
  rw [List.nil_append] at l3
  have hE := Props.C25_round_trip (r := r) (d := h.docType) (v := 4) (pre := [])
    (post := segmentId ++ ((if known then vint 8 payload.length else sizeUnknown) ++ payload)) (by decide) (by decide) hdoc.1 hdoc.2
    (by rw [hr, hfile]; rfl) (by decide) (by simp) (.inr hw) (by unfold llongMax; omega)
  rw [List.length_nil, Nat.zero_add] at hE
  have hs' : g'.start = (ebmlHeader h.docType 4).length + 4 + 8 := l2.start.trans hg.start
  refine ⟨(ebmlHeader h.docType 4).length, _, _, g', hE, rfl, hc, ?_, l2.info.trans hg.info, l2.tracks.trans hg.tracks,
    l2.chapters.trans hg.chapters, l2.tags.trans hg.tags, ?_, ?_, ?_, ?_, ?_, ?_, by rw [l4, hr], ?_⟩
  · unfold ReadSegment.load
    rw [if_neg (by simp)]
    have hph : ReadSegment.parseHeaders r ⟨(ebmlHeader h.docType 4).length + 4 + 8, if known = true then some payload.length else none,
        ((ebmlHeader h.docType 4).length + 4 + 8 : Nat), false, none, none, none, none, none, none, []⟩ = ({ g with pos := (c : Nat) }, .ok ()) := by
      unfold ReadSegment.parseHeaders
      unfold Rdr.Whole at hw
      rw [if_neg (by omega), if_neg (by simp only; omega), if_neg]
      · exact hloop
      · have hst := hstop (g' := ⟨(ebmlHeader h.docType 4).length + 4 + 8, if known = true then some payload.length else none,
          ((ebmlHeader h.docType 4).length + 4 + 8 : Nat), false, none, none, none, none, none, none, []⟩) rfl rfl
        rw [past_neg (fun s hs => by have := hst s hs; simp only; omega)]
        simp only [Bool.false_eq_true, or_false]
        cases known
        · simp [ReadSegment.stop]
        · simp [ReadSegment.stop, beyond]
          omega
    rw [hph]
    exact l1
  · rw [hs']
    simpa only [List.map_map, Function.comp_def] using l3
  · rw [hs', ← hct, ← hg.cues]
    exact l2.cues
  · rw [hs']; exact hcp
  · intro x hx
    have := hchain.frames _ (List.mem_map_of_mem (List.mem_map_of_mem hx))
    rw [hr] at this
    exact this
  · rw [List.length_map] at hcq
    rw [hr] at *
    omega
  · have := hchain.count
    simp only [clusterFrames, List.map_map, Function.comp_def] at this ⊢
    rw [hr] at *
    omega
  · intro s hs
    rw [← hr]
    exact hstop hs' (l2.size.trans hg.size) s hs

end Verif.Par
