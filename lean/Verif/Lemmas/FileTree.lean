/-
The files of the muxer as documents.
-/
import Verif.Lemmas.TimelineBlocks
import Verif.Spec.FileTree

namespace Verif.Spec
open Verif Verif.Web Verif.Mux

local macro "idOk" : term => `(by unfold IsId; (try dsimp only); decide +kernel)

theorem each_bytes {α : Type} (f : α → Tree) (xs : List α) : (each f xs).bytes = (xs.map fun x => (f x).bytes).flatten := by
  induction xs with
  | nil => rfl
  | cons x xs ih => rw [each_cons, Tree.append_bytes, ih]; rfl

theorem fieldsTree_bytes (fs : List (Nat × Bytes)) : (fieldsTree fs).bytes = elements fs := by
  induction fs with
  | nil => rfl
  | cons f fs ih =>
    show ((plain f.1 f.2).append (fieldsTree fs)).bytes = _
    rw [Tree.append_bytes, plain_bytes, ih]; rfl

theorem ebmlTree_bytes (docType : Bytes) : (ebmlTree docType).bytes = ebmlHeader docType 4 := by
  rw [ebmlTree, group_bytes, fieldsTree_bytes]; rfl

theorem infoTree_bytes (scale : Nat) (duration : Option Nat) (date : Option Int) (muxing writing : Bytes) :
    (infoTree scale duration date muxing writing).bytes = infoElement scale duration date muxing writing := by
  rw [infoTree, group_bytes, fieldsTree_bytes]; rfl

theorem seekTree_bytes (places : List (Nat × Nat)) :
    (seekTree places).bytes = element 0x114D9B74 (seekEntries places) := by
  rw [seekTree, group_bytes]
  congr 1
  induction places with
  | nil => rfl
  | cons e es ih =>
    rw [each_cons, Tree.append_bytes, ih, group_bytes, fieldsTree_bytes]
    simp [seekEntries, seekEntry, elements, uintField]

theorem cuesTree_bytes (q : List Cue) : (cuesTree q).bytes = cuesElement q := by
  rw [cuesTree, group_bytes]
  unfold cuesElement cuesPayload
  congr 1
  induction q with
  | nil => rfl
  | cons c q ih =>
    rw [each_cons, Tree.append_bytes, ih, cueTree, group_bytes]
    simp only [List.map_cons, elements, seq_cons_bytes, seq_nil_bytes, plain_bytes, group_bytes, fieldsTree_bytes,
      cuePoint, cuePositions, uintField, List.append_nil]
    rfl

/-! ### Where they may stand -/

theorem fields_fine {ks : Kids} {fs : List (Nat × Bytes)} (h : ∀ f ∈ fs, (plain f.1 f.2).FineIn ks) :
    (fieldsTree fs).FineIn ks := by
  induction fs with
  | nil => exact .nil
  | cons f fs ih => exact (h f (.head _)).append (ih fun f hf => h f (.tail _ hf))

theorem fields_quiet (fs : List (Nat × Bytes)) : (fieldsTree fs).Quiet := quiet_each fun _ => quiet_plain ..

theorem uint_fine {ks : Kids} {id v : Nat} {st co : Bool} (he : ks.entry id = some (st, co, .leaf .uint))
    (hi : IsId (byteWidth id) id) (hv : v < 2 ^ 64) : (plain id (beBytes (byteWidth v) v)).FineIn ks := by
  refine (plain_fine he hi ?_).inside
  show (beBytes _ _).length ≤ 8
  rw [beBytes_length, byteWidth_eq hv]
  exact (getUIntSize_bounds _).2

theorem ebml_fine (docType : Bytes) : (ebmlTree docType).Fine topKids := by
  refine group_fine gEbml rfl trivial idOk (fields_fine fun f hf => ?_)
  simp only [uintField, List.mem_cons, List.not_mem_nil, or_false] at hf
  rcases hf with rfl | rfl | rfl | rfl | rfl | rfl | rfl
  · exact uint_fine (st := false) (co := true) rfl idOk (by decide)
  · exact uint_fine (st := false) (co := true) rfl idOk (by decide)
  · exact uint_fine (st := false) (co := true) rfl idOk (by decide)
  · exact uint_fine (st := false) (co := true) rfl idOk (by decide)
  · exact (plain_fine (st := false) (co := true) (l := .str) rfl idOk trivial).inside
  · exact uint_fine (st := false) (co := true) rfl idOk (by decide)
  · exact uint_fine (st := false) (co := true) rfl idOk (by decide)

theorem ebml_quiet (docType : Bytes) : (ebmlTree docType).Quiet :=
  (quiet_group _ _).mpr ⟨by decide, fields_quiet _⟩

theorem info_fine {scale : Nat} (hs : scale < 2 ^ 64) (duration : Option Nat) (date : Option Int) (muxing writing : Bytes) :
    (infoTree scale duration date muxing writing).Fine (kidsOf gSegment) := by
  refine group_fine gInfo rfl trivial idOk (fields_fine fun f hf => ?_)
  simp only [infoFields, uintField, List.cons_append, List.mem_cons, List.mem_append, List.mem_map, List.not_mem_nil, or_false] at hf
  rcases hf with rfl | (⟨d, -, rfl⟩ | ⟨d, -, rfl⟩) | rfl | rfl
  · exact uint_fine (st := false) (co := true) rfl idOk hs
  · refine (plain_fine (st := false) (co := true) (l := .float) rfl idOk ?_).inside
    show (beBytes 4 d).length = 0 ∨ _
    rw [beBytes_length]
    exact .inr (.inl rfl)
  · refine (plain_fine (st := false) (co := true) (l := .date) rfl idOk ?_).inside
    show (twosBytes 8 d).length = 0 ∨ (twosBytes 8 d).length = 8
    exact .inr (by simp [twosBytes])
  · exact (plain_fine (st := false) (co := true) (l := .str) rfl idOk trivial).inside
  · exact (plain_fine (st := false) (co := true) (l := .str) rfl idOk trivial).inside

theorem info_quiet (scale : Nat) (duration : Option Nat) (date : Option Int) (muxing writing : Bytes) :
    (infoTree scale duration date muxing writing).Quiet :=
  (quiet_group _ _).mpr ⟨by decide, fields_quiet _⟩

theorem each_fine_mem {α : Type} {ks : Kids} {f : α → Tree} {xs : List α} (h : ∀ a ∈ xs, (f a).FineIn ks) :
    (each f xs).FineIn ks := by
  induction xs with
  | nil => exact .nil
  | cons x xs ih => exact (h x (.head _)).append (ih fun a ha => h a (.tail _ ha))

theorem seek_fine {places : List (Nat × Nat)} (h : ∀ e ∈ places, e.1 < 2 ^ 32 ∧ e.2 < 2 ^ 64) :
    (seekTree places).Fine (kidsOf gSegment) := by
  refine group_fine gSeekHead rfl trivial idOk (each_fine_mem fun e he => (group_fine gSeek rfl trivial idOk
    (fields_fine fun f hf => ?_)).inside)
  simp only [uintField, List.mem_cons, List.not_mem_nil, or_false] at hf
  rcases hf with rfl | rfl
  · refine (plain_fine (st := false) (co := true) (l := .idElem) rfl idOk ?_).inside
    show 1 ≤ (beBytes _ _).length ∧ (beBytes _ _).length ≤ 4
    have h32 := (h e he).1
    rw [beBytes_length, byteWidth_eq (by omega)]
    exact ⟨(getUIntSize_bounds _).1, by unfold getUIntSize; repeat' split
                                        all_goals omega⟩
  · exact uint_fine (st := false) (co := true) rfl idOk (h e he).2

theorem seek_quiet (places : List (Nat × Nat)) : (seekTree places).Quiet :=
  (quiet_group _ _).mpr ⟨by decide, quiet_each fun _ => (quiet_group _ _).mpr ⟨by decide, fields_quiet _⟩⟩

theorem cue_fine {c : Cue} (h1 : c.time < 2 ^ 64) (h2 : c.track < 2 ^ 64) (h3 : c.pos < 2 ^ 64)
    (h4 : ∀ b ∈ c.block, b < 2 ^ 64) : (cueTree c).FineIn (kidsOf gCues) := by
  refine (group_fine gCuePoint rfl trivial idOk (seq_cons_fine (uint_fine (st := false) (co := true) rfl idOk h1)
    (seq_cons_fine (group_fine gCueTrackPositions rfl trivial idOk (fields_fine fun f hf => ?_)).inside seq_nil_fine))).inside
  simp only [uintField, List.cons_append, List.nil_append, List.mem_cons] at hf
  rcases hf with rfl | rfl | hf
  · exact uint_fine (st := false) (co := true) rfl idOk h2
  · exact uint_fine (st := false) (co := true) rfl idOk h3
  · cases hb : c.block with
    | none => rw [hb] at hf; cases hf
    | some b =>
      rw [hb] at hf
      simp only [List.mem_singleton] at hf
      subst hf
      exact uint_fine (st := false) (co := true) rfl idOk (h4 b hb)

/-- The numbers of a cue fit their fields. -/
def Cue.Fits (c : Cue) : Prop := c.time < 2 ^ 64 ∧ c.track < 2 ^ 64 ∧ c.pos < 2 ^ 64 ∧ ∀ b ∈ c.block, b < 2 ^ 64

theorem cues_fine {q : List Cue} (h : ∀ c ∈ q, Cue.Fits c) : (cuesTree q).Fine (kidsOf gSegment) :=
  group_fine gCues rfl trivial idOk (each_fine_mem fun c hc => cue_fine (h c hc).1 (h c hc).2.1 (h c hc).2.2.1 (h c hc).2.2.2)

theorem cues_quiet (q : List Cue) : (cuesTree q).Quiet := by
  refine (quiet_group _ _).mpr ⟨by decide, quiet_each fun c => (quiet_group _ _).mpr ⟨by decide, ?_⟩⟩
  simp [fields_quiet]
  decide

theorem void_fine (n : Nat) : (plain 0xEC (List.replicate n 0)).Fine (kidsOf gSegment) :=
  plain_fine (st := false) (co := false) (l := .void) rfl idOk trivial

/-! ### Whole files -/

theorem fileTree_bytes (docType : Bytes) (known : Bool) (payload : Tree) :
    (fileTree docType known payload).bytes = ebmlHeader docType 4 ++ (segmentId ++
      ((if known then vint 8 payload.bytes.length else sizeUnknown) ++ payload.bytes)) := by
  have hid : beBytes (byteWidth 0x18538067) 0x18538067 = segmentId := by decide +kernel
  simp only [fileTree, Tree.append_bytes, ebmlTree_bytes, Tree.bytes, header, hid, List.append_nil, List.append_assoc]
  cases known with
  | true => rfl
  | false =>
    have : vint 8 (2 ^ (7 * 8) - 1) = sizeUnknown := by decide +kernel
    simp only [Bool.false_eq_true, if_false, this]

theorem file_document {docType : Bytes} {known : Bool} {payload : Tree} (hs : payload.Shaped (kidsOf gSegment) known none)
    (hl : (fileTree docType known payload).bytes.length + 1 < 2 ^ 56) : (fileTree docType known payload).Document topKids := by
  have hb : (fileTree docType known payload).bytes = (ebmlTree docType).bytes ++ (Tree.node 0x18538067 8 known payload .nil).bytes := by
    rw [fileTree, Tree.append_bytes]
  rw [hb, List.length_append] at hl
  have h1 : (ebmlTree docType).WellFormed topKids true none := (ebml_fine docType true none).wellFormed (by omega)
  have he : topKids.entry 0x18538067 =
      some (false, false, .master { id := Id.kSegment, start := .first, complete := true } (kidsOf gSegment)) := rfl
  have h2 : (Tree.node 0x18538067 8 known payload .nil).WellFormed topKids known none := by
    refine Tree.Shaped.wellFormed ⟨idOk, .inl rfl, ?_, trivial⟩ (by omega)
    rw [he]
    cases known with
    | true => exact hs
    | false => exact ⟨rfl, rfl, by simp [Tree.follow], hs⟩
  refine ⟨h1, ?_⟩
  cases known with
  | true => exact ⟨h2, trivial⟩
  | false => exact ⟨h2, rfl⟩

theorem file_timeline {docType : Bytes} {known : Bool} {payload : Tree} {fs : List SeenFrame}
    (h : Shows (kidsOf gSegment) payload fs) (pos : Nat) :
    timeline ((fileTree docType known payload).calls takeAll topKids pos) = fs := by
  have he : topKids.entry 0x18538067 =
      some (false, false, .master { id := Id.kSegment, start := .first, complete := true } (kidsOf gSegment)) := rfl
  have h1 : Shows topKids (.node 0x18538067 8 known payload .nil) fs :=
    h.node he (by decide) (by decide) (by decide)
  have h2 := Shows.append (ebml_quiet docType).shows h1 (ebml_fine docType true none)
  have h3 := h2 pos ⟨[], .nil, false⟩ {}
  exact h3

/-! ### The parts of a segment -/

/-- What may stand before Info: nothing, a Void element, or a seek head and a Void element. -/
inductive Region : Bytes → Prop
  | none : Region []
  | void (n : Nat) : Region (element 0xEC (List.replicate n 0))
  | seek (places : List (Nat × Nat)) (n : Nat) (h : ∀ e ∈ places, e.1 < 2 ^ 32 ∧ e.2 < 2 ^ 64) :
      Region (element 0x114D9B74 (seekEntries places) ++ element 0xEC (List.replicate n 0))

theorem Region.tree {b : Bytes} (h : Region b) : ∃ t : Tree, t.bytes = b ∧ t.Fine (kidsOf gSegment) ∧ t.Quiet ∧
    ∀ i ∈ t.tops, i ∈ [kVoid, Id.kSeekHead] := by
  cases h with
  | none => exact ⟨.nil, rfl, .nil, trivial, by simp [Tree.tops]⟩
  | void n => exact ⟨_, plain_bytes .., void_fine n, quiet_plain .., by simp [Spec.plain, Tree.tops, kVoid]⟩
  | seek places n h =>
    exact ⟨(seekTree places).append (plain 0xEC (List.replicate n 0)), by rw [Tree.append_bytes, seekTree_bytes, plain_bytes],
      (seek_fine h).append (void_fine n), (quiet_append _ _).mpr ⟨seek_quiet _, quiet_plain ..⟩,
      by simp [tops_append, Spec.plain, seekTree, group, Tree.tops, kVoid, Id.kSeekHead]⟩

theorem places_bounded {p : Parts} (h : p.payload.length < 2 ^ 56) : ∀ e ∈ p.places, e.1 < 2 ^ 32 ∧ e.2 < 2 ^ 64 := by
  intro e he
  have hl : p.cuesAt + (p.cues.getD []).length < 2 ^ 56 := by
    simp only [Parts.cuesAt, Parts.clustersAt, Parts.tagsAt, Parts.chaptersAt, Parts.tracksAt]
    simp only [Parts.payload, List.length_append] at h
    omega
  simp only [Parts.places, List.mem_append, List.mem_cons, List.not_mem_nil, or_false] at he
  rcases he with ((((rfl | rfl) | he) | he) | rfl) | he
  · exact ⟨by dsimp only; decide, by simp only [Parts.cuesAt, Parts.clustersAt, Parts.tagsAt, Parts.chaptersAt, Parts.tracksAt] at hl; simp only; omega⟩
  · exact ⟨by dsimp only; decide, by simp only [Parts.cuesAt, Parts.clustersAt, Parts.tagsAt, Parts.chaptersAt] at hl; simp only; omega⟩
  · split at he
    · simp only [List.mem_singleton] at he; subst he
      exact ⟨by dsimp only; decide, by simp only [Parts.cuesAt, Parts.clustersAt, Parts.tagsAt] at hl; simp only; omega⟩
    · cases he
  · split at he
    · simp only [List.mem_singleton] at he; subst he
      exact ⟨by dsimp only; decide, by simp only [Parts.cuesAt, Parts.clustersAt] at hl; simp only; omega⟩
    · cases he
  · exact ⟨by dsimp only; decide, by simp only [Parts.cuesAt] at hl; simp only; omega⟩
  · split at he
    · simp only [List.mem_singleton] at he; subst he
      exact ⟨by dsimp only; decide, by simp only; omega⟩
    · cases he

theorem frontPlaces_bounded {p : Parts} (h : p.frontPayload.length < 2 ^ 56) :
    ∀ e ∈ p.frontPlaces, e.1 < 2 ^ 32 ∧ e.2 < 2 ^ 64 := by
  intro e he
  have hl : p.frontClustersAt + p.clusters.length < 2 ^ 56 := by
    simp only [Parts.frontClustersAt, Parts.tagsAt, Parts.chaptersAt, Parts.tracksAt]
    simp only [Parts.frontPayload, List.length_append] at h
    omega
  simp only [Parts.frontPlaces, List.mem_append, List.mem_cons, List.not_mem_nil, or_false] at he
  rcases he with ((((rfl | rfl) | he) | he) | rfl) | he
  · exact ⟨by dsimp only; decide, by simp only [Parts.frontClustersAt, Parts.tagsAt, Parts.chaptersAt, Parts.tracksAt] at hl; simp only; omega⟩
  · exact ⟨by dsimp only; decide, by simp only [Parts.frontClustersAt, Parts.tagsAt, Parts.chaptersAt] at hl; simp only; omega⟩
  · split at he
    · simp only [List.mem_singleton] at he; subst he
      exact ⟨by dsimp only; decide, by simp only [Parts.frontClustersAt, Parts.tagsAt] at hl; simp only; omega⟩
    · cases he
  · split at he
    · simp only [List.mem_singleton] at he; subst he
      exact ⟨by dsimp only; decide, by simp only [Parts.frontClustersAt] at hl; simp only; omega⟩
    · cases he
  · exact ⟨by dsimp only; decide, by simp only; omega⟩
  · split at he
    · simp only [List.mem_singleton] at he; subst he
      exact ⟨by dsimp only; decide, by simp only [Parts.frontClustersAt] at hl; simp only; omega⟩
    · cases he

/-- The header parts are those for these settings. -/
structure Parts.Describes (p : Parts) (ts : List Track) (ch : Option (List Chapter)) (tg : Option (List Tag)) (scale : Nat)
    (duration : Option Nat) (date : Option Int) (muxing writing : Bytes) : Prop where
  region : Region p.region
  info : p.info = infoElement scale duration date muxing writing
  scale : scale < 2 ^ 64
  tracks : p.tracks = (tracksTree ts).bytes
  chapters : p.chapters = ch.map fun c => (chaptersTree c).bytes
  tags : p.tags = tg.map fun t => (tagsTree t).bytes

/-- The cues, if there are any. -/
def Parts.CuesFit (p : Parts) : Prop := p.cues = none ∨ ∃ q, p.cues = some (cuesElement q) ∧ ∀ c ∈ q, Cue.Fits c

theorem Parts.CuesFit.tree {p : Parts} (h : p.CuesFit) : ∃ t : Tree, t.bytes = p.cues.getD [] ∧ t.Fine (kidsOf gSegment) ∧
    t.Quiet ∧ (∀ i ∈ t.follow none, (kidsOf gCluster).entry i = none) ∧ ∀ i ∈ t.tops, i = Id.kCues := by
  rcases h with h | ⟨q, h, hq⟩
  · rw [h]
    exact ⟨.nil, rfl, .nil, trivial, (by intro _ h; cases h), by simp [Tree.tops]⟩
  · rw [h]
    exact ⟨cuesTree q, cuesTree_bytes q, cues_fine hq, cues_quiet q, (by intro i h; cases h; rfl),
      by simp [cuesTree, group, Tree.tops, Id.kCues]⟩

theorem optional_bytes {α : Type} {f : α → Tree} {o : Option α} :
    (Spec.optional f o).bytes = (o.map fun x => (f x).bytes).getD [] := by cases o <;> rfl

theorem optional_all {α : Type} {ks : Kids} {f : α → Tree} {o : Option α} (h : ∀ a, (f a).Fine ks) :
    (Spec.optional f o).Fine ks := by
  cases o with
  | none => exact .nil
  | some a => exact h a

/-- The elements with the settings. -/
def settingsTree (ts : List Track) (ch : Option (List Chapter)) (tg : Option (List Tag)) (scale : Nat)
    (duration : Option Nat) (date : Option Int) (muxing writing : Bytes) : Tree :=
  (infoTree scale duration date muxing writing).append ((tracksTree ts).append
    ((Spec.optional chaptersTree ch).append (Spec.optional tagsTree tg)))

/-- The settings stand in a segment, with nothing else but seek heads, clusters, cues and Void elements. -/
def Tree.Around (t inner : Tree) : Prop :=
  ∃ a b : Tree, (∀ i ∈ a.tops, i ∈ [kVoid, Id.kSeekHead]) ∧ (∀ i ∈ b.tops, i ∈ [Id.kCluster, Id.kCues]) ∧ t = a.append (inner.append b)

theorem Parts.Describes.tree {p : Parts} {ts : List Track} {ch : Option (List Chapter)} {tg : Option (List Tag)} {scale : Nat}
    {duration : Option Nat} {date : Option Int} {muxing writing : Bytes} (h : p.Describes ts ch tg scale duration date muxing writing) :
    ∃ t : Tree, t.bytes = p.region ++ (p.info ++ (p.tracks ++ (p.chapters.getD [] ++ p.tags.getD []))) ∧
      t.Fine (kidsOf gSegment) ∧ t.Quiet ∧ t.Around (settingsTree ts ch tg scale duration date muxing writing) := by
  obtain ⟨r, r1, r2, r3, r4⟩ := h.region.tree
  refine ⟨r.append (settingsTree ts ch tg scale duration date muxing writing), ?_, ?_, ?_, r, .nil, r4, by simp [Tree.tops],
    by rw [Tree.append_nil]⟩
  · simp only [settingsTree, Tree.append_bytes, r1, infoTree_bytes, optional_bytes, h.info, h.tracks, h.chapters, h.tags]
  · exact r2.append (Tree.Fine.append (fun s a => info_fine h.scale _ _ _ _ s a) ((tracks_fine ts).append ((optional_all chapters_fine).append (optional_all tags_fine))))
  · simp only [settingsTree, quiet_append]
    exact ⟨r3, info_quiet .., tracks_quiet ts, quiet_optional chapters_quiet, quiet_optional tags_quiet⟩

/-- The clusters of a file as a tree. -/
structure ClusterTree (bs : Bytes) (known : Bool) (fs : List SeenFrame) (t : Tree) : Prop where
  bytes : t.bytes = bs
  shaped : ∀ a, (∀ i ∈ a, (kidsOf gCluster).entry i = none) → t.Shaped (kidsOf gSegment) known a
  shows : Shows (kidsOf gSegment) t fs
  tops : ∀ i ∈ t.tops, i = Id.kCluster

theorem Tree.Around.append {t inner b : Tree} (h : t.Around inner) (hb : ∀ i ∈ b.tops, i ∈ [Id.kCluster, Id.kCues]) :
    (t.append b).Around inner := by
  obtain ⟨x, y, hx, hy, rfl⟩ := h
  exact ⟨x, y.append b, hx, fun i hi => (List.mem_append.mp (tops_append _ _ ▸ hi)).elim (hy i) (hb i),
    by rw [append_assoc', append_assoc']⟩

theorem Parts.Describes.payload {p : Parts} {ts : List Track} {ch : Option (List Chapter)} {tg : Option (List Tag)} {scale : Nat}
    {duration : Option Nat} {date : Option Int} {muxing writing : Bytes} (h : p.Describes ts ch tg scale duration date muxing writing)
    (hc : p.CuesFit) {known : Bool} {fs : List SeenFrame} {tc : Tree} (ht : ClusterTree p.clusters known fs tc) :
    ∃ t : Tree, t.bytes = p.payload ∧ t.Shaped (kidsOf gSegment) known none ∧ Shows (kidsOf gSegment) t fs ∧
      t.Around (settingsTree ts ch tg scale duration date muxing writing) := by
  obtain ⟨a, a1, a2, a3, a4⟩ := h.tree
  obtain ⟨c, c1, c2, c3, c4, c5⟩ := hc.tree
  refine ⟨a.append (tc.append c), ?_, ?_, ?_, a4.append fun i hi => (List.mem_append.mp (tops_append _ _ ▸ hi)).elim
    (fun h => by simp [ht.tops i h]) (fun h => by simp [c5 i h])⟩
  · simp [Tree.append_bytes, a1, ht.bytes, c1, Parts.payload]
  · exact (a2 known _).append ((ht.shaped _ c4).append (c2 known none))
  · have := Shows.append a3.shows (Shows.append ht.shows c3.shows (ht.shaped none (by intro _ h; cases h))) (a2 known none)
    simpa using this

theorem Parts.Describes.front {p : Parts} {ts : List Track} {ch : Option (List Chapter)} {tg : Option (List Tag)} {scale : Nat}
    {duration : Option Nat} {date : Option Int} {muxing writing : Bytes} (h : p.Describes ts ch tg scale duration date muxing writing)
    (hc : p.CuesFit) {known : Bool} {fs : List SeenFrame} {tc : Tree} (ht : ClusterTree p.clusters known fs tc) :
    ∃ t : Tree, t.bytes = p.frontPayload ∧ t.Shaped (kidsOf gSegment) known none ∧ Shows (kidsOf gSegment) t fs ∧
      t.Around (settingsTree ts ch tg scale duration date muxing writing) := by
  obtain ⟨a, a1, a2, a3, a4⟩ := h.tree
  obtain ⟨c, c1, c2, c3, -, c5⟩ := hc.tree
  refine ⟨a.append (c.append tc), ?_, ?_, ?_, a4.append fun i hi => (List.mem_append.mp (tops_append _ _ ▸ hi)).elim
    (fun h => by simp [c5 i h]) (fun h => by simp [ht.tops i h])⟩
  · simp [Tree.append_bytes, a1, ht.bytes, c1, Parts.frontPayload]
  · exact (a2 known _).append ((c2 known _).append (ht.shaped none (by intro _ h; cases h)))
  · have := Shows.append a3.shows (Shows.append c3.shows ht.shows (c2 known none)) (a2 known none)
    simpa using this

/-! ### Cues fit -/

theorem blocks_facts {tc scale : Nat} {fs : List Frame} {bs : Bytes} (h : Blocks tc scale fs bs) :
    fs.length ≤ bs.length ∧ ∀ f ∈ fs, f.trackNumber ≤ 126 := by
  induction h with
  | nil => exact ⟨Nat.le_refl _, by simp⟩
  | cons h _ ih =>
    rename_i f fs b bs _
    constructor
    · have hb : b ≠ [] := by
        obtain ⟨-, -, -, -, -, -, h7⟩ := h
        split at h7
        · rw [h7]; exact Par.element_ne_nil _ _
        · obtain ⟨a, p, r, d, -, -, -, -, rfl⟩ := h7
          exact Par.element_ne_nil _ _
      have := List.length_pos_iff.mpr hb
      simp only [List.length_cons, List.length_append]
      omega
    · intro g hg
      rcases List.mem_cons.mp hg with rfl | hg
      · exact h.2.2.2.2.1
      · exact ih.2 g hg

theorem cues_fit {scale track : Nat} {numbered : Bool} {cs : List (Nat × ClusterOf)} {q : List Cue}
    (hq : CuesOf scale track numbered cs q) : ∀ {off : Nat} {sized : Bool} {bs : Bytes}, ClustersAt scale sized off cs bs →
    off + bs.length < 2 ^ 56 → (∀ f ∈ clusterFrames cs, f.timestamp / scale < 2 ^ 63) → ∀ c ∈ q, Cue.Fits c := by
  induction hq with
  | nil => intro _ _ _ _ _ _ c hc; cases hc
  | skip h hr ih =>
    intro off sized bs hc hl ht
    cases hc with
    | cons h' hr' =>
      rw [List.length_append] at hl
      exact ih hr' (by omega) fun f hf => ht f (by simp only [clusterFrames] at hf ⊢; simp [hf])
  | cue h hr ih =>
    intro off sized bs hc hl ht
    cases hc with
    | cons h' hr' =>
      rename_i n f c cs q b bs
      rw [List.length_append] at hl
      intro x hx
      rcases List.mem_cons.mp hx with rfl | hx
      · obtain ⟨body, ⟨w, blocks, -, -, -, hb, rfl⟩, -, rfl⟩ := h'
        obtain ⟨b1, b2⟩ := blocks_facts hb
        obtain ⟨before, after, e, hn, htr, -⟩ := h
        have hf : f ∈ c.frames := by rw [e]; simp
        have hlen := congrArg List.length e
        simp only [List.length_append, List.length_cons] at hlen hl
        have h126 := b2 f hf
        have htime := ht f (by simp [clusterFrames, hf])
        refine ⟨by simp only; omega, by simp only; omega, by simp only; omega, ?_⟩
        intro x hx
        simp only at hx
        split at hx
        · cases hx; omega
        · cases hx
      · exact ih hr' (by omega) (fun f hf => ht f (by simp only [clusterFrames] at hf ⊢; simp [hf])) x hx

/-! ### Frames that carry frames -/

theorem carried_seen {scale : Nat} {a b : List Frame} (h : CarriedAll a b) (hr : ∀ f ∈ a, f.InRange) :
    (∀ f ∈ b, f.InRange) ∧ b.map (Frame.asSeen scale) = a.map (Frame.asSeen scale) := by
  induction h with
  | nil => exact ⟨by simp, rfl⟩
  | cons h _ ih =>
    rename_i f g fs gs _
    obtain ⟨i1, i2⟩ := ih fun f hf => hr f (.tail _ hf)
    have hf := hr f (.head _)
    constructor
    · intro x hx
      rcases List.mem_cons.mp hx with rfl | hx
      · exact ⟨fun hn => by rw [h.additional] at hn; rw [h.addId hn]; exact hf.addId hn,
          by rw [h.duration]; exact hf.duration, by rw [h.discard]; exact hf.padding⟩
      · exact i1 x hx
    · simp only [List.map_cons, i2]
      congr 1
      simp only [Frame.asSeen, h.time, h.track, h.data, h.key, h.duration, h.discard, h.additional]
      cases hadd : f.additional with
      | none => rfl
      | some x => simp [h.addId (by rw [hadd]; simp)]

theorem carried_times {a b : List Frame} (h : CarriedAll a b) {P : Nat → Prop} (hp : ∀ f ∈ a, P f.timestamp) :
    ∀ f ∈ b, P f.timestamp := by
  induction h with
  | nil => simp
  | cons h _ ih =>
    intro x hx
    rcases List.mem_cons.mp hx with rfl | hx
    · rw [h.time]; exact hp _ (.head _)
    · exact ih (fun f hf => hp f (.tail _ hf)) x hx

end Verif.Spec
