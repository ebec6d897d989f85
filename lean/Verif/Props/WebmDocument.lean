/-
C58: the incremental parser reads well-formed documents as the reference reading says.
-/
import Verif.Lemmas.WebmDocTop
import Verif.Props.WebmTree

namespace Verif.Props
open Verif Verif.Web Verif.Spec

/-- C58. For every well-formed document (any nesting, elements of known and unknown size, elements
the library does not know, blocks with any lacing), every way the data arrives, and every callback
that reads what it is offered (and may choose any elements of known size to be left out): the
caller's loop ends with "completed" after reading the whole document, and the calls made (with
all their arguments) are those of the reference reading. -/
theorem C58_document_read (cb : Cb) (hcb : cb.Reads) (t : Tree) (ht : t.Document topKids) (s : Src)
    (hb : s.bytes = t.bytes) (hfit : s.pos + t.bytes.length + 1 < 2 ^ 64) (fuel : Nat) (hf : s.stalls < fuel) :
    match drive (Parser.feed cb) fuel ({}, []) s with
    | (st, (_, L), s', k) =>
      st = .okCompleted ∧ L = t.calls (fun L m => (cb L (.element m)).2) topKids s.pos ∧
      s'.bytes = [] ∧ k = t.bytes.length := by
  obtain ⟨I, hI⟩ := Kids.goods hcb.proper webmTop.kids
  have h := C31_schedule_independent cb hcb.proper {} (.inl rfl) [] s fuel hf
  -- one `Feed` with everything available
  have hone : ∃ p, Parser.feed cb ({}, []) (allAtOnce s.bytes s.pos) =
      (.okCompleted, (p, t.calls cb.skips topKids s.pos), allAtOnce [] (s.pos + t.bytes.length), t.bytes.length) := by
    rw [hb]
    let d1 : Doc (webmTop.kids.find cb) := { ({} : Doc (webmTop.kids.find cb)) with cm := ⟨0, 0, 0, s.pos⟩, state := .readId }
    have e1 : Doc.body cb webmTop.root webmTop.anc (({} : Doc (webmTop.kids.find cb)), []) (allAtOnce t.bytes s.pos) =
        (none, (d1, []), allAtOnce t.bytes s.pos, 0) := rfl
    obtain ⟨i1, r1⟩ := Doc.Runs.pass hI hcb.proper (webm_ancOk cb) e1 Doc.fresh_inv
    obtain ⟨d2, r2⟩ := doc_reads hcb hI t d1 ⟨[], .nil, false⟩ s.pos ht hfit ⟨rfl, rfl, rfl, rfl, rfl, rfl, rfl⟩ i1
    unfold Parser.feed WebmP.feedWith
    rw [if_neg (by show ¬ Status.okPartial.isParsingError = true; decide)]
    refine ⟨{ doc := d2, status := .okCompleted }, ?_⟩
    simp only [r1]
    have r2' : Doc.feed cb webmTop.root webmTop.anc (d1, []) (allAtOnce t.bytes s.pos) = _ := r2
    rw [r2']
    simp [addN, Tree.calls]
  obtain ⟨p, hone⟩ := hone
  rw [hone] at h
  rcases hd : drive (Parser.feed cb) fuel ({}, []) s with ⟨st, ⟨p', L'⟩, s', k⟩
  rw [hd] at h
  obtain ⟨-, -, h1, h2, h3⟩ := h
  subst h1 h2
  obtain ⟨-, h4, h5⟩ := h3 rfl
  refine ⟨rfl, rfl, ?_, h5.symm⟩
  have h6 := congrArg Src.bytes h4
  simpa [allAtOnce, Src.bytes] using h6.symm

/-! ### Nothing is lost -/

theorem framesTold_append (a b : Log) : framesTold (a ++ b) = framesTold a ++ framesTold b := by
  induction a with
  | nil => rfl
  | cons e a ih => cases e <;> simp [framesTold, ih]

theorem framesTold_frameCalls (pos : Nat) (fs : List Bytes) : framesTold (frameCalls pos fs) = fs := by
  induction fs generalizing pos with
  | nil => rfl
  | cons f fs ih => simp [frameCalls, framesTold, ih]

theorem framesTold_announce (t : Told) (due : Option Meta) (m : Meta) (st : Bool) :
    framesTold (t.announce due m st).log = framesTold t.log := by
  unfold Told.announce
  split
  · split <;> simp [framesTold_append, framesTold]
  · simp [framesTold_append, framesTold]

theorem framesTold_payload {l : Leaf} {p : Payload} (hp : p.Allowed l) (id w : Nat) (m : Meta) :
    framesTold (p.read m (some l)).1 = (Tree.leaf id w p .nil).frames := by
  cases p with
  | bytes b => cases l <;> first | rfl | exact hp.elim
  | block bw track tc flags frames body =>
    cases l <;> first
      | exact hp.elim
      | simp [Payload.read, blockCalls, framesTold, framesTold_append, framesTold_frameCalls, Tree.frames]

theorem frames_read (t : Tree) : ∀ (ks : Kids) (sized : Bool) (a : Option Nat) (due : Option Meta) (pos : Nat)
    (told : Told), t.WellFormed ks sized a →
    framesTold (t.read (fun _ _ => false) ks due pos told).log = framesTold told.log ++ t.frames := by
  induction t with
  | nil => intro ks sized a due pos told _; simp [Tree.read, Tree.frames]
  | leaf id w p next ih =>
    intro ks sized a due pos told hw
    obtain ⟨h1, h2, h3, h4, h5, h6⟩ := hw
    have hfr : (Tree.leaf id w p next).frames = (Tree.leaf id w p .nil).frames ++ next.frames := by
      cases p <;> simp [Tree.frames]
    rw [Tree.read_leaf, ih ks sized a due _ _ h6, hfr, ← List.append_assoc]
    congr 1
    cases he : ks.entry id with
    | none =>
      rw [he] at h5
      obtain ⟨-, b, rfl⟩ := h5
      simp [Tree.read, he, Told.close, framesTold_append, framesTold_announce, Payload.read, framesTold, Tree.frames]
    | some x =>
      obtain ⟨st, co, g⟩ := x
      rw [he] at h5
      cases g with
      | master r ks' => exact h5.elim
      | leaf l =>
        simp only [Tree.read, he, Told.close]
        simp [framesTold_append, framesTold_announce, framesTold_payload h5 id w]
  | node id w known kids next ihk ih =>
    intro ks sized a due pos told hw
    obtain ⟨h1, h2, h3, h4, h5⟩ := hw
    cases he : ks.entry id with
    | none => rw [he] at h4; exact h4.elim
    | some x =>
      obtain ⟨st, co, g⟩ := x
      cases g with
      | leaf l => rw [he] at h4; exact h4.elim
      | master r ks' =>
        rw [he] at h4
        have hk : ∃ sz a', kids.WellFormed ks' sz a' := by
          cases known with
          | true => exact ⟨_, _, h4.2⟩
          | false => exact ⟨_, _, h4.2.2.2⟩
        obtain ⟨sz, a', hk⟩ := hk
        rw [Tree.read_node _ _ _ _ _ _ _ _ _ _ he, ih ks sized a due _ _ h5, Tree.frames, ← List.append_assoc]
        congr 1
        simp only [Tree.read, he, Told.close, Bool.and_false, Bool.false_eq_true, if_false]
        simp only [framesTold_append, ihk ks' sz a' _ _ _ hk, framesTold_announce]
        have e1 : ∀ (c : Prop) [Decidable c] (m : Meta) (v : Val), framesTold (if c then [.start m v] else []) = [] := by
          intro c _ m v; split <;> rfl
        have e2 : ∀ (c : Prop) [Decidable c] (m : Meta) (v : Val), framesTold (if c then [.complete m v] else []) = [] := by
          intro c _ m v; split <;> rfl
        rw [e1, e1, e2]
        simp

theorem frames_document (t : Tree) (ht : t.Document topKids) (pos : Nat) (told : Told) :
    framesTold (t.read (fun _ _ => false) topKids none pos told).log = framesTold told.log ++ t.frames := by
  induction t generalizing pos told with
  | nil => simp [Tree.read, Tree.frames]
  | leaf id w p next ih =>
    rw [Tree.read_leaf, ih ht.2, frames_read _ _ _ _ _ _ _ ht.1, List.append_assoc]
    cases p <;> simp [Tree.frames]
  | node id w known kids next ihk ih =>
    clear ihk
    have hgen : ∃ sized, (Tree.node id w known kids .nil).WellFormed topKids sized none ∧ next.Document topKids := by
      cases known with
      | true => exact ⟨true, ht.1, ht.2⟩
      | false =>
        obtain ⟨h1, h2⟩ := ht
        subst h2
        exact ⟨false, h1, trivial⟩
    obtain ⟨sized, hw, hn⟩ := hgen
    have h4 := hw.2.2.2.1
    cases he : topKids.entry id with
    | none => rw [he] at h4; exact h4.elim
    | some x =>
      obtain ⟨st, co, g⟩ := x
      cases g with
      | leaf l => rw [he] at h4; exact h4.elim
      | master r ks' =>
        rw [Tree.read_node _ _ _ _ _ _ _ _ _ _ he, ih hn, frames_read _ _ _ _ _ _ _ hw, List.append_assoc]
        simp [Tree.frames]

/-- C58, the frames: a callback that wants everything is given every frame of the document, byte for
byte, once and in order. -/
theorem C58_frames_delivered (cb : Cb) (hcb : cb.Reads) (hall : ∀ L m, (cb L (.element m)).2 = false)
    (t : Tree) (ht : t.Document topKids) (s : Src) (hb : s.bytes = t.bytes)
    (hfit : s.pos + t.bytes.length + 1 < 2 ^ 64) (fuel : Nat) (hf : s.stalls < fuel) :
    framesTold (drive (Parser.feed cb) fuel ({}, []) s).2.1.2 = t.frames := by
  have h := C58_document_read cb hcb t ht s hb hfit fuel hf
  rcases hd : drive (Parser.feed cb) fuel ({}, []) s with ⟨st, ⟨p', L'⟩, s', k⟩
  rw [hd] at h
  obtain ⟨-, h2, -⟩ := h
  simp only [h2]
  unfold Tree.calls
  rw [show (fun L m => (cb L (.element m)).2) = (fun (_ : Log) (_ : Meta) => false) from
    funext fun L => funext fun m => hall L m]
  rw [frames_document t ht]
  rfl

/-! ### Cases -/

/-- A recording as a live encoder writes it: a header, then a Segment of unknown size with two
Clusters of unknown size (one with a laced block and an unused element), then empty Tags. -/
def liveDoc : Tree :=
  .node Id.kEbml 1 true (.leaf Id.kDocType 1 (.bytes [0x77, 0x65, 0x62, 0x6D]) .nil)
  (.node Id.kSegment 1 false
    (.node Id.kCluster 8 false
      (.leaf Id.kTimecode 1 (.bytes [5])
      (.leaf Id.kSimpleBlock 1 (.block 1 1 0 0x80 [[0xAA, 0xBB]] [0xAA, 0xBB])
      (.leaf Id.kSimpleBlock 2 (.block 1 1 (-3) 0x02 [[1], [2, 3]] [1, 1, 1, 2, 3])
      (.leaf Id.kVoid 1 (.bytes [0, 0]) .nil))))
    (.node Id.kCluster 1 false
      (.leaf Id.kTimecode 1 (.bytes [9])
      (.leaf Id.kSimpleBlock 1 (.block 1 2 0 0x80 [[0xCC]] [0xCC]) .nil))
    (.node Id.kTags 1 true .nil .nil)))
  .nil)

theorem liveDoc_document : liveDoc.Document topKids := by
  have i : ∀ id ∈ [Id.kEbml, Id.kDocType, Id.kSegment, Id.kCluster, Id.kTimecode, Id.kSimpleBlock, Id.kVoid, Id.kTags],
      IsId (byteWidth id) id := by unfold IsId; decide +kernel
  refine ⟨⟨i _ (by decide), by decide, by decide, ?_, trivial⟩, ⟨i _ (by decide), by decide, by decide, ?_, trivial⟩, rfl⟩
  · refine ⟨by decide +kernel, i _ (by decide), by decide, by decide, by decide, ?_, trivial⟩
    exact trivial
  · refine ⟨rfl, rfl, by simp [Tree.follow], ?_⟩
    refine ⟨i _ (by decide), by decide, by decide, ?_, i _ (by decide), by decide, by decide, ?_,
      i _ (by decide), by decide, by decide, ?_, trivial⟩
    · refine ⟨rfl, rfl, ?_, ?_⟩
      · intro a ha; cases ha; rfl
      · refine ⟨i _ (by decide), by decide, by decide, by decide, ?_, i _ (by decide), by decide, by decide, by decide, ?_,
          i _ (by decide), by decide, by decide, by decide, ?_, i _ (by decide), by decide, by decide, by decide, ?_, trivial⟩
        · show ([5] : Bytes).length ≤ 8
          decide
        · exact ⟨by decide, by decide, by decide, .inl ⟨by decide, rfl⟩, by decide⟩
        · refine ⟨by decide, by decide, by decide, .inr ⟨by decide, by decide, [1], ?_, by decide⟩, by decide⟩
          exact .inl ⟨by decide, by decide⟩
        · exact trivial
    · refine ⟨rfl, rfl, ?_, ?_⟩
      · intro a ha; cases ha; rfl
      · refine ⟨i _ (by decide), by decide, by decide, by decide, ?_, i _ (by decide), by decide, by decide, by decide, ?_, trivial⟩
        · show ([9] : Bytes).length ≤ 8
          decide
        · exact ⟨by decide, by decide, by decide, .inl ⟨by decide, rfl⟩, by decide⟩
    · exact ⟨by decide, trivial⟩

/-- The callback that leaves out blocks of track 2's length (three bytes of header and one of data). -/
def skipSmall : Cb := fun _ e =>
  match e with
  | .element m => (.okCompleted, m.id == Id.kSimpleBlock && m.size == 5)
  | _ => (.okCompleted, false)

theorem skipSmall_reads : skipSmall.Reads := by
  intro L e
  cases e with
  | element m =>
    refine ⟨rfl, fun h => ⟨m, rfl, ?_⟩⟩
    simp only [skipSmall, Bool.and_eq_true, beq_iff_eq] at h
    rw [h.2]
    decide
  | _ => exact ⟨rfl, fun h => by cases h⟩

theorem acceptAll_reads : acceptAll.Reads := fun _ _ => ⟨rfl, fun h => by cases h⟩

/-- The recording, arriving byte by byte, is read by a callback that leaves out some blocks. -/
example : let r := drive (Parser.feed skipSmall) 200 ({}, []) ⟨liveDoc.bytes.flatMap (fun b => [none, some b]), 0⟩
    r.1 = .okCompleted ∧ r.2.1.2 = liveDoc.calls (fun L m => (skipSmall L (.element m)).2) topKids 0 ∧
    framesTold r.2.1.2 = [[0xAA, 0xBB], [1], [2, 3]] := by
  have h := C58_document_read skipSmall skipSmall_reads liveDoc liveDoc_document
    ⟨liveDoc.bytes.flatMap (fun b => [none, some b]), 0⟩ (by decide +kernel) (by decide +kernel) 200 (by decide +kernel)
  rcases hd : drive (Parser.feed skipSmall) 200 ({}, []) ⟨liveDoc.bytes.flatMap (fun b => [none, some b]), 0⟩ with
    ⟨st, ⟨p', L'⟩, s', k⟩
  rw [hd] at h
  obtain ⟨h1, h2, -⟩ := h
  refine ⟨h1, h2, ?_⟩
  simp only [h2]
  decide +kernel

example : liveDoc.frames = [[0xAA, 0xBB], [1], [2, 3], [0xCC]] := by decide

/-- The reference reading of the recording's first Cluster: it begins when its first block does. -/
example : ((liveDoc.calls (fun _ _ => false) topKids 0).drop 5).take 7 =
    [.element ⟨Id.kCluster, 12, 2 ^ 64 - 1, 17⟩,
     .element ⟨Id.kTimecode, 2, 1, 29⟩,
     .element ⟨Id.kSimpleBlock, 2, 6, 32⟩,
     .start ⟨Id.kCluster, 12, 2 ^ 64 - 1, 17⟩ (.cons Id.kTimecode (.nat 5) .nil),
     .blockStart ⟨Id.kSimpleBlock, 2, 6, 32⟩ (blockNamed true 1 0 0x80 1),
     .frame 38 2 [0xAA, 0xBB],
     .blockEnd ⟨Id.kSimpleBlock, 2, 6, 32⟩ (blockNamed true 1 0 0x80 1)] := by decide +kernel

/-! ### Where the restrictions come from

Each of the following documents is sensible Matroska outside what `Tree.Document` allows, and is not
read as one would expect. -/

/-- The elements announced while a document is read, and the final status. -/
def announcements (b : Bytes) : Status × List Meta :=
  let r := drive (Parser.feed acceptAll) 1 ({}, []) (allAtOnce b)
  (r.1, r.2.1.2.filterMap fun e => match e with | .element m => some m | _ => none)

/-- A top-level element after a Segment of unknown size is announced with the position of its
contents (here 10) instead of its own (5): webm_parser/src/webm_parser.cc:166-175. -/
theorem C58_limit_position_after_unknown_segment :
    announcements [0x18, 0x53, 0x80, 0x67, 0xFF, 0x1A, 0x45, 0xDF, 0xA3, 0x80] =
      (.okCompleted, [⟨Id.kSegment, 5, 2 ^ 64 - 1, 0⟩, ⟨Id.kEbml, 5, 0, 10⟩]) := by
  decide +kernel

/-- A Segment of known size holding a Cluster of unknown size and then empty Tags: the Tags are
never announced, because the Segment is already complete when their header has been read
(webm_parser/src/master_parser.cc:239-262). -/
theorem C58_limit_empty_element_lost :
    announcements [0x18, 0x53, 0x80, 0x67, 0x8D, 0x1F, 0x43, 0xB6, 0x75, 0xFF, 0xE7, 0x81, 5,
        0x12, 0x54, 0xC3, 0x67, 0x80] =
      (.okCompleted, [⟨Id.kSegment, 5, 13, 0⟩, ⟨Id.kCluster, 5, 2 ^ 64 - 1, 5⟩, ⟨Id.kTimecode, 2, 1, 10⟩]) := by
  decide +kernel

/-- A chapter of unknown size inside another one: the element after them (Tags, at 21) is never
announced, its header is lost (webm_parser/src/recursive_parser.h does not pass on
`GetCachedMetadata`). -/
theorem C58_limit_nested_chapters :
    (announcements [0x18, 0x53, 0x80, 0x67, 0xFF, 0x10, 0x43, 0xA7, 0x70, 0xFF, 0x45, 0xB9, 0xFF, 0xB6, 0xFF,
        0xB6, 0xFF, 0x73, 0xC4, 0x81, 7, 0x12, 0x54, 0xC3, 0x67, 0x80, 0xEC, 0x80]) =
      (.okCompleted, [⟨Id.kSegment, 5, 2 ^ 64 - 1, 0⟩, ⟨Id.kChapters, 5, 2 ^ 64 - 1, 5⟩,
        ⟨Id.kEditionEntry, 3, 2 ^ 64 - 1, 10⟩, ⟨Id.kChapterAtom, 2, 2 ^ 64 - 1, 13⟩,
        ⟨Id.kChapterAtom, 2, 2 ^ 64 - 1, 15⟩, ⟨Id.kChapterUid, 3, 1, 17⟩, ⟨Id.kVoid, 2, 0, 26⟩]) := by
  decide +kernel

/-- An empty Cluster of unknown size at the end of a Segment of known size: the parser reads the
next header beyond the Segment's end and reports an error. -/
theorem C58_limit_empty_unknown_element :
    announcements [0x18, 0x53, 0x80, 0x67, 0x85, 0x1F, 0x43, 0xB6, 0x75, 0xFF, 0x1A, 0x45, 0xDF, 0xA3, 0x80] =
      (.elementOverflow, [⟨Id.kSegment, 5, 5, 0⟩, ⟨Id.kCluster, 5, 2 ^ 64 - 1, 5⟩]) := by
  decide +kernel

end Verif.Props
