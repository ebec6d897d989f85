/-
C55, C56: when the incremental parser reports completion, and what skipping an element does.
-/
import Verif.Lemmas.WebmQuiet
import Verif.Props.WebmTree

namespace Verif.Props
open Verif Verif.Spec Verif.Web

/-! ### C55 -/

/-- **C55.**  When the parser, new or just told of a seek and fed until it stops asking for more,
reports completion, it has read the input to its end: every byte, whatever they are and however
they arrived. -/
theorem C55_completed_means_whole_input (cb : Cb) (hcb : cb.Proper) (p : Parser cb)
    (hp : AtStart p) (L : Log) (s : Src) (fuel : Nat) (hf : s.stalls < fuel)
    (p' : Parser cb) (L' : Log) (s' : Src) (k : Nat)
    (hd : drive (Parser.feed cb) fuel (p, L) s = (.okCompleted, (p', L'), s', k)) :
    s'.bytes = [] ∧ k = s.bytes.length ∧ s'.pos = s.pos + s.bytes.length := by
  have h : ∀ id, ∃ inv, (webmTop.kids.find cb id).E.Good inv :=
    fun id => Kids.good hcb webmTop.kids id
  obtain ⟨I, hI⟩ := Classical.axiomOfChoice h
  have hinv := atStart_inv hp I
  have hst : p.doc.state ≠ .ended := by
    rcases hp with rfl | ⟨q, rfl⟩ <;> simp [WebmP.didSeek, Doc.seeked]
  have h1 := C31_schedule_independent cb hcb p hp L s fuel hf
  rcases hr : Parser.feed cb (p, L) (allAtOnce s.bytes s.pos) with ⟨st1, ⟨p1, L1⟩, s1, k1⟩
  rw [hd, hr] at h1
  obtain ⟨-, -, rfl, rfl, h2⟩ := h1
  obtain ⟨rfl, rfl, rfl⟩ := h2 rfl
  have hadv := (WebmP.feed_facts hI hcb (webm_ancOk cb) (x := (p, L)) hinv hr).1
  have hw : (allAtOnce s'.bytes s'.pos).bytes = [] := by
    have hr2 := hr
    unfold Parser.feed WebmP.feedWith at hr2
    rw [if_neg (by rw [hinv.2]; simp)] at hr2
    rcases hq : Doc.feed cb webmTop.root webmTop.anc (p.doc, L) (allAtOnce s.bytes s.pos) with
      ⟨st2, y, s2, k2⟩
    rw [hq] at hr2
    simp only [Prod.mk.injEq] at hr2
    obtain ⟨rfl, -, rfl, rfl⟩ := hr2
    exact Doc.feed_whole hI hcb (webm_ancOk cb) hinv.1 hst hq
  rw [← flat_eq, flat_bytes] at hw
  obtain ⟨ds, b1, b2, b3⟩ := hadv
  rw [← flat_eq, ← flat_eq, flat_bytes, flat_bytes] at b1
  rw [← flat_eq, ← flat_eq, flat_pos, flat_pos] at b3
  rw [hw, List.append_nil] at b1
  rw [b1]
  exact ⟨hw, b2.symm, by rw [b3, b2]⟩

/-- A document cut inside its last frame does not complete. -/
example : (Parser.feed acceptAll ({}, []) (allAtOnce (smallDoc.take 25))).1 = .endOfFile ∧
    (Parser.feed acceptAll ({}, []) (allAtOnce smallDoc)).1 = .okCompleted ∧
    (Parser.feed acceptAll ({}, []) (allAtOnce smallDoc)).2.2.2 = 26 := by decide +kernel

/-! ### C56 -/

/-- **C56** (the silence; that nothing else is affected fails, see below).  Below an element the
callback asked to skip, no call is made, whatever the element holds and however its bytes
arrive: neither by the parser that jumps over an element of known size nor by the parsers that
have to look for the end of one of unknown size. -/
theorem C56_skipped_element_is_silent_partial (cb : Cb) (g : Gram) (p : (g.parser cb).σ)
    (c : skipEP.σ) (L : Log) (s : Src) (fuel : Nat) :
    (drive ((g.parser cb).feed true) fuel (p, L) s).2.1.2 = L ∧
    (drive (skipEP.feed true) fuel (c, L) s).2.1.2 = L := by
  have h : ∀ (E : EP), E.Quiet → ∀ (fuel : Nat) (x : E.σ × Log) (s : Src),
      (drive (E.feed true) fuel x s).2.1.2 = x.2 := by
    intro E hE fuel
    induction fuel with
    | zero => intro x s; rfl
    | succ f ih =>
      intro x s
      have h0 := hE x s
      unfold drive
      rcases hr : E.feed true x s with ⟨st, x', s', k⟩
      rw [hr] at h0
      simp only at h0 ⊢
      split
      · rw [ih x' s', h0]
      · exact h0
  exact ⟨h _ (g.quiet cb) fuel (p, L) s, h _ skipEP_quiet fuel (c, L) s⟩

/-- The callback that skips elements of one ID. -/
def skipId (i : Nat) : Cb := fun _ e =>
  match e with
  | .element m => (.okCompleted, m.id == i)
  | _ => (.okCompleted, false)

theorem skipId_proper (i : Nat) : (skipId i).Proper := by
  intro L e
  unfold skipId
  split <;> simp [Status.isStall]

/-- Skipping the SimpleBlock of the small document: it is announced, not reported, and the Cluster
around it is. -/
example : (Parser.feed (skipId 0xA3) ({}, []) (allAtOnce smallDoc)).2.1.2.filterMap (fun e =>
      match e with | .element m => some (0, m.id) | .start m _ => some (1, m.id)
                   | .complete m _ => some (2, m.id) | .blockStart m _ => some (3, m.id)
                   | .frame _ _ _ => some (4, 0) | _ => none) =
    [(0, 0x1A45DFA3), (2, 0x1A45DFA3), (0, 0x18538067), (1, 0x18538067), (0, 0x1F43B675),
     (0, 0xE7), (0, 0xA3), (1, 0x1F43B675), (2, 0x1F43B675), (2, 0x18538067)] := by
  decide +kernel

/-- A Cluster with a block of track 1 and a block of track 2. -/
def twoBlockDoc : Bytes :=
  [0x18, 0x53, 0x80, 0x67, 0xFF, 0x1F, 0x43, 0xB6, 0x75, 0xFF, 0xE7, 0x81, 0x05,
   0xA3, 0x86, 0x81, 0x00, 0x03, 0x80, 0xAA, 0xBB, 0xA3, 0x85, 0x82, 0x00, 0x04, 0x80, 0xCC]

/-- The callback that skips the blocks of one track when it hears of their headers. -/
def skipsTrack (t : Nat) : Cb := fun _ e =>
  match e with
  | .blockStart _ v => (.okCompleted, v.track == t)
  | _ => (.okCompleted, false)

/-- A block that is skipped at `OnSimpleBlockBegin` (a case outside the theorems): its frame is not reported, its end is not reported, it
is not in the Cluster that `OnClusterEnd` is given, and the next block is not affected. -/
example : (Parser.feed (skipsTrack 1) ({}, []) (allAtOnce twoBlockDoc)).1 = .okCompleted ∧
    (Parser.feed (skipsTrack 1) ({}, []) (allAtOnce twoBlockDoc)).2.1.2.filter (fun e =>
      match e with | .frame .. => true | .blockEnd .. => true | .complete .. => true | _ => false) =
    [.frame 27 1 [0xCC],
     .blockEnd ⟨0xA3, 2, 5, 21⟩ { track := 2, numFrames := 1, timecode := 4, isVisible := true, isKey := true },
     .complete ⟨0x1F43B675, 5, kUnknownElementSize, 5⟩ (.cons 0xE7 (.nat 5) (.cons 0xA3
       (.block { track := 2, numFrames := 1, timecode := 4, isVisible := true, isKey := true }) .nil)),
     .complete ⟨0x18538067, 5, kUnknownElementSize, 0⟩ .nil] := by decide +kernel

/-- A Segment and a Cluster of unknown size, the Cluster holding a BlockGroup of unknown size
followed by a timecode and a SimpleBlock. -/
def groupDoc : Bytes :=
  [0x18, 0x53, 0x80, 0x67, 0xFF, 0x1F, 0x43, 0xB6, 0x75, 0xFF,
   0xA0, 0xFF, 0xA1, 0x85, 0x81, 0x00, 0x00, 0x00, 0xAA,
   0xE7, 0x81, 0x05, 0xA3, 0x86, 0x81, 0x00, 0x03, 0x80, 0xAA, 0xBB]

/-- **C56** fails when the first block of a Cluster is a BlockGroup of unknown size: skipping it
also silences the rest of the Cluster and the Cluster itself.  (`OnClusterBegin` is then called
on the callback that skips everything, whose answer is taken for the user's.) -/
theorem C56_skipped_group_silences_cluster :
    (Parser.feed (skipId 0xA0) ({}, []) (allAtOnce groupDoc)).1 = .okCompleted ∧
    (Parser.feed (skipId 0xA0) ({}, []) (allAtOnce groupDoc)).2.1.2 =
      [.element ⟨0x18538067, 5, kUnknownElementSize, 0⟩,
       .start ⟨0x18538067, 5, kUnknownElementSize, 0⟩ .nil,
       .element ⟨0x1F43B675, 5, kUnknownElementSize, 5⟩,
       .element ⟨0xA0, 2, kUnknownElementSize, 10⟩,
       .complete ⟨0x18538067, 5, kUnknownElementSize, 0⟩ .nil] ∧
    .frame 28 2 [0xAA, 0xBB] ∈ (Parser.feed acceptAll ({}, []) (allAtOnce groupDoc)).2.1.2 := by
  decide +kernel

/-- A callback that stops the parse when it first hears of the EBML header, having already asked
for it to be skipped, and reads everything when asked again. -/
def changesItsMind : Cb := fun L _ => if L = [] then (.user 0, true) else (.okCompleted, false)

/-- **C56** fails, too, when a call that stops the parse has written "skip": the next `Feed` does
not ask again but skips the element. -/
theorem C56_refused_call_still_skips :
    (history changesItsMind ({}, []) [.feed (allAtOnce (smallDoc.take 5)), .feed ⟨[], 5⟩]).map
      (fun o => o.map (fun s => (s.status, s.log))) =
    [some (.user 0, [.element ⟨0x1A45DFA3, 5, 0, 0⟩]),
     some (.okCompleted, [.element ⟨0x1A45DFA3, 5, 0, 0⟩])] := by
  decide +kernel

/-! ### C34, observed -/

/-- After a seek to a SimpleBlock, the block is read as one, its Cluster and Segment are completed
as such, and the next Cluster is recognised. -/
example : (Parser.feed acceptAll (({} : Parser acceptAll).didSeek, [])
      (allAtOnce [0xA3, 0x86, 0x81, 0x00, 0x03, 0x80, 0xAA, 0xBB, 0x1F, 0x43, 0xB6, 0x75, 0x80]
        500)).2.1.2.map (fun e =>
      match e with | .element m => (0, m.id) | .start m _ => (1, m.id)
                   | .complete m _ => (2, m.id) | .blockStart m _ => (3, m.id)
                   | .frame p _ _ => (4, p) | .blockEnd m _ => (5, m.id) | _ => (6, 0)) =
    [(0, 0xA3), (3, 0xA3), (4, 506), (5, 0xA3), (2, 0x1F43B675),
     (0, 0x1F43B675), (1, 0x1F43B675), (2, 0x1F43B675), (2, 0x18538067)] := by
  decide +kernel

/-- **C34** fails for the children of Colour: after a seek to MatrixCoefficients, it is reported as
an unknown element. -/
theorem C34_colour_reported_unknown :
    (Parser.feed acceptAll (({} : Parser acceptAll).didSeek, [])
      (allAtOnce [0x55, 0xB1, 0x81, 0x01])).2.1.2 =
    [.element ⟨0x55B1, 3, 1, 0⟩, .unknown ⟨0x55B1, 3, 1, 0⟩ [0x01]] := by
  decide +kernel

end Verif.Props
