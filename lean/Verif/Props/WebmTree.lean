/-
C31-C34: the whole incremental parser (`WebmParser`): element trees under any schedule, sticky
errors, declared sizes, and the context after a seek.
-/
import Verif.Lemmas.Ancestry
import Verif.Spec.Parsing

namespace Verif.Props
open Verif Verif.Spec Verif.Web

/-! ### C31 -/

theorem atStart_inv {cb : Cb} {p : Parser cb} (h : AtStart p)
    (I : ∀ id, (webmTop.kids.find cb id).E.σ → Prop) : p.Inv I := by
  rcases h with rfl | ⟨q, rfl⟩
  · exact WebmP.fresh_inv
  · exact WebmP.didSeek_inv q

/-- **C31.**  Feed the parser, new or just told of a seek, from a reader that delivers its bytes in
any chunks, with any number of "nothing available yet" in between, until it stops asking for
more: it ends with a proper status, and that status and every call made to the callback (with
all arguments) are those of a single `Feed` with all bytes available.  Unless the status is a
parsing error, the number of bytes read, the unread bytes and the parser's state are the same
too. -/
theorem C31_schedule_independent (cb : Cb) (hcb : cb.Proper) (p : Parser cb) (hp : AtStart p)
    (L : Log) (s : Src) (fuel : Nat) (hf : s.stalls < fuel) :
    match drive (Parser.feed cb) fuel (p, L) s,
      Parser.feed cb (p, L) (allAtOnce s.bytes s.pos) with
    | (st, (p', L'), s', k), (st1, (p1, L1), s1, k1) =>
      st.isStall = false ∧ st ≠ .diverged ∧ st1 = st ∧ L1 = L' ∧
      (st.isParsingError = false → p1 = p' ∧ s1 = allAtOnce s'.bytes s'.pos ∧ k1 = k) := by
  have h : ∀ id, ∃ inv, (webmTop.kids.find cb id).E.Good inv :=
    fun id => Kids.good hcb webmTop.kids id
  obtain ⟨I, hI⟩ := Classical.axiomOfChoice h
  have hp := atStart_inv hp I
  rcases hd : drive (Parser.feed cb) fuel (p, L) s with ⟨st, ⟨p', L'⟩, s', k⟩
  rcases hr : Parser.feed cb (p, L) (allAtOnce s.bytes s.pos) with ⟨st1, ⟨p1, L1⟩, s1, k1⟩
  obtain ⟨h1, h2⟩ := drive_agree (feed := Parser.feed cb)
    (inv := WebmP.Inv I) (fun x s hx => WebmP.feed_tstep hI hcb (webm_ancOk cb) x s hx) (x := (p, L)) hp s fuel hf hd
  have h3 := WebmP.feed_facts hI hcb (webm_ancOk cb) (x := (p, L)) hp hr
  rw [hr] at h2
  rcases h2 with h2 | ⟨e1, e2, e3⟩
  · simp only [Prod.mk.injEq] at h2
    obtain ⟨rfl, ⟨rfl, rfl⟩, rfl, rfl⟩ := h2
    exact ⟨h1, h3.2, rfl, rfl, fun _ => ⟨rfl, (flat_eq s'), rfl⟩⟩
  · simp only at e1 e2 e3
    subst e1
    exact ⟨h1, h3.2, rfl, e3, fun h => by rw [h] at e2; cases e2⟩

/-- **C31.**  Two readers with the same bytes: same status and same calls. -/
theorem C31_same_bytes_same_calls (cb : Cb) (hcb : cb.Proper) (p : Parser cb) (hp : AtStart p)
    (L : Log) (s t : Src) (hb : s.bytes = t.bytes) (hq : s.pos = t.pos) (fs ft : Nat)
    (hs : s.stalls < fs) (ht : t.stalls < ft) :
    (drive (Parser.feed cb) fs (p, L) s).1 = (drive (Parser.feed cb) ft (p, L) t).1 ∧
    (drive (Parser.feed cb) fs (p, L) s).2.1.2 = (drive (Parser.feed cb) ft (p, L) t).2.1.2 := by
  have h1 := C31_schedule_independent cb hcb p hp L s fs hs
  have h2 := C31_schedule_independent cb hcb p hp L t ft ht
  rw [hb, hq] at h1
  rcases hd : drive (Parser.feed cb) fs (p, L) s with ⟨st, ⟨p', L'⟩, s', k⟩
  rcases he : drive (Parser.feed cb) ft (p, L) t with ⟨st2, ⟨p2, L2⟩, s2, k2⟩
  rcases hr : Parser.feed cb (p, L) (allAtOnce t.bytes t.pos) with ⟨st1, ⟨p1, L1⟩, s1, k1⟩
  rw [hd, hr] at h1
  rw [he, hr] at h2
  obtain ⟨-, -, a1, a2, -⟩ := h1
  obtain ⟨-, -, b1, b2, -⟩ := h2
  exact ⟨a1.symm.trans b1, a2.symm.trans b2⟩

/-- A small document: an empty EBML header, then a Segment of unknown size with one Cluster of
unknown size holding a timecode and a SimpleBlock. -/
def smallDoc : Bytes :=
  [0x1A, 0x45, 0xDF, 0xA3, 0x80, 0x18, 0x53, 0x80, 0x67, 0xFF, 0x1F, 0x43, 0xB6, 0x75, 0xFF,
   0xE7, 0x81, 0x05, 0xA3, 0x86, 0x81, 0x00, 0x03, 0x80, 0xAA, 0xBB]

/-- The callback that accepts and reads everything. -/
def acceptAll : Cb := fun _ _ => (.okCompleted, false)

theorem acceptAll_proper : acceptAll.Proper := fun _ _ => ⟨rfl, by simp [acceptAll], by simp [acceptAll]⟩

/-- The small document, byte by byte with a stall before every byte, is parsed to the end with
twelve calls, among them the frame. -/
example : let r := drive (Parser.feed acceptAll) 30 ({}, []) ⟨smallDoc.flatMap (fun b => [none, some b]), 0⟩
    r.1 = .okCompleted ∧ r.2.1.2.length = 13 ∧ .frame 24 2 [0xAA, 0xBB] ∈ r.2.1.2 := by
  decide +kernel

/-! ### C32 -/

theorem feed_stuck {cb : Cb} {x : Parser cb × Log} (h : x.1.status.isParsingError = true)
    (s : Src) : Parser.feed cb x s = (x.1.status, x, s, 0) := by
  unfold Parser.feed WebmP.feedWith
  rw [if_pos h]

theorem feed_records {cb : Cb} {x x' : Parser cb × Log} {s s' : Src} {st : Status} {k : Nat}
    (h : Parser.feed cb x s = (st, x', s', k)) (he : st.isParsingError = true) :
    x'.1.status = st := by
  unfold Parser.feed WebmP.feedWith at h
  split at h
  · simp only [Prod.mk.injEq] at h
    obtain ⟨rfl, rfl, -, -⟩ := h
    rfl
  · simp only [Prod.mk.injEq] at h
    obtain ⟨rfl, rfl, -, -⟩ := h
    rfl

theorem stuck_history {cb : Cb} (calls : List Call) : ∀ (x : Parser cb × Log) (j : Nat) (b : Seen),
    x.1.status.isParsingError = true → (history cb x calls)[j]? = some (some b) →
    (∀ i < j, calls[i]? ≠ some .didSeek) →
    b = ⟨b.before, x.1.status, b.before, 0, x.2⟩ := by
  induction calls with
  | nil => intro x j b _ h _; simp [history] at h
  | cons c rest ih =>
    intro x j b hx h hn
    cases c with
    | didSeek =>
      cases j with
      | zero => simp [history] at h
      | succ j => exact absurd rfl (hn 0 (by omega))
    | feed s =>
      rw [history, feed_stuck hx] at h
      cases j with
      | zero =>
        simp only [List.getElem?_cons_zero, Option.some.injEq] at h
        subst h
        rfl
      | succ j =>
        simp only [List.getElem?_cons_succ] at h
        exact ih x j b hx h (fun i hi => by have := hn (i + 1) (by omega); simpa using this)

/-- **C32.**  In any history of calls on any parser, once a `Feed` has answered with a parsing
error, every later `Feed` before the next `DidSeek` answers with the same error, reads nothing,
leaves its reader as it was, and makes no call to the callback. -/
theorem C32_errors_are_sticky (cb : Cb) (x : Parser cb × Log) (calls : List Call) (i j : Nat)
    (a b : Seen) (hij : i < j)
    (hi : (history cb x calls)[i]? = some (some a)) (ha : a.status.isParsingError = true)
    (hj : (history cb x calls)[j]? = some (some b))
    (hn : ∀ l, i < l → l < j → calls[l]? ≠ some .didSeek) :
    b.status = a.status ∧ b.after = b.before ∧ b.read = 0 ∧ b.log = a.log := by
  induction calls generalizing x i j with
  | nil => simp [history] at hi
  | cons c rest ih =>
    obtain ⟨j, rfl⟩ : ∃ j', j = j' + 1 := ⟨j - 1, by omega⟩
    cases c with
    | didSeek =>
      cases i with
      | zero => simp [history] at hi
      | succ i =>
        simp only [history, List.getElem?_cons_succ] at hi hj
        exact ih _ i j (by omega) hi hj
          (fun l h1 h2 => by have := hn (l + 1) (by omega) (by omega); simpa using this)
    | feed s =>
      rcases hr : Parser.feed cb x s with ⟨st, x', s', k⟩
      rw [history, hr] at hi hj
      simp only [List.getElem?_cons_succ] at hj
      cases i with
      | succ i =>
        simp only [List.getElem?_cons_succ] at hi
        exact ih _ i j (by omega) hi hj
          (fun l h1 h2 => by have := hn (l + 1) (by omega) (by omega); simpa using this)
      | zero =>
        simp only [List.getElem?_cons_zero, Option.some.injEq] at hi
        subst hi
        have hs := feed_records hr ha
        have := stuck_history rest x' j b (by rw [hs]; exact ha) hj
          (fun l hl => by have := hn (l + 1) (by omega) (by omega); simpa using this)
        rw [this]
        exact ⟨hs, rfl, rfl, rfl⟩

/-- **C32.**  After a seek is announced the error is gone: whatever happened before, the parser does
what it would have done had it never met an error. -/
theorem C32_cleared_by_seek (cb : Cb) (p : Parser cb) (st : Status) (L : Log) (s : Src) :
    Parser.feed cb (WebmP.didSeek { p with status := st }, L) s = Parser.feed cb (p.didSeek, L) s ∧
    (∀ e : Status, e.isParsingError = true → p.didSeek.status ≠ e) :=
  ⟨rfl, fun e he h => by subst h; cases he⟩

/-- An error in the middle (an ID byte of zero), a sticky answer although the reader now has a good
document, and after `DidSeek` that document is parsed. -/
example : (history acceptAll ({}, []) [.feed ⟨[some 0x00], 0⟩, .feed ⟨smallDoc.map some, 0⟩, .didSeek,
      .feed ⟨smallDoc.map some, 0⟩]).map (fun o => o.map (fun s => (s.status, s.read))) =
    [some (.invalidElementId, 1), some (.invalidElementId, 0), none, some (.okCompleted, 26)] := by
  decide +kernel

/-! ### C33 -/

theorem exact_drive {E : EP} (hE : E.HasExact) (q : Bool) (m : Meta) (mx : Nat) (p : E.σ)
    (hi : E.init m mx = .ok p) (hm : m.size ≠ kUnknownElementSize) (hz : m.size < 2 ^ 64)
    (L : Log) (s : Src) (hs : s.bytes.length < 2 ^ 64) (fuel : Nat) (hf : s.stalls < fuel)
    (p' : E.σ) (L' : Log) (s' : Src) (k : Nat)
    (hd : drive (E.feed q) fuel (p, L) s = (.okCompleted, (p', L'), s', k)) :
    k = m.size ∧ s'.pos = s.pos + m.size ∧ s'.bytes = s.bytes.drop m.size ∧
      m.size ≤ s.bytes.length := by
  obtain ⟨inv, hg, he⟩ := hE
  obtain ⟨i1, i2, i3⟩ := hg.init _ _ _ hi
  obtain ⟨-, h2⟩ := drive_agree (inv := inv) (fun x s hx => hg.step q x.1 x.2 s hx) (x := (p, L)) i1
    s fuel hf hd
  have h2 : E.feed q (p, L) (allAtOnce s.bytes s.pos) = (.okCompleted, (p', L'), s'.flat, k) := by
    rcases h2 with h2 | ⟨e1, e2, -⟩
    · exact h2
    · rw [e1] at e2; cases e2
  obtain ⟨a1, a2, -, -⟩ := hg.adv q p L _ _ _ _ _ _ i1 h2
  rw [← flat_eq] at h2 a1
  have h3 := he q p L _ _ _ _ _ i1 h2 (by rw [i2, flat_bytes]; omega) (by rw [i3]; exact hm)
    (by rw [i3]; exact hz)
  obtain ⟨ds, b1, b2, b3⟩ := a1
  rw [flat_bytes, flat_bytes] at b1
  rw [flat_pos, flat_pos] at b3
  have hk : k = m.size := by omega
  subst hk
  refine ⟨rfl, b3, ?_, ?_⟩
  · rw [b1, ← b2, List.drop_left]
  · rw [b1, List.length_append]; omega

/-- **C33** (every kind of element except BlockVirtual; what is missing is
`C33_block_virtual_reads_less`).  Whatever parser handles an element of known size, at any place
of any tree of parsers, read or (`q`) passed over below a skipped ancestor: when it completes,
fed from any reader, it has read exactly the declared size, no more and no less, so that the
reader stands at the first byte after the element. -/
theorem C33_exact_size_partial (cb : Cb) (hcb : cb.Proper) (g : Gram) (hg : g ≠ .leaf .virt)
    (q : Bool) (m : Meta) (mx : Nat) (p : (g.parser cb).σ) (hi : (g.parser cb).init m mx = .ok p)
    (hm : m.size ≠ kUnknownElementSize) (hz : m.size < 2 ^ 64)
    (L : Log) (s : Src) (hs : s.bytes.length < 2 ^ 64) (fuel : Nat) (hf : s.stalls < fuel)
    (p' : (g.parser cb).σ) (L' : Log) (s' : Src) (k : Nat)
    (hd : drive ((g.parser cb).feed q) fuel (p, L) s = (.okCompleted, (p', L'), s', k)) :
    k = m.size ∧ s'.pos = s.pos + m.size ∧ s'.bytes = s.bytes.drop m.size ∧
      m.size ≤ s.bytes.length :=
  exact_drive (g.exact hcb hg) q m mx p hi hm hz L s hs fuel hf p' L' s' k hd

/-- **C33** for elements the user asked to skip. -/
theorem C33_skipped_exact_size (q : Bool) (m : Meta) (mx : Nat) (p : skipEP.σ)
    (hi : skipEP.init m mx = .ok p) (hm : m.size ≠ kUnknownElementSize) (hz : m.size < 2 ^ 64)
    (L : Log) (s : Src) (hs : s.bytes.length < 2 ^ 64) (fuel : Nat) (hf : s.stalls < fuel)
    (p' : skipEP.σ) (L' : Log) (s' : Src) (k : Nat)
    (hd : drive (skipEP.feed q) fuel (p, L) s = (.okCompleted, (p', L'), s', k)) :
    k = m.size ∧ s'.pos = s.pos + m.size ∧ s'.bytes = s.bytes.drop m.size ∧
      m.size ≤ s.bytes.length :=
  exact_drive skipEP_hasExact q m mx p hi hm hz L s hs fuel hf p' L' s' k hd

/-- **C33** for elements of unknown IDs. -/
theorem C33_unknown_exact_size (cb : Cb) (hcb : cb.Proper) (q : Bool) (m : Meta) (mx : Nat)
    (p : (unknownEP cb).σ) (hi : (unknownEP cb).init m mx = .ok p)
    (hm : m.size ≠ kUnknownElementSize) (hz : m.size < 2 ^ 64)
    (L : Log) (s : Src) (hs : s.bytes.length < 2 ^ 64) (fuel : Nat) (hf : s.stalls < fuel)
    (p' : (unknownEP cb).σ) (L' : Log) (s' : Src) (k : Nat)
    (hd : drive ((unknownEP cb).feed q) fuel (p, L) s = (.okCompleted, (p', L'), s', k)) :
    k = m.size ∧ s'.pos = s.pos + m.size ∧ s'.bytes = s.bytes.drop m.size ∧
      m.size ≤ s.bytes.length :=
  exact_drive (unknownEP_hasExact hcb) q m mx p hi hm hz L s hs fuel hf p' L' s' k hd

/-- Run one element parser on all of `bs`: status, bytes read, calls. -/
def runElement (E : EP) (q : Bool) (m : Meta) (bs : Bytes) : Option (Status × Nat × Log) :=
  match E.init m m.size with
  | .ok p => match drive (E.feed q) 1 (p, []) (allAtOnce bs) with
    | (st, x, _, k) => some (st, k, x.2)
  | .error _ => none

/-- A Cluster of known size with a timecode and a block, followed by other bytes: read whole and
no further, read or passed over. -/
example : runElement (gCluster.parser acceptAll) false ⟨0x1F43B675, 5, 11, 0⟩
      [0xE7, 0x81, 0x05, 0xA3, 0x86, 0x81, 0x00, 0x03, 0x80, 0xAA, 0xBB, 0xCC, 0xDD] =
    some (.okCompleted, 11,
      [.element ⟨0xE7, 2, 1, 0⟩, .element ⟨0xA3, 2, 6, 3⟩,
       .start ⟨0x1F43B675, 5, 11, 0⟩ (.cons 0xE7 (.nat 5) .nil),
       .blockStart ⟨0xA3, 2, 6, 3⟩ { track := 1, timecode := 3, isKey := true, isVisible := true, numFrames := 1 },
       .frame 9 2 [0xAA, 0xBB],
       .blockEnd ⟨0xA3, 2, 6, 3⟩ { track := 1, timecode := 3, isKey := true, isVisible := true, numFrames := 1 },
       .complete ⟨0x1F43B675, 5, 11, 0⟩ (.cons 0xE7 (.nat 5) (.cons 0xA3 (.block
         { track := 1, timecode := 3, isKey := true, isVisible := true, numFrames := 1 }) .nil))]) := by
  decide +kernel

example : runElement (gCluster.parser acceptAll) true ⟨0x1F43B675, 5, 11, 0⟩
      [0xE7, 0x81, 0x05, 0xA3, 0x86, 0x81, 0x00, 0x03, 0x80, 0xAA, 0xBB, 0xCC, 0xDD] =
    some (.okCompleted, 11, []) := by
  decide +kernel

/-- **C33** fails for BlockVirtual: an element of six bytes completes after four ... -/
theorem C33_block_virtual_reads_less :
    ((runElement ((Gram.leaf .virt).parser acceptAll) false ⟨0xA2, 2, 6, 0⟩
      [0x81, 0x00, 0x00, 0x00, 0xEC, 0x80]).map (fun r => (r.1, r.2.1))) =
      some (.okCompleted, 4) := by
  decide +kernel

/-- ... so that the rest of it is taken for elements of the BlockGroup: here a Void element that is
not there. -/
theorem C33_block_virtual_misread :
    ((runElement (gBlockGroup.parser acceptAll) false ⟨0xA0, 2, 8, 0⟩
      [0xA2, 0x86, 0x81, 0x00, 0x00, 0x00, 0xEC, 0x80]).map (fun r => (r.1, r.2.2))).map
        (fun r => (r.1, decide (.void ⟨0xEC, 2, 0, 6⟩ [] ∈ r.2))) =
      some (.okCompleted, true) := by
  decide +kernel

/-! ### C34 -/

/-- **C34.**  The ancestors the parser assumes after a seek, when the next element has a given ID,
are that element's chain of parents in the format; all other IDs are treated as unknown. -/
theorem C34_ancestors_sound (id : Nat) (anc : List Nat) (h : ancestory id = some anc) :
    Ancestors id anc := by
  have hm := ancestory_mem (id := id) (by rw [h]; simp)
  have h1 := ancestory_ok id hm
  rw [h] at h1
  have := chainOk_spec _ _ h1
  rwa [List.reverse_reverse] at this

/-- **C34.**  An ID that is no element of the format has no assumed ancestors. -/
theorem C34_unknown_ids (id : Nat) (h : ∀ anc, ¬ Ancestors id anc) : ancestory id = none := by
  cases ha : ancestory id with
  | none => rfl
  | some anc => exact absurd (C34_ancestors_sound id anc ha) (h anc)

/-- **C34** (all elements but those of Colour, MasteringMetadata and Projection; what is missing is
`C34_colour_and_projection_unknown`).  Every element of the format gets its chain of parents. -/
theorem C34_ancestors_complete_partial (id : Nat) (anc : List Nat) (h : Ancestors id anc)
    (hc : id ∉ colourAndProjection) : ancestory id = some anc := by
  have hm : id ∈ Id.all := by
    cases h with
    | root h => exact root_all _ h
    | child hp _ => exact edges_all _ (mem_edges.2 hp)
  have hv : id ≠ 0xEC := by
    cases h with
    | root h => intro h'; subst h'; revert h; decide
    | child hp _ => exact void_no_edge _ (mem_edges.2 hp)
  have h1 := ancestory_ok id hm
  cases ha : ancestory id with
  | none =>
    rw [ha] at h1
    simp only [Bool.or_eq_true, List.contains_iff_mem, beq_iff_eq] at h1
    rcases h1 with h1 | h1
    · exact absurd h1 hc
    · exact absurd h1 hv
  | some anc' => rw [ancestors_unique (C34_ancestors_sound id anc' ha) h]

/-- **C34** fails for the elements of Colour, MasteringMetadata and Projection and for these
elements themselves: they have ancestors in the format, and the parser reads them when it meets
them there, but after a seek to one of them it is treated as unknown. -/
theorem C34_colour_and_projection_unknown : ∀ id ∈ colourAndProjection,
    (∃ anc, Ancestors id anc) ∧ ancestory id = none ∧
    (∃ anc a rest, Ancestors id anc ∧ anc = a :: rest ∧ topKids.path a rest id = true) := by
  have h : ∀ id ∈ colourAndProjection,
      ∃ anc ∈ [[0x18538067, 0x1654AE6B, 0xAE, 0xE0], [0x18538067, 0x1654AE6B, 0xAE, 0xE0, 0x55B0],
        [0x18538067, 0x1654AE6B, 0xAE, 0xE0, 0x55B0, 0x55D0],
        [0x18538067, 0x1654AE6B, 0xAE, 0xE0, 0x7670]],
        chainOk id anc.reverse = true ∧ anc.head? = some 0x18538067 ∧
        topKids.path 0x18538067 anc.tail id = true := by decide +kernel
  intro id hid
  obtain ⟨anc, -, h1, h2, h3⟩ := h id hid
  have ha := chainOk_spec _ _ h1
  rw [List.reverse_reverse] at ha
  refine ⟨⟨anc, ha⟩, colour_none id hid, anc, 0x18538067, anc.tail, ha, ?_, h3⟩
  cases anc with
  | nil => cases h2
  | cons a r => simp only [List.head?_cons, Option.some.injEq] at h2; rw [h2]; rfl

/-- **C34.**  The parser has a parser for the chain of every such element: initialising it at the
element after a seek never fails an assertion, whatever the element's header says. -/
theorem C34_no_assertion (cb : Cb) (m : Meta) (anc : List Nat) (h : Ancestors m.id anc)
    (hc : m.id ∉ colourAndProjection) (a : Nat) (rest : List Nat) (ha : anc = a :: rest) :
    ((webmTop.kids.find cb a).E.seek rest m).isSome := by
  have h1 := C34_ancestors_complete_partial m.id anc h hc
  have hm := ancestory_mem (id := m.id) (by rw [h1]; simp)
  have h2 := ancestory_path _ hm
  rw [h1, ha] at h2
  have h3 : (topKids.find cb a).E.seek rest m ≠ none := Kids.seek_of_path cb topKids a rest m h2
  exact Option.isSome_iff_ne_none.2 h3

theorem doc_cont {cb : Cb} (hcb : cb.Proper) {I : ∀ id, (webmTop.kids.find cb id).E.σ → Prop}
    (hI : ∀ id, (webmTop.kids.find cb id).E.Good (I id))
    {x x' : Doc (webmTop.kids.find cb) × Log} {s s' : Src} {k : Nat} (hx : x.1.Inv I)
    (hb : Doc.body cb webmTop.root webmTop.anc x s = (none, x', s', k)) :
    x'.1.Inv I ∧ Doc.feed cb webmTop.root webmTop.anc x s =
      addN k (Doc.feed cb webmTop.root webmTop.anc x' s') := by
  have h := Doc.body_facts hI hcb (webm_ancOk cb) hx hb
  exact ⟨(h.2.2.2 rfl).1, loopFeed_cont hb (h.2.2.2 rfl).2⟩

/-- **C34.**  The whole parser after a seek, when the reader stands at any element of the format
below the top level: the ancestors are taken as read, so the first call to the callback is
`OnElementBegin` for exactly that element (shown for a callback that then stops the parse with
a status of its own; its log has that one call more). -/
theorem C34_element_announced_first (cb : Cb) (hcb : cb.Proper) (p : Parser cb) (L : Log)
    (s s1 s2 : Src) (i : IdP) (z : SizeP) (k1 k2 : Nat)
    (hid : IdP.feed {} s = (.okCompleted, i, s1, k1))
    (hsz : SizeP.feed {} s1 = (.okCompleted, z, s2, k2))
    (anc : List Nat) (ha : Ancestors i.id anc) (hn : anc ≠ []) (hc : i.id ∉ colourAndProjection)
    (c : Nat)
    (hcall : (cb L (.element ⟨i.id, k1 + k2, SizeP.size z, s.pos⟩)).1 = .user c) :
    ∃ p', Parser.feed cb (p.didSeek, L) s =
      (.user c, (p', L ++ [.element ⟨i.id, k1 + k2, SizeP.size z, s.pos⟩]), s2, k1 + k2) := by
  have h : ∀ id, ∃ inv, (webmTop.kids.find cb id).E.Good inv :=
    fun id => Kids.good hcb webmTop.kids id
  obtain ⟨I, hI⟩ := Classical.axiomOfChoice h
  have hroot : webmTop.root i.id = false := by
    cases hr : webmTop.root i.id with
    | false => rfl
    | true =>
      have hr : (i.id == Id.kSegment || i.id == Id.kEbml) = true := hr
      simp only [Id.kSegment, Id.kEbml, Bool.or_eq_true, beq_iff_eq] at hr
      exact absurd (ancestors_unique ha (.root (by simp only [rootIds]; rcases hr with h | h <;> simp [h]))) hn
  have hanc := C34_ancestors_complete_partial _ _ ha hc
  obtain ⟨a, rest, rfl⟩ : ∃ a rest, anc = a :: rest := by
    cases anc with
    | nil => exact absurd rfl hn
    | cons a r => exact ⟨a, r, rfl⟩
  generalize hm : (⟨i.id, k1 + k2, SizeP.size z, s.pos⟩ : Meta) = m at hcall ⊢
  have hmid : m.id = i.id := by rw [← hm]
  obtain ⟨q, hq⟩ := Option.isSome_iff_exists.1
    (C34_no_assertion cb m (a :: rest) (by rw [hmid]; exact ha) (by rw [hmid]; exact hc) a rest rfl)
  obtain ⟨q', hq'⟩ := Kids.announces cb (st := .user c) rfl hcall webmTop.kids a rest q hq s2
  rcases hcm : p.doc.cm with ⟨i0, h0, z0, p0⟩
  have hd : p.didSeek.doc = ⟨.begin, {}, {}, .none, ⟨i0, h0, z0, p0⟩, false, true⟩ := by
    rw [← hcm]; rfl
  obtain ⟨i1, e1⟩ := doc_cont hcb hI (s := s) (k := 0) (s' := s)
    (x := (⟨.begin, {}, {}, .none, ⟨i0, h0, z0, p0⟩, false, true⟩, L))
    (x' := (⟨.readId, {}, {}, .none, ⟨i0, 0, z0, s.pos⟩, false, true⟩, L))
    (by rw [← hd]; exact Doc.seeked_inv _) rfl
  obtain ⟨i2, e2⟩ := doc_cont hcb hI (s := s) (k := k1) (s' := s1) i1
    (x' := (⟨.readSize, i, {}, .none, ⟨i0, k1, z0, s.pos⟩, false, true⟩, L)) (by
      simp only [Doc.body, Doc.readId, hid, Nat.zero_add]
      rfl)
  obtain ⟨i3, e3⟩ := doc_cont hcb hI (s := s1) (k := k2) (s' := s2) i2
    (x' := (⟨.validating, i, z, .none, m, false, true⟩, L)) (by
      simp only [Doc.body, Doc.readSize, hsz, ← hm]
      rfl)
  obtain ⟨i4, e4⟩ := doc_cont hcb hI (s := s2) (k := 0) (s' := s2) i3
    (x' := (⟨.body, i, z, .kid a q, unseen a, false, false⟩, L)) (by
      simp only [Doc.body, Doc.validate, hmid, hroot, Bool.false_eq_true, if_false, if_true,
        show webmTop.anc i.id = some (a :: rest) from hanc, hq])
  have e5 : Doc.body cb webmTop.root webmTop.anc (⟨.body, i, z, .kid a q, unseen a, false, false⟩, L) s2 =
    (some (.user c), (⟨.body, i, z, .kid a q', unseen a, false, false⟩, L ++ [.element m]), s2, 0) := by
    simp only [Doc.body, ChildSt.feed, hq']
    rfl
  have e6 := loopFeed_ret (μ := Doc.measure) e5
  refine ⟨⟨⟨.body, i, z, .kid a q', unseen a, false, false⟩, .user c⟩, ?_⟩
  unfold Parser.feed WebmP.feedWith
  rw [if_neg (by simp [WebmP.didSeek, Status.isParsingError, Status.code])]
  simp only [hd]
  rw [e1, e2, e3, e4]
  unfold Doc.feed
  rw [e6]
  simp [addN]

end Verif.Props
