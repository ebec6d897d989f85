/-
mkvparser's work on a cluster that stands in a complete file: `Load`, `Parse`, `HasBlockEntries`, and the
application's loop over the entries.
-/
import Verif.Lemmas.ParserBlockAt
import Verif.Spec.Segment

namespace Verif.Par
open Verif Spec Mux

/-- The whole file is there, and the reader says so. -/
def Rdr.Whole (r : Rdr) : Prop := r.total = r.data.length

theorem Rdr.Whole.sane {r : Rdr} (h : r.Whole) : r.Sane := by
  unfold Rdr.Whole at h; unfold Rdr.Sane; omega

/-- A frame all of whose numbers mkvparser can represent. -/
structure Fine (scale : Nat) (f : Frame) : Prop where
  time : f.timestamp / scale < 2 ^ 63
  padding : -2 ^ 63 ≤ f.discardPadding ∧ f.discardPadding < 2 ^ 63
  duration : f.duration / scale < 2 ^ 63

/-- A place where a cluster of unknown size ends: the end of the file, or another Cluster or the Cues. -/
def EndsAt (r : Rdr) (q : Nat) : Prop :=
  q = r.data.length ∨ ∃ id m v, (id = kMkvCluster ∨ id = kMkvCues) ∧ HeadAt r q 4 id m v

/-- A loaded cluster of which `done` has been parsed into the entries `es`; `rest` is still to come. -/
structure Partway (r : Rdr) (scale tc : Nat) (c : ReadCluster) (es : List Entry) (done rest : List Frame)
    (blocks : Bytes) : Prop where
  timecode : c.timecode = some tc
  entries : c.entries.getD [] = es
  shown : es.map (watchEntry r tc) = done.map fun f => .ok [f.asWatched scale]
  inside : ∀ e ∈ es, e.block.start + e.block.size ≤ c.pos
  isBlocks : Blocks tc scale rest blocks
  there : At r.data c.pos blocks
  start : c.start < c.pos
  fit : c.pos + blocks.length ≤ r.data.length
  ends : c.size = some (c.pos + blocks.length - c.start) ∨ (c.size = none ∧ EndsAt r (c.pos + blocks.length))
  fine : ∀ f ∈ rest, Fine scale f
  small : blocks.length + 1 < 2 ^ 56

namespace Partway
variable {r : Rdr} {scale tc : Nat} {c : ReadCluster} {es : List Entry} {done rest : List Frame} {blocks : Bytes}

theorem load (h : Partway r scale tc c es done rest blocks) : c.load r = .ok c := by
  unfold ReadCluster.load
  rw [h.timecode]
  rfl

theorem stop_ge (h : Partway r scale tc c es done rest blocks) : ∀ s ∈ c.stop, s = c.pos + blocks.length := by
  intro s hs
  have := h.start
  unfold ReadCluster.stop at hs
  rcases h.ends with e | ⟨e, -⟩
  · rw [e] at hs
    simp at hs
    omega
  · rw [e] at hs
    simp at hs

/-- One more block. -/
theorem parse_more {f : Frame} {b bs : Bytes} (hw : r.Whole) (h : Partway r scale tc c es done (f :: rest) blocks)
    (hb : blocks = b ++ bs) (hB : IsBlock tc scale f b) (hrest : Blocks tc scale rest bs) :
    ∃ c' e, c.parse r = .ok (c', false) ∧ Partway r scale tc c' (es ++ [e]) (done ++ [f]) rest bs ∧
      c'.start = c.start ∧ c'.size = c.size ∧ c'.pos + bs.length = c.pos + blocks.length := by
  subst hb
  have hr := hw.sane
  have hat := h.there
  rw [at_append] at hat
  have hfit := h.fit
  have hsmall := h.small
  rw [List.length_append] at hfit hsmall
  have hfine := h.fine f (by simp)
  obtain ⟨id, m, payload, e, hblk⟩ := blockAt hr hB hat.1 (by omega) hfine.time hfine.padding hfine.duration
  have hlen := hblk.length
  have hm := hblk.elem.m1
  have hpl : 0 < payload.length := List.length_pos_iff.mpr hblk.ne
  have hfits := hblk.elem.fits
  have hst := h.stop_ge
  rw [List.length_append] at hst
  have hreach : reached c.stop c.pos = false := reached_neg fun s hs => by have := hst s hs; omega
  have hd := hblk.elem.head
  have hchild : clusterChild r c id (c.pos + 1 + m) payload.length = .ok (some (.block (c.add (e, c.pos + b.length)))) := by
    have hbl : (if id = 0xA0 then do
          let e ← parseBlockGroup r payload.length (c.pos + 1 + m)
          Res.ok (some (ParseEnd.block (c.add e)))
        else if id = 0xA3 then do
          let e ← parseSimpleBlock r payload.length (c.pos + 1 + m)
          Res.ok (some (ParseEnd.block (c.add e)))
        else Res.ok none) = .ok (some (.block (c.add (e, c.pos + b.length)))) := by
      have hp := hblk.parse
      rcases hblk.isBlock with rfl | rfl
      · rw [if_pos rfl] at hp ⊢
        rw [hp, Res.bind_ok]
      · rw [if_neg (by decide)] at hp ⊢
        rw [if_pos rfl, hp, Res.bind_ok]
    unfold clusterChild
    unfold Rdr.Whole at hw
    cases hs : c.stop with
    | some s =>
      have := hst s hs
      simp only
      rw [if_neg (by omega)]
      exact hbl
    | none =>
      simp only
      rw [if_neg (by omega), if_neg (by omega)]
      exact hbl
  refine ⟨c.add (e, c.pos + b.length), e, ?_, ?_, rfl, rfl, by rw [List.length_append, ← Nat.add_assoc]; rfl⟩
  · unfold ReadCluster.parse
    rw [h.load, Res.bind_ok, Res.refuse_neg (by rw [h.timecode]; have := h.start; simp; omega), Res.bind_ok, hreach,
      if_neg (by decide), Res.refuse_neg (by unfold Rdr.Whole at hw; omega), Res.bind_ok]
    obtain ⟨k, hk⟩ : ∃ k, r.data.length + 1 - c.pos = k + 1 := ⟨r.data.length - c.pos, by omega⟩
    rw [hk, clusterParseLoop, hreach, if_neg (by decide), if_neg (by unfold Rdr.Whole at hw; omega),
      hd.in1 hr (fun s hs => by have := hst s hs; omega), Res.bind_ok, hd.readId]
    simp only [Res.orErr_ok, Res.bind_ok]
    rw [if_neg (by rcases hblk.isBlock with rfl | rfl <;> decide), hd.in2 hr (fun s hs => by have := hst s hs; omega)]
    simp only [Res.bind_ok]
    rw [hd.readSize]
    simp only [Res.bind_ok]
    rw [Res.refuse_neg (by unfold unknownSize; omega), Res.bind_ok,
      Res.refuse_neg (by rw [past_neg (fun s hs => by have := hst s hs; omega)]; decide), Res.bind_ok,
      if_neg (by omega), hchild]
    simp only [Res.bind_ok]
  · constructor
    · exact h.timecode
    · show (some (c.entries.getD [] ++ [e])).getD [] = _
      rw [h.entries]; rfl
    · rw [List.map_append, List.map_append, h.shown, List.map_cons, List.map_nil, List.map_cons, List.map_nil, hblk.watch]
    · intro x hx
      rw [List.mem_append] at hx
      show _ ≤ c.pos + b.length
      rcases hx with hx | hx
      · have := h.inside x hx; omega
      · simp only [List.mem_singleton] at hx
        subst hx
        exact hblk.inside
    · exact hrest
    · exact hat.2
    · show c.start < c.pos + b.length
      have := h.start; omega
    · show c.pos + b.length + bs.length ≤ _
      omega
    · have := h.ends
      rw [List.length_append] at this
      show c.size = some (c.pos + b.length + bs.length - c.start) ∨ (c.size = none ∧ EndsAt r (c.pos + b.length + bs.length))
      rw [Nat.add_assoc]
      exact this
    · exact fun x hx => h.fine x (by simp [hx])
    · omega

/-- No more blocks. -/
theorem parse_done (hw : r.Whole) (h : Partway r scale tc c es done [] blocks) :
    ∃ c', c.parse r = .ok (c', true) ∧ Partway r scale tc c' es done [] blocks ∧ c'.start = c.start ∧ c'.pos = c.pos ∧
      c'.size = some (c.pos - c.start) := by
  have hr := hw.sane
  have hb : blocks = [] := by cases h.isBlocks; rfl
  subst hb
  have hfit := h.fit
  have hends := h.ends
  have hstart := h.start
  rw [List.length_nil, Nat.add_zero] at hfit hends
  rcases hends with e | ⟨e, he⟩
  · have hstop : c.stop = some c.pos := by
      unfold ReadCluster.stop
      rw [e]
      simp; omega
    refine ⟨c, ?_, h, rfl, rfl, e⟩
    unfold ReadCluster.parse
    rw [h.load, Res.bind_ok, Res.refuse_neg (by rw [h.timecode]; simp; omega), Res.bind_ok, hstop,
      if_pos (by simp [reached])]
  · have hstop : c.stop = none := by unfold ReadCluster.stop; rw [e]; rfl
    have hcl : c.closeAt c.pos = { c with size := some (c.pos - c.start) } := by
      unfold ReadCluster.closeAt; rw [e]; rfl
    have hloop : clusterParseLoop r c (r.data.length + 1 - c.pos) c.pos =
        .ok (.none { c with size := some (c.pos - c.start) } c.pos) := by
      obtain ⟨k, hk⟩ : ∃ k, r.data.length + 1 - c.pos = k + 1 := ⟨r.data.length - c.pos, by omega⟩
      rw [hk, clusterParseLoop, hstop, show reached none c.pos = false from rfl, if_neg (by decide), hcl]
      rcases he with he | ⟨id, m, v, hid, hd⟩
      · rw [if_pos (by unfold Rdr.Whole at hw; omega)]
      · have := hd.le
        rw [if_neg (by unfold Rdr.Whole at hw; omega), hd.in1 hr (by simp), Res.bind_ok, hd.readId]
        simp only [Res.orErr_ok, Res.bind_ok]
        rw [if_pos hid]
    have hfin : parseFinish r c.stop { c with size := some (c.pos - c.start) } c.pos =
        .ok ({ c with size := some (c.pos - c.start) }, true) := by
      unfold parseFinish
      rw [Res.refuse_neg (by simp; omega), Res.bind_ok, hstop, Res.refuse_neg (by simp [past]), Res.bind_ok]
      cases hl : (c.entries.getD []).getLast? with
      | none => simp only [hl]
      | some x =>
        simp only [hl]
        have hx : x ∈ es := by rw [← h.entries]; exact List.mem_of_getLast? hl
        have := h.inside x hx
        rw [Res.refuse_neg (by unfold Rdr.Whole at hw; omega), Res.bind_ok, Res.refuse_neg (by simp [past]), Res.bind_ok,
          Res.refuse_neg (by unfold Rdr.Whole at hw; omega), Res.bind_ok]
    refine ⟨{ c with size := some (c.pos - c.start) }, ?_, ?_, rfl, rfl, rfl⟩
    · unfold ReadCluster.parse
      rw [h.load, Res.bind_ok, Res.refuse_neg (by rw [h.timecode]; simp; omega), Res.bind_ok, hstop,
        if_neg (by simp [reached]), Res.refuse_neg (by unfold Rdr.Whole at hw; omega), Res.bind_ok, hloop]
      simp only [Res.bind_ok]
      rw [← hstop]
      exact hfin
    · exact ⟨h.timecode, h.entries, h.shown, h.inside, h.isBlocks, h.there, h.start, h.fit,
        .inl (by simp), h.fine, h.small⟩

end Partway

/-- Everything about a cluster that stands at `p`. -/
structure ClusterIn (r : Rdr) (scale p : Nat) (sized : Bool) (cl : ClusterOf) (len w : Nat) (blocks : Bytes) : Prop where
  head : HeadAt r p 4 kMkvCluster 8 (if sized then 2 + w + blocks.length else 2 ^ 56 - 1)
  time : ElemAt r (p + 12) 1 kMkvTimecode 1 (beBytes w cl.tc)
  w1 : 1 ≤ w
  w8 : w ≤ 8
  tcFits : cl.tc < 256 ^ w
  isBlocks : Blocks cl.tc scale cl.frames blocks
  there : At r.data (p + 14 + w) blocks
  total : len = 14 + w + blocks.length
  fit : p + len ≤ r.data.length
  small : len + 1 < 2 ^ 56
  ne : cl.frames ≠ []

theorem clusterIn {r : Rdr} {scale p : Nat} {sized : Bool} {cl : ClusterOf} {b : Bytes}
    (h : IsCluster scale sized cl b) (hat : At r.data p b) (hsz : b.length + 1 < 2 ^ 56) :
    ∃ w blocks, ClusterIn r scale p sized cl b.length w blocks := by
  obtain ⟨body, ⟨w, blocks, w1, w8, hw, hbl, rfl⟩, hne, rfl⟩ := h
  have hlen : (beBytes w cl.tc).length = w := beBytes_length _ _
  have hid : IsId 1 0xE7 := by unfold IsId; decide
  have hsw : sizeWidth (beBytes w cl.tc).length = 1 := sizeWidth_small (by omega)
  have hT : (element 0xE7 (beBytes w cl.tc)).length = 2 + w := by
    rw [element_length_id hid, hsw, hlen]
  have hsu : sizeUnknown.length = 8 := rfl
  have hci : clusterId.length = 4 := rfl
  have hs8 : ∀ n, (if sized = true then vint 8 n else sizeUnknown).length = 8 := by
    intro n
    cases sized
    · rfl
    · exact vint_length _ _
  simp only [List.length_append, hs8, hT, hci] at hsz ⊢
  have hle := hat.le (by intro e; have := congrArg List.length e; simp [hci] at this)
  simp only [List.length_append, hs8, hT, hci] at hle
  rw [at_append, at_append, at_append, hs8, hT, hci] at hat
  obtain ⟨a1, a2, a3, a4⟩ := hat
  refine ⟨w, blocks, ⟨?_, ?_, w1, w8, hw, hbl, ?_, ?_, ?_, ?_, hne⟩⟩
  · refine ⟨by unfold IsId; decide, by decide, by decide, ?_, a1, ?_⟩
    · cases sized
      · rw [if_neg (by decide)]; decide
      · rw [if_pos rfl]; omega
    · cases sized
      · rw [if_neg (by decide)] at a2 ⊢
        exact a2
      · rw [if_pos rfl] at a2 ⊢
        rw [List.length_append, hT] at a2
        exact a2
  · have := elemAt (r := r) (pos := p + 12) (payload := beBytes w cl.tc) hid (by omega) (by rw [show p + 12 = p + 4 + 8 by omega]; exact a3)
    rw [hsw] at this
    exact this
  · rw [show p + 14 + w = p + 4 + 8 + (2 + w) by omega]; exact a4
  all_goals omega

namespace ClusterIn
variable {r : Rdr} {scale p len w : Nat} {sized : Bool} {cl : ClusterOf} {blocks : Bytes}

theorem first (hw : r.Whole) (h : ClusterIn r scale p sized cl len w blocks) (hf : ∀ f ∈ cl.frames, Fine scale f) :
    cl.tc < 2 ^ 63 ∧ ∃ id m payload, (id = 0xA0 ∨ id = 0xA3) ∧ ElemAt r (p + 14 + w) 1 id m payload ∧ payload ≠ [] ∧
      1 + m + payload.length ≤ blocks.length := by
  obtain ⟨f, fs, hfs⟩ : ∃ f fs, cl.frames = f :: fs := by
    cases hc : cl.frames with
    | nil => exact absurd hc h.ne
    | cons f fs => exact ⟨f, fs, rfl⟩
  have hb := h.isBlocks
  have hat := h.there
  have hlen := h.total
  have hsmall := h.small
  rw [hfs] at hb hf
  generalize hq : blocks = B at *
  cases hb with
  | cons hB hr =>
    rename_i b bs
    rw [at_append] at hat
    rw [List.length_append] at hlen
    have hfine := hf f (by simp)
    obtain ⟨id, m, payload, e, hblk⟩ := blockAt hw.sane hB hat.1 (by omega) hfine.time hfine.padding hfine.duration
    have := hB.1
    have := hfine.time
    refine ⟨by omega, id, m, payload, hblk.isBlock, hblk.elem, hblk.ne, ?_⟩
    have := hblk.length
    rw [List.length_append]
    omega

theorem load (hw : r.Whole) (h : ClusterIn r scale p sized cl len w blocks) (hf : ∀ f ∈ cl.frames, Fine scale f)
    (hend : sized = true ∨ EndsAt r (p + len)) :
    ∃ c, ({ start := p, pos := p } : ReadCluster).load r = .ok c ∧ c.start = p ∧ c.pos = p + 14 + w ∧
      c.size = (if sized then some len else none) ∧ Partway r scale cl.tc c [] [] cl.frames blocks := by
  have hr := hw.sane
  have hlen := h.total
  have hfit := h.fit
  have hsmall := h.small
  obtain ⟨htc, id, m, payload, hid, he, hpne, hpl⟩ := h.first hw hf
  have hm := he.m1
  have hpl0 : 0 < payload.length := List.length_pos_iff.mpr hpne
  have hefits := he.fits
  have hw1 := h.w1
  have hw8 := h.w8
  let stop : Option Nat := if sized then some (p + len) else none
  have hst : ∀ s ∈ stop, s = p + len := by
    intro s hs
    cases sized <;> simp [stop] at hs
    omega
  have htl : (beBytes w cl.tc).length = w := beBytes_length _ _
  have ht := h.time.head
  rw [htl] at ht
  have hun : unserializeUInt r ((p + 12 + 1 + 1 : Nat) : Int) ((w : Nat) : Int) = .ok (cl.tc : Int) := by
    have hle := h.time.le
    rw [htl] at hle
    have := unserializeUInt_ok (r := r) (p := p + 12 + 1 + 1) (n := w) hw1 hw8 hle
    rw [h.time.payloadAt.slice_eq htl, beVal_beBytes, Nat.mod_eq_of_lt h.tcFits] at this
    rw [this]
    have : toI64 cl.tc = cl.tc := by unfold toI64; omega
    rw [this]
  have hloop : clusterLoadLoop r stop (r.data.length + 1 - (p + 12)) (p + 12) {} =
      .ok (p + 14 + w + 1 + m, { timecode := some cl.tc, newPos := p + 14 + w, block := true }) := by
    obtain ⟨k, hk⟩ : ∃ k, r.data.length + 1 - (p + 12) = k + 1 + 1 := ⟨r.data.length - (p + 12) - 1, by omega⟩
    rw [hk, clusterLoadLoop, reached_neg (fun s hs => by have := hst s hs; omega), if_neg (by decide),
      ht.in1 hr (fun s hs => by have := hst s hs; omega), Res.bind_ok, ht.readId]
    simp only [Res.bind_ok]
    rw [if_neg (by decide), ht.in2 hr (fun s hs => by have := hst s hs; omega)]
    simp only [Res.bind_ok]
    rw [ht.readSize]
    simp only [Res.bind_ok]
    rw [Res.refuse_neg (by unfold unknownSize; omega), Res.bind_ok,
      Res.refuse_neg (by rw [past_neg (fun s hs => by have := hst s hs; omega)]; decide), Res.bind_ok,
      if_neg (by omega),
      Res.refuse_neg (by rw [past_neg (fun s hs => by have := hst s hs; omega)]; decide), Res.bind_ok, if_pos trivial,
      Res.refuse_neg (by omega), Res.bind_ok, hun]
    simp only [Res.bind_ok]
    rw [Res.refuse_neg (by omega), Res.bind_ok]
    rw [show p + 12 + 1 + 1 + w = p + 14 + w by omega]
    have hb := he.head
    rw [clusterLoadLoop, reached_neg (fun s hs => by have := hst s hs; omega), if_neg (by decide),
      hb.in1 hr (fun s hs => by have := hst s hs; omega), Res.bind_ok, hb.readId]
    simp only [Res.bind_ok]
    rw [if_neg (by rcases hid with rfl | rfl <;> decide), hb.in2 hr (fun s hs => by have := hst s hs; omega)]
    simp only [Res.bind_ok]
    rw [hb.readSize]
    simp only [Res.bind_ok]
    rw [Res.refuse_neg (by unfold unknownSize; omega), Res.bind_ok,
      Res.refuse_neg (by rw [past_neg (fun s hs => by have := hst s hs; omega)]; decide), Res.bind_ok,
      if_neg (by omega),
      Res.refuse_neg (by rw [past_neg (fun s hs => by have := hst s hs; omega)]; decide), Res.bind_ok,
      if_neg (by rcases hid with rfl | rfl <;> decide), if_pos hid]
    rfl
  have hh := h.head
  let c : ReadCluster := { start := p, pos := p + 14 + w, size := if sized then some len else none, timecode := some cl.tc }
  refine ⟨c, ?_, rfl, rfl, rfl, ?_⟩
  · have hstop : (if (if sized = true then 2 + w + blocks.length else 2 ^ 56 - 1) = unknownSize 8 then none
        else some (p + 4 + 8 + (if sized = true then 2 + w + blocks.length else 2 ^ 56 - 1))) = stop := by
      unfold unknownSize stop
      cases sized
      · rfl
      · rw [if_pos rfl, if_pos rfl, if_neg (by omega)]
        congr 1; omega
    have hne0 : ¬ (if sized = true then 2 + w + blocks.length else 2 ^ 56 - 1) = 0 := by
      cases sized
      · rw [if_neg (by decide)]; decide
      · rw [if_pos rfl]; omega
    unfold ReadCluster.load
    rw [if_neg (by simp), Res.refuse_neg (by simp), Res.bind_ok,
      Res.refuse_neg (by unfold Rdr.Whole at hw; simp only; omega), Res.bind_ok]
    simp only
    rw [hh.in1 hr (by simp), Res.bind_ok, hh.readId]
    simp only [Res.bind_ok]
    rw [Res.refuse_neg (by simp), Res.bind_ok, hh.in2 hr (by simp)]
    simp only [Res.bind_ok]
    rw [hh.readSize]
    simp only [Res.orErr_ok, Res.bind_ok]
    rw [Res.refuse_neg hne0, Res.bind_ok, hstop, show p + 4 + 8 = p + 12 by omega, hloop]
    simp only [Res.bind_ok]
    rw [Res.refuse_neg (by rw [past_neg (fun s hs => by have := hst s hs; omega)]; decide), Res.bind_ok,
      Res.refuse_neg (by simp), Res.bind_ok]
    have : stop.map (· - p) = if sized = true then some len else none := by
      unfold stop
      cases sized
      · rfl
      · simp
    rw [this]
  · refine ⟨rfl, rfl, rfl, by simp, h.isBlocks, h.there, ?_, ?_, ?_, hf, ?_⟩
    · show p < p + 14 + w
      omega
    · show p + 14 + w + blocks.length ≤ _
      omega
    · show (if sized then some len else none) = some (p + 14 + w + blocks.length - p) ∨
        ((if sized then some len else none) = none ∧ EndsAt r (p + 14 + w + blocks.length))
      cases sized
      · refine .inr ⟨rfl, ?_⟩
        have := hend.resolve_left (by decide)
        rw [show p + 14 + w + blocks.length = p + len by omega]
        exact this
      · refine .inl ?_
        rw [if_pos rfl]
        congr 1; omega
    · omega

theorem hasBlocks (hw : r.Whole) (h : ClusterIn r scale p sized cl len w blocks) (hf : ∀ f ∈ cl.frames, Fine scale f)
    {segStop : Option Nat} (hseg : ∀ s ∈ segStop, p + len ≤ s) : hasBlockEntries r segStop p = .ok true := by
  have hr := hw.sane
  have hlen := h.total
  have hfit := h.fit
  have hsmall := h.small
  obtain ⟨htc, id, m, payload, hid, he, hpne, hpl⟩ := h.first hw hf
  have hm := he.m1
  have hpl0 : 0 < payload.length := List.length_pos_iff.mpr hpne
  have hefits := he.fits
  have hw1 := h.w1
  have hw8 := h.w8
  let stop : Option Nat := if sized then some (p + len) else none
  have hst : ∀ s ∈ stop, s = p + len := by
    intro s hs
    cases sized <;> simp [stop] at hs
    omega
  have htl : (beBytes w cl.tc).length = w := beBytes_length _ _
  have ht := h.time.head
  rw [htl] at ht
  have hloop : hasBlockLoop r stop (r.data.length + 1 - (p + 12)) (p + 12) = .ok true := by
    obtain ⟨k, hk⟩ : ∃ k, r.data.length + 1 - (p + 12) = k + 1 + 1 := ⟨r.data.length - (p + 12) - 1, by omega⟩
    rw [hk, hasBlockLoop, reached_neg (fun s hs => by have := hst s hs; omega), if_neg (by decide),
      ht.in1 hr (fun s hs => by have := hst s hs; omega), Res.bind_ok, ht.readId]
    simp only [Res.bind_ok]
    rw [if_neg (by decide), Res.refuse_neg (by rw [reached_neg (fun s hs => by have := hst s hs; omega)]; decide),
      Res.bind_ok, ht.in2 hr (fun s hs => by have := hst s hs; omega)]
    simp only [Res.bind_ok]
    rw [ht.readSize]
    simp only [Res.bind_ok]
    rw [Res.refuse_neg (by rw [past_neg (fun s hs => by have := hst s hs; omega)]; decide), Res.bind_ok,
      if_neg (by omega), Res.refuse_neg (by unfold unknownSize; omega), Res.bind_ok,
      Res.refuse_neg (by rw [past_neg (fun s hs => by have := hst s hs; omega)]; decide), Res.bind_ok,
      if_neg (by decide)]
    rw [show p + 12 + 1 + 1 + w = p + 14 + w by omega]
    have hb := he.head
    rw [hasBlockLoop, reached_neg (fun s hs => by have := hst s hs; omega), if_neg (by decide),
      hb.in1 hr (fun s hs => by have := hst s hs; omega), Res.bind_ok, hb.readId]
    simp only [Res.bind_ok]
    rw [if_neg (by rcases hid with rfl | rfl <;> decide),
      Res.refuse_neg (by rw [reached_neg (fun s hs => by have := hst s hs; omega)]; decide), Res.bind_ok,
      hb.in2 hr (fun s hs => by have := hst s hs; omega)]
    simp only [Res.bind_ok]
    rw [hb.readSize]
    simp only [Res.bind_ok]
    rw [Res.refuse_neg (by rw [past_neg (fun s hs => by have := hst s hs; omega)]; decide), Res.bind_ok,
      if_neg (by omega), Res.refuse_neg (by unfold unknownSize; omega), Res.bind_ok,
      Res.refuse_neg (by rw [past_neg (fun s hs => by have := hst s hs; omega)]; decide), Res.bind_ok, if_pos hid]
  have hh := h.head
  unfold hasBlockEntries
  have hr' := hr
  unfold Rdr.Sane at hr'
  unfold Rdr.Whole at hw
  rw [Res.assert_pos hr', Res.bind_ok, if_neg (by omega), hh.head1 hr (fun s hs => by have := hseg s hs; omega)]
  simp only [Res.bind_ok]
  rw [hh.readId]
  simp only [Res.bind_ok]
  rw [Res.refuse_neg (by simp), Res.bind_ok, hh.head2 hr (fun s hs => by have := hseg s hs; omega)]
  simp only [Res.bind_ok]
  rw [hh.readSize]
  simp only [Res.bind_ok]
  rw [show p + 4 + 8 = p + 12 by omega]
  cases sized
  · rw [if_neg (by decide : ¬ false = true), if_neg (by decide), if_pos (by decide)]
    exact hloop
  · rw [if_pos rfl, if_neg (by omega), if_neg (by unfold unknownSize; omega),
      Res.refuse_neg (by rw [past_neg (fun s hs => by have := hseg s hs; omega)]; decide), Res.bind_ok,
      if_neg (by omega)]
    have : p + 12 + (2 + w + blocks.length) = p + len := by omega
    rw [this]
    exact hloop

end ClusterIn

/-- The loop over the entries shows the frames that are left. -/
theorem watchFrom_ok {r : Rdr} {scale tc : Nat} (hw : r.Whole) : ∀ (fuel : Nat) {c : ReadCluster} {es : List Entry}
    {done rest : List Frame} {blocks : Bytes} {idx : Nat} {e : Entry}, Partway r scale tc c es done rest blocks →
    es[idx]? = some e → es.length - idx + rest.length ≤ fuel →
    watchFrom r tc fuel c idx e = .ok (((done ++ rest).drop idx).map (Frame.asWatched scale)) := by
  intro fuel
  induction fuel with
  | zero =>
    intro c es done rest blocks idx e h hidx hfuel
    have := (List.getElem?_eq_some_iff.mp hidx).1
    omega
  | succ n ih =>
    intro c es done rest blocks idx e h hidx hfuel
    have hlt := (List.getElem?_eq_some_iff.mp hidx).1
    have hlen : es.length = done.length := by simpa using congrArg List.length h.shown
    have hshow : watchEntry r tc e = .ok [(done[idx]'(by omega)).asWatched scale] := by
      have := congrArg (fun l => l[idx]?) h.shown
      simp only [List.getElem?_map, hidx, List.getElem?_eq_getElem (show idx < done.length by omega), Option.map_some,
        Option.some.injEq] at this
      exact this
    have hdrop : (done ++ rest).drop idx = done[idx]'(by omega) :: (done ++ rest).drop (idx + 1) := by
      rw [List.drop_eq_getElem_cons (by simp; omega), List.getElem_append_left (by omega)]
    unfold watchFrom
    rw [hshow, Res.bind_ok, hdrop, List.map_cons]
    unfold ReadCluster.getNext
    rw [h.entries, Res.assert_pos hlt, Res.bind_ok]
    cases hn : es[idx + 1]? with
    | some e' =>
      simp only [Res.bind_ok]
      rw [ih h hn (by omega), Res.bind_ok]
      rfl
    | none =>
      have hge := List.getElem?_eq_none_iff.mp hn
      have hes : es.length = idx + 1 := by omega
      cases rest with
      | nil =>
        obtain ⟨c', hp, -, -, -, -⟩ := h.parse_done hw
        rw [hp]
        simp only [Res.bind_ok, if_true]
        rw [List.drop_eq_nil_of_le (by simp; omega)]
        rfl
      | cons f fs =>
        have hb := h.isBlocks
        obtain ⟨b, bs, hbb, hB, hR⟩ : ∃ b bs, blocks = b ++ bs ∧ IsBlock tc scale f b ∧ Blocks tc scale fs bs := by
          generalize hq : blocks = q at hb
          cases hb with
          | cons hB hR => exact ⟨_, _, rfl, hB, hR⟩
        obtain ⟨c', e', hp, hP, -, -, -⟩ := h.parse_more hw hbb hB hR
        have hn' : (es ++ [e'])[idx + 1]? = some e' := by
          rw [List.getElem?_append_right (by omega)]
          rw [hes]
          simp
        rw [hp]
        simp only [Res.bind_ok]
        rw [if_neg (by decide), hP.entries, hn']
        simp only [Res.bind_ok]
        rw [ih hP hn' (by rw [List.length_append]; simp at hfuel ⊢; omega), Res.bind_ok, List.append_assoc]
        rfl

/-- The application sees all frames of a cluster, however far it has been parsed. -/
theorem watchCluster_ok {r : Rdr} {scale tc fuel : Nat} {c c' : ReadCluster} {es : List Entry} {done rest : List Frame}
    {blocks : Bytes} (hw : r.Whole) (hl : c.load r = .ok c') (h : Partway r scale tc c' es done rest blocks)
    (hne : done ++ rest ≠ []) (hfuel : (done ++ rest).length ≤ fuel) :
    watchCluster r fuel c = .ok ((done ++ rest).map (Frame.asWatched scale)) := by
  have hlen : es.length = done.length := by simpa using congrArg List.length h.shown
  rw [List.length_append] at hfuel
  unfold watchCluster ReadCluster.getTimeCode
  rw [hl]
  simp only [Res.bind_ok]
  rw [h.timecode]
  simp only [Option.elim]
  unfold ReadCluster.getFirst
  rw [h.entries]
  cases he : es with
  | cons e es' =>
    simp only [Res.bind_ok]
    have := watchFrom_ok hw fuel h (idx := 0) (e := e) (by rw [he]; rfl) (by omega)
    rw [this]
    rfl
  | nil =>
    subst he
    have hd : done = [] := List.length_eq_zero_iff.mp (by simpa using hlen.symm)
    subst hd
    cases rest with
    | nil => exact absurd rfl hne
    | cons f fs =>
      have hb := h.isBlocks
      obtain ⟨b, bs, hbb, hB, hR⟩ : ∃ b bs, blocks = b ++ bs ∧ IsBlock tc scale f b ∧ Blocks tc scale fs bs := by
        generalize hq : blocks = q at hb
        cases hb with
        | cons hB hR => exact ⟨_, _, rfl, hB, hR⟩
      obtain ⟨c'', e', hp, hP, -, -, -⟩ := h.parse_more hw hbb hB hR
      simp only
      rw [hp]
      simp only [Res.bind_ok]
      rw [hP.entries]
      simp only [List.nil_append, List.head?_cons]
      have := watchFrom_ok hw fuel hP (idx := 0) (e := e') rfl (by simp at hfuel ⊢; omega)
      rw [this]
      rfl

end Verif.Par
