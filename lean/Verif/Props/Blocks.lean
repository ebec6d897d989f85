/-
Properties of blocks and frames: C12 to C15.
-/
import Verif.Lemmas.BlockRoundTrip
import Verif.Spec.Output
import Verif.Props.Ebml

namespace Verif.Props
open Verif Spec Mux Par

/-! ### C12 -/

/-- `e` is a block holding exactly the frame `f` of the muxer: same track, the relative time
code `rel`, no lacing, same key flag, and one frame whose bytes are those of `f`. -/
def Holds (r : Rdr) (b : Block) (f : Frame) (rel : Int) : Prop :=
  b.track = f.trackNumber ∧ b.timecode = rel ∧ b.lacing = 0 ∧ b.isKey = f.isKey ∧
  ∃ fr, b.frames = [fr] ∧ fr.read r = .ok f.frame

theorem writeFrame_inv {f : Frame} {ctc scale n : Nat} {s s' : Sink}
    (hw : writeFrame f ctc scale s = (.ok n, s')) :
    f.isValid = true ∧ 0 < scale ∧
    ∃ rel, rel = getRelativeTimecode ctc (toI64 (f.timestamp / scale)) ∧ 0 ≤ rel ∧ rel ≤ 0x7FFF ∧
      (if f.canBeSimpleBlock then writeSimpleBlock f rel s = (.ok n, s')
       else writeBlock f rel scale s = (.ok n, s')) := by
  unfold writeFrame at hw
  split at hw
  · cases hw
  rename_i h1
  simp only at hw
  split at hw
  · cases hw
  rename_i h2
  unfold kMaxBlockTimecode at h2
  refine ⟨by simp at h1; exact h1.1, by omega, _, rfl, by omega, by omega, ?_⟩
  split at hw
  · rename_i h3; rw [if_pos h3]; exact hw
  · rename_i h3; rw [if_neg h3]; exact hw

theorem isValid_inv {f : Frame} (h : f.isValid = true) :
    f.frame ≠ [] ∧ 1 ≤ f.trackNumber ∧ f.trackNumber ≤ 126 ∧ f.additional ≠ some [] := by
  unfold Frame.isValid kMaxTrackNumber at h
  split at h
  · cases h
  split at h
  · cases h
  split at h
  · cases h
  rename_i h1 h2 h3
  exact ⟨fun e => h1 (by rw [e]; rfl), by omega, by omega, h2⟩

/-- The relative time code is the frame's time (in ticks) minus the cluster's. -/
theorem relative_eq {ctc abs : Nat} {rel : Int} (hc : ctc < 2 ^ 63) (ha : abs < 2 ^ 63)
    (h : rel = getRelativeTimecode ctc (toI64 abs)) (h0 : 0 ≤ rel) : rel = (abs : Int) - ctc := by
  have e1 : toI64 abs = abs := by unfold toI64; omega
  have e2 : toI64 ctc = ctc := by unfold toI64; omega
  unfold getRelativeTimecode at h
  rw [e1, e2] at h
  simp only at h
  split at h <;> omega

theorem read_frame {r : Rdr} {p : Nat} {bs : Bytes} (h : slice r.data p bs.length = bs)
    (hle : p + bs.length ≤ r.data.length) : BFrame.read ⟨p, bs.length⟩ r = .ok bs := by
  unfold BFrame.read Rdr.read
  simp only
  rw [if_pos (Or.inr hle), h]

/-- C12: a frame the muxer writes as a SimpleBlock (of less than 2 GiB) is found as a SimpleBlock
element filling exactly the bytes written, and parsed as an unlaced block with the same track,
the time relative to the cluster, the same key flag and one frame with the original bytes. -/
theorem C12_simple_block_round_trip {f : Frame} {ctc scale n : Nat} {s s' : Sink} (hs : s.AtEnd)
    (hsimple : f.canBeSimpleBlock = true) (hlen : f.frame.length + 4 < 2 ^ 31)
    (hc : ctc < 2 ^ 63) (ht : f.timestamp / scale < 2 ^ 63)
    (hw : writeFrame f ctc scale s = (.ok n, s')) {r : Rdr} {post : Bytes}
    (hr : r.data = s'.data ++ post) (hsane : r.total < 0 ∨ (r.data.length : Int) ≤ r.total)
    (hmax : s'.data.length ≤ llongMax) :
    n = s'.data.length - s.data.length ∧
    ∃ h, parseElementHeader r s.data.length (-1) = .ok h ∧ h.id = 0xA3 ∧
      h.pos + h.size = s'.data.length ∧
      ∃ b, parseSimpleBlock r h.size h.pos = .ok (.simple b, s'.data.length) ∧
        Holds r b f ((f.timestamp / scale : Nat) - (ctc : Int)) := by
  obtain ⟨hv, hsc, rel, hrel, h0, h1, hwr⟩ := writeFrame_inv hw
  obtain ⟨v1, v2, v3, v4⟩ := isValid_inv hv
  rw [if_pos hsimple] at hwr
  rw [← relative_eq hc ht hrel h0]
  generalize hfl : (if f.isKey then (0x80 : UInt8) else 0) = flags at *
  obtain ⟨hn, hd, -⟩ := (writeSimpleBlock_emits (rel := rel) v3 hlen).success hs hwr
  rw [hfl] at hn hd
  have hid : IsId 1 0xA3 := by unfold IsId; decide
  have hpl := blockPayload_length f rel flags
  have hr' : r.data = s.data ++ (element 0xA3 (blockPayload f rel flags) ++ post) := by
    rw [hr, hd, List.append_assoc]
  have hdl : s'.data.length = s.data.length + (element 0xA3 (blockPayload f rel flags)).length := by
    rw [hd, List.length_append]
  obtain ⟨g1, g2, g3⟩ := parseElementHeader_element hid hr' (by omega) (stop := -1)
    (by omega) (by omega)
  refine ⟨by omega, _, g1, rfl, by simp only; omega, ?_⟩
  simp only
  generalize s.data.length + 1 + sizeWidth (blockPayload f rel flags).length = p at *
  have hlace : (flags &&& 6) >>> 1 = 0 := by rw [← hfl]; cases f.isKey <;> decide
  have hat : At r.data p (blockPayload f rel flags) := g3
  have hfl0 : 0 < f.frame.length := List.length_pos_iff.mpr v1
  obtain ⟨p1, p2, p3⟩ := blockParse_payload (dp := 0) v2 v3 h0 h1 v1 hlace hat
    (by unfold longMax; omega)
  have hck := checkBlockHead_ok (stop := p + (blockPayload f rel flags).length) hsane v2 (by omega)
    (at_append.mp hat).1 (by omega) hlace
  refine ⟨⟨p, (blockPayload f rel flags).length, f.trackNumber, rel, flags,
    [⟨p + 4, f.frame.length⟩], 0⟩, ?_, rfl, rfl, hlace, ?_, _, rfl, read_frame p2 p3⟩
  · unfold parseSimpleBlock createSimpleBlock
    rw [Res.assert_pos hsane, Res.bind_ok, hck, Res.bind_ok, p1]
    simp only [Res.bind_ok]
    rw [g2, ← hdl]
  · simp only [Block.isKey]
    rw [← hfl]
    cases f.isKey <;> decide

/-- C12: the muxer's 32-bit size computation overflows (undefined behaviour) for payloads just
below 2 GiB: no such frame is ever reported as written. -/
theorem C12_two_gigabyte_frames {f : Frame} {rel : Int} {s s' : Sink} {n : Nat}
    (hlo : 2 ^ 31 ≤ f.frame.length + 4) (hhi : f.frame.length < 2 ^ 31) :
    writeSimpleBlock f rel s ≠ (.ok n, s') := by
  intro h
  unfold writeSimpleBlock at h
  rcases h1 : writeID 0xA3 s with ⟨r1, s1⟩
  have hsz : toI32 f.frame.length = f.frame.length := by unfold toI32; omega
  cases r1 with
  | err c => rw [W.bind_of_err h1] at h; cases h
  | ub => rw [W.bind_of_ub h1] at h; cases h
  | ok a =>
    rw [W.bind_of_ok h1] at h
    rw [if_pos (by rw [hsz]; omega)] at h
    cases h

def sampleFrame : Frame :=
  { frame := [1, 2, 3], isKey := true, trackNumber := 5, timestamp := 7000000 }

example : (writeFrame sampleFrame 2 1000000 goodSink).1 = .ok 9 ∧
    (writeFrame sampleFrame 2 1000000 goodSink).2.data =
      [0xA3, 0x87, 0x85, 0x00, 0x05, 0x80, 1, 2, 3] ∧
    sampleFrame.canBeSimpleBlock = true := by decide
example : parseSimpleBlock { data := [0xA3, 0x87, 0x85, 0x00, 0x05, 0x80, 1, 2, 3] } 7 2 =
    .ok (.simple ⟨2, 7, 5, 5, 0x80, [⟨6, 3⟩], 0⟩, 9) := by decide +kernel

/-! ### C13 -/

/-- C13: a frame the muxer writes as a BlockGroup is found as a BlockGroup element filling
exactly the bytes written; its block has the original bytes, the right times, the key flag, the
discard padding, and the group has the duration (in ticks, none when zero). -/
theorem C13_block_group_round_trip {f : Frame} {ctc scale n : Nat} {s s' : Sink} (hs : s.AtEnd)
    (hgroup : f.canBeSimpleBlock = false) (hlen : f.frame.length < 2 ^ 32)
    (hadd : ∀ a, f.additional = some a → a.length < 2 ^ 32)
    (hlo : -2 ^ 63 ≤ f.discardPadding) (hhi : f.discardPadding < 2 ^ 63)
    (hc : ctc < 2 ^ 63) (ht : f.timestamp / scale < 2 ^ 63) (hdur : f.duration / scale < 2 ^ 63)
    (hw : writeFrame f ctc scale s = (.ok n, s')) {r : Rdr} {post : Bytes}
    (hr : r.data = s'.data ++ post) (hsane : r.total < 0 ∨ (r.data.length : Int) ≤ r.total)
    (hmax : s'.data.length ≤ llongMax) :
    n = s'.data.length - s.data.length ∧
    ∃ h, parseElementHeader r s.data.length (-1) = .ok h ∧ h.id = 0xA0 ∧
      h.pos + h.size = s'.data.length ∧
      ∃ b prev next duration,
        parseBlockGroup r h.size h.pos = .ok (.group b prev next duration, s'.data.length) ∧
        Holds r b f ((f.timestamp / scale : Nat) - (ctc : Int)) ∧
        b.discardPadding = f.discardPadding ∧
        duration = (if f.duration / scale = 0 then -1 else ((f.duration / scale : Nat) : Int)) := by
  obtain ⟨hv, hsc, rel, hrel, h0, h1, hwr⟩ := writeFrame_inv hw
  obtain ⟨v1, v2, v3, v4⟩ := isValid_inv hv
  rw [if_neg (by simp [hgroup])] at hwr
  rw [← relative_eq hc ht hrel h0]
  have hadd' : ∀ a, f.additional = some a → a ≠ [] ∧ a.length < 2 ^ 32 := fun a ha =>
    ⟨fun e => v4 (by rw [ha, e]), hadd a ha⟩
  have hG := groupBytes_lt rel scale hlen hadd
  obtain ⟨hn, hd, -⟩ := (writeBlock_emits v3 hlen hadd' hG).success hs hwr
  have hid : IsId 1 0xA0 := by unfold IsId; decide
  have hr' : r.data = s.data ++ (element 0xA0 (groupBytes f rel scale) ++ post) := by
    rw [hr, hd, List.append_assoc]
  have hdl : s'.data.length = s.data.length + (element 0xA0 (groupBytes f rel scale)).length := by
    rw [hd, List.length_append]
  obtain ⟨g1, g2, g3⟩ := parseElementHeader_element hid hr' (by omega) (stop := -1)
    (by omega) (by omega)
  refine ⟨by omega, _, g1, rfl, by simp only; omega, ?_⟩
  simp only
  generalize s.data.length + 1 + sizeWidth (groupBytes f rel scale).length = p at *
  obtain ⟨b, prev, next, q1, q2, q3, q4, q5, q6, fp, q7, q8, q9⟩ :=
    parseBlockGroup_ok hsane v2 v3 h0 h1 v1 (by unfold longMax; omega) hlo hhi hdur hG g3
  refine ⟨b, prev, next, if f.duration / scale > 0 then ((f.duration / scale : Nat) : Int) else -1,
    ?_, ⟨q2, q3, q6, q4, _, q7, read_frame q8 q9⟩, q5, ?_⟩
  · rw [q1, g2, ← hdl]
  · generalize f.duration / scale = d
    by_cases hz : d = 0
    · rw [if_neg (by omega), if_pos hz]
    · rw [if_pos (by omega), if_neg hz]

/-- A non-key frame with additional data, discard padding, duration and a reference. -/
def sampleGroup : Frame :=
  { frame := [1, 2, 3], trackNumber := 5, timestamp := 7000000, additional := some [9, 9],
    addId := 1, duration := 4000000, durationSet := true, discardPadding := -300,
    referenceBlockTimestamp := 3000000, referenceBlockTimestampSet := true }

example : (writeFrame sampleGroup 2 1000000 goodSink).1 = .ok 34 ∧
    (writeFrame sampleGroup 2 1000000 goodSink).2.data =
      [0xA0, 0xA0, 0xA1, 0x87, 0x85, 0x00, 0x05, 0x00, 1, 2, 3,
       0x75, 0xA1, 0x89, 0xA6, 0x87, 0xEE, 0x81, 0x01, 0xA5, 0x82, 9, 9,
       0x75, 0xA2, 0x82, 0xFE, 0xD4, 0xFB, 0x81, 0x03, 0x9B, 0x81, 0x04] ∧
    sampleGroup.canBeSimpleBlock = false := by decide +kernel

/-! ### C11 for frames -/

/-- C11: writing a frame as a SimpleBlock reports a failing output. -/
theorem C11_simple_block {f : Frame} {rel : Int} (ht : f.trackNumber ≤ 126)
    (hl : f.frame.length + 4 < 2 ^ 31) :
    HonestOutput (writeSimpleBlock f rel >>= fun _ => pure ()) (element 0xA3
      (blockHead 1 f.trackNumber rel (if f.isKey then 0x80 else 0) ++ f.frame)) :=
  honest_of_emits (((writeSimpleBlock_emits ht hl).bind (f := fun _ => pure ()) (Emits.pure ())).congr
    (List.append_nil _))

/-- C11: writing a frame as a BlockGroup reports a failing output; whatever was written is a
prefix of one fixed BlockGroup element. -/
theorem C11_block_group {f : Frame} {rel : Int} {scale : Nat} (hv : f.isValid = true)
    (hl : f.frame.length < 2 ^ 32) (ha : ∀ a, f.additional = some a → a.length < 2 ^ 32) :
    ∃ payload, HonestOutput (writeBlock f rel scale >>= fun _ => pure ()) (element 0xA0 payload) := by
  obtain ⟨v1, v2, v3, v4⟩ := isValid_inv hv
  exact ⟨_, honest_of_emits (((writeBlock_emits v3 hl (fun a h => ⟨fun e => v4 (by rw [h, e]), ha a h⟩)
    (groupBytes_lt rel scale hl ha)).bind (f := fun _ => pure ()) (Emits.pure ())).congr
    (List.append_nil _))⟩

example : (writeFrame sampleFrame 2 1000000
    { goodSink with plan := fun i => if i = 3 then some 1 else none }).1 = .err (-1) := by decide

/-! ### C14 -/

/-- C14: for every block `Block::Parse` accepts, whatever its content and lacing, the frames are
non-empty and cover the block contiguously and in order from some offset after the block header
to its very last byte; there is one frame without lacing and as many as the lace count says
(a byte storing the count minus one) with lacing. -/
theorem C14_frames_tile_block {r : Rdr} {start size : Nat} {dp : Int} {b : Block}
    (h : blockParse r start size dp = .ok b) :
    ∃ w first, 1 ≤ w ∧ slice r.data start w = vint w b.track ∧
      Tiles (b.frames.map fun f => (f.pos, f.len)) first (start + size) ∧
      (if b.lacing = 0 then first = start + w + 3 ∧ b.frames.length = 1
       else start + w + 4 ≤ first ∧
         ∃ c, r.data[start + w + 3]? = some c ∧ b.frames.length = c.toNat + 1) := by
  obtain ⟨w, first, -, -, -, -, -, -, h1, -, h2, -, h3, h4⟩ := blockParse_sound h
  exact ⟨w, first, h1, h2, h3, h4⟩

theorem tiles_first_le {l : List (Nat × Nat)} {a b : Nat} (h : Tiles l a b) : a ≤ b := by
  induction l generalizing a with
  | nil => exact Nat.le_of_eq h
  | cons x xs ih =>
    obtain ⟨p, n⟩ := x
    have := ih h.2.2
    omega

/-- Tiles: every span lies inside. -/
theorem tiles_inside {l : List (Nat × Nat)} {a b : Nat} (h : Tiles l a b) :
    ∀ x ∈ l, a ≤ x.1 ∧ 0 < x.2 ∧ x.1 + x.2 ≤ b := by
  induction l generalizing a with
  | nil => intro x hx; cases hx
  | cons y ys ih =>
    obtain ⟨p, n⟩ := y
    obtain ⟨h1, h2, h3⟩ := h
    intro x hx
    cases hx with
    | head => have := tiles_first_le h3; simp only; omega
    | tail _ hx => have := ih h3 x hx; omega

theorem groupField_blk {r : Rdr} {id pos size : Nat} {a a' : GroupAcc}
    (h : groupField r id pos size a = .ok a') :
    a'.blk = a.blk ∨ a'.blk = some (pos, size) := by
  unfold groupField at h
  split at h
  · simp only [Res.ok.injEq] at h
    subst h
    split
    · exact Or.inr rfl
    · exact Or.inl rfl
  split at h
  · simp only [Res.bind_eq_ok, Res.refuse_eq_ok, Res.ok.injEq] at h
    obtain ⟨-, -, d, -, rfl⟩ := h
    exact Or.inl rfl
  split at h
  · simp only [Res.bind_eq_ok, Res.refuse_eq_ok, Res.ok.injEq] at h
    obtain ⟨-, -, d, -, rfl⟩ := h
    left; split <;> rfl
  · simp only [Res.ok.injEq] at h
    subst h; exact Or.inl rfl

theorem groupLoop_blk {r : Rdr} {stop F pos p lo : Nat} {a a' : GroupAcc}
    (h : groupLoop r stop F pos a = .ok (p, a')) (hlo : lo ≤ pos)
    (ha : ∀ x, a.blk = some x → lo ≤ x.1 ∧ x.1 + x.2 ≤ stop) :
    ∀ x, a'.blk = some x → lo ≤ x.1 ∧ x.1 + x.2 ≤ stop := by
  induction F generalizing pos a with
  | zero =>
    simp only [groupLoop, Res.ok.injEq, Prod.mk.injEq] at h
    obtain ⟨-, rfl⟩ := h
    exact ha
  | succ F ih =>
    rw [groupLoop] at h
    split at h
    · simp only [Res.bind_eq_ok, Res.refuse_eq_ok, Res.assert_eq_ok, Prod.exists] at h
      obtain ⟨id, l1, -, -, -, size, l2, -, -, -, a2, h3, -, h4, h5⟩ := h
      refine ih h5 (by omega) ?_
      intro x hx
      rcases groupField_blk h3 with e | e
      · exact ha x (by rw [← e]; exact hx)
      · rw [e] at hx
        cases hx
        simp only
        omega
    · simp only [Res.ok.injEq, Prod.mk.injEq] at h
      obtain ⟨-, rfl⟩ := h
      exact ha

/-- C14, for whole entries: all frames of an entry built from an element payload
`[pos, pos + size)` lie inside that payload, cover the end of the block without gaps, and none is
empty. -/
theorem C14_entry_frames_inside {r : Rdr} {pos size p : Nat} {e : Entry}
    (h : parseSimpleBlock r size pos = .ok (e, p) ∨ parseBlockGroup r size pos = .ok (e, p)) :
    p = pos + size ∧ e.block.frames ≠ [] ∧
    (∃ first, Tiles (e.block.frames.map fun f => (f.pos, f.len)) first
      (e.block.start + e.block.size)) ∧
    ∀ f ∈ e.block.frames, pos ≤ f.pos ∧ 0 < f.len ∧ f.pos + f.len ≤ pos + size := by
  have key : ∀ {start sz : Nat} {dp : Int} {b b' : Block}, blockParse r start sz dp = .ok b →
      b'.frames = b.frames → b'.start = b.start → b'.size = b.size → pos ≤ start →
      start + sz ≤ pos + size →
      b'.frames ≠ [] ∧
      (∃ first, Tiles (b'.frames.map fun f => (f.pos, f.len)) first (b'.start + b'.size)) ∧
      ∀ f ∈ b'.frames, pos ≤ f.pos ∧ 0 < f.len ∧ f.pos + f.len ≤ pos + size := by
    intro start sz dp b b' hb e1 e2 e3 hlo hhi
    obtain ⟨w, first, k1, k2, -, -, -, -, -, -, -, -, k3, k4⟩ := blockParse_sound hb
    rw [e1, e2, e3, k1, k2]
    have hfirst : start ≤ first ∧ b.frames.length ≠ 0 := by
      split at k4
      · omega
      · obtain ⟨q1, c, -, q2⟩ := k4; omega
    refine ⟨fun e => hfirst.2 (by rw [e]; rfl), ⟨first, k3⟩, ?_⟩
    intro f hf
    have := tiles_inside k3 (f.pos, f.len) (List.mem_map.mpr ⟨f, hf, rfl⟩)
    simp only at this
    omega
  rcases h with h | h
  · simp only [parseSimpleBlock, createSimpleBlock, Res.bind_eq_ok, Res.assert_eq_ok, Res.ok.injEq,
      Prod.mk.injEq] at h
    obtain ⟨-, -, -, -, e', ⟨b, hb, rfl⟩, rfl, rfl⟩ := h
    exact ⟨rfl, key hb rfl rfl rfl (Nat.le_refl _) (Nat.le_refl _)⟩
  · simp only [parseBlockGroup, createBlockGroup, Res.bind_eq_ok, Res.assert_eq_ok, Res.ok.injEq,
      Res.refuse_eq_ok, Prod.exists, Prod.mk.injEq] at h
    obtain ⟨-, -, -, -, -, -, q, dp, -, -, -, e', ⟨q', a, hg, hm⟩, rfl, rfl⟩ := h
    refine ⟨rfl, ?_⟩
    have hblk := groupLoop_blk hg (Nat.le_refl pos) (by intro x hx; cases hx)
    cases hx : a.blk with
    | none => rw [hx] at hm; cases hm
    | some x =>
      obtain ⟨bp, bs⟩ := x
      rw [hx] at hm
      simp only [Res.bind_eq_ok, Res.refuse_eq_ok, Res.ok.injEq] at hm
      obtain ⟨-, -, b, hb, rfl⟩ := hm
      have := hblk _ hx
      simp only at this
      exact key hb rfl rfl rfl this.1 this.2

example : ∃ b, blockParse { data := [0x81, 0, 0, 0x02, 2, 0xFF, 0x01, 0x01] ++ List.replicate 300 7 } 0 308 0 =
    .ok b ∧ b.frames = [⟨8, 256⟩, ⟨264, 1⟩, ⟨265, 43⟩] :=
  ⟨⟨0, 308, 1, 0, 2, [⟨8, 256⟩, ⟨264, 1⟩, ⟨265, 43⟩], 0⟩, by decide +kernel, rfl⟩

/-! ### C15 -/

/-- C15: any list of one to 256 non-empty frames, laced as the format prescribes (Xiph, fixed
size or EBML, with any widths of the variable-length integers), is decoded to exactly these
frames, with the track number, time code and flags of the block header. -/
theorem C15_lacing_decoded {r : Rdr} {start size w track : Nat} {tc : Int} {flags : UInt8} {dp : Int}
    {frames : List Bytes} {hdr : Bytes}
    (h1 : 1 ≤ w) (h8 : w ≤ 8) (ht0 : 1 ≤ track) (htw : track < 2 ^ (7 * w))
    (htc : -2 ^ 15 ≤ tc ∧ tc < 2 ^ 15)
    (hcount : 1 ≤ frames.length) (hcount' : frames.length ≤ 256) (hne : ∀ f ∈ frames, f ≠ [])
    (hlaced : Laced ((flags &&& 6) >>> 1) frames hdr)
    (hat : At r.data start
      (blockHead w track tc flags ++ ([UInt8.ofNat (frames.length - 1)] ++ (hdr ++ frames.flatten))))
    (hsize : size = (blockHead w track tc flags ++
      ([UInt8.ofNat (frames.length - 1)] ++ (hdr ++ frames.flatten))).length)
    (hmax : start + size ≤ longMax) :
    ∃ b, blockParse r start size dp = .ok b ∧ b.track = track ∧ b.timecode = tc ∧ b.flags = flags ∧
      b.frames.map (fun f => f.read r) = frames.map .ok := by
  have hhl : (blockHead w track tc flags).length = w + 3 := by
    unfold blockHead
    rw [List.length_append, List.length_append, vint_length, Web.twosBytes_length]; rfl
  obtain ⟨init, last, rfl⟩ : ∃ init last, frames = init ++ [last] :=
    ⟨frames.dropLast, frames.getLast (by intro e; rw [e] at hcount; simp at hcount),
      (List.dropLast_concat_getLast _).symm⟩
  have hle := hat.le (by
    intro e; have := congrArg List.length e; rw [List.length_append, hhl] at this
    simp at this)
  rw [← hsize] at hle
  rw [at_append, at_append, hhl] at hat
  obtain ⟨a1, a2, a3⟩ := hat
  rw [List.length_append, List.length_append, hhl] at hsize
  simp only [List.length_cons, List.length_nil] at hsize a3
  have hcb : (UInt8.ofNat ((init ++ [last]).length - 1)).toNat + 1 = init.length + 1 := by
    simp only [List.length_append, List.length_cons, List.length_nil] at hcount' ⊢
    rw [UInt8.toNat_ofNat', Nat.mod_eq_of_lt (by omega)]; omega
  have hfs : (parseFrames r (start + size) flags (start + w + 3) = 
      (if (flags &&& 6) >>> 1 = 1 then xiphLace r (start + size) (init.length + 1) (start + w + 3 + 1)
       else if (flags &&& 6) >>> 1 = 2 then fixedLace (start + size) (init.length + 1) (start + w + 3 + 1)
       else ebmlLace r (start + size) (init.length + 1) (start + w + 3 + 1))) := by
    have hb := (at_cons.mp a2).1
    have hrf : readFlag r (start + w + 3) = .ok (UInt8.ofNat ((init ++ [last]).length - 1)) := by
      unfold readFlag
      rw [byte_ok (by rw [← hb]; congr 1)]
    have hnz : (flags &&& 6) >>> 1 ≠ 0 := by
      rcases hlaced with h | h | h <;> rw [h.1] <;> decide
    unfold parseFrames
    simp only
    rw [if_neg hnz, Res.refuse_neg (by omega), Res.bind_ok, hrf]
    simp only [Res.bind_ok]
    rw [Res.refuse_neg (by omega), Res.bind_ok, hcb]
  have a3' : At r.data (start + w + 3 + 1) (hdr ++ (init ++ [last]).flatten) := by
    rw [show start + w + 3 + 1 = start + (w + 3) + 1 by omega]; exact a3
  have hst : start + size = start + w + 3 + 1 + (hdr ++ (init ++ [last]).flatten).length := by omega
  have main : ∃ fs, parseFrames r (start + size) flags (start + w + 3) = .ok fs ∧
      fs.map (fun f => slice r.data f.pos f.len) = init ++ [last] := by
    rw [hfs]
    rcases hlaced with ⟨k, rfl⟩ | ⟨k, rfl, n, hn⟩ | ⟨k, he⟩
    · rw [k, if_pos rfl]
      rw [List.dropLast_concat] at a3' hst
      exact xiphLace_ok hne a3' hst (by omega)
    · rw [k, if_neg (by decide), if_pos rfl]
      have hn0 : 0 < n := by
        rw [← hn last (by simp)]; exact List.length_pos_iff.mpr (hne last (by simp))
      have := fixedLace_ok (stop := start + size) (frames := init ++ [last]) (by simp) hn0 hn a3' hst (by omega)
      simpa using this
    · rw [k, if_neg (by decide), if_neg (by decide)]
      rw [List.dropLast_concat] at he
      exact ebmlLace_ok hne he a3' hst (by omega)
  obtain ⟨fs, m1, m2⟩ := main
  have hbp := blockParse_head (dp := dp) h1 h8 ht0 htw (show FitsSigned 2 tc by unfold FitsSigned; omega)
    a1 (show w + 3 ≤ size by omega)
  rw [m1, Res.bind_ok] at hbp
  refine ⟨_, hbp, rfl, rfl, rfl, ?_⟩
  simp only
  obtain ⟨w', first, -, -, -, -, -, -, -, -, -, -, k3, -⟩ := blockParse_sound hbp
  rw [← m2, List.map_map]
  apply List.map_congr_left
  intro f hf
  have := tiles_inside k3 (f.pos, f.len) (List.mem_map.mpr ⟨f, hf, rfl⟩)
  simp only at this
  unfold BFrame.read Rdr.read
  rw [if_pos (Or.inr (by omega))]
  rfl

/-- Three frames of 2, 5 and 1 bytes have a lace header of each kind that fits them. -/
example : Laced 1 [[1, 2], [1, 2, 3, 4, 5], [6]] [2, 5] ∧
    Laced 2 [[1, 2], [3, 4]] [] ∧
    Laced 3 [[1, 2], [1, 2, 3, 4, 5], [6]] [0x82, 0x60, 0x02] := by
  refine ⟨Or.inl ⟨rfl, by decide⟩, Or.inr (Or.inl ⟨rfl, rfl, 2, by decide⟩), Or.inr (Or.inr ⟨rfl, ?_⟩)⟩
  exact EbmlLace.mk (first := 2) (rest := [5]) (w := 1) (by decide) (by decide) (by decide)
    (EbmlDeltas.cons (w := 2) (v := 8194) (bs := []) (by decide) (by decide) (by decide) (by decide)
      (EbmlDeltas.nil _))

end Verif.Props
