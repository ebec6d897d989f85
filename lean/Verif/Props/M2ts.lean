/-
Properties of the MPEG-2 output: C39 to C43 and C47.
-/
import Verif.Lemmas.PesStream
import Verif.Lemmas.M2ts

namespace Verif.Props
open Verif Spec Pes

/-! ### C39 -/

/-- The escaped form of a payload contains no start code. -/
theorem C39_escaped_has_no_start_code (payload out : Bytes) (h : escape payload = some out) :
    ¬ HasStartCode out := by
  unfold escape at h
  split at h
  · cases h
  · cases h
    exact not_hasStartCode_of_scan (scan_escapeLoop 0 payload)

/-- Escaping refuses the empty payload only. -/
theorem C39_escape_total (payload : Bytes) : escape payload = none ↔ payload = [] := by
  unfold escape
  cases payload <;> simp

example : escape [0, 0, 1, 9, 0, 0, 3] = some [0, 0, 3, 1, 9, 0, 0, 3, 3] := by decide

/-- Beyond the payload alone: the packet of a frame that fits in one packet contains no start
code except the one it begins with, provided the payload does not begin with `01` or `00 01`. -/
theorem C39_packet_start_code (data out : Bytes) (pts : Nat) (hp : pts < 2 ^ 33)
    (hlen : data.length ≤ 32768) (hw : writePesPacket false data pts = some out)
    (h1 : ¬ [1] <+: data) (h2 : ¬ [0, 1] <+: data) : ¬ HasStartCode (out.drop 1) := by
  unfold writePesPacket at hw
  split at hw
  · cases hw
  rw [if_neg (by simp)] at hw
  obtain ⟨a, hwr, hw⟩ := Option.bind_eq_some_iff.mp hw
  simp only [writeRanges, bind, Option.bind] at hw
  cases hw
  have he := writeRange_eq (r := ⟨0, data.length⟩) hp (by simp only; omega) hwr
  simp only at he
  rw [show rangeBytes data ⟨0, data.length⟩ = data by simp [rangeBytes, slice]] at he
  obtain ⟨-, hpos, more, hm, ho⟩ := he
  rw [Nat.min_eq_right hlen, Nat.sub_self, fragments, dif_pos rfl] at hm
  cases hm
  rw [Nat.min_eq_right hlen, List.take_length] at ho
  rw [ho, List.append_nil, List.append_nil]
  have e := (optional_true pts hp).1
  have hsc : scan 0 (escapeLoop 0 ([0x42, 0x43, 0x4D, 0x56] ++
      (beBytes 4 (data.length + 10) ++ [0, 0])) ++ escapeLoop 0 data) = true := by
    rw [scan_append, scan_escapeLoop, Bool.true_and]
    exact scan_escape_after _ _ h1 h2
  have hopt : ∀ z, scan z (optionalHeader true pts) = true := by
    intro z
    have h3 := scan_escapeLoop 0 (optionalHeader true pts)
    rw [e] at h3
    unfold optionalHeader at h3 ⊢
    simp only [List.cons_append, List.nil_append] at h3 ⊢
    rw [scan, if_neg (by decide), if_neg (fun h => absurd h.1 (by decide))] at h3 ⊢
    exact h3
  have htail : ∀ z, tailZeros z (optionalHeader true pts) = 0 := by
    intro z
    unfold optionalHeader
    simp only [if_true]
    rw [← List.append_assoc, tailZeros_append]
    rfl
  apply not_hasStartCode_of_scan (z := 0)
  rw [List.drop_append_of_le_length (by simp), scan_append,
    List.drop_append_of_le_length (by simp), scan_append, tailZeros_append, htail, hsc, hopt]
  simp only [Bool.and_true]
  have hL : beBytes 2 (data.length + 10 + 9) =
      [UInt8.ofNat ((data.length + 19) / 256), UInt8.ofNat (data.length + 19)] := by
    rw [show data.length + 10 + 9 = data.length + 19 by omega]
    simp [beBytes]
  have hl01 : UInt8.ofNat ((data.length + 19) / 256) = 0 → UInt8.ofNat (data.length + 19) ≠ 0 := by
    intro h0 h1
    have e0 := congrArg UInt8.toNat h0
    have e1 := congrArg UInt8.toNat h1
    simp only [UInt8.toNat_ofNat'] at e0 e1
    simp at e0 e1
    omega
  rw [hL]
  generalize UInt8.ofNat ((data.length + 19) / 256) = l0 at *
  generalize UInt8.ofNat (data.length + 19) = l1 at *
  have hd : List.drop 1 ([0x00, 0x00, 0x01, 0xE0] ++ [l0, l1]) = [0, 1, 0xE0, l0, l1] := rfl
  rw [hd]
  by_cases k0 : l0 = 0
  · subst k0
    have := hl01 rfl
    simp [scan, this]
  · by_cases k1 : l1 = 0 <;> simp [scan, k0, k1]

/-- The proviso is needed: the BCMV header ends in two zeros that the escaper does not see, so
the packet of a payload beginning with `01` contains a second start code. -/
theorem C39_start_code_at_payload :
    ∃ out, writePesPacket false [1, 7] 0 = some out ∧ HasStartCode (out.drop 1) :=
  ⟨[0, 0, 1, 0xE0, 0, 21, 0x80, 0x80, 6, 0x21, 0, 1, 0, 1, 0xFF, 0x42, 0x43, 0x4D, 0x56,
    0, 0, 0, 12, 0, 0, 1, 7], by decide +kernel, by decide +kernel⟩

example : ¬ [1] <+: [(0 : UInt8), 0, 1, 5] ∧ ¬ [0, 1] <+: [(0 : UInt8), 0, 1, 5] ∧
    (writePesPacket false [0, 0, 1, 5] 90000).isSome = true := by decide +kernel

/-! ### C40 -/

/-- Unescaping the escaped form of a payload gives the payload back and counts the bytes read,
whatever follows, exactly when the payload has no run of three zeros before `01` or `03`. -/
theorem C40_unescape_escape_partial (payload out rest : Bytes) (h : escape payload = some out) :
    unescape payload.length (out ++ rest) = .ok (payload, out.length) ↔ ¬ LongRun payload := by
  unfold escape at h
  split at h
  · cases h
  rename_i h0
  cases h
  unfold unescape
  rw [if_neg (by omega), ← shortRuns_iff]
  exact ⟨unescape_escape_conv 0 payload rest, unescape_escape 0 payload rest⟩

/-- Without the proviso the payload is not recovered. -/
theorem C40_long_run_lost : ∃ payload out, escape payload = some out ∧
    unescape payload.length out = .ok ([0, 0, 0, 3], 4) ∧ payload = [0, 0, 0, 1] :=
  ⟨[0, 0, 0, 1], [0, 0, 0, 3, 1], by decide, by decide, rfl⟩

/-- Unescaping more bytes than there are reads past the end of the data instead of failing. -/
theorem C40_truncated_reads_past_end (x : Bytes) (n : Nat) (h : x.length < n) :
    unescape n x = .ub := by
  have key : ∀ (x : Bytes) (z n : Nat), x.length < n → unescapeLoop z n x = .ub := by
    intro x
    induction x with
    | nil =>
      intro z n hn
      obtain ⟨m, rfl⟩ : ∃ m, n = m + 1 := ⟨n - 1, by simp at hn; omega⟩
      rfl
    | cons b x ih =>
      intro z n hn
      rw [List.length_cons] at hn
      obtain ⟨m, rfl⟩ : ∃ m, n = m + 1 := ⟨n - 1, by omega⟩
      rw [unescapeLoop_cons, ih _ m (by omega), ih _ (m + 1) (by omega), ih _ m (by omega)]
      split
      · rfl
      · split <;> rfl
  unfold unescape
  rw [if_neg (by omega)]
  exact key x 0 n h

example : ¬ LongRun [0, 0, 1, 0, 0, 3, 0, 0, 2] := by decide

/-! ### C41 -/

/-- Splitting PES data into transport packets: whatever writes fail, the packets that reach the
file are a prefix of packets that a receiver reads as one stream carrying exactly the data, with
the start flag on the first only, PID 0x20 and counters 0, 1, ..., 15, 0, ...; the call
succeeds exactly when every write does, and then all packets were written. -/
theorem C41_transport_packets (writes : Nat → Bool) (pes : Bytes) (h : pes.length < 2 ^ 31) :
    ∃ (pkts : List Bytes) (vs : List TsView),
      pkts.map tsView = vs.map some ∧
      (vs.map TsView.payload).flatten = pes ∧
      (∀ v ∈ vs, v.pid = 0x20) ∧
      vs.map TsView.counter = (List.range vs.length).map (· % 16) ∧
      (∀ i v, vs[i]? = some v → v.start = decide (i = 0)) ∧
      (Ts.receivePacket writes pes).2 <+: pkts ∧
      ((Ts.receivePacket writes pes).1 = true ↔ ∀ i, i < pkts.length → writes i = true) ∧
      ((Ts.receivePacket writes pes).1 = true → (Ts.receivePacket writes pes).2 = pkts) := by
  have hn : toI32 pes.length = pes.length := by unfold toI32; omega
  unfold Ts.receivePacket
  simp only [hn, Int.toNat_natCast]
  by_cases h0 : pes.length = 0
  · have : pes = [] := List.length_eq_zero_iff.mp h0
    subst this
    exact ⟨[], [], by simp⟩
  · rw [if_neg (by omega)]
    obtain ⟨pkts, vs, s, g1, g2, g3⟩ := Ts.receiveLoop_seen writes pes.length (pes.length + 1) 0
      pes.length 0 pes rfl (by omega) (by omega) (by omega)
    refine ⟨pkts, vs, s.views, s.payloads, s.pids, ?_, ?_, g1, ?_, g3⟩
    · rw [s.counters]; simp
    · intro i v hv
      rw [s.starts i v hv]; simp
    · rw [g2]; simp

/-- Every packet a receiver can read this way has 188 bytes and the sync byte. -/
theorem C41_packet_size (pkt : Bytes) (v : TsView) (h : tsView pkt = some v) :
    pkt.length = 188 ∧ pkt.head? = some 0x47 := by
  unfold tsView at h
  split at h
  · split at h
    · rename_i hh
      exact ⟨hh.1, by rw [hh.2.1]; rfl⟩
    · cases h
  · cases h

/-- The counter starts again at zero with every call, so a receiver of the concatenated output
sees a discontinuity between two calls. -/
theorem C41_counter_restarts :
    ((Ts.receivePacket (fun _ => true) [1]).2 ++ (Ts.receivePacket (fun _ => true) [2]).2).map
      (fun p => (tsView p).map TsView.counter) = [some 0, some 0] := by decide +kernel

example : ((Ts.receivePacket (fun _ => true) (List.replicate 400 5)).2.map tsView).map
    (·.map fun v => (v.start, v.counter, v.payload.length)) =
    [some (true, 0, 184), some (false, 1, 184), some (false, 2, 32)] := by decide +kernel

/-! ### C42 -/

/-- The PTS written in a PES header is the one read back exactly when it is below `2^31` and
its bits 22 to 29 are all among its bits 7 to 14 (as they are for every PTS below `2^22`). -/
theorem C42_pts_exact (pts : Nat) (hp : pts < 2 ^ 33) :
    ∃ h, readOptional {} (optionalHeader true pts) = .ok h ∧ h.hasPts = 1 ∧
      (h.pts = pts ↔ PtsKept pts) := by
  refine ⟨_, readOptional_true pts hp {}, rfl, ?_⟩
  simp only
  exact readBack_eq pts hp

/-- A PTS below `2^22` (46.6 seconds) survives. -/
theorem C42_pts_small_partial (pts : Nat) (hp : pts < 4194304) :
    ∃ h, readOptional {} (optionalHeader true pts) = .ok h ∧ h.pts = pts := by
  obtain ⟨h, h1, -, h3⟩ := C42_pts_exact pts (by rw [show (2 : Nat) ^ 33 = 8589934592 by decide +kernel]; omega)
  refine ⟨h, h1, h3.mpr ⟨by omega, ?_⟩⟩
  rw [show pts / 4194304 % 256 = 0 by omega, Nat.or_zero]

/-- Later ones need not: `2^22` ticks come back 128 ticks late, because the writer does not mask
the middle field and its upper bits run into the next byte. -/
theorem C42_pts_corrupted :
    readOptional {} (optionalHeader true (2 ^ 22 : Nat)) =
      .ok { hasPts := 1, pts := 2 ^ 22 + 2 ^ 7 } := by decide +kernel

/-- And from `2^31` ticks on the reader's 32-bit arithmetic loses or sign-extends the top. -/
theorem C42_pts_sign :
    readOptional {} (optionalHeader true (2 ^ 31 : Nat)) =
      .ok { hasPts := 1, pts := 2 ^ 64 - 2 ^ 31 } := by decide +kernel

example : PtsKept 4194437 ∧ 4194304 ≤ 4194437 := by decide

/-! ### C43 -/

/-- An index is accepted exactly on frames laid out as a superframe whose body is at least as
long as the index and as the sum of the sizes, and then the ranges are those of the sizes
stored, one after the other from the start of the frame. -/
theorem C43_superframe_index (frame : Bytes) (rs : List Vp9.Range) :
    Vp9.parseSuperframe frame = .index rs ↔
      ∃ body mag sizes, SuperframeLayout frame body mag sizes ∧
        2 + mag * sizes.length ≤ body.length ∧ sizes.sum ≤ body.length ∧
        rs = consecutive 0 sizes := by
  constructor
  · exact Vp9.layout_of_parse
  · rintro ⟨body, mag, sizes, h1, h2, h3, rfl⟩
    exact Vp9.parse_of_layout h1 h2 h3

/-- No index is reported exactly when the last byte is not of the form `110x xxxx` (or there is
none); every other frame is refused. -/
theorem C43_no_index (frame : Bytes) :
    Vp9.parseSuperframe frame = .noIndex ↔ ∀ b, frame.getLast? = some b → b.toNat / 32 ≠ 6 := by
  rw [Vp9.parse_eq]
  by_cases h0 : frame = []
  · subst h0; simp
  · rw [if_neg h0]
    have hl : frame.getLast? = some (frame.getLastD 0) := by
      rw [List.getLastD_eq_getLast?, List.getLast?_eq_some_getLast h0]; rfl
    rw [hl]
    simp only [Option.some.injEq, forall_eq']
    by_cases h1 : (frame.getLastD 0).toNat / 32 = 6
    · rw [if_pos h1]
      constructor
      · intro h
        exfalso
        repeat' split at h
        all_goals cases h
      · intro h; exact absurd h1 h
    · rw [if_neg h1]
      exact ⟨fun _ => h1, fun _ => rfl⟩

/-- Consecutive ranges lie inside the first `sum` bytes, in order, without gap or overlap. -/
theorem C43_ranges_tile (off : Nat) (sizes : List Nat) :
    ∀ i r, (consecutive off sizes)[i]? = some r →
      r.offset = off + (sizes.take i).sum ∧ sizes[i]? = some r.length ∧
      r.offset + r.length ≤ off + sizes.sum := by
  induction sizes generalizing off with
  | nil => intro i r h; simp [consecutive] at h
  | cons n ns ih =>
    intro i r h
    rw [consecutive] at h
    cases i with
    | zero =>
      simp only [List.getElem?_cons_zero, Option.some.injEq] at h
      subst h
      simp
    | succ i =>
      rw [List.getElem?_cons_succ] at h
      obtain ⟨h1, h2, h3⟩ := ih _ i r h
      refine ⟨?_, by simpa using h2, ?_⟩
      · rw [h1, List.take_succ_cons, List.sum_cons, Nat.add_assoc]
      · rw [List.sum_cons]; omega

example : Vp9.parseSuperframe ([1, 2, 3, 4, 5] ++ [0xc1, 2, 3, 0xc1]) =
    .index [⟨0, 2⟩, ⟨2, 3⟩] := by decide +kernel

example : SuperframeLayout ([1, 2, 3, 4, 5] ++ [0xc1, 2, 3, 0xc1]) [1, 2, 3, 4, 5] 1 [2, 3] :=
  ⟨[[2], [3]], by decide, by decide, by decide, by decide, by decide, by decide, by decide⟩

/-- A superframe whose frames are shorter than the index is refused although it is well formed. -/
theorem C43_short_body_refused : Vp9.parseSuperframe ([7, 8] ++ [0xc1, 1, 1, 0xc1]) = .error ∧
    SuperframeLayout ([7, 8] ++ [0xc1, 1, 1, 0xc1]) [7, 8] 1 [1, 1] :=
  ⟨by decide +kernel,
   ⟨[[1], [1]], by decide, by decide, by decide, by decide, by decide, by decide, by decide⟩⟩

/-! ### C47 -/

/-- One frame to send: whether it is VP9, its bytes, its time in 90 kHz ticks. -/
structure TsFrame where
  vp9 : Bool
  data : Bytes
  ticks : Nat

/-- The units a receiver should get for a frame: the frame, or for a VP9 superframe its frames
(see C43). -/
def TsFrame.units (f : TsFrame) : List Bytes :=
  match f.vp9, Vp9.parseSuperframe f.data with
  | true, .index rs => rs.map fun r => slice f.data r.offset r.length
  | _, _ => [f.data]

/-- The stream made of the packets of the frames, if all are accepted. -/
def pesStream : List TsFrame → Option Bytes
  | [] => some []
  | f :: fs => do
    let a ← writePesPacket f.vp9 f.data f.ticks
    let b ← pesStream fs
    some (a ++ b)

/-- Read packets until one is refused: the time and bytes of each. -/
def readAll : Nat → Parser → List (Nat × Bytes) × Res (Header × Bytes)
  | 0, p => ([], p.parseNextPacket.1)
  | fuel + 1, p =>
    match p.parseNextPacket with
    | (.ok (h, x), p') =>
      let r := readAll fuel p'
      ((h.pts, x) :: r.1, r.2)
    | (r, _) => ([], r)

theorem writePes_units (f : TsFrame) (a : Bytes) (h : writePesPacket f.vp9 f.data f.ticks = some a) :
    ∃ rs, writeRanges f.data f.ticks rs = some a ∧ rs.map (rangeBytes f.data) = f.units := by
  have hall : [Vp9.Range.mk 0 f.data.length].map (rangeBytes f.data) = [f.data] := by
    simp [rangeBytes, slice]
  unfold writePesPacket at h
  split at h
  · cases h
  unfold TsFrame.units
  by_cases hv : f.vp9 = true
  · rw [if_pos hv] at h
    rw [hv]
    rcases hs : Vp9.parseSuperframe f.data with _ | rs | _
    · rw [hs] at h; exact ⟨_, h, hall⟩
    · rw [hs] at h; exact ⟨rs, h, rfl⟩
    · rw [hs] at h; cases h
  · rw [if_neg hv] at h
    refine ⟨_, h, ?_⟩
    rw [hall]
    simp only [Bool.not_eq_true] at hv
    rw [hv]

theorem readAll_ranges (data : Bytes) (pts : Nat) (hp : pts < 8589934592) (hk : PtsKept pts)
    (hdl : data.length < 2147483648) (rs : List Vp9.Range) :
    ∀ (pos : Nat) (all out post : Bytes) (fuel : Nat),
      writeRanges data pts rs = some out → all.length < 2 ^ 31 → all.drop pos = out ++ post →
      (∀ r ∈ rs, PesSafe (rangeBytes data r)) →
      readAll (rs.length + fuel) { data := all, pos := pos } =
        (rs.map (fun r => (pts, rangeBytes data r)) ++
          (readAll fuel { data := all, pos := pos + out.length }).1,
         (readAll fuel { data := all, pos := pos + out.length }).2) := by
  have hp' : pts < 2 ^ 33 := hp
  induction rs with
  | nil =>
    intro pos all out post fuel hw _ _ _
    cases hw
    simp
  | cons r rs ih =>
    intro pos all out post fuel hw hd hr hsafe
    obtain ⟨a, ha, hw⟩ := Option.bind_eq_some_iff.mp hw
    obtain ⟨b, hb, hw⟩ := Option.bind_eq_some_iff.mp hw
    cases hw
    have hle : r.length + r.offset ≤ data.length := by
      unfold writeRange at ha
      simp only at ha
      split at ha
      · cases ha
      · omega
    have hl32 : r.length + 10 < 4294967296 := by omega
    obtain ⟨h, -, hpts, hparse⟩ := range_ok (p := { data := all, pos := pos }) (post := b ++ post)
      hp' hl32 ha rfl rfl hd (by unfold Parser.rest; rw [hr, List.append_assoc])
      (hsafe r (by simp))
    rw [(readBack_eq pts hp').mpr hk] at hpts
    rw [List.length_cons, show rs.length + 1 + fuel = (rs.length + fuel) + 1 by omega, readAll,
      hparse]
    simp only
    rw [ih (pos + a.length) all b post fuel hb hd
      (by rw [← List.drop_drop, hr, List.append_assoc, List.drop_left])
      (fun r' h' => hsafe r' (by simp [h'])), hpts]
    simp only [List.map_cons, List.cons_append, List.length_append, Nat.add_assoc]

theorem readAll_frames (frames : List TsFrame) (all : Bytes) (hlen : all.length < 2 ^ 31)
    (hd : ∀ f ∈ frames, f.data.length < 2147483648)
    (hpts : ∀ f ∈ frames, PtsKept f.ticks)
    (hsafe : ∀ f ∈ frames, ∀ u ∈ f.units, PesSafe u) :
    ∀ (pos : Nat) (out : Bytes), pesStream frames = some out → all.drop pos = out →
      ∀ n, (frames.flatMap TsFrame.units).length ≤ n →
      readAll n { data := all, pos := pos } =
        (frames.flatMap (fun f => f.units.map fun u => (f.ticks, u)), .err 0) := by
  induction frames with
  | nil =>
    intro pos out ho hdrop n _
    cases ho
    have h0 : all.length - pos = 0 := by
      have := congrArg List.length hdrop
      simpa using this
    have hnone : (Parser.mk all [] pos .findStartCode).parseNextPacket =
        (.err 0, Parser.mk all [] pos .findStartCode) := by
      unfold Parser.parseNextPacket
      by_cases hb : (Parser.mk all [] pos .findStartCode).bytesAvailable = 0
      · rw [if_pos (Or.inr hb)]
      · rw [if_neg (by simp [hb])]
        unfold Parser.findStartCode
        rw [if_pos (by simp only; omega)]
    cases n with
    | zero => rw [readAll, hnone]; rfl
    | succ n => rw [readAll, hnone]; rfl
  | cons f fs ih =>
    intro pos out ho hdrop n hn
    obtain ⟨a, ha, ho⟩ := Option.bind_eq_some_iff.mp ho
    obtain ⟨b, hb, ho⟩ := Option.bind_eq_some_iff.mp ho
    cases ho
    obtain ⟨rs, hrs, hu⟩ := writePes_units f a ha
    have hlu := congrArg List.length hu
    rw [List.length_map] at hlu
    rw [List.flatMap_cons, List.length_append] at hn
    obtain ⟨m, rfl⟩ : ∃ m, n = rs.length + m := ⟨n - rs.length, by omega⟩
    have hk := hpts f (by simp)
    rw [readAll_ranges f.data f.ticks (by have := hk.1; omega) hk (hd f (by simp)) rs pos all a b m
      hrs hlen hdrop (fun r hr => hsafe f (by simp) _ (by rw [← hu]; exact List.mem_map_of_mem hr)),
      ih (fun g hg => hd g (by simp [hg])) (fun g hg => hpts g (by simp [hg]))
        (fun g hg => hsafe g (by simp [hg])) (pos + a.length) b hb
        (by rw [← List.drop_drop, hdrop, List.drop_left]) m (by omega)]
    rw [List.flatMap_cons, ← hu, List.map_map]
    rfl

/-- The reader recovers every unit of a stream written by the writer, in order and with its time,
and nothing more, for times that survive (see C42) and units that have no run of three zeros
before `01` or `03` and, if longer than 32768 bytes, nothing to escape in their first 32768
bytes. -/
theorem C47_pes_stream_partial (frames : List TsFrame) (out : Bytes)
    (hout : pesStream frames = some out) (hlen : out.length < 2 ^ 31)
    (hdata : ∀ f ∈ frames, f.data.length < 2147483648)
    (hpts : ∀ f ∈ frames, PtsKept f.ticks)
    (hsafe : ∀ f ∈ frames, ∀ u ∈ f.units, PesSafe u) (n : Nat)
    (hn : (frames.flatMap TsFrame.units).length ≤ n) :
    readAll n { data := out } =
      (frames.flatMap (fun f => f.units.map fun u => (f.ticks, u)), .err 0) :=
  readAll_frames frames out hlen hdata hpts hsafe 0 out hout rfl n hn

/-- Two frames, the second a superframe of two. -/
def sampleFrames : List TsFrame :=
  [⟨false, [9, 0, 0, 1, 7], 90⟩, ⟨true, [1, 2, 3, 4, 5, 0xc1, 2, 3, 0xc1], 180⟩]

example : (pesStream sampleFrames).isSome = true ∧ (∀ f ∈ sampleFrames, PtsKept f.ticks) ∧
    (∀ f ∈ sampleFrames, ∀ u ∈ f.units, PesSafe u) ∧
    sampleFrames.flatMap TsFrame.units = [[9, 0, 0, 1, 7], [1, 2], [3, 4, 5]] := by decide +kernel

/-- Once a header has been refused the reader refuses everything, whatever follows. -/
theorem C47_stuck_after_bad_header (p : Parser) (h : p.state ≠ .findStartCode) :
    p.parseNextPacket = (.err 0, p) := by
  unfold Parser.parseNextPacket
  rw [if_pos (Or.inl h)]

/-- A packet with a bad stream id, followed by a good packet, leaves the reader in such a state. -/
theorem C47_bad_header_reached :
    ((Parser.parseNextPacket { data := [0, 0, 1, 0xBD, 0, 4, 1, 2, 3, 4, 0, 0, 1, 0xE0] }).2).state
      ≠ .findStartCode := by decide +kernel

/-- A frame of more than 32768 bytes with a start code among the first 32768 is never read back:
the reader does not unescape the first packet of a fragmented frame. -/
theorem C47_long_escaped_frame_lost (data out post : Bytes) (pts : Nat) (hp : pts < 2 ^ 33)
    (hout : writePesPacket false data pts = some out) (hlen : (out ++ post).length < 2 ^ 31)
    (hdata : data.length < 2147483648)
    (hlong : 32768 < data.length) (hsc : HasStartCode (data.take 32768)) (h : Header) (y : Bytes)
    (hy : (Parser.parseNextPacket { data := out ++ post }).1 = .ok (h, y)) : y ≠ data := by
  unfold writePesPacket at hout
  rw [if_neg (by omega), if_neg (by simp)] at hout
  obtain ⟨a, ha, hw⟩ := Option.bind_eq_some_iff.mp hout
  obtain ⟨b, hb, hw⟩ := Option.bind_eq_some_iff.mp hw
  cases hw
  cases hb
  have hd : rangeBytes data ⟨0, data.length⟩ = data := by simp [rangeBytes, slice]
  have hl32 : data.length + 10 < 4294967296 := by omega
  have := range_lost (post := post) hp (r := ⟨0, data.length⟩) hl32 ha rfl rfl hlen
    (by unfold Parser.rest; simp) (by rw [hd]; exact hlong) (by rw [hd]; exact hsc) h y hy
  rwa [hd] at this

example (n : Nat) (hn : 32766 ≤ n) : 32768 < ([0, 0, 1] ++ List.replicate n (7 : UInt8)).length ∧
    HasStartCode (([0, 0, 1] ++ List.replicate n (7 : UInt8)).take 32768) := by
  refine ⟨?_, ⟨[], (List.replicate n 7).take (32768 - 3), ?_⟩⟩
  · rw [List.length_append, List.length_replicate]
    simp only [List.length_cons, List.length_nil]
    omega
  · rw [List.take_append, List.take_of_length_le (l := [0, 0, 1])]
    · rfl
    · simp only [List.length_cons, List.length_nil]; omega

end Verif.Props
