/-
C16: what the incremental parser tells the callback about a block.
-/
import Verif.Lemmas.WebmBlockTrace

namespace Verif.Props
open Verif Verif.Spec Verif.Web

/-- Only the last state returns "completed" (when nothing is skipped). -/
theorem block_returns {simple : Bool} {m : Meta} {s0 t s' : Src} {n l : Nat} {q p' : BlockP}
    (ht : q.Trace m s0 t n)
    (h : BlockP.body simple false q t = (some .okCompleted, p', s', l)) :
    q.state = .done := by
  cases hs : q.state with
  | done => rfl
  | readingHeader =>
    simp only [BlockP.body, hs] at h
    rcases hr : q.hdr.feed t with ⟨st, a, s1, k1⟩
    rw [hr] at h
    simp only at h
    split at h
    · cases h
    · next hc => simp only [Prod.mk.injEq, Option.some.injEq] at h; rw [h.1] at hc; exact absurd rfl hc
  | readingLaceCount =>
    simp only [BlockP.body, hs] at h
    have hb := readByte_advance t
    rcases hr : t.readByte with ⟨st1, b, s1⟩
    rw [hr] at hb h
    cases b with
    | some b => cases h
    | none =>
      simp only [Prod.mk.injEq, Option.some.injEq] at h hb
      rw [h.1] at hb
      rcases hb.1 with e | e <;> cases e
  | gettingAction => simp only [BlockP.body, hs] at h; cases h
  | readingXiph =>
    simp only [BlockP.body, hs] at h
    split at h
    · have hb := readByte_advance t
      rcases hr : t.readByte with ⟨st1, b, s1⟩
      rw [hr] at hb h
      cases b with
      | some b => cases h
      | none =>
        simp only [Prod.mk.injEq, Option.some.injEq] at h hb
        rw [h.1] at hb
        rcases hb.1 with e | e <;> cases e
    · cases h
  | readingFirstEbml =>
    simp only [BlockP.body, hs] at h
    rcases hr : q.uint.feed t with ⟨st, a, s1, k1⟩
    rw [hr] at h
    simp only at h
    split at h
    · cases h
    · next hc => simp only [Prod.mk.injEq, Option.some.injEq] at h; rw [h.1] at hc; exact absurd rfl hc
  | readingEbml =>
    simp only [BlockP.body, hs] at h
    split at h
    · rcases hr : q.uint.feed t with ⟨st, a, s1, k1⟩
      rw [hr] at h
      simp only at h
      split at h
      · cases h
      · next hc => simp only [Prod.mk.injEq, Option.some.injEq] at h; rw [h.1] at hc; exact absurd rfl hc
    · cases h
  | calculatingFixed =>
    simp only [BlockP.body, hs] at h
    split at h <;> cases h
  | validatingSize =>
    simp only [BlockP.body, hs] at h
    split at h <;> cases h
  | skipping =>
    obtain ⟨-, -, t3⟩ := ht
    rw [hs] at t3
    exact t3.elim
  | readingFrames =>
    simp only [BlockP.body, hs] at h
    split at h
    · rcases hr : onFrame q.frameSize q.buf t with ⟨st, a, s1, k1⟩
      rw [hr] at h
      simp only at h
      split at h
      · cases h
      · next hc => simp only [Prod.mk.injEq, Option.some.injEq] at h; rw [h.1] at hc; exact absurd rfl hc
    · cases h

/-- One call with any reader. -/
theorem block_frames {simple : Bool} {m : Meta} {p0 p : BlockP} {s s' : Src} {k : Nat}
    (hinit : BlockP.init m = .ok p0) (hsize : m.size < two64)
    (hpos : s.pos = m.position + m.headerSize) (hfit : s.pos + s.bytes.length < two64)
    (h : BlockP.feed simple false p0 s = (.okCompleted, p, s', k)) :
    k = m.size ∧ s'.pos = s.pos + m.size ∧ ∃ (v : BlockVal) (hdr : Bytes) (frames : List Bytes),
      s.bytes = hdr ++ frames.flatten ++ s'.bytes ∧ hdr.length + frames.flatten.length = m.size ∧
      frames.length = v.numFrames ∧ (∀ f, frames.getLast? = some f → f ≠ []) ∧
      p.log = [.start v] ++
        frameEvents (annBase m v hdr.length) (s.pos + hdr.length) frames ++ [.done v] := by
  have hp0 : p0 = { elem := m } := by
    unfold BlockP.init at hinit
    split at hinit
    · cases hinit
    · cases hinit; rfl
  have hi := BlockP.init_inv hinit
  subst hp0
  obtain ⟨q, t, n, l, hq, ht, hk, hb⟩ := loopFeed_reach (BlockP.decreasing simple false)
    (BlockP.inv_next simple false) (J := fun p t n => p.Trace m s t n)
    (fun p s' n p' s'' k hi hj hb => BlockP.trace_next simple hpos hfit p s' n p' s'' k hi hj hb)
    hi (n := 0) ⟨rfl, Advance.refl _, rfl, rfl, rfl⟩ h
  have hs := block_returns ht hb
  simp only [BlockP.body, hs, Prod.mk.injEq, true_and] at hb
  obtain ⟨rfl, rfl, rfl⟩ := hb
  obtain ⟨-, hadv, t3⟩ := ht
  rw [hs] at t3
  obtain ⟨ds, ⟨f1, f2, f3, f4, f5, f7, f8, f9, ⟨hb, rest, g1, g2⟩, f11, f12⟩, hcur⟩ := t3
  have hbuf : q.buf = [] := hq.nobuf (.inr (by omega))
  have hsum : ds.flatten.length = q.laces.sum := by
    rw [List.length_flatten, f4, hcur, List.take_length]
  rw [hbuf, List.append_nil] at g2
  have hlen := congrArg List.length g2
  simp only [List.length_append] at hlen
  rw [hbuf] at f9
  simp only [List.length_nil, Nat.add_zero, Nat.zero_add] at f9 hk hadv
  have htot : q.hdrRead + q.laces.sum = m.size := by
    rwa [Nat.mod_eq_of_lt (by omega), Nat.mod_eq_of_lt hsize] at f5
  have hkm : k = m.size := by omega
  obtain ⟨x, y1, y2, y3⟩ := hadv
  have hrest : x = hb ++ ds.flatten ∧ t.bytes = rest := by
    have := y1.symm.trans g2
    exact List.append_inj this (by simp only [List.length_append]; omega)
  refine ⟨hkm, by omega, q.value, hb, ds, ?_, by omega, by omega, ?_, ?_⟩
  · rw [y1, hrest.1]
  · intro f hf e
    rw [hcur, List.take_length] at f4
    rw [← f4, List.getLast?_map, hf, e] at f12
    simp at f12
  · rw [f11, g1]; rfl

/-- C16, except for the announced positions with fixed-size lacing.  However the input arrives
(any stalls), a block the incremental parser accepts is `hdr ++ frames…` filling exactly the
announced size, the last one not empty; the callback is told of the block, then of exactly these frames in order, each
with its size and its bytes, and then of the end.  The position announced for the first frame
is where it truly starts, except that with fixed-size lacing (and more than one frame) it is too
small by the size of the element header; the following ones are announced consecutively.
Missing for the full property: correct positions with fixed-size lacing, which
`C16_fixed_lacing_position_wrong` refutes. -/
theorem C16_block_frames_partial {simple : Bool} {m : Meta} {p0 p : BlockP} {s s' : Src} {fuel k : Nat}
    (hinit : BlockP.init m = .ok p0) (hsize : m.size < 2 ^ 64)
    (hpos : s.pos = m.position + m.headerSize) (hfit : s.pos + s.bytes.length < 2 ^ 64)
    (hfuel : s.stalls < fuel)
    (h : drive (BlockP.feed simple false) fuel p0 s = (.okCompleted, p, s', k)) :
    k = m.size ∧ s'.pos = s.pos + m.size ∧ ∃ (v : BlockVal) (hdr : Bytes) (frames : List Bytes),
      s.bytes = hdr ++ frames.flatten ++ s'.bytes ∧ hdr.length + frames.flatten.length = m.size ∧
      frames.length = v.numFrames ∧ (∀ f, frames.getLast? = some f → f ≠ []) ∧
      p.log = [.start v] ++ frameEvents
        (if v.lacing = .fixed ∧ v.numFrames ≠ 1 then s.pos + hdr.length - m.headerSize
         else s.pos + hdr.length) (s.pos + hdr.length) frames ++ [.done v] := by
  have hsi := scheduleIndependent_of_step (BlockP.feed_step simple false) (BlockP.init_inv hinit)
    s fuel hfuel
  rw [h] at hsi
  simp only at hsi
  obtain ⟨h1, h2, v, hdr, frames, h3, h4, h5, h7, h6⟩ := block_frames hinit hsize
    (s := allAtOnce s.bytes s.pos) hpos (by rw [allAtOnce_bytes]; exact hfit) hsi
  simp only [allAtOnce_bytes, allAtOnce_pos] at h2 h3 h6
  refine ⟨h1, h2, v, hdr, frames, h3, h4, h5, h7, ?_⟩
  rw [h6]
  unfold annBase
  congr 3
  split <;> omega

/-- A Xiph-laced block of two frames, delivered in three pieces. -/
example : BlockP.init ⟨0xA3, 2, 9, 100⟩ = .ok { elem := ⟨0xA3, 2, 9, 100⟩ } := rfl

example :
    (match drive (BlockP.feed true false) 3 { elem := ⟨0xA3, 2, 9, 100⟩ }
      ⟨[some 0x81, some 0, none, some 5, some 0x82, some 1, some 1, some 0xAA, none, some 0xBB, some 0xCC,
        some 0x99], 102⟩ with
    | (st, p, s', k) => (st, p.log, s', k)) =
    (.okCompleted,
      [.start ⟨1, 2, 5, .xiph, true, true, false⟩, .frame 108 1 108 [0xAA], .frame 109 2 109 [0xBB, 0xCC],
        .done ⟨1, 2, 5, .xiph, true, true, false⟩], ⟨[some 0x99], 111⟩, 9) := by
  decide +kernel

/-- Refutation of the announced positions for fixed-size lacing: two one-byte frames at
positions 107 and 108 are announced at 105 and 106. -/
theorem C16_fixed_lacing_position_wrong :
    (match BlockP.feed true false { elem := ⟨0xA3, 2, 7, 100⟩ }
      (allAtOnce [0x81, 0, 5, 0x84, 1, 0xAA, 0xBB] 102) with
    | (st, p, _, _) => (st, p.log)) =
    (.okCompleted,
      [.start ⟨1, 2, 5, .fixed, true, true, false⟩, .frame 105 1 107 [0xAA], .frame 106 1 108 [0xBB],
        .done ⟨1, 2, 5, .fixed, true, true, false⟩]) := by
  decide +kernel

end Verif.Props
