/-
C53: the incremental parser decodes every well-formed block to its frames.
-/
import Verif.Lemmas.WebmLace
import Verif.Props.WebmBlocks

namespace Verif.Props
open Verif Verif.Spec Verif.Web

/-- The lacing kind (bits 1 and 2 of the flags) the callback is told. -/
def lacingKind (flags : UInt8) : Lacing :=
  if (flags &&& 6) >>> 1 = 0 then .none else if (flags &&& 6) >>> 1 = 1 then .xiph
  else if (flags &&& 6) >>> 1 = 2 then .fixed else .ebml

/-- What the callback should be told about a block with this header and number of frames. -/
def headerValue (simple : Bool) (track count : Nat) (tc : Int) (flags : UInt8) : BlockVal where
  track := track
  numFrames := count
  timecode := beVal (twosBytes 2 tc)
  lacing := lacingKind flags
  isVisible := !flags.toNat.testBit 3
  isKey := simple && flags.toNat.testBit 7
  isDiscardable := simple && flags.toNat.testBit 0

private theorem flag_facts : ∀ f : UInt8, lacingOf f.toNat = lacingKind f ∧
    (f.toNat &&& 8 == 0) = !f.toNat.testBit 3 ∧ (f.toNat &&& 0x80 != 0) = f.toNat.testBit 7 ∧
    (f.toNat &&& 1 != 0) = f.toNat.testBit 0 :=
  Par.forall_byte (by decide +kernel)

private theorem le_sum {n : Nat} {l : List Nat} (h : n ∈ l) : n ≤ l.sum := by
  induction l with
  | nil => cases h
  | cons x xs ih =>
    rw [List.sum_cons]
    rcases List.mem_cons.mp h with rfl | h
    · omega
    · have := ih h; omega

/-- One call with everything available. -/
theorem lace_run {simple : Bool} {m : Meta} {w track : Nat} {tc : Int} {flags : UInt8}
    {frames : List Bytes} {body rest : Bytes} {p0 : BlockP} {pos : Nat}
    (h1 : 1 ≤ w) (h8 : w ≤ 8) (htw : track < 2 ^ (7 * w))
    (hbody : BlockBody ((flags &&& 6) >>> 1) frames body) (hne : frames.getLast? ≠ some [])
    (hinit : BlockP.init m = .ok p0)
    (hsize : m.size = (blockHead w track tc flags ++ body).length)
    (hpos : pos = m.position + m.headerSize) (hmax : pos + m.size < two64) :
    ∃ p, BlockP.feed simple false p0 (allAtOnce (blockHead w track tc flags ++ body ++ rest) pos) =
        (.okCompleted, p, allAtOnce rest (pos + m.size), m.size) ∧
      p.log = [.start (headerValue simple track frames.length tc flags)] ++
        frameEvents
          (annBase m (headerValue simple track frames.length tc flags) (m.size - frames.flatten.length))
          (pos + (m.size - frames.flatten.length)) frames ++
        [.done (headerValue simple track frames.length tc flags)] := by
  have hp0 : p0 = { elem := m } := by
    unfold BlockP.init at hinit
    split at hinit
    · cases hinit
    · cases hinit; rfl
  have hi := BlockP.init_inv hinit
  subst hp0
  have hhl : (blockHead w track tc flags).length = w + 3 := by
    unfold blockHead
    rw [List.length_append, List.length_append, Par.vint_length, twosBytes_length]; rfl
  rw [List.length_append, hhl] at hsize
  obtain ⟨f1, f2, f3, f4⟩ := flag_facts flags
  -- it is enough to reach the state `done`
  suffices key : ∃ q, BlockP.Runs simple { elem := m }
      (allAtOnce (blockHead w track tc flags ++ (body ++ rest)) pos) q (allAtOnce rest (pos + m.size)) m.size ∧
      q.state = .done ∧ q.value = headerValue simple track frames.length tc flags ∧
      q.log = [.start (headerValue simple track frames.length tc flags)] ++
        frameEvents
          (annBase m (headerValue simple track frames.length tc flags) (m.size - frames.flatten.length))
          (pos + (m.size - frames.flatten.length)) frames by
    obtain ⟨q, q1, q2, q3, q4⟩ := key
    obtain ⟨-, q5⟩ := q1 hi
    refine ⟨{ q with log := q.log ++ [.done q.value] }, ?_, by simp only [q4, q3]⟩
    rw [List.append_assoc, q5]
    have : BlockP.feed simple false q (allAtOnce rest (pos + m.size)) =
        (.okCompleted, { q with log := q.log ++ [.done q.value] }, allAtOnce rest (pos + m.size), 0) :=
      loopFeed_ret (by simp only [BlockP.body, q2])
    rw [this]; rfl
  obtain ⟨hd, d1, d2, d3, d4⟩ := BlockHdr.feed_head (t := 0) (pos := pos) (tc := tc) (flags := flags)
    (post := body ++ rest) h1 h8 htw
  have r1 : BlockP.Runs simple { elem := m } (allAtOnce (blockHead w track tc flags ++ (body ++ rest)) pos)
      (BlockP.afterHeader simple { elem := m } hd (w + 3)) (allAtOnce (body ++ rest) (pos + (w + 3))) (w + 3) := by
    refine BlockP.Runs.pass ?_
    simp only [BlockP.body]
    rw [d1]
    simp [Status.completedOk]
  have hval : ∀ v : BlockVal, v.track = hd.track → v.numFrames = frames.length → v.timecode = hd.timecode →
      v.lacing = lacingOf hd.flags → v.isVisible = (hd.flags &&& 8 == 0) →
      v.isKey = (simple && hd.flags &&& 0x80 != 0) → v.isDiscardable = (simple && hd.flags &&& 1 != 0) →
      v = headerValue simple track frames.length tc flags := by
    intro v a1 a2 a3 a4 a5 a6 a7
    obtain ⟨b1, b2, b3, b4, b5, b6, b7⟩ := v
    simp only at a1 a2 a3 a4 a5 a6 a7
    subst a1 a2 a3 a4 a5 a6 a7
    rw [d4, f1, f2, f3, f4, d2, d3]
    rfl
  have hlac : lacingOf hd.flags = lacingKind flags := by rw [d4, f1]
  rcases hbody with ⟨k, rfl⟩ | ⟨hc1, hc2, hdr, hlaced, rfl⟩
  · -- one frame, no lacing
    have hnone : lacingOf hd.flags = .none := by rw [hlac]; unfold lacingKind; rw [if_pos k]
    have hv := hval (BlockP.afterHeader simple { elem := m } hd (w + 3)).value rfl
      (by simp [BlockP.afterHeader, hnone]) rfl rfl rfl rfl rfl
    have r2 := r1.trans (BlockP.Runs.pass (simple := simple) (s := allAtOnce (body ++ rest) (pos + (w + 3)))
      (p := BlockP.afterHeader simple { elem := m } hd (w + 3))
      (p' := BlockP.afterAction false (BlockP.afterHeader simple { elem := m } hd (w + 3)))
      (s' := allAtOnce (body ++ rest) (pos + (w + 3))) (k := 0)
      (by simp only [BlockP.body, BlockP.afterHeader, hnone, if_true]))
    have hst : (BlockP.afterAction false (BlockP.afterHeader simple { elem := m } hd (w + 3))).state =
        .validatingSize := by
      simp [BlockP.afterAction, BlockP.afterHeader, hnone]
    obtain ⟨q, q1, q2, q3, q4⟩ := BlockP.runs_validate simple (init := []) (last := body)
      (pos := pos + (w + 3)) (rest := rest) hst rfl
      (by intro e; subst e; exact hne rfl) rfl rfl
      (by simp [BlockP.afterAction, BlockP.afterHeader]; omega)
      (by simp only [BlockP.afterAction, BlockP.afterHeader]; omega)
    simp only [List.nil_append, List.flatten_cons, List.flatten_nil, List.append_nil] at q1
    have r3 := r2.trans q1
    rw [show pos + (w + 3) + body.length = pos + m.size by omega,
      show w + 3 + 0 + body.length = m.size by omega] at r3
    refine ⟨q, r3, q2, by rw [q3]; exact hv, ?_⟩
    rw [q4]
    have hlog : (BlockP.afterAction false (BlockP.afterHeader simple { elem := m } hd (w + 3))).log =
        [.start (headerValue simple track 1 tc flags)] := by
      simp only [BlockP.afterAction, hv]; rfl
    rw [hlog]
    have hb : annBase m (headerValue simple track 1 tc flags) (m.size - body.length) =
        m.position + m.headerSize + (w + 3) := by
      unfold annBase
      rw [if_neg (by simp [headerValue])]; omega
    simp only [List.nil_append, List.flatten_cons, List.flatten_nil, List.append_nil, List.length_cons,
      List.length_nil, Nat.zero_add]
    rw [hb, show m.size - body.length = w + 3 by omega]
    simp [BlockP.afterAction, BlockP.afterHeader]
  · -- laced
    obtain ⟨init, last, rfl⟩ : ∃ init last, frames = init ++ [last] :=
      ⟨frames.dropLast, frames.getLast (by intro e; rw [e] at hc1; simp at hc1),
        (List.dropLast_concat_getLast _).symm⟩
    have hlast : last ≠ [] := by
      intro e; subst e; exact hne (by simp)
    have hkz : (flags &&& 6) >>> 1 ≠ 0 := by
      rcases hlaced with h | h | h <;> rw [h.1] <;> decide
    have hnn : lacingOf hd.flags ≠ .none := by
      rw [hlac]; unfold lacingKind; rw [if_neg hkz]; split <;> try split
      all_goals decide
    have hcb : (UInt8.ofNat ((init ++ [last]).length - 1)).toNat + 1 = (init ++ [last]).length := by
      rw [UInt8.toNat_ofNat', Nat.mod_eq_of_lt (by omega)]; omega
    let p1 := BlockP.afterHeader simple { elem := m } hd (w + 3)
    let p2 := p1.afterLaceCount (UInt8.ofNat ((init ++ [last]).length - 1))
    let p3 := p2.afterAction false
    have hv : p3.value = headerValue simple track (init ++ [last]).length tc flags :=
      hval p3.value rfl hcb rfl rfl rfl rfl rfl
    have hhr : p3.hdrRead = w + 3 + 1 := by
      simp only [p3, p2, p1, BlockP.afterAction, BlockP.afterLaceCount, BlockP.afterHeader]; omega
    have hlog : p3.log = [.start (headerValue simple track (init ++ [last]).length tc flags)] := by
      have : p3.log = [.start p3.value] := rfl
      rw [this, hv]
    have r2 : BlockP.Runs simple p1
        (allAtOnce ([UInt8.ofNat ((init ++ [last]).length - 1)] ++ (hdr ++ (init ++ [last]).flatten) ++ rest)
          (pos + (w + 3))) p2
        (allAtOnce (hdr ++ ((init ++ [last]).flatten ++ rest)) (pos + (w + 3) + 1)) 1 := by
      refine BlockP.Runs.pass ?_
      simp only [p2, p1, BlockP.body, BlockP.afterHeader, hnn, if_false]
      rw [List.append_assoc, List.singleton_append, allAtOnce_readByte_cons]
      simp
    have r3 : BlockP.Runs simple p2 (allAtOnce (hdr ++ ((init ++ [last]).flatten ++ rest)) (pos + (w + 3) + 1)) p3
        (allAtOnce (hdr ++ ((init ++ [last]).flatten ++ rest)) (pos + (w + 3) + 1)) 0 := by
      refine BlockP.Runs.pass ?_
      simp only [p3, p2, p1, BlockP.body, BlockP.afterLaceCount]
    have r123 := (r1.trans r2).trans r3
    have hsz : m.size = w + 3 + 1 + hdr.length + (init ++ [last]).flatten.length := by
      rw [hsize, List.singleton_append, List.length_cons, List.length_append (as := hdr)]; omega
    clear hsize
    -- the part that depends on the kind of lacing
    suffices key : ∃ q, BlockP.Runs simple p3
        (allAtOnce (hdr ++ ((init ++ [last]).flatten ++ rest)) (pos + (w + 3) + 1)) q
        (allAtOnce rest (pos + m.size)) (hdr.length + (init ++ [last]).flatten.length) ∧ q.state = .done ∧
        q.value = p3.value ∧ q.log = p3.log ++ frameEvents
          (annBase m p3.value (w + 3 + 1 + hdr.length)) (pos + (w + 3 + 1 + hdr.length)) (init ++ [last]) by
      obtain ⟨q, q1, q2, q3, q4⟩ := key
      have := r123.trans q1
      rw [show w + 3 + 1 + 0 + (hdr.length + (init ++ [last]).flatten.length) = m.size by omega] at this
      refine ⟨q, this, q2, by rw [q3, hv], ?_⟩
      rw [q4, hlog, hv]
      rw [show m.size - (init ++ [last]).flatten.length = w + 3 + 1 + hdr.length by omega]
    have hfl : (init ++ [last]).flatten.length = (init.map List.length).sum + last.length := by
      rw [List.length_flatten]; simp
    have hbound : ∀ n ∈ init.map List.length, n < two64 := by
      intro n hn
      have : n ≤ (init.map List.length).sum := le_sum hn
      omega
    have hnf : p3.value.numFrames = init.length + 1 := by rw [hv]; simp [headerValue]
    have hl3 : p3.value.lacing = lacingKind flags := by rw [hv]; rfl
    have hst3 : p3.state = if p3.value.lacing = .none ∨ p3.value.numFrames = 1 then .validatingSize
      else if p3.value.lacing = .xiph then .readingXiph
      else if p3.value.lacing = .ebml then .readingFirstEbml
      else .calculatingFixed := rfl
    -- after the sizes have been read
    have finish : ∀ p4 : BlockP, p4.state = .validatingSize → p4.laces = init.map List.length → p4.cur = 0 →
        p4.buf = [] → p4.elem = m → p4.hdrRead = w + 3 + 1 + hdr.length → p4.value = p3.value → p4.log = p3.log →
        ¬ (p3.value.lacing = .fixed ∧ p3.value.numFrames ≠ 1) →
        BlockP.Runs simple p3 (allAtOnce (hdr ++ ((init ++ [last]).flatten ++ rest)) (pos + (w + 3) + 1)) p4
          (allAtOnce ((init ++ [last]).flatten ++ rest) (pos + (w + 3) + 1 + hdr.length)) hdr.length →
        ∃ q, BlockP.Runs simple p3
          (allAtOnce (hdr ++ ((init ++ [last]).flatten ++ rest)) (pos + (w + 3) + 1)) q
          (allAtOnce rest (pos + m.size)) (hdr.length + (init ++ [last]).flatten.length) ∧ q.state = .done ∧
          q.value = p3.value ∧ q.log = p3.log ++ frameEvents
            (annBase m p3.value (w + 3 + 1 + hdr.length)) (pos + (w + 3 + 1 + hdr.length)) (init ++ [last]) := by
      intro p4 a1 a2 a3 a4 a5 a6 a7 a8 a9 hr
      obtain ⟨q, q1, q2, q3, q4⟩ := BlockP.runs_validate simple (init := init) (last := last)
        (pos := pos + (w + 3) + 1 + hdr.length) (rest := rest) a1 a2 hlast a3 a4
        (by rw [a5, a6, hsz]) (by rw [a5]; omega)
      have := hr.trans q1
      rw [show pos + (w + 3) + 1 + hdr.length + (init ++ [last]).flatten.length = pos + m.size by omega] at this
      refine ⟨q, this, q2, by rw [q3, a7], ?_⟩
      rw [q4, a8, a5, a6]
      have : annBase m p3.value (w + 3 + 1 + hdr.length) =
          m.position + m.headerSize + (w + 3 + 1 + hdr.length) := by unfold annBase; rw [if_neg a9]
      rw [this, show pos + (w + 3) + 1 + hdr.length = pos + (w + 3 + 1 + hdr.length) by omega]
    by_cases hone : init = []
    · -- a single frame: no sizes stored
      subst hone
      have hdr0 : hdr = [] := by
        rcases hlaced with h | h | h
        · exact h.2
        · exact h.2.1
        · have := h.2; simp at this; cases this
      subst hdr0
      have hst : p3.state = .validatingSize := by rw [hst3, if_pos (.inr (by simp [hnf]))]
      exact finish p3 hst rfl rfl rfl rfl (by simp [hhr]) rfl rfl (by simp [hnf])
        (by simpa using BlockP.Runs.refl simple p3 _)
    have hnf1 : p3.value.numFrames ≠ 1 := by
      rw [hnf]; have := List.length_pos_iff.mpr hone; omega
    have hln : p3.value.lacing ≠ .none := by rw [hl3, ← hlac]; exact hnn
    rw [if_neg (by rintro (h | h); exact hln h; exact hnf1 h)] at hst3
    rcases hlaced with ⟨k, rfl⟩ | ⟨k, rfl, n, hn⟩ | ⟨k, he⟩
    · -- Xiph
      have hx : p3.value.lacing = .xiph := by rw [hl3]; unfold lacingKind; rw [k]; rfl
      rw [if_pos hx] at hst3
      rw [List.dropLast_concat] at finish ⊢
      have s1 := BlockP.runs_xiph simple (init.map List.length) (pos := pos + (w + 3) + 1)
        (rest := (init ++ [last]).flatten ++ rest) hst3
        (by rw [hnf]; simp [p3, p2, p1, BlockP.afterAction, BlockP.afterLaceCount, BlockP.afterHeader]) rfl hbound
      have s2 := s1.trans (BlockP.Runs.pass (simple := simple) (k := 0)
        (p' := { p3 with
            hdrRead := p3.hdrRead + (XiphLace (init.map List.length)).length,
            laces := p3.laces ++ init.map List.length, state := .validatingSize })
        (s' := allAtOnce ((init ++ [last]).flatten ++ rest)
          (pos + (w + 3) + 1 + (XiphLace (init.map List.length)).length)) (by
          simp only [BlockP.body, hst3]
          rw [if_neg (by rw [hnf]; simp)]))
      rw [Nat.add_zero] at s2
      exact finish ({ p3 with
            hdrRead := p3.hdrRead + (XiphLace (init.map List.length)).length,
            laces := p3.laces ++ init.map List.length, state := .validatingSize } : BlockP)
        rfl rfl rfl rfl rfl (by simp only [hhr]) rfl rfl (by rw [hx]; simp) s2
    · -- fixed size
      have hx : p3.value.lacing = .fixed := by rw [hl3]; unfold lacingKind; rw [k]; rfl
      rw [if_neg (by rw [hx]; decide), if_neg (by rw [hx]; decide)] at hst3
      have hn0 : 0 < n := by
        rw [← hn last (by simp)]; exact List.length_pos_iff.mpr hlast
      obtain ⟨q, q1, q2, q3, q4⟩ := BlockP.runs_fixed simple (frames := init ++ [last]) (n := n)
        (pos := pos + (w + 3) + 1) (rest := rest) hst3 hn hn0 (by simp) (by rw [hnf]; simp) rfl rfl
        (by rw [hhr]; show m.size = _; rw [hsz]; simp) (by show m.position + m.size < two64; omega)
      refine ⟨q, ?_, q2, q3, ?_⟩
      · simp only [List.nil_append, List.length_nil, Nat.zero_add]
        rw [show pos + (w + 3) + 1 + (init ++ [last]).flatten.length = pos + m.size by
          rw [hsz]; simp; omega] at q1
        exact q1
      · rw [q4, hhr]
        have : annBase m p3.value (w + 3 + 1 + 0) = m.position + (w + 3 + 1) := by
          unfold annBase; rw [if_pos ⟨hx, hnf1⟩]
        simp only [List.length_nil]
        rw [this]
        rfl
    · -- EBML
      have hx : p3.value.lacing = .ebml := by rw [hl3]; unfold lacingKind; rw [k]; rfl
      rw [if_neg (by rw [hx]; decide), if_pos hx] at hst3
      rw [List.dropLast_concat] at he
      have s1 := BlockP.runs_ebml simple he (pos := pos + (w + 3) + 1)
        (rest := (init ++ [last]).flatten ++ rest) hst3 (by rw [hnf]; simp) rfl rfl hbound
      have s2 := s1.trans (BlockP.Runs.pass (simple := simple) (k := 0)
        (p' := { p3 with
            hdrRead := p3.hdrRead + hdr.length, laces := init.map List.length, state := .validatingSize })
        (s' := allAtOnce ((init ++ [last]).flatten ++ rest) (pos + (w + 3) + 1 + hdr.length)) (by
          simp only [BlockP.body]
          rw [if_neg (by rw [hnf]; simp)]))
      rw [Nat.add_zero] at s2
      exact finish ({ p3 with
            hdrRead := p3.hdrRead + hdr.length, laces := init.map List.length, state := .validatingSize } : BlockP)
        rfl rfl rfl rfl rfl (by simp only [hhr]) rfl rfl (by rw [hx]; simp) s2

/-- C53: any block the format allows (no lacing, or one to 256 frames with Xiph, fixed-size or
EBML lacing and any widths of the variable-length integers; the last frame not empty), delivered
in any pieces, is accepted by the incremental parser with exactly its size consumed.  The
callback is told the header's track number, time code and flags with the number of frames, then
exactly the block's frames in order with their bytes, then the end.  (The announced positions
are those of C16: off by the element header for fixed-size lacing.) -/
theorem C53_block_decoded {simple : Bool} {m : Meta} {w track : Nat} {tc : Int} {flags : UInt8}
    {frames : List Bytes} {body rest : Bytes} {p0 : BlockP} {s : Src} {fuel : Nat}
    (h1 : 1 ≤ w) (h8 : w ≤ 8) (htw : track < 2 ^ (7 * w))
    (hbody : BlockBody ((flags &&& 6) >>> 1) frames body) (hne : frames.getLast? ≠ some [])
    (hinit : BlockP.init m = .ok p0)
    (hbytes : s.bytes = blockHead w track tc flags ++ body ++ rest)
    (hsize : m.size = (blockHead w track tc flags ++ body).length)
    (hpos : s.pos = m.position + m.headerSize) (hmax : s.pos + m.size < 2 ^ 64) (hfuel : s.stalls < fuel) :
    ∃ p s', drive (BlockP.feed simple false) fuel p0 s = (.okCompleted, p, s', m.size) ∧
      s'.bytes = rest ∧ s'.pos = s.pos + m.size ∧
      ∃ ann hdrEnd, p.log = [.start (headerValue simple track frames.length tc flags)] ++
        frameEvents ann hdrEnd frames ++ [.done (headerValue simple track frames.length tc flags)] ∧
      hdrEnd + frames.flatten.length = s.pos + m.size ∧
      (lacingKind flags ≠ .fixed ∨ frames.length = 1 → ann = hdrEnd) ∧
      (lacingKind flags = .fixed ∧ frames.length ≠ 1 → ann + m.headerSize = hdrEnd) := by
  have hsi := scheduleIndependent_of_step (BlockP.feed_step simple false) (BlockP.init_inv hinit)
    s fuel hfuel
  obtain ⟨p, q1, q2⟩ := lace_run (simple := simple) (rest := rest) h1 h8 htw hbody hne hinit hsize hpos hmax
  rw [hbytes, q1] at hsi
  rcases hd : drive (BlockP.feed simple false) fuel p0 s with ⟨st, p', s', k⟩
  rw [hd] at hsi
  simp only [Prod.mk.injEq] at hsi
  obtain ⟨rfl, rfl, hs, rfl⟩ := hsi
  have hfl : frames.flatten.length ≤ m.size := by
    rw [hsize, List.length_append]
    rcases hbody with ⟨-, rfl⟩ | ⟨-, -, hdr, -, rfl⟩
    · simp
    · rw [List.length_append (as := [_]), List.length_append (as := hdr)]; omega
  refine ⟨_, _, rfl, ?_, ?_, _, _, q2, by omega, ?_, ?_⟩
  · have := congrArg Src.bytes hs
    rw [allAtOnce_bytes] at this
    rw [this]
    simp
  · have := congrArg Src.pos hs
    simpa using this.symm
  · intro h
    have hn : ¬ (lacingKind flags = .fixed ∧ frames.length ≠ 1) := by
      rintro ⟨a, b⟩; rcases h with h | h; exact h a; exact b h
    unfold annBase
    rw [if_neg (by simpa [headerValue] using hn), hpos]
  · intro h
    unfold annBase
    rw [if_pos (by simpa [headerValue] using h), hpos]
    omega

/-- C53: a size that cannot hold a block header and one byte, or an unknown size, is refused at
once. -/
theorem C53_short_block_refused {m : Meta} (h : m.size < 5 ∨ m.size = 2 ^ 64 - 1) :
    BlockP.init m = .error .invalidElementSize := by
  unfold BlockP.init kUnknownElementSize
  rw [if_pos (by omega)]

/-- An EBML-laced block of three frames, in two pieces. -/
example : BlockBody (((0x86 : UInt8) &&& 6) >>> 1) [[1, 2], [1, 2, 3, 4, 5], [6]]
    [2, 0x82, 0x60, 0x02, 1, 2, 1, 2, 3, 4, 5, 6] :=
  .inr ⟨by decide, by decide, [0x82, 0x60, 0x02], Or.inr (Or.inr ⟨by decide,
    EbmlLace.mk (first := 2) (rest := [5]) (w := 1) (by decide) (by decide) (by decide)
      (EbmlDeltas.cons (w := 2) (v := 8194) (bs := []) (by decide) (by decide) (by decide) (by decide)
        (EbmlDeltas.nil _))⟩), by decide⟩

example :
    (match drive (BlockP.feed true false) 2 { elem := ⟨0xA3, 2, 16, 100⟩ }
      ⟨[some 0x81, some 0, some 5, some 0x86, some 2, some 0x82, some 0x60, none, some 0x02, some 1, some 2,
        some 1, some 2, some 3, some 4, some 5, some 6], 102⟩ with
    | (st, p, s', k) => (st, p.log, s', k)) =
    (.okCompleted,
      [.start ⟨1, 3, 5, .ebml, true, true, false⟩, .frame 110 2 110 [1, 2], .frame 112 5 112 [1, 2, 3, 4, 5],
        .frame 117 1 117 [6], .done ⟨1, 3, 5, .ebml, true, true, false⟩], ⟨[], 118⟩, 16) := by
  decide +kernel

end Verif.Props
