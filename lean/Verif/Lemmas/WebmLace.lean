/-
The incremental block parser run forwards over a well-formed laced block, all data available.
-/
import Verif.Lemmas.WebmBlockTrace
import Verif.Lemmas.Scalars

namespace Verif.Web
open Verif Verif.Spec

/-- One or more passes of the block parser's loop, from `p` on `s` to `p'` on `s'`. -/
def BlockP.Runs (simple : Bool) (p : BlockP) (s : Src) (p' : BlockP) (s' : Src) (k : Nat) : Prop :=
  p.Inv → p'.Inv ∧ BlockP.feed simple false p s = addN k (BlockP.feed simple false p' s')

theorem BlockP.Runs.refl (simple : Bool) (p : BlockP) (s : Src) : BlockP.Runs simple p s p s 0 :=
  fun h => ⟨h, by simp⟩

theorem BlockP.Runs.trans {simple : Bool} {p p' p'' : BlockP} {s s' s'' : Src} {k l : Nat}
    (h : BlockP.Runs simple p s p' s' k) (g : BlockP.Runs simple p' s' p'' s'' l) :
    BlockP.Runs simple p s p'' s'' (k + l) := by
  intro hi
  obtain ⟨h1, h2⟩ := h hi
  obtain ⟨g1, g2⟩ := g h1
  exact ⟨g1, by rw [h2, g2, addN_addN]⟩

theorem BlockP.Runs.pass {simple : Bool} {p p' : BlockP} {s s' : Src} {k : Nat}
    (h : BlockP.body simple false p s = (none, p', s', k)) : BlockP.Runs simple p s p' s' k := by
  intro hi
  exact ⟨BlockP.inv_next simple false p s p' s' k hi h,
    loopFeed_cont h (BlockP.decreasing simple false p s p' s' k hi h)⟩

/-- The block header parser on a block header. -/
theorem BlockHdr.feed_head {w track t pos : Nat} {tc : Int} {flags : UInt8} {post : Bytes}
    (h1 : 1 ≤ w) (h8 : w ≤ 8) (htw : track < 2 ^ (7 * w)) :
    ∃ h : BlockHdr, BlockHdr.feed { timecode := t } (allAtOnce (blockHead w track tc flags ++ post) pos) =
      (.okCompleted, h, allAtOnce post (pos + (w + 3)), w + 3) ∧ h.track = track ∧
      h.timecode = beVal (twosBytes 2 tc) ∧ h.flags = flags.toNat := by
  have hl := twosBytes_length 2 tc
  rcases hb : twosBytes 2 tc with _ | ⟨b1, _ | ⟨b2, _ | ⟨b3, l⟩⟩⟩ <;> rw [hb] at hl <;> try (simp at hl; done)
  have key : accumLoop 16 2 t (allAtOnce (b1 :: b2 :: flags :: post) (pos + w)) =
      (.okCompleted, beVal [b1, b2], allAtOnce (flags :: post) (pos + w + 2), 2) := by
    rw [accumLoop_allAtOnce]
    have e : List.foldl (fun a (b : UInt8) => ((a <<< 8) ||| b.toNat) % 2 ^ 16) t
        ((b1 :: b2 :: flags :: post).take 2) = beVal [b1, b2] := by
      simp only [List.take_succ_cons, List.take_zero, List.foldl_cons, List.foldl_nil, shl8_or]
      have := b1.toNat_lt
      have := b2.toNat_lt
      simp only [beVal, List.length_cons, List.length_nil]
      omega
    rw [e]
    simp
  refine ⟨⟨.done, ⟨some 0, w - 1, track⟩, 0, track, beVal [b1, b2], flags.toNat⟩, ?_, rfl, rfl, rfl⟩
  · unfold BlockHdr.feed BlockHdr.feedTrack
    simp only
    rw [show blockHead w track tc flags ++ post = vint w track ++ (b1 :: b2 :: flags :: post) by
      unfold blockHead; rw [hb]; simp]
    rw [VarInt.feed_vint h1 h8 htw]
    simp only [Status.completedOk, beq_self_eq_true, if_true]
    unfold BlockHdr.feedTimecode
    simp only
    rw [accumulate16_eq (by omega), key]
    simp only [Status.completedOk, beq_self_eq_true, if_true]
    unfold BlockHdr.feedFlags
    rw [allAtOnce_readByte_cons]
    simp only
    rw [show pos + w + 2 + 1 = pos + (w + 3) by omega, show w + (2 + 1) = w + 3 by omega]

/-! ### Lace sizes -/

/-- One Xiph size. -/
theorem BlockP.runs_xiph1 (simple : Bool) (q : Nat) {r pos : Nat} (hr : r < 255) {rest : Bytes} {p : BlockP}
    (hs : p.state = .readingXiph) (hl : p.laces.length < p.value.numFrames - 1)
    (hx : p.xiph + 255 * q + r < two64) :
    BlockP.Runs simple p (allAtOnce (List.replicate q 255 ++ (UInt8.ofNat r :: rest)) pos)
      { p with hdrRead := p.hdrRead + (q + 1), laces := p.laces ++ [p.xiph + 255 * q + r], xiph := 0 }
      (allAtOnce rest (pos + (q + 1))) (q + 1) := by
  induction q generalizing p pos with
  | zero =>
    refine BlockP.Runs.pass ?_
    have e : (UInt8.ofNat r).toNat = r := by rw [UInt8.toNat_ofNat']; omega
    have hne : UInt8.ofNat r ≠ 255 := by
      intro h; have := congrArg UInt8.toNat h; rw [e] at this; simp at this; omega
    simp only [BlockP.body, hs, if_pos hl, List.replicate_zero, List.nil_append, allAtOnce_readByte_cons,
      BlockP.xiphByte, if_neg hne, e]
    rw [Nat.mod_eq_of_lt (by omega)]
    simp
  | succ q ih =>
    have h1 : BlockP.Runs simple p (allAtOnce (List.replicate (q + 1) 255 ++ (UInt8.ofNat r :: rest)) pos)
        { p with hdrRead := p.hdrRead + 1, xiph := p.xiph + 255 }
        (allAtOnce (List.replicate q 255 ++ (UInt8.ofNat r :: rest)) (pos + 1)) 1 := by
      refine BlockP.Runs.pass ?_
      simp only [BlockP.body, hs, if_pos hl, List.replicate_succ, List.cons_append, allAtOnce_readByte_cons,
        BlockP.xiphByte, if_true]
      rw [show (255 : UInt8).toNat = 255 from rfl, Nat.mod_eq_of_lt (by omega)]
    have h2 := ih (pos := pos + 1) (p := { p with hdrRead := p.hdrRead + 1, xiph := p.xiph + 255 }) hs hl
      (by simp only; omega)
    have h3 := h1.trans h2
    simp only at h3
    rw [show 1 + (q + 1) = q + 1 + 1 by omega, show pos + 1 + (q + 1) = pos + (q + 1 + 1) by omega,
      show p.hdrRead + 1 + (q + 1) = p.hdrRead + (q + 1 + 1) by omega,
      show p.xiph + 255 + 255 * q + r = p.xiph + 255 * (q + 1) + r by omega] at h3
    exact h3

/-- All Xiph sizes. -/
theorem BlockP.runs_xiph (simple : Bool) (sizes : List Nat) {pos : Nat} {rest : Bytes} {p : BlockP}
    (hs : p.state = .readingXiph) (hl : p.laces.length + sizes.length ≤ p.value.numFrames - 1)
    (hx : p.xiph = 0) (hb : ∀ n ∈ sizes, n < two64) :
    BlockP.Runs simple p (allAtOnce (XiphLace sizes ++ rest) pos)
      { p with hdrRead := p.hdrRead + (XiphLace sizes).length, laces := p.laces ++ sizes }
      (allAtOnce rest (pos + (XiphLace sizes).length)) (XiphLace sizes).length := by
  induction sizes generalizing p pos with
  | nil => simpa [XiphLace] using BlockP.Runs.refl simple p _
  | cons n ns ih =>
    have hn : n / 255 * 255 + n % 255 = n := by omega
    have h1 := BlockP.runs_xiph1 simple (n / 255) (r := n % 255) (pos := pos) (by omega)
      (rest := XiphLace ns ++ rest) hs (by simp only [List.length_cons] at hl; omega)
      (by have := hb n (by simp); omega)
    rw [show p.xiph + 255 * (n / 255) + n % 255 = n by omega] at h1
    have h2 := ih (pos := pos + (n / 255 + 1))
      (p := { p with hdrRead := p.hdrRead + (n / 255 + 1), laces := p.laces ++ [n], xiph := 0 }) hs
      (by simp only [List.length_append, List.length_cons, List.length_nil] at hl ⊢; omega) rfl
      (fun m hm => hb m (by simp [hm]))
    have h3 := h1.trans h2
    have hlen : (XiphLace (n :: ns)).length = n / 255 + 1 + (XiphLace ns).length := by
      have : XiphLace (n :: ns) = xiphSizeBytes n ++ XiphLace ns := rfl
      rw [this, List.length_append]
      simp [xiphSizeBytes]
    have hbytes : XiphLace (n :: ns) ++ rest =
        List.replicate (n / 255) 255 ++ (UInt8.ofNat (n % 255) :: (XiphLace ns ++ rest)) := by
      simp [XiphLace, xiphSizeBytes]
    rw [hlen, hbytes, show pos + (n / 255 + 1 + (XiphLace ns).length) = pos + (n / 255 + 1) + (XiphLace ns).length by omega,
      show p.hdrRead + (n / 255 + 1 + (XiphLace ns).length) = p.hdrRead + (n / 255 + 1) + (XiphLace ns).length by omega]
    simpa [hx] using h3

/-- All EBML size differences. -/
theorem BlockP.runs_deltas (simple : Bool) {prev : Nat} {sizes : List Nat} {bs : Bytes}
    (he : EbmlDeltas prev sizes bs) {pos : Nat} {rest : Bytes} {p : BlockP}
    (hs : p.state = .readingEbml) (hl : p.laces.length + sizes.length ≤ p.value.numFrames - 1)
    (hlast : p.laces.getLast? = some prev) (hu : p.uint = {})
    (hb : ∀ n ∈ sizes, n < two64) :
    BlockP.Runs simple p (allAtOnce (bs ++ rest) pos)
      { p with hdrRead := p.hdrRead + bs.length, laces := p.laces ++ sizes }
      (allAtOnce rest (pos + bs.length)) bs.length := by
  induction he generalizing p pos with
  | nil => simpa using BlockP.Runs.refl simple p _
  | @cons prev size ns bs w v h1 h8 hv hd hr ih =>
    have hsz := hb size (by simp)
    have hval : (prev + v + (two64 - (2 ^ ((w - 1 + 1) * 7 - 1) - 1))) % two64 = size := by
      rw [show (w - 1 + 1) * 7 - 1 = 7 * w - 1 by omega]
      have hp : (1 : Nat) ≤ 2 ^ (7 * w - 1) := Nat.one_le_two_pow
      have hp2 : (2 : Nat) ^ (7 * w - 1) ≤ 2 ^ 55 := Nat.pow_le_pow_right (by decide) (by omega)
      have hd' : (prev : Int) + v = size + ((2 ^ (7 * w - 1) : Nat) - 1 : Int) := by
        rw [show ((2 ^ (7 * w - 1) : Nat) : Int) = (2 : Int) ^ (7 * w - 1) by simp]; omega
      generalize (2 : Nat) ^ (7 * w - 1) = X at hp hp2 hd'
      have : (2 : Nat) ^ 55 = 36028797018963968 := by decide
      rw [this] at hp2
      unfold two64 at *
      have e64 : (2 : Nat) ^ 64 = 18446744073709551616 := by decide
      rw [e64] at *
      omega
    have h1' : BlockP.Runs simple p (allAtOnce (vint w v ++ (bs ++ rest)) pos)
        { p with hdrRead := p.hdrRead + w, laces := p.laces ++ [size] }
        (allAtOnce (bs ++ rest) (pos + w)) w := by
      refine BlockP.Runs.pass ?_
      have hlt : p.laces.length < p.value.numFrames - 1 := by
        simp only [List.length_cons] at hl; omega
      simp only [BlockP.body, hs, if_pos hlt, hu, VarInt.feed_vint h1 h8 hv, Status.completedOk,
        beq_self_eq_true, if_true, BlockP.nextEbml, VarInt.encodedLength, hlast, Option.getD_some, hval]
    have h2 := ih (pos := pos + w) (p := { p with hdrRead := p.hdrRead + w, laces := p.laces ++ [size] })
      hs (by simp only [List.length_append, List.length_cons, List.length_nil] at hl ⊢; omega)
      (by simp) hu (fun m hm => hb m (by simp [hm]))
    have h3 := h1'.trans h2
    have hlen : (vint w v ++ bs).length = w + bs.length := by rw [List.length_append, Par.vint_length]
    rw [hlen, List.append_assoc, ← Nat.add_assoc, ← Nat.add_assoc]
    simpa using h3

/-- The EBML sizes, first and further ones. -/
theorem BlockP.runs_ebml (simple : Bool) {sizes : List Nat} {bs : Bytes}
    (he : EbmlLace sizes bs) {pos : Nat} {rest : Bytes} {p : BlockP}
    (hs : p.state = .readingFirstEbml) (hl : sizes.length ≤ p.value.numFrames - 1)
    (hlaces : p.laces = []) (hu : p.uint = {}) (hb : ∀ n ∈ sizes, n < two64) :
    BlockP.Runs simple p (allAtOnce (bs ++ rest) pos)
      { p with hdrRead := p.hdrRead + bs.length, laces := sizes, state := .readingEbml }
      (allAtOnce rest (pos + bs.length)) bs.length := by
  cases he with
  | @mk first ns bs w h1 h8 hv hr =>
    have h1' : BlockP.Runs simple p (allAtOnce (vint w first ++ (bs ++ rest)) pos)
        { p with hdrRead := p.hdrRead + w, laces := [first], state := .readingEbml }
        (allAtOnce (bs ++ rest) (pos + w)) w := by
      refine BlockP.Runs.pass ?_
      simp only [BlockP.body, hs, hu, VarInt.feed_vint h1 h8 hv, Status.completedOk,
        beq_self_eq_true, if_true, BlockP.firstEbml, hlaces, List.nil_append]
    have h2 := BlockP.runs_deltas simple hr (pos := pos + w) (rest := rest)
      (p := { p with hdrRead := p.hdrRead + w, laces := [first], state := .readingEbml })
      rfl (by simp only [List.length_cons, List.length_nil] at hl ⊢; omega)
      (by simp) hu (fun m hm => hb m (by simp [hm]))
    have h3 := h1'.trans h2
    have hlen : (vint w first ++ bs).length = w + bs.length := by rw [List.length_append, Par.vint_length]
    rw [hlen, List.append_assoc, ← Nat.add_assoc, ← Nat.add_assoc]
    simpa using h3

/-! ### Frames -/

/-- The remaining frames, and the end. -/
theorem BlockP.runs_frames (simple : Bool) (ds : List Bytes) {d : Bytes} {done : List Nat} {pos : Nat}
    {rest : Bytes} {p : BlockP}
    (hs : p.state = .readingFrames) (hl : p.laces = done ++ d.length :: ds.map List.length)
    (hc : p.cur = done.length) (hf : p.frameSize = d.length) (hb : p.buf = [])
    (hm : p.framePos + (d ++ ds.flatten).length < two64) :
    ∃ q, BlockP.Runs simple p (allAtOnce (d ++ ds.flatten ++ rest) pos) q
        (allAtOnce rest (pos + (d ++ ds.flatten).length)) (d ++ ds.flatten).length ∧ q.state = .done ∧
      q.value = p.value ∧ q.log = p.log ++ frameEvents p.framePos pos (d :: ds) := by
  induction ds generalizing p pos d done with
  | nil =>
    have hcl : p.cur < p.laces.length := by rw [hl, hc]; simp
    have hof : onFrame p.frameSize p.buf (allAtOnce (d ++ rest) pos) =
        (.okCompleted, d, allAtOnce rest (pos + d.length), d.length) := by
      rw [hf, hb]
      unfold onFrame
      by_cases h0 : ([] : Bytes).length = d.length
      · rw [if_pos h0]
        have : d = [] := List.eq_nil_of_length_eq_zero (by simpa using h0.symm)
        subst this; simp
      · rw [if_neg h0, byteLoop_all _ _ _ _ _ (by simp at h0 ⊢; omega) (by omega)]
        simp
    have hp1 : BlockP.Runs simple p (allAtOnce (d ++ rest) pos) (p.frameDone d (pos + d.length))
        (allAtOnce rest (pos + d.length)) d.length := by
      refine BlockP.Runs.pass ?_
      simp only [BlockP.body, hs, if_pos hcl, hof, Status.completedOk, beq_self_eq_true, if_true,
        allAtOnce_pos]
    have hfd : p.frameDone d (pos + d.length) = 
        { p with log := p.log ++ [BlockEv.frame p.framePos p.frameSize pos d], buf := [], cur := p.cur + 1 } := by
      unfold BlockP.frameDone
      have : ¬ p.cur + 1 < p.laces.length := by rw [hl, hc]; simp
      simp only [if_neg this, Nat.add_sub_cancel]
    rw [hfd] at hp1
    have hp2 := hp1.trans (BlockP.Runs.pass (simple := simple) (s := allAtOnce rest (pos + d.length))
      (p' := { p with
        log := p.log ++ [BlockEv.frame p.framePos p.frameSize pos d], buf := [], cur := p.cur + 1
        state := .done }) (k := 0) (s' := allAtOnce rest (pos + d.length)) (by
        have : ¬ p.cur + 1 < p.laces.length := by rw [hl, hc]; simp
        simp only [BlockP.body, hs, if_neg this]))
    refine ⟨{ p with
        log := p.log ++ [BlockEv.frame p.framePos p.frameSize pos d], buf := [], cur := p.cur + 1
        state := .done }, by simpa using hp2, rfl, rfl, ?_⟩
    simp [frameEvents, hf]
  | cons d2 ds ih =>
    have hcl : p.cur < p.laces.length := by rw [hl, hc]; simp
    have hcl2 : p.cur + 1 < p.laces.length := by rw [hl, hc]; simp
    have hof : onFrame p.frameSize p.buf (allAtOnce (d ++ (d2 ++ ds.flatten ++ rest)) pos) =
        (.okCompleted, d, allAtOnce (d2 ++ ds.flatten ++ rest) (pos + d.length), d.length) := by
      rw [hf, hb]
      unfold onFrame
      by_cases h0 : ([] : Bytes).length = d.length
      · rw [if_pos h0]
        have : d = [] := List.eq_nil_of_length_eq_zero (by simpa using h0.symm)
        subst this; simp
      · rw [if_neg h0, byteLoop_all _ _ _ _ _ (by simp at h0 ⊢; omega) (by omega)]
        simp
    have hp1 : BlockP.Runs simple p (allAtOnce (d ++ (d2 ++ ds.flatten ++ rest)) pos) (p.frameDone d (pos + d.length))
        (allAtOnce (d2 ++ ds.flatten ++ rest) (pos + d.length)) d.length := by
      refine BlockP.Runs.pass ?_
      simp only [BlockP.body, hs, if_pos hcl, hof, Status.completedOk, beq_self_eq_true, if_true,
        allAtOnce_pos]
    have hnext : p.laces[p.cur + 1]?.getD 0 = d2.length := by
      rw [hl, hc, List.getElem?_append_right (by omega)]
      simp
    simp only [List.length_append, List.flatten_cons] at hm
    have hfd : p.frameDone d (pos + d.length) = 
        { p with log := p.log ++ [BlockEv.frame p.framePos p.frameSize pos d], buf := [], cur := p.cur + 1,
                 framePos := p.framePos + d.length, frameSize := d2.length } := by
      unfold BlockP.frameDone
      simp only [if_pos hcl2, Nat.add_sub_cancel, hnext]
      rw [hf, Nat.mod_eq_of_lt (by omega)]
    rw [hfd] at hp1
    obtain ⟨q, q1, q2, q3, q4⟩ := ih (d := d2) (done := done ++ [d.length]) (pos := pos + d.length)
      (p := { p with log := p.log ++ [BlockEv.frame p.framePos p.frameSize pos d], buf := [], cur := p.cur + 1,
                     framePos := p.framePos + d.length, frameSize := d2.length })
      hs (by simp [hl]) (by simp [hc]) rfl rfl (by simp only [List.length_append]; omega)
    have hp2 := hp1.trans q1
    refine ⟨q, ?_, q2, q3, ?_⟩
    · simpa [Nat.add_assoc] using hp2
    · simp only at q4
      rw [q4]
      simp [frameEvents, hf]

/-- The final check and the frames: `sizes` have been read, `last` is implied. -/
theorem BlockP.runs_validate (simple : Bool) {init : List Bytes} {last : Bytes} {pos : Nat} {rest : Bytes}
    {p : BlockP} (hs : p.state = .validatingSize) (hl : p.laces = init.map List.length)
    (hne : last ≠ []) (hc : p.cur = 0) (hb : p.buf = [])
    (hsize : p.elem.size = p.hdrRead + (init ++ [last]).flatten.length)
    (hm : p.elem.position + p.elem.headerSize + p.elem.size < two64) :
    ∃ q, BlockP.Runs simple p (allAtOnce ((init ++ [last]).flatten ++ rest) pos) q
        (allAtOnce rest (pos + (init ++ [last]).flatten.length)) (init ++ [last]).flatten.length ∧
      q.state = .done ∧ q.value = p.value ∧
      q.log = p.log ++ frameEvents (p.elem.position + p.elem.headerSize + p.hdrRead) pos (init ++ [last]) := by
  have hpos : 0 < last.length := List.length_pos_iff.mpr hne
  have hfl : (init ++ [last]).flatten.length = (init.map List.length).sum + last.length := by
    rw [List.length_flatten]; simp
  have hsum : p.laces.foldl (fun a x => (a + x) % two64) p.hdrRead = p.hdrRead + p.laces.sum := by
    have hlt : p.hdrRead + p.laces.sum < two64 := by rw [hl]; omega
    clear hl hsize hfl
    generalize p.hdrRead = a at hlt
    generalize p.laces = l at hlt
    induction l generalizing a with
    | nil => simp
    | cons x xs ih =>
      rw [List.sum_cons] at hlt
      rw [List.foldl_cons, Nat.mod_eq_of_lt (by omega), ih _ (by omega), List.sum_cons]; omega
  have hv : p.validate = some { p with
      laces := (init ++ [last]).map List.length
      framePos := p.elem.position + p.elem.headerSize + p.hdrRead
      frameSize := ((init ++ [last]).map List.length).head?.getD 0
      state := .readingFrames } := by
    unfold BlockP.validate
    simp only [hsum]
    have e : p.elem.size - (p.hdrRead + p.laces.sum) = last.length := by rw [hl]; omega
    rw [if_neg (by rw [hl]; omega), Nat.mod_eq_of_lt (by omega), e, hl]
    simp
  have h1 : BlockP.Runs simple p (allAtOnce ((init ++ [last]).flatten ++ rest) pos) _ _ 0 :=
    BlockP.Runs.pass (by simp only [BlockP.body, hs, hv]; rfl)
  cases hi : init ++ [last] with
  | nil => simp at hi
  | cons d ds =>
    rw [hi] at h1
    obtain ⟨q, q1, q2, q3, q4⟩ := BlockP.runs_frames simple ds (d := d) (done := []) (pos := pos) (rest := rest)
      (p := { p with
      laces := (d :: ds).map List.length
      framePos := p.elem.position + p.elem.headerSize + p.hdrRead
      frameSize := ((d :: ds).map List.length).head?.getD 0
      state := .readingFrames }) rfl (by simp) (by simp [hc]) (by simp) hb (by
        have : (d ++ ds.flatten).length = (init ++ [last]).flatten.length := by rw [hi]; rfl
        simp only; omega)
    refine ⟨q, ?_, q2, q3, q4⟩
    have := h1.trans q1
    rw [Nat.zero_add] at this
    exact this

/-- Fixed-size laces. -/
theorem BlockP.runs_fixed (simple : Bool) {frames : List Bytes} {n pos : Nat} {rest : Bytes}
    {p : BlockP} (hs : p.state = .calculatingFixed) (hn : ∀ f ∈ frames, f.length = n) (hn0 : 0 < n)
    (hne : frames ≠ []) (hcount : p.value.numFrames = frames.length) (hc : p.cur = 0) (hb : p.buf = [])
    (hsize : p.elem.size = p.hdrRead + frames.flatten.length)
    (hm : p.elem.position + p.elem.size < two64) :
    ∃ q, BlockP.Runs simple p (allAtOnce (frames.flatten ++ rest) pos) q
        (allAtOnce rest (pos + frames.flatten.length)) frames.flatten.length ∧
      q.state = .done ∧ q.value = p.value ∧
      q.log = p.log ++ frameEvents (p.elem.position + p.hdrRead) pos frames := by
  have hrep : frames.map List.length = List.replicate frames.length n := by
    rw [List.eq_replicate_iff]
    refine ⟨by simp, ?_⟩
    intro b hb
    obtain ⟨f, hf, rfl⟩ := List.mem_map.mp hb
    exact hn f hf
  have hfl : frames.flatten.length = frames.length * n := by
    rw [List.length_flatten, hrep]; simp
  have hlen : 0 < frames.length := List.length_pos_iff.mpr hne
  have hpos : 0 < frames.length * n := Nat.mul_pos hlen hn0
  have hv : p.fixedLaces = some { p with
      laces := frames.map List.length
      framePos := p.elem.position + p.hdrRead
      frameSize := n
      state := .readingFrames } := by
    unfold BlockP.fixedLaces
    have e : p.elem.size - p.hdrRead = frames.length * n := by omega
    simp only [e, hcount]
    rw [if_neg (by omega), if_neg (by simp), Nat.mul_div_cancel_left _ hlen, ← hrep,
      Nat.mod_eq_of_lt (by omega)]
  have h1 : BlockP.Runs simple p (allAtOnce (frames.flatten ++ rest) pos) _ _ 0 :=
    BlockP.Runs.pass (by simp only [BlockP.body, hs, hv]; rfl)
  cases hi : frames with
  | nil => exact absurd hi hne
  | cons d ds =>
    rw [hi] at h1
    obtain ⟨q, q1, q2, q3, q4⟩ := BlockP.runs_frames simple ds (d := d) (done := []) (pos := pos) (rest := rest)
      (p := { p with
      laces := (d :: ds).map List.length
      framePos := p.elem.position + p.hdrRead
      frameSize := n
      state := .readingFrames }) rfl (by simp) (by simp [hc]) (by simp [hn d (by simp [hi])]) hb (by
        have : (d ++ ds.flatten).length = frames.flatten.length := by rw [hi]; rfl
        simp only; omega)
    refine ⟨q, ?_, q2, q3, q4⟩
    have := h1.trans q1
    rw [Nat.zero_add] at this
    exact this

end Verif.Web
