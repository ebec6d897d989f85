/-
Lemmas about mkvparser's block parsing.
-/
import Verif.Model.ParserBlock
import Verif.Lemmas.ParserPrims
import Verif.Lemmas.Scalars
import Verif.Spec.Blocks

namespace Verif.Par
open Verif Spec

def spans (fs : List BFrame) : List (Nat × Nat) := fs.map fun f => (f.pos, f.len)

theorem layFrames_sound {stop : Nat} {sizes : List Nat} {pos : Nat} {fs : List BFrame} {p : Nat}
    (h : layFrames stop sizes pos = .ok (fs, p)) (hpos : ∀ n ∈ sizes, 0 < n) :
    Tiles (spans fs) pos p ∧ fs.length = sizes.length ∧ fs.map BFrame.len = sizes ∧
      p = pos + sizes.sum := by
  induction sizes generalizing pos fs p with
  | nil =>
    simp only [layFrames, Res.ok.injEq, Prod.mk.injEq] at h
    obtain ⟨rfl, rfl⟩ := h
    simp [spans, Tiles]
  | cons n ns ih =>
    simp only [layFrames, Res.bind_eq_ok, Res.refuse_eq_ok, Prod.exists, Res.ok.injEq,
      Prod.mk.injEq] at h
    obtain ⟨-, -, fs', p', h1, rfl, rfl⟩ := h
    obtain ⟨g1, g2, g3, g4⟩ := ih h1 (fun m hm => hpos m (List.mem_cons_of_mem _ hm))
    refine ⟨⟨rfl, hpos n (List.mem_cons_self ..), g1⟩, by simp [g2], by simp [g3], ?_⟩
    rw [g4, List.sum_cons]; omega

theorem finishLace_sound {stop : Nat} {sizes : List Nat} {pos : Nat} {fs : List BFrame}
    (h : finishLace stop sizes pos = .ok fs) (hpos : ∀ n ∈ sizes, 0 < n) :
    Tiles (spans fs) pos stop ∧ fs.length = sizes.length := by
  simp only [finishLace, Res.bind_eq_ok, Res.refuse_eq_ok, Prod.exists, Res.ok.injEq] at h
  obtain ⟨fs', p, h1, -, hp, rfl⟩ := h
  have : p = stop := Classical.not_not.mp hp
  subst this
  obtain ⟨g1, g2, -⟩ := layFrames_sound h1 hpos
  exact ⟨g1, g2⟩

theorem xiphSize_le {r : Rdr} {f pos acc sz pos' : Nat}
    (h : xiphSize r f pos acc = .ok (sz, pos')) : pos < pos' := by
  induction f generalizing pos acc with
  | zero => cases h
  | succ f ih =>
    simp only [xiphSize, Res.bind_eq_ok] at h
    obtain ⟨v, -, h⟩ := h
    split at h
    · simp only [Res.ok.injEq, Prod.mk.injEq] at h; omega
    · have := ih h; omega

theorem xiphSizes_sound {r : Rdr} {stop n pos pos' : Nat} {szs : List Nat}
    (h : xiphSizes r stop n pos = .ok (szs, pos')) :
    szs.length = n ∧ (∀ m ∈ szs, 0 < m) ∧ pos ≤ pos' := by
  induction n generalizing pos szs pos' with
  | zero =>
    simp only [xiphSizes, Res.ok.injEq, Prod.mk.injEq] at h
    obtain ⟨rfl, rfl⟩ := h
    simp
  | succ n ih =>
    simp only [xiphSizes, Res.bind_eq_ok, Res.refuse_eq_ok, Prod.exists, Res.ok.injEq,
      Prod.mk.injEq] at h
    obtain ⟨sz, p, h1, -, h2, l, q, h3, rfl, rfl⟩ := h
    obtain ⟨g1, g2, g3⟩ := ih h3
    have := xiphSize_le h1
    refine ⟨by simp [g1], ?_, by omega⟩
    intro m hm
    rcases List.mem_cons.mp hm with rfl | hm
    · omega
    · exact g2 m hm

theorem lastSize_sound {stop pos size last : Nat} (h : lastSize stop pos size = .ok last) :
    0 < last ∧ pos ≤ stop := by
  simp only [lastSize, Res.bind_eq_ok, Res.refuse_eq_ok, Res.ok.injEq] at h
  obtain ⟨-, h1, -, h2, -, h3, rfl⟩ := h
  omega

theorem xiphLace_sound {r : Rdr} {stop count pos : Nat} {fs : List BFrame} (hc : 1 ≤ count)
    (h : xiphLace r stop count pos = .ok fs) :
    ∃ first, pos ≤ first ∧ Tiles (spans fs) first stop ∧ fs.length = count := by
  simp only [xiphLace, Res.bind_eq_ok, Prod.exists] at h
  obtain ⟨szs, p, h1, last, h2, h3⟩ := h
  obtain ⟨g1, g2, g3⟩ := xiphSizes_sound h1
  obtain ⟨k1, k2⟩ := lastSize_sound h2
  obtain ⟨t1, t2⟩ := finishLace_sound h3 (by
    intro n hn
    rcases List.mem_append.mp hn with hn | hn
    · exact g2 n hn
    · simp at hn; omega)
  refine ⟨p, g3, t1, ?_⟩
  rw [t2, List.length_append, g1]; simp; omega

theorem fixedLace_sound {stop count pos : Nat} {fs : List BFrame}
    (h : fixedLace stop count pos = .ok fs) :
    Tiles (spans fs) pos stop ∧ fs.length = count := by
  simp only [fixedLace, Res.bind_eq_ok, Res.refuse_eq_ok] at h
  obtain ⟨-, h1, -, h2, -, h3, h4⟩ := h
  obtain ⟨t1, t2⟩ := finishLace_sound h4 (by
    intro n hn
    have := List.eq_of_mem_replicate hn
    omega)
  exact ⟨t1, by simpa using t2⟩

theorem ebmlSizes_sound {r : Rdr} {stop n pos fsz size pos' total : Nat} {szs : List Nat}
    (h : ebmlSizes r stop n pos fsz size = .ok (szs, pos', total)) :
    szs.length = n ∧ (∀ m ∈ szs, 0 < m) ∧ pos ≤ pos' ∧ total = size + szs.sum := by
  induction n generalizing pos fsz size szs pos' total with
  | zero =>
    simp only [ebmlSizes, Res.ok.injEq, Prod.mk.injEq] at h
    obtain ⟨rfl, rfl, rfl⟩ := h
    simp
  | succ n ih =>
    simp only [ebmlSizes, Res.bind_eq_ok, Res.refuse_eq_ok, Prod.exists, Res.ok.injEq,
      Prod.mk.injEq, Res.orErr_eq_ok] at h
    obtain ⟨-, -, d, l, -, -, h2, -, h3, -, -, -, -, l', q, t, h4, rfl, rfl, rfl⟩ := h
    obtain ⟨g1, g2, g3, g4⟩ := ih h4
    refine ⟨by simp [g1], ?_, by omega, ?_⟩
    · intro m hm
      rcases List.mem_cons.mp hm with rfl | hm
      · omega
      · exact g2 m hm
    · rw [g4, List.sum_cons]; omega

theorem ebmlLace_sound {r : Rdr} {stop count pos : Nat} {fs : List BFrame} (hc : 1 ≤ count)
    (h : ebmlLace r stop count pos = .ok fs) :
    ∃ first, pos ≤ first ∧ Tiles (spans fs) first stop ∧ fs.length = count := by
  simp only [ebmlLace, Res.bind_eq_ok, Res.refuse_eq_ok, Prod.exists, Res.orErr_eq_ok] at h
  obtain ⟨-, -, sz, l, -, -, h0, -, -, -, -, -, -, h⟩ := h
  split at h
  · obtain ⟨t1, t2⟩ := finishLace_sound h (by intro n hn; simp at hn; omega)
    exact ⟨_, by omega, t1, by rw [t2]; simp; omega⟩
  · simp only [Res.bind_eq_ok, Prod.exists] at h
    obtain ⟨szs, p, size, h1, last, h2, h3⟩ := h
    obtain ⟨g1, g2, g3, g4⟩ := ebmlSizes_sound h1
    obtain ⟨k1, k2⟩ := lastSize_sound h2
    obtain ⟨t1, t2⟩ := finishLace_sound h3 (by
      intro n hn
      rcases List.mem_append.mp hn with hn | hn
      · rcases List.mem_cons.mp hn with rfl | hn
        · omega
        · exact g2 n hn
      · simp at hn; omega)
    refine ⟨p, by omega, t1, ?_⟩
    rw [t2]; simp [g1]; omega

theorem readFlag_eq_ok {r : Rdr} {pos : Nat} {b : UInt8} : readFlag r pos = .ok b ↔ r.data[pos]? = some b := by
  unfold readFlag Rdr.byte
  split <;> rename_i h <;> split at h <;> simp_all

theorem parseFrames_sound {r : Rdr} {stop pos : Nat} {flags : UInt8} {fs : List BFrame}
    (h : parseFrames r stop flags pos = .ok fs) :
    ∃ first, Tiles (spans fs) first stop ∧
      (if (flags &&& 6) >>> 1 = 0 then first = pos ∧ fs.length = 1
       else pos + 1 ≤ first ∧ ∃ c, r.data[pos]? = some c ∧ fs.length = c.toNat + 1) := by
  unfold parseFrames at h
  simp only at h
  split at h
  · rename_i hl
    simp only [Res.bind_eq_ok, Res.refuse_eq_ok, Res.ok.injEq] at h
    obtain ⟨-, h1, -, h2, rfl⟩ := h
    refine ⟨pos, ?_, ?_⟩
    · exact ⟨rfl, by simp only; omega, by show pos + (stop - pos) = stop; omega⟩
    · rw [if_pos hl]; simp
  · rename_i hl
    simp only [Res.bind_eq_ok, Res.refuse_eq_ok, readFlag_eq_ok] at h
    obtain ⟨-, h1, c, hc, -, h2, h⟩ := h
    simp only [if_neg hl]
    split at h
    · obtain ⟨first, k1, k2, k3⟩ := xiphLace_sound (by omega) h
      exact ⟨first, k2, k1, c, hc, k3⟩
    · split at h
      · obtain ⟨k2, k3⟩ := fixedLace_sound h
        exact ⟨_, k2, Nat.le_refl _, c, hc, k3⟩
      · obtain ⟨first, k1, k2, k3⟩ := ebmlLace_sound (by omega) h
        exact ⟨first, k2, k1, c, hc, k3⟩

theorem blockParse_sound {r : Rdr} {start size : Nat} {dp : Int} {b : Block}
    (h : blockParse r start size dp = .ok b) :
    ∃ w first, b.start = start ∧ b.size = size ∧ b.discardPadding = dp ∧
      1 ≤ b.track ∧ -2 ^ 15 ≤ b.timecode ∧ b.timecode < 2 ^ 15 ∧
      1 ≤ w ∧ w ≤ 8 ∧ slice r.data start w = vint w b.track ∧
      r.data[start + w + 2]? = some b.flags ∧
      Tiles (spans b.frames) first (start + size) ∧
      (if b.lacing = 0 then first = start + w + 3 ∧ b.frames.length = 1
       else start + w + 4 ≤ first ∧
         ∃ c, r.data[start + w + 3]? = some c ∧ b.frames.length = c.toNat + 1) := by
  simp only [blockParse, Res.bind_eq_ok, Res.refuse_eq_ok, Prod.exists, Res.ok.injEq,
    Res.orErr_eq_ok, readFlag_eq_ok] at h
  obtain ⟨track, w, h1, -, h2, -, h3, -, h4, v, h5, -, h6, -, h7, -, h8, flags, h9, fs, h10, rfl⟩ := h
  obtain ⟨p, e, g1, g2, g3, g4, g5⟩ := readUInt_sound h1
  have : p = start := by omega
  subst this
  obtain ⟨first, t1, t2⟩ := parseFrames_sound h10
  refine ⟨w, first, rfl, rfl, rfl, by simp only; omega, by simp only; omega, by simp only; omega,
    g2, g3, g5, h9, t1, ?_⟩
  exact t2

/-! ### Completeness -/

theorem layFrames_ok {stop : Nat} {sizes : List Nat} {pos : Nat} (h : pos + sizes.sum ≤ stop) :
    ∃ fs, layFrames stop sizes pos = .ok (fs, pos + sizes.sum) := by
  induction sizes generalizing pos with
  | nil => exact ⟨[], rfl⟩
  | cons n ns ih =>
    rw [List.sum_cons] at h
    obtain ⟨fs, hfs⟩ := ih (pos := pos + n) (by omega)
    refine ⟨⟨pos, n⟩ :: fs, ?_⟩
    rw [layFrames, Res.refuse_neg (by omega)]
    simp only [Res.bind_ok, hfs, List.sum_cons]
    rw [Nat.add_assoc]

theorem layFrames_pos {stop : Nat} {sizes : List Nat} {pos : Nat} {fs : List BFrame} {p : Nat}
    (h : layFrames stop sizes pos = .ok (fs, p)) (hne : ∀ n ∈ sizes, 0 < n) (d : Bytes)
    (frames : List Bytes) (hs : frames.map List.length = sizes) (hat : At d pos frames.flatten) :
    fs.map (fun f => slice d f.pos f.len) = frames := by
  induction sizes generalizing pos fs p frames with
  | nil =>
    simp only [layFrames, Res.ok.injEq, Prod.mk.injEq] at h
    obtain ⟨rfl, rfl⟩ := h
    simp_all
  | cons n ns ih =>
    simp only [layFrames, Res.bind_eq_ok, Res.refuse_eq_ok, Prod.exists, Res.ok.injEq,
      Prod.mk.injEq] at h
    obtain ⟨-, -, fs', p', h1, rfl, rfl⟩ := h
    cases frames with
    | nil => simp at hs
    | cons x xs =>
      simp only [List.map_cons, List.cons.injEq] at hs
      rw [List.flatten_cons, at_append] at hat
      simp only [List.map_cons, List.cons.injEq]
      rw [hs.1] at hat
      refine ⟨hat.1.slice_eq hs.1, ih h1 (fun m hm => hne m (List.mem_cons_of_mem _ hm)) xs hs.2 hat.2⟩

/-- If the sizes are right, laying out the frames succeeds and gives back the frames. -/
theorem finishLace_ok {stop pos : Nat} {d : Bytes} {frames : List Bytes}
    (hne : ∀ f ∈ frames, f ≠ []) (hat : At d pos frames.flatten)
    (hstop : stop = pos + frames.flatten.length) :
    ∃ fs, finishLace stop (frames.map List.length) pos = .ok fs ∧
      fs.map (fun f => slice d f.pos f.len) = frames := by
  have hsum : (frames.map List.length).sum = frames.flatten.length := by
    rw [List.length_flatten]
  obtain ⟨fs, h⟩ := layFrames_ok (stop := stop) (sizes := frames.map List.length) (pos := pos)
    (by rw [hsum]; omega)
  refine ⟨fs, ?_, layFrames_pos h ?_ d frames rfl hat⟩
  · simp only [finishLace, h, Res.bind_ok]
    rw [Res.refuse_neg (by rw [hsum]; omega)]
    rfl
  · intro n hn
    obtain ⟨f, hf, rfl⟩ := List.mem_map.mp hn
    exact List.length_pos_iff.mpr (hne f hf)

theorem xiphSize_ok {r : Rdr} {pos acc n : Nat} {fuel : Nat} (hf : n / 255 + 1 ≤ fuel)
    (hat : At r.data pos (xiphSizeBytes n)) :
    xiphSize r fuel pos acc = .ok (acc + n, pos + (xiphSizeBytes n).length) := by
  have key : ∀ q c acc pos fuel, q + 1 ≤ fuel → c < 255 →
      At r.data pos (List.replicate q 255 ++ [UInt8.ofNat c]) →
      xiphSize r fuel pos acc = .ok (acc + (255 * q + c), pos + (q + 1)) := by
    intro q
    induction q with
    | zero =>
      intro c acc pos fuel hf hc hat
      obtain ⟨f, rfl⟩ : ∃ f, fuel = f + 1 := ⟨fuel - 1, by omega⟩
      have hb := (at_cons.mp hat).1
      have : (UInt8.ofNat c).toNat = c := by simp; omega
      simp only [xiphSize, readFlag_eq_ok.mpr hb, Res.bind_ok, this, if_pos hc]
      congr 2; omega
    | succ q ih =>
      intro c acc pos fuel hf hc hat
      obtain ⟨f, rfl⟩ : ∃ f, fuel = f + 1 := ⟨fuel - 1, by omega⟩
      rw [List.replicate_succ, List.cons_append, at_cons] at hat
      simp only [xiphSize, readFlag_eq_ok.mpr hat.1, Res.bind_ok]
      rw [if_neg (by decide), ih c _ _ f (by omega) hc hat.2]
      congr 2
      · have : (255 : UInt8).toNat = 255 := rfl
        omega
      · omega
  have := key (n / 255) (n % 255) acc pos fuel hf (by omega) hat
  rw [this]
  congr 2
  · omega
  · simp [xiphSizeBytes]

theorem xiphSizes_ok {r : Rdr} {stop pos : Nat} {sizes : List Nat} (hpos : ∀ n ∈ sizes, 0 < n)
    (hat : At r.data pos (XiphLace sizes)) (hstop : pos + (XiphLace sizes).length ≤ stop) :
    xiphSizes r stop sizes.length pos = .ok (sizes, pos + (XiphLace sizes).length) := by
  induction sizes generalizing pos with
  | nil => rfl
  | cons n ns ih =>
    have hc : XiphLace (n :: ns) = xiphSizeBytes n ++ XiphLace ns := rfl
    rw [hc] at hat hstop ⊢
    rw [at_append] at hat
    rw [List.length_append] at hstop ⊢
    have hl : (xiphSizeBytes n).length = n / 255 + 1 := by simp [xiphSizeBytes]
    rw [List.length_cons, xiphSizes, xiphSize_ok (by omega) hat.1]
    simp only [Res.bind_ok, Nat.zero_add]
    rw [Res.refuse_neg (by have := hpos n (List.mem_cons_self ..); omega)]
    simp only [Res.bind_ok]
    rw [ih (fun m hm => hpos m (List.mem_cons_of_mem _ hm)) hat.2 (by omega)]
    simp only [Res.bind_ok, Nat.add_assoc]

theorem lastSize_ok {stop pos size last : Nat} (h0 : 0 < last) (hm : last ≤ longMax)
    (h : stop = pos + size + last) : lastSize stop pos size = .ok last := by
  unfold lastSize
  have e : stop - pos - size = last := by omega
  rw [Res.refuse_neg (by omega), Res.bind_ok, Res.refuse_neg (by omega), Res.bind_ok, e]
  simp only
  rw [Res.refuse_neg (by omega), Res.bind_ok]

/-- Xiph lacing is decoded to the frames that were laced. -/
theorem xiphLace_ok {r : Rdr} {stop pos : Nat} {init : List Bytes} {last : Bytes}
    (hne : ∀ f ∈ init ++ [last], f ≠ [])
    (hat : At r.data pos (XiphLace (init.map List.length) ++ (init ++ [last]).flatten))
    (hstop : stop = pos + (XiphLace (init.map List.length) ++ (init ++ [last]).flatten).length)
    (hmax : stop ≤ longMax) :
    ∃ fs, xiphLace r stop (init.length + 1) pos = .ok fs ∧
      fs.map (fun f => slice r.data f.pos f.len) = init ++ [last] := by
  rw [at_append] at hat
  rw [List.length_append] at hstop
  have hfl : (init ++ [last]).flatten.length = (init.map List.length).sum + last.length := by
    rw [List.length_flatten]; simp
  have hl : 0 < last.length := List.length_pos_iff.mpr (hne last (by simp))
  obtain ⟨fs, h1, h2⟩ := finishLace_ok hne hat.2 (stop := stop) (by omega)
  refine ⟨fs, ?_, h2⟩
  have hx := xiphSizes_ok (stop := stop) (sizes := init.map List.length) (by
    intro n hn
    obtain ⟨f, hf, rfl⟩ := List.mem_map.mp hn
    exact List.length_pos_iff.mpr (hne f (by simp [hf]))) hat.1 (by omega)
  rw [List.length_map] at hx
  unfold xiphLace
  rw [Nat.add_sub_cancel, hx]
  simp only [Res.bind_ok]
  rw [lastSize_ok hl (by omega) (by omega)]
  simp only [Res.bind_ok]
  rw [← h1]
  simp

/-- Fixed-size lacing is decoded to the frames that were laced. -/
theorem fixedLace_ok {r : Rdr} {stop pos n : Nat} {frames : List Bytes} (hne : frames ≠ [])
    (hn : 0 < n) (hlen : ∀ f ∈ frames, f.length = n) (hat : At r.data pos frames.flatten)
    (hstop : stop = pos + frames.flatten.length) (hmax : stop ≤ longMax) :
    ∃ fs, fixedLace stop frames.length pos = .ok fs ∧
      fs.map (fun f => slice r.data f.pos f.len) = frames := by
  have hm : frames.map List.length = List.replicate frames.length n := by
    apply List.eq_replicate_iff.mpr
    refine ⟨by simp, ?_⟩
    intro b hb
    obtain ⟨f, hf, rfl⟩ := List.mem_map.mp hb
    exact hlen f hf
  have hfl : frames.flatten.length = frames.length * n := by
    rw [List.length_flatten, hm]; simp
  have hc : 0 < frames.length := List.length_pos_iff.mpr hne
  have hp : 0 < frames.length * n := Nat.mul_pos hc hn
  obtain ⟨fs, h1, h2⟩ := finishLace_ok (fun f hf => by
    intro h; have := hlen f hf; rw [h] at this; simp at this; omega) hat hstop
  refine ⟨fs, ?_, h2⟩
  have hd : (stop - pos) / frames.length = n := by
    rw [show stop - pos = frames.length * n by omega, Nat.mul_div_cancel_left _ hc]
  have hle : n ≤ frames.length * n := Nat.le_mul_of_pos_left _ hc
  unfold fixedLace
  rw [Res.refuse_neg (by omega), Res.bind_ok]
  simp only
  rw [Res.refuse_neg (by
      rw [show stop - pos = frames.length * n by omega, Nat.mul_mod_right]; simp), Res.bind_ok, hd,
    Res.refuse_neg (by omega), Res.bind_ok, ← hm]
  exact h1

theorem vint_length' (w v : Nat) : (vint w v).length = w := by simp [vint]

theorem vint_ne_nil {w v : Nat} (h : 1 ≤ w) : vint w v ≠ [] := by
  intro e
  have := congrArg List.length e
  rw [vint_length'] at this
  simp at this; omega

theorem readUInt_at {r : Rdr} {p w v : Nat} (h1 : 1 ≤ w) (h8 : w ≤ 8) (hv : v < 2 ^ (7 * w))
    (h : At r.data p (vint w v)) : readUInt r p = .ok (v, w) :=
  readUInt_of_slice h1 h8 hv (h.slice_eq (vint_length' ..))

theorem ebmlSizes_ok {r : Rdr} {stop prev pos size : Nat} {sizes : List Nat} {bs : Bytes}
    (he : EbmlDeltas prev sizes bs) (hpos : ∀ n ∈ sizes, 0 < n) (hat : At r.data pos bs)
    (hstop : pos + bs.length + size + sizes.sum ≤ stop) (hmax : stop ≤ longMax) :
    ebmlSizes r stop sizes.length pos prev size =
      .ok (sizes, pos + bs.length, size + sizes.sum) := by
  induction he generalizing pos size with
  | nil prev => rfl
  | @cons prev sz rest bs w v h1 h8 hv hd hr ih =>
    rw [at_append, vint_length'] at hat
    rw [List.length_append, List.sum_cons, vint_length'] at hstop
    have hsz := hpos sz (List.mem_cons_self ..)
    have hfs : ((prev : Int) + ((v : Int) - (2 ^ (7 * w - 1) - 1))) = sz := by omega
    have hlm : longMax = llongMax := rfl
    rw [List.length_cons, ebmlSizes, Res.refuse_neg (by omega), Res.bind_ok,
      readUInt_at h1 h8 hv hat.1]
    simp only [Res.orErr_ok, Res.bind_ok]
    rw [Res.refuse_neg (by omega), Res.bind_ok]
    simp only [hfs]
    rw [Res.refuse_neg (by omega), Res.bind_ok, Res.refuse_neg (by omega), Res.bind_ok,
      Res.refuse_neg (by omega), Res.bind_ok, Int.toNat_natCast,
      ih (fun m hm => hpos m (List.mem_cons_of_mem _ hm)) hat.2 (by omega)]
    simp only [Res.bind_ok, List.length_append, vint_length', List.sum_cons, Nat.add_assoc]

/-- EBML lacing is decoded to the frames that were laced. -/
theorem ebmlLace_ok {r : Rdr} {stop pos : Nat} {init : List Bytes} {last bs : Bytes}
    (hne : ∀ f ∈ init ++ [last], f ≠ []) (he : EbmlLace (init.map List.length) bs)
    (hat : At r.data pos (bs ++ (init ++ [last]).flatten))
    (hstop : stop = pos + (bs ++ (init ++ [last]).flatten).length) (hmax : stop ≤ longMax) :
    ∃ fs, ebmlLace r stop (init.length + 1) pos = .ok fs ∧
      fs.map (fun f => slice r.data f.pos f.len) = init ++ [last] := by
  rw [at_append] at hat
  rw [List.length_append] at hstop
  have hfl : (init ++ [last]).flatten.length = (init.map List.length).sum + last.length := by
    rw [List.length_flatten]; simp
  have hl : 0 < last.length := List.length_pos_iff.mpr (hne last (by simp))
  obtain ⟨fs, h1, h2⟩ := finishLace_ok hne hat.2 (stop := stop) (by omega)
  refine ⟨fs, ?_, h2⟩
  rcases hi : init with _ | ⟨f0, rest⟩
  · rw [hi] at he; cases he
  rw [hi] at he hfl h1 hstop
  have hf0 : 0 < f0.length := List.length_pos_iff.mpr (hne f0 (by simp [hi]))
  cases he with
  | @mk _ _ bs' w w1 w8 wv hr =>
    rw [at_append, vint_length'] at hat
    rw [List.length_append, vint_length'] at hstop h1
    simp only [List.map_cons, List.sum_cons] at hfl
    have hes := ebmlSizes_ok (r := r) (stop := stop) (pos := pos + w) (size := f0.length) hr (by
      intro n hn
      obtain ⟨f, hf, rfl⟩ := List.mem_map.mp hn
      exact List.length_pos_iff.mpr (hne f (by simp [hi, hf]))) hat.1.2
      (by omega) hmax
    rw [List.length_map] at hes
    unfold ebmlLace
    rw [Res.refuse_neg (by omega), Res.bind_ok, readUInt_at w1 w8 wv hat.1.1]
    simp only [Res.orErr_ok, Res.bind_ok]
    rw [Res.refuse_neg (by omega), Res.bind_ok, Res.refuse_neg (by omega), Res.bind_ok,
      Res.refuse_neg (by omega), Res.bind_ok, Res.refuse_neg (by omega), Res.bind_ok,
      if_neg (by simp)]
    simp only [List.length_cons]
    rw [show rest.length + 1 + 1 - 2 = rest.length by omega, hes]
    simp only [Res.bind_ok]
    rw [lastSize_ok hl (by omega) (by omega)]
    simp only [Res.bind_ok]
    rw [← h1]
    simp [Nat.add_assoc]

/-- Parsing the fixed part of a block. -/
theorem blockParse_head {r : Rdr} {start size w track : Nat} {tc : Int} {flags : UInt8} {dp : Int}
    (h1 : 1 ≤ w) (h8 : w ≤ 8) (ht0 : 1 ≤ track) (htw : track < 2 ^ (7 * w)) (htc : FitsSigned 2 tc)
    (hat : At r.data start (blockHead w track tc flags)) (hsize : w + 3 ≤ size) :
    blockParse r start size dp =
      (parseFrames r (start + size) flags (start + w + 3) >>= fun fs =>
        .ok ⟨start, size, track, tc, flags, fs, dp⟩) := by
  unfold blockHead at hat
  have hl2 : (twosBytes 2 tc).length = 2 := by simp [twosBytes]
  rw [at_append, at_append, List.length_append, vint_length', hl2] at hat
  obtain ⟨⟨ha, hb⟩, hc⟩ := hat
  have hfl := (at_cons.mp hc).1
  have hval : unserializeInt r ((start + w : Nat) : Int) 2 = .ok tc := by
    have hle := hb.le (by intro e; rw [e] at hl2; simp at hl2)
    rw [hl2] at hle
    have := unserializeInt_ok (r := r) (p := start + w) (n := 2) (by omega) (by omega) hle
    rw [hb.slice_eq hl2, Web.twosVal_twosBytes (by omega) htc] at this
    exact this
  obtain ⟨hlo, hhi⟩ := htc
  simp only [Nat.reduceMul, Nat.reduceSub] at hlo hhi
  unfold blockParse
  rw [readUInt_at h1 h8 htw ha]
  simp only [Res.orErr_ok, Res.bind_ok]
  rw [Res.refuse_neg (by omega), Res.bind_ok, Res.refuse_neg (by omega), Res.bind_ok,
    Res.refuse_neg (by omega), Res.bind_ok, hval]
  simp only [Res.orErr_ok, Res.bind_ok]
  rw [Res.refuse_neg (by omega), Res.bind_ok, Res.refuse_neg (by omega), Res.bind_ok,
    Res.refuse_neg (by omega), Res.bind_ok, readFlag_eq_ok.mpr (by rwa [← Nat.add_assoc] at hfl),
    Res.bind_ok]

end Verif.Par
