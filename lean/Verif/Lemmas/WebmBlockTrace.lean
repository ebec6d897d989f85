/-
What the incremental block parser has done so far, state by state.
-/
import Verif.Lemmas.WebmBlock
import Verif.Spec.Blocks

namespace Verif.Web
open Verif Verif.Spec

theorem frameEvents_append (ann q : Nat) (ds : List Bytes) (d : Bytes) :
    frameEvents ann q (ds ++ [d]) = frameEvents ann q ds ++
      [.frame (ann + ds.flatten.length) d.length (q + ds.flatten.length) d] := by
  induction ds generalizing ann q with
  | nil => simp [frameEvents]
  | cons x xs ih =>
    simp only [List.cons_append, frameEvents, ih, List.flatten_cons, List.length_append,
      Nat.add_assoc]

/-- Announced start of the first frame. -/
def annBase (m : Meta) (v : BlockVal) (hdr : Nat) : Nat :=
  if v.lacing = .fixed ∧ v.numFrames ≠ 1 then m.position + hdr else m.position + m.headerSize + hdr

/-- The frames part of the trace. -/
structure BlockP.FramesSoFar (m : Meta) (s0 : Src) (p : BlockP) (n : Nat) (ds : List Bytes) : Prop where
  count : p.laces.length = p.value.numFrames
  cur : ds.length = p.cur
  curle : p.cur ≤ p.laces.length
  sizes : ds.map List.length = p.laces.take p.cur
  sum : (p.hdrRead + p.laces.sum) % two64 = m.size % two64
  size : p.cur < p.laces.length → p.laces[p.cur]? = some p.frameSize
  pos : p.cur < p.laces.length → p.framePos = (annBase m p.value p.hdrRead + ds.flatten.length) % two64
  read : n = p.hdrRead + ds.flatten.length + p.buf.length
  bytes : ∃ h rest, h.length = p.hdrRead ∧ s0.bytes = h ++ (ds.flatten ++ p.buf) ++ rest
  log : p.log = .start p.value :: frameEvents (annBase m p.value p.hdrRead) (s0.pos + p.hdrRead) ds
  last : 0 < p.laces.getLast?.getD 0

/-- What has happened when the parser is in a given state after `n` bytes. -/
def BlockP.Trace (m : Meta) (s0 : Src) (p : BlockP) (s : Src) (n : Nat) : Prop :=
  p.elem = m ∧ Advance s0 s n ∧
  match p.state with
  | .readingHeader => n = p.hdrRead ∧ p.log = [] ∧ p.cur = 0
  | .readingLaceCount => n = p.hdrRead ∧ p.log = [] ∧ p.cur = 0 ∧ p.value.lacing ≠ .none
  | .gettingAction => n = p.hdrRead ∧ p.log = [] ∧ p.cur = 0 ∧ 1 ≤ p.value.numFrames ∧
      (p.value.lacing = .none → p.value.numFrames = 1)
  | .readingXiph => n = p.hdrRead ∧ p.log = [.start p.value] ∧ p.cur = 0 ∧ p.value.lacing = .xiph ∧
      p.laces.length < p.value.numFrames
  | .readingFirstEbml => n = p.hdrRead ∧ p.log = [.start p.value] ∧ p.cur = 0 ∧
      p.value.lacing = .ebml ∧ 2 ≤ p.value.numFrames
  | .readingEbml => n = p.hdrRead ∧ p.log = [.start p.value] ∧ p.cur = 0 ∧ p.value.lacing = .ebml ∧
      p.laces.length < p.value.numFrames
  | .calculatingFixed => n = p.hdrRead ∧ p.log = [.start p.value] ∧ p.cur = 0 ∧
      p.value.lacing = .fixed ∧ 2 ≤ p.value.numFrames
  | .validatingSize => n = p.hdrRead ∧ p.log = [.start p.value] ∧ p.cur = 0 ∧
      p.laces.length + 1 = p.value.numFrames ∧ (p.value.lacing ≠ .fixed ∨ p.value.numFrames = 1)
  | .skipping => False
  | .readingFrames => ∃ ds, FramesSoFar m s0 p n ds
  | .done => ∃ ds, FramesSoFar m s0 p n ds ∧ p.cur = p.laces.length

theorem foldl_mod_sum (l : List Nat) (a : Nat) :
    l.foldl (fun a x => (a + x) % two64) a % two64 = (a + l.sum) % two64 := by
  induction l generalizing a with
  | nil => simp
  | cons x xs ih =>
    rw [List.foldl_cons, ih, List.sum_cons]
    rw [Nat.add_mod, Nat.mod_mod, ← Nat.add_mod, Nat.add_assoc]

theorem BlockP.trace_next (simple : Bool) {m : Meta} {s0 : Src}
    (hpos : s0.pos = m.position + m.headerSize)
    (hfit : s0.pos + s0.bytes.length < two64) (p : BlockP) (s : Src) (n : Nat) (p' : BlockP) (s' : Src) (k : Nat)
    (hi : p.Inv) (ht : p.Trace m s0 s n) (h : BlockP.body simple false p s = (none, p', s', k)) :
    p'.Trace m s0 s' (n + k) := by
  have hadv := (BlockP.body_cases simple hi h).1
  obtain ⟨elem, state, hdrRead, value, hdr, uint, xiph, laces, cur, framePos, frameSize, buf, log⟩ := p
  obtain ⟨i1, i2, i3, i4, i5, i6, i7, i8⟩ := hi
  obtain ⟨t1, t2, t3⟩ := ht
  have hadv' := t2.trans hadv
  simp only at i1 i2 i3 i4 i5 i6 i7 i8 t1 t3
  subst t1
  cases state with
  | readingHeader =>
    simp only [BlockP.body] at h
    rcases hr : hdr.feed s with ⟨st, a, s1, k1⟩
    rw [hr] at h
    simp only at h
    split at h
    · simp only [Prod.mk.injEq, true_and] at h
      obtain ⟨rfl, rfl, rfl⟩ := h
      refine ⟨rfl, hadv', ?_⟩
      obtain ⟨rfl, rfl, rfl⟩ := t3
      simp only [BlockP.afterHeader]
      by_cases hl : lacingOf a.flags = .none
      · simp [hl]
      · simp [hl]
    · cases h
  | readingLaceCount =>
    simp only [BlockP.body] at h
    rcases hr : s.readByte with ⟨st1, b, s1⟩
    rw [hr] at h
    cases b with
    | none => cases h
    | some b =>
      simp only [Prod.mk.injEq, true_and] at h
      obtain ⟨rfl, rfl, rfl⟩ := h
      refine ⟨rfl, hadv', ?_⟩
      obtain ⟨rfl, rfl, rfl, t4⟩ := t3
      exact ⟨rfl, rfl, rfl, by simp [BlockP.afterLaceCount], fun h => absurd h t4⟩
  | gettingAction =>
    simp only [BlockP.body, Prod.mk.injEq, true_and] at h
    obtain ⟨rfl, rfl, rfl⟩ := h
    refine ⟨rfl, hadv', ?_⟩
    obtain ⟨rfl, rfl, rfl, t4, t5⟩ := t3
    have hl := i7 rfl
    subst hl
    simp only [BlockP.afterAction, Bool.false_eq_true, if_false, List.nil_append]
    by_cases h1 : value.lacing = .none ∨ value.numFrames = 1
    · rw [if_pos h1]
      have h2 : value.numFrames = 1 := by rcases h1 with h1 | h1; exact t5 h1; exact h1
      simp [h2]
    · rw [if_neg h1]
      have h2 : 2 ≤ value.numFrames := by
        have : value.numFrames ≠ 1 := fun h => h1 (.inr h)
        omega
      by_cases h3 : value.lacing = .xiph
      · rw [if_pos h3]; simp [h3]; omega
      · rw [if_neg h3]
        by_cases h4 : value.lacing = .ebml
        · rw [if_pos h4]; simp [h4, h2]
        · rw [if_neg h4]
          simp only [true_and, h2, and_true, Nat.add_zero]
          cases hv : value.lacing with
          | none => exact absurd (.inl hv) h1
          | xiph => exact absurd hv h3
          | ebml => exact absurd hv h4
          | fixed => rfl
  | readingXiph =>
    obtain ⟨rfl, rfl, rfl, t4, t5⟩ := t3
    simp only [BlockP.body] at h
    split at h
    · next hlt =>
      rcases hr : s.readByte with ⟨st1, b, s1⟩
      rw [hr] at h
      cases b with
      | none => cases h
      | some b =>
        simp only [Prod.mk.injEq, true_and] at h
        obtain ⟨rfl, rfl, rfl⟩ := h
        simp only [BlockP.xiphByte]
        split
        · exact ⟨rfl, hadv', rfl, rfl, rfl, t4, t5⟩
        · exact ⟨rfl, hadv', rfl, rfl, rfl, t4, by simp; omega⟩
    · simp only [Prod.mk.injEq, true_and] at h
      obtain ⟨rfl, rfl, rfl⟩ := h
      exact ⟨rfl, hadv', rfl, rfl, rfl, by simp only; omega, .inl (by simp [t4])⟩
  | readingFirstEbml =>
    obtain ⟨rfl, rfl, rfl, t4, t5⟩ := t3
    simp only [BlockP.body] at h
    rcases hr : uint.feed s with ⟨st, a, s1, k1⟩
    rw [hr] at h
    simp only at h
    split at h
    · simp only [Prod.mk.injEq, true_and] at h
      obtain ⟨rfl, rfl, rfl⟩ := h
      have hl := i7 rfl
      exact ⟨rfl, hadv', rfl, rfl, rfl, t4, by simp [BlockP.firstEbml, hl]; omega⟩
    · cases h
  | readingEbml =>
    obtain ⟨rfl, rfl, rfl, t4, t5⟩ := t3
    simp only [BlockP.body] at h
    split at h
    · rcases hr : uint.feed s with ⟨st, a, s1, k1⟩
      rw [hr] at h
      simp only at h
      split at h
      · simp only [Prod.mk.injEq, true_and] at h
        obtain ⟨rfl, rfl, rfl⟩ := h
        exact ⟨rfl, hadv', rfl, rfl, rfl, t4, by simp [BlockP.nextEbml]; omega⟩
      · cases h
    · simp only [Prod.mk.injEq, true_and] at h
      obtain ⟨rfl, rfl, rfl⟩ := h
      exact ⟨rfl, hadv', rfl, rfl, rfl, by simp only; omega, .inl (by simp [t4])⟩
  | calculatingFixed =>
    obtain ⟨rfl, rfl, rfl, t4, t5⟩ := t3
    simp only [BlockP.body] at h
    split at h
    · next p1 hf =>
      simp only [Prod.mk.injEq, true_and] at h
      obtain ⟨rfl, rfl, rfl⟩ := h
      unfold BlockP.fixedLaces at hf
      simp only at hf
      split at hf
      · cases hf
      · next hlt =>
        split at hf
        · cases hf
        · next hmod =>
          cases hf
          refine ⟨rfl, hadv', [], by simp, rfl, by simp, by simp, ?_, ?_, ?_, ?_, ?_, ?_, ?_⟩
          · simp only [List.sum_replicate_nat]
            rw [Nat.mul_div_cancel' (Nat.dvd_of_mod_eq_zero (by omega))]
            congr 1
            omega
          · intro hc
            simp only [List.length_replicate] at hc ⊢
            rw [List.getElem?_replicate, if_pos hc]
          · intro _
            simp [annBase, t4, show value.numFrames ≠ 1 by omega]
          · simp [i8 (.inl (by simp))]
          · obtain ⟨ds, e1, e2, -⟩ := t2
            exact ⟨ds, s.bytes, e2, by simp [e1, i8 (.inl (by simp))]⟩
          · simp [frameEvents]
          · obtain ⟨c, hc⟩ : ∃ c, value.numFrames = c + 1 := ⟨value.numFrames - 1, by omega⟩
            rw [hc] at hmod ⊢
            rw [List.getLast?_replicate, if_neg (by omega)]
            refine Nat.pos_of_ne_zero fun h0 => ?_
            have hdvd := Nat.dvd_of_mod_eq_zero (Decidable.not_not.mp hmod)
            have := Nat.div_mul_cancel hdvd
            simp only [Option.getD_some] at h0
            rw [h0] at this
            omega
    · cases h
  | validatingSize =>
    obtain ⟨rfl, rfl, rfl, t4, t5⟩ := t3
    simp only [BlockP.body] at h
    split at h
    · next p1 hf =>
      simp only [Prod.mk.injEq, true_and] at h
      obtain ⟨rfl, rfl, rfl⟩ := h
      unfold BlockP.validate at hf
      simp only at hf
      split at hf
      · cases hf
      · next hlt =>
        cases hf
        have hfold := foldl_mod_sum laces n
        refine ⟨rfl, hadv', [], by simp [t4], rfl, by simp, by simp, ?_, ?_, ?_, ?_, ?_, ?_, ?_⟩
        · simp only [List.sum_append, List.sum_cons, List.sum_nil, Nat.add_zero]
          generalize List.foldl (fun a x => (a + x) % two64) n laces = f at hfold hlt
          rw [← Nat.add_assoc, Nat.add_mod, ← hfold, ← Nat.add_mod]
          congr 1
          omega
        · intro _
          simp only
          cases laces <;> simp
        · intro _
          have : ¬ (value.lacing = .fixed ∧ value.numFrames ≠ 1) := by
            rintro ⟨a, b⟩; rcases t5 with h | h; exact h a; exact b h
          simp [annBase, this]
        · simp [i8 (.inl (by simp))]
        · obtain ⟨ds, e1, e2, -⟩ := t2
          exact ⟨ds, s.bytes, e2, by simp [e1, i8 (.inl (by simp))]⟩
        · simp [frameEvents]
        · simp only [List.getLast?_concat, Option.getD_some]; omega
    · cases h
  | skipping => exact t3.elim
  | readingFrames =>
    obtain ⟨ds, f1, f2, f3, f4, f5, f7, f8, f9, f10, f11, f12⟩ := t3
    simp only at f1 f2 f3 f4 f5 f7 f8 f9 f10 f11 f12
    simp only [BlockP.body] at h
    split at h
    · next hlt =>
      rcases hr : onFrame frameSize buf s with ⟨st, a, s1, k1⟩
      rw [hr] at h
      simp only at h
      split at h
      · next hc =>
        simp only [Prod.mk.injEq, true_and] at h
        obtain ⟨rfl, rfl, rfl⟩ := h
        rw [completedOk_iff.mp hc] at hr
        obtain ⟨d, e1, e2, e3, e4, e5⟩ := onFrame_done i6 hr
        obtain ⟨hb, rest, g1, g2⟩ := f10
        have hsz := f7 hlt
        have hps := f8 hlt
        have hfl : (ds ++ [a]).flatten = ds.flatten ++ a := by simp
        have hbytes : s0.bytes = hb ++ (ds.flatten ++ a) ++ s1.bytes := by
          obtain ⟨x, y1, y2, -⟩ := t2
          have hx : x = hb ++ (ds.flatten ++ buf) := by
            have hpre := y1.symm.trans g2
            have hlen : x.length = (hb ++ (ds.flatten ++ buf)).length := by
              simp only [List.length_append]; omega
            exact (List.append_inj hpre hlen).1
          rw [y1, hx, e1, e2]
          simp only [List.append_assoc]
        have hq : s1.pos - a.length = s0.pos + hdrRead + ds.flatten.length := by
          obtain ⟨x, y1, y2, y3⟩ := t2
          rw [e5, y3, f9, e2, List.length_append]
          omega
        have hbl := congrArg List.length hbytes
        simp only [List.length_append] at hbl
        have hann : annBase elem value hdrRead + ds.flatten.length + a.length < two64 := by
          have : annBase elem value hdrRead ≤ s0.pos + hdrRead := by
            unfold annBase; split <;> omega
          omega
        rw [Nat.mod_eq_of_lt (by omega)] at hps
        have htake : laces.take (cur + 1) = laces.take cur ++ [frameSize] := by
          rw [List.take_add_one, hsz]; rfl
        have hlog : log ++ [BlockEv.frame framePos frameSize (s1.pos - a.length) a] =
            .start value :: frameEvents (annBase elem value hdrRead) (s0.pos + hdrRead) (ds ++ [a]) := by
          rw [frameEvents_append, f11, hps, hq, e3]; rfl
        have hmap : (ds ++ [a]).map List.length = laces.take (cur + 1) := by
          rw [htake, List.map_append, f4]; simp [e3]
        unfold BlockP.frameDone
        simp only
        split
        · next hmore =>
          refine ⟨rfl, hadv', ds ++ [a], f1, by simp [f2], by simp only; omega, hmap, f5, ?_, ?_, ?_, ?_, hlog, f12⟩
          · intro _
            simp only
            rw [List.getElem?_eq_getElem hmore]
            rfl
          · intro _
            simp only
            rw [hps, hfl, List.length_append, e3, Nat.add_assoc]
          · simp only [hfl, List.length_append, List.length_nil]
            rw [f9, e2, List.length_append]; omega
          · exact ⟨hb, s1.bytes, g1, by rw [hbytes, hfl]; simp⟩
        · next hmore =>
          refine ⟨rfl, hadv', ds ++ [a], f1, by simp [f2], by simp only; omega, hmap, f5, ?_, ?_, ?_, ?_, hlog, f12⟩
          · intro hc; exact absurd hc hmore
          · intro hc; exact absurd hc hmore
          · simp only [hfl, List.length_append, List.length_nil]
            rw [f9, e2, List.length_append]; omega
          · exact ⟨hb, s1.bytes, g1, by rw [hbytes, hfl]; simp⟩
      · cases h
    · simp only [Prod.mk.injEq, true_and] at h
      obtain ⟨rfl, rfl, rfl⟩ := h
      exact ⟨rfl, hadv', ds, ⟨f1, f2, f3, f4, f5, f7, f8, f9, f10, f11, f12⟩, by simp only; omega⟩
  | done => cases h

end Verif.Web
