/-
Chapters made from cues, and what the demuxer makes of them.
-/
import Verif.Lemmas.VttFrame
import Verif.Spec.Reading

namespace Verif.Vtt
open Verif Verif.Par Verif.Mux Verif.Spec Verif.Vtt.Spec

/-- The last line of a stream, which no line ending follows. -/
theorem getLine_last {p : Parser} {l : Bytes} (h : p.stream = l) (hr : Readable l) (hl : l ≠ []) (hf : p.fails = false) :
    ∃ p', p.getLine = (0, l, p') ∧ p'.stream = [] ∧ p'.fails = false := by
  have hsc := scan_readable l [] (fun c hc => (hr.1 c hc).2.2) (by simpa [maxLine] using hr.2)
  obtain ⟨p1, h1, h2, h3⟩ := lineLoop_none l p [] _ [] (fun c hc => ⟨(hr.1 c hc).1, (hr.1 c hc).2.1⟩) (by simpa using h) hsc
  refine ⟨p1, ?_, h2, h3.trans hf⟩
  unfold Parser.getLine
  rw [h1, lineLoop_eof _ h2 (h3.trans hf), if_neg (by simpa using hl)]
  rfl

/-- The lines of a title. -/
theorem demuxLines_title : ∀ (l : Bytes) (ls : List Bytes) {t : Bytes} {p : Parser}, chapterTitle (l :: ls) = .ok t → p.stream = t →
    p.fails = false → (∀ x ∈ l :: ls, x ≠ [] ∧ Readable x) → demuxLines p = .ok (l :: ls)
  | l, [], t, p, ht, hp, hf, hr => by
    cases ht
    obtain ⟨q, h1, h2, h3⟩ := getLine_last hp (hr l (by simp)).2 (hr l (by simp)).1 hf
    rw [demuxLines.eq_def]
    split
    rename_i e line p' heq
    rw [h1] at heq
    cases heq
    rw [if_neg (by decide), dif_neg (by simpa using (hr l (by simp)).1), demuxLines_ok [] ⟨h2, trivial, by simp, h3⟩ (by simp)]
    rfl
  | l, l' :: ls, t, p, ht, hp, hf, hr => by
    have ht' : (chapterTitle (l' :: ls)).map (fun t => l ++ 0x0A :: t) = .ok t := ht
    cases hc : chapterTitle (l' :: ls) with
    | ub => rw [hc] at ht'; cases ht'
    | err c => rw [hc] at ht'; cases ht'
    | ok t' =>
      rw [hc] at ht'
      cases ht'
      obtain ⟨q, h1, h2, h3⟩ := getLine_line (e := .lf) (s := t') (by rw [hp]; simp [Ending.bytes]) (hr l (by simp)).2
        (fun h => by cases h) hf
      have ih := demuxLines_title l' ls hc h2 h3 fun x hx => hr x (by simp [hx])
      rw [demuxLines.eq_def]
      split
      rename_i e line p' heq
      rw [h1] at heq
      cases heq
      rw [if_neg (by decide), dif_neg (by simpa using (hr l (by simp)).1), ih]
      rfl

theorem chapterTitle_noNul : ∀ (ls : List Bytes) {t : Bytes}, chapterTitle ls = .ok t → (∀ l ∈ ls, NoNul l) → NoNul t
  | [], _, h, _ => by cases h
  | [l], t, h, hn => by cases h; exact hn l (by simp)
  | l :: l' :: ls, t, h, hn => by
    have h' : (chapterTitle (l' :: ls)).map (fun t => l ++ 0x0A :: t) = .ok t := h
    cases hc : chapterTitle (l' :: ls) with
    | ub => rw [hc] at h'; cases h'
    | err c => rw [hc] at h'; cases h'
    | ok t' =>
      rw [hc] at h'
      cases h'
      have ih := chapterTitle_noNul (l' :: ls) hc fun x hx => hn x (by simp [hx])
      intro c hc
      rw [List.mem_append, List.mem_cons] at hc
      rcases hc with hc | rfl | hc
      · exact hn l (by simp) c hc
      · decide
      · exact ih c hc

theorem chapterTitle_ok : ∀ (ls : List Bytes), ls ≠ [] → ∃ t, chapterTitle ls = .ok t ∧ ∀ l ∈ ls, l ≠ [] → t ≠ []
  | [], h => absurd rfl h
  | [l], _ => ⟨l, rfl, by simp⟩
  | l :: l' :: ls, _ => by
    obtain ⟨t, ht, -⟩ := chapterTitle_ok (l' :: ls) (by simp)
    refine ⟨l ++ 0x0A :: t, ?_, by simp⟩
    show (chapterTitle (l' :: ls)).map _ = _
    rw [ht]
    rfl

theorem ns_ok {t : Time} (h0 : 0 ≤ millisOf t) (h : millisOf t * 1000000 < 2 ^ 63) : t.ns = .ok (millisOf t * 1000000) := by
  unfold Time.ns
  rw [presentation_eq]
  exact i64_ok (by omega)

theorem toU64_nat {v : Int} (h0 : 0 ≤ v) (h : v < 2 ^ 64) : toU64 v = v.toNat := by
  unfold toU64
  rw [Int.emod_eq_of_lt h0 (by omega)]

/-- The chapter a cue is made into. -/
def chapterOf (scale : Nat) (uid : UInt64) (c : Cue) (title : Bytes) : Mux.Chapter where
  id := if c.identifier.isEmpty then none else some (cText c.identifier)
  start := UInt64.ofNat (millisOf c.start * 1000000).toNat / UInt64.ofNat scale
  stop := UInt64.ofNat (millisOf c.stop * 1000000).toNat / UInt64.ofNat scale
  uid := uid
  displays := [⟨some (cText title), none, none⟩]

theorem addChapter_ok {scale : Nat} {uid : UInt64} {c : Cue} (hp : Proper c) (ho : millisOf c.start ≤ millisOf c.stop)
    (hr : millisOf c.stop * 1000000 < 2 ^ 63) :
    ∃ t, chapterTitle c.payload = .ok t ∧ addChapter (UInt64.ofNat scale) uid c = .ok (chapterOf scale uid c t) := by
  obtain ⟨t, ht, -⟩ := chapterTitle_ok c.payload hp.payload.1
  have h0 := millis_nonneg hp.start.1
  refine ⟨t, ht, ?_⟩
  unfold addChapter
  rw [ns_ok h0 (by omega), Res.bind_ok, ns_ok (by omega) hr, Res.bind_ok, ht, Res.bind_ok, toU64_nat (by omega) (by omega),
    toU64_nat (by omega) (by omega)]
  rfl

theorem ticks_back {scale n : Nat} (hs : scale ∣ 1000000) (hn : n * 1000000 < 2 ^ 63) :
    (UInt64.ofNat (n * 1000000) / UInt64.ofNat scale).toNat * scale = n * 1000000 := by
  have hle : scale ≤ 1000000 := Nat.le_of_dvd (by decide) hs
  rw [UInt64.toNat_div, UInt64.toNat_ofNat', UInt64.toNat_ofNat', Nat.mod_eq_of_lt (by omega), Nat.mod_eq_of_lt (by omega)]
  exact Nat.div_mul_cancel (Nat.dvd_trans hs (Nat.dvd_mul_left _ _))

theorem getTime_ok {scale : Nat} {t : Time} (hs : scale ∣ 1000000) (h0 : 0 ≤ millisOf t) (h : millisOf t * 1000000 < 2 ^ 63) :
    ReadAtom.getTime (some (scale : Int)) ((UInt64.ofNat (millisOf t * 1000000).toNat / UInt64.ofNat scale).toNat : Nat) =
      .ok (millisOf t * 1000000) := by
  have hpos : 0 < scale := Nat.pos_of_dvd_of_pos hs (by decide)
  have e : (millisOf t * 1000000).toNat = (millisOf t).toNat * 1000000 := by omega
  have hb := ticks_back (n := (millisOf t).toNat) hs (by omega)
  rw [← e] at hb
  generalize (UInt64.ofNat (millisOf t * 1000000).toNat / UInt64.ofNat scale).toNat = v at hb
  have hv : (scale : Int) * (v : Int) = millisOf t * 1000000 := by
    have : ((v * scale : Nat) : Int) = ((millisOf t * 1000000).toNat : Int) := by rw [hb]
    rw [Int.mul_comm]
    push_cast at this
    omega
  unfold ReadAtom.getTime
  simp only
  rw [if_neg (by omega), if_neg (by omega), if_pos (by omega), hv]

/-- The demuxer writes the cue that the chapter was made from. -/
theorem chapterCue_ok {scale : Nat} {uid : UInt64} {c : Cue} {title : Bytes} (hs : scale ∣ 1000000) (hp : Proper c) (hk : Keepable c)
    (hi : c.identifier ≠ []) (hg : c.settings = []) (ht : chapterTitle c.payload = .ok title) :
    chapterCue (some (scale : Int)) (seenChapter (chapterOf scale uid c title)) (seenDisplay ⟨some (cText title), none, none⟩) =
      .ok (cueText c) := by
  have h0 := millis_nonneg hp.start.1
  have h1 := hk.order
  have h2 := hk.range
  have hnn := chapterTitle_noNul _ ht hk.payload
  obtain ⟨l, ls, hl⟩ := List.exists_cons_of_ne_nil hp.payload.1
  have htne : title ≠ [] := by
    obtain ⟨t, h3, h4⟩ := chapterTitle_ok c.payload hp.payload.1
    rw [h3] at ht
    cases ht
    exact h4 l (by rw [hl]; simp) (hp.payload.2 l (by rw [hl]; simp)).1
  unfold chapterCue
  rw [show (seenChapter (chapterOf scale uid c title)).start =
      ((UInt64.ofNat (millisOf c.start * 1000000).toNat / UInt64.ofNat scale).toNat : Nat) from rfl,
    show (seenChapter (chapterOf scale uid c title)).stop =
      ((UInt64.ofNat (millisOf c.stop * 1000000).toNat / UInt64.ofNat scale).toNat : Nat) from rfl,
    getTime_ok hs h0 (by omega), Res.bind_ok, Res.refuse_neg (by omega), Res.bind_ok, getTime_ok hs (by omega) h2, Res.bind_ok,
    Res.refuse_neg (by omega), Res.bind_ok]
  have hstream : displayParser (seenDisplay ⟨some (cText title), none, none⟩) = { rest := title } := by
    unfold displayParser seenDisplay seenText
    simp only
    rw [cText_noNul hnn, if_neg (by simpa using htne)]
    simp only [Option.getD_some]
    rw [cText_noNul hnn]
  have hpay : demuxPayload { rest := title } = .ok (lfLines c.payload) := by
    unfold demuxPayload
    rw [hl] at ht
    rw [demuxLines_title l ls ht rfl rfl (fun x hx => hp.payload.2 x (by rw [hl]; exact hx)), Res.bind_ok, Res.refuse_neg (by simp),
      Res.bind_ok, ← hl]
    congr 1
    have : ∀ ls : List Bytes, (∀ l ∈ ls, NoNul l) → ls.flatMap (fun l => cText l ++ [0x0A]) = lfLines ls := by
      intro ls
      induction ls with
      | nil => intro _; rfl
      | cons l ls ih =>
        intro h
        rw [List.flatMap_cons, cText_noNul (h l (by simp)), ih (fun x hx => h x (by simp [hx])), lfLines_cons]
        simp
    exact this _ hk.payload
  rw [hstream, hpay, Res.bind_ok, cueTime_eq hp.start.1, cueTime_eq hp.stop.1]
  have hid : (seenChapter (chapterOf scale uid c title)).stringUid = some c.identifier := by
    unfold seenChapter chapterOf seenText
    simp only
    have hn : ¬ (c.identifier.isEmpty = true) := by simpa using hi
    rw [if_neg hn, cText_noNul hk.ident, if_neg (by simpa using hi)]
  rw [hid]
  simp only
  rw [cText_noNul hk.ident]
  congr 1
  unfold cueText Written.lines
  rw [lfLines_append, lfLines_append, lfLines_append]
  simp [asWritten, lfLines, fileOf, Ending.bytes, Timings.text, arrow, List.append_assoc, hi, hg, settingsText]

/-- All chapters. -/
theorem chapterCues_ok {scale : Nat} (hs : scale ∣ 1000000) : ∀ (cs : List Cue) {chs : List Mux.Chapter},
    (∀ c ∈ cs, Proper c ∧ Keepable c ∧ c.identifier ≠ [] ∧ c.settings = []) →
    (∃ us : List UInt64, us.length = cs.length ∧ chs.map Res.ok = List.zipWith (addChapter (UInt64.ofNat scale)) us cs) →
    chapterCues (some (scale : Int)) (chs.map seenChapter) = .ok (cs.flatMap cueText)
  | [], chs, _, ⟨us, hu, h⟩ => by
    cases us with
    | cons u us => simp at hu
    | nil =>
      have : chs = [] := by simpa using h
      subst this
      rfl
  | c :: cs, chs, hall, ⟨us, hu, h⟩ => by
    cases us with
    | nil => simp at hu
    | cons u us =>
      cases chs with
      | nil => simp at h
      | cons x chs =>
        rw [List.map_cons, List.zipWith_cons_cons, List.cons.injEq] at h
        obtain ⟨hp, hk, hi, hg⟩ := hall c (by simp)
        obtain ⟨t, ht, ha⟩ := addChapter_ok (scale := scale) (uid := u) hp hk.order hk.range
        rw [ha] at h
        have hx := h.1
        cases hx
        have ih := chapterCues_ok hs cs (chs := chs) (fun y hy => hall y (by simp [hy])) ⟨us, by simpa using hu, h.2⟩
        rw [List.map_cons, chapterCues]
        have hd : (seenChapter (chapterOf scale u c t)).displays = [seenDisplay ⟨some (cText t), none, none⟩] := rfl
        rw [hd]
        simp only
        rw [Res.refuse_neg (by rintro ⟨l, hl, -⟩; cases hl), Res.bind_ok, chapterCue_ok hs hp hk hi hg ht, Res.bind_ok, ih, Res.bind_ok,
          List.flatMap_cons]

end Verif.Vtt
