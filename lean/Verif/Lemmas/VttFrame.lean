/-
The data of a block made from a cue, and what the demuxer makes of it.
-/
import Verif.Lemmas.VttText
import Verif.Spec.Watching

namespace Verif.Vtt
open Verif Verif.Par Verif.Spec Verif.Vtt.Spec

theorem cText_noNul {l : Bytes} (h : NoNul l) : cText l = l := by
  unfold cText
  induction l with
  | nil => rfl
  | cons c l ih =>
    rw [List.takeWhile_cons_of_pos (by simpa using h c (by simp)), ih fun x hx => h x (by simp [hx])]

theorem cuePayload_lines : ∀ ls : List Bytes, cuePayload ls = lfLines ls
  | [] => rfl
  | l :: ls => by rw [cuePayload, lfLines_cons, cuePayload_lines ls]

theorem cueSettings_line (gs : List Setting) : cueSettings gs = settingsLine gs ++ [0x0A] := by
  cases gs <;> rfl

theorem makeFrame_lines (c : Cue) : makeFrame c = lfLines ([c.identifier] ++ ([settingsLine c.settings] ++ c.payload)) := by
  unfold makeFrame cueIdentifier
  rw [cueSettings_line, cuePayload_lines]
  simp [lfLines_cons, List.append_assoc]

theorem settingsLine_text : ∀ (g : Setting) (gs : List Setting),
    0x20 :: settingsLine (g :: gs) = settingsText ((g :: gs).map fun g => ([0x20], g))
  | g, [] => by simp [settingsLine, settingsText, settingText]
  | g, h :: gs => by
    have := settingsLine_text h gs
    rw [settingsLine.eq_def]
    simp only [List.map_cons, settingsText, settingText] at this ⊢
    rw [← this]
    simp

theorem settingsLine_mem {gs : List Setting} {b : UInt8} (h : b ∈ settingsLine gs) :
    b = 0x20 ∨ b = 0x3A ∨ ∃ g ∈ gs, b ∈ g.name ∨ b ∈ g.value := by
  cases gs with
  | nil => cases h
  | cons g gs => exact settingsText_mem (by rw [← settingsLine_text]; exact List.mem_cons_of_mem _ h)

theorem settingsLine_length (gs : List Setting) :
    (settingsLine gs).length ≤ (gs.map fun g => g.name.length + g.value.length + 2).sum := by
  cases gs with
  | nil => exact Nat.zero_le _
  | cons g gs =>
    have := settingsText_sum (g :: gs)
    rw [← settingsLine_text, List.length_cons] at this
    omega

theorem settingsLine_readable {c : Cue} (hp : Proper c) (hk : Keepable c) : Readable (settingsLine c.settings) := by
  refine ⟨?_, ?_⟩
  · intro b hb
    rcases settingsLine_mem hb with rfl | rfl | ⟨g, hg, hb⟩
    · decide
    · decide
    · obtain ⟨-, h1, -, h2⟩ := hp.settings g hg
      rcases hb with hb | hb
      · exact h1.1 b hb
      · exact h2.1 b hb
  · have := settingsLine_length c.settings
    have := hk.settings
    unfold maxLine
    omega

theorem settingsLine_noNul {c : Cue} (hp : Proper c) : NoNul (settingsLine c.settings) := by
  intro b hb
  rcases settingsLine_mem hb with rfl | rfl | ⟨g, hg, hb⟩
  · decide
  · decide
  · obtain ⟨h1, -, h2, -⟩ := hp.settings g hg
    rcases hb with hb | hb
    · exact (h1.2 b hb).1
    · exact (h2.2 b hb).1

theorem settingsLine_ne {g : Setting} {gs : List Setting} : settingsLine (g :: gs) ≠ [] := by
  cases gs <;> simp [settingsLine]

/-- The lines up to the end of the frame. -/
theorem demuxLines_ok : ∀ (ls : List Bytes) {p : Parser}, Before p (ls.map fun l => (l, .lf)) → (∀ l ∈ ls, l ≠ []) →
    demuxLines p = .ok ls
  | [], p, h, _ => by
    rw [demuxLines.eq_def]
    have := getLine_eof h.1 h.2.2.2
    split
    rename_i e line p' heq
    rw [this] at heq
    cases heq
    rw [if_neg (by decide), dif_pos (by decide)]
  | l :: ls, p, h, hne => by
    obtain ⟨q, h1, h2⟩ := getLine_before h
    have ih := demuxLines_ok ls h2 (fun x hx => hne x (by simp [hx]))
    rw [demuxLines.eq_def]
    split
    rename_i e line p' heq
    rw [h1] at heq
    cases heq
    rw [if_neg (by decide), dif_neg (by simpa using hne l (by simp)), ih]
    rfl

theorem demuxPayload_ok {ls : List Bytes} {p : Parser} (h : Before p (ls.map fun l => (l, .lf))) (hne : ls ≠ [])
    (hl : ∀ l ∈ ls, l ≠ [] ∧ NoNul l) : demuxPayload p = .ok (lfLines ls) := by
  unfold demuxPayload
  rw [demuxLines_ok ls h (fun l hx => (hl l hx).1), Res.bind_ok, Res.refuse_neg (by simpa using hne), Res.bind_ok]
  congr 1
  have : ∀ ls : List Bytes, (∀ l ∈ ls, NoNul l) → ls.flatMap (fun l => cText l ++ [0x0A]) = lfLines ls := by
    intro ls
    induction ls with
    | nil => intro _; rfl
    | cons l ls ih =>
      intro h
      rw [List.flatMap_cons, cText_noNul (h l (by simp)), ih (fun x hx => h x (by simp [hx])), lfLines_cons]
      simp
  exact this ls fun l hx => (hl l hx).2

theorem millis_nonneg {t : Time} (h : Normal t) : 0 ≤ millisOf t := by
  obtain ⟨h1, h2, h3, h4, h5, h6, h7⟩ := h
  unfold millisOf
  omega

theorem i64_ok {v : Int} (h : -9223372036854775808 ≤ v ∧ v ≤ 9223372036854775807) : i64 v = .ok v := by
  unfold i64
  rw [if_neg (by omega)]

/-- What the demuxer writes, from what the parser shows of the frame. -/
def demuxSeen (k : Int) (s : SeenFrame) : Res Bytes := do
  let (ident, p) ← demuxIdentifier { rest := s.data }
  let (settings, p) ← demuxSettings p
  let payload ← demuxPayload p
  .ok ([0x0A] ++ ident ++ cueTime (s.time * k) ++ [0x20, 0x2D, 0x2D, 0x3E, 0x20] ++ cueTime (s.time * k + s.duration * k) ++
    settings ++ payload)

theorem watchEntry_one {r : Rdr} {tc : Int} {e : Entry} {s : SeenFrame} (h : watchEntry r tc e = .ok [s]) :
    ∃ f, e.block.frames = [f] ∧ blockGetTimeCode tc e.block.timecode = .ok s.time ∧ f.read r = .ok s.data ∧
      s.track = e.block.track ∧ s.duration = shownDuration e := by
  unfold watchEntry at h
  cases hf : e.block.frames with
  | nil => rw [hf] at h; cases h
  | cons f fs =>
    rw [hf] at h
    unfold watchFrames at h
    obtain ⟨time, h1, h⟩ := Res.bind_eq_ok.mp h
    obtain ⟨data, h2, h⟩ := Res.bind_eq_ok.mp h
    obtain ⟨rest, h3, h⟩ := Res.bind_eq_ok.mp h
    cases h
    cases hr : f.read r with
    | error c => rw [hr] at h2; cases h2
    | ok d =>
      rw [hr] at h2
      cases h2
      cases fs with
      | nil => exact ⟨f, rfl, h1, hr, rfl, rfl⟩
      | cons f' fs =>
        unfold watchFrames at h3
        obtain ⟨_, _, h3⟩ := Res.bind_eq_ok.mp h3
        obtain ⟨_, _, h3⟩ := Res.bind_eq_ok.mp h3
        obtain ⟨_, _, h3⟩ := Res.bind_eq_ok.mp h3
        cases h3

theorem frameParser_read {r : Rdr} {f : BFrame} {d : Bytes} (h : f.read r = .ok d) : frameParser r f = { rest := d } := by
  unfold BFrame.read Rdr.read at h
  by_cases hc : f.len = 0 ∨ f.pos + f.len ≤ r.data.length
  · rw [if_pos hc] at h
    cases h
    have hl : ((r.data.drop f.pos).take f.len).length = f.len := by
      rw [List.length_take, List.length_drop]
      omega
    unfold frameParser
    rw [hl, decide_eq_false (by omega)]
    rfl
  · rw [if_neg hc] at h
    cases h

theorem blockGetTime_of {k tc rel time : Int} (h : blockGetTimeCode tc rel = .ok time) (hk : 0 < k) (h0 : 0 ≤ time)
    (hm : time * k ≤ 9223372036854775807) : blockGetTime k tc rel = .ok (time * k) := by
  have hmax : (llongMax : Int) = 9223372036854775807 := rfl
  have hn := Int.mul_nonneg h0 (Int.le_of_lt hk)
  unfold blockGetTime
  rw [h]
  simp only
  rw [hmax, if_neg (by omega), if_neg, if_neg (by omega)]
  rintro ⟨h1, h2⟩
  have hp : 0 < time := by omega
  rw [Int.tdiv_eq_ediv_of_nonneg (by decide)] at h2
  have := (Int.le_ediv_iff_mul_le hp (a := k) (b := 9223372036854775807)).mpr (by rw [Int.mul_comm]; exact hm)
  omega

/-- The block need not be looked at any further. -/
theorem demuxCue_seen {r : Rdr} {k tc d x y : Int} {b : Block} {s : SeenFrame} (h : watchEntry r tc (.group b x y d) = .ok [s])
    (hk : 0 < k) (h0 : 0 ≤ s.time) (hd : 0 < s.duration) (hm : s.time * k + s.duration * k ≤ 9223372036854775807) :
    demuxCue r (some k) tc b d = demuxSeen k s := by
  obtain ⟨f, h1, h2, h3, h4, h5⟩ := watchEntry_one h
  have h5 : s.duration = d.toNat := h5
  have hsd : (s.duration : Int) = d := by omega
  have e1 := Int.mul_nonneg h0 (Int.le_of_lt hk)
  have e2 := Int.mul_nonneg (a := d) (b := k) (by omega) (Int.le_of_lt hk)
  rw [hsd] at hm
  unfold demuxCue demuxSeen
  rw [show b.frames = [f] from h1]
  simp only
  rw [frameParser_read h3, hsd]
  cases demuxIdentifier { rest := s.data } with
  | ub => rfl
  | err c => rfl
  | ok v =>
    obtain ⟨i, p⟩ := v
    rw [Res.bind_ok, Res.bind_ok]
    simp only
    rw [blockGetTime_of (rel := b.timecode) h2 hk h0 (by omega), Res.bind_ok, Res.refuse_neg (by omega), Res.bind_ok, Res.refuse_neg (by omega), Res.bind_ok,
      i64_ok (by omega), Res.bind_ok, i64_ok (by omega), Res.bind_ok]

/-- The demuxer writes the cue that the block was made from. -/
theorem demuxSeen_ok {k : Int} {s : SeenFrame} {c : Cue} (hp : Proper c) (hk : Keepable c) (hdata : s.data = makeFrame c)
    (hstart : s.time * k = millisOf c.start * 1000000)
    (hd : s.duration * k = (millisOf c.stop - millisOf c.start) * 1000000) : demuxSeen k s = .ok (cueText c) := by
  have hB : Before { rest := makeFrame c } (([c.identifier] ++ ([settingsLine c.settings] ++ c.payload)).map fun l => (l, .lf)) := by
    refine ⟨makeFrame_lines c, unambiguous_lf _, ?_, rfl⟩
    intro x hx
    obtain ⟨l, hl, rfl⟩ := List.mem_map.mp hx
    rw [List.mem_append, List.mem_append, List.mem_singleton, List.mem_singleton] at hl
    rcases hl with rfl | rfl | hl
    · exact hp.ident.1
    · exact settingsLine_readable hp hk
    · exact (hp.payload.2 l hl).2
  obtain ⟨p1, g1, h1⟩ := getLine_before hB
  obtain ⟨p2, g2, h2⟩ := getLine_before h1
  unfold demuxSeen
  rw [hdata]
  unfold demuxIdentifier
  rw [g1]
  simp only
  rw [if_neg (by decide), Res.bind_ok]
  simp only
  unfold demuxSettings
  rw [g2]
  simp only
  rw [if_neg (by decide), Res.bind_ok]
  simp only
  rw [demuxPayload_ok h2 hp.payload.1 (fun l hl => ⟨(hp.payload.2 l hl).1, hk.payload l hl⟩), Res.bind_ok,
    cText_noNul hk.ident, cText_noNul (settingsLine_noNul hp), hstart, hd,
    show millisOf c.start * 1000000 + (millisOf c.stop - millisOf c.start) * 1000000 = millisOf c.stop * 1000000 by omega,
    cueTime_eq hp.start.1, cueTime_eq hp.stop.1]
  congr 1
  have hident : (if c.identifier.isEmpty = true then [] else c.identifier ++ [0x0A]) = lfLines (asWritten 1 c).ident.toList := by
    unfold asWritten
    simp only
    by_cases h : c.identifier = []
    · rw [if_pos (by simpa using h), if_pos h]; rfl
    · rw [if_neg (by simpa using h), if_neg h]
      simp [lfLines, fileOf, Ending.bytes]
  have hset : (if (settingsLine c.settings).isEmpty = true then [] else 0x20 :: settingsLine c.settings) =
      settingsText (c.settings.map fun g => ([0x20], g)) := by
    cases hs : c.settings with
    | nil => rfl
    | cons g gs =>
      rw [if_neg (by simpa using settingsLine_ne), settingsLine_text]
  rw [hident, hset]
  unfold cueText Written.lines
  rw [lfLines_append, lfLines_append, lfLines_append]
  simp [asWritten, lfLines, fileOf, Ending.bytes, Timings.text, arrow, List.append_assoc]

end Verif.Vtt
