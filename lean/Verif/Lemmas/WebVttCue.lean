/-
Lemmas about the WebVTT model: settings, the timings line, whole cues.
-/
import Verif.Lemmas.WebVtt
import Verif.Lemmas.WebVttTime

namespace Verif.Vtt
open Verif Spec

/-! ### Settings -/

theorem nameLoop_word {line s : Bytes} : ∀ (n : Bytes) (i : Nat) (acc : Bytes),
    Sfx line i (n ++ 0x3A :: s) → (∀ c ∈ n, c ≠ 0 ∧ c ≠ 0x20 ∧ c ≠ 0x09 ∧ c ≠ 0x3A) →
    nameLoop line i acc = .ok (acc ++ n, i + n.length)
  | [], i, acc, h, _ => by
    have hlt : i < line.length := Sfx.lt (c := 0x3A) (s := s) h
    have hget : line[i] = 0x3A := Sfx.get (c := 0x3A) (s := s) h
    rw [nameLoop, dif_pos hlt]
    simp only [hget, if_true, List.append_nil]
    rfl
  | c :: n, i, acc, h, hn => by
    have hlt : i < line.length := Sfx.lt (c := c) (s := n ++ 0x3A :: s) h
    have hget : line[i] = c := Sfx.get (c := c) (s := n ++ 0x3A :: s) h
    have hc := hn c (by simp)
    rw [nameLoop, dif_pos hlt]
    simp only [hget, if_neg hc.2.2.2]
    rw [if_neg (by simp [hc.1, hc.2.1, hc.2.2.1]),
      nameLoop_word n (i + 1) (acc ++ [c]) (Sfx.tail (c := c) (s := n ++ 0x3A :: s) h)
        (fun d hd => hn d (by simp [hd]))]
    simp only [List.append_assoc, List.cons_append, List.nil_append, List.length_cons]
    rw [show i + 1 + n.length = i + (n.length + 1) from by omega]

theorem valueLoop_word {line s : Bytes} (hs : Stop s) : ∀ (n : Bytes) (i : Nat) (acc : Bytes),
    Sfx line i (n ++ s) → (∀ c ∈ n, c ≠ 0 ∧ c ≠ 0x20 ∧ c ≠ 0x09 ∧ c ≠ 0x3A) →
    valueLoop line i acc = .ok (acc ++ n, i + n.length)
  | [], i, acc, h, _ => by
    rw [valueLoop]
    cases s with
    | nil =>
      rw [dif_neg (by have := Sfx.nil h; omega), if_pos (Sfx.nil h)]
      simp
    | cons c t =>
      have hlt : i < line.length := Sfx.lt (c := c) (s := t) h
      have hget : line[i] = c := Sfx.get (c := c) (s := t) h
      rw [dif_pos hlt]
      have hs' : c = 0 ∨ c = 0x20 ∨ c = 0x09 := hs
      simp only [hget, if_pos hs', List.append_nil]
      rfl
  | c :: n, i, acc, h, hn => by
    have hlt : i < line.length := Sfx.lt (c := c) (s := n ++ s) h
    have hget : line[i] = c := Sfx.get (c := c) (s := n ++ s) h
    have hc := hn c (by simp)
    rw [valueLoop, dif_pos hlt]
    simp only [hget]
    rw [if_neg (by simp [hc.1, hc.2.1, hc.2.2.1]), if_neg hc.2.2.2,
      valueLoop_word hs n (i + 1) (acc ++ [c]) (Sfx.tail (c := c) (s := n ++ s) h)
        (fun d hd => hn d (by simp [hd]))]
    simp only [List.append_assoc, List.cons_append, List.nil_append, List.length_cons]
    rw [show i + 1 + n.length = i + (n.length + 1) from by omega]

theorem blank_stop {b s : Bytes} (hb : Blank b) (hs : Stop s) : Stop (b ++ s) := by
  cases b with
  | nil => exact hs
  | cons c t =>
    rcases hb c (by simp) with h | h
    · exact Or.inr (Or.inl h)
    · exact Or.inr (Or.inr h)

theorem settings_stop {gs : List (Bytes × Setting)} {s : Bytes}
    (hg : ∀ g ∈ gs, Blank g.1 ∧ g.1 ≠ [] ∧ Word g.2.name ∧ Word g.2.value) (hs : Stop s) :
    Stop (settingsText gs ++ s) := by
  cases gs with
  | nil => exact hs
  | cons g r =>
    obtain ⟨hb, hne, -, -⟩ := hg g (by simp)
    obtain ⟨b, t⟩ := g
    cases b with
    | nil => exact absurd rfl hne
    | cons c u =>
      rcases hb c (by simp) with h | h
      · exact Or.inr (Or.inl h)
      · exact Or.inr (Or.inr h)

theorem word_noBlank {n s : Bytes} (h : Word n) : NoBlank (n ++ s) := by
  cases n with
  | nil => exact absurd rfl h.1
  | cons c t =>
    intro d u e
    cases e
    have := h.2 c (by simp)
    simp [this.2.1, this.2.2.1]

theorem settingsLoop_ok {line b4 : Bytes} (hb4 : Blank b4) :
    ∀ (gs : List (Bytes × Setting)) (fuel i : Nat),
      (∀ g ∈ gs, Blank g.1 ∧ g.1 ≠ [] ∧ Word g.2.name ∧ Word g.2.value) →
      Sfx line i (settingsText gs ++ (b4 ++ [0])) → gs.length < fuel →
      settingsLoop line fuel i = .ok (gs.map Prod.snd)
  | gs, 0, i, _, _, h => by omega
  | [], fuel + 1, i, _, h, _ => by
    have h' : Sfx line i (b4 ++ [0]) := h
    unfold settingsLoop
    rw [skipWs_blank (by intro c t e; cases e; decide) b4 i h' hb4, Res.bind_ok,
      charAt_cons (Sfx.drop h'), Res.bind_ok, if_pos rfl]
    rfl
  | g :: r, fuel + 1, i, hg, h, hf => by
    obtain ⟨b, ⟨n, v⟩⟩ := g
    obtain ⟨hb, hne, hn, hv⟩ := hg (b, ⟨n, v⟩) (by simp)
    simp only at hb hne hn hv
    have hr : ∀ g ∈ r, Blank g.1 ∧ g.1 ≠ [] ∧ Word g.2.name ∧ Word g.2.value :=
      fun g hg' => hg g (by simp [hg'])
    have h0 : Sfx line i (b ++ (n ++ 0x3A :: (v ++ (settingsText r ++ (b4 ++ [0]))))) := by
      simpa [settingsText, settingText] using h
    have h1 := Sfx.drop h0
    have h2 := Sfx.drop h1
    have h3 := Sfx.tail h2
    have h4 := Sfx.drop h3
    have hstop : Stop (settingsText r ++ (b4 ++ [0])) :=
      settings_stop hr (blank_stop hb4 (Or.inl rfl))
    have hhead : (n ++ 0x3A :: (v ++ (settingsText r ++ (b4 ++ [0])))).headD 0 ≠ 0 := by
      cases n with
      | nil => exact absurd rfl hn.1
      | cons c t => exact (hn.2 c (by simp)).1
    have hne1 : ¬ (([] : Bytes) ++ n).isEmpty = true := by
      cases n with
      | nil => exact absurd rfl hn.1
      | cons c t => simp
    have hne2 : ¬ (([] : Bytes) ++ v).isEmpty = true := by
      cases v with
      | nil => exact absurd rfl hv.1
      | cons c t => simp
    simp only [List.length_cons] at hf
    unfold settingsLoop
    rw [skipWs_blank (word_noBlank hn) b i h0 hb, Res.bind_ok, charAt_head h1, Res.bind_ok,
      if_neg hhead, nameLoop_word n _ [] h1 hn.2, Res.bind_ok]
    simp only
    rw [Res.refuse_neg hne1, Res.bind_ok, valueLoop_word hstop v _ [] h3 hv.2, Res.bind_ok]
    simp only
    rw [Res.refuse_neg hne2, Res.bind_ok,
      settingsLoop_ok hb4 r fuel _ hr h4 (by omega), Res.bind_ok]
    simp

theorem settingsText_length (gs : List (Bytes × Setting)) :
    gs.length ≤ (settingsText gs).length := by
  induction gs with
  | nil => simp
  | cons g r ih => simp [settingsText, settingText]; omega

theorem junkLoop_blank {line s : Bytes} : ∀ (b : Bytes) (i : Nat), Sfx line i (b ++ 0 :: s) →
    Blank b → junkLoop line i = .ok ()
  | [], i, h, _ => by
    have hlt : i < line.length := Sfx.lt (c := 0) (s := s) h
    have hget : line[i] = 0 := Sfx.get (c := 0) (s := s) h
    rw [junkLoop, dif_pos hlt]
    simp only [hget, if_true]
  | c :: b, i, h, hb => by
    have hlt : i < line.length := Sfx.lt (c := c) (s := b ++ 0 :: s) h
    have hget : line[i] = c := Sfx.get (c := c) (s := b ++ 0 :: s) h
    have hc := hb c (by simp)
    rw [junkLoop, dif_pos hlt]
    simp only [hget]
    rw [if_neg (by rcases hc with rfl | rfl <;> decide),
      if_neg (by rcases hc with rfl | rfl <;> decide),
      junkLoop_blank b (i + 1) (Sfx.tail (c := c) (s := b ++ 0 :: s) h)
        (fun d hd => hb d (by simp [hd]))]

/-! ### The timings line -/

theorem set_append (a b : Bytes) (c d : UInt8) : (a ++ c :: b).set a.length d = a ++ d :: b := by
  induction a with
  | nil => rfl
  | cons x a ih => simp

theorem parseTimingsLine_ok {t : Timings} (ht : t.Legal) :
    parseTimingsLine t.text (t.b1 ++ t.start.text ++ t.b2).length =
      .ok (readStamp t.start, readStamp t.stop, t.settings.map Prod.snd) := by
  obtain ⟨hb1, hb2, hb3, hb4, hw1, hw2, -, -, hg⟩ := ht
  have htext : t.text = (t.b1 ++ t.start.text ++ t.b2) ++ 0x2D :: (0x2D :: 0x3E ::
      (t.b3 ++ (t.stop.text ++ (settingsText t.settings ++ t.b4)))) := by
    simp [Timings.text, arrow]
  unfold parseTimingsLine
  rw [Res.refuse_neg (by rw [htext]; simp), Res.bind_ok]
  simp only
  have hset : t.text.set (t.b1 ++ t.start.text ++ t.b2).length 0 =
      t.b1 ++ (t.start.text ++ (t.b2 ++ 0 :: (0x2D :: 0x3E ::
      (t.b3 ++ (t.stop.text ++ (settingsText t.settings ++ t.b4)))))) := by
    rw [htext, set_append]; simp
  rw [hset]
  generalize hB : (t.b3 ++ (t.stop.text ++ (settingsText t.settings ++ t.b4))) = B
  have h0 := Sfx.start (t.b1 ++ (t.start.text ++ (t.b2 ++ 0 :: (0x2D :: 0x3E :: B))))
  have h1 := Sfx.drop h0
  have h2 := Sfx.drop h1
  rw [parseTime_ok h0 hb1 hw1 (blank_stop hb2 (Or.inl rfl)), Res.bind_ok]
  simp only
  rw [junkLoop_blank t.b2 _ h2 hb2, Res.bind_ok]
  have g0 : Sfx ((t.b1 ++ (t.start.text ++ (t.b2 ++ 0 :: (0x2D :: 0x3E :: B)))) ++ [0])
      ((t.b1 ++ t.start.text ++ t.b2).length + 3) (B ++ [0]) := by
    refine ⟨by simp; omega, ?_⟩
    have : (t.b1 ++ (t.start.text ++ (t.b2 ++ 0 :: (0x2D :: 0x3E :: B)))) ++ [0] =
        (t.b1 ++ t.start.text ++ t.b2 ++ [0, 0x2D, 0x3E]) ++ (B ++ [0]) := by simp
    rw [this]
    have hl : (t.b1 ++ t.start.text ++ t.b2).length + 3 =
        (t.b1 ++ t.start.text ++ t.b2 ++ [0, 0x2D, 0x3E]).length := by
      rw [List.length_append (bs := [0, 0x2D, 0x3E])]; rfl
    rw [hl, List.drop_left]
  have g1 : Sfx ((t.b1 ++ (t.start.text ++ (t.b2 ++ 0 :: (0x2D :: 0x3E :: B)))) ++ [0])
      ((t.b1 ++ t.start.text ++ t.b2).length + 3)
      (t.b3 ++ (t.stop.text ++ (settingsText t.settings ++ (t.b4 ++ [0])))) := by
    rw [← hB] at g0 ⊢; simpa using g0
  have hstop : Stop (settingsText t.settings ++ (t.b4 ++ [0])) :=
    settings_stop hg (blank_stop hb4 (Or.inl rfl))
  have g2 := Sfx.drop (Sfx.drop g1)
  rw [parseTime_ok g1 hb3 hw2 hstop, Res.bind_ok]
  simp only
  generalize hL : (t.b1 ++ (t.start.text ++ (t.b2 ++ 0 :: (0x2D :: 0x3E :: B)))) ++ [0] = line at g2
  have hlen := g2.length
  have hgl := settingsText_length t.settings
  unfold parseSettings
  simp only [List.length_append, List.length_cons, List.length_nil] at hlen
  rw [Res.refuse_neg (by simp only [List.length_append]; omega), Res.bind_ok,
    settingsLoop_ok hb4 t.settings _ _ hg g2 (by omega), Res.bind_ok]

theorem findArrow_skip : ∀ (a b : Bytes) (off : Nat), (∀ c ∈ a, c ≠ 0x2D) →
    findArrow off (a ++ arrow ++ b) = some (off + a.length)
  | [], b, off, _ => by simp [arrow, findArrow]
  | c :: a, b, off, h => by
    have hc := h c (by simp)
    have ih := findArrow_skip a b (off + 1) (fun d hd => h d (by simp [hd]))
    show findArrow off (c :: (a ++ arrow ++ b)) = _
    rw [findArrow]
    · rw [ih]; simp only [List.length_cons]; congr 1; omega
    · intro r e; cases e; exact absurd rfl hc

theorem findArrow_some : ∀ (s : Bytes) (off a : Nat), findArrow off s = some a →
    off ≤ a ∧ a + 3 ≤ off + s.length
  | [], off, a, h => by simp [findArrow] at h
  | c :: s, off, a, h => by
    unfold findArrow at h
    split at h
    · rename_i heq; cases h; cases heq; simp
    · rename_i heq; cases heq
      have := findArrow_some _ _ _ h
      simp only [List.length_cons]; omega
    · cases h

theorem findArrow_none : ∀ (s : Bytes) (off : Nat), ¬ HasArrow s → findArrow off s = none
  | [], off, _ => rfl
  | c :: s, off, h => by
    rw [findArrow]
    · exact findArrow_none s (off + 1) (fun ⟨a, b, e⟩ => h ⟨c :: a, b, by simp [e]⟩)
    · intro r e1 e2
      exact h ⟨[], r, by simp [arrow, e1, e2]⟩

theorem stamp_noDash {w : Stamp} (hw : w.Legal) : ∀ c ∈ w.text, c ≠ 0x2D := by
  have key : ∀ d : Bytes, Digits d → ∀ c ∈ d, c ≠ 0x2D := by
    intro d hd c hc e
    subst e
    have := hd.2 _ hc
    revert this; decide
  have hclock : ∀ c ∈ w.clock.text, c ≠ 0x2D := by
    intro c hc
    have hl := hw.1
    cases hk : w.clock with
    | sec d => rw [hk] at hc hl; exact key d hl.1 c hc
    | minSec m d =>
      rw [hk] at hc hl
      simp only [Clock.text, List.mem_append, List.mem_singleton] at hc
      rcases hc with (hc | hc) | hc
      · exact key m hl.1 c hc
      · subst hc; decide
      · exact key d hl.2.1 c hc
    | hourMinSec h m d =>
      rw [hk] at hc hl
      simp only [Clock.text, List.mem_append, List.mem_singleton] at hc
      rcases hc with (((hc | hc) | hc) | hc) | hc
      · exact key h hl.1 c hc
      · subst hc; decide
      · exact key m hl.2.1 c hc
      · subst hc; decide
      · exact key d hl.2.2.1 c hc
  intro c hc
  rw [stamp_text, List.mem_append] at hc
  rcases hc with hc | hc
  · exact hclock c hc
  · cases hf : w.frac with
    | none => rw [hf] at hc; simp [fracText] at hc
    | some f =>
      rw [hf] at hc
      simp only [fracText, List.mem_cons] at hc
      rcases hc with rfl | hc
      · decide
      · exact key f (hw.2 f hf).1 c hc

theorem blank_noDash {b : Bytes} (h : Blank b) : ∀ c ∈ b, c ≠ 0x2D := by
  intro c hc; rcases h c hc with rfl | rfl <;> decide

theorem findArrow_timings {t : Timings} (ht : t.Legal) :
    findArrow 0 t.text = some (t.b1 ++ t.start.text ++ t.b2).length := by
  have := findArrow_skip (t.b1 ++ t.start.text ++ t.b2)
    (t.b3 ++ t.stop.text ++ settingsText t.settings ++ t.b4) 0 (by
      intro c hc
      rw [List.mem_append, List.mem_append] at hc
      rcases hc with (hc | hc) | hc
      · exact blank_noDash ht.1 c hc
      · exact stamp_noDash ht.2.2.2.2.1 c hc
      · exact blank_noDash ht.2.1 c hc)
  rw [Nat.zero_add] at this
  rw [← this]
  congr 1
  simp [Timings.text]

/-! ### No access outside the line -/

theorem bind_not_ub {α β : Type} {x : Res α} {f : α → Res β} (h : x ≠ .ub)
    (hf : ∀ a, x = .ok a → f a ≠ .ub) : (x >>= f) ≠ .ub := by
  cases x with
  | ok a => exact hf a rfl
  | err c => intro e; cases e
  | ub => exact absurd rfl h

theorem refuse_not_ub {p : Prop} [Decidable p] {c : Int} : Res.refuse p c ≠ .ub := by
  unfold Res.refuse; split <;> simp

theorem charAt_not_ub {line : Bytes} {i : Nat} (h : i ≤ line.length) : charAt line i ≠ .ub := by
  rw [charAt_head (Sfx.of_le h)]; simp

theorem parseNumber_le {line : Bytes} {i v j : Nat} (h : parseNumber line i = .ok (v, j)) :
    j ≤ line.length := by
  obtain ⟨ds, s, hs, -, -, -, -, rfl⟩ := parseNumber_inv h
  have := hs.length
  simp only [List.length_append] at this; omega

theorem parseClock_not_ub (line : Bytes) (i : Nat) : parseClock line i ≠ .ub := by
  unfold parseClock
  refine bind_not_ub (parseNumber_not_ub _ _) ?_
  rintro ⟨a, j⟩ h1
  refine bind_not_ub (charAt_not_ub (parseNumber_le h1)) ?_
  intro c _
  split
  · refine bind_not_ub (parseNumber_not_ub _ _) ?_
    rintro ⟨b, k⟩ h2
    refine bind_not_ub refuse_not_ub ?_
    intro _ _
    refine bind_not_ub (charAt_not_ub (parseNumber_le h2)) ?_
    intro c _
    split
    · refine bind_not_ub (parseNumber_not_ub _ _) ?_
      rintro ⟨b, k⟩ h2
      refine bind_not_ub refuse_not_ub ?_
      intro _ _; simp
    · refine bind_not_ub refuse_not_ub ?_
      intro _ _; simp
  · simp

theorem parseFraction_not_ub {line : Bytes} {i : Nat} (h : i ≤ line.length) :
    parseFraction line i ≠ .ub := by
  unfold parseFraction
  refine bind_not_ub (charAt_not_ub h) ?_
  intro c _
  split
  · refine bind_not_ub (parseNumber_not_ub _ _) ?_
    rintro ⟨b, k⟩ h2
    refine bind_not_ub refuse_not_ub ?_
    intro _ _; simp
  · simp

theorem parseTime_not_ub (line : Bytes) (i : Nat) : parseTime line i ≠ .ub := by
  unfold parseTime
  by_cases hi : i ≥ line.length
  · rw [Res.refuse_pos hi]; intro e; cases e
  rw [Res.refuse_neg hi, Res.bind_ok]
  obtain ⟨b, s, hs, hb, hnb, hw⟩ := skipWs_total (line := line) (i := i) (by omega)
  rw [hw, Res.bind_ok]
  refine bind_not_ub (parseClock_not_ub _ _) ?_
  intro x hx
  obtain ⟨w, s1, hs1, -, -, rfl⟩ := parseClock_inv hx
  simp only
  have h1 := Sfx.drop hs1
  refine bind_not_ub (parseFraction_not_ub h1.1) ?_
  intro y hy
  obtain ⟨f, s2, e2, -, rfl⟩ := parseFraction_inv h1 hy
  rw [e2] at h1
  simp only
  refine bind_not_ub (charAt_not_ub (Sfx.drop h1).1) ?_
  intro c _
  refine bind_not_ub refuse_not_ub ?_
  intro _ _; simp

theorem parseTime_le {line : Bytes} {i j : Nat} {t : Time} (h : parseTime line i = .ok (t, j)) :
    j ≤ line.length := by
  obtain ⟨b, w, s, hs, -, -, -, -, rfl⟩ := parseTime_inv h
  exact (Sfx.drop (Sfx.drop hs)).1

theorem junkLoop_not_ub (line : Bytes) (i : Nat) (h : i ≤ line.length) : junkLoop line i ≠ .ub := by
  fun_induction junkLoop line i with
  | case1 => simp
  | case2 => simp
  | case3 i hlt c _ _ ih => exact ih (by omega)
  | case4 => simp
  | case5 => omega

theorem nameLoop_total (line : Bytes) (i : Nat) (acc : Bytes) (h : i ≤ line.length) :
    nameLoop line i acc ≠ .ub ∧
      ∀ n j, nameLoop line i acc = .ok (n, j) → i ≤ j ∧ j < line.length := by
  fun_induction nameLoop line i acc with
  | case1 i acc hlt => refine ⟨by simp, ?_⟩; intro n j e; cases e; exact ⟨Nat.le_refl _, hlt⟩
  | case2 => refine ⟨by simp, ?_⟩; intro n j e; cases e
  | case3 i acc hlt c _ _ ih =>
    obtain ⟨a, b⟩ := ih (by omega)
    refine ⟨a, ?_⟩
    intro n j e
    have := b n j e
    omega
  | case4 => refine ⟨by simp, ?_⟩; intro n j e; cases e
  | case5 => omega

theorem valueLoop_total (line : Bytes) (i : Nat) (acc : Bytes) (h : i ≤ line.length) :
    valueLoop line i acc ≠ .ub ∧
      ∀ n j, valueLoop line i acc = .ok (n, j) → i ≤ j ∧ j ≤ line.length := by
  fun_induction valueLoop line i acc with
  | case1 i acc hlt => refine ⟨by simp, ?_⟩; intro n j e; cases e; omega
  | case2 => refine ⟨by simp, ?_⟩; intro n j e; cases e
  | case3 i acc hlt c _ _ ih =>
    obtain ⟨a, b⟩ := ih (by omega)
    refine ⟨a, ?_⟩
    intro n j e
    have := b n j e
    omega
  | case4 => refine ⟨by simp, ?_⟩; intro n j e; cases e; omega
  | case5 => omega

theorem settingsLoop_not_ub (line : Bytes) : ∀ (fuel i : Nat), i ≤ line.length →
    line.length - i < fuel → settingsLoop line fuel i ≠ .ub
  | 0, i, _, h => by omega
  | fuel + 1, i, hi, hf => by
    unfold settingsLoop
    obtain ⟨b, s, hs, hb, hnb, hw⟩ := skipWs_total (line := line) (i := i) hi
    have h1 := Sfx.drop hs
    rw [hw, Res.bind_ok]
    refine bind_not_ub (charAt_not_ub h1.1) ?_
    intro c _
    split
    · simp
    · obtain ⟨a1, a2⟩ := nameLoop_total line (i + b.length) [] h1.1
      refine bind_not_ub a1 ?_
      rintro ⟨n, j⟩ hn
      have hj := a2 n j hn
      refine bind_not_ub refuse_not_ub ?_
      intro _ _
      obtain ⟨b1, b2⟩ := valueLoop_total line (j + 1) [] (by omega)
      refine bind_not_ub b1 ?_
      rintro ⟨v, k⟩ hv
      have hk := b2 v k hv
      refine bind_not_ub refuse_not_ub ?_
      intro _ _
      refine bind_not_ub (settingsLoop_not_ub line fuel k hk.2 (by omega)) ?_
      intro _ _; simp

theorem parseTimingsLine_not_ub (line : Bytes) (a : Nat) : parseTimingsLine line a ≠ .ub := by
  unfold parseTimingsLine
  refine bind_not_ub refuse_not_ub ?_
  intro _ _
  refine bind_not_ub (parseTime_not_ub _ _) ?_
  rintro ⟨t, j⟩ h1
  refine bind_not_ub (junkLoop_not_ub _ _ (parseTime_le h1)) ?_
  intro _ _
  refine bind_not_ub (parseTime_not_ub _ _) ?_
  rintro ⟨t2, k⟩ h2
  have hk := parseTime_le h2
  refine bind_not_ub ?_ (fun _ _ => by simp)
  unfold parseSettings
  refine bind_not_ub refuse_not_ub ?_
  intro _ _
  exact settingsLoop_not_ub _ _ _ hk (by omega)

/-! ### Whole cues -/

/-- A parser in front of these lines. -/
def Before (p : Parser) (ls : List (Bytes × Ending)) : Prop :=
  p.stream = fileOf ls [] ∧ Unambiguous ls ∧ (∀ x ∈ ls, Readable x.1) ∧ p.fails = false

theorem Readable.plain {l : Bytes} (h : Readable l) : Plain l :=
  fun c hc => ⟨(h.1 c hc).1, (h.1 c hc).2.1⟩

theorem getLine_before {p : Parser} {l : Bytes} {e : Ending} {r : List (Bytes × Ending)}
    (h : Before p ((l, e) :: r)) : ∃ p', p.getLine = (0, l, p') ∧ Before p' r := by
  obtain ⟨h1, h2, h3, h4⟩ := h
  obtain ⟨p', g1, g2, g3⟩ := getLine_line (s := fileOf r []) (by rw [h1]; rfl)
    (h3 (l, e) (by simp))
    (file_after h2 (fun x hx => Readable.plain (h3 x (by simp [hx]))) (by simp [Plain])) h4
  exact ⟨p', g1, g2, unambiguous_tail h2, fun x hx => h3 x (by simp [hx]), g3⟩

theorem firstLine_before : ∀ (n : Nat) {p : Parser} {l : Bytes} {ls r : List (Bytes × Ending)},
    Before p (ls ++ r) → ls.map Prod.fst = List.replicate n [] ++ [l] → l ≠ [] →
    ∃ p', p.firstLine = (0, l, p') ∧ Before p' r
  | n, p, l, [], r, h, hm, hl => by cases n <;> simp at hm
  | 0, p, l, (x, e) :: ls, r, h, hm, hl => by
    simp only [List.replicate_zero, List.nil_append, List.map_cons, List.cons.injEq,
      List.map_eq_nil_iff] at hm
    obtain ⟨rfl, rfl⟩ := hm
    obtain ⟨p', h1, h2⟩ := getLine_before h
    refine ⟨p', ?_, h2⟩
    rw [firstLine_step h1, if_neg (by simp), if_neg (by simpa using hl)]
  | n + 1, p, l, (x, e) :: ls, r, h, hm, hl => by
    simp only [List.replicate_succ, List.cons_append, List.map_cons, List.cons.injEq] at hm
    obtain ⟨rfl, hm⟩ := hm
    obtain ⟨p', h1, h2⟩ := getLine_before h
    rw [firstLine_step h1, if_neg (by simp), if_pos (by simp)]
    exact firstLine_before n h2 hm hl

/-- The end of a payload: a blank line or the end of the file. -/
theorem payloadLoop_before : ∀ (pl : List Bytes) {p : Parser} {acc : List Bytes}
    {ls r : List (Bytes × Ending)}, Before p (ls ++ r) →
    ls.map Prod.fst = pl ++ [[]] → (∀ l ∈ pl, l ≠ []) →
    ∃ p', p.payloadLoop acc = (0, acc ++ pl, p') ∧ Before p' r
  | pl, p, acc, [], r, h, hm, hl => by simp at hm
  | [], p, acc, (x, e) :: ls, r, h, hm, hl => by
    simp only [List.nil_append, List.map_cons, List.cons.injEq, List.map_eq_nil_iff] at hm
    obtain ⟨rfl, rfl⟩ := hm
    obtain ⟨p', h1, h2⟩ := getLine_before h
    refine ⟨p', ?_, h2⟩
    rw [payloadLoop_step acc h1, if_neg (by simp), if_pos (by simp), List.append_nil]
  | y :: pl, p, acc, (x, e) :: ls, r, h, hm, hl => by
    simp only [List.cons_append, List.map_cons, List.cons.injEq] at hm
    obtain ⟨rfl, hm⟩ := hm
    obtain ⟨p', h1, h2⟩ := getLine_before h
    have hx := hl x (by simp)
    obtain ⟨q, g1, g2⟩ := payloadLoop_before pl (acc := acc ++ [x]) h2 hm
      (fun l hl' => hl l (by simp [hl']))
    refine ⟨q, ?_, g2⟩
    rw [payloadLoop_step acc h1, if_neg (by simp), if_neg (by simpa using hx), g1]
    simp

theorem payloadLoop_eof : ∀ (pl : List Bytes) {p : Parser} {acc : List Bytes}
    {ls : List (Bytes × Ending)}, Before p ls →
    ls.map Prod.fst = pl → (∀ l ∈ pl, l ≠ []) →
    ∃ p', p.payloadLoop acc = (0, acc ++ pl, p') ∧ Before p' []
  | [], p, acc, ls, h, hm, hl => by
    simp only [List.map_eq_nil_iff] at hm
    subst hm
    refine ⟨p, ?_, h⟩
    rw [payloadLoop_step acc (getLine_eof h.1 h.2.2.2), if_neg (by decide), if_pos (by simp),
      List.append_nil]
  | y :: pl, p, acc, [], h, hm, hl => by simp at hm
  | y :: pl, p, acc, (x, e) :: ls, h, hm, hl => by
    simp only [List.map_cons, List.cons.injEq] at hm
    obtain ⟨rfl, hm⟩ := hm
    obtain ⟨p', h1, h2⟩ := getLine_before h
    have hx := hl x (by simp)
    obtain ⟨q, g1, g2⟩ := payloadLoop_eof pl (acc := acc ++ [x]) h2 hm
      (fun l hl' => hl l (by simp [hl']))
    refine ⟨q, ?_, g2⟩
    rw [payloadLoop_step acc h1, if_neg (by simp), if_neg (by simpa using hx), g1]
    simp

theorem timings_ne {t : Timings} : t.text ≠ [] := by
  intro e
  have := congrArg List.length e
  simp [Timings.text, arrow] at this

/-- The cue that is read. -/
def readCue (w : Written) : Cue :=
  ⟨w.ident.getD [], readStamp w.timings.start, readStamp w.timings.stop,
    w.timings.settings.map Prod.snd, w.payload⟩

theorem readCue_is {w : Written} (h : w.Legal) : w.Is (readCue w) := by
  obtain ⟨ht, -, -, -, -⟩ := h
  obtain ⟨-, -, -, -, h1, h2, z1, z2, -⟩ := ht
  obtain ⟨a1, -, a3⟩ := readStamp_denotes h1
  obtain ⟨b1, -, b3⟩ := readStamp_denotes h2
  exact ⟨rfl, a1, a3 z1, b1, b3 z2, rfl, rfl⟩

/-- Splitting a list of lines with endings by the lines. -/
theorem map_split {a b : List Bytes} {ls : List (Bytes × Ending)}
    (h : ls.map Prod.fst = a ++ b) :
    ∃ x y, ls = x ++ y ∧ x.map Prod.fst = a ∧ y.map Prod.fst = b :=
  List.map_eq_append_iff.mp h

theorem timingsLine_before {w : Written} (hw : w.Legal) {p : Parser} {ls r : List (Bytes × Ending)}
    (h : Before p (ls ++ r))
    (hm : ls.map Prod.fst = List.replicate w.blanks [] ++ w.ident.toList ++ [w.timings.text]) :
    ∃ p', p.timingsLine = (0, (w.ident.getD [], w.timings.text,
      (w.timings.b1 ++ w.timings.start.text ++ w.timings.b2).length), p') ∧ Before p' r := by
  obtain ⟨ht, -, hi, -, -⟩ := hw
  unfold Parser.timingsLine
  cases hid : w.ident with
  | none =>
    rw [hid] at hm
    obtain ⟨p', h1, h2⟩ := firstLine_before w.blanks h (by simpa using hm) timings_ne
    refine ⟨p', ?_, h2⟩
    rw [h1]
    simp only
    rw [if_neg (by simp), findArrow_timings ht]
    rfl
  | some i =>
    rw [hid] at hm
    obtain ⟨hne, -, hna⟩ := hi i hid
    simp only [Option.toList_some, List.append_assoc] at hm
    rw [← List.append_assoc] at hm
    obtain ⟨x, y, rfl, hx, hy⟩ := map_split hm
    rw [List.append_assoc] at h
    obtain ⟨p', h1, h2⟩ := firstLine_before w.blanks h hx hne
    cases y with
    | nil => simp at hy
    | cons z y =>
      obtain ⟨l, e⟩ := z
      simp only [List.map_cons, List.cons.injEq, List.map_eq_nil_iff] at hy
      obtain ⟨rfl, rfl⟩ := hy
      obtain ⟨p2, g1, g2⟩ := getLine_before h2
      refine ⟨p2, ?_, g2⟩
      rw [h1]
      simp only
      rw [if_neg (by simp), findArrow_none i 0 hna]
      simp only [g1]
      rw [if_neg (by simp), if_neg (by simp), findArrow_timings ht]
      rfl

theorem parse_of_payload {w : Written} (hw : w.Legal) {p p1 p2 : Parser}
    (h1 : p.timingsLine = (0, (w.ident.getD [], w.timings.text,
      (w.timings.b1 ++ w.timings.start.text ++ w.timings.b2).length), p1))
    (h2 : p1.payloadLoop [] = (0, [] ++ w.payload, p2)) : p.parse = (.ok (readCue w), p2) := by
  obtain ⟨ht, -, -, hpl, -⟩ := hw
  unfold Parser.parse
  rw [h1]
  simp only
  rw [if_neg (by simp), parseTimingsLine_ok ht]
  simp only [h2, List.nil_append]
  rw [if_neg (by simp), if_neg (by simpa using hpl)]
  rfl

theorem parse_before {w : Written} (hw : w.Legal) {p : Parser} {ls r : List (Bytes × Ending)}
    (h : Before p (ls ++ r)) (hm : ls.map Prod.fst = w.lines ++ [[]]) :
    ∃ p', p.parse = (.ok (readCue w), p') ∧ Before p' r := by
  unfold Written.lines at hm
  rw [List.append_assoc] at hm
  obtain ⟨x, y, rfl, hx, hy⟩ := map_split hm
  rw [List.append_assoc] at h
  obtain ⟨p1, h1, h2⟩ := timingsLine_before hw h hx
  obtain ⟨p2, h3, h4⟩ := payloadLoop_before w.payload (acc := []) h2 hy
    (fun l hl => (hw.2.2.2.2 l hl).1)
  exact ⟨p2, parse_of_payload hw h1 h3, h4⟩

theorem parse_before_eof {w : Written} (hw : w.Legal) {p : Parser} {ls : List (Bytes × Ending)}
    (h : Before p ls) (hm : ls.map Prod.fst = w.lines) :
    ∃ p', p.parse = (.ok (readCue w), p') ∧ Before p' [] := by
  unfold Written.lines at hm
  obtain ⟨x, y, rfl, hx, hy⟩ := map_split hm
  obtain ⟨p1, h1, h2⟩ := timingsLine_before hw h hx
  obtain ⟨p2, h3, h4⟩ := payloadLoop_eof w.payload (acc := []) h2 hy
    (fun l hl => (hw.2.2.2.2 l hl).1)
  exact ⟨p2, parse_of_payload hw h1 h3, h4⟩

theorem firstLine_eof : ∀ (ls : List (Bytes × Ending)) {p : Parser}, Before p ls →
    (∀ x ∈ ls, x.1 = []) → ∃ p', p.firstLine = (1, [], p') ∧ Before p' []
  | [], p, h, _ => ⟨p, by rw [firstLine_step (getLine_eof h.1 h.2.2.2), if_pos (by decide)], h⟩
  | (x, e) :: ls, p, h, hx => by
    obtain ⟨p', h1, h2⟩ := getLine_before h
    obtain ⟨q, g1, g2⟩ := firstLine_eof ls h2 (fun x hx' => hx x (by simp [hx']))
    have : x = [] := hx (x, e) (by simp)
    refine ⟨q, ?_, g2⟩
    rw [firstLine_step h1, if_neg (by simp), if_pos (by simp [this]), g1]

theorem parse_end {ls : List (Bytes × Ending)} {p : Parser} (h : Before p ls)
    (hx : ∀ x ∈ ls, x.1 = []) : ∃ p', p.parse = (.err 1, p') ∧ Before p' [] := by
  obtain ⟨p', h1, h2⟩ := firstLine_eof ls h hx
  refine ⟨p', ?_, h2⟩
  unfold Parser.parse Parser.timingsLine
  rw [h1]
  rfl

theorem idLoop_take : ∀ (bs : List UInt8) {p : Parser} {s : Bytes}, p.stream = bs ++ s →
    ∃ p', p.idLoop bs = (0, p') ∧ p'.stream = s ∧ p'.fails = p.fails
  | [], p, s, h => ⟨p, rfl, h, rfl⟩
  | b :: bs, p, s, h => by
    obtain ⟨p', h1, h2, h3, -⟩ := getChar_cons (p := p) (c := b) (s := bs ++ s) h
    obtain ⟨q, g1, g2, g3⟩ := idLoop_take bs h2
    exact ⟨q, by simp [Parser.idLoop, h1, g1], g2, g3.trans h3⟩

/-- The byte order mark. -/
def bom : Bytes := [0xEF, 0xBB, 0xBF]

theorem bomLoop_take : ∀ (bs : List UInt8) (first : Bool) {p : Parser} {s : Bytes},
    p.stream = bs ++ s → ∃ p', p.bomLoop bs first = (0, p') ∧ p'.stream = s ∧ p'.fails = p.fails
  | [], _, p, s, h => ⟨p, rfl, h, rfl⟩
  | b :: bs, f, p, s, h => by
    obtain ⟨p', h1, h2, h3, -⟩ := getChar_cons (p := p) (c := b) (s := bs ++ s) h
    obtain ⟨q, g1, g2, g3⟩ := bomLoop_take bs false h2
    exact ⟨q, by simp [Parser.bomLoop, h1, g1], g2, g3.trans h3⟩

theorem parseBom_none {p : Parser} {s : Bytes} (h : p.stream = 0x57 :: s) :
    ∃ p', p.parseBom = (0, p') ∧ p'.stream = p.stream ∧ p'.fails = p.fails := by
  obtain ⟨p', h1, h2, h3, h4⟩ := getChar_cons h
  refine ⟨p'.ungetChar 0x57, ?_, by rw [ungetChar_stream _ h4, h2, h], h3⟩
  simp [Parser.parseBom, Parser.bomLoop, h1]

/-- The header is accepted and the parser is left in front of the cues. -/
theorem init_ok {p : Parser} {b rest : Bytes} {e1 e2 : Ending} {r : List (Bytes × Ending)}
    (hb : b = [] ∨ b = bom) (hr : rest = [] ∨ rest.headD 0 = 0x20 ∨ rest.headD 0 = 0x09)
    (h : p.stream = fileOf ((b ++ kWebVtt ++ rest, e1) :: ([], e2) :: r) [])
    (hu : Unambiguous ((b ++ kWebVtt ++ rest, e1) :: ([], e2) :: r))
    (hrd : Readable rest) (hrr : ∀ x ∈ r, Readable x.1) (hf : p.fails = false) :
    ∃ p', p.init = (0, p') ∧ Before p' r := by
  have hs : p.stream = b ++ (kWebVtt ++ (rest ++ e1.bytes ++ fileOf (([], e2) :: r) [])) := by
    rw [h]; simp [fileOf]
  obtain ⟨p1, h1, h2, h3⟩ : ∃ p1, p.parseBom = (0, p1) ∧
      p1.stream = kWebVtt ++ (rest ++ e1.bytes ++ fileOf (([], e2) :: r) []) ∧
      p1.fails = p.fails := by
    rcases hb with rfl | rfl
    · obtain ⟨p1, a, b, c⟩ := parseBom_none (p := p) (by rw [hs]; rfl)
      exact ⟨p1, a, b.trans (by rw [hs]; rfl), c⟩
    · exact bomLoop_take _ true hs
  obtain ⟨p2, h4, h5, h6⟩ := idLoop_take kWebVtt h2
  have hp2 : Before p2 ((rest, e1) :: ([], e2) :: r) := by
    refine ⟨by rw [h5]; rfl, unambiguous_head hu, ?_, by rw [h6, h3, hf]⟩
    intro x hx
    simp only [List.mem_cons] at hx
    rcases hx with rfl | rfl | hx
    · exact hrd
    · exact ⟨by simp, by simp [maxLine]⟩
    · exact hrr x hx
  obtain ⟨p3, h7, h8⟩ := getLine_before hp2
  obtain ⟨p4, h9, h10⟩ := getLine_before h8
  refine ⟨p4, ?_, h10⟩
  unfold Parser.init
  rw [h1]
  simp only
  rw [if_neg (by decide), if_neg (by decide), h4]
  simp only
  rw [if_neg (by decide), h7]
  simp only
  rw [if_neg (by decide), if_neg (by decide), if_neg (by
    rintro ⟨a, b, c⟩
    rcases hr with rfl | hr | hr
    · simp at a
    · exact b hr
    · exact c hr), h9]
  simp

end Verif.Vtt
