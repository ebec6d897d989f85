/-
Every cue the WebVTT parser hands out is a proper one.
-/
import Verif.Lemmas.VttText

namespace Verif.Vtt
open Verif Verif.Par Verif.Vtt.Spec

theorem lineLoop_readable (p : Parser) (ln : Bytes) : Readable ln → ∀ {e l p'}, p.lineLoop ln = (e, l, p') → Readable l := by
  fun_induction Parser.lineLoop p ln with
  | case1 p ln p' h => intro hr e l q he; cases he; exact hr
  | case2 p ln p' h => intro hr e l q he; cases he; exact hr
  | case3 p ln p' h => intro hr e l q he; cases he; exact hr
  | case4 p ln p' e1 p'' hcr h hne => intro hr e l q he; cases he; exact hr
  | case5 => intro hr e l q he; cases he; exact hr
  | case6 => intro hr e l q he; cases he; exact hr
  | case7 p ln c p' h h1 h2 h3 h4 ih =>
    intro hr e l q he
    refine ih ⟨?_, ?_⟩ he
    · intro b hb
      rw [List.mem_append, List.mem_singleton] at hb
      rcases hb with hb | rfl
      · exact hr.1 b hb
      · exact ⟨h1, h2, (not_or.mp h3).1, (not_or.mp h3).2⟩
    · rw [List.length_append, List.length_singleton]
      unfold maxLine
      omega

theorem getLine_readable {p p' : Parser} {e : Int} {l : Bytes} (h : p.getLine = (e, l, p')) : Readable l :=
  lineLoop_readable p [] ⟨by simp, by simp [maxLine]⟩ h

theorem firstLine_readable : ∀ (n : Nat) {p : Parser}, p.size = n → ∀ {l p'}, p.firstLine = (0, l, p') → Readable l ∧ l ≠ [] := by
  intro n
  induction n using Nat.strongRecOn with
  | ind n ih =>
    intro p hp l q h
    rcases hg : p.getLine with ⟨e, line, p'⟩
    rw [firstLine_step hg] at h
    by_cases he : e ≠ 0
    · rw [if_pos he] at h
      cases h
      exact absurd rfl he
    · rw [if_neg he] at h
      have he : e = 0 := by simpa using he
      subst he
      by_cases hl : line.isEmpty = true
      · rw [if_pos hl] at h
        have := Parser.getLine_size hg
        exact ih p'.size (by omega) rfl h
      · rw [if_neg hl] at h
        cases h
        exact ⟨getLine_readable hg, by simpa using hl⟩

theorem payloadLoop_readable : ∀ (n : Nat) {p : Parser} {acc : List Bytes}, p.size = n → (∀ l ∈ acc, l ≠ [] ∧ Readable l) →
    ∀ {e ls p'}, p.payloadLoop acc = (e, ls, p') → ∀ l ∈ ls, l ≠ [] ∧ Readable l := by
  intro n
  induction n using Nat.strongRecOn with
  | ind n ih =>
    intro p acc hp ha e' ls q h
    rcases hg : p.getLine with ⟨e, line, p'⟩
    rw [payloadLoop_step acc hg] at h
    by_cases he : e < 0
    · rw [if_pos he] at h; cases h; exact ha
    rw [if_neg he] at h
    by_cases hl : line.isEmpty = true ∨ e ≠ 0
    · rw [if_pos hl] at h; cases h; exact ha
    · rw [if_neg hl] at h
      have he : e = 0 := by simpa using (not_or.mp hl).2
      subst he
      have := Parser.getLine_size hg
      refine ih p'.size (by omega) rfl ?_ h
      intro l hm
      rw [List.mem_append, List.mem_singleton] at hm
      rcases hm with hm | rfl
      · exact ha l hm
      · exact ⟨by simpa using (not_or.mp hl).1, getLine_readable hg⟩

theorem findArrow_has : ∀ (s : Bytes) (off : Nat), HasArrow s → findArrow off s ≠ none := by
  intro s
  induction s with
  | nil =>
    intro off ⟨a, b, h⟩
    have := congrArg List.length h
    simp [arrow] at this
  | cons c s ih =>
    intro off ⟨a, b, h⟩
    unfold findArrow
    split
    · simp
    · rename_i c' r hno heq
      cases heq
      refine ih _ ?_
      cases a with
      | nil =>
        simp only [List.nil_append, arrow, List.cons_append, List.cons.injEq] at h
        obtain ⟨rfl, rfl⟩ := h
        exact (hno b rfl rfl).elim
      | cons x a =>
        simp only [List.cons_append, List.cons.injEq] at h
        exact ⟨a, b, by rw [h.2]⟩
    · rename_i heq; cases heq

theorem timingsLine_readable {p p' : Parser} {i l : Bytes} {a : Nat} (h : p.timingsLine = (0, (i, l, a), p')) :
    Readable i ∧ ¬ HasArrow i ∧ Readable l := by
  unfold Parser.timingsLine at h
  rcases hf : p.firstLine with ⟨e, line, p1⟩
  rw [hf] at h
  simp only at h
  have empty : Readable ([] : Bytes) ∧ ¬ HasArrow ([] : Bytes) := by
    refine ⟨⟨by simp, by simp [maxLine]⟩, ?_⟩
    rintro ⟨a, b, h⟩
    have := congrArg List.length h
    simp [arrow] at this
  by_cases he : e ≠ 0
  · rw [if_pos he] at h
    cases h
    exact absurd rfl he
  · rw [if_neg he] at h
    have he : e = 0 := by simpa using he
    subst he
    obtain ⟨hr, -⟩ := firstLine_readable _ rfl hf
    cases hfa : findArrow 0 line with
    | some x =>
      rw [hfa] at h
      cases h
      exact ⟨empty.1, empty.2, hr⟩
    | none =>
      rw [hfa] at h
      simp only at h
      rcases hg : p1.getLine with ⟨e, line2, p2⟩
      rw [hg] at h
      simp only at h
      by_cases h1 : e < 0
      · rw [if_pos h1] at h; cases h; omega
      rw [if_neg h1] at h
      by_cases h2 : e > 0
      · rw [if_pos h2] at h; cases h
      rw [if_neg h2] at h
      cases hfb : findArrow 0 line2 with
      | none => rw [hfb] at h; cases h
      | some x =>
        rw [hfb] at h
        cases h
        exact ⟨hr, fun hh => findArrow_has _ 0 hh hfa, getLine_readable hg⟩

/-- Bytes of a name or a value, taken from the line. -/
theorem nameLoop_inv (line : Bytes) (i : Nat) (acc : Bytes) : ∀ {n j}, nameLoop line i acc = .ok (n, j) →
    (∀ c ∈ n, c ∈ acc ∨ (c ∈ line ∧ c ≠ 0 ∧ c ≠ 0x20 ∧ c ≠ 0x09 ∧ c ≠ 0x3A)) ∧ n.length = acc.length + (j - i) ∧ i ≤ j ∧
      j < line.length := by
  fun_induction nameLoop line i acc with
  | case1 i acc hi hc => intro n j h; cases h; exact ⟨fun c hc => .inl hc, by omega, by omega, hi⟩
  | case2 => intro n j h; cases h
  | case3 =>
    rename_i i acc hi c h1 h2 ih
    intro n j h
    obtain ⟨a1, a2, a3, a4⟩ := ih h
    refine ⟨?_, ?_, by omega, a4⟩
    · intro x hx
      rcases a1 x hx with hx | hx
      · rw [List.mem_append, List.mem_singleton] at hx
        rcases hx with hx | rfl
        · exact .inl hx
        · have := not_or.mp h2
          exact .inr ⟨List.getElem_mem hi, this.1, (not_or.mp this.2).1, (not_or.mp this.2).2, h1⟩
      · exact .inr hx
    · rw [List.length_append, List.length_singleton] at a2
      omega
  | case4 => intro n j h; cases h
  | case5 => intro n j h; cases h

theorem valueLoop_inv (line : Bytes) (i : Nat) (acc : Bytes) : ∀ {n j}, valueLoop line i acc = .ok (n, j) →
    (∀ c ∈ n, c ∈ acc ∨ (c ∈ line ∧ c ≠ 0 ∧ c ≠ 0x20 ∧ c ≠ 0x09 ∧ c ≠ 0x3A)) ∧ n.length = acc.length + (j - i) ∧ i ≤ j ∧
      j ≤ line.length := by
  fun_induction valueLoop line i acc with
  | case1 i acc hi hc => intro n j h; cases h; exact ⟨fun c hc => .inl hc, by omega, by omega, by omega⟩
  | case2 => intro n j h; cases h
  | case3 =>
    rename_i i acc hi c h1 h2 ih
    intro n j h
    obtain ⟨a1, a2, a3, a4⟩ := ih h
    refine ⟨?_, ?_, by omega, a4⟩
    · intro x hx
      rcases a1 x hx with hx | hx
      · rw [List.mem_append, List.mem_singleton] at hx
        rcases hx with hx | rfl
        · exact .inl hx
        · have := not_or.mp h1
          exact .inr ⟨List.getElem_mem hi, this.1, (not_or.mp this.2).1, (not_or.mp this.2).2, h2⟩
      · exact .inr hx
    · rw [List.length_append, List.length_singleton] at a2
      omega
  | case4 => intro n j h; cases h; exact ⟨fun c hc => .inl hc, by omega, by omega, by omega⟩
  | case5 => intro n j h; cases h

theorem settingsLoop_inv {line : Bytes} : ∀ (fuel i : Nat) {gs : List Setting}, settingsLoop line fuel i = .ok gs →
    ∀ g ∈ gs, (Word g.name ∧ (∀ c ∈ g.name, c ∈ line) ∧ g.name.length < line.length) ∧
      Word g.value ∧ (∀ c ∈ g.value, c ∈ line) ∧ g.value.length < line.length
  | 0, i, gs, h => by cases h
  | fuel + 1, i, gs, h => by
    unfold settingsLoop at h
    obtain ⟨i1, -, h⟩ := Res.bind_eq_ok.mp h
    obtain ⟨c, -, h⟩ := Res.bind_eq_ok.mp h
    by_cases hc : c = 0
    · rw [if_pos hc] at h
      cases h
      intro g hg
      cases hg
    · rw [if_neg hc] at h
      obtain ⟨⟨name, i2⟩, hn, h⟩ := Res.bind_eq_ok.mp h
      simp only at h
      by_cases he : name.isEmpty = true
      · rw [Res.refuse_pos he] at h; cases h
      rw [Res.refuse_neg he, Res.bind_ok] at h
      obtain ⟨⟨value, i3⟩, hv, h⟩ := Res.bind_eq_ok.mp h
      simp only at h
      by_cases he' : value.isEmpty = true
      · rw [Res.refuse_pos he'] at h; cases h
      rw [Res.refuse_neg he', Res.bind_ok] at h
      obtain ⟨more, hm, h⟩ := Res.bind_eq_ok.mp h
      cases h
      obtain ⟨a1, a2, a3, a4⟩ := nameLoop_inv _ _ _ hn
      obtain ⟨b1, b2, b3, b4⟩ := valueLoop_inv _ _ _ hv
      simp only [List.not_mem_nil, false_or, List.length_nil] at a1 a2 b1 b2
      intro g hg
      rw [List.mem_cons] at hg
      rcases hg with rfl | hg
      · exact ⟨⟨⟨by simpa using he, fun c hc => (a1 c hc).2⟩, fun c hc => (a1 c hc).1, by simp only; omega⟩,
          ⟨by simpa using he', fun c hc => (b1 c hc).2⟩, fun c hc => (b1 c hc).1, by simp only; omega⟩
      · exact settingsLoop_inv fuel i3 hm g hg

theorem parseTimingsLine_proper {line : Bytes} {a : Nat} {t u : Time} {gs : List Setting} (hl : Readable line)
    (h : parseTimingsLine line a = .ok (t, u, gs)) :
    (Normal t ∧ t.hours ≤ 2147483647) ∧ (Normal u ∧ u.hours ≤ 2147483647) ∧
      ∀ g ∈ gs, Word g.name ∧ Readable g.name ∧ Word g.value ∧ Readable g.value := by
  unfold parseTimingsLine at h
  by_cases ha : a ≥ line.length
  · rw [Res.refuse_pos ha] at h; cases h
  rw [Res.refuse_neg ha, Res.bind_ok] at h
  obtain ⟨⟨t1, i1⟩, h1, h⟩ := Res.bind_eq_ok.mp h
  simp only at h
  obtain ⟨-, -, h⟩ := Res.bind_eq_ok.mp h
  obtain ⟨⟨t2, i2⟩, h2, h⟩ := Res.bind_eq_ok.mp h
  simp only at h
  obtain ⟨gs', h3, h⟩ := Res.bind_eq_ok.mp h
  cases h
  have time : ∀ {l : Bytes} {i j : Nat} {t : Time}, parseTime l i = .ok (t, j) → Normal t ∧ t.hours ≤ 2147483647 := by
    intro l i j t ht
    obtain ⟨b, w, s, -, -, hw, -, rfl, -⟩ := parseTime_inv ht
    obtain ⟨n1, n2, -⟩ := readStamp_denotes hw
    exact ⟨n1, (n2 _ (.inl rfl)).2⟩
  refine ⟨time h1, time h2, ?_⟩
  unfold parseSettings at h3
  obtain ⟨-, -, h3⟩ := Res.bind_eq_ok.mp h3
  have bytes : ∀ c ∈ line.set a 0 ++ [0], c ≠ 0x0A ∧ c ≠ 0x0D ∧ c ≠ 0xFE ∧ c ≠ 0xFF := by
    intro c hc
    rw [List.mem_append, List.mem_singleton] at hc
    rcases hc with hc | rfl
    · rcases List.mem_or_eq_of_mem_set hc with hc | rfl
      · exact hl.1 c hc
      · decide
    · decide
  have len : (line.set a 0 ++ [0]).length ≤ maxLine + 1 := by
    rw [List.length_append, List.length_set, List.length_singleton]
    have := hl.2
    omega
  intro g hg
  obtain ⟨⟨w1, w2, w3⟩, v1, v2, v3⟩ := settingsLoop_inv _ _ h3 g hg
  exact ⟨w1, ⟨fun c hc => bytes c (w2 c hc), by omega⟩, v1, fun c hc => bytes c (v2 c hc), by omega⟩

/-- What the parser hands out is proper. -/
theorem parse_proper {p p' : Parser} {c : Cue} (h : p.parse = (.ok c, p')) : Proper c := by
  unfold Parser.parse at h
  rcases ht : p.timingsLine with ⟨e, ⟨i, l, a⟩, p1⟩
  rw [ht] at h
  simp only at h
  by_cases he : e ≠ 0
  · rw [if_pos he] at h; cases h
  rw [if_neg he] at h
  have he : e = 0 := by simpa using he
  subst he
  obtain ⟨h1, h2, h3⟩ := timingsLine_readable ht
  cases hp : parseTimingsLine l a with
  | ub => rw [hp] at h; cases h
  | err c => rw [hp] at h; cases h
  | ok x =>
    obtain ⟨t, u, gs⟩ := x
    rw [hp] at h
    simp only at h
    obtain ⟨k1, k2, k3⟩ := parseTimingsLine_proper h3 hp
    rcases hpl : p1.payloadLoop [] with ⟨e, ls, p2⟩
    rw [hpl] at h
    simp only at h
    have k4 := payloadLoop_readable _ rfl (by simp) hpl
    by_cases he : e < 0
    · rw [if_pos he] at h; cases h
    rw [if_neg he] at h
    by_cases hn : ls.isEmpty = true
    · rw [if_pos hn] at h; cases h
    rw [if_neg hn] at h
    cases h
    exact ⟨⟨h1, h2⟩, k1, k2, k3, by simpa using hn, k4⟩

theorem parseTime_plain {l : Bytes} {i j : Nat} {t : Time} (h : parseTime l i = .ok (t, j)) : PlainMs t := by
  unfold parseTime at h
  obtain ⟨-, -, h⟩ := Res.bind_eq_ok.mp h
  obtain ⟨_, -, h⟩ := Res.bind_eq_ok.mp h
  obtain ⟨⟨_, _, _, _⟩, -, h⟩ := Res.bind_eq_ok.mp h
  simp only at h
  obtain ⟨⟨ms, _⟩, hf, h⟩ := Res.bind_eq_ok.mp h
  simp only at h
  obtain ⟨_, -, h⟩ := Res.bind_eq_ok.mp h
  obtain ⟨-, -, h⟩ := Res.bind_eq_ok.mp h
  cases h
  unfold parseFraction at hf
  obtain ⟨_, -, hf⟩ := Res.bind_eq_ok.mp hf
  split at hf
  · obtain ⟨⟨v, _⟩, -, hf⟩ := Res.bind_eq_ok.mp hf
    simp only at hf
    obtain ⟨-, -, hf⟩ := Res.bind_eq_ok.mp hf
    cases hf
    show (if v < 10 then ((v * 100 : Nat) : Int) else if v < 100 then ((v * 10 : Nat) : Int) else v) = 0 ∨
      100 ≤ (if v < 10 then ((v * 100 : Nat) : Int) else if v < 100 then ((v * 10 : Nat) : Int) else v)
    split
    · omega
    split <;> omega
  · cases hf
    exact .inl rfl

/-- The parser never hands out milliseconds from 1 to 99. -/
theorem parse_plain {p p' : Parser} {c : Cue} (h : p.parse = (.ok c, p')) : PlainMs c.start ∧ PlainMs c.stop := by
  unfold Parser.parse at h
  rcases ht : p.timingsLine with ⟨e, ⟨i, l, a⟩, p1⟩
  rw [ht] at h
  simp only at h
  split at h
  · cases h
  cases hp : parseTimingsLine l a with
  | ub => rw [hp] at h; cases h
  | err c => rw [hp] at h; cases h
  | ok x =>
    obtain ⟨t, u, gs⟩ := x
    rw [hp] at h
    simp only at h
    have k : PlainMs t ∧ PlainMs u := by
      unfold parseTimingsLine at hp
      obtain ⟨-, -, hp⟩ := Res.bind_eq_ok.mp hp
      obtain ⟨⟨t1, i1⟩, h1, hp⟩ := Res.bind_eq_ok.mp hp
      simp only at hp
      obtain ⟨-, -, hp⟩ := Res.bind_eq_ok.mp hp
      obtain ⟨⟨t2, i2⟩, h2, hp⟩ := Res.bind_eq_ok.mp hp
      simp only at hp
      obtain ⟨gs', -, hp⟩ := Res.bind_eq_ok.mp hp
      cases hp
      exact ⟨parseTime_plain h1, parseTime_plain h2⟩
    split at h
    · cases h
    split at h
    · cases h
    cases h
    exact k

end Verif.Vtt
