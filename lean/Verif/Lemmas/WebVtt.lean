/-
Lemmas about the WebVTT model: lines.
-/
import Verif.Spec.WebVtt

namespace Verif.Vtt
open Verif Spec

/-- The characters still to come. -/
def Parser.stream (p : Parser) : Bytes := p.unget.toList ++ p.rest

theorem getChar_cons {p : Parser} {c : UInt8} {s : Bytes} (h : p.stream = c :: s) :
    ∃ p', p.getChar = (.char c, p') ∧ p'.stream = s ∧ p'.fails = p.fails ∧ p'.unget = none := by
  unfold Parser.getChar
  unfold Parser.stream at h
  cases hu : p.unget with
  | some d =>
    rw [hu] at h
    simp only [Option.toList_some, List.cons_append, List.nil_append, List.cons.injEq] at h
    exact ⟨{ p with unget := none }, by simp [h.1], by simp [Parser.stream, h.2], rfl, rfl⟩
  | none =>
    rw [hu] at h
    simp only [Option.toList_none, List.nil_append] at h
    rw [h]
    exact ⟨{ p with unget := none, rest := s }, by simp [← hu], by simp [Parser.stream], rfl, rfl⟩

theorem getChar_nil {p : Parser} (h : p.stream = []) (hf : p.fails = false) :
    p.getChar = (.eof, p) := by
  unfold Parser.getChar
  unfold Parser.stream at h
  have h1 : p.unget = none := by
    cases hu : p.unget with
    | none => rfl
    | some d => rw [hu] at h; simp at h
  have h2 : p.rest = [] := by
    rw [h1] at h; simpa using h
  simp [h1, h2, hf]

theorem ungetChar_stream {p : Parser} (c : UInt8) (h : p.unget = none) :
    (p.ungetChar c).stream = c :: p.stream := by
  simp [Parser.ungetChar, Parser.stream, h]

/-- The characters of a line that are taken, and what is left of it after a refusal. -/
def scan : Bytes → Bytes → Bytes × Option Bytes
  | acc, [] => (acc, none)
  | acc, c :: r =>
    if c = 0xFE ∨ c = 0xFF then (acc, some r)
    else if acc.length ≥ 10000 then (acc, some r)
    else scan (acc ++ [c]) r

theorem scan_readable : ∀ (l acc : Bytes), (∀ c ∈ l, c ≠ 0xFE ∧ c ≠ 0xFF) →
    acc.length + l.length ≤ 10000 → scan acc l = (acc ++ l, none)
  | [], acc, _, _ => by simp [scan]
  | c :: r, acc, h, hl => by
    have hc := h c (by simp)
    simp only [List.length_cons] at hl
    rw [scan, if_neg (by simp [hc.1, hc.2]), if_neg (by omega),
      scan_readable r (acc ++ [c]) (fun d hd => h d (by simp [hd])) (by simp; omega)]
    simp

theorem scan_suffix : ∀ (l acc x r : Bytes), scan acc l = (x, some r) → ∃ a, l = a ++ r
  | [], acc, x, r, h => by simp [scan] at h
  | c :: s, acc, x, r, h => by
    rw [scan] at h
    split at h
    · simp only [Prod.mk.injEq, Option.some.injEq] at h; exact ⟨[c], by simp [h.2]⟩
    · split at h
      · simp only [Prod.mk.injEq, Option.some.injEq] at h; exact ⟨[c], by simp [h.2]⟩
      · obtain ⟨a, ha⟩ := scan_suffix s _ _ _ h
        exact ⟨c :: a, by simp [ha]⟩

theorem lineLoop_some : ∀ (l : Bytes) (p : Parser) (acc x r tail : Bytes), Plain l →
    p.stream = l ++ tail → scan acc l = (x, some r) →
    ∃ p', p.lineLoop acc = (-1, x, p') ∧ p'.stream = r ++ tail ∧ p'.fails = p.fails
  | [], p, acc, x, r, tail, _, _, h => by simp [scan] at h
  | c :: s, p, acc, x, r, tail, hp, hs, h => by
    obtain ⟨p', hg, hs', hf, -⟩ := getChar_cons (p := p) (c := c) (s := s ++ tail) (by simpa using hs)
    have hc := hp c (by simp)
    rw [scan] at h
    rw [Parser.lineLoop]
    split
    · rename_i h'; rw [hg] at h'; cases h'
    · rename_i h'; rw [hg] at h'; cases h'
    · rename_i c' q h'
      rw [hg] at h'; cases h'
      rw [if_neg hc.1, if_neg hc.2]
      split at h
      · rename_i hfe
        rw [if_pos hfe]
        cases h
        exact ⟨p', rfl, hs', hf⟩
      · rename_i hfe
        rw [if_neg hfe]
        split at h
        · rename_i hl
          rw [if_pos hl]
          cases h
          exact ⟨p', rfl, hs', hf⟩
        · rename_i hl
          rw [if_neg hl]
          obtain ⟨q, h1, h2, h3⟩ := lineLoop_some s p' _ x r tail
            (fun d hd => hp d (by simp [hd])) hs' h
          exact ⟨q, h1, h2, h3.trans hf⟩

theorem lineLoop_none : ∀ (l : Bytes) (p : Parser) (acc x tail : Bytes), Plain l →
    p.stream = l ++ tail → scan acc l = (x, none) →
    ∃ p' : Parser, p.lineLoop acc = p'.lineLoop x ∧ p'.stream = tail ∧ p'.fails = p.fails
  | [], p, acc, x, tail, _, hs, h => by
    simp [scan] at h
    exact ⟨p, by rw [h], by simpa using hs, rfl⟩
  | c :: s, p, acc, x, tail, hp, hs, h => by
    obtain ⟨p', hg, hs', hf, -⟩ := getChar_cons (p := p) (c := c) (s := s ++ tail) (by simpa using hs)
    have hc := hp c (by simp)
    rw [scan] at h
    split at h
    · simp at h
    · rename_i hfe
      split at h
      · simp at h
      · rename_i hl
        obtain ⟨q, h1, h2, h3⟩ := lineLoop_none s p' _ x tail
          (fun d hd => hp d (by simp [hd])) hs' h
        refine ⟨q, ?_, h2, h3.trans hf⟩
        rw [Parser.lineLoop]
        split
        · rename_i h'; rw [hg] at h'; cases h'
        · rename_i h'; rw [hg] at h'; cases h'
        · rename_i c' q' h'
          rw [hg] at h'; cases h'
          rw [if_neg hc.1, if_neg hc.2, if_neg hfe, if_neg hl, h1]

theorem afterCr_lf {p : Parser} {s : Bytes} (h : p.stream = 0x0A :: s) :
    ∃ p', p.afterCr = (0, p') ∧ p'.stream = s ∧ p'.fails = p.fails := by
  obtain ⟨p', hg, hs, hf, -⟩ := getChar_cons h
  exact ⟨p', by simp [Parser.afterCr, hg], hs, hf⟩

theorem afterCr_other {p : Parser} (h : p.stream.head? ≠ some 0x0A) (hf : p.fails = false) :
    ∃ p', p.afterCr = (0, p') ∧ p'.stream = p.stream ∧ p'.fails = p.fails := by
  cases hs : p.stream with
  | nil => exact ⟨p, by simp [Parser.afterCr, getChar_nil hs hf], hs, rfl⟩
  | cons c s =>
    obtain ⟨p', hg, hs', hf', hu⟩ := getChar_cons hs
    rw [hs] at h
    have hc : c ≠ 0x0A := by simpa using h
    exact ⟨p'.ungetChar c, by simp [Parser.afterCr, hg, hc], by rw [ungetChar_stream c hu, hs'],
      hf'⟩

theorem lineLoop_char {p p' : Parser} {c : UInt8} (acc : Bytes) (hg : p.getChar = (.char c, p')) :
    p.lineLoop acc =
      if c = 0x0A then (0, acc, p')
      else if c = 0x0D then (p'.afterCr.1, acc, p'.afterCr.2)
      else if c = 0xFE ∨ c = 0xFF then (-1, acc, p')
      else if acc.length ≥ 10000 then (-1, acc, p')
      else p'.lineLoop (acc ++ [c]) := by
  rw [Parser.lineLoop]
  split
  · rename_i h'; rw [hg] at h'; cases h'
  · rename_i h'; rw [hg] at h'; cases h'
  · rename_i c' q h'
    rw [hg] at h'; cases h'
    rfl

theorem lineLoop_eof {p : Parser} (acc : Bytes) (h : p.stream = []) (hf : p.fails = false) :
    p.lineLoop acc = (if acc.isEmpty then 1 else 0, acc, p) := by
  have hg := getChar_nil h hf
  rw [Parser.lineLoop]
  split
  · rename_i h'; rw [hg] at h'; cases h'
  · rename_i h'; rw [hg] at h'; cases h'; rfl
  · rename_i c' q h'
    rw [hg] at h'; cases h'

/-- What may follow an ending. -/
def After (e : Ending) (s : Bytes) : Prop := e = .cr → s.head? ≠ some 0x0A

theorem lineLoop_ending {p : Parser} {e : Ending} {s : Bytes} (acc : Bytes)
    (h : p.stream = e.bytes ++ s) (ha : After e s) (hf : p.fails = false) :
    ∃ p', p.lineLoop acc = (0, acc, p') ∧ p'.stream = s ∧ p'.fails = false := by
  cases e with
  | lf =>
    obtain ⟨p', hg, hs, hf', -⟩ := getChar_cons (p := p) (c := 0x0A) (s := s) h
    exact ⟨p', by rw [lineLoop_char acc hg, if_pos rfl], hs, hf'.trans hf⟩
  | cr =>
    obtain ⟨p', hg, hs, hf', -⟩ := getChar_cons (p := p) (c := 0x0D) (s := s) h
    obtain ⟨q, hq, hs2, hf2⟩ := afterCr_other (p := p') (by rw [hs]; exact ha rfl)
      (hf'.trans hf)
    exact ⟨q, by rw [lineLoop_char acc hg, if_neg (by decide), if_pos rfl, hq],
      hs2.trans hs, hf2.trans (hf'.trans hf)⟩
  | crlf =>
    obtain ⟨p', hg, hs, hf', -⟩ := getChar_cons (p := p) (c := 0x0D) (s := 0x0A :: s) h
    obtain ⟨q, hq, hs2, hf2⟩ := afterCr_lf hs
    exact ⟨q, by rw [lineLoop_char acc hg, if_neg (by decide), if_pos rfl, hq],
      hs2, hf2.trans (hf'.trans hf)⟩

theorem unambiguous_tail {x : Bytes × Ending} {r : List (Bytes × Ending)}
    (h : Unambiguous (x :: r)) : Unambiguous r := by
  cases r with
  | nil => trivial
  | cons y r => exact h.2

theorem unambiguous_head {l l' : Bytes} {e : Ending} {r : List (Bytes × Ending)}
    (h : Unambiguous ((l, e) :: r)) : Unambiguous ((l', e) :: r) := by
  cases r with
  | nil => trivial
  | cons y r => exact ⟨h.1, h.2⟩

theorem file_after {l : Bytes} {e : Ending} {r : List (Bytes × Ending)} {last : Bytes}
    (hu : Unambiguous ((l, e) :: r)) (hp : ∀ x ∈ r, Plain x.1) (hl : Plain last) :
    After e (fileOf r last) := by
  intro he
  cases r with
  | nil =>
    cases last with
    | nil => simp [fileOf]
    | cons c s => simpa [fileOf] using (hl c (by simp)).1
  | cons y r =>
    obtain ⟨l', f⟩ := y
    have h1 : ¬ (e = .cr ∧ l' = [] ∧ f = .lf) := hu.1
    cases l' with
    | nil =>
      cases f with
      | lf => exact absurd ⟨he, rfl, rfl⟩ h1
      | cr => simp [fileOf, Ending.bytes]
      | crlf => simp [fileOf, Ending.bytes]
    | cons c s => simpa [fileOf] using (hp _ (List.mem_cons_self) c (by simp)).1

/-- Two parsers before files with the same lines. -/
def Same (p q : Parser) : Prop :=
  ∃ (a b : List (Bytes × Ending)) (last : Bytes),
    p.stream = fileOf a last ∧ q.stream = fileOf b last ∧ a.map Prod.fst = b.map Prod.fst ∧
    (∀ x ∈ a, Plain x.1) ∧ Plain last ∧ Unambiguous a ∧ Unambiguous b ∧
    p.fails = false ∧ q.fails = false

theorem plain_of_append {a b : Bytes} (h : Plain (a ++ b)) : Plain b :=
  fun c hc => h c (by simp [hc])

theorem plain_map {a b : List (Bytes × Ending)} (h : a.map Prod.fst = b.map Prod.fst)
    (ha : ∀ x ∈ a, Plain x.1) : ∀ x ∈ b, Plain x.1 := by
  intro x hx
  have : x.1 ∈ a.map Prod.fst := by rw [h]; exact List.mem_map_of_mem hx
  obtain ⟨y, hy, hxy⟩ := List.mem_map.mp this
  rw [← hxy]; exact ha y hy

theorem getLine_same {p q : Parser} (h : Same p q) :
    ∃ st ln p' q', p.getLine = (st, ln, p') ∧ q.getLine = (st, ln, q') ∧ Same p' q' := by
  obtain ⟨a, b, last, hp, hq, hm, hpl, hl, hua, hub, hfp, hfq⟩ := h
  unfold Parser.getLine
  cases a with
  | nil =>
    have hb : b = [] := by
      cases b with
      | nil => rfl
      | cons x y => simp at hm
    subst hb
    rcases hsc : scan [] last with ⟨x, _ | r⟩
    · obtain ⟨p', h1, h2, h3⟩ := lineLoop_none last p [] x [] hl (by simpa [fileOf] using hp) hsc
      obtain ⟨q', g1, g2, g3⟩ := lineLoop_none last q [] x [] hl (by simpa [fileOf] using hq) hsc
      rw [h1, g1, lineLoop_eof x h2 (h3.trans hfp), lineLoop_eof x g2 (g3.trans hfq)]
      exact ⟨_, _, p', q', rfl, rfl, [], [], [], h2, g2, rfl, by simp, by simp [Plain], trivial,
        trivial, h3.trans hfp, g3.trans hfq⟩
    · obtain ⟨p', h1, h2, h3⟩ := lineLoop_some last p [] x r [] hl (by simpa [fileOf] using hp) hsc
      obtain ⟨q', g1, g2, g3⟩ := lineLoop_some last q [] x r [] hl (by simpa [fileOf] using hq) hsc
      obtain ⟨y, hy⟩ := scan_suffix _ _ _ _ hsc
      exact ⟨_, _, p', q', h1, g1, [], [], r, by simpa [fileOf] using h2, by simpa [fileOf] using g2, rfl, by simp,
        plain_of_append (hy ▸ hl), trivial, trivial, h3.trans hfp, g3.trans hfq⟩
  | cons x a =>
    obtain ⟨l, e⟩ := x
    cases b with
    | nil => simp at hm
    | cons y b =>
      obtain ⟨l2, f⟩ := y
      simp only [List.map_cons, List.cons.injEq] at hm
      obtain ⟨hll, hm⟩ := hm
      subst hll
      have hpl1 : Plain l := hpl (l, e) (by simp)
      have hpa : ∀ x ∈ a, Plain x.1 := fun x hx => hpl x (by simp [hx])
      have hpb := plain_map hm hpa
      rcases hsc : scan [] l with ⟨x, _ | r⟩
      · obtain ⟨p', h1, h2, h3⟩ := lineLoop_none l p [] x (e.bytes ++ fileOf a last) hpl1
          (by simpa [fileOf] using hp) hsc
        obtain ⟨q', g1, g2, g3⟩ := lineLoop_none l q [] x (f.bytes ++ fileOf b last) hpl1
          (by simpa [fileOf] using hq) hsc
        obtain ⟨p2, h4, h5, h6⟩ := lineLoop_ending x h2 (file_after hua hpa hl) (h3.trans hfp)
        obtain ⟨q2, g4, g5, g6⟩ := lineLoop_ending x g2 (file_after hub hpb hl) (g3.trans hfq)
        exact ⟨_, _, p2, q2, h1.trans h4, g1.trans g4, a, b, last, h5, g5, hm, hpa, hl,
          unambiguous_tail hua, unambiguous_tail hub, h6, g6⟩
      · obtain ⟨p', h1, h2, h3⟩ := lineLoop_some l p [] x r (e.bytes ++ fileOf a last) hpl1
          (by simpa [fileOf] using hp) hsc
        obtain ⟨q', g1, g2, g3⟩ := lineLoop_some l q [] x r (f.bytes ++ fileOf b last) hpl1
          (by simpa [fileOf] using hq) hsc
        obtain ⟨y, hy⟩ := scan_suffix _ _ _ _ hsc
        refine ⟨_, _, p', q', h1, g1, (r, e) :: a, (r, f) :: b, last, by simpa [fileOf] using h2,
          by simpa [fileOf] using g2, by simp [hm], ?_, hl,
          unambiguous_head hua, unambiguous_head hub, h3.trans hfp, g3.trans hfq⟩
        intro z hz
        rcases List.mem_cons.mp hz with hz | hz
        · subst hz; exact plain_of_append (hy ▸ hpl1)
        · exact hpa z hz

theorem firstLine_step {p p' : Parser} {e : Int} {l : Bytes} (h : p.getLine = (e, l, p')) :
    p.firstLine = if e ≠ 0 then (e, l, p') else if l.isEmpty then p'.firstLine else (0, l, p') := by
  rw [Parser.firstLine]
  split
  rename_i e' l' q h'
  rw [h] at h'
  cases h'
  split <;> rfl

theorem payloadLoop_step {p p' : Parser} {e : Int} {l : Bytes} (acc : List Bytes)
    (h : p.getLine = (e, l, p')) :
    p.payloadLoop acc = if e < 0 then (e, acc, p')
      else if l.isEmpty = true ∨ e ≠ 0 then (0, acc, p') else p'.payloadLoop (acc ++ [l]) := by
  rw [Parser.payloadLoop]
  split
  rename_i e' l' q h'
  rw [h] at h'
  cases h'
  rfl

theorem firstLine_same : ∀ (n : Nat) (p q : Parser), p.size = n → Same p q →
    ∃ st ln p' q', p.firstLine = (st, ln, p') ∧ q.firstLine = (st, ln, q') ∧ Same p' q' := by
  intro n
  induction n using Nat.strongRecOn with
  | _ n ih =>
    intro p q hn hs
    obtain ⟨st, ln, p', q', h1, h2, h3⟩ := getLine_same hs
    rw [firstLine_step h1, firstLine_step h2]
    by_cases he : st ≠ 0
    · rw [if_pos he, if_pos he]; exact ⟨_, _, p', q', rfl, rfl, h3⟩
    · rw [if_neg he, if_neg he]
      by_cases hl : ln.isEmpty = true
      · rw [if_pos hl, if_pos hl]
        have he0 : st = 0 := by simpa using he
        subst he0
        have := Parser.getLine_size h1
        exact ih p'.size (by omega) p' q' rfl h3
      · rw [if_neg hl, if_neg hl]; exact ⟨_, _, p', q', rfl, rfl, h3⟩

theorem payloadLoop_same : ∀ (n : Nat) (p q : Parser) (acc : List Bytes), p.size = n → Same p q →
    ∃ st ls p' q', p.payloadLoop acc = (st, ls, p') ∧ q.payloadLoop acc = (st, ls, q') ∧
      Same p' q' := by
  intro n
  induction n using Nat.strongRecOn with
  | _ n ih =>
    intro p q acc hn hs
    obtain ⟨st, ln, p', q', h1, h2, h3⟩ := getLine_same hs
    rw [payloadLoop_step acc h1, payloadLoop_step acc h2]
    by_cases he : st < 0
    · rw [if_pos he, if_pos he]; exact ⟨_, _, p', q', rfl, rfl, h3⟩
    · rw [if_neg he, if_neg he]
      by_cases hl : ln.isEmpty = true ∨ st ≠ 0
      · rw [if_pos hl, if_pos hl]; exact ⟨_, _, p', q', rfl, rfl, h3⟩
      · rw [if_neg hl, if_neg hl]
        have he0 : st = 0 := by
          have := (not_or.mp hl).2
          simpa using this
        subst he0
        have := Parser.getLine_size h1
        exact ih p'.size (by omega) p' q' _ rfl h3

theorem timingsLine_same {p q : Parser} (hs : Same p q) :
    ∃ st x p' q', p.timingsLine = (st, x, p') ∧ q.timingsLine = (st, x, q') ∧ Same p' q' := by
  obtain ⟨st, ln, p', q', h1, h2, h3⟩ := firstLine_same _ p q rfl hs
  unfold Parser.timingsLine
  rw [h1, h2]
  simp only
  by_cases he : st ≠ 0
  · rw [if_pos he, if_pos he]; exact ⟨_, _, p', q', rfl, rfl, h3⟩
  · rw [if_neg he, if_neg he]
    cases hfa : findArrow 0 ln with
    | some a => exact ⟨_, _, p', q', rfl, rfl, h3⟩
    | none =>
      obtain ⟨st2, ln2, p2, q2, g1, g2, g3⟩ := getLine_same h3
      simp only [g1, g2]
      by_cases hlt : st2 < 0
      · rw [if_pos hlt, if_pos hlt]; exact ⟨_, _, p2, q2, rfl, rfl, g3⟩
      · rw [if_neg hlt, if_neg hlt]
        by_cases hgt : st2 > 0
        · rw [if_pos hgt, if_pos hgt]; exact ⟨_, _, p2, q2, rfl, rfl, g3⟩
        · rw [if_neg hgt, if_neg hgt]
          cases findArrow 0 ln2 with
          | none => exact ⟨_, _, p2, q2, rfl, rfl, g3⟩
          | some a => exact ⟨_, _, p2, q2, rfl, rfl, g3⟩

theorem parse_same {p q : Parser} (hs : Same p q) :
    ∃ r p' q', p.parse = (r, p') ∧ q.parse = (r, q') ∧ Same p' q' := by
  obtain ⟨st, ⟨i, ln, a⟩, p', q', h1, h2, h3⟩ := timingsLine_same hs
  unfold Parser.parse
  rw [h1, h2]
  simp only
  by_cases he : st ≠ 0
  · rw [if_pos he, if_pos he]; exact ⟨_, p', q', rfl, rfl, h3⟩
  · rw [if_neg he, if_neg he]
    cases parseTimingsLine ln a with
    | ub => exact ⟨_, p', q', rfl, rfl, h3⟩
    | err c => exact ⟨_, p', q', rfl, rfl, h3⟩
    | ok t =>
      obtain ⟨st2, ls, p2, q2, g1, g2, g3⟩ := payloadLoop_same _ p' q' [] rfl h3
      simp only [g1, g2]
      by_cases hlt : st2 < 0
      · rw [if_pos hlt, if_pos hlt]; exact ⟨_, p2, q2, rfl, rfl, g3⟩
      · rw [if_neg hlt, if_neg hlt]
        by_cases hl : ls.isEmpty = true
        · rw [if_pos hl, if_pos hl]; exact ⟨_, p2, q2, rfl, rfl, g3⟩
        · rw [if_neg hl, if_neg hl]; exact ⟨_, p2, q2, rfl, rfl, g3⟩

/-- Reading one character: the same in both files as long as the line lasts; then both are at a
line ending or both at the end. -/
theorem getChar_same {p q : Parser} (hs : Same p q) :
    (∃ c p' q', p.getChar = (.char c, p') ∧ q.getChar = (.char c, q') ∧ Same p' q' ∧
      p'.unget = none ∧ q'.unget = none ∧ Same (p'.ungetChar c) (q'.ungetChar c)) ∨
    (∃ c d p' q', p.getChar = (.char c, p') ∧ q.getChar = (.char d, q') ∧
      (c = 0x0A ∨ c = 0x0D) ∧ (d = 0x0A ∨ d = 0x0D) ∧
      Same (p'.ungetChar c) (q'.ungetChar d)) ∨
    (p.getChar = (.eof, p) ∧ q.getChar = (.eof, q)) := by
  obtain ⟨a, b, last, hp, hq, hm, hpl, hl, hua, hub, hfp, hfq⟩ := hs
  cases a with
  | nil =>
    have hb : b = [] := by
      cases b with
      | nil => rfl
      | cons x y => simp at hm
    subst hb
    cases last with
    | nil => exact Or.inr (Or.inr ⟨getChar_nil hp hfp, getChar_nil hq hfq⟩)
    | cons c s =>
      obtain ⟨p', h1, h2, h3, h4⟩ := getChar_cons (p := p) (c := c) (s := s) hp
      obtain ⟨q', g1, g2, g3, g4⟩ := getChar_cons (p := q) (c := c) (s := s) hq
      refine Or.inl ⟨c, p', q', h1, g1, ?_, h4, g4, ?_⟩
      · exact ⟨[], [], s, h2, g2, rfl, by simp, fun d hd => hl d (by simp [hd]), trivial, trivial,
          h3.trans hfp, g3.trans hfq⟩
      · exact ⟨[], [], c :: s, by rw [ungetChar_stream c h4, h2]; rfl,
          by rw [ungetChar_stream c g4, g2]; rfl, rfl, by simp, hl, trivial, trivial,
          h3.trans hfp, g3.trans hfq⟩
  | cons x a =>
    obtain ⟨l, e⟩ := x
    cases b with
    | nil => simp at hm
    | cons y b =>
      obtain ⟨l2, f⟩ := y
      simp only [List.map_cons, List.cons.injEq] at hm
      obtain ⟨hll, hm⟩ := hm
      subst hll
      cases l with
      | nil =>
        obtain ⟨c, s, hc, hcs⟩ : ∃ c s, (c = 0x0A ∨ c = 0x0D) ∧ p.stream = c :: s := by
          rw [hp]; cases e <;> simp [fileOf, Ending.bytes]
        obtain ⟨d, t, hd, hdt⟩ : ∃ c s, (c = 0x0A ∨ c = 0x0D) ∧ q.stream = c :: s := by
          rw [hq]; cases f <;> simp [fileOf, Ending.bytes]
        obtain ⟨p', h1, h2, h3, h4⟩ := getChar_cons hcs
        obtain ⟨q', g1, g2, g3, g4⟩ := getChar_cons hdt
        refine Or.inr (Or.inl ⟨c, d, p', q', h1, g1, hc, hd, ([], e) :: a, ([], f) :: b, last, ?_,
          ?_, by simp [hm], hpl, hl, hua, hub, h3.trans hfp, g3.trans hfq⟩)
        · rw [ungetChar_stream c h4, h2, ← hcs, hp]
        · rw [ungetChar_stream d g4, g2, ← hdt, hq]
      | cons c s =>
        obtain ⟨p', h1, h2, h3, h4⟩ := getChar_cons (p := p) (c := c)
          (s := s ++ e.bytes ++ fileOf a last) (by simpa [fileOf] using hp)
        obtain ⟨q', g1, g2, g3, g4⟩ := getChar_cons (p := q) (c := c)
          (s := s ++ f.bytes ++ fileOf b last) (by simpa [fileOf] using hq)
        have hpl' : ∀ x ∈ ((s, e) :: a), Plain x.1 := by
          intro z hz
          rcases List.mem_cons.mp hz with hz | hz
          · subst hz; exact fun d hd => hpl _ List.mem_cons_self d (by simp [hd])
          · exact hpl z (by simp [hz])
        refine Or.inl ⟨c, p', q', h1, g1, ?_, h4, g4, ?_⟩
        · exact ⟨(s, e) :: a, (s, f) :: b, last, h2, g2, by simp [hm], hpl', hl,
            unambiguous_head hua, unambiguous_head hub, h3.trans hfp, g3.trans hfq⟩
        · exact ⟨(c :: s, e) :: a, (c :: s, f) :: b, last,
            by rw [ungetChar_stream c h4, h2]; simp [fileOf],
            by rw [ungetChar_stream c g4, g2]; simp [fileOf], by simp [hm], hpl, hl,
            unambiguous_head hua, unambiguous_head hub, h3.trans hfp, g3.trans hfq⟩

theorem bomLoop_same : ∀ (bs : List UInt8) (first : Bool) (p q : Parser),
    (∀ b ∈ bs, b ≠ 0x0A ∧ b ≠ 0x0D) → Same p q →
    ∃ st p' q', p.bomLoop bs first = (st, p') ∧ q.bomLoop bs first = (st, q') ∧
      (st = 0 → Same p' q')
  | [], first, p, q, _, hs => ⟨_, p, q, rfl, rfl, fun _ => hs⟩
  | b :: bs, first, p, q, hb, hs => by
    have hb1 := hb b (by simp)
    rcases getChar_same hs with ⟨c, p', q', h1, h2, h3, -, -, h4⟩ | ⟨c, d, p', q', h1, h2, hc, hd, h4⟩ |
      ⟨h1, h2⟩
    · simp only [Parser.bomLoop, h1, h2]
      by_cases hcb : c ≠ b
      · simp only [if_pos hcb]
        cases first with
        | true => exact ⟨_, _, _, rfl, rfl, fun _ => h4⟩
        | false => exact ⟨_, _, _, rfl, rfl, fun h => absurd h (by decide)⟩
      · simp only [if_neg hcb]
        exact bomLoop_same bs false p' q' (fun x hx => hb x (by simp [hx])) h3
    · have hcb : c ≠ b := by rcases hc with rfl | rfl; exact hb1.1.symm; exact hb1.2.symm
      have hdb : d ≠ b := by rcases hd with rfl | rfl; exact hb1.1.symm; exact hb1.2.symm
      simp only [Parser.bomLoop, h1, h2, if_pos hcb, if_pos hdb]
      cases first with
      | true => exact ⟨_, _, _, rfl, rfl, fun _ => h4⟩
      | false => exact ⟨_, _, _, rfl, rfl, fun h => absurd h (by decide)⟩
    · simp only [Parser.bomLoop, h1, h2]
      exact ⟨_, _, _, rfl, rfl, fun h => absurd h (by decide)⟩

theorem idLoop_same : ∀ (bs : List UInt8) (p q : Parser),
    (∀ b ∈ bs, b ≠ 0x0A ∧ b ≠ 0x0D) → Same p q →
    ∃ st p' q', p.idLoop bs = (st, p') ∧ q.idLoop bs = (st, q') ∧ (st = 0 → Same p' q')
  | [], p, q, _, hs => ⟨_, p, q, rfl, rfl, fun _ => hs⟩
  | b :: bs, p, q, hb, hs => by
    have hb1 := hb b (by simp)
    rcases getChar_same hs with ⟨c, p', q', h1, h2, h3, -, -, h4⟩ | ⟨c, d, p', q', h1, h2, hc, hd, h4⟩ |
      ⟨h1, h2⟩
    · simp only [Parser.idLoop, h1, h2]
      by_cases hcb : c ≠ b
      · simp only [if_pos hcb]
        exact ⟨_, _, _, rfl, rfl, fun h => absurd h (by decide)⟩
      · simp only [if_neg hcb]
        exact idLoop_same bs p' q' (fun x hx => hb x (by simp [hx])) h3
    · have hcb : c ≠ b := by rcases hc with rfl | rfl; exact hb1.1.symm; exact hb1.2.symm
      have hdb : d ≠ b := by rcases hd with rfl | rfl; exact hb1.1.symm; exact hb1.2.symm
      simp only [Parser.idLoop, h1, h2, if_pos hcb, if_pos hdb]
      exact ⟨_, _, _, rfl, rfl, fun h => absurd h (by decide)⟩
    · simp only [Parser.idLoop, h1, h2]
      exact ⟨_, _, _, rfl, rfl, fun h => absurd h (by decide)⟩

theorem init_same {p q : Parser} (hs : Same p q) :
    ∃ st p' q', p.init = (st, p') ∧ q.init = (st, q') ∧ (st = 0 → Same p' q') := by
  obtain ⟨s1, p1, q1, h1, h2, h3⟩ := bomLoop_same [0xEF, 0xBB, 0xBF] true p q (by decide) hs
  unfold Parser.init Parser.parseBom
  rw [h1, h2]
  simp only
  by_cases hn : s1 < 0
  · rw [if_pos hn, if_pos hn]; exact ⟨_, _, _, rfl, rfl, fun h => by omega⟩
  rw [if_neg hn, if_neg hn]
  by_cases hg : s1 > 0
  · rw [if_pos hg, if_pos hg]; exact ⟨_, _, _, rfl, rfl, fun h => absurd h (by decide)⟩
  rw [if_neg hg, if_neg hg]
  obtain ⟨s2, p2, q2, i1, i2, i3⟩ := idLoop_same kWebVtt p1 q1 (by decide) (h3 (by omega))
  rw [i1, i2]
  simp only
  by_cases hz : s2 ≠ 0
  · rw [if_pos hz, if_pos hz]; exact ⟨_, _, _, rfl, rfl, fun h => absurd h hz⟩
  rw [if_neg hz, if_neg hz]
  obtain ⟨s3, l3, p3, q3, j1, j2, j3⟩ := getLine_same (i3 (by simpa using hz))
  rw [j1, j2]
  simp only
  by_cases hn : s3 < 0
  · rw [if_pos hn, if_pos hn]; exact ⟨_, _, _, rfl, rfl, fun _ => j3⟩
  rw [if_neg hn, if_neg hn]
  by_cases hg : s3 > 0
  · rw [if_pos hg, if_pos hg]; exact ⟨_, _, _, rfl, rfl, fun _ => j3⟩
  rw [if_neg hg, if_neg hg]
  generalize hc : (!l3.isEmpty) = b1
  by_cases hx : b1 = true ∧ l3.headD 0 ≠ 0x20 ∧ l3.headD 0 ≠ 0x09
  · simp only [if_pos hx]; exact ⟨_, _, _, rfl, rfl, fun h => absurd h (by decide)⟩
  simp only [if_neg hx]
  obtain ⟨s4, l4, p4, q4, k1, k2, k3⟩ := getLine_same j3
  rw [k1, k2]
  simp only
  by_cases hn : s4 < 0
  · rw [if_pos hn, if_pos hn]; exact ⟨_, _, _, rfl, rfl, fun _ => k3⟩
  rw [if_neg hn, if_neg hn]
  by_cases hg : s4 > 0
  · rw [if_pos hg, if_pos hg]; exact ⟨_, _, _, rfl, rfl, fun _ => k3⟩
  rw [if_neg hg, if_neg hg]
  by_cases hl : (!l4.isEmpty) = true
  · rw [if_pos hl, if_pos hl]; exact ⟨_, _, _, rfl, rfl, fun _ => k3⟩
  · rw [if_neg hl, if_neg hl]; exact ⟨_, _, _, rfl, rfl, fun _ => k3⟩

/-- One readable line. -/
theorem getLine_line {p : Parser} {l : Bytes} {e : Ending} {s : Bytes}
    (h : p.stream = l ++ e.bytes ++ s) (hr : Readable l) (ha : After e s)
    (hf : p.fails = false) :
    ∃ p', p.getLine = (0, l, p') ∧ p'.stream = s ∧ p'.fails = false := by
  have hsc := scan_readable l [] (fun c hc => (hr.1 c hc).2.2) (by simpa [maxLine] using hr.2)
  obtain ⟨p1, h1, h2, h3⟩ := lineLoop_none l p [] _ (e.bytes ++ s)
    (fun c hc => ⟨(hr.1 c hc).1, (hr.1 c hc).2.1⟩) (by simpa using h) hsc
  obtain ⟨p2, g1, g2, g3⟩ := lineLoop_ending ([] ++ l) h2 ha (h3.trans hf)
  exact ⟨p2, by unfold Parser.getLine; rw [h1, g1]; simp, g2, g3⟩

theorem getLine_eof {p : Parser} (h : p.stream = []) (hf : p.fails = false) :
    p.getLine = (1, [], p) := by
  unfold Parser.getLine
  rw [lineLoop_eof [] h hf]
  rfl

end Verif.Vtt
