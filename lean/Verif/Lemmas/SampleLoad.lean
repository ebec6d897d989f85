/-
Loading the cues of WebVTT files, and the order in which they are written.
-/
import Verif.Lemmas.Sample
import Verif.Lemmas.VttProper

namespace Verif.Vtt
open Verif Verif.Vtt.Spec

/-! ### Every cue takes characters -/

theorem Parser.getChar_le {p p' : Parser} {g : Got} (h : p.getChar = (g, p')) : p'.size ≤ p.size := by
  cases g with
  | char c => have := Parser.getChar_size h; omega
  | eof =>
    unfold Parser.getChar at h
    split at h
    · cases h
    · split at h
      · cases h
      · split at h <;> cases h; simp
  | error =>
    unfold Parser.getChar at h
    split at h
    · cases h
    · split at h
      · cases h
      · split at h <;> cases h; simp

theorem Parser.lineLoop_le (p : Parser) (ln : Bytes) : (p.lineLoop ln).2.2.size ≤ p.size := by
  fun_induction Parser.lineLoop p ln with
  | case1 p ln p' h => exact Parser.getChar_le h
  | case2 p ln p' h => exact Parser.getChar_le h
  | case3 p ln p' h => exact Parser.getChar_le h
  | case4 p ln p' e1 p'' hcr h hne =>
    have := Parser.getChar_le h
    have h2 := Parser.afterCr_size p'
    rw [hcr] at h2
    simp only at h2 ⊢
    omega
  | case5 p ln c p' h => exact Parser.getChar_le h
  | case6 p ln c p' h => exact Parser.getChar_le h
  | case7 p ln c p' h h1 h2 h3 h4 ih =>
    have := Parser.getChar_le h
    omega

theorem Parser.getLine_le {p p' : Parser} {e : Int} {l : Bytes} (h : p.getLine = (e, l, p')) : p'.size ≤ p.size := by
  have := Parser.lineLoop_le p []
  unfold Parser.getLine at h
  rw [h] at this
  exact this

theorem Parser.firstLine_size (p : Parser) : ∀ {l p'}, p.firstLine = (0, l, p') → p'.size < p.size := by
  fun_induction Parser.firstLine p with
  | case1 p e line p' h he => intro l q hq; cases hq; exact absurd rfl he
  | case2 p e line p' h he hl ih =>
    intro l q hq
    have h0 : e = 0 := by simpa using he
    subst h0
    have := Parser.getLine_size h
    have := ih hq
    omega
  | case3 p e line p' h he hl =>
    intro l q hq
    cases hq
    have h0 : e = 0 := by simpa using he
    subst h0
    exact Parser.getLine_size h

theorem Parser.payloadLoop_le : ∀ (n : Nat) (p : Parser) (acc : List Bytes), p.size < n → (p.payloadLoop acc).2.2.size ≤ p.size
  | 0, _, _, h => by omega
  | n + 1, p, acc, hn => by
    rw [Parser.payloadLoop.eq_def]
    split
    rename_i e line p' h
    have h1 := Parser.getLine_le h
    split
    · exact h1
    split
    · exact h1
    · rename_i he
      have h0 : e = 0 := by simpa using (not_or.mp he).2
      subst h0
      have h2 := Parser.getLine_size h
      have := Parser.payloadLoop_le n p' (acc ++ [line]) (by omega)
      omega

theorem Parser.parse_size {p p' : Parser} {c : Cue} (h : p.parse = (.ok c, p')) : p'.size < p.size := by
  unfold Parser.parse at h
  rcases ht : p.timingsLine with ⟨e, ⟨i, l, a⟩, p1⟩
  rw [ht] at h
  simp only at h
  have h1 : e = 0 → p1.size < p.size := by
    intro he
    subst he
    unfold Parser.timingsLine at ht
    rcases hf : p.firstLine with ⟨e, line, p2⟩
    rw [hf] at ht
    simp only at ht
    split at ht
    · cases ht
      omega
    · rename_i he
      have he : e = 0 := by simpa using he
      subst he
      have h2 := Parser.firstLine_size p hf
      split at ht
      · cases ht
        exact h2
      · rcases hg : p2.getLine with ⟨e, line2, p3⟩
        rw [hg] at ht
        simp only at ht
        have h3 := Parser.getLine_le hg
        split at ht
        · cases ht; omega
        split at ht
        · cases ht
        split at ht
        · cases ht
        · cases ht; omega
  split at h
  · cases h
  rename_i he
  have h1 := h1 (by simpa using he)
  split at h
  · cases h
  · cases h
  · have h2 := Parser.payloadLoop_le _ p1 [] (Nat.lt_succ_self _)
    rcases hp : p1.payloadLoop [] with ⟨e2, pl, p2⟩
    rw [hp] at h2 h
    simp only at h2 h
    split at h
    · cases h
    split at h
    · cases h
    · cases h; omega

theorem Parser.bomLoop_le (bs : List UInt8) : ∀ (p : Parser) (b : Bool), (p.bomLoop bs b).2.size ≤ p.size := by
  induction bs with
  | nil => intro p b; exact Nat.le_refl _
  | cons x bs ih =>
    intro p b
    unfold Parser.bomLoop
    rcases h : p.getChar with ⟨_ | _ | _, p'⟩
    · rename_i c
      simp only
      have h1 := Parser.getChar_size h
      split
      · split
        · show (p'.ungetChar c).size ≤ _
          have hu : p'.unget = none := by
            unfold Parser.getChar at h
            cases hu : p.unget with
            | some d => rw [hu] at h; cases h; rfl
            | none =>
              rw [hu] at h
              cases hr : p.rest with
              | cons d r => rw [hr] at h; cases h; rfl
              | nil =>
                rw [hr] at h
                by_cases hf : p.fails = true <;> simp [hf] at h
          simp [Parser.ungetChar, Parser.size, hu] at h1 ⊢
          omega
        · show p'.size ≤ _
          omega
      · have := ih p' false
        omega
    · exact Parser.getChar_le h
    · exact Parser.getChar_le h

theorem Parser.idLoop_le (bs : List UInt8) : ∀ (p : Parser), (p.idLoop bs).2.size ≤ p.size := by
  induction bs with
  | nil => intro p; exact Nat.le_refl _
  | cons x bs ih =>
    intro p
    unfold Parser.idLoop
    rcases h : p.getChar with ⟨_ | _ | _, p'⟩
    · simp only
      have h1 := Parser.getChar_size h
      split
      · show p'.size ≤ _
        omega
      · have := ih p'
        omega
    · exact Parser.getChar_le h
    · exact Parser.getChar_le h

theorem Parser.init_le (p : Parser) : p.init.2.size ≤ p.size := by
  have h1 : p.parseBom.2.size ≤ p.size := Parser.bomLoop_le _ p true
  unfold Parser.init
  rcases hb : p.parseBom with ⟨e, p1⟩
  rw [hb] at h1
  simp only at h1 ⊢
  split
  · exact h1
  split
  · exact h1
  have h2 := Parser.idLoop_le kWebVtt p1
  rcases hi : p1.idLoop kWebVtt with ⟨e, p2⟩
  rw [hi] at h2
  simp only at h2 ⊢
  split
  · show p2.size ≤ _; omega
  rcases hl : p2.getLine with ⟨e, l, p3⟩
  have h3 := Parser.getLine_le hl
  simp only
  split
  · show p3.size ≤ _; omega
  split
  · show p3.size ≤ _; omega
  split
  · show p3.size ≤ _; omega
  rcases hl4 : p3.getLine with ⟨e, l, p4⟩
  have h4 := Parser.getLine_le hl4
  simp only
  repeat' split
  all_goals (show p4.size ≤ _; omega)

/-! ### The cues of a file -/

/-- The first time the others are compared with is below all of them. -/
theorem ge_first {t : Time} (h : Normal t) : t.ge ⟨-1, 0, 0, 0⟩ = true := by
  have := h.1
  unfold Time.ge Time.lt
  simp only
  rw [if_neg (by omega), if_pos (by omega)]
  rfl

/-- What the loop makes of the results of the parser. -/
theorem parseCues_results {track : Nat} : ∀ (cs : List Cue) {fuel : Nat} {p : Parser} {t : Time} {set : List TrackCue} {e : Int},
    p.size < fuel → (t = ⟨-1, 0, 0, 0⟩ ∨ Normal t) → Props.cueResults (cs.length + 1) p = cs.map .ok ++ [.err e] →
    (parseCues track fuel p t set).2 ≠ .ub ∧
    ((parseCues track fuel p t set).2 = .ok () ↔ 0 ≤ e ∧ (cs.map (millisOf ·.start)).Pairwise (· ≤ ·) ∧
      (∀ c ∈ cs, millisOf c.start ≤ millisOf c.stop) ∧ (Normal t → ∀ c ∈ cs, millisOf t ≤ millisOf c.start)) ∧
    ((parseCues track fuel p t set).2 = .ok () → (parseCues track fuel p t set).1 =
      cs.foldl (fun s c => insertCue ⟨track, c⟩ s) set)
  | [], fuel, p, t, set, e, hf, ht, h => by
    obtain ⟨n, rfl⟩ : ∃ n, fuel = n + 1 := ⟨fuel - 1, by omega⟩
    rw [Props.cueResults] at h
    rcases hp : p.parse with ⟨x, p'⟩
    rw [hp] at h
    simp only [List.length_nil, List.map_nil, List.nil_append, List.cons.injEq] at h
    obtain ⟨rfl, -⟩ := h
    unfold parseCues
    rw [hp]
    simp only
    by_cases he : e < 0
    · rw [if_pos he]
      exact ⟨by simp, ⟨fun h => (by cases h), fun ⟨h, _⟩ => by omega⟩, fun h => (by cases h)⟩
    · rw [if_neg he]
      exact ⟨by simp, ⟨fun _ => ⟨by omega, by simp, by simp, by simp⟩, fun _ => rfl⟩, fun _ => rfl⟩
  | c :: cs, fuel, p, t, set, e, hf, ht, h => by
    obtain ⟨n, rfl⟩ : ∃ n, fuel = n + 1 := ⟨fuel - 1, by omega⟩
    rw [Props.cueResults] at h
    rcases hp : p.parse with ⟨x, p'⟩
    rw [hp] at h
    simp only [List.length_cons, List.map_cons, List.cons_append, List.cons.injEq] at h
    obtain ⟨rfl, h⟩ := h
    have hs := Parser.parse_size hp
    have hpr := parse_proper hp
    obtain ⟨o1, -, -, o2, -⟩ := Props.C38_order c.stop c.start hpr.stop.1 hpr.start.1
    obtain ⟨i1, i2, i3⟩ := parseCues_results (track := track) cs (fuel := n) (p := p') (t := c.start)
      (set := insertCue ⟨track, c⟩ set) (by omega) (.inr hpr.start.1) h
    have hge : (c.start.ge t = true) ↔ (Normal t → millisOf t ≤ millisOf c.start) := by
      rcases ht with rfl | ht
      · refine ⟨fun _ hn => ?_, fun _ => ge_first hpr.start.1⟩
        have := hn.1
        simp at this
      · obtain ⟨-, -, -, o3, -⟩ := Props.C38_order c.start t hpr.start.1 ht
        rw [o3]
        exact ⟨fun h _ => h, fun h => h ht⟩
    unfold parseCues
    rw [hp]
    simp only
    by_cases h1 : c.start.ge t = true
    · have h1' := hge.mp h1
      rw [if_neg (by rw [h1]; decide)]
      by_cases h2 : c.stop.lt c.start = true
      · rw [if_pos h2]
        have := o1.mp h2
        refine ⟨by simp, ⟨fun h => (by cases h), fun ⟨_, _, h, _⟩ => ?_⟩, fun h => (by cases h)⟩
        have := h c (by simp)
        omega
      · rw [if_neg h2]
        have h2' : millisOf c.start ≤ millisOf c.stop := by
          have : ¬ millisOf c.stop < millisOf c.start := fun h => h2 (o1.mpr h)
          omega
        refine ⟨i1, ?_, fun h => by rw [i3 h, List.foldl_cons]⟩
        rw [i2]
        constructor
        · rintro ⟨a1, a2, a3, a4⟩
          have a4 := a4 hpr.start.1
          refine ⟨a1, ?_, ?_, ?_⟩
          · rw [List.map_cons, List.pairwise_cons]
            refine ⟨fun x hx => ?_, a2⟩
            obtain ⟨y, hy, rfl⟩ := List.mem_map.mp hx
            exact a4 y hy
          · intro y hy
            rcases List.mem_cons.mp hy with rfl | hy'
            · exact h2'
            · exact a3 y hy'
          · intro hn y hy
            have := h1' hn
            rcases List.mem_cons.mp hy with rfl | hy'
            · exact this
            · have := a4 y hy'
              omega
        · rintro ⟨a1, a2, a3, a4⟩
          rw [List.map_cons, List.pairwise_cons] at a2
          exact ⟨a1, a2.2, fun y hy => a3 y (by simp [hy]), fun _ y hy => a2.1 _ (List.mem_map.mpr ⟨y, hy, rfl⟩)⟩
    · rw [if_pos (by simpa using h1)]
      refine ⟨by simp, ⟨fun h => (by cases h), fun ⟨_, _, _, h⟩ => ?_⟩, fun h => (by cases h)⟩
      exact absurd (hge.mpr fun hn => h hn c (by simp)) h1

/-- The results of the parser, as far as they go. -/
theorem results_exist : ∀ (n : Nat) (p : Parser), p.size < n → ∃ (cs : List Cue) (e : Int), cs.length ≤ p.size ∧
    Props.cueResults (cs.length + 1) p = cs.map .ok ++ [.err e]
  | 0, p, h => by omega
  | n + 1, p, h => by
    rcases hp : p.parse with ⟨x, p'⟩
    cases x with
    | ub => exact absurd (by rw [hp]) (Props.C51_no_ub p)
    | err e => exact ⟨[], e, Nat.zero_le _, by simp [Props.cueResults, hp]⟩
    | ok c =>
      have hs := Parser.parse_size hp
      obtain ⟨cs, e, h1, h2⟩ := results_exist n p' (by omega)
      refine ⟨c :: cs, e, by simp; omega, ?_⟩
      rw [List.length_cons, Props.cueResults, hp]
      simp only
      rw [h2]
      rfl

theorem results_proper : ∀ (cs : List Cue) {p : Parser} {e : Int},
    Props.cueResults (cs.length + 1) p = cs.map .ok ++ [.err e] → ∀ c ∈ cs, Proper c ∧ PlainMs c.start ∧ PlainMs c.stop
  | [], _, _, _ => by simp
  | c :: cs, p, e, h => by
    rw [List.length_cons, Props.cueResults] at h
    rcases hp : p.parse with ⟨x, p'⟩
    rw [hp] at h
    simp only [List.map_cons, List.cons_append, List.cons.injEq] at h
    obtain ⟨rfl, h⟩ := h
    intro y hy
    rcases List.mem_cons.mp hy with rfl | hy'
    · exact ⟨parse_proper hp, parse_plain hp⟩
    · exact results_proper cs h y hy'

/-- Chapters are accepted as cues are. -/
theorem chapters_as_cues {track : Nat} : ∀ (n : Nat) (p : Parser) (t : Time) (acc : List Cue) (set : List TrackCue),
    (parseCues track n p t set).2 = (parseChapters n p t acc).map fun _ => ()
  | 0, _, _, _, _ => rfl
  | n + 1, p, t, acc, set => by
    unfold parseCues parseChapters
    rcases p.parse with ⟨x, p'⟩
    cases x with
    | ub => rfl
    | err e => simp only; split <;> rfl
    | ok c =>
      have : c.start.ge t = false ↔ c.start.lt t = true := by simp [Time.ge]
      simp only [this]
      split
      · rfl
      split
      · rfl
      · exact chapters_as_cues n p' c.start _ _

/-- The chapters are the cues of the file, in its order. -/
theorem chapters_list : ∀ (cs : List Cue) {n : Nat} {p : Parser} {t : Time} {acc r : List Cue} {e : Int},
    Props.cueResults (cs.length + 1) p = cs.map .ok ++ [.err e] → parseChapters n p t acc = .ok r → r = acc ++ cs
  | [], 0, _, _, _, _, _, _, h => by cases h
  | _ :: _, 0, _, _, _, _, _, _, h => by cases h
  | [], n + 1, p, t, acc, r, e, hr, h => by
    rw [Props.cueResults] at hr
    rcases hp : p.parse with ⟨x, p'⟩
    rw [hp] at hr
    simp only [List.length_nil, List.map_nil, List.nil_append, List.cons.injEq] at hr
    obtain ⟨rfl, -⟩ := hr
    unfold parseChapters at h
    rw [hp] at h
    simp only at h
    split at h <;> cases h
    rw [List.append_nil]
  | c :: cs, n + 1, p, t, acc, r, e, hr, h => by
    rw [Props.cueResults] at hr
    rcases hp : p.parse with ⟨x, p'⟩
    rw [hp] at hr
    simp only [List.length_cons, List.map_cons, List.cons_append, List.cons.injEq] at hr
    obtain ⟨rfl, hr⟩ := hr
    unfold parseChapters at h
    rw [hp] at h
    simp only at h
    split at h
    · cases h
    split at h
    · cases h
    · rw [chapters_list cs hr h, List.append_assoc]
      rfl

/-! ### Sorting in -/

/-- The order of the cues. -/
def Before' (a b : TrackCue) : Prop := millisOf a.cue.start < millisOf b.cue.start ∨
    (millisOf a.cue.start = millisOf b.cue.start ∧ a.track ≤ b.track)

theorem lt_iff_before {a b : TrackCue} (ha : Normal a.cue.start) (hb : Normal b.cue.start) :
    a.lt b = true ↔ ¬ Before' b a := by
  obtain ⟨o1, o2, -⟩ := Props.C38_order a.cue.start b.cue.start ha hb
  unfold TrackCue.lt Before'
  by_cases h1 : a.cue.start.lt b.cue.start = true
  · have := o1.mp h1
    rw [if_pos h1]
    refine ⟨fun _ => ?_, fun _ => rfl⟩
    rintro (h | ⟨h, -⟩) <;> omega
  · have h1' : ¬ millisOf a.cue.start < millisOf b.cue.start := fun h => h1 (o1.mpr h)
    rw [if_neg h1]
    by_cases h2 : a.cue.start.gt b.cue.start = true
    · have := o2.mp h2
      rw [if_pos h2]
      refine ⟨fun h => (by cases h), fun h => absurd (.inl (by omega)) h⟩
    · have h2' : ¬ millisOf a.cue.start > millisOf b.cue.start := fun h => h2 (o2.mpr h)
      rw [if_neg h2, decide_eq_true_iff]
      constructor
      · rintro h (h' | ⟨-, h'⟩) <;> omega
      · intro h
        by_cases h3 : a.track < b.track
        · exact h3
        · exact absurd (.inr ⟨by omega, by omega⟩) h

theorem insertCue_mem {x : TrackCue} : ∀ {set : List TrackCue} {y : TrackCue}, y ∈ insertCue x set ↔ y = x ∨ y ∈ set
  | [], y => by simp [insertCue]
  | z :: zs, y => by
    unfold insertCue
    split
    · simp
    · rw [List.mem_cons, insertCue_mem, List.mem_cons]
      constructor
      · rintro (h | h | h)
        · exact .inr (.inl h)
        · exact .inl h
        · exact .inr (.inr h)
      · rintro (h | h | h)
        · exact .inr (.inl h)
        · exact .inl h
        · exact .inr (.inr h)

theorem before_trans {a b c : TrackCue} (h : Before' a b) (h' : Before' b c) : Before' a c := by
  unfold Before' at *
  omega

theorem insertCue_sorted {x : TrackCue} (hx : Normal x.cue.start) : ∀ {set : List TrackCue}, (∀ y ∈ set, Normal y.cue.start) →
    set.Pairwise Before' → (insertCue x set).Pairwise Before'
  | [], _, _ => by simp [insertCue]
  | z :: zs, hn, hp => by
    have hlt := lt_iff_before hx (hn z (by simp))
    have hp' := hp
    rw [List.pairwise_cons] at hp
    unfold insertCue
    by_cases h : x.lt z = true
    · rw [if_pos h, List.pairwise_cons]
      have hb : Before' x z := by
        have := hlt.mp h
        unfold Before' at *
        omega
      refine ⟨fun y hy => ?_, hp'⟩
      rcases List.mem_cons.mp hy with rfl | hy'
      · exact hb
      · exact before_trans hb (hp.1 y hy')
    · rw [if_neg h, List.pairwise_cons]
      have hb : Before' z x := Classical.not_not.mp fun hc => h (hlt.mpr hc)
      refine ⟨fun y hy => ?_, insertCue_sorted hx (fun y hy => hn y (by simp [hy])) hp.2⟩
      rcases insertCue_mem.mp hy with rfl | hy'
      · exact hb
      · exact hp.1 y hy'

/-- The cues of other tracks stay as they are. -/
theorem insertCue_other {x : TrackCue} {n : Nat} (h : x.track ≠ n) : ∀ set : List TrackCue,
    (insertCue x set).filter (·.track == n) = set.filter (·.track == n)
  | [] => by simp [insertCue, h]
  | z :: zs => by
    unfold insertCue
    split
    · rw [List.filter_cons_of_neg (by simpa using h)]
    · rw [List.filter_cons, List.filter_cons, insertCue_other h zs]

/-- A cue goes behind those of its track that start no later. -/
theorem insertCue_same {x : TrackCue} (hx : Normal x.cue.start) : ∀ {set : List TrackCue}, (∀ y ∈ set, Normal y.cue.start) →
    (∀ y ∈ set, y.track = x.track → millisOf y.cue.start ≤ millisOf x.cue.start) → set.Pairwise Before' →
    (insertCue x set).filter (·.track == x.track) = set.filter (·.track == x.track) ++ [x]
  | [], _, _, _ => by simp [insertCue]
  | z :: zs, hn, hle, hp => by
    have hlt := lt_iff_before hx (hn z (by simp))
    rw [List.pairwise_cons] at hp
    unfold insertCue
    by_cases h : x.lt z = true
    · rw [if_pos h]
      have hnone : (z :: zs).filter (·.track == x.track) = [] := by
        rw [List.filter_eq_nil_iff]
        intro y hy hyt
        have hyt : y.track = x.track := by simpa using hyt
        have h1 := hle y hy hyt
        have h2 := hlt.mp h
        have h3 : y = z ∨ Before' z y := (List.mem_cons.mp hy).imp id (hp.1 y)
        refine h2 ?_
        rcases h3 with rfl | h3
        · unfold Before'; omega
        · unfold Before' at *; omega
      rw [List.filter_cons_of_pos (by simp), hnone]
      rfl
    · rw [if_neg h, List.filter_cons, List.filter_cons,
        insertCue_same hx (fun y hy => hn y (by simp [hy])) (fun y hy => hle y (by simp [hy])) hp.2]
      split <;> rfl

/-- All the cues of a file. -/
theorem foldl_insert {track : Nat} : ∀ (cs : List Cue) {set : List TrackCue}, (∀ c ∈ cs, Normal c.start) →
    (∀ y ∈ set, Normal y.cue.start) → set.Pairwise Before' → (cs.map (millisOf ·.start)).Pairwise (· ≤ ·) →
    (∀ y ∈ set, y.track = track → ∀ c ∈ cs, millisOf y.cue.start ≤ millisOf c.start) →
    (cs.foldl (fun s c => insertCue ⟨track, c⟩ s) set).Pairwise Before' ∧
      (cs.foldl (fun s c => insertCue ⟨track, c⟩ s) set).filter (·.track == track) =
        set.filter (·.track == track) ++ cs.map (TrackCue.mk track) ∧
      (∀ n, n ≠ track → (cs.foldl (fun s c => insertCue ⟨track, c⟩ s) set).filter (·.track == n) = set.filter (·.track == n)) ∧
      (∀ y, y ∈ cs.foldl (fun s c => insertCue ⟨track, c⟩ s) set ↔ y ∈ set ∨ ∃ c ∈ cs, y = ⟨track, c⟩)
  | [], set, _, _, hp, _, _ => ⟨hp, by simp, fun _ _ => rfl, fun y => by simp⟩
  | c :: cs, set, hn, hns, hp, hs, hle => by
    rw [List.map_cons, List.pairwise_cons] at hs
    have hc := hn c (by simp)
    have hmem := fun y => @insertCue_mem ⟨track, c⟩ set y
    obtain ⟨h1, h2, h3, h4⟩ := foldl_insert (track := track) cs (set := insertCue ⟨track, c⟩ set) (fun x hx => hn x (by simp [hx]))
      (fun y hy => by
        rcases (hmem y).mp hy with rfl | hy'
        · exact hc
        · exact hns y hy')
      (insertCue_sorted hc hns hp) hs.2
      (fun y hy hyt x hx => by
        rcases (hmem y).mp hy with rfl | hy'
        · exact hs.1 _ (List.mem_map.mpr ⟨x, hx, rfl⟩)
        · exact hle y hy' hyt x (by simp [hx]))
    rw [List.foldl_cons]
    refine ⟨h1, ?_, fun n hnt => ?_, fun y => ?_⟩
    · have := insertCue_same (x := ⟨track, c⟩) hc hns (fun y hy hyt => hle y hy hyt c (by simp)) hp
      simp only at this
      rw [h2, this, List.map_cons, List.append_assoc]
      rfl
    · rw [h3 n hnt]
      exact insertCue_other (fun e => hnt e.symm) set
    · rw [h4, hmem]
      constructor
      · rintro ((h | h) | ⟨x, hx, h⟩)
        · exact .inr ⟨c, by simp, h⟩
        · exact .inl h
        · exact .inr ⟨x, by simp [hx], h⟩
      · rintro (h | ⟨x, hx, h⟩)
        · exact .inl (.inr h)
        · rcases List.mem_cons.mp hx with rfl | hx'
          · exact .inl (.inl h)
          · exact .inr ⟨x, hx', h⟩

end Verif.Vtt

namespace Verif.Sample
open Verif Verif.Mux Verif.Spec Verif.Vtt Verif.Vtt.Spec

/-! ### The schedule -/

/-- Among frames that are not copies: the cues, in their order. -/
theorem interleave_cues {p : Frame → Bool} : ∀ (bs : List (Int × Option Frame)) (cues : List TrackCue),
    (∀ b ∈ bs, ∀ f ∈ b.2, p f = false) → (interleave bs cues).filter p = (cues.map cueAsFrame).filter p
  | [], _, _ => rfl
  | (t, f) :: bs, cues, h => by
    rw [interleave, List.filter_append, List.filter_append, interleave_cues bs _ fun b hb => h b (by simp [hb])]
    have : f.toList.filter p = [] := by
      cases f with
      | none => rfl
      | some f => simp [h (t, some f) (by simp) f rfl]
    rw [this, List.append_nil, ← List.filter_append, ← List.map_append, List.takeWhile_append_dropWhile]

/-- Among frames that are not cues: the copies, in their order. -/
theorem interleave_copies {p : Frame → Bool} : ∀ (bs : List (Int × Option Frame)) (cues : List TrackCue),
    (∀ x ∈ cues, p (cueAsFrame x) = false) → (interleave bs cues).filter p = (bs.filterMap (·.2)).filter p
  | [], cues, h => by
    rw [interleave, List.filterMap_nil, List.filter_nil, List.filter_eq_nil_iff]
    intro f hf
    obtain ⟨x, hx, rfl⟩ := List.mem_map.mp hf
    simp [h x hx]
  | (t, f) :: bs, cues, h => by
    rw [interleave, List.filter_append, List.filter_append, interleave_copies bs _ fun x hx => h x ((List.dropWhile_sublist _).mem hx)]
    have : ((cues.takeWhile fun x => startNs x ≤ t).map cueAsFrame).filter p = [] := by
      rw [List.filter_eq_nil_iff]
      intro f hf
      obtain ⟨x, hx, rfl⟩ := List.mem_map.mp hf
      simp [h x ((List.takeWhile_sublist _).mem hx)]
    rw [this, List.nil_append]
    cases f with
    | none => simp
    | some f => simp [List.filter_cons]; split <;> rfl

theorem mem_interleave : ∀ (bs : List (Int × Option Frame)) (cues : List TrackCue) (f : Frame),
    f ∈ interleave bs cues ↔ (∃ b ∈ bs, b.2 = some f) ∨ ∃ x ∈ cues, f = cueAsFrame x
  | [], cues, f => by
    rw [interleave, List.mem_map]
    simp [eq_comm]
  | (t, g) :: bs, cues, f => by
    rw [interleave, List.mem_append, List.mem_append, mem_interleave bs]
    have hsplit : ∀ x, x ∈ cues ↔ x ∈ (cues.takeWhile fun x => startNs x ≤ t) ∨ x ∈ (cues.dropWhile fun x => startNs x ≤ t) := by
      intro x
      rw [← List.mem_append, List.takeWhile_append_dropWhile]
    constructor
    · rintro ((h | h) | ⟨b, hb, h⟩ | ⟨x, hx, h⟩)
      · obtain ⟨x, hx, rfl⟩ := List.mem_map.mp h
        exact .inr ⟨x, (hsplit x).mpr (.inl hx), rfl⟩
      · exact .inl ⟨(t, g), by simp, by simpa using h⟩
      · exact .inl ⟨b, by simp [hb], h⟩
      · exact .inr ⟨x, (hsplit x).mpr (.inr hx), h⟩
    · rintro (⟨b, hb, h⟩ | ⟨x, hx, h⟩)
      · rcases List.mem_cons.mp hb with rfl | hb'
        · exact .inl (.inr (by simpa using h))
        · exact .inr (.inl ⟨b, hb', h⟩)
      · rcases (hsplit x).mp hx with hx | hx
        · exact .inl (.inl (List.mem_map.mpr ⟨x, hx, h.symm⟩))
        · exact .inr (.inr ⟨x, hx, h⟩)

/-- In order of time. -/
theorem interleave_order : ∀ (bs : List (Int × Option Frame)) (cues : List TrackCue),
    (∀ b ∈ bs, 0 ≤ b.1 ∧ ∀ f ∈ b.2, f.timestamp = b.1.toNat) → (bs.map (·.1)).Pairwise (· ≤ ·) →
    (∀ x ∈ cues, 0 ≤ startNs x) → (cues.map startNs).Pairwise (· ≤ ·) → InOrder (interleave bs cues)
  | [], cues, _, _, h0, hp => by
    unfold InOrder
    rw [interleave, List.pairwise_map]
    rw [List.pairwise_map] at hp
    refine hp.imp fun {a b} hab => ?_
    show (startNs a).toNat ≤ (startNs b).toNat
    omega
  | (t, f) :: bs, cues, hb, hbp, h0, hp => by
    have hp' := hp
    rw [← List.takeWhile_append_dropWhile (p := fun x => decide (startNs x ≤ t)) (l := cues)] at hp
    rw [List.map_append, List.pairwise_append] at hp
    rw [List.map_cons, List.pairwise_cons] at hbp
    obtain ⟨b0, b1⟩ := hb (t, f) (by simp)
    simp only at b0 b1
    have hdrop : ∀ x ∈ cues.dropWhile fun x => decide (startNs x ≤ t), t ≤ startNs x := by
      intro x hx
      cases hd : cues.dropWhile fun x => decide (startNs x ≤ t) with
      | nil => rw [hd] at hx; cases hx
      | cons y ys =>
        have hy : ¬ startNs y ≤ t := by
          have := List.head?_dropWhile_not (fun x => decide (startNs x ≤ t)) cues
          rw [hd] at this
          simpa using this
        have hq := hp.2.1
        rw [hd] at hq hx
        rw [List.map_cons, List.pairwise_cons] at hq
        rcases List.mem_cons.mp hx with rfl | hx'
        · omega
        · have := hq.1 _ (List.mem_map_of_mem hx')
          omega
    have htake : ∀ x ∈ cues.takeWhile fun x => decide (startNs x ≤ t), startNs x ≤ t := by
      intro x hx
      simpa using List.all_takeWhile (p := fun x => decide (startNs x ≤ t)) (l := cues) |> List.all_eq_true.mp |> (· x hx)
    have hlater : ∀ g ∈ interleave bs (cues.dropWhile fun x => decide (startNs x ≤ t)), t.toNat ≤ g.timestamp := by
      intro g hg
      rcases (mem_interleave _ _ _).mp hg with ⟨b, hbm, hbg⟩ | ⟨x, hx, rfl⟩
      · have h1 := (hb b (by simp [hbm])).2 g (by rw [hbg]; rfl)
        have h2 := hbp.1 _ (List.mem_map_of_mem hbm)
        rw [h1]
        omega
      · show _ ≤ (startNs x).toNat
        have := hdrop x hx
        omega
    have ih := interleave_order bs (cues.dropWhile fun x => decide (startNs x ≤ t)) (fun b hbm => hb b (by simp [hbm])) hbp.2
      (fun x hx => h0 x ((List.dropWhile_sublist _).mem hx)) hp.2.1
    unfold InOrder at *
    rw [interleave, List.pairwise_append, List.pairwise_append]
    refine ⟨⟨?_, ?_, ?_⟩, ih, ?_⟩
    · have := hp.1
      rw [List.pairwise_map] at this ⊢
      refine this.imp fun {a b} hab => ?_
      show (startNs a).toNat ≤ (startNs b).toNat
      omega
    · cases f <;> simp
    · intro a ha g hg
      obtain ⟨x, hx, rfl⟩ := List.mem_map.mp ha
      rw [b1 g (by simpa using hg)]
      show (startNs x).toNat ≤ _
      have := htake x hx
      omega
    · intro a ha g hg
      have := hlater g hg
      rcases List.mem_append.mp ha with ha' | ha'
      · obtain ⟨x, hx, rfl⟩ := List.mem_map.mp ha'
        have := htake x hx
        show (startNs x).toNat ≤ _
        omega
      · rw [b1 a (by simpa using ha')]
        exact this

end Verif.Sample
