/-
The cluster table: its operations on well-formed tables.
-/
import Verif.Model.ParserTable

namespace Verif.Par
open Verif

/-- A table holding loaded clusters `ls` and preloaded clusters `ps`. -/
structure Good (t : Table) (ls ps : List Clu) : Prop where
  mem : ∃ rest, t.mem = (ls ++ ps).map some ++ rest
  loaded : t.loaded = ls.length
  pre : t.pre = ps.length
  index : ∀ (i : Nat) (c : Clu), ls[i]? = some c → c.index = i
  ahead : ∀ c ∈ ps, c.index < 0
  nonneg : ∀ c ∈ ls ++ ps, 0 ≤ c.pos
  sorted : ps.Pairwise fun a b => a.pos < b.pos

theorem shiftUp_spec (A : List (Option Clu)) (c : Option Clu) :
    ∀ (B : List Clu) (x : Option Clu) (C : List (Option Clu)), (∀ b ∈ B, b.index < 0) →
      ∃ mem, shiftUp (A ++ (B.map some ++ x :: C)) (A.length + B.length) B.length = .ok (true, mem) ∧
        mem.set A.length c = A ++ (c :: (B.map some ++ C)) := by
  intro B
  induction hn : B.length generalizing B with
  | zero =>
    intro x C _
    have : B = [] := List.length_eq_zero_iff.mp hn
    subst this
    exact ⟨_, rfl, by simp⟩
  | succ n ih =>
    intro x C hneg
    obtain ⟨B', b, rfl⟩ : ∃ B' b, B = B' ++ [b] := by
      rcases List.eq_nil_or_concat B with h | ⟨B', b, h⟩
      · subst h; simp at hn
      · exact ⟨B', b, by simpa using h⟩
    have hn' : B'.length = n := by simpa using hn
    have hb := hneg b (by simp)
    unfold shiftUp
    have hget : (A ++ ((B' ++ [b]).map some ++ x :: C))[A.length + (n + 1) - 1]? = some (some b) := by
      rw [List.getElem?_append_right (by omega), List.getElem?_append_left (by simp; omega)]
      rw [show A.length + (n + 1) - 1 - A.length = n by omega, List.getElem?_map]
      rw [← hn', List.getElem?_append_right (by omega)]
      simp
    rw [hget]
    simp only
    rw [if_neg (by omega)]
    have hset : (A ++ ((B' ++ [b]).map some ++ x :: C)).set (A.length + (n + 1)) (some b) =
        A ++ (B'.map some ++ some b :: (some b :: C)) := by
      rw [List.set_append_right _ _ (by omega), List.set_append_right _ _ (by simp; omega)]
      simp [hn']
    rw [hset, show A.length + (n + 1) - 1 = A.length + n by omega]
    obtain ⟨mem, h1, h2⟩ := ih B' hn' (some b) (some b :: C) (fun z hz => hneg z (by simp [hz]))
    exact ⟨mem, h1, by rw [h2]; simp⟩

theorem Good.room {t : Table} {ls ps : List Clu} (h : Good t ls ps) :
    Good t.grow ls ps ∧ ∃ x rest, t.grow.mem = (ls ++ ps).map some ++ x :: rest := by
  obtain ⟨rest, hm⟩ := h.mem
  have hlen : t.mem.length = ls.length + ps.length + rest.length := by rw [hm]; simp; omega
  unfold Table.grow
  by_cases hg : t.loaded + t.pre ≥ t.mem.length
  · rw [if_pos hg]
    have hr : rest = [] := by
      rw [h.loaded, h.pre] at hg
      exact List.length_eq_zero_iff.mp (by omega)
    have htake : t.mem.take (t.loaded + t.pre) = (ls ++ ps).map some := by
      rw [h.loaded, h.pre, hm, hr]
      simp [List.take_of_length_le]
    have hk : ∃ k, (if t.mem.length = 0 then 2048 else 2 * t.mem.length) - (t.loaded + t.pre) = k + 1 := by
      rw [h.loaded, h.pre]
      rw [hr] at hlen
      simp only [List.length_nil] at hlen
      split
      · exact ⟨_, Nat.succ_pred_eq_of_pos (by omega) |>.symm⟩
      · exact ⟨_, Nat.succ_pred_eq_of_pos (by omega) |>.symm⟩
    obtain ⟨k, hk⟩ := hk
    refine ⟨⟨⟨List.replicate (k + 1) none, ?_⟩, h.loaded, h.pre, h.index, h.ahead, h.nonneg, h.sorted⟩, none, List.replicate k none, ?_⟩
    · simp only; rw [htake, hk]
    · simp only; rw [htake, hk, List.replicate_succ]
  · rw [if_neg hg]
    refine ⟨h, ?_⟩
    cases rest with
    | nil => rw [h.loaded, h.pre] at hg; simp at hlen; omega
    | cons x rest => exact ⟨x, rest, hm⟩

theorem index_snoc {ls : List Clu} (h : ∀ (i : Nat) (c : Clu), ls[i]? = some c → c.index = i) {d : Clu}
    (hd : d.index = ls.length) : ∀ (i : Nat) (c : Clu), (ls ++ [d])[i]? = some c → c.index = i := by
  intro i c hc
  by_cases hi : i < ls.length
  · rw [List.getElem?_append_left hi] at hc; exact h i c hc
  · rw [List.getElem?_append_right (by omega)] at hc
    have : i - ls.length = 0 := by
      rcases Nat.eq_zero_or_pos (i - ls.length) with h0 | h0
      · exact h0
      · rw [List.getElem?_eq_none (by simp; omega)] at hc; cases hc
    rw [this] at hc
    simp at hc
    subst hc
    rw [hd]; omega

theorem Good.append {t : Table} {ls ps : List Clu} (h : Good t ls ps) {c : Clu} (hc : c.index = ls.length)
    (hp : 0 ≤ c.pos) : ∃ t', t.append c = .ok (true, t') ∧ Good t' (ls ++ [c]) ps := by
  obtain ⟨g, x, rest, hm⟩ := h.room
  obtain ⟨rest0, hm0⟩ := h.mem
  have hlen : t.mem.length = ls.length + ps.length + rest0.length := by rw [hm0]; simp; omega
  have hlen2 : t.grow.mem.length = ls.length + ps.length + (rest.length + 1) := by rw [hm]; simp; omega
  unfold Table.append
  rw [if_neg (by omega), if_neg (by rw [h.loaded, h.pre]; omega)]
  unfold Table.appendTo
  simp only
  have hnn : ∀ d ∈ ls ++ [c] ++ ps, 0 ≤ d.pos := by
    intro d hd
    simp only [List.mem_append, List.mem_singleton] at hd
    rcases hd with (hd | hd) | hd
    · exact h.nonneg d (by simp [hd])
    · subst hd; exact hp
    · exact h.nonneg d (by simp [hd])
  by_cases hz : t.grow.pre > 0
  · rw [if_pos hz]
    cases ps with
    | nil => rw [g.pre] at hz; simp at hz
    | cons p ps =>
      have hget : t.grow.mem[t.grow.loaded]? = some (some p) := by
        rw [g.loaded, hm, List.map_append, List.append_assoc, List.getElem?_append_right (by simp)]
        simp
      rw [hget]
      simp only
      have hneg := h.ahead p (by simp)
      obtain ⟨mem, s1, s2⟩ := shiftUp_spec (ls.map some) (some c) (p :: ps) x rest h.ahead
      rw [if_neg (by omega), if_neg (by rw [g.loaded, g.pre]; simp at hlen2 ⊢; omega)]
      rw [g.loaded, g.pre, hm, List.map_append, List.append_assoc]
      rw [List.length_map] at s1 s2
      rw [s1]
      simp only
      refine ⟨_, rfl, ⟨⟨rest, ?_⟩, by simp, by simp, index_snoc h.index hc, h.ahead, hnn, h.sorted⟩⟩
      simp only
      rw [s2]; simp
  · rw [if_neg hz, if_pos (by rw [g.loaded]; omega)]
    have hps : ps = [] := by
      cases ps with
      | nil => rfl
      | cons p ps => rw [g.pre] at hz; simp at hz
    subst hps
    refine ⟨_, rfl, ⟨⟨rest, ?_⟩, by simp [g.loaded], by simpa using g.pre, index_snoc h.index hc, h.ahead, hnn, h.sorted⟩⟩
    simp only
    rw [g.loaded, hm, List.append_nil, List.set_append_right _ _ (by simp)]
    simp

theorem Good.preload {t : Table} {ls a b : List Clu} (h : Good t ls (a ++ b)) {c : Clu} (hc : c.index < 0)
    (hp : 0 ≤ c.pos) (ha : ∀ x ∈ a, x.pos < c.pos) (hb : ∀ x ∈ b, c.pos < x.pos) :
    ∃ t', t.preload c (ls.length + a.length) = .ok (true, t') ∧ Good t' ls (a ++ c :: b) := by
  obtain ⟨g, x, rest, hm⟩ := h.room
  obtain ⟨rest0, hm0⟩ := h.mem
  have hlen : t.mem.length = ls.length + (a.length + b.length) + rest0.length := by rw [hm0]; simp; omega
  have hlen2 : t.grow.mem.length = ls.length + (a.length + b.length) + (rest.length + 1) := by rw [hm]; simp; omega
  have hpre : t.pre = a.length + b.length := by rw [h.pre]; simp
  have hpre2 : t.grow.pre = a.length + b.length := by rw [g.pre]; simp
  unfold Table.preload
  rw [if_neg (by rw [h.loaded]; omega), if_neg (by rw [h.loaded, hpre]; omega)]
  unfold Table.insertTo
  simp only
  rw [if_neg (by rw [g.loaded, hpre2]; omega)]
  have hq : t.grow.loaded + t.grow.pre = ((ls ++ a).map some).length + b.length := by
    rw [g.loaded, hpre2]; simp; omega
  have hst : t.grow.loaded + t.grow.pre - (ls.length + a.length) = b.length := by
    rw [g.loaded, hpre2]; omega
  obtain ⟨mem, s1, s2⟩ := shiftUp_spec ((ls ++ a).map some) (some c) b x rest
    (fun z hz => h.ahead z (by simp [hz]))
  have hm2 : t.grow.mem = (ls ++ a).map some ++ (b.map some ++ x :: rest) := by rw [hm]; simp
  rw [hst, hq, hm2, s1]
  simp only
  rw [show ((ls ++ a).map some).length = ls.length + a.length by simp] at s2
  refine ⟨_, rfl, ⟨⟨rest, ?_⟩, g.loaded, ?_, h.index, ?_, ?_, ?_⟩⟩
  · simp only; rw [s2]; simp
  · simp only; rw [hpre2]; simp; omega
  · intro d hd
    simp only [List.mem_append, List.mem_cons] at hd
    rcases hd with hd | hd | hd
    · exact h.ahead d (by simp [hd])
    · subst hd; exact hc
    · exact h.ahead d (by simp [hd])
  · intro d hd
    simp only [List.mem_append, List.mem_cons] at hd
    rcases hd with hd | hd | hd | hd
    · exact h.nonneg d (by simp [hd])
    · exact h.nonneg d (by simp [hd])
    · subst hd; exact hp
    · exact h.nonneg d (by simp [hd])
  · have hs := List.pairwise_append.mp h.sorted
    refine List.pairwise_append.mpr ⟨hs.1, List.pairwise_cons.mpr ⟨hb, hs.2.1⟩, ?_⟩
    intro y hy z hz
    rcases List.mem_cons.mp hz with rfl | hz
    · exact ha y hy
    · exact hs.2.2 y hy z hz

theorem Good.slot {t : Table} {ls ps : List Clu} (h : Good t ls ps) {k : Nat} (hk : k < ls.length + ps.length) :
    ∃ c, (ls ++ ps)[k]? = some c ∧ t.mem[k]? = some (some c) ∧ 0 ≤ c.pos := by
  obtain ⟨rest, hm⟩ := h.mem
  obtain ⟨c, hc⟩ : ∃ c, (ls ++ ps)[k]? = some c := ⟨_, List.getElem?_eq_getElem (by simp; omega)⟩
  refine ⟨c, hc, ?_, h.nonneg c (List.mem_of_getElem? hc)⟩
  rw [hm, List.getElem?_append_left (by simp; omega), List.getElem?_map, hc]; rfl

theorem sorted_get {ps : List Clu} (h : ps.Pairwise fun a b => a.pos < b.pos) {i j : Nat} {c d : Clu}
    (hij : i ≤ j) (hc : ps[i]? = some c) (hd : ps[j]? = some d) : c.pos ≤ d.pos := by
  rcases Nat.lt_or_ge i j with h1 | h1
  · have hj : j < ps.length := by
      rcases Nat.lt_or_ge j ps.length with h2 | h2
      · exact h2
      · rw [List.getElem?_eq_none h2] at hd; cases hd
    have := List.pairwise_iff_getElem.mp h i j (by omega) hj h1
    rw [List.getElem?_eq_getElem (by omega)] at hc
    rw [List.getElem?_eq_getElem hj] at hd
    cases hc; cases hd; omega
  · have : i = j := by omega
    subst this
    rw [hc] at hd; cases hd; omega

theorem searchLoop_spec {t : Table} {ls ps : List Clu}
    (hslot : ∀ k, k < ls.length + ps.length →
      ∃ c, (ls ++ ps)[k]? = some c ∧ t.mem[k]? = some (some c) ∧ 0 ≤ c.pos)
    (hsort : ps.Pairwise fun a b => a.pos < b.pos) (req : Int) :
    ∀ i j, i ≤ j → j ≤ ls.length + ps.length →
      (∀ k c, ls.length + k < i → ps[k]? = some c → c.pos < req) →
      (ls.length ≤ j → ∀ k c, j ≤ ls.length + k → ps[k]? = some c → req < c.pos) →
      (∃ k c, searchLoop t.mem (ls.length + ps.length) req i j = .ok (.inl k) ∧
        (ls ++ ps)[k]? = some c ∧ c.pos = req) ∨
      (∃ m, searchLoop t.mem (ls.length + ps.length) req i j = .ok (.inr m) ∧ i ≤ m ∧ m ≤ j ∧
        (∀ k c, ls.length + k < m → ps[k]? = some c → c.pos < req) ∧
        (ls.length ≤ m → ∀ k c, m ≤ ls.length + k → ps[k]? = some c → req < c.pos)) := by
  intro i j
  induction hn : j - i using Nat.strongRecOn generalizing i j with
  | _ n ih =>
    intro hij hj hlo hhi
    rw [searchLoop.eq_1]
    by_cases hlt : i < j
    · rw [if_pos hlt]
      simp only
      have hkj : i + (j - i) / 2 < j := by omega
      obtain ⟨c, hc, hmem, hpos⟩ := hslot (i + (j - i) / 2) (by omega)
      rw [if_neg (by omega), hmem]
      simp only
      rw [if_neg (by omega)]
      by_cases h1 : c.pos < req
      · rw [if_pos h1]
        rcases ih _ (by omega) (i + (j - i) / 2 + 1) j rfl (by omega) hj (fun k d hk hd => by
          have hk2 : ls.length + k ≤ i + (j - i) / 2 := by omega
          rw [List.getElem?_append_right (by omega)] at hc
          have := sorted_get hsort (show k ≤ i + (j - i) / 2 - ls.length by omega) hd hc
          omega) hhi with ⟨k, d, g1, g2, g3⟩ | ⟨m, g1, g2, g3, g4, g5⟩
        · exact .inl ⟨k, d, g1, g2, g3⟩
        · exact .inr ⟨m, g1, by omega, g3, g4, g5⟩
      · rw [if_neg h1]
        by_cases h2 : c.pos > req
        · rw [if_pos h2]
          rcases ih _ (by omega) i (i + (j - i) / 2) rfl (by omega) (by omega) hlo (fun hl k d hk hd => by
            rw [List.getElem?_append_right (by omega)] at hc
            have := sorted_get hsort (show i + (j - i) / 2 - ls.length ≤ k by omega) hc hd
            omega) with ⟨k, d, g1, g2, g3⟩ | ⟨m, g1, g2, g3, g4, g5⟩
          · exact .inl ⟨k, d, g1, g2, g3⟩
          · exact .inr ⟨m, g1, g2, by omega, g4, g5⟩
        · rw [if_neg h2]
          exact .inl ⟨_, c, rfl, hc, by omega⟩
    · rw [if_neg hlt]
      have : i = j := by omega
      subst this
      exact .inr ⟨i, rfl, Nat.le_refl _, Nat.le_refl _, hlo, hhi⟩

/-- Looking a position up: it is found, or a preloaded cluster is inserted, or the answer is "no". -/
theorem Good.find {t : Table} {ls ps : List Clu} (h : Good t ls ps) (req tc : Int) :
    (∃ k c, t.findOrPreload req tc = .ok (some k, t) ∧ (ls ++ ps)[k]? = some c ∧ c.pos = req) ∨
    (∃ a b t', ps = a ++ b ∧ t.findOrPreload req tc = .ok (some (ls.length + a.length), t') ∧
      Good t' ls (a ++ ⟨-1, req, tc⟩ :: b) ∧ ∀ x ∈ ps, x.pos ≠ req) ∨
    (t.findOrPreload req tc = .ok (none, t)) := by
  unfold Table.findOrPreload
  by_cases hr : req < 0
  · rw [if_pos hr]; exact .inr (.inr rfl)
  rw [if_neg hr, h.loaded, h.pre]
  rcases searchLoop_spec (fun _ => h.slot) h.sorted req 0 (ls.length + ps.length) (by omega) (by omega) (by intro k c hk; omega)
    (fun _ k c hk hc => by rw [List.getElem?_eq_none (by omega)] at hc; cases hc) with
    ⟨k, c, g1, g2, g3⟩ | ⟨m, g1, -, g3, g4, g5⟩
  · rw [g1]; exact .inl ⟨k, c, rfl, g2, g3⟩
  · rw [g1]
    simp only
    by_cases hm : ls.length ≤ m
    · have hsplit : ps = ps.take (m - ls.length) ++ ps.drop (m - ls.length) := (List.take_append_drop _ _).symm
      have hl : (ps.take (m - ls.length)).length = m - ls.length := by rw [List.length_take]; omega
      have h' := h
      rw [hsplit] at h'
      have ha : ∀ x ∈ ps.take (m - ls.length), x.pos < req := fun x hx => by
        obtain ⟨k, hk⟩ := List.getElem?_of_mem hx
        rw [List.getElem?_take] at hk
        split at hk
        · exact g4 k x (by omega) hk
        · cases hk
      have hb : ∀ x ∈ ps.drop (m - ls.length), req < x.pos := fun x hx => by
        obtain ⟨k, hk⟩ := List.getElem?_of_mem hx
        rw [List.getElem?_drop] at hk
        exact g5 hm (m - ls.length + k) x (by omega) hk
      obtain ⟨t', p1, p2⟩ := h'.preload (c := ⟨-1, req, tc⟩) (by simp only; omega) (by simp only; omega) ha hb
      rw [hl, show ls.length + (m - ls.length) = m by omega] at p1
      rw [p1]
      refine .inr (.inl ⟨_, _, t', hsplit, ?_, p2, fun x hx => ?_⟩)
      · rw [hl, show ls.length + (m - ls.length) = m by omega]
      · rw [hsplit] at hx
        rcases List.mem_append.mp hx with hx | hx
        · have := ha x hx; omega
        · have := hb x hx; omega
    · have : t.preload ⟨-1, req, tc⟩ m = .ok (false, t) := by
        unfold Table.preload
        rw [if_pos (by rw [h.loaded]; omega)]
      rw [this]
      exact .inr (.inr rfl)

/-- Searching a table in which all positions ascend. -/
theorem Good.search {t : Table} {ls ps : List Clu} (h : Good t ls ps)
    (hs : (ls ++ ps).Pairwise fun a b => a.pos < b.pos) (req : Int) :
    (∃ k c, searchLoop t.mem (t.loaded + t.pre) req 0 (t.loaded + t.pre) = .ok (.inl k) ∧
      (ls ++ ps)[k]? = some c ∧ c.pos = req) ∨
    (∃ m, searchLoop t.mem (t.loaded + t.pre) req 0 (t.loaded + t.pre) = .ok (.inr m) ∧
      m ≤ ls.length + ps.length ∧
      (∀ k c, k < m → (ls ++ ps)[k]? = some c → c.pos < req) ∧
      (∀ k c, m ≤ k → (ls ++ ps)[k]? = some c → req < c.pos)) := by
  have := searchLoop_spec (t := t) (ls := []) (ps := ls ++ ps)
    (fun k hk => h.slot (k := k) (by simpa using hk)) hs req 0 (ls.length + ps.length) (by omega) (by simp)
    (by intro k c hk; omega)
    (fun _ k c hk hc => by rw [List.getElem?_eq_none (by simp at hk ⊢; omega)] at hc; cases hc)
  simp only [List.length_nil, List.nil_append, List.length_append, Nat.zero_add, Nat.zero_le, true_and,
    forall_const] at this
  rw [h.loaded, h.pre]
  exact this

/-- Loading the next cluster of the file. -/
theorem Good.load {t : Table} {ls ps : List Clu} (h : Good t ls ps) {pos tc : Int} (hp : 0 ≤ pos) :
    (∃ p rest t', ps = p :: rest ∧ p.pos = pos ∧ t.load pos tc = .ok (true, t') ∧
      Good t' (ls ++ [{ p with index := ls.length }]) rest) ∨
    (∃ t', t.load pos tc = .ok (true, t') ∧ Good t' (ls ++ [⟨ls.length, pos, tc⟩]) ps ∧
      ∀ p, ps.head? = some p → p.pos ≠ pos) := by
  have hap := h.append (c := ⟨ls.length, pos, tc⟩) rfl hp
  unfold Table.load
  rw [h.loaded]
  cases ps with
  | nil =>
    rw [if_neg (by rw [h.pre]; simp)]
    obtain ⟨t', h1, h2⟩ := hap
    exact .inr ⟨t', h1, h2, by simp⟩
  | cons p rest =>
    obtain ⟨c, hc, hmem, hpos⟩ := h.slot (k := ls.length) (by simp)
    have hcp : c = p := by
      rw [List.getElem?_append_right (by omega)] at hc
      simp at hc; exact hc.symm
    subst hcp
    have hneg := h.ahead c (by simp)
    obtain ⟨r0, hm⟩ := h.mem
    rw [if_pos (by rw [h.pre]; simp), if_neg (by rw [hm]; simp), hmem]
    simp only
    rw [if_neg (by omega), if_neg (by omega)]
    by_cases he : c.pos = pos
    · rw [if_pos he]
      refine .inl ⟨c, rest, _, rfl, he, rfl, ⟨⟨r0, ?_⟩, by simp, ?_, index_snoc h.index rfl,
        fun d hd => h.ahead d (by simp [hd]), ?_, (List.pairwise_cons.mp h.sorted).2⟩⟩
      · simp only
        rw [hm, List.map_append, List.append_assoc, List.set_append_right _ _ (by simp)]
        simp
      · simp only; rw [h.pre]; simp
      · intro d hd
        simp only [List.mem_append, List.mem_singleton] at hd
        rcases hd with (hd | hd) | hd
        · exact h.nonneg d (by simp [hd])
        · subst hd; exact hpos
        · exact h.nonneg d (by simp [hd])
    · rw [if_neg he]
      obtain ⟨t', h1, h2⟩ := hap
      exact .inr ⟨t', h1, h2, by simp [he]⟩

end Verif.Par
