/-
C27: looking up a cluster by time.  C29: the table of clusters.  C30: times of blocks.
-/
import Verif.Lemmas.ParserTable

namespace Verif.Props
open Verif Verif.Par

/-! ### C29 -/

/-- What can happen to the table: the next cluster of the file is loaded, or a cluster is looked for
by its position (and remembered as preloaded if it is not known). -/
inductive TableOp where
  | load (pos tc : Int)
  | find (pos tc : Int)
  deriving Repr

/-- Performing a history of operations.  The third part lists the positions for which a search
answered with a cluster; `none`: something undefined happened or loading failed. -/
def tableRun (t : Table) (found : List Int) : List TableOp → Option (Table × List Int)
  | [] => some (t, found)
  | .load pos tc :: ops =>
    match t.load pos tc with
    | .ok (true, t') => tableRun t' found ops
    | _ => none
  | .find pos tc :: ops =>
    match t.findOrPreload pos tc with
    | .ok (some _, t') => tableRun t' (found ++ [pos]) ops
    | .ok (none, t') => tableRun t' found ops
    | _ => none

/-- The positions loaded in a history, in order. -/
def loadedPositions (ops : List TableOp) : List Int :=
  ops.filterMap fun
    | .load pos _ => some pos
    | .find _ _ => none

private theorem table_run (ops : List TableOp) (hops : ∀ pos tc, TableOp.load pos tc ∈ ops → 0 ≤ pos) :
    ∀ (t : Table) (ls ps : List Clu) (found : List Int), Good t ls ps →
      (∀ p ∈ found, ∃ c ∈ ls ++ ps, c.pos = p) →
      ∃ t' ls' ps' found', tableRun t found ops = some (t', found') ∧ Good t' ls' ps' ∧
        ls'.map (·.pos) = ls.map (·.pos) ++ loadedPositions ops ∧
        (∀ p ∈ found', ∃ c ∈ ls' ++ ps', c.pos = p) := by
  induction ops with
  | nil => intro t ls ps found h hf; exact ⟨t, ls, ps, found, rfl, h, by simp [loadedPositions], hf⟩
  | cons op ops ih =>
    intro t ls ps found h hf
    have ih := ih (fun pos tc hm => hops pos tc (by simp [hm]))
    cases op with
    | load pos tc =>
      rcases h.load (tc := tc) (hops pos tc (by simp)) with ⟨p, rest, t', hps, hp, h1, h2⟩ | ⟨t', h1, h2, -⟩
      · obtain ⟨t2, l2, p2, f2, r1, r2, r3, r4⟩ := ih t' _ rest found h2 (fun q hq => by
          obtain ⟨c, hc, hcq⟩ := hf q hq
          rw [hps] at hc
          simp only [List.mem_append, List.mem_cons] at hc
          rcases hc with hc | hc | hc
          · exact ⟨c, by simp [hc], hcq⟩
          · subst hc; exact ⟨{ c with index := ls.length }, by simp, hcq⟩
          · exact ⟨c, by simp [hc], hcq⟩)
        refine ⟨t2, l2, p2, f2, ?_, r2, ?_, r4⟩
        · unfold tableRun; rw [h1]; exact r1
        · rw [r3]; simp [loadedPositions, hp]
      · obtain ⟨t2, l2, p2, f2, r1, r2, r3, r4⟩ := ih t' _ ps found h2 (fun q hq => by
          obtain ⟨c, hc, hcq⟩ := hf q hq
          simp only [List.mem_append] at hc
          rcases hc with hc | hc
          · exact ⟨c, by simp [hc], hcq⟩
          · exact ⟨c, by simp [hc], hcq⟩)
        refine ⟨t2, l2, p2, f2, ?_, r2, ?_, r4⟩
        · unfold tableRun; rw [h1]; exact r1
        · rw [r3]; simp [loadedPositions]
    | find pos tc =>
      have hl : loadedPositions (TableOp.find pos tc :: ops) = loadedPositions ops := by
        simp [loadedPositions]
      rcases h.find pos tc with ⟨k, c, h1, h2, h3⟩ | ⟨a, b, t', hps, h1, h2, -⟩ | h1
      · obtain ⟨t2, l2, p2, f2, r1, r2, r3, r4⟩ := ih t ls ps (found ++ [pos]) h (fun q hq => by
          rcases List.mem_append.mp hq with hq | hq
          · exact hf q hq
          · exact ⟨c, List.mem_of_getElem? h2, by simp at hq; rw [hq, h3]⟩)
        refine ⟨t2, l2, p2, f2, ?_, r2, by rw [r3, hl], r4⟩
        unfold tableRun; rw [h1]; exact r1
      · obtain ⟨t2, l2, p2, f2, r1, r2, r3, r4⟩ := ih t' ls _ (found ++ [pos]) h2 (fun q hq => by
          rcases List.mem_append.mp hq with hq | hq
          · obtain ⟨c, hc, hcq⟩ := hf q hq
            rw [hps] at hc
            simp only [List.mem_append] at hc
            rcases hc with hc | hc | hc
            · exact ⟨c, by simp [hc], hcq⟩
            · exact ⟨c, by simp [hc], hcq⟩
            · exact ⟨c, by simp [hc], hcq⟩
          · simp at hq
            exact ⟨⟨-1, pos, tc⟩, by simp, by rw [hq]⟩)
        refine ⟨t2, l2, p2, f2, ?_, r2, by rw [r3, hl], r4⟩
        unfold tableRun; rw [h1]; exact r1
      · obtain ⟨t2, l2, p2, f2, r1, r2, r3, r4⟩ := ih t ls ps found h hf
        refine ⟨t2, l2, p2, f2, ?_, r2, by rw [r3, hl], r4⟩
        unfold tableRun; rw [h1]; exact r1

/-- C29.  However loading clusters and searching for clusters by position are interleaved, every
operation is well defined and loading succeeds, and at the end the table consists of the loaded
clusters followed by the preloaded ones, where
* the loaded clusters are exactly those that were loaded, in the order of loading, and the `i`-th
  has index `i`;
* the preloaded clusters are marked as such and in strictly ascending order of position;
* every cluster a search ever answered with is still in the table. -/
theorem C29_cluster_table (ops : List TableOp)
    (hops : ∀ pos tc, TableOp.load pos tc ∈ ops → 0 ≤ pos) :
    ∃ (t : Table) (found : List Int) (ls ps : List Clu), tableRun {} [] ops = some (t, found) ∧
      t.loaded = ls.length ∧ t.pre = ps.length ∧ t.mem.take (t.loaded + t.pre) = (ls ++ ps).map some ∧
      ls.map (·.pos) = loadedPositions ops ∧ (∀ (i : Nat) (c : Clu), ls[i]? = some c → c.index = i) ∧
      (∀ c ∈ ps, c.index < 0) ∧ ps.Pairwise (fun a b => a.pos < b.pos) ∧
      (∀ p ∈ found, ∃ c ∈ ls ++ ps, c.pos = p) := by
  obtain ⟨t, ls, ps, found, h1, h2, h3, h4⟩ := table_run ops hops {} [] [] []
    ⟨⟨[], rfl⟩, rfl, rfl, by simp, by simp, by simp, List.Pairwise.nil⟩ (by simp)
  refine ⟨t, found, ls, ps, h1, h2.loaded, h2.pre, ?_, by simpa using h3, h2.index, h2.ahead, h2.sorted, h4⟩
  obtain ⟨rest, hm⟩ := h2.mem
  rw [h2.loaded, h2.pre, hm, List.take_left' (by simp)]

private theorem sorted_lt {ps : List Clu} (h : ps.Pairwise fun a b => a.pos < b.pos) {i j : Nat} {c d : Clu}
    (hij : i < j) (hc : ps[i]? = some c) (hd : ps[j]? = some d) : c.pos < d.pos := by
  have hj : j < ps.length := by
    rcases Nat.lt_or_ge j ps.length with h2 | h2
    · exact h2
    · rw [List.getElem?_eq_none h2] at hd; cases hd
  have := List.pairwise_iff_getElem.mp h i j (by omega) hj hij
  rw [List.getElem?_eq_getElem (by omega)] at hc
  rw [List.getElem?_eq_getElem hj] at hd
  cases hc; cases hd; exact this

/-- C29, searching.  If the clusters of the table are in ascending order of position, a search for a
position `≥ 0` that is in the table answers with the slot that holds it and changes nothing; for a
position beyond all loaded clusters that is not in the table a new preloaded cluster is put in its
place in the order; and for one before the last loaded cluster the answer is "no". -/
theorem C29_search {t : Table} {ls ps : List Clu} {pos tc : Int} (hp : 0 ≤ pos)
    (hg : Good t ls ps) (hs : (ls ++ ps).Pairwise fun a b => a.pos < b.pos) :
    (∀ k c, (ls ++ ps)[k]? = some c → c.pos = pos → t.findOrPreload pos tc = .ok (some k, t)) ∧
    ((∀ c ∈ ls, c.pos < pos) → (∀ c ∈ ps, c.pos ≠ pos) →
      ∃ a b t', ps = a ++ b ∧ (∀ c ∈ a, c.pos < pos) ∧ (∀ c ∈ b, pos < c.pos) ∧
        t.findOrPreload pos tc = .ok (some (ls.length + a.length), t') ∧
        t'.mem.take (t'.loaded + t'.pre) = (ls ++ a ++ ⟨-1, pos, tc⟩ :: b).map some ∧
        t'.loaded = ls.length ∧ t'.pre = ps.length + 1) ∧
    ((∃ c ∈ ls, pos < c.pos) → (∀ c ∈ ls, c.pos ≠ pos) → t.findOrPreload pos tc = .ok (none, t)) := by
  have hget : ∀ {k c}, (ls ++ ps)[k]? = some c → c ∈ ls ++ ps := fun h => List.mem_of_getElem? h
  unfold Table.findOrPreload
  rw [if_neg (by omega)]
  rcases hg.search hs pos with ⟨m, d, g1, g2, g3⟩ | ⟨m, g1, g2, g3, g4⟩
  · rw [g1]
    refine ⟨fun k c hk hc => ?_, fun hl hq => ?_, fun ⟨c, hc, hlt⟩ hl => ?_⟩
    · have hne : k = m := by
        rcases Nat.lt_trichotomy k m with h | h | h
        · have := sorted_lt hs h hk g2; omega
        · exact h
        · have := sorted_lt hs h g2 hk; omega
      rw [hne]
    · rcases List.mem_append.mp (hget g2) with h | h
      · have := hl d h; omega
      · exact absurd g3 (hq d h)
    · exfalso
      rcases List.mem_append.mp (hget g2) with h | h
      · exact hl d h g3
      · have := (List.pairwise_append.mp hs).2.2 c hc d h; omega
  · rw [g1]
    simp only
    refine ⟨fun k c hk hc => ?_, fun hl hq => ?_, fun ⟨c, hc, hlt⟩ hl => ?_⟩
    · rcases Nat.lt_or_ge k m with h | h
      · have := g3 k c h hk; omega
      · have := g4 k c h hk; omega
    · have hm : ls.length ≤ m := by
        rcases Nat.lt_or_ge m ls.length with h | h
        · have hx := hl ls[m] (List.getElem_mem h)
          have := g4 m ls[m] (Nat.le_refl _) (by rw [List.getElem?_append_left h, List.getElem?_eq_getElem h])
          omega
        · exact h
      have hl2 : (ps.take (m - ls.length)).length = m - ls.length := by rw [List.length_take]; omega
      have ha : ∀ x ∈ ps.take (m - ls.length), x.pos < pos := fun x hx => by
        obtain ⟨k, hk⟩ := List.getElem?_of_mem hx
        rw [List.getElem?_take] at hk
        split at hk
        · exact g3 (ls.length + k) x (by omega)
            (by rw [List.getElem?_append_right (by omega)]; simpa using hk)
        · cases hk
      have hb : ∀ x ∈ ps.drop (m - ls.length), pos < x.pos := fun x hx => by
        obtain ⟨k, hk⟩ := List.getElem?_of_mem hx
        rw [List.getElem?_drop] at hk
        exact g4 (m + k) x (by omega) (by
          rw [List.getElem?_append_right (by omega), ← hk]; congr 1; omega)
      have hg' := hg
      rw [← List.take_append_drop (m - ls.length) ps] at hg'
      obtain ⟨t', p1, p2⟩ := hg'.preload (c := ⟨-1, pos, tc⟩) (by simp only; omega) hp ha hb
      refine ⟨_, _, t', (List.take_append_drop (m - ls.length) ps).symm, ha, hb, ?_, ?_, p2.loaded, ?_⟩
      · rw [hl2] at p1 ⊢
        rw [show ls.length + (m - ls.length) = m by omega] at p1 ⊢
        rw [p1]
      · obtain ⟨rest, hm⟩ := p2.mem
        rw [p2.loaded, p2.pre, hm, List.take_left' (by simp)]
        simp
      · rw [p2.pre]; simp; omega
    · have hm : m < ls.length := by
        obtain ⟨k, hk⟩ := List.getElem?_of_mem hc
        have hkl : k < ls.length := by
          rcases Nat.lt_or_ge k ls.length with h | h
          · exact h
          · rw [List.getElem?_eq_none h] at hk; cases hk
        rcases Nat.lt_or_ge m ls.length with h | h
        · exact h
        · have := g3 k c (by omega) (by rw [List.getElem?_append_left hkl]; exact hk)
          omega
      unfold Table.preload
      rw [if_pos (by rw [hg.loaded]; omega)]

/-- The history used below: two clusters are found through cues before the file is read. -/
private def someOps : List TableOp :=
  [.find 900 9, .find 300 3, .load 100 1, .find 300 3, .load 300 3, .find 50 0, .load 500 5, .find 700 7]

example : (tableRun {} [] someOps).map (fun r => (r.1.mem.take (r.1.loaded + r.1.pre), r.2)) =
    some ([some ⟨0, 100, 1⟩, some ⟨1, 300, 3⟩, some ⟨2, 500, 5⟩, some ⟨-1, 700, 7⟩, some ⟨-1, 900, 9⟩],
      [900, 300, 300, 700]) := by decide +kernel

example : ∀ pos tc, TableOp.load pos tc ∈ someOps → 0 ≤ pos := by
  intro pos tc h
  simp [someOps] at h
  omega

/-! ### C27 -/

/-- C27.  The loaded clusters of the table are `ls`; their times ascend and can be represented in
nanoseconds.  Looking up a time gives: the first cluster when no cluster is earlier than that time,
otherwise the last cluster that is not later. -/
theorem C27_find_cluster {t : Table} {ls : List Clu} {scale time : Int} (hscale : 1 ≤ scale)
    (hmem : t.mem.take t.loaded = ls.map some) (hlen : ls.length = t.loaded) (hne : ls ≠ [])
    (hidx : ∀ (i : Nat) (c : Clu), ls[i]? = some c → c.index = i)
    (htime : ∀ c ∈ ls, 0 ≤ c.timecode ∧ c.timecode * scale ≤ llongMax)
    (hord : ∀ (i j : Nat) (c d : Clu), i ≤ j → ls[i]? = some c → ls[j]? = some d →
      c.timecode ≤ d.timecode) :
    ∃ i c, ls[i]? = some c ∧ t.findCluster scale time = .ok (some i) ∧
      ((∀ d ∈ ls, time ≤ d.timecode * scale) → i = 0) ∧
      ((∃ d ∈ ls, d.timecode * scale < time) →
        c.timecode * scale ≤ time ∧ ∀ k d, i < k → ls[k]? = some d → time < d.timecode * scale) := by
  have hpos : 0 < ls.length := List.length_pos_iff.mpr hne
  have hle : ∀ {i j : Nat} {c d : Clu}, i ≤ j → ls[i]? = some c → ls[j]? = some d →
      c.timecode * scale ≤ d.timecode * scale := fun hij hc hd =>
    Int.mul_le_mul_of_nonneg_right (hord _ _ _ _ hij hc hd) (by omega)
  have hat : ∀ k c, ls[k]? = some c → t.timeAt scale k = .ok (c.timecode * scale) := by
    intro k c hc
    have hk : k < ls.length := by
      rcases Nat.lt_or_ge k ls.length with h2 | h2
      · exact h2
      · rw [List.getElem?_eq_none h2] at hc; cases hc
    have hm : t.mem[k]? = some (some c) := by
      rw [← List.getElem?_take_of_lt (show k < t.loaded by omega), hmem, List.getElem?_map, hc]; rfl
    obtain ⟨h1, h2⟩ := htime c (List.mem_of_getElem? hc)
    unfold Table.timeAt
    rw [hm]
    simp only
    rw [if_neg (by rw [hidx k c hc]; simp)]
    unfold Clu.getTime
    rw [if_neg (by omega), if_neg (by omega)]
  have hloop : ∀ i j, i ≤ j → j ≤ ls.length →
      (∀ k c, k < i → ls[k]? = some c → c.timecode * scale ≤ time) →
      (∀ k c, j ≤ k → ls[k]? = some c → time < c.timecode * scale) →
      ∃ m, t.timeLoop scale time i j = .ok m ∧ i ≤ m ∧ m ≤ j ∧
        (∀ k c, k < m → ls[k]? = some c → c.timecode * scale ≤ time) ∧
        (∀ k c, m ≤ k → ls[k]? = some c → time < c.timecode * scale) := by
    intro i j
    induction hn : j - i using Nat.strongRecOn generalizing i j with
    | _ n ih =>
      intro hij hj hlo hhi
      rw [Table.timeLoop.eq_1]
      by_cases hlt : i < j
      · rw [if_pos hlt]
        simp only
        have hk : i + (j - i) / 2 < j := by omega
        obtain ⟨c, hc⟩ : ∃ c, ls[i + (j - i) / 2]? = some c := ⟨_, List.getElem?_eq_getElem (by omega)⟩
        rw [hat _ _ hc]
        simp only
        by_cases ht : c.timecode * scale ≤ time
        · rw [if_pos ht]
          obtain ⟨m, m1, m2, m3, m4, m5⟩ := ih _ (by omega) (i + (j - i) / 2 + 1) j rfl (by omega) hj
            (fun k d hk hd => by
              have := hle (show k ≤ i + (j - i) / 2 by omega) hd hc
              omega) hhi
          exact ⟨m, m1, by omega, m3, m4, m5⟩
        · rw [if_neg ht]
          obtain ⟨m, m1, m2, m3, m4, m5⟩ := ih _ (by omega) i (i + (j - i) / 2) rfl (by omega) (by omega) hlo
            (fun k d hk hd => by
              have := hle hk hc hd
              omega)
          exact ⟨m, m1, m2, by omega, m4, m5⟩
      · rw [if_neg hlt]
        have : i = j := by omega
        subst this
        exact ⟨i, rfl, Nat.le_refl _, Nat.le_refl _, hlo, hhi⟩
  have hm0 : t.mem ≠ [] := by
    intro h0; rw [h0] at hmem; simp at hmem; exact hne hmem
  obtain ⟨c0, hc0⟩ : ∃ c, ls[0]? = some c := ⟨_, List.getElem?_eq_getElem hpos⟩
  unfold Table.findCluster
  rw [if_neg (by simp only [not_or]; exact ⟨hm0, by omega⟩), hat 0 c0 hc0]
  simp only
  by_cases h0 : time ≤ c0.timecode * scale
  · rw [if_pos h0]
    refine ⟨0, c0, hc0, rfl, fun _ => rfl, fun ⟨d, hd, hlt⟩ => ?_⟩
    obtain ⟨k, hk⟩ := List.getElem?_of_mem hd
    have := hle (Nat.zero_le k) hc0 hk
    omega
  · rw [if_neg h0]
    obtain ⟨m, m1, m2, m3, m4, m5⟩ := hloop 0 t.loaded (by omega) (by omega) (by intro k c hk; omega)
      (fun k c hk hc => by rw [List.getElem?_eq_none (by omega)] at hc; cases hc)
    rw [m1]
    simp only
    have hmp : 0 < m := by
      rcases Nat.eq_zero_or_pos m with h | h
      · have := m5 0 c0 (by omega) hc0; omega
      · exact h
    obtain ⟨c, hc⟩ : ∃ c, ls[m - 1]? = some c := ⟨_, List.getElem?_eq_getElem (by omega)⟩
    have hct := m4 (m - 1) c (by omega) hc
    rw [if_neg (by omega), hat _ _ hc]
    simp only
    rw [if_neg (by omega)]
    refine ⟨m - 1, c, hc, rfl, fun hall => ?_, fun _ => ⟨hct, fun k d hk hd => m5 k d (by omega) hd⟩⟩
    have := hall c0 (List.mem_of_getElem? hc0)
    omega

/-- A cluster whose time in nanoseconds does not fit: the lookup multiplies without checking. -/
theorem C27_time_overflow : ∃ t : Table, t.loaded = 1 ∧ t.mem = [some ⟨0, 100, 9223372036855⟩] ∧
    t.findCluster 1000000 0 = .ub :=
  ⟨{ mem := [some ⟨0, 100, 9223372036855⟩], loaded := 1, pre := 0 }, rfl, rfl, by decide +kernel⟩

private def threeClusters : Table :=
  { mem := [some ⟨0, 100, 0⟩, some ⟨1, 300, 40⟩, some ⟨2, 500, 80⟩, some ⟨-1, 700, 120⟩, none], loaded := 3, pre := 1 }

example : threeClusters.findCluster 1000000 79999999 = .ok (some 1) ∧
    threeClusters.findCluster 1000000 80000000 = .ok (some 2) ∧
    threeClusters.findCluster 1000000 200000000 = .ok (some 2) ∧
    threeClusters.findCluster 1000000 (-5) = .ok (some 0) := by
  refine ⟨?_, ?_, ?_, ?_⟩ <;> decide +kernel

/-! ### C30 -/

/-- C30.  The time a block reports is its exact time in nanoseconds when that is neither negative nor
too large for a signed 64-bit integer, and otherwise the error value −1. -/
theorem C30_block_time {scale tc0 rel : Int} (h0 : 0 ≤ tc0) (hs : 1 ≤ scale) (hs1 : scale ≤ llongMax) :
    blockGetTime scale tc0 rel =
      .ok (if 0 ≤ (tc0 + rel) * scale ∧ (tc0 + rel) * scale ≤ llongMax then (tc0 + rel) * scale else -1) := by
  have hneg : ∀ tc : Int, tc < 0 → tc * scale < 0 := fun tc h =>
    Int.mul_neg_of_neg_of_pos h (by omega)
  have htd : ∀ tc : Int, tc < 0 → (llongMax : Int).tdiv tc ≤ 0 := by
    intro tc h
    have h1 := Int.tdiv_nonneg (a := llongMax) (b := -tc) (by decide) (by omega)
    rw [Int.tdiv_neg] at h1
    omega
  unfold blockGetTime blockGetTimeCode
  rw [if_neg (by omega)]
  by_cases h1 : (llongMax : Int) - tc0 < rel
  · rw [if_pos h1]
    simp only
    have := htd (-1) (by omega)
    rw [if_neg (by omega), if_pos ⟨by omega, by omega⟩, if_neg]
    have : (tc0 + rel) * 1 ≤ (tc0 + rel) * scale := Int.mul_le_mul_of_nonneg_left hs (by
      have : (0 : Int) ≤ llongMax := by decide
      omega)
    omega
  · rw [if_neg h1]
    simp only
    rw [if_neg (by omega)]
    generalize tc0 + rel = tc at *
    by_cases hz : tc = 0
    · subst hz
      rw [if_neg (by omega), if_neg (by rw [Int.zero_mul]; decide), if_pos (by rw [Int.zero_mul]; decide)]
    · rcases Int.lt_or_gt_of_ne hz with h | h
      · have a := hneg tc h
        have b := htd tc h
        rw [if_pos ⟨hz, by omega⟩, if_neg (by omega)]
      · have hp : 0 ≤ tc * scale := Int.mul_nonneg (by omega) (by omega)
        have hdiv : scale > (llongMax : Int).tdiv tc ↔ tc * scale > llongMax := by
          rw [Int.tdiv_eq_ediv_of_nonneg (by decide)]
          have := Int.le_ediv_iff_mul_le (a := scale) (b := llongMax) h
          rw [Int.mul_comm scale tc] at this
          omega
        by_cases hb : tc * scale > llongMax
        · rw [if_pos ⟨hz, hdiv.mpr hb⟩, if_neg (by omega)]
        · rw [if_neg (by rw [hdiv]; exact fun hc => hb hc.2), if_neg (by omega), if_pos (by omega)]

/-- The absolute timecode of a block is likewise exact, or −1 when it is too large. -/
theorem C30_block_timecode {tc0 rel : Int} (h0 : 0 ≤ tc0) :
    blockGetTimeCode tc0 rel = .ok (if tc0 + rel ≤ llongMax then tc0 + rel else -1) := by
  unfold blockGetTimeCode
  rw [if_neg (by omega)]
  by_cases h1 : (llongMax : Int) - tc0 < rel
  · rw [if_pos h1, if_neg (by omega)]
  · rw [if_neg h1, if_pos (by omega)]

example : blockGetTime 1000000 1000 (-3) = .ok 997000000 ∧ blockGetTime 1000000 9223372036854 1 = .ok (-1) ∧
    blockGetTime 1000000 2 (-3) = .ok (-1) ∧ blockGetTime 1 9223372036854775807 1 = .ok (-1) ∧
    blockGetTime 1000000 9223372036854 0 = .ok 9223372036854000000 := by decide +kernel

end Verif.Props
