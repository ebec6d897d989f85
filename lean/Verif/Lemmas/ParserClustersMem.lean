/-
Lemmas for C96: every allocation of the clusters of a segment has one owner, and each call changes what is seen as it says.
-/
import Verif.Spec.ClustersMem
import Verif.Lemmas.ParserBlockMem

namespace Verif.Par.ClustersMem
open Verif Verif.Spec Verif.Mux.Build Verif.Par.Enc
open Verif.Par.BlockMem (Found Frame clusterA Table)

def cluA (c : Clu) : List Nat := clusterA c.blocks

def segA (x : Seg) : List Nat := x.arr.toList ++ x.slots.flatMap (Enc.itemA cluA)

def viewOf (b : BlockMem.Cluster) : List (List Frame) := (b.entries.getD []).map (·.2.frames)

def seenOf (s : Nat × Clu) : Nat × List (List Frame) := (s.2.pos, viewOf s.2.blocks)

def view (x : Seg) : SegView := { clusters := x.slots.map seenOf, loaded := x.count }

theorem showEach_frames : ∀ {l : List (Nat × BlockMem.Block)} {vs : List (List Frame)}, BlockMem.showEach l = .ok vs → l.map (·.2.frames) = vs
  | [], vs, h => by cases h; rfl
  | (a, b) :: l, vs, h => by
    obtain ⟨v, e1, h⟩ := Res.bind_eq_ok.mp h
    obtain ⟨ws, e2, h⟩ := Res.bind_eq_ok.mp h
    cases h
    unfold BlockMem.Block.show at e1
    split at e1
    · cases e1
    · cases e1
      rw [List.map_cons, showEach_frames e2]

theorem table_view {b : BlockMem.Cluster} {vs : List (List Frame)} (h : Table b vs) : viewOf b = vs := by
  obtain ⟨l, e, -, -, -, h⟩ := h
  unfold viewOf
  rw [e]
  exact showEach_frames h

/-- A cluster that has no table, has one, or got none for lack of memory. -/
def Good (full : Prop) (b : BlockMem.Cluster) : Prop := b = {} ∨ Table b (viewOf b) ∨ (b = { room := 1024 } ∧ ¬ full)

structure Inv (full : Prop) (x : Seg) : Prop where
  good : ∀ s ∈ x.slots, Good full s.2.blocks
  room : x.slots.length ≤ x.room
  arr : x.room ≠ 0 → x.arr ≠ none
  count : x.count ≤ x.slots.length

theorem grow_spec {can : Nat → Bool} {x : Seg} {m : Mem} {g : Nat → Nat} (hx : Inv (Enough can) x) (h : Holds m fun a => (segA x).count a + g a) :
    ∃ b x' m', grow can x m = .ok (b, x', m') ∧ Holds m' (fun a => (segA x').count a + g a) ∧ Inv (Enough can) x' ∧ x'.slots = x.slots ∧
      x'.count = x.count ∧ (b = true → x'.slots.length < x'.room) ∧ (Enough can → b = true) := by
  unfold grow
  split
  · cases ea : m.alloc can with
    | mk r m1 =>
      have h1 := alloc_spec h ea
      cases r with
      | none => exact ⟨false, x, m1, rfl, h1.of fun a => (by simp), hx, rfl, rfl, fun h => (by cases h), fun h => (BlockMem.enough_alloc h ea).elim⟩
      | some b =>
        obtain ⟨m2, e2, h2⟩ := free_spec (p := x.arr)
          (f := fun a => (segA { x with arr := some b, room := if x.room = 0 then 2048 else 2 * x.room }).count a + g a)
          (h1.of fun a => by simp only [segA, List.count_append]; omega)
        simp only
        rw [e2, Res.bind_ok]
        have hr := hx.room
        have hlt : x.slots.length < (if x.room = 0 then 2048 else 2 * x.room) := by split <;> omega
        exact ⟨true, _, m2, rfl, h2, ⟨hx.good, by simp only; omega, by simp, hx.count⟩, rfl, rfl, fun _ => hlt, fun _ => rfl⟩
  · exact ⟨true, x, m, rfl, h, hx, rfl, rfl, fun _ => (by omega), fun _ => rfl⟩

theorem insert_spec {can : Nat → Bool} {i a pos : Nat} {x : Seg} {m : Mem} {g : Nat → Nat} (hx : Inv (Enough can) x) (hi : i ≤ x.slots.length)
    (h : Holds m fun d => (segA x).count d + ([a].count d + g d)) :
    ∃ b x' m', insert can i a { pos := pos } x m = .ok (b, x', m') ∧ x'.count = x.count ∧ Inv (Enough can) x' ∧ (Enough can → b = true) ∧
      (b = true → Holds m' (fun d => (segA x').count d + g d) ∧ (view x').clusters = (view x).with i pos ∧ x.slots.length < x'.slots.length) ∧
      (b = false → x'.slots = x.slots ∧ Holds m' (fun d => (segA x').count d + ([a].count d + g d))) := by
  obtain ⟨b, x1, m1, e1, h1, hi1, hs, hc, hr, hen⟩ := grow_spec hx h
  unfold insert
  rw [e1, Res.bind_ok]
  cases b with
  | false => exact ⟨false, x1, m1, rfl, hc, hi1, fun h => (by cases hen h), fun h => (by cases h), fun _ => ⟨hs, h1⟩⟩
  | true =>
    have hr := hr rfl
    simp only [Bool.not_true, Bool.false_eq_true, if_false]
    rw [if_neg (by rintro (h | h | h); exact hi1.arr (by omega) h; omega; rw [hs] at h; omega)]
    have hlen : (x1.slots.take i ++ (a, ({ pos := pos } : Clu)) :: x1.slots.drop i).length = x1.slots.length + 1 := by
      rw [hs, List.length_append, List.length_cons, List.length_take, List.length_drop]
      omega
    refine ⟨true, _, m1, rfl, hc, ⟨?_, by simp only [hlen]; omega, hi1.arr, ?_⟩, fun _ => rfl, fun _ => ⟨h1.of fun d => ?_, ?_, ?_⟩, fun h => (by cases h)⟩
    · intro s hm
      rcases List.mem_append.mp hm with hm | hm
      · exact hi1.good s (List.mem_of_mem_take hm)
      · rcases List.mem_cons.mp hm with rfl | hm
        · exact Or.inl rfl
        · exact hi1.good s (List.mem_of_mem_drop hm)
    · have := hi1.count
      simp only [hlen]
      omega
    · have e : (x1.slots.flatMap (Enc.itemA cluA)).count d = ((x1.slots.take i).flatMap (Enc.itemA cluA)).count d +
          ((x1.slots.drop i).flatMap (Enc.itemA cluA)).count d := by
        rw [← List.count_append, ← List.flatMap_append, List.take_append_drop]
      simp only [segA, List.count_append, List.flatMap_append, List.flatMap_cons, Enc.itemA, cluA, clusterA, Option.toList_none, Option.getD_none,
        List.flatMap_nil, List.append_nil, List.count_cons, List.count_nil, List.nil_append] at e ⊢
      omega
    · simp only [view, SegView.with, hs, List.map_append, List.map_cons, List.map_take, List.map_drop]
      rfl
    · show x.slots.length < List.length _
      rw [hlen, hs]
      omega

theorem destroy_clu (c : Clu) (_ : True) (m : Mem) (g : Nat → Nat) (h : Holds m fun a => (cluA c).count a + g a) :
    ∃ m', Clu.destroy c m = .ok m' ∧ Holds m' g := BlockMem.destroy_frees h

theorem delete_fresh {a pos : Nat} {m : Mem} {x : Seg} {g : Nat → Nat} (h : Holds m fun d => (segA x).count d + ([a].count d + g d)) :
    ∃ m', deleteItems Clu.destroy [(a, { pos := pos })] m = .ok m' ∧ Holds m' (fun d => (segA x).count d + g d) :=
  deleteItems_spec (g := cluA) (destroy := Clu.destroy) (P := fun _ => True) destroy_clu (xs := [(a, { pos := pos })])
    (f := fun d => (segA x).count d + g d) (fun _ _ => trivial)
    (h.of fun d => by
      simp only [List.flatMap_cons, List.flatMap_nil, Enc.itemA, cluA, clusterA, Option.toList_none, Option.getD_none, List.append_nil,
        List.count_append, List.count_cons, List.count_nil]
      omega)

theorem next_view (x : Seg) : x.slots[x.count]?.map (fun s => s.2.pos) = (view x).clusters[(view x).loaded]?.map (·.1) := by
  simp only [view, List.getElem?_map, Option.map_map]
  rfl

theorem load_spec {can : Nat → Bool} {pos : Nat} {x : Seg} {m : Mem} {g : Nat → Nat} (hx : Inv (Enough can) x)
    (h : Holds m fun a => (segA x).count a + g a) :
    ∃ b x' m', load can pos x m = .ok (b, x', m') ∧ Holds m' (fun a => (segA x').count a + g a) ∧ Inv (Enough can) x' ∧
      (b = true → ClusterDone (.load pos) (view x) (view x')) ∧ (b = false → view x' = view x) ∧ (Enough can → b = true) := by
  unfold load
  split
  · rename_i hc
    refine ⟨true, _, m, rfl, h, ⟨hx.good, hx.room, hx.arr, ?_⟩, fun _ => ⟨rfl, ?_⟩, fun h => (by cases h), fun _ => rfl⟩
    · cases hq : x.slots[x.count]? with
      | none => rw [hq] at hc; cases hc
      | some s => exact (List.getElem?_eq_some_iff.mp hq).1
    · rw [next_view] at hc
      rw [if_pos hc]
      rfl
  · rename_i hc
    cases ea : m.alloc can with
    | mk r m1 =>
      have h1 := alloc_spec h ea
      cases r with
      | none =>
        exact ⟨false, x, m1, rfl, h1.of fun a => (by simp), hx, fun h => (by cases h), fun _ => rfl, fun h => (BlockMem.enough_alloc h ea).elim⟩
      | some a =>
        obtain ⟨b, x2, m2, e2, hc2, hi2, hen, ht, hf⟩ := insert_spec (i := x.count) (a := a) (pos := pos) (g := g) hx hx.count
          (h1.of fun d => by simp only [Option.toList_some]; omega)
        simp only
        rw [e2, Res.bind_ok]
        cases b with
        | true =>
          obtain ⟨t1, t2, t3⟩ := ht rfl
          have := hx.count
          refine ⟨true, _, m2, rfl, t1, ⟨hi2.good, hi2.room, hi2.arr, by simp only [hc2]; omega⟩, fun _ => ⟨by simp only [view, hc2], ?_⟩,
            fun h => (by cases h), fun _ => rfl⟩
          rw [next_view] at hc
          rw [if_neg hc]
          exact t2
        | false =>
          obtain ⟨f1, f2⟩ := hf rfl
          obtain ⟨m3, e3, h3⟩ := delete_fresh (pos := pos) f2
          simp only [Bool.false_eq_true, if_false]
          rw [e3, Res.bind_ok]
          exact ⟨false, x2, m3, rfl, h3, hi2, fun h => (by cases h), fun _ => by simp only [view, f1, hc2], fun h => (by cases hen h)⟩

theorem search_spec {slots : List (Nat × Clu)} {pos n : Nat} : ∀ (k i j : Nat), i ≤ j → j ≤ slots.length → j - i ≤ k →
    ∃ r, search slots pos k i j = .ok r ∧ (∀ k, r = .inl k → ∃ s ∈ slots, s.2.pos = pos) ∧ (∀ p, r = .inr p → i ≤ p ∧ p ≤ j) ∧
      (n ≤ j → (∀ s ∈ slots.take n, s.2.pos < pos) → ∀ p, r = .inr p → n ≤ p)
  | 0, i, j, hij, hj, hk => by
    unfold search
    rw [if_neg (by omega)]
    refine ⟨_, rfl, fun k hk => (by cases hk), fun p hp => ?_, fun hn _ p hp => ?_⟩
    · cases hp; omega
    · cases hp; omega
  | f + 1, i, j, hij, hj, hf => by
    unfold search
    split
    · rename_i hlt
      have hk : i + (j - i) / 2 < slots.length := by omega
      rw [List.getElem?_eq_getElem hk]
      simp only
      split
      · obtain ⟨r, e, h1, h2, h3⟩ := search_spec (slots := slots) (pos := pos) (n := n) f (i + (j - i) / 2 + 1) j (by omega) hj (by omega)
        exact ⟨r, e, h1, fun p hp => ⟨by have := h2 p hp; omega, (h2 p hp).2⟩, h3⟩
      · split
        · rename_i hge
          obtain ⟨r, e, h1, h2, h3⟩ := search_spec (slots := slots) (pos := pos) (n := n) f i (i + (j - i) / 2) (by omega) (by omega) (by omega)
          refine ⟨r, e, h1, fun p hp => ⟨(h2 p hp).1, by have := h2 p hp; omega⟩, fun hn ha p hp => h3 ?_ ha p hp⟩
          apply Nat.le_of_not_lt
          intro hc
          have := ha (slots[i + (j - i) / 2]) (List.mem_take_iff_getElem.mpr ⟨i + (j - i) / 2, by omega, rfl⟩)
          omega
        · exact ⟨_, rfl, fun k hk' => ⟨_, List.getElem_mem hk, by omega⟩, fun p hp => (by cases hp), fun _ _ p hp => (by cases hp)⟩
    · refine ⟨_, rfl, fun k hk => (by cases hk), fun p hp => ?_, fun hn _ p hp => ?_⟩
      · cases hp; omega
      · cases hp; omega

theorem search_sorted {slots : List (Nat × Clu)} {pos : Nat} (hs : slots.Pairwise fun s t => s.2.pos < t.2.pos) : ∀ (k i j : Nat) {p : Nat},
    i ≤ j → (∀ s ∈ slots.take i, s.2.pos < pos) → (∀ s ∈ slots.drop j, pos < s.2.pos) → search slots pos k i j = .ok (.inr p) →
    (∀ s ∈ slots.take p, s.2.pos < pos) ∧ ∀ s ∈ slots.drop p, pos < s.2.pos
  | 0, i, j, p, hij, h1, h2, e => by
    unfold search at e
    split at e
    · cases e
    · cases e
      have : i = j := by omega
      subst this
      exact ⟨h1, h2⟩
  | f + 1, i, j, p, hij, h1, h2, e => by
    unfold search at e
    split at e
    · rename_i hlt
      split at e
      · cases e
      · rename_i s hq
        obtain ⟨hk, rfl⟩ := List.getElem?_eq_some_iff.mp hq
        rw [List.pairwise_iff_getElem] at hs
        split at e
        · rename_i hc
          refine search_sorted (List.pairwise_iff_getElem.mpr hs) f _ j (by omega) ?_ h2 e
          intro s hm
          obtain ⟨n, hn, rfl⟩ := List.mem_take_iff_getElem.mp hm
          rcases Nat.lt_or_ge n (i + (j - i) / 2) with h | h
          · have := hs n (i + (j - i) / 2) (by omega) hk h
            omega
          · have : n = i + (j - i) / 2 := by omega
            subst this
            exact hc
        · split at e
          · rename_i hc
            refine search_sorted (List.pairwise_iff_getElem.mpr hs) f i _ (by omega) h1 ?_ e
            intro s hm
            obtain ⟨n, hn, rfl⟩ := List.mem_drop_iff_getElem.mp hm
            rcases Nat.eq_zero_or_pos n with h | h
            · subst h
              exact hc
            · have := hs (i + (j - i) / 2) (i + (j - i) / 2 + n) hk (by omega) (by omega)
              omega
          · cases e
    · cases e
      have : i = j := by omega
      subst this
      exact ⟨h1, h2⟩

theorem with_ascending {v : SegView} {k pos : Nat} (h : Ascending v.clusters) (h1 : ∀ p ∈ v.clusters.take k, p.1 < pos)
    (h2 : ∀ p ∈ v.clusters.drop k, pos < p.1) : Ascending (v.with k pos) := by
  unfold Ascending at h ⊢
  unfold SegView.with
  rw [← List.take_append_drop k v.clusters, List.pairwise_append] at h
  rw [List.pairwise_append, List.pairwise_cons]
  refine ⟨h.1, ⟨h2, h.2.1⟩, fun p hp q hq => ?_⟩
  rcases List.mem_cons.mp hq with rfl | hq
  · exact h1 p hp
  · exact h.2.2 p hp q hq

theorem insert_ascending {x : Seg} {pos i : Nat} (e : search x.slots pos x.slots.length 0 x.slots.length = .ok (.inr i))
    (h : Ascending (view x).clusters) : Ascending ((view x).with i pos) := by
  have h' : (x.slots.map seenOf).Pairwise fun p q => p.1 < q.1 := h
  have hs : x.slots.Pairwise fun s t => s.2.pos < t.2.pos := (List.pairwise_map (f := seenOf)).mp h'
  obtain ⟨h1, h2⟩ := search_sorted hs x.slots.length 0 x.slots.length (Nat.zero_le _) (by simp) (by simp) e
  refine with_ascending h (fun p hp => ?_) (fun p hp => ?_)
  · simp only [view, ← List.map_take] at hp
    obtain ⟨s, hs, rfl⟩ := List.mem_map.mp hp
    exact h1 s hs
  · simp only [view, ← List.map_drop] at hp
    obtain ⟨s, hs, rfl⟩ := List.mem_map.mp hp
    exact h2 s hs

theorem find_spec {can : Nat → Bool} {pos : Nat} {x : Seg} {m : Mem} {g : Nat → Nat} (hx : Inv (Enough can) x)
    (h : Holds m fun a => (segA x).count a + g a) :
    ∃ b x' m', find can pos x m = .ok (b, x', m') ∧ Holds m' (fun a => (segA x').count a + g a) ∧ Inv (Enough can) x' ∧
      (b = true → ClusterDone (.find pos) (view x) (view x')) ∧ (b = false → view x' = view x) ∧
      (Enough can → (∀ p ∈ (view x).clusters.take (view x).loaded, p.1 < pos) → b = true) := by
  obtain ⟨r, e, hl, hr, hn⟩ := search_spec (slots := x.slots) (pos := pos) (n := x.count) x.slots.length 0 x.slots.length (Nat.zero_le _) (Nat.le_refl _)
    (Nat.sub_le _ _)
  unfold find
  rw [e, Res.bind_ok]
  cases r with
  | inl k =>
    obtain ⟨s, hs, hp⟩ := hl k rfl
    exact ⟨true, x, m, rfl, h, hx, fun _ => ⟨rfl, Or.inl ⟨rfl, viewOf s.2.blocks, List.mem_map.mpr ⟨s, hs, by rw [← hp]; rfl⟩⟩⟩,
      fun h => (by cases h), fun _ _ => rfl⟩
  | inr i =>
    have hi := (hr i rfl).2
    simp only
    cases ea : m.alloc can with
    | mk r m1 =>
      have h1 := alloc_spec h ea
      cases r with
      | none =>
        exact ⟨false, x, m1, rfl, h1.of fun a => (by simp), hx, fun h => (by cases h), fun _ => rfl, fun h => (BlockMem.enough_alloc h ea).elim⟩
      | some a =>
        have h1 : Holds m1 fun d => (segA x).count d + ([a].count d + g d) := h1.of fun d => by simp only [Option.toList_some]; omega
        simp only
        split
        · rename_i hlt
          obtain ⟨m3, e3, h3⟩ := delete_fresh (pos := pos) h1
          rw [e3, Res.bind_ok]
          refine ⟨false, x, m3, rfl, h3, hx, fun h => (by cases h), fun _ => rfl, fun _ ha => ?_⟩
          have := hn hx.count (fun s hs => ha (seenOf s) (by
            simp only [view, ← List.map_take]
            exact List.mem_map.mpr ⟨s, hs, rfl⟩)) i rfl
          omega
        · rename_i hge
          obtain ⟨b, x2, m2, e2, hc2, hi2, hen, ht, hf⟩ := insert_spec (i := i) (a := a) (pos := pos) (g := g) hx hi h1
          rw [e2, Res.bind_ok]
          cases b with
          | true =>
            obtain ⟨t1, t2, t3⟩ := ht rfl
            exact ⟨true, x2, m2, rfl, t1, hi2, fun _ => ⟨hc2, Or.inr ⟨i, by simp only [view]; omega, by simpa [view] using hi, t2,
              fun ha => by rw [t2]; exact insert_ascending e ha⟩⟩,
              fun h => (by cases h), fun _ _ => rfl⟩
          | false =>
            obtain ⟨f1, f2⟩ := hf rfl
            obtain ⟨m3, e3, h3⟩ := delete_fresh (pos := pos) f2
            simp only [Bool.false_eq_true, if_false]
            rw [e3, Res.bind_ok]
            exact ⟨false, x2, m3, rfl, h3, hi2, fun h => (by cases h), fun _ => by simp only [view, f1, hc2], fun h => (by cases hen h)⟩

theorem split_at {α : Type} {l : List α} {i : Nat} {s : α} (h : l[i]? = some s) : ∃ l1 l2, l = l1 ++ s :: l2 ∧ l1.length = i := by
  obtain ⟨hi, rfl⟩ := List.getElem?_eq_some_iff.mp h
  refine ⟨l.take i, l.drop (i + 1), ?_, by rw [List.length_take]; omega⟩
  rw [← List.drop_eq_getElem_cons hi, List.take_append_drop]

theorem set_at {α : Type} (l1 l2 : List α) (s t : α) : (l1 ++ s :: l2).set l1.length t = l1 ++ t :: l2 := by
  rw [List.set_append_right _ _ (Nat.le_refl _), Nat.sub_self]
  rfl

/-- One block of one cluster. -/
theorem create_good {can : Nat → Bool} {f : Found} {b : BlockMem.Cluster} {m : Mem} {g : Nat → Nat} (hb : Good (Enough can) b)
    (ht : ¬ (b.entries.isNone ∧ b.room ≠ 0)) (h : Holds m fun a => (clusterA b).count a + g a) :
    ∃ c b' m', BlockMem.createBlock can f b m = .ok (c, b', m') ∧ Holds m' (fun a => (clusterA b').count a + g a) ∧ Good (Enough can) b' ∧
      (c = toldOf f ∨ c = -1) ∧ viewOf b' = viewOf b ++ BlockMem.added f c ∧ (Enough can → c = toldOf f) := by
  have main : ∀ vs, (b = {} ∧ vs = [] ∧ can m.next = true) ∨ Table b vs → viewOf b = vs → _ := fun vs hv hvs =>
    (show ∃ c b' m', BlockMem.createBlock can f b m = .ok (c, b', m') ∧ Holds m' (fun a => (clusterA b').count a + g a) ∧ Good (Enough can) b' ∧
      (c = toldOf f ∨ c = -1) ∧ viewOf b' = viewOf b ++ BlockMem.added f c ∧ (Enough can → c = toldOf f) from by
      obtain ⟨c, b', m', e, h1, h2, h3, h4⟩ := BlockMem.createBlock_spec (can := can) (f := f) hv h
      have hv' := table_view h2
      exact ⟨c, b', m', e, h1, Or.inr (Or.inl (by rw [hv']; exact h2)), h3, by rw [hv', hvs], h4⟩)
  rcases hb with rfl | hb | ⟨rfl, -⟩
  · by_cases hc : can m.next = true
    · exact main [] (Or.inl ⟨rfl, rfl, hc⟩) rfl
    · refine ⟨-1, { room := 1024 }, { m with next := m.next + 1 }, ?_, fun a => h a, Or.inr (Or.inr ⟨rfl, fun he => hc (he _)⟩), Or.inr rfl, rfl,
        fun he => absurd (he _) hc⟩
      unfold BlockMem.createBlock BlockMem.makeRoom Mem.alloc
      simp only
      rw [if_neg (by simp), if_neg hc]
      rfl
  · exact main _ (Or.inr hb) rfl
  · exact absurd ⟨rfl, by simp⟩ ht

theorem block_spec {can : Nat → Bool} {i : Nat} {f : Found} {x : Seg} {m : Mem} {g : Nat → Nat} (hx : Inv (Enough can) x)
    (h : Holds m fun a => (segA x).count a + g a) :
    ∃ c x' m', block can i f x m = .ok (c, x', m') ∧ Holds m' (fun a => (segA x').count a + g a) ∧ Inv (Enough can) x' ∧
      (if c = 0 then ClusterDone (.block i f) (view x) (view x') else view x' = view x) ∧ (c = toldOf f ∨ c = -1) ∧
      (Enough can → i < (view x).clusters.length → c = toldOf f) := by
  unfold block
  cases hs : x.slots[i]? with
  | none =>
    refine ⟨-1, x, m, rfl, h, hx, by rw [if_neg (by decide)], Or.inr rfl, fun _ hlt => ?_⟩
    rw [List.getElem?_eq_none_iff] at hs
    simp only [view, List.length_map] at hlt
    omega
  | some s =>
    obtain ⟨a, c⟩ := s
    obtain ⟨l1, l2, hl, rfl⟩ := split_at hs
    have hg := hx.good (a, c) (by rw [hl]; simp)
    simp only
    split
    · rename_i hc
      refine ⟨-1, x, m, rfl, h, hx, by rw [if_neg (by decide)], Or.inr rfl, fun he _ => ?_⟩
      rcases hg with hg | ⟨l, hg, -⟩ | ⟨-, hg⟩
      · have hg : c.blocks = {} := hg
        rw [hg] at hc
        exact absurd rfl hc.2
      · have hg : c.blocks.entries = some l := hg
        rw [hg] at hc
        cases hc.1
      · exact absurd he hg
    · rename_i hc
      obtain ⟨r, b, m1, e1, h1, h2, h3, h4, h5⟩ := create_good (can := can) (f := f)
        (g := fun d => (x.arr.toList ++ l1.flatMap (Enc.itemA cluA) ++ [a] ++ l2.flatMap (Enc.itemA cluA)).count d + g d) hg hc
        (h.of fun d => by
          simp only [segA, hl, List.flatMap_append, List.flatMap_cons, Enc.itemA, cluA, List.count_append, List.count_cons, List.count_nil]
          omega)
      rw [e1, Res.bind_ok]
      have hlen := hx.room
      have hcnt := hx.count
      rw [hl] at hlen hcnt
      refine ⟨r, _, m1, rfl, h1.of fun d => ?_, ⟨?_, ?_, hx.arr, ?_⟩, ?_, h3, fun he _ => h5 he⟩
      · simp only [segA, hl, set_at, List.flatMap_append, List.flatMap_cons, Enc.itemA, cluA, List.count_append, List.count_cons, List.count_nil]
        omega
      · intro s hm
        simp only [hl, set_at] at hm
        rcases List.mem_append.mp hm with hm | hm
        · exact hx.good s (by rw [hl]; exact List.mem_append.mpr (Or.inl hm))
        · rcases List.mem_cons.mp hm with rfl | hm
          · exact h2
          · exact hx.good s (by rw [hl]; simp [hm])
      · simpa [hl] using hlen
      · simpa [hl] using hcnt
      · have hv : (x.slots.set l1.length (a, { c with blocks := b })).map seenOf =
            l1.map seenOf ++ (c.pos, viewOf c.blocks ++ BlockMem.added f r) :: l2.map seenOf := by
          rw [hl, set_at, List.map_append, List.map_cons, ← h4]
          rfl
        split
        · rename_i hr
          subst hr
          have hf : ∃ l, f = .frames l := by
            cases f with
            | frames l => exact ⟨l, rfl⟩
            | badGroup => rcases h3 with h3 | h3 <;> cases h3
            | badHead => rcases h3 with h3 | h3 <;> cases h3
            | badFrames => rcases h3 with h3 | h3 <;> cases h3
          obtain ⟨l, rfl⟩ := hf
          refine ⟨rfl, c.pos, viewOf c.blocks, l, ?_, rfl, ?_⟩
          · simp only [view, List.getElem?_map, hs]
            rfl
          · simp only [view, hv]
            rw [hl, List.map_append, List.map_cons, show l1.length = (l1.map seenOf).length by simp, set_at]
            rfl
        · rename_i hr
          simp only [view, hv, BlockMem.added, if_neg hr, List.append_nil]
          rw [hl, List.map_append, List.map_cons]
          rfl

theorem step_spec {can : Nat → Bool} {o : Op} {x : Seg} {m : Mem} {g : Nat → Nat} (hx : Inv (Enough can) x)
    (h : Holds m fun a => (segA x).count a + g a) :
    ∃ c x' m', step can o x m = .ok (c, x', m') ∧ Holds m' (fun a => (segA x').count a + g a) ∧ Inv (Enough can) x' ∧
      (if c = 0 then ClusterDone o (view x) (view x') else view x' = view x) ∧ (c = 0 ∨ c = -1 ∨ ∃ i f, o = .block i f ∧ c = toldOf f) ∧
      (Enough can → ClusterSure o c (view x)) := by
  cases o with
  | load pos =>
    obtain ⟨b, x', m', e, h1, h2, h3, h4, h5⟩ := load_spec (can := can) (pos := pos) hx h
    unfold step
    simp only
    rw [e, Res.bind_ok]
    cases b with
    | true => exact ⟨0, x', m', rfl, h1, h2, by rw [if_pos rfl]; exact h3 rfl, Or.inl rfl, fun _ => rfl⟩
    | false => exact ⟨-1, x', m', rfl, h1, h2, by rw [if_neg (by decide)]; exact h4 rfl, Or.inr (Or.inl rfl), fun he => (by cases h5 he)⟩
  | find pos =>
    obtain ⟨b, x', m', e, h1, h2, h3, h4, h5⟩ := find_spec (can := can) (pos := pos) hx h
    unfold step
    simp only
    rw [e, Res.bind_ok]
    cases b with
    | true => exact ⟨0, x', m', rfl, h1, h2, by rw [if_pos rfl]; exact h3 rfl, Or.inl rfl, fun _ _ => rfl⟩
    | false => exact ⟨-1, x', m', rfl, h1, h2, by rw [if_neg (by decide)]; exact h4 rfl, Or.inr (Or.inl rfl), fun he ha => (by cases h5 he ha)⟩
  | block i f =>
    obtain ⟨c, x', m', e, h1, h2, h3, h4, h5⟩ := block_spec (can := can) (i := i) (f := f) hx h
    exact ⟨c, x', m', e, h1, h2, h3, h4.elim (fun h => Or.inr (Or.inr ⟨i, f, rfl, h⟩)) (fun h => Or.inr (Or.inl h)), h5⟩

theorem run_spec {can : Nat → Bool} : ∀ {os : List Op} {x : Seg} {m : Mem} {g : Nat → Nat}, Inv (Enough can) x →
    Holds m (fun a => (segA x).count a + g a) →
    ∃ cs x' m', run can os x m = .ok (cs, x', m') ∧ Holds m' (fun a => (segA x').count a + g a) ∧ Inv (Enough can) x' ∧
      SeenClusters (Enough can) os cs (view x) (view x')
  | [], x, m, g, hx, h => ⟨[], x, m, rfl, h, hx, rfl⟩
  | o :: os, x, m, g, hx, h => by
    obtain ⟨c, x1, m1, e1, h1, hx1, hd, ha, hs⟩ := step_spec (can := can) (o := o) hx h
    obtain ⟨cs, x2, m2, e2, h2, hx2, hs2⟩ := run_spec (can := can) (os := os) hx1 h1
    refine ⟨c :: cs, x2, m2, ?_, h2, hx2, view x1, hd, ha, hs, hs2⟩
    unfold run
    rw [e1, Res.bind_ok]
    simp only
    rw [e2]
    rfl

theorem shown_good {full : Prop} {b : BlockMem.Cluster} (h : Good full b) : BlockMem.shown b = .ok (viewOf b) := by
  rcases h with rfl | h | ⟨rfl, -⟩
  · rfl
  · exact h.shown
  · rfl

theorem showEach_good {full : Prop} : ∀ {l : List (Nat × Clu)}, (∀ s ∈ l, Good full s.2.blocks) → showEach l = .ok (l.map seenOf)
  | [], _ => rfl
  | (a, c) :: l, h => by
    unfold showEach
    rw [shown_good (h (a, c) (by simp)), Res.bind_ok, showEach_good (fun s hs => h s (by simp [hs]))]
    rfl

theorem destroy_spec {x : Seg} {m : Mem} (h : Holds m fun a => (segA x).count a + 0) : ∃ m', destroy x m = .ok m' ∧ m'.live = [] := by
  obtain ⟨m1, e1, h1⟩ := deleteItems_spec (g := cluA) (destroy := Clu.destroy) (P := fun _ => True) destroy_clu
    (xs := x.slots) (f := fun a => x.arr.toList.count a + 0) (fun _ _ => trivial)
    (h.of fun a => by simp only [segA, List.count_append]; omega)
  obtain ⟨m2, e2, h2⟩ := free_spec h1
  refine ⟨m2, ?_, Texts.nothing_live h2⟩
  unfold destroy
  rw [e1, Res.bind_ok, e2]

end Verif.Par.ClustersMem
