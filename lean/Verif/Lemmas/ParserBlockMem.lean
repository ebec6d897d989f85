/-
Lemmas for C95: every allocation of a cluster has one owner, and the entries are the blocks for which 0 was returned.
-/
import Verif.Spec.BlockMem
import Verif.Lemmas.ParserTextMem
import Verif.Lemmas.ParserEncodingMem

namespace Verif.Par.BlockMem
open Verif Verif.Spec Verif.Mux.Build Verif.Par.Enc

def blockA (b : Block) : List Nat := b.arr.toList

def clusterA (x : Cluster) : List Nat := x.arr.toList ++ (x.entries.getD []).flatMap (Enc.itemA blockA)

theorem enough_alloc {can : Nat → Bool} {m m1 : Mem} (h : Enough can) (e : m.alloc can = (none, m1)) : False := by
  unfold Mem.alloc at e
  rw [if_pos (h _)] at e
  cases e

theorem parse_spec {can : Nat → Bool} {f : Found} {m : Mem} {g : Nat → Nat} (h : Holds m g) :
    ∃ c b m', Block.parse can f m = (c, b, m') ∧ Holds m' (fun a => (blockA b).count a + g a) ∧ (c = toldOf f ∨ c = -1) ∧
      (c = 0 → ∃ l, f = .frames l ∧ b.show = .ok l) ∧ (Enough can → c = toldOf f) := by
  unfold Block.parse
  cases f with
  | badGroup => exact ⟨_, _, _, rfl, h.of fun a => (by simp [blockA]), Or.inl rfl, fun h => (by cases h), fun _ => rfl⟩
  | badHead => exact ⟨_, _, _, rfl, h.of fun a => (by simp [blockA]), Or.inl rfl, fun h => (by cases h), fun _ => rfl⟩
  | badFrames =>
    cases ea : m.alloc can with
    | mk r m1 =>
      have h1 := alloc_spec h ea
      cases r with
      | none => exact ⟨_, _, _, rfl, h1, Or.inr rfl, fun h => (by cases h), fun h => (enough_alloc h ea).elim⟩
      | some a => exact ⟨_, _, _, rfl, h1, Or.inl rfl, fun h => (by cases h), fun _ => rfl⟩
  | frames l =>
    cases ea : m.alloc can with
    | mk r m1 =>
      have h1 := alloc_spec h ea
      cases r with
      | none => exact ⟨_, _, _, rfl, h1, Or.inr rfl, fun h => (by cases h), fun h => (enough_alloc h ea).elim⟩
      | some a => exact ⟨_, _, _, rfl, h1, Or.inl rfl, fun _ => ⟨l, rfl, by simp [Block.show]⟩, fun _ => rfl⟩

/-- A cluster with a table. -/
def Table (x : Cluster) (vs : List (List Frame)) : Prop :=
  ∃ l, x.entries = some l ∧ x.arr ≠ none ∧ x.room ≠ 0 ∧ l.length ≤ x.room ∧ showEach l = .ok vs

theorem Table.shown {x : Cluster} {vs : List (List Frame)} (h : Table x vs) : shown x = .ok vs := by
  obtain ⟨l, e, h1, h2, h3, h4⟩ := h
  unfold BlockMem.shown
  rw [e]
  simp only
  rw [if_neg (by rintro (h | h); exact h1 h; omega), h4]

theorem makeRoom_spec {can : Nat → Bool} {x : Cluster} {m : Mem} {g : Nat → Nat} {vs : List (List Frame)}
    (hx : (x = {} ∧ vs = [] ∧ can m.next = true) ∨ Table x vs) (h : Holds m fun a => (clusterA x).count a + g a) :
    ∃ b x' m', makeRoom can x m = .ok (b, x', m') ∧ Holds m' (fun a => (clusterA x').count a + g a) ∧ Table x' vs ∧
      (b = true → ∀ l, x'.entries = some l → l.length < x'.room) ∧ (Enough can → b = true) := by
  unfold makeRoom
  rcases hx with ⟨rfl, rfl, hc⟩ | ⟨l, e, h1, h2, h3, h4⟩
  · simp only
    rw [if_neg (by simp)]
    cases ea : m.alloc can with
    | mk r m1 =>
      have h1 := alloc_spec h ea
      cases r with
      | none =>
        unfold Mem.alloc at ea
        rw [if_pos hc] at ea
        cases ea
      | some a =>
        refine ⟨true, _, m1, rfl, h1.of fun c => (by simp [clusterA]), ⟨[], rfl, by simp, by simp, by simp, rfl⟩, ?_, fun _ => rfl⟩
        intro _ l hl
        cases hl
        simp
  · rw [e]
    simp only
    rw [if_neg (by rintro (h | h | h); exact h1 h; exact h2 h; omega)]
    split
    · rename_i hr
      cases ea : m.alloc can with
      | mk r m1 =>
        have hm := alloc_spec h ea
        cases r with
        | none =>
          exact ⟨false, x, m1, rfl, hm.of fun a => (by simp), ⟨l, e, h1, h2, h3, h4⟩, fun h => (by cases h), fun h => (enough_alloc h ea).elim⟩
        | some a =>
          obtain ⟨m2, e2, hm2⟩ := free_spec (p := x.arr) (f := fun c => (clusterA { x with arr := some a, room := 2 * x.room }).count c + g c)
            (hm.of fun c => by simp only [clusterA, List.count_append]; omega)
          simp only
          rw [e2, Res.bind_ok]
          rw [e] at hm2
          refine ⟨true, _, m2, rfl, hm2, ⟨l, rfl, by simp, by simp only; omega, by simp only; omega, h4⟩, fun _ l' hl => ?_, fun _ => rfl⟩
          cases hl
          simp only
          omega
    · refine ⟨true, x, m, rfl, h, ⟨l, e, h1, h2, h3, h4⟩, fun _ l' hl => ?_, fun _ => rfl⟩
      rw [e] at hl
      cases hl
      omega

theorem showEach_append : ∀ {xs : List (Nat × Block)} {vs : List (List Frame)} {a : Nat} {b : Block} {v : List Frame},
    showEach xs = .ok vs → b.show = .ok v → showEach (xs ++ [(a, b)]) = .ok (vs ++ [v])
  | [], vs, a, b, v, h1, h2 => by
    cases h1
    show (b.show >>= _) = _
    rw [h2]
    rfl
  | (c, q) :: xs, vs, a, b, v, h1, h2 => by
    obtain ⟨w, e1, h1⟩ := Res.bind_eq_ok.mp h1
    obtain ⟨ws, e2, h1⟩ := Res.bind_eq_ok.mp h1
    cases h1
    show (q.show >>= _) = _
    rw [e1, Res.bind_ok]
    show (showEach (xs ++ [(a, b)]) >>= _) = _
    rw [showEach_append e2 h2]
    rfl

/-- What one more answer adds. -/
def added (f : Found) (c : Int) : List (List Frame) := if c = 0 then framesFound f else []

theorem destroy_block (b : Block) (_ : True) (m : Mem) (g : Nat → Nat) (h : Holds m fun a => (blockA b).count a + g a) :
    ∃ m', Block.destroy b m = .ok m' ∧ Holds m' g := free_spec h

theorem createEntry_spec {can : Nat → Bool} {f : Found} {x : Cluster} {m : Mem} {g : Nat → Nat} {vs : List (List Frame)} (hx : Table x vs)
    (hl : ∀ l, x.entries = some l → l.length < x.room) (h : Holds m fun a => (clusterA x).count a + g a) :
    ∃ c x' m', createEntry can f x m = .ok (c, x', m') ∧ Holds m' (fun a => (clusterA x').count a + g a) ∧ Table x' (vs ++ added f c) ∧
      (c = toldOf f ∨ c = -1) ∧ (Enough can → c = toldOf f) := by
  obtain ⟨l, e, h1, h2, h3, h4⟩ := hx
  have hlt := hl l e
  have hsame : ∀ c : Int, c ≠ 0 → Table x (vs ++ added f c) := fun c hc => by
    unfold added
    rw [if_neg hc, List.append_nil]
    exact ⟨l, e, h1, h2, h3, h4⟩
  unfold createEntry
  rw [e]
  simp only
  rw [if_neg (by rintro (h | h); exact h1 h; omega)]
  by_cases hg : f = .badGroup
  · subst hg
    exact ⟨-2, x, m, rfl, h, hsame _ (by decide), Or.inl rfl, fun _ => rfl⟩
  · have key : ∃ c x' m', (match m.alloc can with
          | (none, m) => .ok (-1, x, m)
          | (some a, m) =>
            match Block.parse can f m with
            | (c, b, m) =>
              if c = 0 then .ok (0, { x with entries := some (l ++ [(a, b)]) }, m)
              else do
                let m ← deleteItems Block.destroy [(a, b)] m
                .ok (c, x, m) : Res (Int × Cluster × Mem)) = .ok (c, x', m') ∧ Holds m' (fun a => (clusterA x').count a + g a) ∧
        Table x' (vs ++ added f c) ∧ (c = toldOf f ∨ c = -1) ∧ (Enough can → c = toldOf f) := by
      cases ea : m.alloc can with
      | mk r m1 =>
        have hm := alloc_spec h ea
        cases r with
        | none =>
          exact ⟨-1, x, m1, rfl, hm.of fun a => (by simp), hsame _ (by decide), Or.inr rfl, fun h => (enough_alloc h ea).elim⟩
        | some a =>
          obtain ⟨c, b, m2, e2, hm2, hc, hs, hen⟩ := parse_spec (can := can) (f := f) hm
          simp only [e2]
          by_cases hz : c = 0
          · subst hz
            rw [if_pos rfl]
            obtain ⟨fl, rfl, hsh⟩ := hs rfl
            refine ⟨0, _, m2, rfl, hm2.of fun d => ?_, ⟨_, rfl, h1, h2, by simp; omega, ?_⟩, hc, hen⟩
            · simp only [clusterA, e, Option.getD_some, List.count_append, List.flatMap_append, List.flatMap_cons, List.flatMap_nil, Enc.itemA,
                List.count_cons, List.count_nil, Option.toList_some]
              omega
            · exact showEach_append h4 hsh
          · rw [if_neg hz]
            obtain ⟨m3, e3, hm3⟩ := deleteItems_spec (g := blockA) (destroy := Block.destroy) (P := fun _ => True) destroy_block
              (xs := [(a, b)]) (f := fun d => (clusterA x).count d + g d) (fun _ _ => trivial)
              (hm2.of fun d => by
                simp only [List.flatMap_cons, List.flatMap_nil, Enc.itemA, List.count_append, List.count_cons, List.count_nil, Option.toList_some]
                omega)
            rw [e3, Res.bind_ok]
            exact ⟨c, x, m3, rfl, hm3, hsame _ hz, hc, hen⟩
    cases f with
    | badGroup => exact absurd rfl hg
    | badHead => exact key
    | badFrames => exact key
    | frames fl => exact key

theorem createBlock_spec {can : Nat → Bool} {f : Found} {x : Cluster} {m : Mem} {g : Nat → Nat} {vs : List (List Frame)}
    (hx : (x = {} ∧ vs = [] ∧ can m.next = true) ∨ Table x vs) (h : Holds m fun a => (clusterA x).count a + g a) :
    ∃ c x' m', createBlock can f x m = .ok (c, x', m') ∧ Holds m' (fun a => (clusterA x').count a + g a) ∧ Table x' (vs ++ added f c) ∧
      (c = toldOf f ∨ c = -1) ∧ (Enough can → c = toldOf f) := by
  obtain ⟨b, x1, m1, e1, h1, ht, hr, hen⟩ := makeRoom_spec hx h
  unfold createBlock
  rw [e1, Res.bind_ok]
  cases b with
  | false =>
    refine ⟨-1, x1, m1, rfl, h1, ?_, Or.inr rfl, fun h => (by cases hen h)⟩
    simpa [added] using ht
  | true => exact createEntry_spec ht (hr rfl) h1

theorem kept_cons (f : Found) (c : Int) (fs : List Found) (cs : List Int) : keptOf (f :: fs) (c :: cs) = added f c ++ keptOf fs cs := rfl

theorem createBlocks_spec {can : Nat → Bool} : ∀ {fs : List Found} {x : Cluster} {m : Mem} {g : Nat → Nat} {vs : List (List Frame)}, Table x vs →
    Holds m (fun a => (clusterA x).count a + g a) →
    ∃ cs x' m', createBlocks can fs x m = .ok (cs, x', m') ∧ Holds m' (fun a => (clusterA x').count a + g a) ∧ Table x' (vs ++ keptOf fs cs) ∧
      Answers fs cs ∧ (Enough can → cs = fs.map toldOf)
  | [], x, m, g, vs, hx, h => ⟨[], x, m, rfl, h, by simpa [keptOf] using hx, ⟨rfl, by simp⟩, fun _ => rfl⟩
  | f :: fs, x, m, g, vs, hx, h => by
    obtain ⟨c, x1, m1, e1, h1, ht, hc, hen⟩ := createBlock_spec (can := can) (f := f) (Or.inr hx) h
    obtain ⟨cs, x2, m2, e2, h2, ht2, ha, hen2⟩ := createBlocks_spec (can := can) (fs := fs) ht h1
    refine ⟨c :: cs, x2, m2, ?_, h2, by rw [kept_cons, ← List.append_assoc]; exact ht2, ⟨by simp [ha.1], ?_⟩, fun h => by
      rw [hen h, hen2 h]; rfl⟩
    · unfold createBlocks
      rw [e1, Res.bind_ok]
      simp only
      rw [e2]
      rfl
    · intro p hp
      rw [List.zip_cons_cons] at hp
      rcases List.mem_cons.mp hp with rfl | hp
      · exact hc
      · exact ha.2 p hp

theorem destroy_frees {x : Cluster} {m : Mem} {g : Nat → Nat} (h : Holds m fun a => (clusterA x).count a + g a) :
    ∃ m', destroy x m = .ok m' ∧ Holds m' g := by
  unfold destroy
  cases e : x.entries with
  | none => exact free_spec (p := x.arr) (h.of fun a => by simp [clusterA, e])
  | some l =>
    obtain ⟨m1, e1, h1⟩ := deleteItems_spec (g := blockA) (destroy := Block.destroy) (P := fun _ => True) destroy_block
      (xs := l) (f := fun a => x.arr.toList.count a + g a) (fun _ _ => trivial)
      (h.of fun a => by simp only [clusterA, e, Option.getD_some, List.count_append]; omega)
    obtain ⟨m2, e2, h2⟩ := free_spec h1
    refine ⟨m2, ?_, h2⟩
    simp only
    rw [e1, Res.bind_ok, e2]

theorem destroy_spec {x : Cluster} {m : Mem} (h : Holds m fun a => (clusterA x).count a + 0) : ∃ m', destroy x m = .ok m' ∧ m'.live = [] := by
  obtain ⟨m', e, h⟩ := destroy_frees h
  exact ⟨m', e, Texts.nothing_live h⟩

end Verif.Par.BlockMem
