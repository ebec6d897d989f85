/-
C95: the memory and the completeness of the blocks of a cluster.
-/
import Verif.Lemmas.ParserBlockMem

namespace Verif.Props
open Verif Verif.Spec Verif.Par.BlockMem Verif.Mux.Build

/-- Whatever the blocks are and whichever allocations fail, except that no block is tried after there was no memory for the first table: there is
no undefined behaviour and no failing assertion; each call returns what the block deserves, or -1; the cluster shows, in order, exactly the blocks
for which 0 was returned, with all their frames; and the destructor leaves nothing allocated.

Missing: trying a block after there was no memory for the first table, `C95_retry`. -/
theorem C95_blocks_partial (can : Nat → Bool) (fs : List Found) (h : can 0 = true ∨ fs.length ≤ 1) :
    ∃ cs x m m', createBlocks can fs {} {} = .ok (cs, x, m) ∧ Answers fs cs ∧ shown x = .ok (keptOf fs cs) ∧ destroy x m = .ok m' ∧
      m'.live = [] := by
  have h0 : Holds {} fun a => (clusterA {}).count a + 0 := fun a => by simp [clusterA]
  by_cases hc : can 0 = true
  · cases fs with
    | nil => exact ⟨[], {}, {}, {}, rfl, ⟨rfl, by simp⟩, rfl, rfl, rfl⟩
    | cons f fs =>
      obtain ⟨c, x1, m1, e1, h1, ht, ha, -⟩ := createBlock_spec (can := can) (f := f) (g := fun _ => 0) (Or.inl ⟨rfl, rfl, hc⟩) h0
      obtain ⟨cs, x2, m2, e2, h2, ht2, ha2, -⟩ := createBlocks_spec (can := can) (fs := fs) ht h1
      obtain ⟨m', e', h'⟩ := destroy_spec h2
      refine ⟨c :: cs, x2, m2, m', ?_, ⟨by simp [ha2.1], ?_⟩, by rw [kept_cons]; exact ht2.shown, e', h'⟩
      · unfold createBlocks
        rw [e1, Res.bind_ok]
        simp only
        rw [e2]
        rfl
      · intro p hp
        rw [List.zip_cons_cons] at hp
        rcases List.mem_cons.mp hp with rfl | hp
        · exact ha
        · exact ha2.2 p hp
  · have hc : can 0 = false := by simpa using hc
    match fs, h with
    | [], _ => exact ⟨[], {}, {}, {}, rfl, ⟨rfl, by simp⟩, rfl, rfl, rfl⟩
    | [f], _ =>
      refine ⟨[-1], { room := 1024 }, { live := [], next := 1 }, { live := [], next := 1 }, ?_, ⟨rfl, by simp⟩, rfl, rfl, rfl⟩
      simp [createBlocks, createBlock, makeRoom, Mem.alloc, hc, bind, Res.bind]
    | _ :: _ :: _, h => simp [hc] at h

/-- With memory enough every call returns 0 for a well formed block and "invalid format" for any other, and the cluster shows every well formed
block. -/
theorem C95_enough (can : Nat → Bool) (hc : Enough can) (fs : List Found) :
    ∃ x m, createBlocks can fs {} {} = .ok (fs.map toldOf, x, m) ∧ shown x = .ok (fs.flatMap framesFound) := by
  have hk : ∀ fs : List Found, keptOf fs (fs.map toldOf) = fs.flatMap framesFound := fun fs => by
    induction fs with
    | nil => rfl
    | cons f fs ih =>
      rw [List.map_cons, kept_cons, ih, List.flatMap_cons]
      cases f <;> rfl
  cases fs with
  | nil => exact ⟨{}, {}, rfl, rfl⟩
  | cons f fs =>
    obtain ⟨c, x1, m1, e1, h1, ht, -, hen⟩ := createBlock_spec (can := can) (f := f) (g := fun _ => 0) (Or.inl ⟨rfl, rfl, hc _⟩)
      (show Holds {} fun a => (clusterA {}).count a + 0 from fun a => by simp [clusterA])
    obtain ⟨cs, x2, m2, e2, h2, ht2, -, hen2⟩ := createBlocks_spec (can := can) (fs := fs) ht h1
    have e3 : c :: cs = (f :: fs).map toldOf := by rw [hen hc, hen2 hc]; rfl
    refine ⟨x2, m2, ?_, ?_⟩
    · rw [← e3]
      unfold createBlocks
      rw [e1, Res.bind_ok]
      simp only
      rw [e2]
      rfl
    · rw [← hk, ← e3, kept_cons]
      exact ht2.shown

/-- Trying again after there was no memory for the first table: an assertion fails, whatever the blocks are, and even if there is memory now. -/
theorem C95_retry (can : Nat → Bool) (h : can 0 = false) (f g : Found) (fs : List Found) : createBlocks can (f :: g :: fs) {} {} = .ub := by
  simp [createBlocks, createBlock, makeRoom, Mem.alloc, h, bind, Res.bind]

/-- Two blocks, one with three frames, between blocks that are refused. -/
private def sample : List Found := [.badHead, .frames [(10, 5)], .badFrames, .badGroup, .frames [(20, 3), (23, 3), (26, 4)]]

example : ∃ x m, createBlocks (fun _ => true) sample {} {} = .ok ([-2, 0, -2, -2, 0], x, m) ∧
    shown x = .ok [[(10, 5)], [(20, 3), (23, 3), (26, 4)]] ∧ m.live.length = 5 :=
  ⟨_, _, rfl, rfl, rfl⟩

/-- Without memory for the frames of the second block it is left out, and what comes after is not touched by that. -/
example : ∃ x m, createBlocks (fun n => n != 3) sample {} {} = .ok ([-2, -1, -2, -2, 0], x, m) ∧
    shown x = .ok [[(20, 3), (23, 3), (26, 4)]] ∧ m.live.length = 3 :=
  ⟨_, _, rfl, rfl, rfl⟩

example : (fun n => n != 3) 0 = true ∨ sample.length ≤ 1 := Or.inl rfl

example : Enough (fun _ => true) := fun _ => rfl

example : createBlocks (fun n => n != 0) sample {} {} = .ub := C95_retry _ rfl _ _ _

end Verif.Props
