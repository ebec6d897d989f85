/-
C96: the memory of the clusters of a segment, and what is seen of them.
-/
import Verif.Lemmas.ParserClustersMem

namespace Verif.Props
open Verif Verif.Spec Verif.Par.BlockMem Verif.Par.ClustersMem Verif.Mux.Build

/-- Whichever clusters are loaded and looked for, whichever blocks are parsed and whichever allocations fail, in any order: there is no undefined
behaviour; what is seen of the clusters changes with each call as its answer says; with memory the answers are those of `ClusterSure`; and destroying the
segment leaves nothing allocated.

Missing: a block tried again in a cluster for which there was no memory for the table of entries (`block` gives up; `C95_retry`). -/
theorem C96_clusters_partial (can : Nat → Bool) (os : List Op) :
    ∃ cs x m m' v, run can os {} {} = .ok (cs, x, m) ∧ SeenClusters (Enough can) os cs {} { clusters := v, loaded := x.count } ∧
      showEach x.slots = .ok v ∧ destroy x m = .ok m' ∧ m'.live = [] := by
  obtain ⟨cs, x, m, e, h, hx, hs⟩ := run_spec (can := can) (os := os) (x := {}) (m := {}) (g := fun _ => 0)
    ⟨by simp, by simp, by simp, by simp⟩ (fun a => by simp [segA])
  obtain ⟨m', e', h'⟩ := Par.ClustersMem.destroy_spec h
  exact ⟨cs, x, m, m', _, e, hs, showEach_good hx.good, e', h'⟩

/-- A cluster looked for and then loaded, with blocks parsed before and after, another one loaded, and one looked for behind it. -/
private def sample : List Op :=
  [.find 50, .block 0 (.frames [(60, 4)]), .load 10, .load 50, .block 1 (.frames [(64, 2), (66, 2)]), .find 90, .block 2 .badHead, .find 10]

example : ∃ x m, run (fun _ => true) sample {} {} = .ok ([0, 0, 0, 0, 0, 0, -2, 0], x, m) ∧ x.count = 2 ∧ m.live.length = 10 ∧
    Par.ClustersMem.showEach x.slots = .ok [(10, []), (50, [[(60, 4)], [(64, 2), (66, 2)]]), (90, [])] :=
  ⟨_, _, rfl, rfl, rfl, rfl⟩

/-- Without memory for the first table of clusters, the cluster found is not kept, and its block has no place; what comes after is there. -/
example : ∃ x m, run (fun n => n != 1) sample {} {} = .ok ([-1, -1, 0, 0, 0, 0, -2, 0], x, m) ∧ x.count = 2 ∧
    Par.ClustersMem.showEach x.slots = .ok [(10, []), (50, [[(64, 2), (66, 2)]]), (90, [])] :=
  ⟨_, _, rfl, rfl, rfl⟩

example : Enough (fun _ => true) := fun _ => rfl

end Verif.Props
