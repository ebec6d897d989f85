/-
What a segment should show of its clusters after each call.
-/
import Verif.Model.ParserClustersMem
import Verif.Spec.BlockMem

namespace Verif.Spec
open Verif Verif.Par.BlockMem Verif.Par.ClustersMem

/-- What is seen: for every cluster its position and the frames of each block, and how many of them are loaded; the others are preloaded. -/
structure SegView where
  clusters : List (Nat × List (List Frame)) := []
  loaded : Nat := 0

/-- The clusters with a new one, which has no blocks, as number `k`. -/
def SegView.with (v : SegView) (k pos : Nat) : List (Nat × List (List Frame)) := v.clusters.take k ++ (pos, []) :: v.clusters.drop k

/-- The clusters are in the order of the file, and no place is there twice. -/
def Ascending (cs : List (Nat × List (List Frame))) : Prop := cs.Pairwise fun p q => p.1 < q.1

/-- What a call with success changes. -/
def ClusterDone : Op → SegView → SegView → Prop
  /- The cluster is loaded: it was the next preloaded one, or it is new. -/
  | .load pos, v, w => w.loaded = v.loaded + 1 ∧
      if v.clusters[v.loaded]?.map (·.1) = some pos then w.clusters = v.clusters else w.clusters = v.with v.loaded pos
  /- The cluster was there, or it is a new one among the preloaded ones, where it belongs if the clusters are in order. -/
  | .find pos, v, w => w.loaded = v.loaded ∧
      ((w.clusters = v.clusters ∧ ∃ fs, (pos, fs) ∈ v.clusters) ∨ ∃ k, v.loaded ≤ k ∧ k ≤ v.clusters.length ∧
        w.clusters = v.with k pos ∧ (Ascending v.clusters → Ascending w.clusters))
  /- The cluster has one more block, the last. -/
  | .block i f, v, w => w.loaded = v.loaded ∧
      ∃ pos fs l, v.clusters[i]? = some (pos, fs) ∧ f = .frames l ∧ w.clusters = v.clusters.set i (pos, fs ++ [l])

/-- What a call answers if there is memory: loading succeeds; so does looking for a place behind all the clusters loaded; a block of a cluster that
is there is told what it deserves. -/
def ClusterSure : Op → Int → SegView → Prop
  | .load _, c, _ => c = 0
  | .find pos, c, v => (∀ p ∈ v.clusters.take v.loaded, p.1 < pos) → c = 0
  | .block i f, c, v => i < v.clusters.length → c = toldOf f

/-- What may come of a history: a call that returns 0 has success, any other changes nothing, and only a malformed block has an answer other than
0 and -1; `full` says that there is memory. -/
def SeenClusters (full : Prop) : List Op → List Int → SegView → SegView → Prop
  | [], [], v, w => w = v
  | o :: os, c :: cs, v, w => ∃ u, (if c = 0 then ClusterDone o v u else u = v) ∧ (c = 0 ∨ c = -1 ∨ ∃ i f, o = .block i f ∧ c = toldOf f) ∧
      (full → ClusterSure o c v) ∧ SeenClusters full os cs u w
  | _, _, _, _ => False

end Verif.Spec
