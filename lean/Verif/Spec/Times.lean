/-
An application that asks clusters for the times of their first and last frames.
-/
import Verif.Spec.OneTrack
import Verif.Model.ParserTimes

namespace Verif.Spec
open Verif Verif.Par

/-- A question: the number of a cluster, and whether the last time is asked for, or the first. -/
abbrev Question := Nat × Bool

/-- Asking the clusters of a segment one question after the other. -/
def askTimes (r : Rdr) (fuel : Nat) : ReadSegment → List Question → Res (ReadSegment × List Int)
  | g, [] => .ok (g, [])
  | g, (k, last) :: qs =>
    match g.clusters[k]? with
    | none => .ub
    | some c =>
      let scale := g.info.map (·.timecodeScale)
      let (c, t) := if last then c.getLastTime r fuel scale else c.getFirstTime r scale
      do
        let t ← t
        let (g, ts) ← askTimes r fuel { g with clusters := g.clusters.set k c } qs
        .ok (g, t :: ts)

/-- The right answer, when the clusters show these frames: the time of the first or last of them, in nanoseconds. -/
def rightTime (scale : Nat) (cs : List (List SeenFrame)) (q : Question) : Option Int :=
  cs[q.1]?.bind fun fs => (if q.2 then fs.getLast? else fs.head?).map fun f => f.time * scale

/-- **The clusters of a file tell their times**, for a file with clusters that show these frames: when the whole file is there and has been
loaded, every question in every order gets the right answer, the clusters show the same frames afterwards, and `GetLast` is the last of
them. -/
def TimesAs (file : Bytes) (scale : Nat) (cs : List (List SeenFrame)) : Prop :=
  ∀ r : Rdr, r.data = file → r.total = file.length → ∀ fuel, file.length < fuel →
    ∃ pos head g g', ebmlHeadParse r = .ok (.done pos head) ∧ createInstance r pos = .ok g ∧ g.load r fuel = (g', .ok ()) ∧
      g'.clusters.length = cs.length ∧
      ∀ qs : List Question, (∀ q ∈ qs, q.1 < cs.length) →
        ∃ g2 ts, askTimes r fuel g' qs = .ok (g2, ts) ∧ ts.map some = qs.map (rightTime scale cs) ∧
          g2.clusters.map (watchCluster r fuel) = cs.map .ok ∧ g2.getLast = if cs = [] then none else some (cs.length - 1)

end Verif.Spec
