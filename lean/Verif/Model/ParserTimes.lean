/-
The first and the last time of a cluster, and the last cluster.
-/
import Verif.Model.ParserTrack

namespace Verif.Par
open Verif

/-- `Segment::GetLast`, mkvparser/mkvparser.cc:2511-2521: the index of the last cluster loaded, `none` for `m_eos`. -/
def ReadSegment.getLast (g : ReadSegment) : Option Nat := if g.clusters.length = 0 then none else some (g.clusters.length - 1)

/-- The end of `Cluster::GetFirstTime` and `Cluster::GetLastTime`, mkvparser/mkvparser.cc:7130-7136, 7147-7153: the time of the block, or
of a cluster without blocks. -/
def ReadCluster.timeOf (r : Rdr) (scale : Option Int) (c : ReadCluster) : Option Entry → ReadCluster × Res Int
  | none => (c, c.getTime r scale)
  | some e =>
    match c.blockNs r scale e with
    | .ok (c', t) => (c', .ok t)
    | .err n => (c, .err n)
    | .ub => (c, .ub)

/-- `Cluster::GetFirstTime`, mkvparser/mkvparser.cc:7122-7137; an error is returned as a negative time. -/
def ReadCluster.getFirstTime (r : Rdr) (scale : Option Int) (c : ReadCluster) : ReadCluster × Res Int :=
  match c.getFirst r with
  | .err n => (c.kept r, .ok n)
  | .ub => (c, .ub)
  | .ok (c', e) => c'.timeOf r scale e

/-- `Cluster::GetLastTime`, mkvparser/mkvparser.cc:7139-7154; an error is returned as a negative time. -/
def ReadCluster.getLastTime (r : Rdr) (fuel : Nat) (scale : Option Int) (c : ReadCluster) : ReadCluster × Res Int :=
  match c.getLast r fuel with
  | (c', .err n) => (c', .ok n)
  | (c', .ub) => (c', .ub)
  | (c', .ok e) => c'.timeOf r scale e

end Verif.Par
