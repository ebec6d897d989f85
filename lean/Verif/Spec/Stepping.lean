/-
An application that loads the clusters of a file one by one, jumps ahead to others and steps from cluster to cluster, in
any order of the calls.  It names a cluster object by where its cluster is, as an offset from the start of the segment's
data (`Cluster::GetPosition`).
-/
import Verif.Spec.Seeking
import Verif.Model.ParserNext

namespace Verif.Spec
open Verif Verif.Par

/-- A call of the application. -/
inductive Ask where
  | load                     -- `Segment::LoadCluster`
  | find (off : Nat)         -- `Segment::FindOrPreloadCluster`
  | next (off : Nat)         -- `Segment::GetNext`
  | parseNext (off : Nat)    -- `Segment::ParseNext`
  | frame (off n : Nat)      -- `Cluster::GetFirst`, and `Cluster::GetNext` `n` times: the frame of that block
  deriving DecidableEq, Repr

/-- What it is told. -/
inductive Reply where
  | cluster (off : Nat)
  | frames (fs : List SeenFrame)
  | nothing
  deriving DecidableEq, Repr

/-- `GetFirst`, and `GetNext` `n` times. -/
def nthBlock (r : Rdr) : (n : Nat) → ReadCluster → Res (ReadCluster × Option Entry)
  | 0, c => c.getFirst r
  | n + 1, c => do
    match ← nthBlock r n c with
    | (c, none) => .ok (c, none)
    | (c, some _) => c.getNext r n

/-- The slot of the object for the cluster at this offset. -/
def slotOf (a : Ahead) (off : Nat) : Res Nat :=
  match a.table.findIdx? fun c => decide (c.start = a.seg.start + off) with
  | some k => .ok k
  | none => .ub

/-- Where the cluster in a slot is. -/
def tell (a : Ahead) : Option Nat → Res Reply
  | none => .ok .nothing
  | some k =>
    match a.table[k]? with
    | some c => .ok (.cluster (c.start - a.seg.start))
    | none => .ub

/-- The segment as it is then, and the answer. -/
def withState {α : Type} : Ahead × Res α → Res (Ahead × α)
  | (a, .ok x) => .ok (a, x)
  | (_, .err c) => .err c
  | (_, .ub) => .ub

/-- One call. -/
def reply (r : Rdr) (fuel : Nat) (a : Ahead) : Ask → Res (Ahead × Reply)
  | .load => do
    let (a, more) ← withState (a.loadCluster r fuel)
    .ok (a, ← tell a (if more then some (a.seg.clusters.length - 1) else none))
  | .find off => do
    let (a, k) ← a.findOrPreload off
    .ok (a, ← tell a k)
  | .next off => do
    let (a, k) ← a.getNext r (← slotOf a off)
    .ok (a, ← tell a k)
  | .parseNext off => do
    let (a, k) ← withState (a.parseNext r fuel (← slotOf a off))
    .ok (a, ← tell a k)
  | .frame off n => do
    let k ← slotOf a off
    match a.table[k]? with
    | none => .ub
    | some c => do
      let (c, tc) ← c.getTimeCode r
      let (c, e) ← nthBlock r n c
      match e with
      | none => .ok (a.put k c, .nothing)
      | some e => .ok (a.put k c, .frames (← watchEntry r tc e))

/-- One call after the other. -/
def replies (r : Rdr) (fuel : Nat) : Ahead → List Ask → Res (Ahead × List Reply)
  | a, [] => .ok (a, [])
  | a, x :: xs => do
    let (a, t) ← reply r fuel a x
    let (a, ts) ← replies r fuel a xs
    .ok (a, t :: ts)

/-! ### What the answers should be -/

/-- What the application has done: it has loaded so many clusters; it has been given objects for the clusters at `found`
by jumping or stepping ahead; it has looked into the clusters at `looked`. -/
structure Progress where
  loaded : Nat := 0
  found : List Nat := []
  looked : List Nat := []
  deriving DecidableEq, Repr

/-- What follows the cluster at this offset. -/
def following (cs : List (Nat × List SeenFrame)) (off : Nat) : Option Nat :=
  ((cs.dropWhile fun c => decide (c.1 ≠ off)).drop 1).head?.map (·.1)

/-- The answer is this cluster, or nothing. -/
def Progress.given (k : Progress) : Option Nat → Progress × Reply
  | none => (k, .nothing)
  | some off => ({ k with found := off :: k.found }, .cluster off)

/-- Loading the next cluster. -/
def Progress.load (cs : List (Nat × List SeenFrame)) (k : Progress) : Progress × Reply :=
  match cs[k.loaded]? with
  | none => (k, .nothing)
  | some c => ({ k with loaded := k.loaded + 1 }, .cluster c.1)

/-- **The answer to a call** for a file with these clusters (their offsets and their frames), or `none` if it may not be
made: the application must have the object it asks about, and the clusters it jumps to must be there.  `GetNext` stays within
the loaded clusters if its cluster is one of them; `ParseNext` loads the next one if there is none.  Behind a cluster that was not
loaded, both go to the cluster that follows in the file.  **`ParseNext` must not be called for a cluster that was neither
loaded nor looked into.** -/
def Progress.answer (cs : List (Nat × List SeenFrame)) (k : Progress) : Ask → Option (Progress × Reply)
  | .load => some (k.load cs)
  | .find off => if off ∈ cs.map (·.1) then some (k.given (some off)) else none
  | .next off =>
    if off ∈ (cs.take k.loaded).map (·.1) then
      some (k, ((following (cs.take k.loaded) off).elim .nothing .cluster))
    else if off ∈ k.found then some (k.given (following cs off))
    else none
  | .parseNext off =>
    if off ∈ (cs.take k.loaded).map (·.1) then
      match following (cs.take k.loaded) off with
      | some o => some (k, .cluster o)
      | none => some (k.load cs)
    else if off ∈ k.found ∧ off ∈ k.looked then some (k.given (following cs off))
    else none
  | .frame off n =>
    if off ∈ (cs.take k.loaded).map (·.1) ∨ off ∈ k.found then
      match cs.find? fun c => decide (c.1 = off) with
      | none => none
      | some c => some ({ k with looked := off :: k.looked }, (c.2[n]?.elim .nothing fun f => .frames [f]))
    else none

/-- The answers to all calls. -/
def Progress.answers (cs : List (Nat × List SeenFrame)) : Progress → List Ask → Option (List Reply)
  | _, [] => some []
  | k, x :: xs => do
    let (k, t) ← k.answer cs x
    let ts ← Progress.answers cs k xs
    some (t :: ts)

/-- **Every history of calls is answered as it should be**, for a file with clusters at these offsets showing these frames,
once `ParseHeaders` has succeeded. -/
def StepsAs (file : Bytes) (cs : List (Nat × List SeenFrame)) : Prop :=
  ∀ r : Rdr, r.data = file → r.total = file.length → ∀ fuel, file.length < fuel →
    ∃ pos head g g1, ebmlHeadParse r = .ok (.done pos head) ∧ createInstance r pos = .ok g ∧ g.parseHeaders r = (g1, .ok ()) ∧
      ∀ calls answers, Progress.answers cs {} calls = some answers → ∃ a, replies r fuel ⟨g1, []⟩ calls = .ok (a, answers)

end Verif.Spec
