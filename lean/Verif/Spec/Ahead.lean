/-
An application that seeks in a file without loading it: it reads the header, follows the seek head to the cues or to
the first cluster, and plays on from there.
-/
import Verif.Spec.Seeking
import Verif.Model.ParserAhead

namespace Verif.Spec
open Verif Verif.Par

/-- The offset that the seek head of a file gives for the element with this ID. -/
def seekHeadPlace (g : ReadSegment) (id : Nat) : Option Int :=
  g.seekHead.bind fun h => (h.1.find? fun e => decide (e.id = id)).map (·.pos)

/-- The cues are parsed where the seek head says that they are. -/
def followToCues (r : Rdr) (g : ReadSegment) : Res ReadSegment :=
  match seekHeadPlace g 0x1C53BB6B with
  | none => .ok g
  | some off => do
    let (g, _) ← g.parseCues r off
    .ok g

/-- Playing on from the start of a cluster, through that cluster and all behind it. -/
def playAhead (r : Rdr) (rounds : Nat) : (fuel : Nat) → Ahead → (slot : Option Nat) → Res (Ahead × List SeenFrame)
  | _, a, none => .ok (a, [])
  | 0, _, some _ => .ub
  | f + 1, a, some k =>
    match a.table[k]? with
    | none => .ub
    | some c => do
      let fs ← watchCluster r rounds c
      let (a, next) ← a.getNext r k
      let (a, rest) ← playAhead r rounds f a next
      .ok (a, fs ++ rest)

/-- A seek to `time` (in nanoseconds) by the cue points of a track of the file, as in `seekTo`: the frames shown from
there on, or `none` if there is nothing to be found. -/
def seekAhead (r : Rdr) (fuel track : Nat) (a : Ahead) (time : Nat) : Res (Ahead × Option (List SeenFrame)) :=
  match a.seg.cues, a.seg.info with
  | some (start, size), some info => do
    let q ← loadCuePoints r fuel (Par.Cues.new start size)
    match ← q.find info.timecodeScale time track with
    | none => .ok (a, none)
    | some (cp, tp) => do
      match ← a.getBlock r fuel cp tp with
      | (a, none) => .ok (a, none)
      | (a, some (k, idx, e)) =>
        match a.table[k]? with
        | none => .ub
        | some c => do
          let (c, tc) ← c.getTimeCode r
          let here ← watchFrom r tc fuel c idx e
          let (a, next) ← a.getNext r k
          let (a, rest) ← playAhead r fuel fuel a next
          .ok (a, some (here ++ rest))
  | _, _ => .ok (a, none)

/-- One seek after the other, with the same segment object. -/
def seekAll (r : Rdr) (fuel track : Nat) : Ahead → List Nat → Res (Ahead × List (Option (List SeenFrame)))
  | a, [] => .ok (a, [])
  | a, t :: ts => do
    let (a, l) ← seekAhead r fuel track a t
    let (a, ls) ← seekAll r fuel track a ts
    .ok (a, l :: ls)

/-- Playing the file from the cluster the seek head names, `FindOrPreloadCluster`. -/
def playFromSeekHead (r : Rdr) (fuel : Nat) (a : Ahead) : Res (Ahead × List SeenFrame) :=
  match seekHeadPlace a.seg 0x1F43B675 with
  | none => .ok (a, [])
  | some off => do
    let (a, k) ← a.findOrPreload off
    playAhead r fuel fuel a k

/-- **A file can be played and seeks arrive where they should although only its header was parsed**, for a file with
clusters showing these frames: `ParseHeaders` leaves no cluster loaded; `ParseCues` succeeds; after any number of seeks,
each of which arrived at the place of the cues, the whole file can be played from the cluster the seek head names, and
seeks still arrive. -/
def SeeksAheadAs (file : Bytes) (scale track : Nat) (cs : List (List SeenFrame)) : Prop :=
  ∀ r : Rdr, r.data = file → r.total = file.length → ∀ fuel, file.length < fuel →
    ∃ pos head g g1 g2, ebmlHeadParse r = .ok (.done pos head) ∧ createInstance r pos = .ok g ∧
      g.parseHeaders r = (g1, .ok ()) ∧ g1.clusters = [] ∧ followToCues r g1 = .ok g2 ∧ g2.clusters = [] ∧
      ∀ before after : List Nat, ∃ a1 a2 a3,
        seekAll r fuel track ⟨g2, []⟩ before = .ok (a1, before.map fun t => landing scale track t cs) ∧
        playFromSeekHead r fuel a1 = .ok (a2, cs.flatten) ∧
        seekAll r fuel track a2 after = .ok (a3, after.map fun t => landing scale track t cs)

end Verif.Spec
