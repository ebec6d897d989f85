/-
An application that reads a file with mkvparser while the file is still arriving: when a call answers that more data is
needed, it makes the call again once there is more.
-/
import Verif.Spec.AnyFile
import Verif.Spec.Watching

namespace Verif.Spec
open Verif Verif.Par

/-- A reader that has the first `n` bytes of a file.  `total` is the length of the file if it is known, and negative
otherwise; what has not arrived cannot be read. -/
def arrived (file : Bytes) (total : Int) (n : Nat) : Rdr := { data := file.take n, total := total }

/-- The error code says that more data is needed: `E_BUFFER_NOT_FULL`, or the position up to which it is. -/
def needsMore (c : Int) : Bool := decide (0 < c ∨ c = E_BUFFER_NOT_FULL)

/-- A call can be made again after it has failed for want of data: not `Load` (see `C70_load_cannot_be_repeated`); the
calls on a track are not covered. -/
def repeatable : ApiCall → Bool
  | .headers | .loadCluster | .timeCode _ | .first _ | .next _ _ | .last _ => true
  | .load | .trackFirst _ | .trackNext _ _ _ => false

/-- A call, as in `perform`; but `GetTimeCode` of a cluster that could not be loaded answers with that error, which is
a negative number and no time code. -/
def ask (r : Rdr) (fuel : Nat) (g : ReadSegment) : ApiCall → ReadSegment × Res (Option Entry)
  | .timeCode i =>
    match g.clusters[i]? with
    | none => (g, .ok none)
    | some c => settle r g i c ((c.load r).map fun c' => (c', none))
  | call => perform r fuel g call

/-- The same call again and again while it needs more data, with `n` bytes of the file there for each `n` in the list,
and in the end with all of it. -/
def patiently (file : Bytes) (total : Int) (fuel : Nat) (call : ApiCall) :
    List Nat → ReadSegment → ReadSegment × Res (Option Entry)
  | [], g => ask (arrived file total file.length) fuel g call
  | n :: ns, g =>
    match ask (arrived file total n) fuel g call with
    | (g', .err c) => if needsMore c then patiently file total fuel call ns g' else (g', .err c)
    | y => y

/-- A series of calls, each made patiently: the segment in the end, and the answers. -/
def streamed (file : Bytes) (total : Int) (fuel : Nat) : ReadSegment → List (ApiCall × List Nat) →
    ReadSegment × List (Res (Option Entry))
  | g, [] => (g, [])
  | g, (call, ns) :: rest =>
    let y := patiently file total fuel call ns g
    let z := streamed file total fuel y.1 rest
    (z.1, y.2 :: z.2)

/-- The same calls when the whole file is there. -/
def atOnce (file : Bytes) (total : Int) (fuel : Nat) : ReadSegment → List ApiCall → ReadSegment × List (Res (Option Entry))
  | g, [] => (g, [])
  | g, call :: rest =>
    let y := ask (arrived file total file.length) fuel g call
    let z := atOnce file total fuel y.1 rest
    (z.1, y.2 :: z.2)

/-- `CreateInstance`, patiently. -/
def createdPatiently (file : Bytes) (total : Int) (pos : Nat) : List Nat → Res ReadSegment
  | [] => createInstance (arrived file total file.length) pos
  | n :: ns =>
    match createInstance (arrived file total n) pos with
    | .err c => if needsMore c then createdPatiently file total pos ns else .err c
    | x => x

/-- The same answer, or an error in both cases. -/
def SameAnswer {α : Type} (x y : Res α) : Prop := x = y ∨ ∃ c d, x = .err c ∧ y = .err d

/-- As many answers, and the same one by one. -/
def SameAnswers {α : Type} (xs ys : List (Res α)) : Prop :=
  xs.length = ys.length ∧ ∀ z ∈ xs.zip ys, SameAnswer z.1 z.2

/-- `EBMLHeader::Parse`, patiently. -/
def headPatiently (file : Bytes) (total : Int) : List Nat → Res HeadResult
  | [] => ebmlHeadParse (arrived file total file.length)
  | n :: ns =>
    match ebmlHeadParse (arrived file total n) with
    | .err c => if needsMore c then headPatiently file total ns else .err c
    | .ok (.need _) => headPatiently file total ns
    | x => x

/-- The segment, but for the content encodings of its tracks. -/
def withoutEncodings (g : ReadSegment) : ReadSegment :=
  { g with tracks := g.tracks.map (·.map fun t => { t with encodings := [] }) }

/-- **mkvparser shows this of a file however it arrives**, if at least four bytes are there when the header is first
parsed: `EBMLHeader::Parse`, `CreateInstance`, `ParseHeaders` and some calls of `LoadCluster`, each repeated while it needs
more data, succeed; then the header says `h` and the frames of all blocks of all clusters are `fs`. -/
def StreamedAs (file : Bytes) (h : Shown) (fs : List SeenFrame) : Prop :=
  ∀ fuel, file.length < fuel → ∀ ns0 ns1 : List Nat, (∀ n ∈ ns0, 4 ≤ n) →
    ∃ pos head g k, headPatiently file file.length ns0 = .ok (.done pos head) ∧ head.docType = some h.docType ∧
      createdPatiently file file.length pos ns1 = .ok g ∧
      ∀ (ns2 : List Nat) (nss : List (List Nat)), nss.length = k →
        let y := streamed file file.length fuel g ((.headers, ns2) :: nss.map fun ns => (.loadCluster, ns))
        (∀ x ∈ y.2, x = .ok none) ∧ y.1.info = some h.info ∧
          (withoutEncodings y.1).tracks = some (h.tracks.map fun t => { t with encodings := [] }) ∧
          y.1.chapters = h.chapters ∧ y.1.tags = h.tags ∧
          watch (arrived file file.length file.length) fuel y.1 = .ok fs

end Verif.Spec
