/-
Model of the muxer's track list, mkvmuxer/mkvmuxer.cc:1749-1829 and the `Segment` entry points
3356-3438 that use it.
-/
namespace Verif.Mux

/-- Kind of a track (`Tracks::kVideo`, `kAudio`, mkvmuxer/mkvmuxer.h:873; any other value
can be set through `Track::set_type`). -/
inductive TrackKind where
  | video | audio | other
  deriving DecidableEq, Repr

/-- A track as far as numbering and frame routing are concerned: `Track::number_` and
`Track::type_`, mkvmuxer/mkvmuxer.h:655-738.  Simplification: the user does not renumber or retype
a track through the pointer it is handed after it was added. -/
structure TrackEntry where
  number : Nat
  kind : TrackKind := .other
  deriving DecidableEq, Repr

/-- `Tracks`, mkvmuxer/mkvmuxer.h:870-923: the list of entries and whether they were already
written.  Simplification: fewer than `2^32 - 1` tracks, so the `uint32` count does not wrap. -/
structure Tracks where
  entries : List TrackEntry := []
  wroteTracks : Bool := false
  deriving DecidableEq, Repr

/-- "a track has this number" (the scans at mkvmuxer/mkvmuxer.cc:1765-1768 and 1791-1797). -/
def Tracks.taken (t : Tracks) (n : Nat) : Bool := t.entries.any fun e => e.number == n

/-- The `do … while (!exit)` loop of `Tracks::AddTrack`, mkvmuxer/mkvmuxer.cc:1788-1799: count up
from `n` as long as a track has that number.  `fuel` bounds the number of rounds; the caller
passes more rounds than there are tracks (theorem `nextFree_free` shows they suffice). -/
def Tracks.nextFree (t : Tracks) (n : Nat) : Nat → Nat
  | 0 => n
  | fuel + 1 => if t.taken n then t.nextFree (n + 1) fuel else n

/-- `Tracks::AddTrack`, mkvmuxer/mkvmuxer.cc:1749-1806, for a new track of the given kind
(allocation succeeds); `none` is `return false`. -/
def Tracks.addTrack (t : Tracks) (kind : TrackKind) (number : Int) : Option Tracks :=
  if number < 0 ∨ t.wroteTracks then none
  else if number > 0x7E then none
  else if number.toNat > 0 ∧ t.taken number.toNat then none
  else
    let num := if number.toNat = 0 then t.nextFree (t.entries.length + 1) (t.entries.length + 1)
               else number.toNat
    some { t with entries := t.entries ++ [{ number := num, kind := kind }] }

/-- `Tracks::GetTrackByNumber`, mkvmuxer/mkvmuxer.cc:1818-1826. -/
def Tracks.byNumber (t : Tracks) (n : Nat) : Option TrackEntry :=
  t.entries.find? fun e => e.number == n

/-- A call to `Segment::AddTrack` / `AddVideoTrack` / `AddAudioTrack`
(mkvmuxer/mkvmuxer.cc:3356-3369, 3376-3394, 3418-3436): the list afterwards, and the number
returned or the track handed out (0 or null on failure). -/
def Tracks.request (t : Tracks) (kind : TrackKind) (number : Int) : Tracks × Nat :=
  match t.addTrack kind number with
  | none => (t, 0)
  | some t' => (t', (t'.entries.getLast?.map (·.number)).getD 0)

/-- Adding a whole list of tracks, in order; failing requests are skipped by the caller. -/
def Tracks.addAll (t : Tracks) : List (TrackKind × Int) → Tracks
  | [] => t
  | (k, n) :: rest => (t.request k n).1.addAll rest

end Verif.Mux
