/-
`Match`: looking for an element at a place.
-/
import Verif.Model.ParserPrims

namespace Verif.Par
open Verif

/-- `Match` for a number, mkvparser/mkvparser.cc:395-431: the answer, and `pos` and `val` afterwards (`none` if `val` was not set).
`Length` says that the bytes of the reader are available. -/
def matchNumber (r : Rdr) (pos : Int) (expected : Nat) : Res (Bool × Int × Option Int) :=
  if pos < 0 then .ok (false, pos, none)
  else if r.total ≥ 0 ∧ (r.data.length : Int) > r.total then .ok (false, pos, none)
  else
    match readID r pos with
    | .ub => .ub
    | .err _ => .ok (false, pos, none)
    | .ok (id, len) =>
      if (r.data.length : Int) - pos > len then .ok (false, pos, none)
      else if id ≠ expected then .ok (false, pos, none)
      else
        let pos := pos + len
        match readUInt r pos with
        | .ub => .ub
        | .err _ => .ok (false, pos, none)
        | .ok (size, len) =>
          if size > 8 ∨ len < 1 ∨ len > 8 ∨ (r.data.length : Int) - pos > len then .ok (false, pos, none)
          else
            let pos := pos + len
            match unserializeUInt r pos size with
            | .ub => .ub
            | .err c => .ok (false, pos, some c)
            | .ok v => if v < 0 then .ok (false, pos, some v) else .ok (true, pos + size, some v)

/-- `Match` for data, mkvparser/mkvparser.cc:433-490: the answer, and `pos` and the new buffer afterwards (`none` if there is none).
Simplification: the allocation succeeds, and a buffer that is handed out although reading into it failed is not told apart. -/
def matchData (r : Rdr) (pos : Int) (expected : Nat) : Res (Bool × Int × Option Bytes) :=
  if pos < 0 then .ok (false, pos, none)
  else if r.total ≥ 0 ∧ (r.data.length : Int) > r.total then .ok (false, pos, none)
  else
    match readID r pos with
    | .ub => .ub
    | .err _ => .ok (false, pos, none)
    | .ok (id, len) =>
      if (r.data.length : Int) - pos > len then .ok (false, pos, none)
      else if id ≠ expected then .ok (false, pos, none)
      else
        let pos := pos + len
        match readUInt r pos with
        | .ub => .ub
        | .err _ => .ok (false, pos, none)
        | .ok (size, len) =>
          if len < 1 ∨ len > 8 ∨ (r.data.length : Int) - pos > len then .ok (false, pos, none)
          else if pos + len > llongMax then .ok (false, pos, none)
          else
            let pos := pos + len
            if pos + size > llongMax then .ok (false, pos, none)
            else if pos + size > r.data.length then .ok (false, pos, none)
            else if (size : Int) ≥ llongMax then .ok (false, pos, none)
            else
              match r.read pos.toNat size with
              | .error _ => .ok (false, pos, some (List.replicate size 0))
              | .ok b => .ok (true, pos + size, some b)

end Verif.Par
