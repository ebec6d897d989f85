/-
The loop with which mkvparser walks over the children of a master element.
-/
import Verif.Model.ParserPrims

namespace Verif.Par
open Verif

theorem parseElementHeader_pos {r : Rdr} {pos : Nat} {stop : Int} {h : Hdr}
    (hp : parseElementHeader r pos stop = .ok h) : pos < h.pos := by
  unfold parseElementHeader at hp
  split at hp
  · cases hp
  split at hp
  · cases hp
  · cases hp
  rename_i id n h1
  simp only at hp
  split at hp
  · cases hp
  split at hp
  · cases hp
  · cases hp
  rename_i sz m h2
  split at hp
  · cases hp
  split at hp
  · cases hp
  cases hp
  have hm : 1 ≤ m := by
    unfold readUInt at h2
    split at h2
    · cases h2
    split at h2
    · split at h2 <;> cases h2
    split at h2
    · cases h2
    rename_i b hb hb0
    simp only at h2
    split at h2
    · rename_i v hv
      simp only [Res.ok.injEq, Prod.mk.injEq] at h2
      have : ∀ (b m : UInt8) (f l : Nat), 1 ≤ l → 1 ≤ (markerLoop b m l f).2 := by
        intro b m f
        induction f generalizing m with
        | zero => intro l hl; exact hl
        | succ f ih =>
          intro l hl
          unfold markerLoop
          split
          · exact ih _ _ (by omega)
          · exact hl
      have := this b 0x80 8 1 (by omega)
      omega
    · cases h2
    · cases h2
  simp only
  omega

/-- The loop
`while (pos < stop) { ParseElementHeader(pReader, pos, stop, id, size); …; pos += size;
if (pos > stop) return E_FILE_FORMAT_INVALID; } if (pos != stop) return E_FILE_FORMAT_INVALID;`
found in all parsers of master elements (for example mkvparser/mkvparser.cc:1505-1535).  `step`
is the body: it gets the position of the element's ID, its header, and the state so far.
Simplification: `pos + size` does not overflow (file positions stay below `2^63 - 2^56`). -/
def walk {σ : Type} (r : Rdr) (stop : Nat) (step : Nat → Hdr → σ → Res σ) (pos : Nat) (st : σ) :
    Res σ :=
  if pos < stop then
    match _hp : parseElementHeader r pos stop with
    | .err c => .err c
    | .ub => .ub
    | .ok h =>
      match step pos h st with
      | .err c => .err c
      | .ub => .ub
      | .ok st' =>
        if h.pos + h.size > stop then .err E_FILE_FORMAT_INVALID
        else walk r stop step (h.pos + h.size) st'
  else if pos = stop then .ok st
  else .err E_FILE_FORMAT_INVALID
  termination_by stop - pos
  decreasing_by
    have := parseElementHeader_pos ‹_›
    omega

end Verif.Par
