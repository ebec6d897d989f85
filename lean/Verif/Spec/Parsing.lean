/-
What is assumed of the user's callback, and what a caller of `WebmParser` sees: feeding it until
it stops asking for more, and histories of `Feed` and `DidSeek` calls.
-/
import Verif.Spec.Feeding
import Verif.Model.WebmDoc

namespace Verif.Web

/-- Assumption on the user's callback: it does not itself ask to be called again later, and does
not return the value the library reserves (`Status::kSwitchToSkip`,
webm_parser/include/webm/status.h:100-105). -/
def Cb.Proper (cb : Cb) : Prop :=
  ∀ L e, (cb L e).1.isStall = false ∧ (cb L e).1 ≠ .diverged ∧ (cb L e).1 ≠ .switchToSkip

end Verif.Web

namespace Verif.Spec
open Verif Verif.Web

/-- A parser nothing has been fed to since it was created or since a seek was announced. -/
def AtStart {cb : Cb} (p : Parser cb) : Prop := p = {} ∨ ∃ q : Parser cb, p = q.didSeek

/-- What a caller of `WebmParser` does: feed it from a reader in any condition, or announce a
seek. -/
inductive Call where
  | feed (reader : Src)
  | didSeek

/-- What is observed of one `Feed`: the reader it was given, the status, the reader afterwards, the
number of bytes read, and all calls the callback has received so far. -/
structure Seen where
  before : Src
  status : Status
  after : Src
  read : Nat
  log : Log

/-- The observations of a history, `none` for `DidSeek`. -/
def history (cb : Cb) : Parser cb × Log → List Call → List (Option Seen)
  | _, [] => []
  | x, .feed s :: rest =>
    match Parser.feed cb x s with
    | (st, x', s', k) => some ⟨s, st, s', k, x'.2⟩ :: history cb x' rest
  | x, .didSeek :: rest => none :: history cb (x.1.didSeek, x.2) rest

end Verif.Spec
