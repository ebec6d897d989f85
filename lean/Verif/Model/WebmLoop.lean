/-
The shape shared by the larger parsers of webm_parser: `while (true) { switch (state_) … }`.
One pass through the `switch` is a function `body`; `loopFeed` is the loop.
-/
import Verif.Model.WebmScalar

namespace Verif.Web
open Verif

/-- `do status = reader->Skip(remaining, &n); remaining -= n; while (status == kOkPartial)`:
`Callback::Skip` (webm_parser/src/callback.cc:138-153), `SkipParser::Feed`
(webm_parser/src/skip_parser.cc) and state `kSkipping` of the block parser
(webm_parser/src/block_parser.cc:240-249).  `Skip` behaves like `Read` without keeping the
bytes. -/
def skipFeed (rem : Nat) (s : Src) : Fed Nat :=
  if rem = 0 then (.okCompleted, 0, s, 0)
  else
    match byteLoop rem (rem + 1) [] s with
    | (st, _, s', k) => (st, rem - k, s', k)

/-- Outcome of one pass through `switch (state_)`: `none` for `continue`, `some st` for
`return st`; then the parser, the reader, and the bytes read in this pass. -/
abbrev Pass (σ : Type) := Option Status × σ × Src × Nat

/-- `while (true) switch (state_)` (e.g. webm_parser/src/block_parser.cc:89-274,
webm_parser/src/master_parser.cc:86-263).  `μ` is a measure of the parser state and the number
of unread bytes; a pass that continues without decreasing it gives `diverged` (shown never to
happen for the parsers of this model). -/
def loopFeed {σ : Type} (body : σ → Src → Pass σ) (μ : σ → Nat → Nat) (p : σ) (s : Src) : Fed σ :=
  match body p s with
  | (some st, p', s', k) => (st, p', s', k)
  | (none, p', s', k) =>
    if _h : μ p' s'.bytes.length < μ p s.bytes.length then
      let r := loopFeed body μ p' s'
      (r.1, r.2.1, r.2.2.1, k + r.2.2.2)
    else (.diverged, p', s', k)
termination_by μ p s.bytes.length

end Verif.Web
