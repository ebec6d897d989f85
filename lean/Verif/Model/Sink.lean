/-
The output side: `IMkvWriter` and the routines' control flow over it.
-/
import Verif.Base.Bytes
import Verif.Base.Res

namespace Verif

/-- The object behind an `IMkvWriter*` (mkvmuxer/mkvmuxertypes.h, mkvmuxer/mkvmuxer.h:31-66):
file contents, write cursor, number of `Write` calls made so far, and a failure plan.
`plan i = none` says that the `i`-th `Write` call succeeds, `plan i = some n` says that it
fails after having stored at most `n` of its bytes.  The plan is arbitrary, so statements
about every sink cover every pattern of output failures.
Simplification: the modelled writer reports failure by a negative value, success by 0. -/
structure Sink where
  data : Bytes
  pos : Nat
  calls : Nat
  plan : Nat → Option Nat

/-- Bytes stored at a position, replacing what was there. -/
def overwrite (d : Bytes) (p : Nat) (bs : Bytes) : Bytes :=
  d.take p ++ bs ++ d.drop (p + bs.length)

/-- A routine of the muxer: takes the sink, returns an outcome and the sink afterwards. -/
def W (α : Type) := Sink → Res α × Sink

namespace W

def pure {α} (a : α) : W α := fun s => (.ok a, s)
def bind {α β} (w : W α) (f : α → W β) : W β := fun s =>
  match w s with
  | (.ok a, s') => f a s'
  | (.err c, s') => (.err c, s')
  | (.ub, s') => (.ub, s')

instance : Monad W where
  pure := W.pure
  bind := W.bind

/-- `return <error>` without touching the output. -/
def fail {α} (c : Int) : W α := fun s => (.err c, s)
/-- Undefined behaviour. -/
def ub {α} : W α := fun s => (.ub, s)

theorem bind_run {α β} (w : W α) (f : α → W β) (s : Sink) :
    (w >>= f) s = match w s with
      | (.ok a, s') => f a s'
      | (.err c, s') => (.err c, s')
      | (.ub, s') => (.ub, s') := rfl

theorem bind_of_ok {α β} {w : W α} {f : α → W β} {s s' : Sink} {a : α} (h : w s = (.ok a, s')) :
    (w >>= f) s = f a s' := by rw [bind_run, h]

theorem bind_of_err {α β} {w : W α} {f : α → W β} {s s' : Sink} {c : Int}
    (h : w s = (.err c, s')) : (w >>= f) s = (.err c, s') := by rw [bind_run, h]

theorem bind_of_ub {α β} {w : W α} {f : α → W β} {s s' : Sink} (h : w s = (.ub, s')) :
    (w >>= f) s = (.ub, s') := by rw [bind_run, h]

@[simp] theorem pure_run {α} (a : α) (s : Sink) : (Pure.pure a : W α) s = (.ok a, s) := rfl
@[simp] theorem fail_run {α} (c : Int) (s : Sink) : (fail c : W α) s = (.err c, s) := rfl

end W

/-- `IMkvWriter::Write` (mkvmuxer/mkvmuxer.h:37, implementation mkvmuxer/mkvwriter.cc:24-36). -/
def Sink.write (bs : Bytes) : W Unit := fun s =>
  match s.plan s.calls with
  | none => (.ok (), { s with data := overwrite s.data s.pos bs,
                              pos := s.pos + bs.length, calls := s.calls + 1 })
  | some n => (.err (-1), { s with data := overwrite s.data s.pos (bs.take n),
                                   pos := s.pos + (bs.take n).length, calls := s.calls + 1 })

/-- `IMkvWriter::Position` (mkvmuxer/mkvwriter.cc:64-73). -/
def Sink.position : W Nat := fun s => (.ok s.pos, s)

/-- `IMkvWriter::Position(int64)` (mkvmuxer/mkvwriter.cc:75-91): move the write cursor.  Counted
among the calls, and may fail according to the plan (the cursor then stays where it is). -/
def Sink.seek (p : Nat) : W Unit := fun s =>
  match s.plan s.calls with
  | none => (.ok (), { s with pos := p, calls := s.calls + 1 })
  | some _ => (.err (-1), { s with calls := s.calls + 1 })

/-- A routine of an object with state `σ`, working on the output: the state survives a failure
(`return false`), as the members of a C++ object do. -/
def M (σ α : Type) := σ → Sink → Res α × σ × Sink

namespace M

def pure {σ α} (a : α) : M σ α := fun c s => (.ok a, c, s)
def bind {σ α β} (m : M σ α) (f : α → M σ β) : M σ β := fun c s =>
  match m c s with
  | (.ok a, c', s') => f a c' s'
  | (.err e, c', s') => (.err e, c', s')
  | (.ub, c', s') => (.ub, c', s')

instance {σ} : Monad (M σ) where
  pure := M.pure
  bind := M.bind

/-- `return false`. -/
def fail {σ α} : M σ α := fun c s => (.err 0, c, s)
/-- Undefined behaviour. -/
def ub {σ α} : M σ α := fun c s => (.ub, c, s)
/-- Read the members. -/
def get {σ} : M σ σ := fun c s => (.ok c, c, s)
/-- Assign to members. -/
def modify {σ} (f : σ → σ) : M σ Unit := fun c s => (.ok (), f c, s)
/-- A call to an output routine; its failure is passed on. -/
def lift {σ α} (w : W α) : M σ α := fun c s => match w s with | (r, s') => (r, c, s')
/-- A call whose `bool` result is inspected. -/
def attempt {σ} (m : M σ Unit) : M σ Bool := fun c s =>
  match m c s with
  | (.ok _, c', s') => (.ok true, c', s')
  | (.err _, c', s') => (.ok false, c', s')
  | (.ub, c', s') => (.ub, c', s')

theorem bind_run {σ α β} (m : M σ α) (f : α → M σ β) (c : σ) (s : Sink) :
    (m >>= f) c s = match m c s with
      | (.ok a, c', s') => f a c' s'
      | (.err e, c', s') => (.err e, c', s')
      | (.ub, c', s') => (.ub, c', s') := rfl

theorem bind_of_ok {σ α β} {m : M σ α} {f : α → M σ β} {c c' : σ} {s s' : Sink} {a : α}
    (h : m c s = (.ok a, c', s')) : (m >>= f) c s = f a c' s' := by rw [bind_run, h]

theorem bind_of_err {σ α β} {m : M σ α} {f : α → M σ β} {c c' : σ} {s s' : Sink} {e : Int}
    (h : m c s = (.err e, c', s')) : (m >>= f) c s = (.err e, c', s') := by rw [bind_run, h]

theorem bind_of_ub {σ α β} {m : M σ α} {f : α → M σ β} {c c' : σ} {s s' : Sink}
    (h : m c s = (.ub, c', s')) : (m >>= f) c s = (.ub, c', s') := by rw [bind_run, h]

theorem get_bind {σ β} (f : σ → M σ β) (c : σ) (s : Sink) : (get >>= f) c s = f c c s := rfl
theorem modify_bind {σ β} (g : σ → σ) (f : Unit → M σ β) (c : σ) (s : Sink) :
    (modify g >>= f) c s = f () (g c) s := rfl

theorem lift_of {σ α} {w : W α} {c : σ} {s s' : Sink} {r : Res α} (h : w s = (r, s')) :
    (lift w : M σ α) c s = (r, c, s') := by unfold lift; rw [h]

end M

end Verif
