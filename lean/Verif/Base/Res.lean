/-
Outcome of a modelled C++ routine: a value, an error code, or undefined behaviour.
-/

namespace Verif

/-- Outcome of a modelled routine.  `ub` marks executions on which the C++ code has
undefined behaviour; it is never silently identified with success or failure. -/
inductive Res (α : Type) where
  | ok (a : α)
  | err (code : Int)
  | ub
  deriving DecidableEq, Repr

namespace Res

/-- Sequencing: errors and undefined behaviour end the computation. -/
def bind {α β : Type} : Res α → (α → Res β) → Res β
  | .ok a, f => f a
  | .err c, _ => .err c
  | .ub, _ => .ub

instance : Monad Res where
  pure := .ok
  bind := Res.bind

@[simp] theorem bind_ok {α β} (a : α) (f : α → Res β) : (Res.ok a >>= f) = f a := rfl
@[simp] theorem bind_err {α β} (c : Int) (f : α → Res β) : (Res.err c >>= f) = .err c := rfl
@[simp] theorem bind_ub {α β} (f : α → Res β) : ((Res.ub : Res α) >>= f) = .ub := rfl
@[simp] theorem pure_eq {α} (a : α) : (pure a : Res α) = .ok a := rfl

theorem bind_eq_ok {α β} {x : Res α} {f : α → Res β} {b : β} :
    (x >>= f) = .ok b ↔ ∃ a, x = .ok a ∧ f a = .ok b := by
  cases x <;> simp

/-- Map over the value. -/
def map {α β : Type} (f : α → β) : Res α → Res β
  | .ok a => .ok (f a)
  | .err c => .err c
  | .ub => .ub

/-- `if (p) return c;` -/
def refuse (p : Prop) [Decidable p] (c : Int) : Res Unit := if p then .err c else .ok ()

/-- A failed `assert`: the program aborts, or (with `NDEBUG`) goes on in a state the code was
not written for.  Not identified with any ordinary outcome. -/
def assert (p : Prop) [Decidable p] : Res Unit := if p then .ok () else .ub

/-- Replace every error code by `c`. -/
def orErr {α} (c : Int) : Res α → Res α
  | .ok a => .ok a
  | .err _ => .err c
  | .ub => .ub

theorem refuse_eq_ok {p : Prop} [Decidable p] {c : Int} {u : Unit} :
    refuse p c = .ok u ↔ ¬ p := by
  unfold refuse; split <;> simp_all

theorem assert_eq_ok {p : Prop} [Decidable p] {u : Unit} : assert p = .ok u ↔ p := by
  unfold assert; split <;> simp_all

theorem refuse_pos {p : Prop} [Decidable p] {c : Int} (h : p) : refuse p c = .err c := if_pos h
theorem refuse_neg {p : Prop} [Decidable p] {c : Int} (h : ¬ p) : refuse p c = .ok () := if_neg h
theorem assert_pos {p : Prop} [Decidable p] (h : p) : assert p = .ok () := if_pos h

theorem orErr_eq_ok {α} {x : Res α} {c : Int} {a : α} : x.orErr c = .ok a ↔ x = .ok a := by
  cases x <;> simp [orErr]

@[simp] theorem orErr_ok {α} {c : Int} {a : α} : (Res.ok a).orErr c = .ok a := rfl

def isOk {α} : Res α → Bool
  | .ok _ => true
  | _ => false

end Res

/-- `2^64`, the modulus of `uint64`. -/
def two64 : Nat := 2 ^ 64

/-- `LLONG_MAX`. -/
def llongMax : Nat := 2 ^ 63 - 1

/-- Conversion of a `uint64` to `int64` (two's complement). -/
def toI64 (v : Nat) : Int := if v % 2 ^ 64 < 2 ^ 63 then (v % 2 ^ 64 : Nat) else (v % 2 ^ 64 : Nat) - 2 ^ 64

/-- Conversion of an integer to `int32` (two's complement). -/
def toI32 (v : Int) : Int := (v + 2 ^ 31) % 2 ^ 32 - 2 ^ 31

/-- Conversion of an integer to `uint64`. -/
def toU64 (v : Int) : Nat := (v % 2 ^ 64).toNat

/-- `uint64` subtraction (wraps). -/
def subU64 (a b : Nat) : Nat := toU64 ((a : Int) - b)

end Verif
