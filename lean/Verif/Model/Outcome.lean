/-
Outcomes of modelled C++ code that are not ordinary return values.
-/
namespace RgbdSlam

/-- How a modelled call ends.  `exit` is `exit(-1)`, `terminate` an exception leaving a `noexcept`
function or a failing `assert`, `ub` undefined behaviour (out of bounds access, division by zero on
integers, ...), `throws` a C++ exception that the caller can catch.  `outOfFuel` is not an outcome of
the program: loops that the code does not bound are modelled with a step budget, and it says that the
budget was too small.  A program that never returns is one for which every budget is too small. -/
inductive Outcome (α : Type _) where
  | ok (a : α)
  | throws
  | exit
  | terminate
  | ub
  | outOfFuel
  deriving Repr, DecidableEq

namespace Outcome

def bind {α β : Type _} (x : Outcome α) (f : α → Outcome β) : Outcome β :=
  match x with
  | ok a => f a
  | throws => throws
  | exit => exit
  | terminate => terminate
  | ub => ub
  | outOfFuel => outOfFuel

def map {α β : Type _} (f : α → β) (x : Outcome α) : Outcome β := x.bind (fun a => ok (f a))

/-- A call of a `noexcept` function: an exception ends the program. -/
def noexcept {α : Type _} : Outcome α → Outcome α
  | throws => terminate
  | x => x

theorem noexcept_eq_ok {α : Type _} {x : Outcome α} {a : α} : x.noexcept = ok a ↔ x = ok a := by
  cases x <;> simp [noexcept]

@[simp] theorem bind_ok {α β : Type _} (a : α) (f : α → Outcome β) : (ok a).bind f = f a := rfl

theorem bind_eq_ok {α β : Type _} {x : Outcome α} {f : α → Outcome β} {b : β}
    (h : x.bind f = ok b) : ∃ a, x = ok a ∧ f a = ok b := by
  cases x <;> simp_all [bind]

theorem bind_eq_ok_iff {α β : Type _} {x : Outcome α} {f : α → Outcome β} {b : β} :
    x.bind f = ok b ↔ ∃ a, x = ok a ∧ f a = ok b := by
  cases x <;> simp [bind]

/-- `x` returns a value with property `p` (used in examples). -/
def holds {α : Type _} (x : Outcome α) (p : α → Bool) : Bool :=
  match x with
  | ok a => p a
  | _ => false

end Outcome
end RgbdSlam
