/-
  Outcome of a modelled C++ call.

  `ok a`   normal return with result/new state `a`
  `throw`  a C++ exception leaves the call
  `ub`     the call has undefined behaviour (out-of-range access, null
           dereference, past-the-end iterator, division of integers by zero, ...)
  `fuel`   a modelled `while` loop did not finish within its iteration budget
           (only used to state termination; the budget is part of the model and
           theorems show that this outcome does not occur, or that it does)
-/
set_option autoImplicit false

namespace Geom

universe u v

inductive Res (α : Type u) where
  | ok (a : α)
  | throw
  | ub
  | fuel
  deriving Repr, DecidableEq

namespace Res

variable {α : Type u} {β : Type v}

/-- Sequencing: an abnormal outcome of the first call is the outcome of both. -/
def bind (r : Res α) (f : α → Res β) : Res β :=
  match r with
  | ok a => f a
  | throw => throw
  | ub => ub
  | fuel => fuel

instance : Monad Res where
  pure := ok
  bind := bind

@[simp] theorem bind_ok (a : α) (f : α → Res β) : (Res.ok a).bind f = f a := rfl
@[simp] theorem bind_throw (f : α → Res β) : (Res.throw : Res α).bind f = throw := rfl
@[simp] theorem bind_ub (f : α → Res β) : (Res.ub : Res α).bind f = ub := rfl
@[simp] theorem bind_fuel (f : α → Res β) : (Res.fuel : Res α).bind f = fuel := rfl

@[simp] theorem bind_eq_bind {α β : Type u} (r : Res α) (f : α → Res β) :
    (r >>= f) = r.bind f := rfl
@[simp] theorem pure_eq_ok {α : Type u} (a : α) : (pure a : Res α) = ok a := rfl

theorem bind_assoc {γ : Type u} (r : Res α) (f : α → Res β) (g : β → Res γ) :
    (r.bind f).bind g = r.bind (fun a => (f a).bind g) := by cases r <;> rfl

@[simp] theorem bind_pure (r : Res α) : r.bind Res.ok = r := by cases r <;> rfl

theorem bind_eq_ok {r : Res α} {f : α → Res β} {b : β} :
    r.bind f = ok b ↔ ∃ a, r = ok a ∧ f a = ok b := by
  cases r <;> simp [bind]

/-- Map the result of a normal return. -/
def map (f : α → β) (r : Res α) : Res β := r.bind (fun a => ok (f a))

end Res

/-- `while (cond) body` with an iteration budget. -/
def whileFuel {σ : Type u} (cond : σ → Prop) [DecidablePred cond] (body : σ → Res σ) :
    Nat → σ → Res σ
  | 0, s => if cond s then .fuel else .ok s
  | n + 1, s => if cond s then (body s).bind (whileFuel cond body n) else .ok s

/-- `n`-fold execution of `body`. -/
def iterRes {σ : Type u} (body : σ → Res σ) : Nat → σ → Res σ
  | 0, s => .ok s
  | n + 1, s => (body s).bind (iterRes body n)

end Geom
