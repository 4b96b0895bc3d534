import Verif.Attr

/-! # Outcomes

A call of a C++ function either completes (`Except.ok`), or stops in one of the ways below.  Undefined behaviour is thereby a visible
outcome of the model instead of being assumed away. -/

namespace NavFuse

/-- Kinds of undefined behaviour (or, in builds with assertions, of aborts) that the modelled code can run into. -/
inductive UB
  /-- array, `std::vector` or Eigen coefficient access outside the bounds -/
  | index
  /-- Eigen operation on operands of incompatible size (`eigen_assert`) -/
  | dims
  /-- use of an indeterminate (never initialised) value -/
  | uninit
  /-- signed integer overflow, or a floating value converted to an integer type that cannot represent it -/
  | overflow
  deriving DecidableEq, Repr

/-- How a call can fail to complete. -/
inductive Stop
  | ub (why : UB)
  /-- an exception leaves the function (`std::stod`) -/
  | throws
  deriving DecidableEq, Repr

/-- The outcome of a call: the returned value together with the new values of everything it may modify, or the way it stopped. -/
abbrev Out (β : Type) := Except Stop β

/-- undefined behaviour of the given kind -/
abbrev Out.ub {β : Type} (w : UB) : Out β := .error (.ub w)

@[osimp] theorem Out.ok_bind {β γ : Type} (b : β) (f : β → Out γ) : ((Except.ok b : Out β) >>= f) = f b := rfl
@[osimp] theorem Out.error_bind {β γ : Type} (e : Stop) (f : β → Out γ) : ((Except.error e : Out β) >>= f) = .error e := rfl
@[osimp] theorem Out.pure_eq {β : Type} (b : β) : (pure b : Out β) = .ok b := rfl

/-- `Out.Ok o P`: the call completes and its result satisfies `P`. -/
def Out.Ok {β : Type} (o : Out β) (P : β → Prop) : Prop := ∃ b, o = .ok b ∧ P b

end NavFuse
