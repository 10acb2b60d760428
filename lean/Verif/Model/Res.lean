/-! Result of a modelled function: normal value, C++ exception, or undefined behaviour. -/
namespace Shamrock

inductive Res (α : Type) where
  /-- normal return -/
  | ok (a : α)
  /-- a C++ exception is thrown -/
  | throws
  /-- undefined behaviour (out of bounds access, …) -/
  | ub
  deriving DecidableEq, Repr

def Res.bind {α β : Type} (x : Res α) (f : α → Res β) : Res β :=
  match x with
  | .ok a => f a
  | .throws => .throws
  | .ub => .ub

instance : Monad Res where
  pure := Res.ok
  bind := Res.bind

/-- A memory operation without exceptions. -/
def Res.ofOpt {α : Type} : Option α → Res α
  | some a => .ok a
  | none => .ub

@[simp] theorem Res.ok_bind {α β : Type} (a : α) (f : α → Res β) : (Res.ok a >>= f) = f a := rfl
@[simp] theorem Res.throws_bind {α β : Type} (f : α → Res β) : ((Res.throws : Res α) >>= f) = Res.throws := rfl
@[simp] theorem Res.ub_bind {α β : Type} (f : α → Res β) : ((Res.ub : Res α) >>= f) = Res.ub := rfl
@[simp] theorem Res.pure_eq {α : Type} (a : α) : (pure a : Res α) = Res.ok a := rfl
@[simp] theorem Res.ofOpt_some {α : Type} (a : α) : Res.ofOpt (some a) = Res.ok a := rfl
@[simp] theorem Res.ofOpt_none {α : Type} : Res.ofOpt (none : Option α) = Res.ub := rfl

instance : LawfulMonad Res := LawfulMonad.mk'
  (id_map := by intro α x; cases x <;> rfl)
  (pure_bind := by intros; rfl)
  (bind_assoc := by intro α β γ x f g; cases x <;> rfl)

end Shamrock
