/-!
Outcomes of a C++ function in the model.
-/
namespace Ecad

/-- Outcome of running a piece of C++: a normal return value, undefined behaviour, or an
exception.  (Not taken from the code: this is the vocabulary in which partiality of the
modelled code is made visible.) -/
inductive Res (α : Type _) where
  | ok (a : α)
  | ub
  | exn
  deriving Repr, DecidableEq

namespace Res

/-- Sequencing: undefined behaviour and exceptions end the computation. -/
def bind {α β : Type _} : Res α → (α → Res β) → Res β
  | ok a, f => f a
  | ub, _ => ub
  | exn, _ => exn

instance : Monad Res where
  pure := ok
  bind := bind

@[simp] theorem bind_ok {α β : Type _} (a : α) (f : α → Res β) : bind (ok a) f = f a := rfl
@[simp] theorem bind_ub {α β : Type _} (f : α → Res β) : bind ub f = ub := rfl
@[simp] theorem bind_exn {α β : Type _} (f : α → Res β) : bind exn f = exn := rfl

/-- `vector[i]` without check: reading outside is undefined behaviour. -/
def index {α : Type _} (l : List α) (i : Nat) : Res α :=
  match l[i]? with
  | some a => ok a
  | none => ub

/-- `vector.at(i)`: reading outside throws. -/
def at_ {α : Type _} (l : List α) (i : Nat) : Res α :=
  match l[i]? with
  | some a => ok a
  | none => exn

end Res
end Ecad
