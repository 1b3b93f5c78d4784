/-!
Outcome of a modelled C call.

* `ok a`   the call returned normally with result `a`
* `ub`     the call executed undefined behaviour (NULL dereference, access outside
           the allocated storage, read of uninitialised memory, over-wide shift, ...)
* `fatal`  the process ended through `MSTK_Report(..., MSTK_FATAL)` -> `exit(-1)`
           (src/util/MSTK_Report.c:41-43)
* `hang`   the call does not return: a loop went beyond the iteration bound given in the model
           (each use proves that the bound is not reached, or that no bound is enough)
-/
namespace MSTK

inductive Res (α : Type) where
  | ok (a : α)
  | ub
  | fatal
  | hang
  deriving DecidableEq, Repr

namespace Res

@[inline] def bind (x : Res α) (f : α → Res β) : Res β :=
  match x with
  | ok a => f a
  | ub => ub
  | fatal => fatal
  | hang => hang

instance : Monad Res where
  pure := ok
  bind := bind

@[simp] theorem pure_eq (a : α) : (pure a : Res α) = ok a := rfl
@[simp] theorem bind_ok (a : α) (f : α → Res β) : ((ok a : Res α) >>= f) = f a := rfl
@[simp] theorem bind_ub (f : α → Res β) : ((ub : Res α) >>= f) = ub := rfl
@[simp] theorem bind_fatal (f : α → Res β) : ((fatal : Res α) >>= f) = fatal := rfl

@[simp] theorem bind_hang (f : α → Res β) : ((hang : Res α) >>= f) = hang := rfl

theorem bind_eq_ok {x : Res α} {f : α → Res β} {b : β} :
    (x >>= f) = ok b ↔ ∃ a, x = ok a ∧ f a = ok b := by
  cases x <;> simp

/-- `none` (a missing object) becomes undefined behaviour. -/
def ofOption : Option α → Res α
  | some a => ok a
  | none => ub

@[simp] theorem ofOption_some (a : α) : ofOption (some a) = ok a := rfl
@[simp] theorem ofOption_none : ofOption (none : Option α) = ub := rfl

end Res
end MSTK
