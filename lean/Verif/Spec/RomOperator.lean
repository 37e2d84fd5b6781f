import Verif.Model.RomOperator

/-! # Specification vocabulary for the ownership of the ROM operator -/

namespace Verif.RomOperator.Spec

open Verif.RomOperator

variable {α : Type}

/-- Operators used or written by a history, if the present operator is `a`: always the operator given
last. -/
def expected (a : α) : List (Call α) → List (Option α)
  | [] => []
  | .project b :: cs => expected b cs
  | .set b _ :: cs => expected b cs
  | .load b :: cs => expected b cs
  | .solve _ :: cs => some a :: expected a cs
  | .nonlinear :: cs => expected a cs
  | .saveSystem _ :: cs => some a :: expected a cs
  | .saveOperator :: cs => some a :: expected a cs

/-- The call leaves a monolithic copy of the operator behind. -/
def Copies : Call α → Prop
  | .project _ => True
  | .set _ _ => True
  | .load _ => True
  | .saveSystem _ => True
  | _ => False

/-- No operator is loaded from a file once the handler holds a monolithic copy. -/
def LoadsFirst (cs : List (Call α)) : Prop :=
  ∀ pre a post, cs = pre ++ .load a :: post → ∀ c ∈ pre, ¬ Copies c

/-- The call may leave the direct solver with another operator: a nonlinear solve, or setting the
operator without initialising the direct solver. -/
def Detaches : Call α → Prop
  | .nonlinear => True
  | .set _ init => init = false
  | _ => False

end Verif.RomOperator.Spec
