import Verif.Spec.LaxF
import Mathlib.Analysis.Calculus.FDeriv.Pi
import Mathlib.Analysis.SpecialFunctions.Sqrt

/-!
# Exact Jacobians
-/

namespace Verif.LaxF.Spec

open Verif Verif.LinAlg Verif.LinAlg.Spec

/-- The matrix `J` is the Jacobian of `F`, a map of vectors of size `n`, at `v`: row by row, the Fréchet
derivative. -/
def HasJacobian (n : Nat) (F : List ℝ → List ℝ) (J : Mat ℝ) (v : Fin n → ℝ) : Prop :=
  J.h = n ∧ J.w = n ∧
  ∀ t : Fin n, HasFDerivAt (fun z : Fin n → ℝ => ve (F (List.ofFn z)) t)
    (∑ s : Fin n, ent J t s • (ContinuousLinearMap.proj s : (Fin n → ℝ) →L[ℝ] ℝ)) v

/-- The matrices `J1`, `J2` are the two blocks of the Jacobian at `v1`, `v2` of `F`, a map of two vectors
of sizes `n1`, `n2` to a vector of size `m`. -/
def HasJacobian2 (m n1 n2 : Nat) (F : List ℝ → List ℝ → List ℝ) (J1 J2 : Mat ℝ) (v1 : Fin n1 → ℝ)
    (v2 : Fin n2 → ℝ) : Prop :=
  J1.h = m ∧ J1.w = n1 ∧ J2.h = m ∧ J2.w = n2 ∧
  ∀ t : Fin m, HasFDerivAt
    (fun z : (Fin n1 → ℝ) × (Fin n2 → ℝ) => ve (F (List.ofFn z.1) (List.ofFn z.2)) t)
    (∑ s : Fin n1, ent J1 t s •
        ((ContinuousLinearMap.proj s : (Fin n1 → ℝ) →L[ℝ] ℝ).comp (ContinuousLinearMap.fst ℝ _ _)) +
     ∑ s : Fin n2, ent J2 t s •
        ((ContinuousLinearMap.proj s : (Fin n2 → ℝ) →L[ℝ] ℝ).comp (ContinuousLinearMap.snd ℝ _ _)))
    (v1, v2)

end Verif.LaxF.Spec
