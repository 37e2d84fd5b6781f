import Verif.Model.PreItf
import Verif.Model.LaxF

/-!
# Coefficients of the Lax-Friedrichs flux at interface samples

`InterfaceDGLaxFriedrichsFluxIntegrator` as an integrator of an interface form, for the evaluation of
vectors.
-/

namespace Verif.PreItf

open Verif Verif.LinAlg Verif.LaxF
open Verif.InterfaceForm (Tr)
open Verif.EqpItf (Integ)

variable {R δ : Type} [Field R] [LinearOrder R]

/-- The routines of the flux for vectors, src/interfaceinteg.cpp:1983-2012 and :2073-2129, on the point
data `pt` of a pair of transformations.  A fast call updates both sides; the part of the side that is
asked for is returned.  Matrices are left out: they are not used when a vector is evaluated. -/
def laxInteg (sqrt : R → R) (nq : Nat) (pt : Tr δ → Tr δ → Nat → FPt R) : Integ (Pre2 R) R δ where
  rule := some nq
  vec t1 t2 q w u1 u2 i :=
    if i = 0 then (itfQuadVec sqrt (pt t1 t2 q) w u1 u2).1 else (itfQuadVec sqrt (pt t1 t2 q) w u1 u2).2
  grad t1 t2 _ _ q w u1 u2 i j :=
    let n := fun i => (if i = 0 then (itfQuadVec sqrt (pt t1 t2 q) w u1 u2).1
      else (itfQuadVec sqrt (pt t1 t2 q) w u1 u2).2).length
    ⟨n i, n j, List.replicate (n i * n j) 0⟩
  fastVec c t1 t2 q w x1 x2 i y := do
    let c ← deref c
    let z ← itfFastVec sqrt (pt t1 t2 q) c w x1 x2 (if i = 0 then y else List.replicate x1.length 0)
      (if i = 0 then List.replicate x2.length 0 else y)
    return if i = 0 then z.1 else z.2
  fastGrad _ _ _ _ _ _ _ _ _ m := .ok m

/-- `ROMInterfaceForm::PrecomputeEQPSample`, src/rom_interfaceform.cpp:826-889, on the point data of the
component face. -/
def laxPre (pt : Tr δ → Tr δ → Nat → FPt R) : Pre (Pre2 R) R δ :=
  fun _ b1 d1 b2 d2 u1 u2 q => precomputeItf (pt u1 u2 q) b1 b2 d1 d2

end Verif.PreItf
