import Verif.Spec.Online
import Verif.Spec.FomSolve
import Verif.Spec.Options
import Verif.Model.RomSolve

/-!
# What a linear solve of a ROM should do
-/

namespace Verif.RomSolve.Spec

open Verif Verif.LinAlg Verif.LinAlg.Spec Verif.RomSolve Finset
open Verif.Blocks (BlockVector)
open Verif.RomHandler (Handler)
open Verif.RomHandler.Spec
open Verif.Online.Spec
open Verif.Options (Node Conv key pieces)
open Verif.Options.Spec (At Blocked)

variable {R : Type} [CommRing R]

/-- The option `keys` has the value `v`, given or by default. -/
def Says (c : Conv) (cfg : Node) (keys dflt v : String) : Prop :=
  (∃ n, At cfg (pieces '/' (key keys)) n ∧ c.str n = .ok v) ∨
  (¬ Options.Spec.Exists cfg (pieces '/' (key keys)) ∧ ¬ Blocked cfg (pieces '/' (key keys)) ∧ v = dflt)

/-- The option `model_reduction/linear_solver_type`. -/
def SaysSolver (c : Conv) (cfg : Node) (v : String) : Prop :=
  Says c cfg "model_reduction/linear_solver_type" "cg" v

/-- The option `model_reduction/linear_system_type`. -/
def SaysType (c : Conv) (cfg : Node) (v : String) : Prop :=
  Says c cfg "model_reduction/linear_system_type" "spd" v

/-- The option `model_reduction/preconditioner`. -/
def SaysPrec (c : Conv) (cfg : Node) (v : String) : Prop :=
  Says c cfg "model_reduction/preconditioner" "none" v

/-- The full-order operator couples any two dofs the same both ways. -/
def Symmetric (h : Handler R) (A : Nat → Nat → Nat → Nat → Nat → Nat → R) : Prop :=
  ∀ m m' v w k l, m < h.numSub → m' < h.numSub → v < vars h → w < vars h → k < (V h m v).h → l < (V h m' w).h →
    A m m' v w k l = A m' m w v l k

/-- What is left of the equations tested with basis vector `p` of variable `v` on subdomain `m`: the residual
`b - A u`, tested. -/
def tested (h : Handler R) (A : Nat → Nat → Nat → Nat → Nat → Nat → R) (b u : BlockVector R) (m v p : Nat) : R :=
  ∑ k ∈ range (V h m v).h, ent (V h m v) k p * (bent b (fomBlock h m v) k - apply h A u m v k)

/-- `r` lists the tested residuals of `u`, block by block in the order of the ROM handler. -/
def TestedResidual (h : Handler R) (zr : List Nat) (A : Nat → Nat → Nat → Nat → Nat → Nat → R) (b u : BlockVector R)
    (r : List R) : Prop :=
  r.length = zr.sum ∧ ∀ m v p, m < h.numSub → v < vars h → p < (V h m v).w →
    ve r ((zr.take (romBlock h m v)).sum + p) = tested h A b u m v p

end Verif.RomSolve.Spec
