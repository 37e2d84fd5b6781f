import Verif.Model.Divide

/-!
# The equations on a divided mesh

The right-hand side that the solvers assemble on the subdomains of a divided mesh, next to the operator.
-/

namespace Verif.Divide

open Verif Verif.LinAlg
open Verif.SubMesh (Parent Sub buildSubMeshes2D)
open Verif.RomAssembly (bdrMarkers pickMarkers unionMarker maxOr)
open Verif.InterfaceForm (MatArr Space Integ)
open Verif.Boundary (BC rhsBC)

variable {R δ F : Type}

/-- What a boundary integrator of a linear form delivers on a boundary element: the degrees of freedom of
the adjacent element, and the element vector for a boundary function. -/
structure BLoad (R F : Type) where
  rows : List Int
  vec : F → List R

/-- A `LinearForm` on a subdomain: its space, the element vectors of its domain integrators, and for every
boundary element the boundary integrator (`none` if `GetBdrFaceTransformations` returns null).  The
boundary integrators of a form are of the same kind and differ in boundary function and marker
(src/poisson_solver.cpp:229, src/stokes_solver.cpp:331-338).  All of it comes from MFEM and dg_linear.cpp. -/
structure LView (R F : Type) where
  space : Space
  dom : List (Nat → List R)
  bel : List (Option (BLoad R F))

section
variable [CommRing R]

/-- One element of `LinearForm::Assemble` (MFEM, external), called at src/poisson_solver.cpp:271 and
src/stokes_solver.cpp:385-386. -/
def loadElem (L : LView R F) (i : Nat) (y : List R) : Outcome (List R) := do
  let d ← rd L.space.vdofs i
  loop L.dom.length (fun r y => do
    let g ← rd L.dom r
    addElementVector y 0 d (g i)) y

/-- The domain part of `LinearForm::Assemble` (MFEM, external). -/
def loadElems (L : LView R F) (y : List R) : Outcome (List R) :=
  loop L.space.vdofs.length (loadElem L) y

/-- The loop over boundary integrators on one boundary element (MFEM, external). -/
def loadMarked (act : List (Nat × F)) (ms : List (List Int)) (a : Int) (b : BLoad R F) (y : List R) :
    Outcome (List R) :=
  loop act.length (fun k y => do
    let mk ← rd ms k
    let x ← rdI mk (a - 1)
    if x = 0 then .ok y else do
      let c ← rd act k
      addElementVector y 0 b.rows (b.vec c.2)) y

/-- One boundary element of `LinearForm::Assemble` (MFEM, external). -/
def loadBdrElem (act : List (Nat × F)) (ms : List (List Int)) (u : List Bool) (attrs : List Int)
    (bel : List (Option (BLoad R F))) (i : Nat) (y : List R) : Outcome (List R) := do
  let a ← rd attrs i
  let x ← rdI u (a - 1)
  let b ← rd bel i
  if x then
    match b with
    | none => .ok y
    | some b => loadMarked act ms a b y
  else .ok y

/-- The boundary part of `LinearForm::Assemble` (MFEM, external; the same loop as
src/dg_mixed_bilin.cpp:103-160). -/
def loadBdr (attrList attrs : List Int) (act : List (Nat × F)) (ms : List (List Int))
    (bel : List (Option (BLoad R F))) (y : List R) : Outcome (List R) :=
  if ms.length = 0 then .ok y else do
    let u ← unionMarker (maxOr attrList).toNat ms
    loop attrs.length (loadBdrElem act ms u attrs bel) y

/-- The right-hand side of one subdomain: `BuildRHSOperators` (src/poisson_solver.cpp:162-177,
src/stokes_solver.cpp:225-245), `SetupRHSBCOperators` (src/poisson_solver.cpp:212-232,
src/stokes_solver.cpp:311-342) and `AssembleRHS` (src/poisson_solver.cpp:262-277,
src/stokes_solver.cpp:376-393). -/
def load (bc : BC F) (mks : List (List Int)) (e : List Int × List Int) (L : LView R F) :
    Outcome (List R) := do
  let y ← loadElems L (List.replicate L.space.vsize 0)
  let act ← rhsBC bc e.2
  let ms ← pickMarkers (act.map fun c => (c.1, ())) mks
  loadBdr e.2 e.1 act ms L.bel y

/-- The blocks of the right-hand side. -/
def loads (bc : BC F) (mks : List (List Int)) (mesh : List (List Int × List Int))
    (Ls : List (LView R F)) : Outcome (List (List R)) :=
  loop Ls.length (fun k acc => do
    let e ← rd mesh k
    let L ← rd Ls k
    let y ← load bc mks e L
    return acc ++ [y]) []

/-- From the parent mesh to the right-hand side. -/
def rhs (bc : BC F) (pm : Parent) (subs : List Sub) (Ls : List (LView R F)) :
    Outcome (List (List R)) := do
  let (st, _) ← buildSubMeshes2D pm subs
  let mesh ← attributes subs.length st
  let mks ← bdrMarkers bc.attrs mesh
  loads bc mks mesh Ls

/-- `PoissonSolver::Assemble`, src/poisson_solver.cpp:256-260: right-hand side and operator of the
equations. -/
def equations (bc : BC F) (pm : Parent) (subs : List Sub) (views : List (View R δ))
    (ints : List (ITr δ → Mat R)) (fnfi : List (Option (Integ R δ))) (Ls : List (LView R F)) :
    Outcome (List (List R) × MatArr R) := do
  let f ← rhs bc pm subs Ls
  let M ← operator false bc pm subs views ints fnfi
  return (f, M)

/-- `StokesSolver::Assemble`, src/stokes_solver.cpp:370-374: both right-hand sides, the viscous operator
and the divergence. -/
def stokesEquations (bc : BC F) (pm : Parent) (subs : List Sub) (views views' : List (View R δ))
    (ints ints' : List (ITr δ → Mat R)) (fnfi fnfi' : List (Option (Integ R δ)))
    (Ls Ls' : List (LView R F)) : Outcome ((List (List R) × List (List R)) × (MatArr R × MatArr R)) := do
  let f ← rhs bc pm subs Ls
  let g ← rhs bc pm subs Ls'
  let M ← operator false bc pm subs views ints fnfi
  let B ← operator true bc pm subs views' ints' fnfi'
  return ((f, g), (M, B))

end

end Verif.Divide
