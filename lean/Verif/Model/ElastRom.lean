import Verif.Model.Pipeline

/-!
# Elasticity: the material in the operators and in the ROM

Models where `LinElastSolver` takes the coefficients of its material from (`src/linelast_solver.cpp:198-216,
235-262, 420-441, 443-464, 488-585`): the full-order operator, the reduced elements of components, their boundaries
and reference ports.  The quadrature (MFEM and `InterfaceDGElasticityIntegrator`) is external: a form is a function
of the two coefficients.  Assembling the ROM and the files are those of `Verif.Model.RomAssembly` and
`Verif.Model.Pipeline`.
-/

namespace Verif.ElastRom

open Verif Verif.LinAlg Verif.RomAssembly Verif.Topology
open Verif.InterfaceForm (Form MatArr Space FMesh Integ assembleAtPort)
open Verif.Ports (InterfaceInfo PortData)
open Verif.Boundary (BC lhsElast)
open Verif.CompSetup (Comp)

variable {R δ F α : Type}

/-- `lambda_c`, `mu_c` (include/linelast_solver.hpp:43-44): one coefficient per subdomain; null is `none`. -/
structure Material (α : Type) where
  lam : List (Option α)
  mu : List (Option α)

/-- The materials in `SetParameterizedProblem`, src/linelast_solver.cpp:448-464; `scalars` is
`problem->general_scalar_ptr`. -/
def setProblem (numSub : Nat) (scalars : List α) : Outcome (Material α) :=
  loop numSub (fun i m => do
    let l ← rd scalars 0
    let lam ← wr m.lam i (some l)
    let u ← rd scalars 1
    let mu ← wr m.mu i (some u)
    return ⟨lam, mu⟩) ⟨List.replicate numSub none, List.replicate numSub none⟩

/-- `*(lambda_c[i])`, `*(mu_c[i])`. -/
def Material.at_ (m : Material α) (i : Nat) : Outcome (α × α) := do
  let l ← rd m.lam i
  let l ← deref l
  let u ← rd m.mu i
  let u ← deref u
  return (l, u)

/-- What the solver integrates, as functions of the two coefficients: on components, on subdomains and on
interfaces; and the meshes and spaces (the integrators of `itf` are not used). -/
structure Parts (R δ α : Type) where
  comp : List (α → α → BForm R)
  sub : List (α → α → BForm R)
  integ : α → α → Integ R δ
  itf : Form R δ
  cmeshes : List (FMesh δ)
  ctest : List Space
  ctrial : List Space

/-- `BuildDomainOperators`, src/linelast_solver.cpp:198-216: the forms of the subdomains. -/
def subForms (ph : Parts R δ α) (mat : Material α) : Outcome (List (BForm R)) :=
  loop ph.sub.length (fun m acc => do
    let x ← mat.at_ m
    let g ← rd ph.sub m
    return acc ++ [g x.1 x.2]) []

/-- `a_itf`, src/linelast_solver.cpp:214-215: the interface integrator has the material of subdomain 0. -/
def itfForm (ph : Parts R δ α) (mat : Material α) : Outcome (Form R δ) := do
  let x ← mat.at_ 0
  return { ph.itf with fnfi := [some (ph.integ x.1 x.2)] }

section
variable [CommRing R]

/-- The form of one subdomain after `SetupDomainBCOperators` (src/linelast_solver.cpp:420-441) and `Assemble`
(src/linelast_solver.cpp:239-243). -/
def domainMatrix (fullDg : Bool) (bc : BC F) (mks : List (List Int)) (e : List Int × List Int) (f : BForm R) :
    Outcome (Sp R) := do
  let act ← lhsElast fullDg bc e.2
  let ms ← pickMarkers act mks
  assembleBdr e.2 e.1 ms f.bel f.base

/-- One subdomain of the assembly loop. -/
def domainStep (fullDg : Bool) (bc : BC F) (mks : List (List Int)) (mesh : List (List Int × List Int))
    (forms : List (BForm R)) (m : Nat) (acc : List (Sp R)) : Outcome (List (Sp R)) := do
  let e ← rd mesh m
  let f ← rd forms m
  let s ← domainMatrix fullDg bc mks e f
  return acc ++ [s]

/-- `mats` in `AssembleOperator`, src/linelast_solver.cpp:235-261. -/
def mats (fullDg : Bool) (ph : Parts R δ α) (mat : Material α) (bc : BC F) (mks : List (List Int))
    (mesh : List (List Int × List Int)) : Outcome (MatArr R) := do
  let forms ← subForms ph mat
  let itf ← itfForm ph mat
  let ds ← loop forms.length (domainStep fullDg bc mks mesh forms) []
  itf.assemble ⟨forms.length, forms.length, fun i j => if i = j then ds[i]? else
    some ⟨(itf.test[i]?.getD ⟨0, []⟩).vsize, (itf.trial[j]?.getD ⟨0, []⟩).vsize, []⟩⟩

/-- `ProjectOperatorOnReducedBasis`, src/linelast_solver.cpp:488-496: the operators projected. -/
def fom (fullDg : Bool) (ph : Parts R δ α) (mat : Material α) (bc : BC F) (mks : List (List Int))
    (mesh : List (List Int × List Int)) : Outcome (Nat → Nat → Outcome (Local R)) := do
  let a ← mats fullDg ph mat bc mks mesh
  return poissonFom a

/-- The ROM elements, src/linelast_solver.cpp:498-585: component `c` and its boundaries use the coefficients of
*subdomain* `c`, reference ports those of subdomain 0. -/
def locals (ph : Parts R δ α) (mat : Material α) (comps : List Comp) (refPorts : List PortData)
    (refItfs : List (List InterfaceInfo)) : LocalOf R where
  comp c := do
    let x ← mat.at_ c
    let g ← rd ph.comp c
    return oneLocal (spOp (g x.1 x.2).base)
  bdr c b := do
    let comp ← rd comps c
    let x ← mat.at_ c
    let g ← rd ph.comp c
    let s ← compBdrMatrix comp (g x.1 x.2) b
    return oneLocal (spOp s)
  port p := do
    let f ← itfForm ph mat
    let q ← rd refPorts p
    let infos ← rd refItfs p
    let a ← assembleAtPort ph.cmeshes ph.ctest ph.ctrial f.fnfi q.comp1 q.comp2 infos
    pairs (poissonPair a)

end

end Verif.ElastRom
