import Verif.Model.ElastRom
import Verif.Spec.Pipeline

/-!
# Specification: an elasticity problem with one material
-/

namespace Verif.ElastRom.Spec

open Verif Verif.LinAlg Verif.RomAssembly
open Verif.RomHandler.Spec (vars Ready)
open Verif.RomAssembly.Spec (Setting FormsOk BasesOk refB)
open Verif.InterfaceForm (MatArr)
open Verif.InterfaceForm.Spec (sizeIn)
open Verif.CompSetup.Spec (usedPorts)
open Verif.CompSetup (BdrRow PortRow Topo)
open Verif.Ports (InterfaceInfo)
open Verif.Blocks.Spec (HasSizes)
open Verif.RomElems.Spec (LibOk HasBdr)
open Verif.Pipeline (Prob)
open Verif.Boundary (BC BdrType)

variable {R F δ α : Type} [CommRing R]

/-- The forms of a body made of the material `l`, `u` throughout. -/
def uniform (ph : Parts R δ α) (l u : α) : Forms R δ :=
  ⟨ph.comp.map fun g => g l u, ph.sub.map fun g => g l u, { ph.itf with fnfi := [some (ph.integ l u)] },
    ph.cmeshes, ph.ctest, ph.ctrial⟩

/-- Every boundary with a function is a Dirichlet or a Neumann boundary. -/
def Typed (bc : BC F) : Prop :=
  ∀ (b : Nat) (f : F), bc.coeffs[b]? = some (some f) → bc.types[b]? = some BdrType.dirichlet ∨ bc.types[b]? = some BdrType.neumann

/-- An elasticity problem on a component-wise topology with discontinuous elements, after its solver was given a
problem with material `l`, `u`; `M` is its full-order matrix. -/
structure Elastic (P : Prob R F) (ph : Parts R δ α) (l u : α) (refItfs : List (List InterfaceInfo))
    (zf : List Nat) (M : MatArr R) : Prop where
  lib : P.submesh = false ∧ LibOk P.lib ∧ HasBdr P.lib
  one : vars P.h = 1
  bases : BasesOk P.h P.comps.length
  sizes : ∀ c, c < P.comps.length → (refB P.h c 0).h = sizeIn ph.ctest c ∧
    (refB P.h c 0).h = sizeIn ph.ctrial c
  typed : Typed P.bc
  setting : ∃ (bdr : List BdrRow) (ports : List PortRow) (t : Topo) (mks : List (List Int))
      (zr : List Nat) (mat : Material α), Setting P.h P.comps bdr ports P.refPorts refItfs t P.bc mks ∧
    Ready P.h zr zf ∧
    FormsOk (uniform ph l u) P.h.meshType P.comps (usedPorts ports P.refPorts) t.infos P.refPorts refItfs ∧
    P.c2g = t.c2g ∧ P.rows = usedPorts ports P.refPorts ∧
    setProblem P.h.numSub [l, u] = .ok mat ∧
    P.locals = ElastRom.locals ph mat P.comps P.refPorts refItfs ∧
    P.fom = ElastRom.fom true ph mat P.bc mks t.mesh ∧ ElastRom.mats true ph mat P.bc mks t.mesh = .ok M
  rhs : HasSizes (Online.view P.h P.varOffs P.domOffs P.rhs) zf
  U : HasSizes (Online.view P.h P.varOffs P.domOffs P.U) zf

end Verif.ElastRom.Spec
