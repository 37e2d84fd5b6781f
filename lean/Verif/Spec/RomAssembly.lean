import Verif.Model.RomAssembly
import Verif.Spec.InterfaceForm
import Verif.Props.CompSetup
import Verif.Props.InterfaceForm
import Verif.Spec.Boundary

/-! # Specification vocabulary for the assembly of ROM operators -/

namespace Verif.RomAssembly.Spec

open Verif Verif.LinAlg Verif.LinAlg.Spec Verif.RomAssembly
open Verif.RomHandler (Handler)
open Verif.RomHandler.Spec (vars romBlock)
open Verif.InterfaceForm (side)

variable {R : Type} [CommRing R]

/-! ## Operators and their projection -/

/-- Entry `(r, c)` of a linear operator: component `r` of the image of the unit vector `c`. -/
def opEnt (a : Op R) (r c : Nat) : R :=
  ve (a.mult ((List.range a.w).map fun k => if k = c then 1 else 0)) r

/-- The operator is given by its entries. -/
structure IsLinear (a : Op R) : Prop where
  size : OpOk a
  lin : ∀ (x : List R) (r : Nat), x.length = a.w →
    ve (a.mult x) r = ∑ c ∈ Finset.range a.w, opEnt a r c * ve x c

/-- Entry of a local system; null operators are zero. -/
def lent (l : Local R) (v w r c : Nat) : R :=
  match l v w with
  | none => 0
  | some a => opEnt a r c

/-- Entry `(p, q)` of the Galerkin projection `Vᵀ A W`. -/
def galerkin (V W : Mat R) (A : Nat → Nat → R) (p q : Nat) : R :=
  ∑ k ∈ Finset.range V.h, ∑ l ∈ Finset.range W.h, ent V k p * A k l * ent W l q

/-- The basis of variable `v` on component `c`. -/
def refB (h : Handler R) (c v : Nat) : Mat R := (h.refBasis[c * vars h + v]?).getD ⟨0, 0, []⟩

/-- The bases of `nc` components are loaded. -/
structure BasesOk (h : Handler R) (nc : Nat) : Prop where
  loaded : h.loaded = true
  count : h.refBasis.length = nc * vars h
  mats : ∀ b ∈ h.refBasis, MatOk b
  types : ∀ c ∈ h.meshType, c < nc

/-- The operators of a local system are linear and act between the full-order spaces of the
variables of components `c1` and `c2`. -/
def LocalOk (h : Handler R) (c1 c2 : Nat) (l : Local R) : Prop :=
  ∀ v w a, v < vars h → w < vars h → l v w = some a →
    IsLinear a ∧ a.h = (refB h c1 v).h ∧ a.w = (refB h c2 w).h

/-! ## Forms on copies of components -/

/-- Global boundary attribute `g` carries a weakly imposed condition: a function is assigned and it
is not a Neumann boundary. -/
def Weak {F : Type} (bc : Boundary.BC F) (g : Int) : Prop :=
  ∃ (k : Nat) (f : F), bc.attrs[k]? = some g ∧ bc.coeffs[k]? = some (some f) ∧
    bc.types[k]? ≠ some .neumann

/-- Contribution of boundary element `be` to entry `(r, c)`. -/
def faceVal (f : BForm R) (be r c : Nat) : R :=
  match f.bel[be]? with
  | some (some x) => InterfaceForm.Spec.scatter x.rows x.cols x.mat r c
  | _ => 0

/-- A form with one face matrix per boundary element, whose degrees of freedom lie in its matrix. -/
structure BFormOk (f : BForm R) (n : Nat) : Prop where
  count : f.bel.length = n
  face : ∀ x, some x ∈ f.bel → MatOk x.mat ∧ x.mat.h = x.rows.length ∧ x.mat.w = x.cols.length ∧
    (∀ d ∈ x.rows, InterfaceForm.Spec.dofPos d < f.base.h) ∧
    ∀ d ∈ x.cols, InterfaceForm.Spec.dofPos d < f.base.w

open Verif.InterfaceForm.Spec (Sides sidesOf SidesOk IntegsOk FormOk sizeIn)
open Verif.InterfaceForm (Integ FMesh Space Port)
open Verif.Ports (PortData InterfaceInfo)
open Verif.CompSetup (Comp PortRow Topo BdrRow)
open Verif.CompSetup.Spec (usedPorts)

variable {δ F : Type}

/-- A problem on a component-wise topology: the topology was accepted, boundary conditions are set for
its global boundary attributes, and the boundary markers were built. -/
structure Setting (h : Handler R) (comps : List Comp) (bdr : List BdrRow) (ports : List PortRow)
    (refPorts : List PortData) (refItfs : List (List InterfaceInfo)) (t : Topo)
    (bc : Boundary.BC F) (mks : List (List Int)) : Prop where
  topo : CompSetup.setup comps (h.meshType.map Int.ofNat) bdr ports refPorts refItfs = .ok t
  bcs : Boundary.Wf bc ∧ bc.attrs = t.battrs
  marks : bdrMarkers t.battrs t.mesh = .ok mks
  comps : ∀ comp ∈ comps, Topology.Spec.AttributeList comp.beAttr comp.bdrAttributes ∧
    ∀ a ∈ comp.bdrAttributes, 0 < a
  itfs : refItfs.length = refPorts.length

/-- The same face seen from a port and from its reference port: the adjacent elements have the same
numbers and the integrators give the same element matrices. -/
def SameFace (fnfi : List (Option (Integ R δ))) (s s' : Sides δ) (i : InterfaceInfo) : Prop :=
  match s.face i, s'.face i with
  | none, none => True
  | some (t1, t2), some (u1, u2) => t1.elem = u1.elem ∧ t2.elem = u2.elem ∧
      ∀ g, some g ∈ fnfi → g.mat t1 t2 = g.mat u1 u2
  | _, _ => False

/-- Subdomains are copies of components: they have the same spaces and the same forms, and faces of
ports look like the faces of their reference port.  All degrees of freedom lie in their spaces. -/
structure FormsOk (f : Forms R δ) (types : List Nat) (comps : List Comp) (rows : List PortRow)
    (infos : List (List InterfaceInfo)) (refPorts : List PortData)
    (refItfs : List (List InterfaceInfo)) : Prop where
  forms : f.sub.length = types.length
  copy : ∀ (m c : Nat), types[m]? = some c → f.sub[m]? = f.comp[c]? ∧
    f.itf.test[m]? = f.ctest[c]? ∧ f.itf.trial[m]? = f.ctrial[c]?
  counts : f.comp.length = comps.length ∧ f.cmeshes.length = comps.length ∧
    f.ctest.length = comps.length ∧ f.ctrial.length = comps.length
  comp : ∀ (c : Nat) (comp : Comp) (b : BForm R), comps[c]? = some comp → f.comp[c]? = some b →
    BFormOk b comp.beAttr.length ∧ b.base.h = sizeIn f.ctest c ∧ b.base.w = sizeIn f.ctrial c
  itf : f.itf.meshes.length = types.length ∧ FormOk f.itf ∧
    ∀ p ∈ f.itf.ports, IntegsOk (sidesOf f.itf p) p.infos f.itf.fnfi (fun g => g.mat)
  ports : f.itf.ports = List.zipWith (fun r i => ⟨r.mesh1.toNat, r.mesh2.toNat, i⟩) rows infos
  refs : ∀ (k : Nat) (q : PortData) (i : List InterfaceInfo), refPorts[k]? = some q →
    refItfs[k]? = some i → q.comp1 < comps.length ∧ q.comp2 < comps.length ∧
      SidesOk (InterfaceForm.refSides f.cmeshes f.ctest f.ctrial q.comp1 q.comp2) i ∧
      IntegsOk (InterfaceForm.refSides f.cmeshes f.ctest f.ctrial q.comp1 q.comp2) i f.itf.fnfi
        (fun g => g.mat)
  faces : ∀ r ∈ rows, ∀ (q : PortData) (is : List InterfaceInfo),
    refPorts[r.type.toNat]? = some q → refItfs[r.type.toNat]? = some is → ∀ i ∈ is,
    SameFace f.itf.fnfi (sidesOf f.itf ⟨r.mesh1.toNat, r.mesh2.toNat, is⟩)
      (InterfaceForm.refSides f.cmeshes f.ctest f.ctrial q.comp1 q.comp2) i

/-! ## The saddle-point system of Stokes flow -/

open Verif.InterfaceForm (MatArr)
open Verif.InterfaceForm.Spec (mget)

/-- Entry `(k, l)` of `[M Bᵀ; B 0]` between variable `v` of subdomain `m` and variable `w` of
subdomain `m'`; variable 0 is velocity, 1 is pressure. -/
def saddle (M B : MatArr R) (m m' v w k l : Nat) : R :=
  if v = 0 ∧ w = 0 then mget M m m' k l
  else if v = 1 ∧ w = 0 then mget B m m' k l
  else if v = 0 ∧ w = 1 then mget B m' m l k
  else 0

/-- The variable, and the position in it, of entry `k` of block `v`: with separate bases a block is a
variable, otherwise the `n` velocities come first, then the pressures. -/
def varPos (separate : Bool) (n v k : Nat) : Nat × Nat :=
  if separate then (v, k) else if k < n then (0, k) else (1, k - n)

/-- Size of block `v` with `n` velocities and `n'` pressures. -/
def blockLen (separate : Bool) (n n' v : Nat) : Nat :=
  if separate then (if v = 0 then n else n') else n + n'

end Verif.RomAssembly.Spec
