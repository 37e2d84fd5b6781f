import Verif.Spec.DivideRhs
import Verif.Model.DivideElast

/-!
# Specification: elasticity on the undivided mesh
-/

namespace Verif.Divide.Spec

open Verif Verif.LinAlg Verif.LinAlg.Spec Verif.Divide Verif.SubMesh Verif.SubMesh.Spec
open Verif.InterfaceForm (Space MatArr Integ)
open Verif.InterfaceForm.Spec (dofsOf mget)
open Verif.Boundary (BC ElastRhs)

variable {R δ F α : Type}

/-- What is imposed on boundary attribute `g`: a displacement, a traction, or nothing if the attribute has no
function or its type is neither Dirichlet nor Neumann. -/
def imposed (bc : BC F) (g : Int) : Option (ElastRhs F) :=
  match bc.types[bc.attrs.idxOf g]?, (bc.coeffs[bc.attrs.idxOf g]?).join with
  | some .dirichlet, some f => some (.dirichlet f)
  | some .neumann, some f => some (.traction f)
  | _, _ => none

/-- The displacement is prescribed on attribute `g`. -/
def Fixed (bc : BC F) (g : Int) : Prop := ∃ f, imposed bc g = some (.dirichlet f)

section
variable [CommRing R]

open Classical in
/-- The entry of the elasticity matrix on the undivided mesh for degree of freedom `a` of element `e` and `b` of
`e'`: element, faces, and the boundary faces on which the displacement is prescribed. -/
noncomputable def elastEntry (W : Whole R) (pm : Parent) (bc : BC F) (e a e' b : Nat) : R :=
  (if e = e' then W.vol e a b else 0)
    + ∑ f ∈ Finset.range pm.faces.length, faceSum W pm e a e' b f
    + (pm.bdr.map fun q => if e = e' ∧ Fixed bc q.2 ∧ (pm.faces[q.1]?).map (·.e0) = some (e : Int)
        then W.bdr q.1 a b else 0).sum

/-- The right-hand side on the undivided mesh: body force, prescribed displacements and tractions. -/
def elastLoadAt (L : Loads R (ElastRhs F)) (pm : Parent) (bc : BC F) (e a : Nat) : R :=
  L.vol e a + (pm.bdr.map fun q => if (pm.faces[q.1]?).map (·.e0) = some (e : Int) then
    ((imposed bc q.2).map fun c => L.bdr q.1 c a).getD 0 else 0).sum

/-- The discrete displacement `ξ` is in equilibrium on the undivided mesh: one equation for every degree of
freedom of every element. -/
def Equilibrium (W : Whole R) (L : Loads R (ElastRhs F)) (pm : Parent) (bc : BC F) (ξ : Nat → Nat → R) : Prop :=
  ∀ e a, e < pm.elemEdges.length → a < W.nt e →
    ∑ e' ∈ Finset.range pm.elemEdges.length, ∑ b ∈ Finset.range (W.ns e'),
      elastEntry W pm bc e a e' b * ξ e' b = elastLoadAt L pm bc e a

/-- What MFEM delivers on a division for the material `l`, `u`; `spaces` are the displacement spaces. -/
structure ElastFits (W : Whole R) (L : Loads R (ElastRhs F)) (pm : Parent) (subs : List Sub)
    (φ : Nat → Nat → Nat) (spaces : List Space) (p : ElastParts R δ F α) (l u : α) : Prop where
  form : Fits W pm subs φ (p.views.map fun v => v l u) [p.inner l u] [some (p.itf l u)]
  load : LoadsFit L W.nt pm subs φ (p.loads.map fun v => v l u)
  test : p.views.map (fun v => (v l u).test) = spaces
  trial : p.views.map (fun v => (v l u).trial) = spaces
  loads : p.loads.map (fun v => (v l u).space) = spaces
  complete : ∀ s ∈ spaces, Complete s

end

end Verif.Divide.Spec
