import Verif.Spec.Divide
import Verif.Model.DivideRhs

/-!
# Specification: the equations on the undivided mesh
-/

namespace Verif.Divide.Spec

open Verif Verif.LinAlg Verif.LinAlg.Spec Verif.Divide Verif.SubMesh Verif.SubMesh.Spec
open Verif.InterfaceForm (Space MatArr Integ)
open Verif.InterfaceForm.Spec (dofsOf mget)
open Verif.Boundary (BC)

variable {R δ F : Type}

/-- The integrals of a right-hand side over the parent mesh: over element `e` for its degree of freedom
`a`, and over boundary face `f` for a boundary function. -/
structure Loads (R F : Type) where
  vol : Nat → Nat → R
  bdr : Nat → F → Nat → R

/-- The boundary function imposed weakly on boundary attribute `g`, if any. -/
def condOf (bc : BC F) (g : Int) : Option F :=
  if bc.types[bc.attrs.idxOf g]? = some .neumann then none
  else (bc.coeffs[bc.attrs.idxOf g]?).join

section
variable [CommRing R]

/-- What boundary element `q` adds to degree of freedom `a` of element `e`. -/
def bdrLoad (L : Loads R F) (pm : Parent) (bc : BC F) (e a : Nat) (q : Nat × Int) : R :=
  if (pm.faces[q.1]?).map (·.e0) = some (e : Int) then
    match condOf bc q.2 with
    | some f => L.bdr q.1 f a
    | none => 0
  else 0

/-- The right-hand side on the undivided mesh for degree of freedom `a` of element `e`. -/
def loadAt (L : Loads R F) (pm : Parent) (bc : BC F) (e a : Nat) : R :=
  L.vol e a + (pm.bdr.map (bdrLoad L pm bc e a)).sum

/-- What MFEM delivers for the right-hand side on a submesh. -/
structure LoadFits (L : Loads R F) (n : Nat → Nat) (pm : Parent) (φ : Nat → Nat) (sm : Sub)
    (v : LView R F) : Prop where
  space : SpaceFits sm.elemMap n v.space
  length : ∀ (i e : Nat), sm.elemMap[i]? = some e → ∀ g ∈ v.dom, n e ≤ (g i).length
  dom : ∀ (i e a : Nat), sm.elemMap[i]? = some e → a < n e →
    (v.dom.map fun g => ve (g i) a).sum = L.vol e a
  belCount : v.bel.length = sm.bes.length
  bel : ∀ (b : Nat) be x, sm.bes[b]? = some be → v.bel[b]? = some (some x) →
    x.rows = dofsOf v.space be.elem ∧ ∀ f, x.rows.length ≤ (x.vec f).length
  outerBdr : ∀ (b : Nat) be x q, sm.bes[b]? = some be → q ∈ pm.bdr → q.1 = φ be.face →
    sm.elemMap[be.elem]? = some x → ∃ y, v.bel[b]? = some (some y) ∧
      ∀ f a, a < n x → ve (y.vec f) a = L.bdr q.1 f a

/-- Everything MFEM delivers for the right-hand side on a division. -/
structure LoadsFit (L : Loads R F) (n : Nat → Nat) (pm : Parent) (subs : List Sub)
    (φ : Nat → Nat → Nat) (Ls : List (LView R F)) : Prop where
  count : Ls.length = subs.length
  view : ∀ (k : Nat) sm v, subs[k]? = some sm → Ls[k]? = some v → LoadFits L n pm (φ k) sm v

/-- Every entry of the vectors of a space belongs to an element. -/
def Complete (s : Space) : Prop := ∀ d, d < s.vsize → ∃ i a, a < (dofsOf s i).length ∧ pos s i a = d

/-- The submeshes contain exactly the elements of the mesh. -/
def Covers (pm : Parent) (subs : List Sub) : Prop :=
  ∀ e : Nat, (∃ k, Owns subs k e) ↔ e < pm.elemEdges.length

/-- The value of row `r` of block `k` of an array of matrices applied to a vector given by blocks. -/
def rowMult (M : MatArr R) (n : Nat) (cz : Nat → Nat) (x : Nat → Nat → R) (k r : Nat) : R :=
  ∑ k' ∈ Finset.range n, ∑ c ∈ Finset.range (cz k'), mget M k k' r c * x k' c

/-- The same for the transpose. -/
def colMult (M : MatArr R) (n : Nat) (rz : Nat → Nat) (y : Nat → Nat → R) (k c : Nat) : R :=
  ∑ k' ∈ Finset.range n, ∑ r ∈ Finset.range (rz k'), mget M k' k r c * y k' r

/-- A discrete function on the undivided mesh satisfies the equation of degree of freedom `a` of element
`e`: sum over all elements and their degrees of freedom. -/
noncomputable def applied (W : Whole R) (pm : Parent) (bc : BC F) (ξ : Nat → Nat → R) (e a : Nat) : R :=
  ∑ e' ∈ Finset.range pm.elemEdges.length, ∑ b ∈ Finset.range (W.ns e'),
    entry W pm bc e a e' b * ξ e' b

/-- The transposed operator on the undivided mesh. -/
noncomputable def appliedT (W : Whole R) (pm : Parent) (bc : BC F) (η : Nat → Nat → R) (e b : Nat) : R :=
  ∑ e' ∈ Finset.range pm.elemEdges.length, ∑ a ∈ Finset.range (W.nt e'),
    entry W pm bc e' a e b * η e' a

/-- The block vector `x` has, at the degrees of freedom of element `e`, the values `ξ e`. -/
def Represents (subs : List Sub) (spaces : List Space) (n : Nat → Nat) (x : Nat → Nat → R)
    (ξ : Nat → Nat → R) : Prop :=
  ∀ (k : Nat) sm s (i e b : Nat), subs[k]? = some sm → spaces[k]? = some s → sm.elemMap[i]? = some e →
    b < n e → x k (pos s i b) = ξ e b

/-- The spaces of the linear forms are the test spaces. -/
def SameSpaces (views : List (View R δ)) (Ls : List (LView R F)) : Prop :=
  Ls.map (·.space) = views.map (·.test)

/-- What the forms of the Stokes equations are on a division: the velocity space is test and trial space
of the viscous form, trial space of the divergence and space of the momentum right-hand side, the pressure
space is test space of the divergence and space of the mass right-hand side. -/
structure StokesForms (W W' : Whole R) (Ld Ld' : Loads R F) (pm : Parent) (subs : List Sub)
    (φ : Nat → Nat → Nat) (uspaces pspaces : List Space) (views views' : List (View R δ))
    (ints ints' : List (ITr δ → Mat R)) (fnfi fnfi' : List (Option (Integ R δ)))
    (Ls Ls' : List (LView R F)) : Prop where
  viscous : Fits W pm subs φ views ints fnfi
  divergence : Fits W' pm subs φ views' ints' fnfi'
  momentum : LoadsFit Ld W.nt pm subs φ Ls
  mass : LoadsFit Ld' W'.nt pm subs φ Ls'
  utest : views.map (·.test) = uspaces
  utrial : views.map (·.trial) = uspaces
  udiv : views'.map (·.trial) = uspaces
  pdiv : views'.map (·.test) = pspaces
  uload : Ls.map (·.space) = uspaces
  pload : Ls'.map (·.space) = pspaces
  ucomplete : ∀ s ∈ uspaces, Complete s
  pcomplete : ∀ s ∈ pspaces, Complete s

/-- The block vector `x` solves the equations with operator `M` and right-hand side `f`. -/
def Solves (M : MatArr R) (f : List (List R)) (n : Nat) (rz cz : Nat → Nat) (x : Nat → Nat → R) : Prop :=
  ∀ k r, k < n → r < rz k → rowMult M n cz x k r = ve (f[k]?.getD []) r

/-- Velocity `u` and pressure `p` solve the saddle point equations `M u + Bᵀ p = f`, `B u = g`. -/
def SolvesStokes (M B : MatArr R) (f h : List (List R)) (n : Nat) (uz pz : Nat → Nat)
    (u p : Nat → Nat → R) : Prop :=
  (∀ k r, k < n → r < uz k →
    rowMult M n uz u k r + colMult B n pz p k r = ve (f[k]?.getD []) r) ∧
  ∀ k r, k < n → r < pz k → rowMult B n uz u k r = ve (h[k]?.getD []) r

/-- Two block vectors for two divisions are the same discrete function: they have the same values at the
degrees of freedom of every element of the mesh. -/
def SameFunction (n : Nat → Nat) (subs : List Sub) (spaces : List Space) (x : Nat → Nat → R)
    (subs₂ : List Sub) (spaces₂ : List Space) (x₂ : Nat → Nat → R) : Prop :=
  ∀ (k i l j e b : Nat) sm s sm₂ s₂, subs[k]? = some sm → spaces[k]? = some s →
    sm.elemMap[i]? = some e → subs₂[l]? = some sm₂ → spaces₂[l]? = some s₂ →
    sm₂.elemMap[j]? = some e → b < n e → x k (pos s i b) = x₂ l (pos s₂ j b)

end

end Verif.Divide.Spec
