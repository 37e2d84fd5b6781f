import Verif.Spec.DivideRhs
import Verif.Model.DivideNS

/-!
# Specification: the convective terms on the undivided mesh
-/

namespace Verif.Divide.Spec

open Verif Verif.LinAlg Verif.LinAlg.Spec Verif.Divide Verif.SubMesh Verif.SubMesh.Spec
open Verif.InterfaceForm (Space FMesh Integ MatArr)
open Verif.InterfaceForm.Spec (dofsOf trOf mget)
open Verif.Boundary (BC)

variable {R δ F : Type}

/-- Nonlinear integrals over the parent mesh.  `n e` is the number of degrees of freedom of element `e`;
`vol e l a` is the integral over element `e`, on which the function has the values `l`, for degree of
freedom `a`; `face f I l a` the one over face `f` for degree of freedom `a` of the element on side `I`,
where the function has the values `l J` on the element on side `J`; `bdr f c l a` the one over boundary
face `f` with prescribed velocity `c`, or without. -/
structure Conv (R F : Type) where
  n : Nat → Nat
  vol : Nat → List R → Nat → R
  face : Nat → Bool → (Bool → List R) → Nat → R
  bdr : Nat → Option F → List R → Nat → R

/-- The boundary term on boundary attribute `g`: none if there is no condition, one without a prescribed
velocity on a Neumann boundary, otherwise one with the prescribed velocity. -/
def condN (bc : BC F) (g : Int) : Option (Option F) :=
  if bc.types[bc.attrs.idxOf g]? = some .neumann then some none
  else ((bc.coeffs[bc.attrs.idxOf g]?).join).map some

/-- Every condition that is not a Neumann condition has a boundary function. -/
def HasFunctions (bc : BC F) : Prop :=
  ∀ b < bc.attrs.length, bc.types[b]? = some .neumann ∨ ∃ f, bc.coeffs[b]? = some (some f)

section
variable [CommRing R]

/-- The values of a discrete function on element `e`. -/
def valuesOn (n : Nat → Nat) (ξ : Nat → Nat → R) (e : Nat) : List R := tab (n e) (ξ e)

/-- What face `f` adds for degree of freedom `a` of element `e`. -/
def faceConv (N : Conv R F) (pm : Parent) (ξ : Nat → Nat → R) (e a f : Nat) : R :=
  match pm.faces[f]? with
  | none => 0
  | some fc => if fc.e1 < 0 then 0 else ∑ I : Bool,
      if elemAt fc I = e then
        N.face f I (fun J => valuesOn N.n ξ (elemAt fc J).toNat) a else 0

/-- What boundary element `q` adds. -/
def bdrConv (N : Conv R F) (pm : Parent) (bc : BC F) (ξ : Nat → Nat → R) (e a : Nat)
    (q : Nat × Int) : R :=
  if (pm.faces[q.1]?).map (·.e0) = some (e : Int) then
    match condN bc q.2 with
    | some c => N.bdr q.1 c (valuesOn N.n ξ e) a
    | none => 0
  else 0

/-- The convective terms on the undivided mesh for degree of freedom `a` of element `e`: face and
boundary terms belong to the Lax-Friedrichs flux. -/
def convAt (lf : Bool) (N : Conv R F) (pm : Parent) (bc : BC F) (ξ : Nat → Nat → R) (e a : Nat) : R :=
  N.vol e (valuesOn N.n ξ e) a + if lf then
    ∑ f ∈ Finset.range pm.faces.length, faceConv N pm ξ e a f +
      (pm.bdr.map (bdrConv N pm bc ξ e a)).sum else 0

/-- What MFEM delivers on submesh `k`. -/
structure NViewFits (N : Conv R F) (pm : Parent) (subs : List Sub) (φ : Nat → Nat → Nat)
    (ints : List (ITr δ → List R → List R)) (k : Nat) (sm : Sub) (v : NView R δ F) : Prop where
  space : SpaceFits sm.elemMap N.n v.space
  length : ∀ (i e : Nat), sm.elemMap[i]? = some e → ∀ g ∈ v.dom, ∀ l, N.n e ≤ (g i l).length
  dom : ∀ (i e a : Nat) l, sm.elemMap[i]? = some e → l.length = N.n e → a < N.n e →
    (v.dom.map fun g => ve (g i l) a).sum = N.vol e l a
  faceCount : v.faces.length = sm.numFaces
  outer : ∀ s fc, s < sm.numFaces → pm.faces[φ k s]? = some fc → ¬ Inside subs k fc →
    v.faces[s]? = some none
  inner : ∀ s fc, s < sm.numFaces → pm.faces[φ k s]? = some fc → Inside subs k fc →
    ∃ t o x1 x2, v.faces[s]? = some (some t) ∧ sm.elemMap[t.elem1]? = some x1 ∧
      sm.elemMap[t.elem2]? = some x2 ∧ (x1 : Int) = elemAt fc o ∧ (x2 : Int) = elemAt fc (!o) ∧
      (∀ g ∈ ints, ∀ l, N.n x1 + N.n x2 ≤ (g t l).length) ∧
      ∀ (I : Bool) l1 l2 a, l1.length = N.n x1 → l2.length = N.n x2 →
        a < N.n (if I then x2 else x1) →
        (ints.map fun g => ve (g t (l1 ++ l2)) (if I then N.n x1 + a else a)).sum =
          N.face (φ k s) (o ^^ I) (fun J => if J = o then l1 else l2) a
  belCount : v.bel.length = sm.bes.length
  bel : ∀ (b : Nat) be x, sm.bes[b]? = some be → v.bel[b]? = some (some x) →
    x.rows = dofsOf v.space be.elem ∧ ∀ c l, x.rows.length ≤ (x.vec c l).length
  outerBdr : ∀ (b : Nat) be x q, sm.bes[b]? = some be → q ∈ pm.bdr → q.1 = φ k be.face →
    sm.elemMap[be.elem]? = some x → ∃ y, v.bel[b]? = some (some y) ∧
      ∀ c l a, l.length = N.n x → a < N.n x → ve (y.vec c l) a = N.bdr q.1 c l a

/-- What the interface form sees of a face between submeshes `i` and `j`, whose side `o` belongs to `i`. -/
def NInterfaceFits (N : Conv R F) (fnfi : List (Option (Integ R δ))) (f : Nat) (fc : Face) (o : Bool)
    (vi vj : NView R δ F) (b b' : Nat) (bei bej : BE) (x1 x2 : Nat) : Prop :=
  ∃ t1 t2, trOf vi.fmesh b (infAt fc o) = some t1 ∧ t1.elem = bei.elem ∧
    trOf vj.fmesh b' (infAt fc (!o)) = some t2 ∧ t2.elem = bej.elem ∧
    (∀ g, some g ∈ fnfi → ∀ l1 l2 k, k < 2 →
      N.n (if k = 0 then x1 else x2) ≤ (g.vec t1 t2 l1 l2 k).length) ∧
    ∀ (I : Bool) l1 l2 a, l1.length = N.n x1 → l2.length = N.n x2 →
      a < N.n (if I then x2 else x1) →
      (fnfi.map fun g => (g.map fun g => ve (g.vec t1 t2 l1 l2 I.toNat) a).getD 0).sum =
        N.face f (o ^^ I) (fun J => if J = o then l1 else l2) a

/-- Everything MFEM delivers for the convective terms on a division. -/
structure NFits (N : Conv R F) (pm : Parent) (subs : List Sub) (φ : Nat → Nat → Nat)
    (views : List (NView R δ F)) (ints : List (ITr δ → List R → List R))
    (fnfi : List (Option (Integ R δ))) : Prop where
  count : views.length = subs.length
  view : ∀ (k : Nat) sm v, subs[k]? = some sm → views[k]? = some v →
    NViewFits N pm subs φ ints k sm v
  integrators : none ∉ fnfi
  itf : ∀ (i j : Nat) si sj vi vj (b b' : Nat) bei bej (f : Nat) fc o (x1 x2 : Nat),
    subs[i]? = some si → subs[j]? = some sj → views[i]? = some vi → views[j]? = some vj → i ≠ j →
    si.bes[b]? = some bei → sj.bes[b']? = some bej → φ i bei.face = f → φ j bej.face = f →
    pm.faces[f]? = some fc → si.elemMap[bei.elem]? = some x1 → sj.elemMap[bej.elem]? = some x2 →
    (x1 : Int) = elemAt fc o → (x2 : Int) = elemAt fc (!o) →
    NInterfaceFits N fnfi f fc o vi vj b b' bei bej x1 x2

/-- Velocity `u` and pressure `p` solve the steady Navier-Stokes equations `C(u) + M u + Bᵀ p = f`,
`B u = h`; `c` are the convective terms at `u`. -/
def SolvesNS (M B : MatArr R) (f h : List (List R)) (n : Nat) (uz pz : Nat → Nat)
    (c u p : Nat → Nat → R) : Prop :=
  (∀ k r, k < n → r < uz k →
    c k r + (rowMult M n uz u k r + colMult B n pz p k r) = ve (f[k]?.getD []) r) ∧
  ∀ k r, k < n → r < pz k → rowMult B n uz u k r = ve (h[k]?.getD []) r

end

end Verif.Divide.Spec
