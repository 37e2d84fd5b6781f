import Verif.Model.Divide
import Verif.Spec.SubMesh
import Verif.Spec.InterfaceForm
import Verif.Spec.RomAssembly

/-!
# Specification: the discrete problem on the undivided mesh

The entries of the discontinuous Galerkin matrix are described by elements and faces of the parent mesh
alone.  `Fits` says what MFEM delivers for a division of the mesh.
-/

namespace Verif.Divide.Spec

open Verif Verif.LinAlg Verif.LinAlg.Spec Verif.Divide Verif.SubMesh Verif.SubMesh.Spec
open Verif.InterfaceForm (Space FMesh Integ Tr)
open Verif.InterfaceForm.Spec (dofAt dofPos dofsOf trOf SpaceOk)
open Verif.RomAssembly (BFace)
open Verif.RomAssembly.Spec (Weak)
open Verif.Boundary (BC)

variable {R δ F : Type}

/-- The integrals over the parent mesh.  `nt e`, `ns e` are the numbers of test and trial degrees of
freedom of element `e`; `vol e a b` is the integral over element `e` for its local degrees of freedom `a`
and `b`; `face f I J a b` the one over face `f` for degree of freedom `a` of the element on side `I` and
`b` of the element on side `J` (`false` is the first element of the face); `bdr f a b` the one over the
boundary face `f`. -/
structure Whole (R : Type) where
  nt : Nat → Nat
  ns : Nat → Nat
  vol : Nat → Nat → Nat → R
  face : Nat → Bool → Bool → Nat → Nat → R
  bdr : Nat → Nat → Nat → R

/-- The element on one side of a face. -/
def elemAt (fc : Face) : Bool → Int
  | false => fc.e0
  | true => fc.e1

/-- The face information of one side. -/
def infAt (fc : Face) : Bool → Int
  | false => fc.inf0
  | true => fc.inf1

section
variable [CommRing R]

/-- What a face contributes to the coupling of degree of freedom `a` of element `e` with `b` of `e'`:
nothing if it has an element on one side only. -/
def faceSum (W : Whole R) (pm : Parent) (e a e' b f : Nat) : R :=
  match pm.faces[f]? with
  | none => 0
  | some fc => if fc.e1 < 0 then 0 else ∑ I : Bool, ∑ J : Bool,
      if elemAt fc I = e ∧ elemAt fc J = e' then W.face f I J a b else 0

open Classical in
/-- What boundary element `q` of the parent mesh contributes, if its condition is imposed weakly. -/
noncomputable def bdrSum (W : Whole R) (pm : Parent) (bc : BC F) (e a e' b : Nat) (q : Nat × Int) : R :=
  if e = e' ∧ Weak bc q.2 ∧ ∃ fc, pm.faces[q.1]? = some fc ∧ fc.e0 = e then W.bdr q.1 a b else 0

/-- The entry of the matrix on the undivided mesh for degree of freedom `a` of element `e` and `b` of
`e'`. -/
noncomputable def entry (W : Whole R) (pm : Parent) (bc : BC F) (e a e' b : Nat) : R :=
  (if e = e' then W.vol e a b else 0)
    + ∑ f ∈ Finset.range pm.faces.length, faceSum W pm e a e' b f
    + (pm.bdr.map (bdrSum W pm bc e a e' b)).sum

end

/-- A discontinuous space on a submesh whose elements have the parents `em`: an element has as many
degrees of freedom as its parent, none is shared and none repeated. -/
structure SpaceFits (em : List Nat) (n : Nat → Nat) (s : Space) : Prop where
  count : s.vdofs.length = em.length
  size : ∀ (i e : Nat), em[i]? = some e → (dofsOf s i).length = n e
  inside : SpaceOk s
  plain : ∀ l ∈ s.vdofs, ∀ d ∈ l, 0 ≤ d
  once : ∀ i i' a a', a < (dofsOf s i).length → a' < (dofsOf s i').length →
    dofAt (dofsOf s i) a = dofAt (dofsOf s i') a' → i = i' ∧ a = a'

/-- A matrix of the given size with the given entries. -/
def MatIs [CommRing R] (m : Mat R) (h w : Nat) (E : Nat → Nat → R) : Prop :=
  m.h = h ∧ m.w = w ∧ MatOk m ∧ ∀ a b, a < h → b < w → ent m a b = E a b

/-- Parent elements of the elements of submesh `k`. -/
def parents (subs : List Sub) (k : Nat) : List Nat := ((subs[k]?).map (·.elemMap)).getD []

/-- Face `fc` lies between two elements of submesh `k`. -/
def Inside (subs : List Sub) (k : Nat) (fc : Face) : Prop :=
  0 ≤ fc.e1 ∧ Owns subs k fc.e0 ∧ Owns subs k fc.e1

/-- The division of a mesh: what MFEM's meshes and submeshes satisfy, and that the boundary elements of
the parent mesh lie on its outer boundary. -/
structure Division (pm : Parent) (subs : List Sub) (φ : Nat → Nat → Nat) (g : Int) : Prop where
  max : arrMax pm.bdrAttributes = .ok g
  pos : 0 ≤ g
  wf : WellFormed2D pm subs φ g
  /-- the submeshes are parts of the mesh, and every element of a face is in one of them -/
  nodup : ∀ (k : Nat) sm, subs[k]? = some sm → sm.elemMap.Nodup
  owned : ∀ (f : Nat) fc, pm.faces[f]? = some fc →
    (∃ k, Owns subs k fc.e0) ∧ (0 ≤ fc.e1 → ∃ k, Owns subs k fc.e1)
  /-- the faces of a submesh are faces of its elements, each once -/
  faceOnce : ∀ (k : Nat) sm s s', subs[k]? = some sm → s < sm.numFaces → s' < sm.numFaces →
    φ k s = φ k s' → s = s'
  faceIn : ∀ (k : Nat) sm s, subs[k]? = some sm → s < sm.numFaces → φ k s < pm.faces.length
  faceAll : ∀ (k : Nat) sm (f : Nat) fc, subs[k]? = some sm → pm.faces[f]? = some fc →
    Inside subs k fc → ∃ s, s < sm.numFaces ∧ φ k s = f
  /-- boundary elements: positive attributes, on outer faces, one per face, and present in the
  submeshes -/
  bdrPos : ∀ q ∈ pm.bdr, 0 < q.2
  bdrOuter : ∀ q ∈ pm.bdr, ∀ fc, pm.faces[q.1]? = some fc → fc.e1 < 0
  bdrOnce : (pm.bdr.map Prod.fst).Nodup
  bdrAll : ∀ q ∈ pm.bdr, ∀ (k : Nat) sm fc, subs[k]? = some sm → pm.faces[q.1]? = some fc →
    Owns subs k fc.e0 → ∃ be ∈ sm.bes, φ k be.face = q.1
  /-- every submesh has a boundary -/
  bdrSome : ∀ (k : Nat) sm, subs[k]? = some sm → sm.bes ≠ []

/-- Boundary conditions for attributes that occur on the mesh. -/
structure Conditions (pm : Parent) (bc : BC F) : Prop where
  wf : Boundary.Wf bc
  nodup : bc.attrs.Nodup
  occur : ∀ a ∈ bc.attrs, ∃ q ∈ pm.bdr, q.2 = a

section
variable [CommRing R]

/-- What MFEM delivers on submesh `k`: the integrals are those of the parent mesh, whatever the numbering
of elements and faces and whatever the order in which the two elements of a face are met. -/
structure ViewFits (W : Whole R) (pm : Parent) (subs : List Sub) (φ : Nat → Nat → Nat)
    (ints : List (ITr δ → Mat R)) (k : Nat) (sm : Sub) (v : View R δ) : Prop where
  test : SpaceFits sm.elemMap W.nt v.test
  trial : SpaceFits sm.elemMap W.ns v.trial
  volCount : v.vols.length = sm.elemMap.length
  vol : ∀ (i e : Nat) m, sm.elemMap[i]? = some e → v.vols[i]? = some m →
    MatIs m (W.nt e) (W.ns e) (W.vol e)
  faceCount : v.faces.length = sm.numFaces
  /-- a face has a transformation exactly if both its elements belong to the submesh -/
  outer : ∀ s fc, s < sm.numFaces → pm.faces[φ k s]? = some fc → ¬ Inside subs k fc →
    v.faces[s]? = some none
  inner : ∀ s fc, s < sm.numFaces → pm.faces[φ k s]? = some fc → Inside subs k fc →
    ∃ t o x1 x2, v.faces[s]? = some (some t) ∧ sm.elemMap[t.elem1]? = some x1 ∧
      sm.elemMap[t.elem2]? = some x2 ∧ (x1 : Int) = elemAt fc o ∧ (x2 : Int) = elemAt fc (!o) ∧
      (∀ g ∈ ints, (g t).h = W.nt x1 + W.nt x2 ∧ (g t).w = W.ns x1 + W.ns x2 ∧ MatOk (g t)) ∧
      ∀ (I J : Bool) a b, a < W.nt (if I then x2 else x1) → b < W.ns (if J then x2 else x1) →
        (ints.map fun g => ent (g t) (if I then W.nt x1 + a else a)
          (if J then W.ns x1 + b else b)).sum = W.face (φ k s) (o ^^ I) (o ^^ J) a b
  belCount : v.bel.length = sm.bes.length
  /-- the matrices of boundary elements; on the boundary of the parent mesh they are its integrals -/
  bel : ∀ (b : Nat) be x, sm.bes[b]? = some be → v.bel[b]? = some (some x) →
    x.rows = dofsOf v.test be.elem ∧ x.cols = dofsOf v.trial be.elem ∧
      MatOk x.mat ∧ x.mat.h = x.rows.length ∧ x.mat.w = x.cols.length
  outerBdr : ∀ (b : Nat) be x q, sm.bes[b]? = some be → q ∈ pm.bdr → q.1 = φ k be.face →
    sm.elemMap[be.elem]? = some x → ∃ y, v.bel[b]? = some (some y) ∧
      MatIs y.mat (W.nt x) (W.ns x) (W.bdr q.1)

/-- What the interface form sees of a face between submeshes `i` and `j`, whose side `o` belongs to
`i`: transformations with the orientation of the parent mesh, and the integrals of the parent mesh. -/
def InterfaceFits (W : Whole R) (fnfi : List (Option (Integ R δ))) (f : Nat) (fc : Face) (o : Bool)
    (vi vj : View R δ) (b b' : Nat) (bei bej : BE) (x1 x2 : Nat) : Prop :=
  ∃ t1 t2, trOf vi.fmesh b (infAt fc o) = some t1 ∧ t1.elem = bei.elem ∧
    trOf vj.fmesh b' (infAt fc (!o)) = some t2 ∧ t2.elem = bej.elem ∧
    (∀ g, some g ∈ fnfi → ∀ k l, k < 2 → l < 2 →
      (g.mat t1 t2 k l).h = W.nt (if k = 0 then x1 else x2) ∧
      (g.mat t1 t2 k l).w = W.ns (if l = 0 then x1 else x2) ∧ MatOk (g.mat t1 t2 k l)) ∧
    ∀ k l a b, k < 2 → l < 2 → a < W.nt (if k = 0 then x1 else x2) →
      b < W.ns (if l = 0 then x1 else x2) →
      (fnfi.map fun g => (g.map fun g => ent (g.mat t1 t2 k l) a b).getD 0).sum =
        W.face f (o ^^ decide (k = 1)) (o ^^ decide (l = 1)) a b

/-- Everything MFEM delivers for a division. -/
structure Fits (W : Whole R) (pm : Parent) (subs : List Sub) (φ : Nat → Nat → Nat)
    (views : List (View R δ)) (ints : List (ITr δ → Mat R)) (fnfi : List (Option (Integ R δ))) :
    Prop where
  count : views.length = subs.length
  view : ∀ (k : Nat) sm v, subs[k]? = some sm → views[k]? = some v → ViewFits W pm subs φ ints k sm v
  integrators : none ∉ fnfi
  itf : ∀ (i j : Nat) si sj vi vj (b b' : Nat) bei bej (f : Nat) fc o (x1 x2 : Nat),
    subs[i]? = some si → subs[j]? = some sj → views[i]? = some vi → views[j]? = some vj → i ≠ j →
    si.bes[b]? = some bei → sj.bes[b']? = some bej → φ i bei.face = f → φ j bej.face = f →
    pm.faces[f]? = some fc → si.elemMap[bei.elem]? = some x1 → sj.elemMap[bej.elem]? = some x2 →
    (x1 : Int) = elemAt fc o → (x2 : Int) = elemAt fc (!o) →
    InterfaceFits W fnfi f fc o vi vj b b' bei bej x1 x2

end

/-- Position of local degree of freedom `a` of element `i` in the vectors of a space. -/
def pos (s : Space) (i a : Nat) : Nat := dofPos (dofAt (dofsOf s i) a)

end Verif.Divide.Spec
