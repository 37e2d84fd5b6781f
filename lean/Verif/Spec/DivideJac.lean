import Mathlib.Analysis.Calculus.Deriv.Basic
import Verif.Spec.DivideNS
import Verif.Model.DivideJac

/-!
# Specification: the derivative of the convective terms on the undivided mesh
-/

namespace Verif.Divide.Spec

open Verif Verif.LinAlg Verif.LinAlg.Spec Verif.Divide Verif.SubMesh Verif.SubMesh.Spec
open Verif.InterfaceForm (Space FMesh Integ MatArr)
open Verif.InterfaceForm.Spec (dofsOf trOf mget)
open Verif.Boundary (BC)
open Verif.Blocks (BlockVector)

variable {R δ F : Type}

/-- Element gradients of the convective integrals over the parent mesh, at given values.  `vol e l a b` is
the one of element `e` for its degrees of freedom `a` (row) and `b` (column); `face f I J l a b` the one of
face `f` for degree of freedom `a` of the element on side `I` and `b` of the element on side `J`;
`bdr f c l a b` the one of boundary face `f`. -/
structure Grad (R F : Type) where
  n : Nat → Nat
  vol : Nat → List R → Nat → Nat → R
  face : Nat → Bool → Bool → (Bool → List R) → Nat → Nat → R
  bdr : Nat → Option F → List R → Nat → Nat → R

section
variable [CommRing R]

/-- What face `f` adds to the coupling of degree of freedom `a` of element `e` with `b` of `e'`. -/
def faceGrad (G : Grad R F) (pm : Parent) (ξ : Nat → Nat → R) (e a e' b f : Nat) : R :=
  match pm.faces[f]? with
  | none => 0
  | some fc => if fc.e1 < 0 then 0 else ∑ I : Bool, ∑ J : Bool,
      if elemAt fc I = e ∧ elemAt fc J = e' then
        G.face f I J (fun K => valuesOn G.n ξ (elemAt fc K).toNat) a b else 0

/-- What boundary element `q` adds. -/
def bdrGrad (G : Grad R F) (pm : Parent) (bc : BC F) (ξ : Nat → Nat → R) (e a e' b : Nat)
    (q : Nat × Int) : R :=
  if e = e' ∧ (pm.faces[q.1]?).map (·.e0) = some (e : Int) then
    match condN bc q.2 with
    | some c => G.bdr q.1 c (valuesOn G.n ξ e) a b
    | none => 0
  else 0

/-- The entry of the gradient on the undivided mesh for degree of freedom `a` of element `e` and `b` of
`e'`. -/
def gradAt (lf : Bool) (G : Grad R F) (pm : Parent) (bc : BC F) (ξ : Nat → Nat → R)
    (e a e' b : Nat) : R :=
  (if e = e' then G.vol e (valuesOn G.n ξ e) a b else 0) + if lf then
    ∑ f ∈ Finset.range pm.faces.length, faceGrad G pm ξ e a e' b f +
      (pm.bdr.map (bdrGrad G pm bc ξ e a e' b)).sum else 0

/-- The gradient on the undivided mesh applied to the function `ζ`. -/
def gradApplied (lf : Bool) (G : Grad R F) (pm : Parent) (bc : BC F) (ξ ζ : Nat → Nat → R)
    (e a : Nat) : R :=
  ∑ e' ∈ Finset.range pm.elemEdges.length, ∑ b ∈ Finset.range (G.n e'),
    gradAt lf G pm bc ξ e a e' b * ζ e' b

/-- What MFEM delivers on submesh `k`. -/
structure GViewFits (G : Grad R F) (pm : Parent) (subs : List Sub) (φ : Nat → Nat → Nat)
    (ints : List (ITr δ → List R → Mat R)) (k : Nat) (sm : Sub) (v : GView R δ F) : Prop where
  space : SpaceFits sm.elemMap G.n v.space
  dom : ∀ (i e : Nat) l, sm.elemMap[i]? = some e → l.length = G.n e →
    MatIs (v.dom i l) (G.n e) (G.n e) (G.vol e l)
  faceCount : v.faces.length = sm.numFaces
  outer : ∀ s fc, s < sm.numFaces → pm.faces[φ k s]? = some fc → ¬ Inside subs k fc →
    v.faces[s]? = some none
  inner : ∀ s fc, s < sm.numFaces → pm.faces[φ k s]? = some fc → Inside subs k fc →
    ∃ t o x1 x2, v.faces[s]? = some (some t) ∧ sm.elemMap[t.elem1]? = some x1 ∧
      sm.elemMap[t.elem2]? = some x2 ∧ (x1 : Int) = elemAt fc o ∧ (x2 : Int) = elemAt fc (!o) ∧
      (∀ g ∈ ints, ∀ l1 l2, l1.length = G.n x1 → l2.length = G.n x2 →
        (g t (l1 ++ l2)).h = G.n x1 + G.n x2 ∧ (g t (l1 ++ l2)).w = G.n x1 + G.n x2 ∧
          MatOk (g t (l1 ++ l2))) ∧
      ∀ (I J : Bool) l1 l2 a b, l1.length = G.n x1 → l2.length = G.n x2 →
        a < G.n (if I then x2 else x1) → b < G.n (if J then x2 else x1) →
        (ints.map fun g => ent (g t (l1 ++ l2)) (if I then G.n x1 + a else a)
          (if J then G.n x1 + b else b)).sum =
          G.face (φ k s) (o ^^ I) (o ^^ J) (fun K => if K = o then l1 else l2) a b
  belCount : v.bel.length = sm.bes.length
  bel : ∀ (b : Nat) be x, sm.bes[b]? = some be → v.bel[b]? = some (some x) →
    x.rows = dofsOf v.space be.elem ∧ ∀ c l, l.length = x.rows.length →
      MatOk (x.mat c l) ∧ (x.mat c l).h = x.rows.length ∧ (x.mat c l).w = x.rows.length
  outerBdr : ∀ (b : Nat) be x q, sm.bes[b]? = some be → q ∈ pm.bdr → q.1 = φ k be.face →
    sm.elemMap[be.elem]? = some x → ∃ y, v.bel[b]? = some (some y) ∧
      ∀ c l, l.length = G.n x → MatIs (y.mat c l) (G.n x) (G.n x) (G.bdr q.1 c l)

/-- What the interface form sees of a face between submeshes `i` and `j`, whose side `o` belongs to `i`. -/
def GInterfaceFits (G : Grad R F) (fnfi : List (Option (Integ R δ))) (f : Nat) (fc : Face) (o : Bool)
    (vi vj : GView R δ F) (b b' : Nat) (bei bej : BE) (x1 x2 : Nat) : Prop :=
  ∃ t1 t2, trOf vi.fmesh b (infAt fc o) = some t1 ∧ t1.elem = bei.elem ∧
    trOf vj.fmesh b' (infAt fc (!o)) = some t2 ∧ t2.elem = bej.elem ∧
    (∀ g, some g ∈ fnfi → ∀ l1 l2, l1.length = G.n x1 → l2.length = G.n x2 → ∀ k l, k < 2 → l < 2 →
      (g.grad t1 t2 l1 l2 k l).h = G.n (if k = 0 then x1 else x2) ∧
      (g.grad t1 t2 l1 l2 k l).w = G.n (if l = 0 then x1 else x2) ∧ MatOk (g.grad t1 t2 l1 l2 k l)) ∧
    ∀ l1 l2, l1.length = G.n x1 → l2.length = G.n x2 → ∀ k l a b, k < 2 → l < 2 →
      a < G.n (if k = 0 then x1 else x2) → b < G.n (if l = 0 then x1 else x2) →
      (fnfi.map fun g => (g.map fun g => ent (g.grad t1 t2 l1 l2 k l) a b).getD 0).sum =
        G.face f (o ^^ decide (k = 1)) (o ^^ decide (l = 1)) (fun K => if K = o then l1 else l2) a b

/-- Everything MFEM delivers for the gradient of the convective terms on a division. -/
structure GFits (G : Grad R F) (pm : Parent) (subs : List Sub) (φ : Nat → Nat → Nat)
    (views : List (GView R δ F)) (ints : List (ITr δ → List R → Mat R))
    (fnfi : List (Option (Integ R δ))) : Prop where
  count : views.length = subs.length
  view : ∀ (k : Nat) sm v, subs[k]? = some sm → views[k]? = some v →
    GViewFits G pm subs φ ints k sm v
  integrators : none ∉ fnfi
  itf : ∀ (i j : Nat) si sj vi vj (b b' : Nat) bei bej (f : Nat) fc o (x1 x2 : Nat),
    subs[i]? = some si → subs[j]? = some sj → views[i]? = some vi → views[j]? = some vj → i ≠ j →
    si.bes[b]? = some bei → sj.bes[b']? = some bej → φ i bei.face = f → φ j bej.face = f →
    pm.faces[f]? = some fc → si.elemMap[bei.elem]? = some x1 → sj.elemMap[bej.elem]? = some x2 →
    (x1 : Int) = elemAt fc o → (x2 : Int) = elemAt fc (!o) →
    GInterfaceFits G fnfi f fc o vi vj b b' bei bej x1 x2

/-- The increments `du` and `dp` solve the equations of a Newton step: `(J + M) du + Bᵀ dp = ru`,
`B du = rp`, where `ru` and `rp` are the residuals. -/
def SolvesNewton (J M B : MatArr R) (n : Nat) (uz pz : Nat → Nat) (ru rp du dp : Nat → Nat → R) : Prop :=
  (∀ k r, k < n → r < uz k →
    rowMult J n uz du k r + (rowMult M n uz du k r + colMult B n pz dp k r) = ru k r) ∧
  ∀ k r, k < n → r < pz k → rowMult B n uz du k r = rp k r

end

/-- The block vector `x + t z`. -/
noncomputable def along (x z : BlockVector ℝ) (t : ℝ) : BlockVector ℝ :=
  ⟨List.zipWith (fun a b => a + t * b) x.data z.data, x.offsets⟩

/-- The element gradients `G` are the derivatives of the element integrals `N`, in every direction. -/
structure Differentiates (pm : Parent) (N : Conv ℝ F) (G : Grad ℝ F) : Prop where
  sizes : G.n = N.n
  vol : ∀ (e a : Nat) (ξ ζ : Nat → ℝ), a < N.n e →
    HasDerivAt (fun t : ℝ => N.vol e (tab (N.n e) fun b => ξ b + t * ζ b) a)
      (∑ b ∈ Finset.range (N.n e), G.vol e (tab (N.n e) ξ) a b * ζ b) 0
  face : ∀ (f : Nat) fc (I : Bool) (a : Nat) (ξ ζ : Bool → Nat → ℝ), pm.faces[f]? = some fc →
    a < N.n (elemAt fc I).toNat →
    HasDerivAt (fun t : ℝ => N.face f I
        (fun J => tab (N.n (elemAt fc J).toNat) fun b => ξ J b + t * ζ J b) a)
      (∑ J : Bool, ∑ b ∈ Finset.range (N.n (elemAt fc J).toNat),
        G.face f I J (fun K => tab (N.n (elemAt fc K).toNat) (ξ K)) a b * ζ J b) 0
  bdr : ∀ (f e : Nat) (c : Option F) (a : Nat) (ξ ζ : Nat → ℝ), a < N.n e →
    (pm.faces[f]?).map (·.e0) = some (e : Int) →
    HasDerivAt (fun t : ℝ => N.bdr f c (tab (N.n e) fun b => ξ b + t * ζ b) a)
      (∑ b ∈ Finset.range (N.n e), G.bdr f c (tab (N.n e) ξ) a b * ζ b) 0

end Verif.Divide.Spec
