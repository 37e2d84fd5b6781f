import Verif.Spec.Convection
import Verif.Spec.InterfaceForm
import Verif.Model.TensorRom

/-!
# What the tensor ROM should compute

A velocity field is given by its degrees of freedom, a function of their numbers.
-/

namespace Verif.TensorRom.Spec

open Verif Verif.LinAlg Verif.LinAlg.Spec Verif.Convection Verif.Convection.Spec Verif.TensorRom Finset
open Verif.Blocks (Order)
open Verif.InterfaceForm.Spec (dofPos gather)

variable {R : Type} [CommRing R]

/-- A consistent space: every element has one degree of freedom per shape function and component, all
inside the space, and its quadrature points satisfy the contract of the external routines. -/
def FesOk (V : Fes R) : Prop :=
  ∀ E ∈ V.elems, (∀ d ∈ E.dofs, dofPos d < V.size) ∧ E.dofs.length = E.nd * E.dim ∧
    ∀ pw ∈ E.pts, PtOk pw.1 ∧ pw.1.nd = E.nd ∧ pw.1.dim = E.dim

/-- The convection form `c(w; u, v)`: the quadrature of `zeta (grad u) w . v`. -/
def convForm (V : Fes R) (w u v : Nat → R) : R :=
  (V.elems.map fun E => (E.pts.map fun pw =>
    wq pw.1 pw.2 * ∑ d ∈ range pw.1.dim, value pw.1 (gather v E.dofs) d *
      ∑ e ∈ range pw.1.dim, deriv pw.1 (gather u E.dofs) d e * value pw.1 (gather w E.dofs) e).sum).sum

/-- Basis vector `i`. -/
def vec (b : Mat R) (i : Nat) : Nat → R := fun t => ent b t i

/-- The field with reduced coefficients `x`. -/
def field (b : Mat R) (x : Nat → R) : Nat → R := fun t => ∑ i ∈ range b.w, x i * ent b t i

/-- The reduced block of the velocity of subdomain `m`. -/
def velBlock (separate : Bool) (ord : Order) (numVar m : Nat) : Nat :=
  match separate, ord with
  | true, .domain => m * numVar
  | true, .variable => m
  | false, _ => m

/-- Entry `t` of the linear operator applied to `x`. -/
def linAt (s : Sp R) (x : Nat → R) (t : Nat) : R := ∑ c ∈ range s.w, s.get t c * x c

/-- The position is stored in the (finalized) sparse matrix. -/
def Stored (s : Sp R) (i j : Nat) : Prop := ∃ v, ((i, j), v) ∈ s.ents

/-- The tensor of a basis on a space: entry `(i, j, k)` is the convection form with advecting field
`v_i`, advected field `v_j` and test function `v_k`. -/
structure IsTensor (t : Tensor R) (b : Mat R) (V : Fes R) : Prop where
  i : t.nI = b.w
  j : t.nJ = b.w
  k : t.nK = b.w
  ok : TensorOk t
  entries : ∀ i j k, i < b.w → j < b.w → k < b.w →
    tent t i j k = convForm V (vec b i) (vec b j) (vec b k)

/-- First position of block `b` of a vector with blocks of the sizes `z`. -/
def start (z : List Nat) (b : Nat) : Nat := (z.take b).sum

/-- Position `t` lies in the velocity block of subdomain `m`, of size `n`. -/
def InBlock (z : List Nat) (b n t : Nat) : Prop := start z b ≤ t ∧ t < start z b + n

instance (z : List Nat) (b n t : Nat) : Decidable (InBlock z b n t) := by unfold InBlock; infer_instance

/-- What is known about a reduced system: `nSub` subdomains, the velocity block of subdomain `m` in block
`blk m`, basis `B m` on the space `V m`; blocks of the sizes `z`. -/
structure System (R : Type) where
  nSub : Nat
  blk : Nat → Nat
  B : Nat → Mat R
  V : Nat → Fes R
  z : List Nat

/-- The velocity field of subdomain `m` in the reduced state `x`. -/
def System.velocity (S : System R) (x : Nat → R) (m : Nat) : Nat → R :=
  field (S.B m) (fun i => x (start S.z (S.blk m) + i))

/-- Entry `t` of the convective part of the reduced residual: in the velocity block of subdomain `m`, the
convection form of the velocity of that subdomain, tested with the basis vector of that entry. -/
def System.conv (S : System R) (x : Nat → R) (t : Nat) : R :=
  ∑ m ∈ range S.nSub, if InBlock S.z (S.blk m) (S.B m).w t then
    convForm (S.V m) (S.velocity x m) (S.velocity x m) (vec (S.B m) (t - start S.z (S.blk m))) else 0

/-- Entry `(t, s)` of the derivative of the convective part. -/
def System.dconv (S : System R) (x : Nat → R) (t s : Nat) : R :=
  ∑ m ∈ range S.nSub, if InBlock S.z (S.blk m) (S.B m).w t ∧ InBlock S.z (S.blk m) (S.B m).w s then
    convForm (S.V m) (S.velocity x m) (vec (S.B m) (s - start S.z (S.blk m)))
        (vec (S.B m) (t - start S.z (S.blk m))) +
      convForm (S.V m) (vec (S.B m) (s - start S.z (S.blk m))) (S.velocity x m)
        (vec (S.B m) (t - start S.z (S.blk m))) else 0

/-- The reduced system of a ROM handler: offsets, block ordering, linear operator and tensors agree with
the bases. -/
structure System.Ok (S : System R) (linear : Sp R) (offs : List Nat) (numVar : Nat) (separate : Bool)
    (ord : Order) (hs : List (Option (Tensor R))) : Prop where
  vars : 0 < numVar
  blk : S.blk = velBlock separate ord numVar
  offs : Blocks.Spec.IsOffsets offs S.z
  len : S.z.length = S.nSub * if separate then numVar else 1
  size : ∀ m, m < S.nSub → S.z[S.blk m]? = some (S.B m).w
  h : linear.h = S.z.sum
  w : linear.w = S.z.sum
  hs : ∀ m, m < S.nSub → ∃ t, hs[m]? = some (some t) ∧ IsTensor t (S.B m) (S.V m)

end Verif.TensorRom.Spec
