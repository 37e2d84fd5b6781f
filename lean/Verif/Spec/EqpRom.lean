import Verif.Spec.TensorRom
import Verif.Model.EqpRom

/-!
# What the hyper-reduced Navier-Stokes operator should compute

`F m` and `G m` are the residual and Jacobian of the hyper-reduced form of subdomain `m`, `I` and `IG` those
of the interface form, as functions of the reduced velocities.
-/

namespace Verif.EqpRom.Spec

open Verif Verif.LinAlg Verif.LinAlg.Spec Verif.EqpRom Finset
open Verif.Blocks (Order)
open Verif.InterfaceForm (MatArr)
open Verif.InterfaceForm.Spec (MatsOk mget)
open Verif.TensorRom.Spec (velBlock start InBlock linAt Stored)

variable {R : Type} [CommRing R]

/-- The form of a subdomain with `w` basis vectors has residual `F` and Jacobian `G`. -/
structure DomOk (d : Dom R) (w : Nat) (F : List R → Nat → R) (G : List R → Nat → Nat → R) : Prop where
  mult : ∀ x, x.length = w → ∃ z, d.mult x w = .ok z ∧ z.length = w ∧ ∀ k, k < w → ve z k = F x k
  grad : ∀ x, x.length = w → ∃ J, d.grad x = .ok J ∧ J.h = w ∧ J.w = w ∧ MatOk J ∧
    ∀ k l, k < w → l < w → ent J k l = G x k l

/-- The interface form between `n` subdomains with `w m` basis vectors has residual `I` and Jacobian
`IG`. -/
structure ItfOk (i : Itf R) (n : Nat) (w : Nat → Nat) (I : List R → Nat → Nat → R)
    (IG : List R → Nat → Nat → Nat → Nat → R) : Prop where
  addMult : ∀ x y : List R, x.length = ∑ m ∈ range n, w m → y.length = ∑ m ∈ range n, w m →
    ∃ y', i.addMult x y = .ok y' ∧ y'.length = ∑ m ∈ range n, w m ∧
      ∀ m k, m < n → k < w m →
        ve y' (∑ m' ∈ range m, w m' + k) = ve y (∑ m' ∈ range m, w m' + k) + I x m k
  gradient : ∀ (x : List R) (mats : MatArr R), x.length = ∑ m ∈ range n, w m → MatsOk mats n w w →
    ∃ mats', i.gradient x mats = .ok mats' ∧ MatsOk mats' n w w ∧
      ∀ a b r c, a < n → b < n → r < w a → c < w b →
        mget mats' a b r c = mget mats a b r c + IG x a b r c

/-- A reduced system: `n` subdomains, the velocity of subdomain `m` in block `blk m`, of size `w m`; blocks
of the sizes `z`. -/
structure System (R : Type) where
  n : Nat
  blk : Nat → Nat
  w : Nat → Nat
  z : List Nat
  F : Nat → List R → Nat → R
  G : Nat → List R → Nat → Nat → R
  I : List R → Nat → Nat → R
  IG : List R → Nat → Nat → Nat → Nat → R

/-- The velocity of subdomain `m` in the reduced state. -/
def System.vel (S : System R) (x : Nat → R) (m : Nat) : List R :=
  (List.range (S.w m)).map fun k => x (start S.z (S.blk m) + k)

/-- The velocities of all subdomains, one after the other. -/
def System.vels (S : System R) (x : Nat → R) : List R := (List.range S.n).flatMap (S.vel x)

/-- Entry `t` of the nonlinear part: in the velocity block of each subdomain, the residual of its form and,
if there is an interface form, its residual for that subdomain. -/
def System.res (S : System R) (hasItf : Bool) (x : Nat → R) (t : Nat) : R :=
  ∑ m ∈ range S.n, if InBlock S.z (S.blk m) (S.w m) t then
    S.F m (S.vel x m) (t - start S.z (S.blk m)) +
      (if hasItf then S.I (S.vels x) m (t - start S.z (S.blk m)) else 0) else 0

/-- Entry `(t, s)` of the Jacobian of the nonlinear part. -/
def System.jac (S : System R) (hasItf : Bool) (x : Nat → R) (t s : Nat) : R :=
  ∑ a ∈ range S.n, ∑ b ∈ range S.n,
    if InBlock S.z (S.blk a) (S.w a) t ∧ InBlock S.z (S.blk b) (S.w b) s then
      (if a = b then S.G a (S.vel x a) (t - start S.z (S.blk a)) (s - start S.z (S.blk a)) else 0) +
        (if hasItf then S.IG (S.vels x) a b (t - start S.z (S.blk a)) (s - start S.z (S.blk b)) else 0)
    else 0

/-- Offsets, block ordering, linear operator and forms agree. -/
structure System.Ok (S : System R) (linear : Sp R) (offs : List Nat) (numVar : Nat) (separate : Bool)
    (ord : Order) (hs : List (Option (Dom R))) (itf : Option (Itf R)) : Prop where
  vars : 0 < numVar
  subs : 0 < S.n
  blk : S.blk = velBlock separate ord numVar
  offs : Blocks.Spec.IsOffsets offs S.z
  len : S.z.length = S.n * if separate then numVar else 1
  size : ∀ m, m < S.n → S.z[S.blk m]? = some (S.w m)
  h : linear.h = S.z.sum
  w : linear.w = S.z.sum
  num : hs.length = S.n
  hs : ∀ m, m < S.n → ∃ d, hs[m]? = some (some d) ∧ DomOk d (S.w m) (S.F m) (S.G m)
  itf : ∀ i, itf = some i → ItfOk i S.n S.w S.I S.IG

end Verif.EqpRom.Spec
