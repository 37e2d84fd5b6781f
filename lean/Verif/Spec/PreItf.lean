import Verif.Spec.TrainItf
import Verif.Model.PreItf

/-! # What the coefficients of the samples of interface forms are for -/

namespace Verif.PreItf.Spec

open Verif Verif.LinAlg Verif.LinAlg.Spec Verif.PreItf
open Verif.InterfaceForm (Tr Port)
open Verif.InterfaceForm.Spec (dofsOf)
open Verif.Convection.Spec (lift project)
open Verif.Eqp (Sample)
open Verif.EqpItf (Integ Form)
open Verif.EqpItf.Spec (spaceOf basisOf offOf faceOf samplesAt project2)
open Verif.TrainItf (RefForm RefPort)
open Verif.TrainItf.Spec (CompOk asForm asPort)

variable {P R δ : Type} [CommRing R]

/-- Contract of an integrator and its coefficients: computed on a face from the rows `d1` and `d2` of two
bases, one per entry of the integrator's vectors, they let the fast routines add, on every face that is `like` it, what the slow routines give for
fields in the span of these rows. -/
def PreOk (like : Tr δ → Tr δ → Prop) (pre : Pre P R δ) (g : Integ P R δ) : Prop :=
  ∀ b1 d1 b2 d2 u1 u2 qp, MatOk b1 → MatOk b2 → RowsOk d1 b1.h → RowsOk d2 b2.h →
    (∀ w v1 v2, (g.vec u1 u2 qp w v1 v2 0).length = d1.length ∧
      (g.vec u1 u2 qp w v1 v2 1).length = d2.length) →
    ∃ c, pre g b1 d1 b2 d2 u1 u2 qp = .ok c ∧ ∀ t1 t2, like u1 t1 → like u2 t2 → ∀ qw x1 x2,
      x1.length = b1.w → x2.length = b2.w →
      (∀ i y, i < 2 → y.length = (if i = 0 then b1 else b2).w →
        ∃ y', g.fastVec (some c) t1 t2 qp qw x1 x2 i y = .ok y' ∧ y'.length = y.length ∧
          ∀ j < (if i = 0 then b1 else b2).w, ve y' j = ve y j +
            project (if i = 0 then b1 else b2) (if i = 0 then d1 else d2)
              (g.vec t1 t2 qp qw (lift b1 d1 x1) (lift b2 d2 x2) i) j) ∧
      ∀ i j (m : Sp R), i < 2 → j < 2 → m.h = (if i = 0 then b1 else b2).w →
        m.w = (if j = 0 then b1 else b2).w →
        ∃ m', g.fastGrad (some c) t1 t2 qp qw x1 x2 i j m = .ok m' ∧ m'.h = m.h ∧ m'.w = m.w ∧
          ∀ r s, r < m.h → s < m.w → m'.get r s = m.get r s +
            project2 (if i = 0 then b1 else b2) (if i = 0 then d1 else d2)
              (if j = 0 then b1 else b2) (if j = 0 then d1 else d2)
              (g.grad t1 t2 t1 t2 qp qw (lift b1 d1 x1) (lift b2 d2 x2) i j) r s

/-- The samples of integrator `k` at reference port `p`. -/
def refSamples (refs : List (Option (List (Sample P R)))) (f : RefForm P R δ) (k p : Nat) :
    List (Sample P R) := ((refs[p + k * f.ports.length]?).getD none).getD []

/-- Complete components and integrators, and samples at quadrature points of interfaces that have faces on
both sides. -/
structure RefParts (f : RefForm P R δ) : Prop where
  bases : f.basis.length = f.meshes.length
  comps : ∀ c < f.meshes.length, CompOk f c
  ports : ∀ rp ∈ f.ports, rp.c1 < f.meshes.length ∧ rp.c2 < f.meshes.length
  fnfi : ∀ g ∈ f.fnfi, ∃ g' nq, g = some g' ∧ g'.rule = some nq
  slots : f.refs.length = f.fnfi.length * f.ports.length
  samples : ∀ (k p : Nat) g nq rp, f.fnfi[k]? = some (some g) → g.rule = some nq → f.ports[p]? = some rp →
    ∀ s ∈ refSamples f.refs f k p, 0 ≤ s.el ∧ 0 ≤ s.qp ∧ s.qp < nq ∧
      ∃ t1 t2, faceOf (asForm f) (asPort rp) s.el.toNat = some (t1, t2) ∧
        t1.elem < (spaceOf (asForm f) rp.c1).vdofs.length ∧
        t2.elem < (spaceOf (asForm f) rp.c2).vdofs.length ∧
        ∀ w v1 v2, (g.vec t1 t2 s.qp.toNat w v1 v2 0).length =
            (dofsOf (spaceOf (asForm f) rp.c1) t1.elem).length ∧
          (g.vec t1 t2 s.qp.toNat w v1 v2 1).length = (dofsOf (spaceOf (asForm f) rp.c2) t2.elem).length

/-- Moreover, every integrator has a list of samples at every reference port. -/
structure RefOk (f : RefForm P R δ) : Prop extends RefParts f where
  set : ∀ l ∈ f.refs, l ≠ none

/-- The same sample, now with coefficients. -/
def Filled (s s' : Sample P R) : Prop :=
  s'.el = s.el ∧ s'.qp = s.qp ∧ s'.qw = s.qw ∧ s'.pre ≠ none

/-- Subdomain `m` of the form `F` is a copy of component `c`. -/
structure Copy (F : Form P R δ) (f : RefForm P R δ) (m c : Nat) : Prop where
  space : spaceOf F m = spaceOf (asForm f) c
  basis : basisOf F m = basisOf (asForm f) c
  off : offOf F m = offOf (asForm f) c

/-- The form `F` is put together from the components of `f`: each port is a copy of a reference port,
the elements at its interfaces are copies of those at the reference port, and it uses the samples `refs`
of the reference port. -/
structure Built (like : Tr δ → Tr δ → Prop) (F : Form P R δ) (f : RefForm P R δ)
    (refs : List (Option (List (Sample P R)))) : Prop where
  fnfi : F.fnfi = f.fnfi
  port : ∀ (p : Nat) pt, F.ports[p]? = some pt → ∃ (q : Nat) (rp : RefPort), f.ports[q]? = some rp ∧
    Copy F f pt.mesh1 rp.c1 ∧ Copy F f pt.mesh2 rp.c2 ∧
    (∀ k, samplesAt F k p = refSamples refs f k q) ∧
    ∀ e t1 t2, faceOf F pt e = some (t1, t2) → ∃ u1 u2,
      faceOf (asForm f) (asPort rp) e = some (u1, u2) ∧ like u1 t1 ∧ like u2 t2 ∧
        u1.elem = t1.elem ∧ u2.elem = t2.elem

end Verif.PreItf.Spec
