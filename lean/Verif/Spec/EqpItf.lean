import Verif.Spec.Convection
import Verif.Spec.InterfaceForm
import Verif.Model.EqpItf

/-!
# What hyper-reduced interface forms should compute

Block `m` of a reduced vector holds the coefficients of the basis of subdomain `m`.
-/

namespace Verif.EqpItf.Spec

open Verif Verif.LinAlg Verif.LinAlg.Spec Verif.Blocks Verif.Blocks.Spec Verif.EqpItf Finset
open Verif.InterfaceForm (Tr FMesh Space Port)
open Verif.InterfaceForm.Spec (Sides dofsOf)
open Verif.RomHandler.Spec (bent)
open Verif.Convection.Spec (lift project)
open Verif.Eqp (Sample)

variable {P R δ : Type} [CommRing R]

def spaceOf (f : Form P R δ) (m : Nat) : Space := f.fes[m]?.getD ⟨0, []⟩

/-- The basis of a subdomain. -/
def basisOf (f : Form P R δ) (m : Nat) : Mat R := (((f.basis[m]?).getD none).map Prod.fst).getD ⟨0, 0, []⟩

/-- The first row of the basis that belongs to the space of the form. -/
def offOf (f : Form P R δ) (m : Nat) : Int := (((f.basis[m]?).getD none).map Prod.snd).getD 0

def sidesOf (f : Form P R δ) (p : Port) : Sides δ :=
  let none_ : FMesh δ := ⟨fun _ => none, fun _ => 0, fun t _ => t⟩
  ⟨f.meshes[p.mesh1]?.getD none_, f.meshes[p.mesh2]?.getD none_, spaceOf f p.mesh1, spaceOf f p.mesh2,
    spaceOf f p.mesh1, spaceOf f p.mesh2⟩

/-- Both transformations of interface `itf` of a port, when both exist. -/
def faceOf (f : Form P R δ) (p : Port) (itf : Nat) : Option (Tr δ × Tr δ) :=
  (p.infos[itf]?).bind (sidesOf f p).face

/-- The basis rows of the element of subdomain `m` next to a face. -/
def rowsOf (f : Form P R δ) (m : Nat) (t : Tr δ) : List Int :=
  (dofsOf (spaceOf f m) t.elem).map (fun v => v + offOf f m)

/-- The reduced coefficients of subdomain `m`. -/
def coeffs (f : Form P R δ) (x : BlockVector R) (m : Nat) : List R :=
  (List.range (basisOf f m).w).map (bent x m)

/-- The field lifted to the element of subdomain `m` next to a face. -/
def lifted (f : Form P R δ) (x : BlockVector R) (m : Nat) (t : Tr δ) : List R :=
  lift (basisOf f m) (rowsOf f m t) (coeffs f x m)

/-- `v_i^T a w_j` for basis vectors of two bases. -/
def project2 (b1 : Mat R) (rows1 : List Int) (b2 : Mat R) (rows2 : List Int) (a : Mat R) (i j : Nat) : R :=
  ∑ k ∈ range rows1.length, ∑ l ∈ range rows2.length,
    ent b1 (rowAt rows1 k) i * ent a k l * ent b2 (rowAt rows2 l) j

/-- The integrator's vector at a sample, on side `i`. -/
def sampleVec (f : Form P R δ) (p : Port) (g : Integ P R δ) (x : BlockVector R) (s : Sample P R)
    (t1 t2 : Tr δ) : Nat → List R :=
  g.vec t1 t2 s.qp.toNat s.qw (lifted f x p.mesh1 t1) (lifted f x p.mesh2 t2)

/-- The integrator's Jacobian at a sample. -/
def sampleGrad (f : Form P R δ) (p : Port) (g : Integ P R δ) (x : BlockVector R) (s : Sample P R)
    (t1 t2 : Tr δ) : Nat → Nat → Mat R :=
  g.grad t1 t2 t1 t2 s.qp.toNat s.qw (lifted f x p.mesh1 t1) (lifted f x p.mesh2 t2)

/-- What one sample of port `p` contributes to reduced equation `c` of subdomain `m`: the quadrature
contribution of each side, tested with the basis of that side. -/
def vecTerm (f : Form P R δ) (p : Port) (g : Integ P R δ) (x : BlockVector R) (s : Sample P R)
    (m c : Nat) : R :=
  match faceOf f p s.el.toNat with
  | some (t1, t2) =>
    (if p.mesh1 = m then
      project (basisOf f p.mesh1) (rowsOf f p.mesh1 t1) (sampleVec f p g x s t1 t2 0) c else 0) +
    (if p.mesh2 = m then
      project (basisOf f p.mesh2) (rowsOf f p.mesh2 t2) (sampleVec f p g x s t1 t2 1) c else 0)
  | none => 0

/-- Subdomain, and rows, of side `i` of a face. -/
def sideOf (p : Port) (i : Nat) : Nat := if i = 0 then p.mesh1 else p.mesh2
def trSide (t1 t2 : Tr δ) (i : Nat) : Tr δ := if i = 0 then t1 else t2

/-- What one sample contributes to entry `(r, c)` of block `(a, b)` of the reduced Jacobian. -/
def gradTerm (f : Form P R δ) (p : Port) (g : Integ P R δ) (x : BlockVector R) (s : Sample P R)
    (a b r c : Nat) : R :=
  match faceOf f p s.el.toNat with
  | some (t1, t2) => ∑ i ∈ range 2, ∑ j ∈ range 2, if sideOf p i = a ∧ sideOf p j = b then
      project2 (basisOf f a) (rowsOf f a (trSide t1 t2 i)) (basisOf f b) (rowsOf f b (trSide t1 t2 j))
        (sampleGrad f p g x s t1 t2 i j) r c else 0
  | none => 0

/-- The samples of integrator `k` at port number `p`. -/
def samplesAt (f : Form P R δ) (k p : Nat) : List (Sample P R) :=
  ((f.samples[p + k * f.ports.length]?).getD none).getD []

/-- A sum over all integrators, ports and samples. -/
def total (f : Form P R δ) (T : Port → Integ P R δ → Sample P R → R) : R :=
  ∑ k ∈ range f.fnfi.length, ∑ p ∈ range f.ports.length,
    match f.fnfi[k]?, f.ports[p]? with
    | some (some g), some pt => ((samplesAt f k p).map (T pt g)).sum
    | _, _ => 0

/-- The hyper-reduced interface residual. -/
def formVec (f : Form P R δ) (x : BlockVector R) (m c : Nat) : R :=
  total f fun p g s => vecTerm f p g x s m c

/-- The hyper-reduced interface Jacobian. -/
def formGrad (f : Form P R δ) (x : BlockVector R) (a b r c : Nat) : R :=
  total f fun p g s => gradTerm f p g x s a b r c

/-- A sample of a quadrature point of an interface of port `p`. -/
def SampleOk (f : Form P R δ) (p : Port) (nq : Nat) (g : Integ P R δ) (s : Sample P R) : Prop :=
  0 ≤ s.el ∧ 0 ≤ s.qp ∧ s.qp < nq ∧
  ∃ t1 t2, faceOf f p s.el.toNat = some (t1, t2) ∧
    t1.elem < (spaceOf f p.mesh1).vdofs.length ∧ t2.elem < (spaceOf f p.mesh2).vdofs.length ∧
    RowsOk (rowsOf f p.mesh1 t1) (basisOf f p.mesh1).h ∧
    RowsOk (rowsOf f p.mesh2 t2) (basisOf f p.mesh2).h ∧
    ∀ w u1 u2,
      (g.vec t1 t2 s.qp.toNat w u1 u2 0).length = (rowsOf f p.mesh1 t1).length ∧
      (g.vec t1 t2 s.qp.toNat w u1 u2 1).length = (rowsOf f p.mesh2 t2).length ∧
      ∀ i j, i < 2 → j < 2 → MatOk (g.grad t1 t2 t1 t2 s.qp.toNat w u1 u2 i j) ∧
        (g.grad t1 t2 t1 t2 s.qp.toNat w u1 u2 i j).h =
          (rowsOf f (sideOf p i) (trSide t1 t2 i)).length ∧
        (g.grad t1 t2 t1 t2 s.qp.toNat w u1 u2 i j).w =
          (rowsOf f (sideOf p j) (trSide t1 t2 j)).length

/-- Contract of the fast routines of an integrator for a sample with coefficients: they add what the
sample contributes to each side. -/
structure FastOk (f : Form P R δ) (p : Port) (g : Integ P R δ) (s : Sample P R) (t1 t2 : Tr δ) :
    Prop where
  vec : ∀ (x : BlockVector R) i y, i < 2 → y.length = (basisOf f (sideOf p i)).w →
    ∃ y', g.fastVec s.pre t1 t2 s.qp.toNat s.qw (coeffs f x p.mesh1) (coeffs f x p.mesh2) i y = .ok y' ∧
      y'.length = y.length ∧ ∀ c < (basisOf f (sideOf p i)).w, ve y' c = ve y c +
        project (basisOf f (sideOf p i)) (rowsOf f (sideOf p i) (trSide t1 t2 i))
          (sampleVec f p g x s t1 t2 i) c
  grad : ∀ (x : BlockVector R) i j (m : Sp R), i < 2 → j < 2 → m.h = (basisOf f (sideOf p i)).w →
    m.w = (basisOf f (sideOf p j)).w →
    ∃ m', g.fastGrad s.pre t1 t2 s.qp.toNat s.qw (coeffs f x p.mesh1) (coeffs f x p.mesh2) i j m =
        .ok m' ∧ m'.h = m.h ∧ m'.w = m.w ∧
      ∀ r c, r < m.h → c < m.w → m'.get r c = m.get r c +
        project2 (basisOf f (sideOf p i)) (rowsOf f (sideOf p i) (trSide t1 t2 i))
          (basisOf f (sideOf p j)) (rowsOf f (sideOf p j) (trSide t1 t2 j))
          (sampleGrad f p g x s t1 t2 i j) r c

/-- A form with bases of the widths `z`, and samples at quadrature points of its interfaces. -/
structure FormOk (f : Form P R δ) (z : List Nat) : Prop where
  offsets : ∃ offs, f.offsets = some offs ∧ IsOffsets offs z
  count : z.length = f.meshes.length
  fes : f.fes.length = f.meshes.length
  basis : ∀ (m w : Nat), z[m]? = some w → ∃ b off, f.basis[m]? = some (some (b, off)) ∧ 0 ≤ off ∧ MatOk b ∧
    0 < b.w ∧ b.w = w
  fnfi : ∀ g ∈ f.fnfi, ∃ g' nq, g = some g' ∧ g'.rule = some nq
  ports : ∀ p ∈ f.ports, p.mesh1 < f.meshes.length ∧ p.mesh2 < f.meshes.length ∧ p.mesh1 ≠ p.mesh2
  slots : f.samples.length = f.fnfi.length * f.ports.length
  samples : ∀ (k p : Nat) g nq pt, f.fnfi[k]? = some (some g) → g.rule = some nq → f.ports[p]? = some pt →
    ∀ s ∈ samplesAt f k p, SampleOk f pt nq g s

/-- When coefficients are to be used, those of all samples fulfil the contract. -/
def FormReady (f : Form P R δ) : Prop :=
  f.precompute = true → ∀ (k p : Nat) g pt, f.fnfi[k]? = some (some g) → f.ports[p]? = some pt →
    ∀ s ∈ samplesAt f k p, ∀ t1 t2, faceOf f pt s.el.toNat = some (t1, t2) → FastOk f pt g s t1 t2

/-- The same form up to the order of the samples of each integrator at each port. -/
structure SamplesPerm (f f' : Form P R δ) : Prop where
  meshes : f'.meshes = f.meshes
  fes : f'.fes = f.fes
  basis : f'.basis = f.basis
  offsets : f'.offsets = f.offsets
  precompute : f'.precompute = f.precompute
  fnfi : f'.fnfi = f.fnfi
  ports : f'.ports = f.ports
  slots : f'.samples.length = f.samples.length
  samples : ∀ k p, (samplesAt f k p).Perm (samplesAt f' k p)

end Verif.EqpItf.Spec
