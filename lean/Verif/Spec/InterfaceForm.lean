import Verif.Model.InterfaceForm
import Verif.Spec.RomHandler

/-! # Specification vocabulary for interface forms -/

namespace Verif.InterfaceForm.Spec

open Verif Verif.LinAlg Verif.LinAlg.Spec Verif.Blocks Verif.InterfaceForm
open Verif.Ports (InterfaceInfo)
open Verif.RomHandler.Spec (bent)

variable {R δ : Type} [CommRing R]

/-! ## Scattering element contributions -/

/-- The `k`-th degree of freedom of a list. -/
def dofAt (dofs : List Int) (k : Nat) : Int := dofs[k]?.getD 0

/-- The position of a degree of freedom: a negative number `d` stands for position `-1 - d` with the
opposite sign (the convention of MFEM). -/
def dofPos (d : Int) : Nat := if d < 0 then (-1 - d).toNat else d.toNat

/-- The sign of a degree of freedom. -/
def dofSign (d : Int) : R := if d < 0 then -1 else 1

/-- What an element matrix adds to entry `(r, c)` of a global matrix. -/
def scatter (rows cols : List Int) (a : Mat R) (r c : Nat) : R :=
  ∑ k ∈ Finset.range rows.length, ∑ l ∈ Finset.range cols.length,
    if dofPos (dofAt rows k) = r ∧ dofPos (dofAt cols l) = c then
      dofSign (dofAt rows k) * dofSign (dofAt cols l) * ent a k l else 0

/-- What an element vector adds to entry `r` of a global vector. -/
def scatterVec (dofs : List Int) (e : List R) (r : Nat) : R :=
  ∑ k ∈ Finset.range dofs.length,
    if dofPos (dofAt dofs k) = r then dofSign (dofAt dofs k) * ve e k else 0

/-- The element values of a global vector. -/
def gather (x : Nat → R) (dofs : List Int) : List R := dofs.map (fun d => dofSign d * x (dofPos d))

/-! ## One face -/

/-- The transformation of boundary element `be` with the orientation `inf` prescribed by the
interface. -/
def trOf (m : FMesh δ) (be : Nat) (inf : Int) : Option (Tr δ) :=
  (m.face be).map (fun t => if m.inf be = inf then t else m.fix t inf)

/-- The two sides of a port: meshes, test and trial spaces. -/
structure Sides (δ : Type) where
  mesh1 : FMesh δ
  mesh2 : FMesh δ
  test1 : Space
  test2 : Space
  trial1 : Space
  trial2 : Space

/-- Degrees of freedom of an element. -/
def dofsOf (s : Space) (e : Nat) : List Int := s.vdofs[e]?.getD []

/-- Test degrees of freedom of the element on side `i`. -/
def Sides.rows (s : Sides δ) (t1 t2 : Tr δ) (i : Nat) : List Int :=
  if i = 0 then dofsOf s.test1 t1.elem else dofsOf s.test2 t2.elem

/-- Trial degrees of freedom of the element on side `i`. -/
def Sides.cols (s : Sides δ) (t1 t2 : Tr δ) (i : Nat) : List Int :=
  if i = 0 then dofsOf s.trial1 t1.elem else dofsOf s.trial2 t2.elem

/-- The faces of an interface: both transformations, when both exist. -/
def Sides.face (s : Sides δ) (i : InterfaceInfo) : Option (Tr δ × Tr δ) :=
  match trOf s.mesh1 i.be1 i.inf1, trOf s.mesh2 i.be2 i.inf2 with
  | some t1, some t2 => some (t1, t2)
  | _, _ => none

/-- The four element matrices of one integrator on the sides `a`, `b`, seen as an addition to all
blocks: entry `(r, c)` of block `(p, q)`. -/
def blockTerm (a b : Nat) (rows cols : Nat → List Int) (em : Nat → Nat → Mat R) :
    Nat → Nat → Nat → Nat → R :=
  fun p q r c => ∑ i ∈ Finset.range 2, ∑ j ∈ Finset.range 2,
    if side a b i = p ∧ side a b j = q then scatter (rows i) (cols j) (em i j) r c else 0

/-- All integrators on one face. -/
def faceTerm (a b : Nat) (s : Sides δ) (fnfi : List (Option (Integ R δ)))
    (em : Integ R δ → Tr δ → Tr δ → Nat → Nat → Mat R) (i : InterfaceInfo) :
    Nat → Nat → Nat → Nat → R :=
  match s.face i with
  | none => 0
  | some (t1, t2) => (fnfi.map (fun g => match g with
      | none => 0
      | some g => blockTerm a b (s.rows t1 t2) (s.cols t1 t2) (em g t1 t2))).sum

/-! ## Ports and forms -/

/-- The two sides of a port of a form. -/
def sidesOf (f : Form R δ) (p : Port) : Sides δ :=
  let none_ : FMesh δ := ⟨fun _ => none, fun _ => 0, fun t _ => t⟩
  ⟨f.meshes[p.mesh1]?.getD none_, f.meshes[p.mesh2]?.getD none_,
    f.test[p.mesh1]?.getD ⟨0, []⟩, f.test[p.mesh2]?.getD ⟨0, []⟩,
    f.trial[p.mesh1]?.getD ⟨0, []⟩, f.trial[p.mesh2]?.getD ⟨0, []⟩⟩

/-- What one port adds to the blocks. -/
def portTerm (f : Form R δ) (em : Port → Integ R δ → Tr δ → Tr δ → Nat → Nat → Mat R) (p : Port) :
    Nat → Nat → Nat → Nat → R :=
  (p.infos.map (faceTerm p.mesh1 p.mesh2 (sidesOf f p) f.fnfi (em p))).sum

/-- What all ports add to the blocks. -/
def formTerm (f : Form R δ) (em : Port → Integ R δ → Tr δ → Tr δ → Nat → Nat → Mat R) :
    Nat → Nat → Nat → Nat → R :=
  (f.ports.map (portTerm f em)).sum

/-- The element matrices of the interface matrices. -/
def matOf : Port → Integ R δ → Tr δ → Tr δ → Nat → Nat → Mat R := fun _ g => g.mat

/-- The element matrices of the interface gradient at `x`. -/
def gradOf (f : Form R δ) (x : BlockVector R) : Port → Integ R δ → Tr δ → Tr δ → Nat → Nat → Mat R :=
  fun p g t1 t2 => g.grad t1 t2
    (gather (bent x p.mesh1) ((sidesOf f p).rows t1 t2 0))
    (gather (bent x p.mesh2) ((sidesOf f p).rows t1 t2 1))

/-- The element vectors of one integrator, seen as an addition to all blocks of a vector. -/
def vecBlockTerm (a b : Nat) (rows : Nat → List Int) (ev : Nat → List R) : Nat → Nat → R :=
  fun p r => ∑ i ∈ Finset.range 2, if side a b i = p then scatterVec (rows i) (ev i) r else 0

/-- All integrators on one face, matrix-free, at `x`. -/
def faceVec (a b : Nat) (s : Sides δ) (fnfi : List (Option (Integ R δ))) (x : BlockVector R)
    (i : InterfaceInfo) : Nat → Nat → R :=
  match s.face i with
  | none => 0
  | some (t1, t2) => (fnfi.map (fun g => match g with
      | none => 0
      | some g => vecBlockTerm a b (s.rows t1 t2) (g.vec t1 t2 (gather (bent x a) (s.rows t1 t2 0))
          (gather (bent x b) (s.rows t1 t2 1))))).sum

/-- What one port adds to the blocks of a vector. -/
def portVec (f : Form R δ) (x : BlockVector R) (p : Port) : Nat → Nat → R :=
  (p.infos.map (faceVec p.mesh1 p.mesh2 (sidesOf f p) f.fnfi x)).sum

/-- What all ports add to the blocks of a vector. -/
def formVec (f : Form R δ) (x : BlockVector R) : Nat → Nat → R := (f.ports.map (portVec f x)).sum

/-! ## Well-formed input -/

/-- Degrees of freedom of a space lie inside its vectors. -/
def SpaceOk (s : Space) : Prop := ∀ l ∈ s.vdofs, ∀ d ∈ l, dofPos d < s.vsize

/-- The sides of a port fit its interfaces: boundary elements with a corrected orientation exist, and
the adjacent elements belong to the spaces. -/
structure SidesOk (s : Sides δ) (infos : List InterfaceInfo) : Prop where
  orient1 : ∀ i ∈ infos, s.mesh1.inf i.be1 = i.inf1 ∨ s.mesh1.face i.be1 ≠ none
  orient2 : ∀ i ∈ infos, s.mesh2.inf i.be2 = i.inf2 ∨ s.mesh2.face i.be2 ≠ none
  elem : ∀ i ∈ infos, ∀ t1 t2, s.face i = some (t1, t2) →
    t1.elem < s.test1.vdofs.length ∧ t2.elem < s.test2.vdofs.length ∧
    t1.elem < s.trial1.vdofs.length ∧ t2.elem < s.trial2.vdofs.length
  spaces : SpaceOk s.test1 ∧ SpaceOk s.test2 ∧ SpaceOk s.trial1 ∧ SpaceOk s.trial2

/-- Every integrator is set and returns element matrices of the right shape on the faces. -/
def IntegsOk (s : Sides δ) (infos : List InterfaceInfo) (fnfi : List (Option (Integ R δ)))
    (em : Integ R δ → Tr δ → Tr δ → Nat → Nat → Mat R) : Prop :=
  ∀ g ∈ fnfi, ∃ g', g = some g' ∧ ∀ i ∈ infos, ∀ t1 t2, s.face i = some (t1, t2) →
    ∀ k l, k < 2 → l < 2 → (em g' t1 t2 k l).h = (s.rows t1 t2 k).length ∧
      (em g' t1 t2 k l).w = (s.cols t1 t2 l).length ∧ MatOk (em g' t1 t2 k l)

/-- Every integrator is set and returns element vectors of the right length on the faces. -/
def VecsOk (s : Sides δ) (infos : List InterfaceInfo) (fnfi : List (Option (Integ R δ))) : Prop :=
  ∀ g ∈ fnfi, ∃ g', g = some g' ∧ ∀ i ∈ infos, ∀ t1 t2, s.face i = some (t1, t2) →
    ∀ e1 e2 k, k < 2 → (s.rows t1 t2 k).length ≤ (g'.vec t1 t2 e1 e2 k).length

/-- A linear integrator: its element vectors are its element matrices applied to the element values. -/
def IsLinear (g : Integ R δ) : Prop :=
  ∀ t1 t2 e1 e2 k r, k < 2 → r < (g.mat t1 t2 k 0).h →
    ve (g.vec t1 t2 e1 e2 k) r =
      ∑ c ∈ Finset.range e1.length, ent (g.mat t1 t2 k 0) r c * ve e1 c +
      ∑ c ∈ Finset.range e2.length, ent (g.mat t1 t2 k 1) r c * ve e2 c

/-- A form whose ports join two different subdomains. -/
structure FormOk (f : Form R δ) : Prop where
  test : f.test.length = f.meshes.length
  trial : f.trial.length = f.meshes.length
  ports : ∀ p ∈ f.ports, p.mesh1 < f.meshes.length ∧ p.mesh2 < f.meshes.length ∧
    p.mesh1 ≠ p.mesh2 ∧ SidesOk (sidesOf f p) p.infos

/-- Size of the test (trial) space of a subdomain. -/
def sizeIn (l : List Space) (m : Nat) : Nat := (l[m]?.getD ⟨0, []⟩).vsize

/-- An `n × n` array of matrices, all present, block `(a, b)` of size `rz a × cz b`. -/
def MatsOk (mats : MatArr R) (n : Nat) (rz cz : Nat → Nat) : Prop :=
  mats.nr = n ∧ mats.nc = n ∧
    ∀ a b, a < n → b < n → ∃ s, mats.at_ a b = some s ∧ s.h = rz a ∧ s.w = cz b

/-- Entry `(r, c)` of block `(a, b)`. -/
def mget (mats : MatArr R) (a b r c : Nat) : R := ((mats.at_ a b).map (fun s => s.get r c)).getD 0

end Verif.InterfaceForm.Spec
