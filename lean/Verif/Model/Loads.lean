import Verif.Model.Temam

/-!
# Boundary loads of the Stokes system

Models `DGVectorDirichletLFIntegrator`, `DGBoundaryNormalLFIntegrator` and `BoundaryNormalStressLFIntegrator` of
`src/dg_linear.cpp`.  What MFEM supplies at a quadrature point is an arbitrary input; arithmetic is exact and a
division by zero is a fault.  Vectors are one-column matrices.
-/

namespace Verif.Loads

open Verif Verif.LinAlg Verif.Penalty Verif.Temam

variable {R : Type}

section
variable [Field R] [DecidableEq R]

/-- A quadrature point of the Dirichlet load: the point of the boundary face (the first side is the element) and the
prescribed velocity. -/
structure DPt (R : Type) where
  p : Pt R
  g : Nat → R

/-- One point of `DGVectorDirichletLFIntegrator::AssembleRHSElementVect`, src/dg_linear.cpp:54-143.  The running
index `i` is `im * ndofs + idof`. -/
def dirichletPt (dim nd : Nat) (alpha kappa : R) (q : DPt R) (x : Blk R) : Outcome (Blk R) := do
  let s := q.p.s1
  let ps := mulMat dim s.dshape s.adj
  let w ← fdiv q.p.wt s.det
  let wM := w * s.mu
  let jcoef := kappa * wM * dot dim q.p.nor q.p.nor
  let dn := mulVec dim ps q.p.nor
  let wM := wM * alpha
  loop dim (fun im x =>
    let t2 := wM * q.g im
    let tj := jcoef * q.g im
    loop nd (fun id x => addAt x (im * nd + id) 0 (t2 * dn id + tj * s.shape id)) x) x

/-- `DGVectorDirichletLFIntegrator::AssembleRHSElementVect`, src/dg_linear.cpp:16-144. -/
def dirichlet (dim nd : Nat) (alpha kappa : R) (pts : List (DPt R)) : Outcome (Blk R) :=
  over pts (dirichletPt dim nd alpha kappa) (zeros (dim * nd) 1)

/-- A quadrature point of the other loads: weight, normal, data, shape functions. -/
structure NPt (R : Type) where
  wt : R
  nor : Nat → R
  g : Nat → R
  shape : Nat → R

/-- One point of `DGBoundaryNormalLFIntegrator::AssembleRHSElementVect`, src/dg_linear.cpp:168-187 and 210-230. -/
def normalPt (dim nd : Nat) (p : NPt R) (x : Blk R) : Outcome (Blk R) :=
  let a := p.wt * dot dim p.g p.nor
  loop nd (fun j x => addAt x j 0 (a * p.shape j)) x

/-- `DGBoundaryNormalLFIntegrator::AssembleRHSElementVect`, src/dg_linear.cpp:150-188 and 190-231; both overloads,
which differ in how the normal and the data are evaluated. -/
def normal (dim nd : Nat) (pts : List (NPt R)) : Outcome (Blk R) :=
  over pts (normalPt dim nd) (zeros nd 1)

/-- One point of `BoundaryNormalStressLFIntegrator::AssembleRHSElementVect`, src/dg_linear.cpp:256-278 and 302-330;
the data are the `dim * dim` entries of the stress, column by column. -/
def stressPt (dim nd : Nat) (p : NPt R) (x : Blk R) : Outcome (Blk R) :=
  let fn := fun k => mulVec dim (fun k l => p.g (k + dim * l)) p.nor k * p.wt
  loop dim (fun k x => loop nd (fun j x => addAt x (k * nd + j) 0 (fn k * p.shape j)) x) x

/-- `BoundaryNormalStressLFIntegrator::AssembleRHSElementVect`, src/dg_linear.cpp:237-279 and 281-331. -/
def stress (dim nd : Nat) (pts : List (NPt R)) : Outcome (Blk R) :=
  over pts (stressPt dim nd) (zeros (dim * nd) 1)

end

end Verif.Loads
