import Verif.Model.Convection
import Verif.Model.Blocks
import Verif.Model.Hdf5
import Verif.Model.EqpComp

/-!
# The reduced convection tensor of the Navier-Stokes ROM

Models `SteadyNSSolver::GetReducedTensor` and the routines that build, store and distribute the tensors
(src/steady_ns_solver.cpp:886-997, 1380-1424), and the operator they enter, `SteadyNSROM` and
`SteadyNSTensorROM` (src/steady_ns_solver.cpp:162-247).

The hypre copies of the Jacobian, and the ownership of the last Jacobian, are not modelled.
-/

namespace Verif.TensorRom

open Verif Verif.LinAlg Verif.Convection Verif.Hdf5
open Verif.Blocks (Order getBlockIndex)
open Verif.EqpComp (OperType)

variable {R : Type}

/-- One element of a velocity space: number of scalar shape functions, dimension, degrees of freedom
(`GetElementVDofs`) and the points of the integration rule `ir_nl` with their weights. -/
structure Elem (R : Type) where
  nd : Nat
  dim : Nat
  dofs : List Int
  pts : List (Pt R × R)
deriving DecidableEq, Repr

/-- A velocity space: `GetTrueVSize()` and its elements. -/
structure Fes (R : Type) where
  size : Nat
  elems : List (Elem R)
deriving DecidableEq, Repr

section
variable [CommRing R]

/-- `VectorGridFunctionCoefficient::Eval` (external) at the point `p`, for the field with element
coefficients `u`. -/
def evalAt (p : Pt R) (u : List R) : List R := (⟨p.nd, p.dim, u⟩ : Mat R).mulTV p.shape

/-- A quadrature point at which `vQ` has the value `v`. -/
def setVq (p : Pt R) (v : List R) : Pt R := { p with vq := some v }

/-- The points of an element with the field `w` as the coefficient `vQ` of the integrator. -/
def withField (E : Elem R) (w : List R) : Outcome (List (Pt R × R)) := do
  let wl ← getSubVector w E.dofs
  return E.pts.map (fun pw => (setVq pw.1 (evalAt pw.1 wl), pw.2))

/-- `NonlinearForm::Mult(x, y)` (external) of the form with a
`VectorConvectionTrilinearFormIntegrator(*zeta_coeff, &ui_coeff)` built in
src/steady_ns_solver.cpp:1401-1407; `w` is the field of `ui_coeff`. -/
def formMult (V : Fes R) (w x : List R) : Outcome (List R) :=
  loop V.elems.length (fun e y => do
    let E ← rd V.elems e
    let el ← getSubVector x E.dofs
    let pts ← withField E w
    addElementVector y 0 E.dofs (triElemVec E.nd E.dim pts el)) (vof V.size (fun _ => 0))

/-- `u.SetDataAndSize(basis->GetColumn(i), n)`: the first `n` entries seen from the start of column `i`. -/
def colHead (b : Mat R) (i n : Nat) : Outcome (List R) := getSeg b.data (i * b.h) n

/-- `GetReducedTensor`, src/steady_ns_solver.cpp:1380-1424.  `junk` is the uninitialised tensor. -/
def reducedTensor (oper : OperType) (basis : Option (Mat R)) (fes : Option (Fes R)) (junk : Nat → R) :
    Outcome (Tensor R) := do
  let b ← nonNull basis
  let V ← nonNull fes
  require (decide (V.size ≤ b.h))
  require (decide (oper ≠ .lf))
  let nb := b.w
  let data ← loop nb (fun i data => do
    let ui ← colHead b i V.size
    loop nb (fun j data => do
      let uj ← colHead b j V.size
      let tmp ← formMult V ui uj
      loop nb (fun k data => do
        let uk ← colHead b k V.size
        wr data (i + j * nb + k * (nb * nb)) (vdot V.size uk tmp)) data) data)
    (vof (nb * nb * nb) junk)
  return ⟨nb, nb, nb, data⟩

/-- `BuildROMTensorElems`, src/steady_ns_solver.cpp:886-904: `refBasis` are the reference bases of the
ROM handler (`GetReferenceBasis`), `compFes` the spaces of the components, one per variable. -/
def build (oper : OperType) (numVar numComp : Nat) (sepBasis : Bool) (refBasis : List (Mat R))
    (compFes : List (Fes R)) (junk : Nat → R) : Outcome (List (Option (Tensor R))) :=
  loop numComp (fun c ts => do
    let fidx := c * numVar
    let cidx := if sepBasis then fidx else c
    let b ← rd refBasis cidx
    let V ← rd compFes fidx
    let t ← reducedTensor oper (some b) (some V) junk
    wr ts c (some t)) (List.replicate numComp none)

/-- The tensor part of `ProjectOperatorOnReducedBasis`, src/steady_ns_solver.cpp:745-755: `domBasis` are
the bases of the blocks (`GetDomainBasis`), `ufes` the velocity spaces of the subdomains. -/
def buildGlobal (oper : OperType) (numVar : Nat) (separate : Bool) (ord : Order) (domBasis : List (Mat R))
    (ufes : List (Fes R)) (junk : Nat → R) : Outcome (List (Option (Tensor R))) :=
  loop ufes.length (fun m ts => do
    let idx ← getBlockIndex separate ord ufes.length numVar m 0
    let b ← rdI domBasis idx
    let V ← rd ufes m
    let t ← reducedTensor oper (some b) (some V) junk
    wr ts m (some t)) (List.replicate ufes.length none)

end

/-- `AssembleROMTensorOper`, src/steady_ns_solver.cpp:985-996; `GetRefIndexForSubdomain` is the component
of the subdomain (src/rom_handler.cpp:276-281). -/
def assemble (numComp : Nat) (meshType : List Nat) (ts : List (Option (Tensor R))) :
    Outcome (List (Option (Tensor R))) := do
  require (decide (ts.length = numComp))
  loop meshType.length (fun m subs => do
    let c ← rd meshType m
    let t ← rd ts c
    wr subs m t) (List.replicate meshType.length none)

/-! ## Storage -/

/-- A tensor and its buffer as `hdf5_utils` sees it. -/
def toTens (t : Tensor R) : Tens R := ⟨t.nI, t.nJ, t.nK, t.data⟩

/-- The inverse of `toTens`. -/
def ofTens (t : Tens R) : Tensor R := ⟨t.si, t.sj, t.sk, t.data⟩

/-- `SaveROMTensorElems`, src/steady_ns_solver.cpp:906-944; `f` is the new file. -/
def saveTensors (names : List String) (ts : List (Option (Tensor R))) (f : File R) : Outcome (File R) := do
  require (decide (ts.length = names.length))
  let f ← create f ⟨[], "components", false⟩ .group
  loop names.length (fun c f => do
    let p ← rd ts c
    let t ← nonNull p
    let name ← rd names c
    let f ← create f ⟨["components"], name, false⟩ .group
    writeTensor f [name, "components"] "tensor" (toTens t)) f

/-- `LoadROMTensorElems`, src/steady_ns_solver.cpp:946-983; the previous tensors are forgotten. -/
def loadTensors (names : List String) (ts : List (Option (Tensor R))) (f : File R) (junk : Nat → R) :
    Outcome (List (Option (Tensor R))) := do
  require (decide (ts.length = names.length))
  let g ← openGroup f [] "components"
  loop names.length (fun c ts => do
    let name ← rd names c
    let cg ← openGroup f g name
    let t ← readTensor f cg "tensor" ⟨0, 0, 0, []⟩ junk
    wr ts c (some (ofTens t))) ts

/-! ## The operator -/

/-- `SteadyNSTensorROM`: the linear operator, block offsets, velocity blocks `midxs`, index arrays
`block_idxs` and tensors `hs`. -/
structure Rom (R : Type) where
  linear : Sp R
  offs : List Nat
  midxs : List Int
  idxs : List (List Int)
  hs : List (Option (Tensor R))
deriving DecidableEq, Repr

/-- `SteadyNSROM::SteadyNSROM`, src/steady_ns_solver.cpp:162-189; `separate` and `ord` are those of the
ROM handler.  Offsets never decrease, so the sizes are natural numbers. -/
def construct (linear : Sp R) (offs : List Nat) (numVar numSub : Nat) (separate : Bool) (ord : Order)
    (hs : List (Option (Tensor R))) : Outcome (Rom R) := do
  require (decide (offs.length = numVar * numSub + 1) || decide (offs.length = numSub + 1))
  let st ← loop numSub (fun m (st : List Int × List (List Int)) => do
    let midx ← getBlockIndex separate ord numSub numVar m 0
    let o1 ← rdI offs (midx + 1)
    let o ← rdI offs midx
    return (st.1 ++ [midx], st.2 ++ [(List.range (o1 - o)).map (fun k => ((o + k : Nat) : Int))])) ([], [])
  return ⟨linear, offs, st.1, st.2, hs⟩

section
variable [CommRing R]

/-- The body of the loop of `SteadyNSTensorROM::Mult`, src/steady_ns_solver.cpp:205-211.  The views
`x_comp` and `y_comp` share the storage of `x` and `y`; `TensorAddScaledContract` resizes `y_comp`, which
gives it storage of its own when it has to grow, so that `y` keeps its values. -/
def multBlock (r : Rom R) (x : List R) (m : Nat) (y : List R) (junk : Nat → R) : Outcome (List R) := do
  let midx ← rd r.midxs m
  let o ← rdI r.offs midx
  let o1 ← rdI r.offs (midx + 1)
  let xc ← getSeg x o (o1 - o)
  let yc ← getSeg y o (o1 - o)
  let p ← rd r.hs m
  let h ← deref p
  let yc ← tensorAddScaledContract h 1 xc xc yc junk
  if h.nK ≤ o1 - o then setSeg y o yc else return y

/-- `SteadyNSTensorROM::Mult`, src/steady_ns_solver.cpp:199-212. -/
def mult (r : Rom R) (x : List R) (junk : Nat → R) : Outcome (List R) := do
  let y ← r.linear.addMult x (vof r.linear.h (fun _ => 0)) 1
  loop r.midxs.length (fun m y => multBlock r x m y junk) y

/-- `SparseMatrix::_Add_` (external) on a finalized matrix: the entry must be stored already. -/
def addStored (s : Sp R) (i j : Nat) (v : R) : Outcome (Sp R) :=
  if i < s.h ∧ j < s.w then
    if s.ents.any (fun e => e.1 == (i, j)) then s.add i j v else .error .abort
  else .error .ub

/-- `SparseMatrix::AddSubMatrix(rows, rows, a)` (external) on a finalized matrix, with the default
`skip_zeros = 1`: a zero entry is skipped when the opposite one is zero too. -/
def addSubStored [DecidableEq R] (rows : List Int) (a : Mat R) (s : Sp R) : Outcome (Sp R) :=
  loop rows.length (fun i s => loop rows.length (fun j s => do
    let r ← rd rows i
    let c ← rd rows j
    let v ← rd a.data (i + j * a.h)
    let v' ← rd a.data (j + i * a.h)
    if v = 0 ∧ v' = 0 then return s
    else addStored s (dofIdx r) (dofIdx c) (dofSgn r * dofSgn c * v)) s) s

/-- The matrix `jac_comp` of subdomain `m`, src/steady_ns_solver.cpp:224-230. -/
def jacBlock (r : Rom R) (x : List R) (m : Nat) : Outcome (Mat R) := do
  let midx ← rd r.midxs m
  let o ← rdI r.offs midx
  let o1 ← rdI r.offs (midx + 1)
  let xc ← getSeg x o (o1 - o)
  let p ← rd r.hs m
  let h ← deref p
  let j ← tensorAddMultTranspose h xc 0 (zeroMat (o1 - o))
  tensorAddMultTranspose h xc 1 j

/-- `SteadyNSTensorROM::GetGradient`, src/steady_ns_solver.cpp:214-242. -/
def getGradient [DecidableEq R] (r : Rom R) (x : List R) : Outcome (Sp R) :=
  loop r.midxs.length (fun m jac => do
    let j ← jacBlock r x m
    let idx ← rd r.idxs m
    addSubStored idx j jac) r.linear

end

end Verif.TensorRom
