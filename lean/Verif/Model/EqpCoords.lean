import Verif.Model.Hdf5
import Verif.Model.Views

/-!
# Coordinates of hyper-reduction samples

The mode `print_eqp` of bin/main.cpp: `SteadyNSSolver::SaveEQPCoords` (src/steady_ns_solver.cpp:1427-1475)
with `ROMNonlinearForm::SaveDomainEQPCoords` (src/rom_nonlinearform.cpp:1521-1562), on rank 0.
-/

namespace Verif.EqpCoords

open Verif Verif.LinAlg Verif.Hdf5

variable {R P : Type}

/-- What `SaveDomainEQPCoords` uses of the form of one component: the number of its domain integrators
(`dnfi.Size()`), the points of the integration rule and the samples of the first of them (`none` is a null
pointer), and for every element the map from points of the rule to coordinates (external:
`ElementTransformation::Transform`). -/
structure Form (R P : Type) where
  numInteg : Nat
  rule : Option (List P)
  samples : Option (List (Sample R))
  elems : List (P → List R)

/-- `DenseMatrix::SetRow(i, v)` (external): reads as many entries as the matrix has columns; that `v` has
that size is asserted only in debug builds of MFEM.  `row j` is entry `j` of the buffer behind `v`. -/
def setRow (m : Mat R) (i : Nat) (row : Nat → R) : Outcome (Mat R) := do
  let d ← loop m.w (fun j d => wr d (i + j * m.h) (row j)) m.data
  return { m with data := d }

/-- The buffer `x[3]` after `T->Transform(ip, transip)`, src/rom_nonlinearform.cpp:1544-1546: `Transform`
sets the size of `transip` to the dimension of space and writes that many entries; the others are not
initialised, `junk` stands for their contents. -/
def buffer (x : List R) (junk : Nat → R) (j : Nat) : R := x[j]?.getD (junk j)

/-- `SaveDomainEQPCoords`, src/rom_nonlinearform.cpp:1521-1562; `junk i` are the uninitialised contents of
`x[3]` for sample `i`. -/
def saveDomain [Zero R] (c : Form R P) (k : Int) (junk : Nat → Nat → R) (f : File R) (loc : Loc)
    (dset : String) : Outcome (File R) := do
  if c.numInteg = 0 then return f
  else do
    require (decide (0 ≤ k) && decide (k < c.numInteg))
    require c.rule.isSome
    require c.samples.isSome
    let ir := c.rule.getD []
    let l := c.samples.getD []
    let m ← loop l.length (fun i m => do
      let s ← rd l i
      let t ← rdI c.elems s.el
      let ip ← rdI ir s.qp
      setRow m i (buffer (t ip) (junk i))) (⟨l.length, 3, List.replicate (l.length * 3) 0⟩ : Mat R)
    let f ← create f ⟨loc, dset, false⟩ .group
    writeDense f (dset :: loc) "coords" m

/-- `SaveEQPCoords`, src/steady_ns_solver.cpp:1427-1475: `comp` is `topol_mode == COMPONENT`, `lf` is
`oper_type == OperType::LF`, `forms` is `comp_eqps` (`none` is a null pointer), `names` the component
names.  The file is created anew. -/
def saveCoords [Zero R] (comp lf fullDg : Bool) (names : List String) (forms : List (Option (Form R P)))
    (junk : Nat → Nat → Nat → R) : Outcome (File R) := do
  require comp
  let f ← create ([] : File R) ⟨[], "components", false⟩ .group
  require (forms.length == names.length)
  let f ← writeAttr f ["components"] "number_of_components" names.length
  loop names.length (fun c f => do
    let form ← rd forms c
    require form.isSome
    let form ← deref form
    let name ← rd names c
    let f ← saveDomain form 0 (junk c) f ["components"] (name ++ "_integ0")
    if lf then require (!fullDg)
    return f) f

end Verif.EqpCoords
