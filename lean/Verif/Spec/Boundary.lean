import Verif.Model.Boundary
import Mathlib.Algebra.BigOperators.Group.List.Basic

/-!
# What boundary conditions mean

`attrs` lists the global boundary attributes; position `b` of the other lists belongs to the
boundary with attribute `attrs[b]`.
-/

namespace Verif.Spec

open Verif.Boundary

variable {F : Type}

/-- The lists of the state have one entry per global boundary. -/
def _root_.Verif.Boundary.Wf (s : BC F) : Prop :=
  s.coeffs.length = s.attrs.length ∧ s.types.length = s.attrs.length

/-- A problem the solvers accept: the lists have the same length and every Dirichlet entry has a
function. -/
def _root_.Verif.Boundary.Problem.Valid (p : Problem F) : Prop :=
  p.types.length = p.battr.length ∧ p.ptr.length = p.battr.length ∧
    ∀ b : Nat, p.types[b]? = some .dirichlet → ∃ f, p.ptr[b]? = some (some f)

/-- Boundary `b` carries the weakly imposed Dirichlet condition `f` on a mesh whose boundary
attributes are `mesh`: its attribute is on the mesh, a function is assigned and it is not a Neumann
boundary. -/
def WeakDirichlet (attrs : List Int) (coeffs : List (Option F)) (types : List BdrType)
    (mesh : List Int) (b : Nat) (f : F) : Prop :=
  (∃ a, attrs[b]? = some a ∧ a ∈ mesh) ∧ coeffs[b]? = some (some f) ∧ types[b]? ≠ some .neumann

/-- A call `AddBCFunction(f, battr)` addresses the boundary with attribute `a`. -/
def Addresses (battr a : Int) : Prop := battr ≤ 0 ∨ battr = a

instance (battr a : Int) : Decidable (Addresses battr a) := by unfold Addresses; infer_instance

/-- The function of the last of the calls `(f, battr)` that addresses attribute `a`. -/
def lastFor (calls : List (F × Int)) (a : Int) : Option F :=
  ((calls.filter fun c => Addresses c.2 a).getLast?).map (·.1)

/-- The `AddBCFunction` calls a problem stands for: Dirichlet entries assign their function, Neumann
entries nothing, all others the zero function. -/
def problemCalls (zero : F) (p : Problem F) : List (F × Int) :=
  (List.range p.battr.length).flatMap fun b =>
    match p.battr[b]?, p.types[b]? with
    | some a, some .dirichlet =>
      match p.ptr[b]? with
      | some (some f) => [(f, a)]
      | _ => []
    | some _, some .neumann => []
    | some a, some _ => [(zero, a)]
    | _, _ => []

/-- The total of a quantity over the boundary elements that belong to marked boundaries. -/
def boundarySum {K : Type} [AddCommMonoid K] (attrs : List Int) (nz : List Bool)
    (elems : List (List (BdrElem K))) (q : Nat → BdrElem K → K) : K :=
  (elems.flatten.map fun e =>
    match attrs.findIdx? (· == e.attr) with
    | some i => if nz[i]? = some true then q i e else 0
    | none => 0).sum

/-- The quadrature value of the flux of `u` through a boundary element. -/
def fluxThrough {K : Type} [Semiring K] (u : List K → List K) (e : BdrElem K) : K :=
  (e.pts.map fun q => q.w * (List.zipWith (· * ·) (u q.x) q.nor).sum).sum

/-- The area of a boundary element by quadrature. -/
def area {K : Type} [Semiring K] (e : BdrElem K) : K := (e.pts.map fun q => q.jac * q.w).sum

/-- The integral of the `k`-th coordinate over a boundary element by quadrature. -/
def moment {K : Type} [Semiring K] (k : Nat) (e : BdrElem K) : K :=
  (e.pts.map fun q => (q.x[k]?).getD 0 * (q.jac * q.w)).sum

/-- The centre of the marked boundaries. -/
def centre {K : Type} [Field K] (dim : Nat) (attrs : List Int) (nz : List Bool)
    (elems : List (List (BdrElem K))) : List K :=
  (List.range dim).map fun k =>
    boundarySum attrs nz elems (fun _ e => moment k e) / boundarySum attrs nz elems (fun _ e => area e)

end Verif.Spec
