import Verif.Model.Cfl
import Verif.Spec.DivideFlow
import Verif.Spec.RomHandler

/-!
# Specification: the CFL number of a velocity on the undivided mesh
-/

namespace Verif.Cfl.Spec

open Verif Verif.LinAlg Verif.LinAlg.Spec Verif.Cfl Verif.SubMesh
open Verif.Divide.Spec (valuesOn pos)
open Verif.InterfaceForm (Space)

variable {R : Type}

/-- Velocities on the parent mesh: size of an element, order of the space, number of points of the
integration rule of an element and value of component `c` at point `i` of element `e`, given its degrees of
freedom. -/
structure Cells (R : Type) where
  n : Nat → Nat
  h : Nat → R
  p : Nat
  pts : Nat → Nat
  val : Nat → Nat → List R → Nat → R

section
variable [Field R] [LinearOrder R]

/-- The CFL number of the velocity `υ` at point `i` of element `e` in `d` dimensions: length of the step
times the sum of the sizes of the components of the velocity, divided by `h / p`. -/
def courant (C : Cells R) (d : Nat) (dt : R) (υ : Nat → Nat → R) (e i : Nat) : R :=
  |dt| * (∑ c ∈ Finset.range d, |C.val e (c + 1) (valuesOn C.n υ e) i|) * (C.p : R) / C.h e

/-- `c` is the largest CFL number at the points of the parent mesh, or zero if there are none. -/
structure IsLargest (C : Cells R) (pm : Parent) (d : Nat) (dt : R) (υ : Nat → Nat → R) (c : R) : Prop where
  bound : ∀ e i, e < pm.elemEdges.length → i < C.pts e → courant C d dt υ e i ≤ c
  reached : (∃ e i, e < pm.elemEdges.length ∧ i < C.pts e ∧ c = courant C d dt υ e i) ∨
    c = 0 ∧ ∀ e, e < pm.elemEdges.length → C.pts e = 0

/-- What MFEM delivers on the submeshes: sizes, orders, rules and values are those of the parent elements,
whatever the numbering of elements and degrees of freedom. -/
structure CflFits (C : Cells R) (d : Nat) (subs : List Sub) (spaces : List Space)
    (views : List (VelView R)) : Prop where
  count : views.length = subs.length
  elems : ∀ (k : Nat) sm v, subs[k]? = some sm → views[k]? = some v →
    v.orders.length = sm.elemMap.length ∧ v.sizes.length = sm.elemMap.length ∧ ∀ p ∈ v.orders, p = C.p
  at_elem : ∀ (k : Nat) sm s v (i e : Nat), subs[k]? = some sm → spaces[k]? = some s → views[k]? = some v →
    sm.elemMap[i]? = some e → v.sizes[i]? = some (C.h e) ∧ v.pts i = C.pts e ∧
      ∀ c blk, 1 ≤ c → c ≤ d →
        v.vals blk i c = tab (C.pts e) (C.val e c (tab (C.n e) fun b => ve blk (pos s i b)))

end

end Verif.Cfl.Spec
