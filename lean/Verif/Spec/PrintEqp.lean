import Verif.Spec.EqpPipeline
import Verif.Spec.EqpCoords
import Verif.Model.PrintEqp

/-! # Specification: printing the coordinates of trained samples -/

namespace Verif.PrintEqp.Spec

open Verif Verif.Hdf5 Verif.EqpComp Verif.EqpPipeline Verif.EqpPipeline.Spec

variable {P Q R δ X : Type}

/-- Point `qp` of element `el` of component `c` of the printing run has the coordinates `x`. -/
def PointAt (V : Printer R X) (c : Nat) (el qp : Int) (x : List R) : Prop :=
  ∃ (e q : Nat) (els : List (X → List R)) (t : X → List R) (p : X), el = e ∧ qp = q ∧
    V.elems[c]? = some els ∧ els[e]? = some t ∧ V.rule[q]? = some p ∧ x = t p

/-- The printing run as one that loads samples; it has no subdomain forms. -/
def loader (V : Printer R X) : Runner := ⟨V.setup, V.topo, V.submesh, ⟨[], [], [], [], []⟩⟩

/-- A printing run in dimension `d` whose components have distinct names, all of which were trained, with the
same operator; interior faces are not supported. -/
structure Matches (d : Nat) (T : Trainer P Q R δ) (V : Printer R X) : Prop where
  nonlinear : V.nonlinear = true
  useRom : V.useRom = true
  suits : Suits T (loader V)
  distinct : V.setup.names.Nodup
  meshes : V.elems.length = V.setup.names.length
  lf : V.setup.oper = .lf → V.setup.fullDg = false
  dim : ∀ c el qp x, PointAt V c el qp x → x.length = d

end Verif.PrintEqp.Spec
