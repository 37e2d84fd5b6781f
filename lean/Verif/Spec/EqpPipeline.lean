import Verif.Spec.EqpComp
import Verif.Spec.EqpStore
import Verif.Model.EqpPipeline

/-! # What training and running with hyper-reduction samples should achieve -/

namespace Verif.EqpPipeline.Spec

open Verif Verif.Hdf5 Verif.EqpComp Verif.EqpPipeline
open Verif.EqpStore (Samples Topo)
open Verif.EqpStore.Spec (TopoOk NamesOk SamePort)
open Verif.EqpComp.Spec (BdrOk)

variable {P Q R δ : Type}

/-- The samples a form has for its integrators of each type, as they are written to a file. -/
def samplesAt (f : Eqp.Form P R) : IntegType → Nat → Option (Samples R)
  | .domain, k => (f.dnfi[k]?.bind Eqp.Entry.samples).map (·.map plain)
  | .interiorFace, k => (f.fnfi[k]?.bind Eqp.Entry.samples).map (·.map plain)
  | .bdrFace, k => (f.bfnfi[k]?.bind fun e => e.1.samples).map (·.map plain)
  | _, _ => none

/-- The samples an interface form has for reference port `r`. -/
def samplesOn (f : TrainItf.RefForm Q R δ) (r : Nat) : Option (Samples R) :=
  (f.refs[r]?.getD none).map (·.map plain)

/-- A training run whose data set names are unambiguous: component names differ, and for the operator with
interface terms they contain no colon, reference ports differ and join existing components. -/
structure TrainerOk (T : Trainer P Q R δ) : Prop where
  names : (T.comps.map Comp.name).Nodup
  topo : T.oper = .lf → TopoOk T.topo ∧ NamesOk T.topo

/-- A later run with the same operator, all of whose components and reference ports occur, by name (and
attributes), in the training run. -/
structure Suits (T : Trainer P Q R δ) (L : Runner) : Prop where
  oper : L.setup.oper = T.oper
  fullDg : L.setup.fullDg = T.fullDg
  submesh : L.submesh = false
  nbdr : L.setup.nbdr.length = L.setup.names.length
  fewer : L.setup.names.length ≤ T.comps.length
  comps : ∀ c2, c2 < L.setup.names.length → ∃ (c : Nat) (k : Comp), T.comps[c]? = some k ∧
    L.setup.names[c2]? = some k.name ∧ L.setup.nbdr[c2]? = some k.attrs.length
  bdr : BdrOk L.setup L.bdr
  ports : T.oper = .lf → TopoOk L.topo ∧ (∀ n ∈ L.topo.names, ':' ∉ n.toList) ∧
    (∀ rp ∈ L.topo.refPorts, 0 ≤ rp.a1 ∧ 0 ≤ rp.a2) ∧
    ∀ r2, r2 < L.topo.refPorts.length → ∃ r, r < T.ports.length ∧ SamePort T.topo L.topo r r2

end Verif.EqpPipeline.Spec
