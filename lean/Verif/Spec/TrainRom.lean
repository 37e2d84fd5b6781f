import Verif.Model.TrainRom
import Verif.Spec.Snapshots
import Verif.Spec.Options

/-! Specification vocabulary for training and loading bases. -/

namespace Verif.TrainRom.Spec

open Verif Verif.Snapshots Verif.Snapshots.Spec Verif.TrainRom
open Verif.Options (Node Conv key pieces)
open Verif.Options.Spec (At)

variable {V : Type}

/-- The variables that have a basis of their own: those of the solver, or one nameless one. -/
def slots (separate : Bool) (vars : List String) : List String := if separate then vars else [""]

/-- Every variable of every component. -/
def tagsOf (names slots : List String) : List BasisTag :=
  names.flatMap fun c => slots.map fun w => ⟨c, w⟩

/-- The blocks of variable `v` of sample `s` on the subdomains that are instances of component `comp`. -/
def blocksIn (s : Sample V) (comp : String) (v : Nat) : List V :=
  ((List.range s.topo.meshType.length).filter fun m => decide (compOf s.topo m = some comp)).filterMap
    fun m => s.blocks[m * s.vars.length + v]?

/-- All snapshots of variable `v` of component `comp`, sample by sample. -/
def snapshotsOf (hist : List (Sample V)) (comp : String) (v : Nat) : List V :=
  hist.flatMap fun s => blocksIn s comp v

/-- Some sample has a subdomain that is an instance of the component. -/
def Sampled (hist : List (Sample V)) (comp : String) : Prop :=
  ∃ s ∈ hist, ∃ m, compOf s.topo m = some comp

/-- The `i`-th entry of the list `mesh/component-wise/components` has the name `names[i]`. -/
def Names (cv : Conv) (es : List Node) (names : List String) : Prop :=
  List.Forall₂ (fun e n => ∃ x, At e (pieces '/' (key "name")) x ∧ cv.str x = .ok n) es names

/-- The files exist and hold these columns. -/
def Hold (fs : FS V) (files : List String) (data : List (List V)) : Prop :=
  List.Forall₂ (fun f d => fs f = some d) files data

/-- `k` copies of a list, one after the other. -/
def copies (k : Nat) (l : List V) : List V := (List.replicate k l).flatten

end Verif.TrainRom.Spec
