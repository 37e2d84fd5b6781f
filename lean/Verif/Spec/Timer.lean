import Verif.Model.Timer

/-!
# What the time profiler should report
-/

namespace Verif.Timer.Spec

open Verif.Timer

/-- The label of a call. -/
def label : Ev → String
  | .start n _ => n
  | .stop n _ => n

/-- The calls for one label. -/
def ofLabel (x : String) (h : List Ev) : List Ev := h.filter fun e => label e = x

/-- The calls for a label alternate, beginning with a start: `l` are the completed intervals and `o` is the
beginning of the interval still open, if any. -/
inductive Intervals (x : String) : List Ev → List (Int × Int) → Option Int → Prop where
  | none : Intervals x [] [] none
  | start {h l} (t : Int) (hh : Intervals x h l .none) : Intervals x (h ++ [.start x t]) l (some t)
  | stop {h l a} (t : Int) (hh : Intervals x h l (some a)) :
      Intervals x (h ++ [.stop x t]) (l ++ [(a, t)]) .none

/-- The length of all completed intervals. -/
def total (l : List (Int × Int)) : Int := (l.map fun i => i.2 - i.1).sum

/-- Every label's calls alternate. -/
def WellMatched (h : List Ev) : Prop := ∀ x, ∃ l o, Intervals x (ofLabel x h) l o

/-- No interval is open. -/
def AllStopped (h : List Ev) : Prop := ∀ x, ∃ l, Intervals x (ofLabel x h) l none

/-- The labels in order of their first call. -/
def labels (h : List Ev) : List String :=
  h.foldl (fun acc e => if label e ∈ acc then acc else acc ++ [label e]) []

end Verif.Timer.Spec
