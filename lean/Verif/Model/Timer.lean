import Verif.Model.Basic

/-!
# The time profiler (`include/etc.hpp`)

Clock readings are integers (ticks) and are handed to every operation; nothing is assumed about them.
Floating point rounding of the accumulated times is not modelled.
-/

namespace Verif.Timer

open Verif

/-- A stopwatch of MFEM (`general/tic_toc.cpp`, external, modelled by its contract): it accumulates the
ticks between starting and stopping; starting a running one and stopping a stopped one do nothing. -/
structure Watch where
  running : Bool
  start : Int
  total : Int
deriving DecidableEq, Repr

/-- A new stopwatch. -/
def Watch.new : Watch := ⟨false, 0, 0⟩

/-- Start a stopwatch. -/
def Watch.begin (now : Int) (w : Watch) : Watch := if w.running then w else ⟨true, now, w.total⟩

/-- Stop a stopwatch. -/
def Watch.stop (now : Int) (w : Watch) : Watch :=
  if w.running then ⟨false, w.start, w.total + (now - w.start)⟩ else w

/-- The accumulated time, including a running interval. -/
def Watch.realTime (now : Int) (w : Watch) : Int :=
  if w.running then w.total + (now - w.start) else w.total

/-- The members of `TimeProfiler` (`include/etc.hpp:45-52`). The hash map `indices` is an association list
in order of insertion. -/
structure Profiler where
  timers : List Watch
  calls : List Nat
  starts : List Bool
  names : List String
  indices : List (String × Nat)
deriving DecidableEq, Repr

/-- A new profiler (`include/etc.hpp:58-65`). -/
def new : Profiler := ⟨[], [], [], [], []⟩

/-- Looking up a label in `indices`. -/
def indexOf (name : String) : List (String × Nat) → Option Nat
  | [] => none
  | (n, i) :: l => if n = name then some i else indexOf name l

/-- A label seen for the first time gets a new timer (`include/etc.hpp:80-87`). -/
def register (name : String) (p : Profiler) : Profiler :=
  match indexOf name p.indices with
  | some _ => p
  | none => ⟨p.timers ++ [Watch.new], p.calls ++ [0], p.starts ++ [false], p.names ++ [name],
      p.indices ++ [(name, p.timers.length)]⟩

/-- The assertion that a label is known, and its index (`include/etc.hpp:89-91`, `104-106`). -/
def known (name : String) (p : Profiler) : Outcome Nat :=
  match indexOf name p.indices with
  | some i => .ok i
  | none => .error .abort

/-- `TimeProfiler::Start` after registration (`include/etc.hpp:89-99`). -/
def startKnown (name : String) (now : Int) (p : Profiler) : Outcome Profiler := do
  let idx ← known name p
  let s ← rd p.starts idx
  require (!s)
  let w ← rd p.timers idx
  let timers ← wr p.timers idx (w.begin now)
  let starts ← wr p.starts idx true
  .ok ⟨timers, p.calls, starts, p.names, p.indices⟩

/-- `TimeProfiler::Start` (`include/etc.hpp:78-100`). -/
def startLabel (name : String) (now : Int) (p : Profiler) : Outcome Profiler :=
  startKnown name now (register name p)

/-- `TimeProfiler::Stop` (`include/etc.hpp:102-117`). -/
def stopLabel (name : String) (now : Int) (p : Profiler) : Outcome Profiler := do
  let idx ← known name p
  let s ← rd p.starts idx
  require s
  let w ← rd p.timers idx
  let timers ← wr p.timers idx (w.stop now)
  let c ← rd p.calls idx
  let calls ← wr p.calls idx (c + 1)
  let starts ← wr p.starts idx false
  .ok ⟨timers, calls, starts, p.names, p.indices⟩

/-- The rows of `TimeProfiler::Print`: label, total time, calls (`include/etc.hpp:119-147`). The sum over
processes is called with MPI's in-place marker on every process; MPI allows it on the root only and stops
the program otherwise, so more than one process is an abort. With one process the sum changes nothing. The
printed layout and the quotient time per call are left out. -/
def report (procs : Nat) (now : Int) (p : Profiler) : Outcome (List (String × Int × Nat)) := do
  loop p.timers.length (fun k _ => do
    let s ← rd p.starts k
    require (!s)) ()
  require (decide (procs = 1))
  loop p.timers.length (fun k rows => do
    let w ← rd p.timers k
    let n ← rd p.names k
    let c ← rd p.calls k
    .ok (rows ++ [(n, w.realTime now, c)])) []

/-- A call of `Start` or `Stop`, with the clock reading. -/
inductive Ev where
  | start (name : String) (now : Int)
  | stop (name : String) (now : Int)
deriving DecidableEq, Repr

/-- One call. -/
def step (e : Ev) (p : Profiler) : Outcome Profiler :=
  match e with
  | .start n t => startLabel n t p
  | .stop n t => stopLabel n t p

/-- A history of calls. -/
def run (h : List Ev) (p : Profiler) : Outcome Profiler := h.foldlM (fun p e => step e p) p

end Verif.Timer
