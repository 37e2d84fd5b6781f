import Verif.Model.TimeLoop

/-!
# Trajectories and schedules
-/

namespace Verif.Spec

open Verif.TimeLoop

variable {V U T : Type}

/-- The state and time `n` steps after `(v, t)`. -/
def trajectory (sch : Scheme V U T) (v : V) (t : T) : Nat → V × T
  | 0 => (v, t)
  | n + 1 =>
    let p := trajectory sch v t n
    (sch.adv p.2 p.1, sch.tick p.2)

/-- A positive or negative interval is due at step `k`; interval zero never is. -/
def Due (interval : Int) (k : Nat) : Prop := interval ≠ 0 ∧ interval ∣ (k : Int)

instance (interval : Int) (k : Nat) : Decidable (Due interval k) := by unfold Due; infer_instance

/-- A snapshot is scheduled after step `k`. -/
def Sampled (cfg : Cfg) (k : Nat) : Prop :=
  cfg.sampling = true ∧ cfg.bootstrap < (k : Int) ∧ Due cfg.sampleInterval k

instance (cfg : Cfg) (k : Nat) : Decidable (Sampled cfg k) := by unfold Sampled; infer_instance

/-- A restart file is scheduled after step `k`. -/
def Saved (cfg : Cfg) (k : Nat) : Prop := cfg.saveSol = true ∧ Due cfg.restartInterval k

instance (cfg : Cfg) (k : Nat) : Decidable (Saved cfg k) := by unfold Saved; infer_instance

/-- For a run that starts at step `k0`: the number of steps after which the solution ordered by
subdomain was last brought up to date, when the restart file of step `k0 + n` is written.  It is
brought up to date at the start, by visualisation at a step not after `k0 + n`, and by a snapshot at an
earlier step. -/
def lastSync (cfg : Cfg) (k0 : Nat) : Nat → Nat
  | 0 => 0
  | n + 1 =>
    if Due cfg.visInterval (k0 + n + 1) then n + 1
    else if 0 < n ∧ Sampled cfg (k0 + n) then n
    else lastSync cfg k0 n

/-- The restart files among the events. -/
def restarts : List (Event U T) → List (Nat × T × U)
  | [] => []
  | .restart k t u :: l => (k, t, u) :: restarts l
  | _ :: l => restarts l

/-- The snapshots among the events. -/
def snapshots : List (Event U T) → List U
  | [] => []
  | .snapshot u :: l => u :: snapshots l
  | _ :: l => snapshots l

/-- The visualisation files among the events. -/
def visuals : List (Event U T) → List (Nat × T × U)
  | [] => []
  | .visual k t u :: l => (k, t, u) :: visuals l
  | _ :: l => visuals l

/-- The steps of a run from `k0` to `nt`. -/
def steps (k0 nt : Nat) : List Nat := (List.range (nt - k0)).map (fun n => k0 + n + 1)

end Verif.Spec
