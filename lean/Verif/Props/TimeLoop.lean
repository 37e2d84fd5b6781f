import Verif.Proofs.Basic
import Verif.Spec.TimeLoop

/-!
# C38 and C39: restarts and snapshots of time-dependent runs
-/

namespace Verif.TimeLoop

open Spec

section
variable {V U T : Type}

theorem restarts_append (a b : List (Event U T)) :
    restarts (a ++ b) = restarts a ++ restarts b := by
  induction a with
  | nil => rfl
  | cons e a ih => cases e <;> simp [restarts, ih]

theorem snapshots_append (a b : List (Event U T)) :
    snapshots (a ++ b) = snapshots a ++ snapshots b := by
  induction a with
  | nil => rfl
  | cons e a ih => cases e <;> simp [snapshots, ih]

theorem visuals_append (a b : List (Event U T)) :
    visuals (a ++ b) = visuals a ++ visuals b := by
  induction a with
  | nil => rfl
  | cons e a ih => cases e <;> simp [visuals, ih]

theorem due_iff (i : Int) (k : Nat) :
    (i ≠ 0 ∧ ((k : Int) + 1).tmod i = 0) ↔ Due i (k + 1) := by
  unfold Due
  push_cast
  constructor
  · rintro ⟨h, h'⟩; exact ⟨h, Int.dvd_of_tmod_eq_zero h'⟩
  · rintro ⟨h, h'⟩; exact ⟨h, Int.tmod_eq_zero_of_dvd h'⟩

theorem saved_iff (cfg : Cfg) (k : Nat) :
    (cfg.saveSol = true ∧ cfg.restartInterval ≠ 0 ∧ ((k : Int) + 1).tmod cfg.restartInterval = 0) ↔
      Saved cfg (k + 1) := by
  unfold Saved; rw [due_iff]

theorem sampled_iff (cfg : Cfg) (k : Nat) :
    (cfg.sampling = true ∧ cfg.sampleInterval ≠ 0 ∧ cfg.bootstrap < (k : Int) + 1 ∧
      ((k : Int) + 1).tmod cfg.sampleInterval = 0) ↔ Sampled cfg (k + 1) := by
  unfold Sampled
  rw [← due_iff]
  push_cast
  tauto

/-- Where the run starts. -/
def startOf (sch : Scheme V U T) : Start U T → Nat × T × U
  | .fresh u => (0, sch.zero, u)
  | .restart k t u => (k, t, u)

/-- After all of step `k0 + n`, the step of the last synchronisation. -/
def syncAll (cfg : Cfg) (k0 n : Nat) : Nat :=
  if 0 < n ∧ Sampled cfg (k0 + n) then n else lastSync cfg k0 n

theorem lastSync_succ (cfg : Cfg) (k0 n : Nat) :
    lastSync cfg k0 (n + 1) =
      if Due cfg.visInterval (k0 + n + 1) then n + 1 else syncAll cfg k0 n := rfl

/-- The invariant of the time loop after `n` steps. -/
structure Inv (sch : Scheme V U T) (cfg : Cfg) (k0 : Nat) (t0 : T) (v0 : V)
    (R0 : List (Nat × T × U)) (X0 : List (Nat × T × U)) (n : Nat) (s : St V U T) : Prop where
  ustep : s.ustep = (trajectory sch v0 t0 n).1
  time : s.time = (trajectory sch v0 t0 n).2
  u : s.u = sch.toSub (trajectory sch v0 t0 (syncAll cfg k0 n)).1
  restarts : restarts s.out = R0 ++ (((List.range n).map (fun n => k0 + n + 1)).filter
    (fun k => Saved cfg k)).map (fun k => (k, (trajectory sch v0 t0 (k - k0)).2,
      sch.toSub (trajectory sch v0 t0 (lastSync cfg k0 (k - k0))).1))
  snapshots : snapshots s.out = (((List.range n).map (fun n => k0 + n + 1)).filter
    (fun k => Sampled cfg k)).map (fun k => sch.toSub (trajectory sch v0 t0 (k - k0)).1)
  visuals : visuals s.out = X0 ++ (((List.range n).map (fun n => k0 + n + 1)).filter
    (fun k => cfg.visSave ∧ Due cfg.visInterval k)).map (fun k =>
      (k, (trajectory sch v0 t0 (k - k0)).2, sch.toSub (trajectory sch v0 t0 (k - k0)).1))
  sane : ∀ j, j < n → sch.sane (trajectory sch v0 t0 (j + 1)).1 = true

theorem trajectory_succ (sch : Scheme V U T) (v : V) (t : T) (n : Nat) :
    trajectory sch v t (n + 1) = (sch.adv (trajectory sch v t n).2 (trajectory sch v t n).1,
      sch.tick (trajectory sch v t n).2) := rfl

/-- The body in terms of the schedules. -/
theorem body_eq (sch : Scheme V U T) (cfg : Cfg) (k : Nat) (s : St V U T)
    (hs : sch.sane (sch.adv s.time s.ustep) = true) :
    body sch cfg k s = .ok
      { ustep := sch.adv s.time s.ustep, time := sch.tick s.time,
        u := if Sampled cfg (k + 1) ∨ Due cfg.visInterval (k + 1)
          then sch.toSub (sch.adv s.time s.ustep) else s.u,
        out := s.out ++
          (if cfg.visSave ∧ Due cfg.visInterval (k + 1)
            then [.visual (k + 1) (sch.tick s.time) (sch.toSub (sch.adv s.time s.ustep))] else []) ++
          (if Saved cfg (k + 1) then [.restart (k + 1) (sch.tick s.time)
            (if Due cfg.visInterval (k + 1) then sch.toSub (sch.adv s.time s.ustep) else s.u)]
            else []) ++
          (if Sampled cfg (k + 1) then [.snapshot (sch.toSub (sch.adv s.time s.ustep))] else []) } := by
  unfold body
  dsimp only
  rw [hs, require_true, ok_bind]
  simp only [saved_iff, sampled_iff]
  simp only [due_iff]
  by_cases h1 : Due cfg.visInterval (k + 1) <;> by_cases h2 : Saved cfg (k + 1) <;>
    by_cases h3 : Sampled cfg (k + 1) <;> by_cases h4 : cfg.visSave = true <;>
    simp [h1, h2, h3, h4, saveVis]

theorem body_insane (sch : Scheme V U T) (cfg : Cfg) (k : Nat) (s : St V U T)
    (hs : sch.sane (sch.adv s.time s.ustep) = false) :
    body sch cfg k s = .error .abort := by
  unfold body
  dsimp only
  rw [hs, require_false, error_bind]

theorem inv_step (sch : Scheme V U T) (cfg : Cfg) (k0 : Nat) (t0 : T) (v0 : V)
    (R0 X0 : List (Nat × T × U)) (n : Nat) (s s' : St V U T)
    (hi : Inv sch cfg k0 t0 v0 R0 X0 n s) (h : body sch cfg (k0 + n) s = .ok s') :
    Inv sch cfg k0 t0 v0 R0 X0 (n + 1) s' := by
  obtain ⟨i1, i2, i3, i4, i5, i6, i7⟩ := hi
  cases hs : sch.sane (sch.adv s.time s.ustep) with
  | false => rw [body_insane _ _ _ _ hs] at h; cases h
  | true =>
    rw [body_eq _ _ _ _ hs] at h
    have h := Except.ok.inj h
    have hk : k0 + n + 1 - k0 = n + 1 := by omega
    have hu : (if Due cfg.visInterval (k0 + n + 1) then sch.toSub (sch.adv s.time s.ustep) else s.u)
        = sch.toSub (trajectory sch v0 t0 (lastSync cfg k0 (n + 1))).1 := by
      rw [lastSync_succ]
      by_cases hd : Due cfg.visInterval (k0 + n + 1)
      · simp [hd, i1, i2, trajectory_succ]
      · simp [hd, i3]
    rw [hu] at h
    subst h
    constructor
    · simp [i1, i2, trajectory_succ]
    · simp [i2, trajectory_succ]
    · dsimp only
      by_cases hp : Sampled cfg (k0 + n + 1)
      · have : syncAll cfg k0 (n + 1) = n + 1 := if_pos ⟨by omega, hp⟩
        rw [this]; simp [hp, i1, i2, trajectory_succ]
      · have : syncAll cfg k0 (n + 1) = lastSync cfg k0 (n + 1) :=
          if_neg (fun h => hp h.2)
        rw [this, ← hu]; simp [hp]
    · dsimp only
      rw [restarts_append, restarts_append, restarts_append, i4, List.range_succ, List.map_append,
        List.filter_append, List.map_append, ← List.append_assoc]
      have a : restarts (if cfg.visSave ∧ Due cfg.visInterval (k0 + n + 1)
          then [Event.visual (k0 + n + 1) (sch.tick s.time) (sch.toSub (sch.adv s.time s.ustep))]
          else []) = [] := by split <;> rfl
      have b : restarts (if Sampled cfg (k0 + n + 1)
          then [(Event.snapshot (sch.toSub (sch.adv s.time s.ustep)) : Event U T)] else []) = [] := by
        split <;> rfl
      rw [a, b, List.append_nil, List.append_nil]
      congr 1
      by_cases hq : Saved cfg (k0 + n + 1) <;> simp [hq, restarts, hk, i2, trajectory_succ]
    · dsimp only
      rw [snapshots_append, snapshots_append, snapshots_append, i5, List.range_succ, List.map_append,
        List.filter_append, List.map_append]
      have a : snapshots (if cfg.visSave ∧ Due cfg.visInterval (k0 + n + 1)
          then [Event.visual (k0 + n + 1) (sch.tick s.time) (sch.toSub (sch.adv s.time s.ustep))]
          else []) = [] := by split <;> rfl
      have b : snapshots (if Saved cfg (k0 + n + 1) then [Event.restart (k0 + n + 1)
          (sch.tick s.time) (sch.toSub (trajectory sch v0 t0 (lastSync cfg k0 (n + 1))).1)]
          else []) = [] := by
        split <;> rfl
      rw [a, b, List.append_nil, List.append_nil]
      congr 1
      by_cases hq : Sampled cfg (k0 + n + 1) <;> simp [hq, snapshots, hk, i1, i2, trajectory_succ]
    · dsimp only
      rw [visuals_append, visuals_append, visuals_append, i6, List.range_succ, List.map_append,
        List.filter_append, List.map_append, ← List.append_assoc]
      have a : visuals (if Sampled cfg (k0 + n + 1)
          then [(Event.snapshot (sch.toSub (sch.adv s.time s.ustep)) : Event U T)] else []) = [] := by
        split <;> rfl
      have b : visuals (if Saved cfg (k0 + n + 1) then [Event.restart (k0 + n + 1)
          (sch.tick s.time) (sch.toSub (trajectory sch v0 t0 (lastSync cfg k0 (n + 1))).1)]
          else []) = [] := by
        split <;> rfl
      rw [a, b, List.append_nil, List.append_nil]
      congr 1
      by_cases hq : cfg.visSave = true <;> by_cases hd : Due cfg.visInterval (k0 + n + 1) <;>
        simp [hq, hd, visuals, hk, i1, i2, trajectory_succ]
    · intro j hj
      rcases Nat.lt_or_ge j n with h | h
      · exact i7 j h
      · have : j = n := by omega
        subst this
        rw [trajectory_succ, ← i1, ← i2]; exact hs

theorem loopFrom_inv_ok (sch : Scheme V U T) (cfg : Cfg) (k0 : Nat) (t0 : T) (v0 : V)
    (R0 X0 : List (Nat × T × U)) (N : Nat) (s s' : St V U T)
    (hi : Inv sch cfg k0 t0 v0 R0 X0 0 s) (h : loopFrom (body sch cfg) k0 N s = .ok s') :
    Inv sch cfg k0 t0 v0 R0 X0 N s' := by
  have := loopFrom_inv (body sch cfg) (fun k s => k0 ≤ k ∧ Inv sch cfg k0 t0 v0 R0 X0 (k - k0) s)
    N k0 s s' ⟨Nat.le_refl _, by simpa using hi⟩
    (fun j a b h1 h2 h3 h4 => ⟨by omega, by
      have e : j = k0 + (j - k0) := by omega
      have e' : j + 1 - k0 = j - k0 + 1 := by omega
      rw [e'] 
      exact inv_step sch cfg k0 t0 v0 R0 X0 (j - k0) a b h3.2 (by rw [← e]; exact h4)⟩) h
  simpa using this.2

theorem loopFrom_inv_total (sch : Scheme V U T) (cfg : Cfg) (k0 : Nat) (t0 : T) (v0 : V)
    (R0 X0 : List (Nat × T × U)) (N : Nat) (s : St V U T)
    (hi : Inv sch cfg k0 t0 v0 R0 X0 0 s)
    (hs : ∀ j, j < N → sch.sane (trajectory sch v0 t0 (j + 1)).1 = true) :
    ∃ s', loopFrom (body sch cfg) k0 N s = .ok s' := by
  obtain ⟨t, ht, _⟩ := loopFrom_total (body sch cfg)
    (fun k s => k0 ≤ k ∧ Inv sch cfg k0 t0 v0 R0 X0 (k - k0) s)
    N k0 s ⟨Nat.le_refl _, by simpa using hi⟩
    (fun j a h1 h2 h3 => by
      have hj := hs (j - k0) (by omega)
      rw [trajectory_succ, ← h3.2.ustep, ← h3.2.time] at hj
      have e : j = k0 + (j - k0) := by omega
      have e' : j + 1 - k0 = j - k0 + 1 := by omega
      have hb := body_eq sch cfg j a hj
      refine ⟨_, hb, by omega, ?_⟩
      rw [e']
      exact inv_step sch cfg k0 t0 v0 R0 X0 (j - k0) a _ h3.2 (by rw [← e]; exact hb))
  exact ⟨t, ht⟩

/-- The restart file written at the start. -/
def firstRestart (sch : Scheme V U T) (cfg : Cfg) : Start U T → List (Nat × T × U)
  | .fresh u => if cfg.saveSol then [(0, sch.zero, u)] else []
  | .restart _ _ _ => []

theorem inv_start (sch : Scheme V U T) (cfg : Cfg) (st : Start U T) :
    Inv sch cfg (startOf sch st).1 (startOf sch st).2.1 (sch.toVar (startOf sch st).2.2)
      (firstRestart sch cfg st)
      (if cfg.visSave then [(0, (startOf sch st).2.1,
        sch.toSub (sch.toVar (startOf sch st).2.2))] else []) 0
      (saveVis sch cfg 0 ⟨sch.toVar (initial sch cfg st).2.2.1, (initial sch cfg st).2.2.1,
        (initial sch cfg st).2.1, (initial sch cfg st).2.2.2⟩) := by
  cases st with
  | fresh u =>
    constructor
    · rfl
    · rfl
    · simp [saveVis, initial, syncAll, lastSync, trajectory, startOf]
    · by_cases h : cfg.visSave = true <;> by_cases h' : cfg.saveSol = true <;>
        simp [saveVis, initial, firstRestart, h, h', restarts]
    · by_cases h : cfg.visSave = true <;> by_cases h' : cfg.saveSol = true <;>
        simp [saveVis, initial, h, h', snapshots]
    · by_cases h : cfg.visSave = true <;> by_cases h' : cfg.saveSol = true <;>
        simp [saveVis, initial, h, h', visuals, startOf]
    · intro j hj; omega
  | restart k t u =>
    constructor
    · rfl
    · rfl
    · simp [saveVis, initial, syncAll, lastSync, trajectory, startOf]
    · by_cases h : cfg.visSave = true <;>
        simp [saveVis, initial, firstRestart, h, restarts]
    · by_cases h : cfg.visSave = true <;>
        simp [saveVis, initial, h, snapshots]
    · by_cases h : cfg.visSave = true <;>
        simp [saveVis, initial, h, visuals, startOf]
    · intro j hj; omega

theorem initial_fst (sch : Scheme V U T) (cfg : Cfg) (st : Start U T) :
    (initial sch cfg st).1 = (startOf sch st).1 := by cases st <;> rfl

theorem solve_unfold (sch : Scheme V U T) (cfg : Cfg) (st : Start U T) :
    solve sch cfg st = (loopFrom (body sch cfg) (startOf sch st).1 (cfg.nt - (startOf sch st).1)
      (saveVis sch cfg 0 ⟨sch.toVar (initial sch cfg st).2.2.1, (initial sch cfg st).2.2.1,
        (initial sch cfg st).2.1, (initial sch cfg st).2.2.2⟩)).bind
        (fun s => .ok { s with u := sch.toSub s.ustep }) := by
  rw [← initial_fst sch cfg st]; rfl

/-- What a finished run has computed and written. -/
structure Run (sch : Scheme V U T) (cfg : Cfg) (st : Start U T) (k0 : Nat) (t0 : T) (v0 : V)
    (s : St V U T) : Prop where
  ustep : s.ustep = (trajectory sch v0 t0 (cfg.nt - k0)).1
  time : s.time = (trajectory sch v0 t0 (cfg.nt - k0)).2
  u : s.u = sch.toSub (trajectory sch v0 t0 (cfg.nt - k0)).1
  restarts : restarts s.out = firstRestart sch cfg st ++ ((steps k0 cfg.nt).filter
    (fun k => Saved cfg k)).map (fun k => (k, (trajectory sch v0 t0 (k - k0)).2,
      sch.toSub (trajectory sch v0 t0 (lastSync cfg k0 (k - k0))).1))
  snapshots : snapshots s.out = ((steps k0 cfg.nt).filter
    (fun k => Sampled cfg k)).map (fun k => sch.toSub (trajectory sch v0 t0 (k - k0)).1)
  visuals : visuals s.out = (if cfg.visSave then [(0, t0, sch.toSub v0)] else []) ++
    ((steps k0 cfg.nt).filter (fun k => cfg.visSave ∧ Due cfg.visInterval k)).map (fun k =>
      (k, (trajectory sch v0 t0 (k - k0)).2, sch.toSub (trajectory sch v0 t0 (k - k0)).1))
  sane : ∀ j, j < cfg.nt - k0 → sch.sane (trajectory sch v0 t0 (j + 1)).1 = true

theorem solve_run (sch : Scheme V U T) (cfg : Cfg) (st : Start U T) (s : St V U T)
    (h : solve sch cfg st = .ok s) :
    Run sch cfg st (startOf sch st).1 (startOf sch st).2.1 (sch.toVar (startOf sch st).2.2) s := by
  rw [solve_unfold] at h
  obtain ⟨a, ha, hs⟩ := bind_eq_ok.mp h
  have hi := loopFrom_inv_ok _ _ _ _ _ _ _ _ _ _ (inv_start sch cfg st) ha
  have hs := Except.ok.inj hs
  subst hs
  exact ⟨hi.ustep, hi.time, by simp [hi.ustep], hi.restarts, hi.snapshots, hi.visuals, hi.sane⟩

theorem solve_total (sch : Scheme V U T) (cfg : Cfg) (st : Start U T)
    (h : ∀ j, j < cfg.nt - (startOf sch st).1 → sch.sane
      (trajectory sch (sch.toVar (startOf sch st).2.2) (startOf sch st).2.1 (j + 1)).1 = true) :
    ∃ s, solve sch cfg st = .ok s := by
  obtain ⟨s', hs'⟩ := loopFrom_inv_total sch cfg _ _ _ _ _ _ _ (inv_start sch cfg st) h
  rw [solve_unfold, hs']
  exact ⟨_, rfl⟩

/-! ## C39 -/

/-- **C39.** A run from step `k0` and solution `u0` takes a snapshot exactly after the steps `k` with
`k0 < k ≤ nt`, `bootstrap < k` and `sample_interval ∣ k`, in increasing order, and each snapshot is the
state of the trajectory after step `k`. -/
theorem snapshots_on_schedule (sch : Scheme V U T) (cfg : Cfg) (st : Start U T) (s : St V U T)
    (h : solve sch cfg st = .ok s) (k0 : Nat) (t0 : T) (u0 : U)
    (hst : (st = .fresh u0 ∧ k0 = 0 ∧ t0 = sch.zero) ∨ st = .restart k0 t0 u0) :
    snapshots s.out = ((steps k0 cfg.nt).filter (fun k : Nat => cfg.sampling = true ∧
      cfg.bootstrap < (k : Int) ∧ cfg.sampleInterval ≠ 0 ∧ cfg.sampleInterval ∣ (k : Int))).map
      (fun k => sch.toSub (trajectory sch (sch.toVar u0) t0 (k - k0)).1) := by
  have hr := (solve_run sch cfg st s h).snapshots
  rcases hst with ⟨rfl, rfl, rfl⟩ | rfl <;> exact hr

/-- **C39.** The run ends with the last state of the trajectory, or aborts at the first invalid one. -/
theorem final_state (sch : Scheme V U T) (cfg : Cfg) (st : Start U T)
    (k0 : Nat) (t0 : T) (u0 : U)
    (hst : (st = .fresh u0 ∧ k0 = 0 ∧ t0 = sch.zero) ∨ st = .restart k0 t0 u0) :
    (∃ s, solve sch cfg st = .ok s ∧
        s.u = sch.toSub (trajectory sch (sch.toVar u0) t0 (cfg.nt - k0)).1 ∧
        s.time = (trajectory sch (sch.toVar u0) t0 (cfg.nt - k0)).2) ↔
      ∀ k, k0 < k → k ≤ cfg.nt → sch.sane (trajectory sch (sch.toVar u0) t0 (k - k0)).1 = true := by
  have key : startOf sch st = (k0, t0, u0) := by
    rcases hst with ⟨rfl, rfl, rfl⟩ | rfl <;> rfl
  constructor
  · rintro ⟨s, hs, -, -⟩ k h1 h2
    have := (solve_run sch cfg st s hs).sane (k - k0 - 1)
    rw [key] at this
    have e : k - k0 - 1 + 1 = k - k0 := by omega
    rw [e] at this
    exact this (by dsimp only; omega)
  · intro h
    obtain ⟨s, hs⟩ := solve_total sch cfg st (by
      rw [key]
      intro j hj
      have := h (k0 + j + 1) (by omega) (by dsimp only at hj; omega)
      rwa [show k0 + j + 1 - k0 = j + 1 by omega] at this)
    have hr := solve_run sch cfg st s hs
    rw [key] at hr
    exact ⟨s, hs, hr.u, hr.time⟩

/-- **C39.** The steps of a run are increasing, after the first step and not beyond the last. -/
theorem steps_spec (k0 nt : Nat) :
    (steps k0 nt).Pairwise (· < ·) ∧ ∀ k, k ∈ steps k0 nt ↔ k0 < k ∧ k ≤ nt := by
  constructor
  · unfold steps
    rw [List.pairwise_map]
    exact List.pairwise_lt_range.imp (fun h => by omega)
  · intro k
    unfold steps
    simp only [List.mem_map, List.mem_range]
    constructor
    · rintro ⟨n, h, rfl⟩; omega
    · rintro ⟨h1, h2⟩; exact ⟨k - k0 - 1, by omega, by omega⟩

/-! ## C38 -/

theorem trajectory_add (sch : Scheme V U T) (v : V) (t : T) (m n : Nat) :
    trajectory sch v t (m + n) =
      trajectory sch (trajectory sch v t m).1 (trajectory sch v t m).2 n := by
  induction n with
  | zero => rfl
  | succ n ih => rw [← Nat.add_assoc, trajectory_succ, ih, trajectory_succ]

theorem lastSync_le (cfg : Cfg) (k0 n : Nat) : lastSync cfg k0 n ≤ n := by
  induction n with
  | zero => exact Nat.le_refl _
  | succ n ih => rw [lastSync]; split_ifs <;> omega

/-- A restart file is up to date exactly at the start and where a visualisation is due. -/
theorem lastSync_eq_iff (cfg : Cfg) (k0 n : Nat) :
    lastSync cfg k0 n = n ↔ n = 0 ∨ Due cfg.visInterval (k0 + n) := by
  cases n with
  | zero => simp [lastSync]
  | succ n =>
    rw [lastSync]
    have := lastSync_le cfg k0 n
    rw [← Nat.add_assoc]
    by_cases h : Due cfg.visInterval (k0 + n + 1)
    · simp [h]
    · simp only [h, if_false, or_false]
      constructor
      · intro e; split_ifs at e <;> omega
      · intro e; omega

/-- After an up-to-date restart file, both runs synchronise at the same steps. -/
theorem lastSync_shift (cfg : Cfg) (k0 m : Nat) (hm : lastSync cfg k0 m = m) (n : Nat) :
    lastSync cfg k0 (m + n) = m + lastSync cfg (k0 + m) n := by
  induction n with
  | zero => simpa [lastSync] using hm
  | succ n ih =>
    rw [← Nat.add_assoc, lastSync, lastSync, Nat.add_assoc k0 m n]
    by_cases h : Due cfg.visInterval (k0 + (m + n) + 1)
    · simp only [h, if_true]; rfl
    · simp only [h, if_false]
      by_cases hn : 0 < n
      · simp only [hn, show 0 < m + n by omega, true_and]
        by_cases h' : Sampled cfg (k0 + (m + n))
        · simp [h']
        · simp only [h', if_false]; exact ih
      · have : n = 0 := by omega
        subst this
        simp only [Nat.add_zero, Nat.lt_irrefl, false_and, if_false, lastSync]
        split_ifs
        · rfl
        · exact hm

theorem lastSync_nt (cfg : Cfg) (nt k0 n : Nat) :
    lastSync { cfg with nt := nt } k0 n = lastSync cfg k0 n := by
  induction n with
  | zero => rfl
  | succ n ih => rw [lastSync, ih, lastSync]; rfl

theorem steps_split (k0 k nt : Nat) (h1 : k0 ≤ k) (h2 : k ≤ nt) :
    steps k0 nt = steps k0 k ++ steps k nt := by
  unfold steps
  have e : nt - k0 = (k - k0) + (nt - k) := by omega
  rw [e, List.range_add, List.map_append, List.map_map]
  congr 1
  apply List.map_congr_left
  intro n _
  simp only [Function.comp_apply]
  omega

/-- What restart files hold: the step, the time after that step, and the state at the last step at
which the stored solution was brought up to date. -/
theorem restart_contents (sch : Scheme V U T) (cfg : Cfg) (st : Start U T) (s : St V U T)
    (h : solve sch cfg st = .ok s) (k0 : Nat) (t0 : T) (u0 : U)
    (hst : (st = .fresh u0 ∧ k0 = 0 ∧ t0 = sch.zero) ∨ st = .restart k0 t0 u0)
    (hs : cfg.saveSol = true) :
    restarts s.out = (match st with | .fresh u => [(0, t0, u)] | .restart _ _ _ => []) ++
      ((steps k0 cfg.nt).filter (fun k : Nat => cfg.restartInterval ≠ 0 ∧
        cfg.restartInterval ∣ (k : Int))).map (fun k => (k,
          (trajectory sch (sch.toVar u0) t0 (k - k0)).2,
          sch.toSub (trajectory sch (sch.toVar u0) t0 (lastSync cfg k0 (k - k0))).1)) := by
  have hr := (solve_run sch cfg st s h).restarts
  rw [hr]
  rcases hst with ⟨rfl, rfl, rfl⟩ | rfl
  · congr 1
    · simp [firstRestart, hs]
    · congr 1
      apply List.filter_congr
      intro k _
      simp [Saved, hs, Due]
  · rw [show firstRestart sch cfg (.restart k0 t0 u0) = [] from rfl, List.nil_append,
      List.nil_append]
    · congr 1
      apply List.filter_congr
      intro k _
      simp [Saved, hs, Due]

/-- **C38, partial.** Take any run that saves a restart file at step `k`, where `k` is its first step or
visualisation was due at `k`.  The run resumed from that file ends in the same state at the same time
as the uninterrupted run, and what the uninterrupted run wrote is what the run stopped at `k` wrote
followed by what the resumed run writes, apart from the visualisation at the start of the resumed run.
Missing: restart files at steps without a visualisation, see `restart_stale`. -/
theorem restart_partial (sch : Scheme V U T) (hinv : ∀ v, sch.toVar (sch.toSub v) = v)
    (cfg : Cfg) (st : Start U T) (s : St V U T) (h : solve sch cfg st = .ok s)
    (k : Nat) (t : T) (u : U) (hk : (k, t, u) ∈ restarts s.out)
    (hsync : k = 0 ∨ Due cfg.visInterval k) :
    ∃ a b, solve sch { cfg with nt := k } st = .ok a ∧
      solve sch cfg (.restart k t u) = .ok b ∧
      b.u = s.u ∧ b.ustep = s.ustep ∧ b.time = s.time ∧
      snapshots s.out = snapshots a.out ++ snapshots b.out ∧
      restarts s.out = restarts a.out ++ restarts b.out ∧
      visuals b.out = (if cfg.visSave then [(0, t, sch.toSub (sch.toVar u))] else []) ++
        (visuals s.out).drop (visuals a.out).length ∧
      (visuals s.out).take (visuals a.out).length = visuals a.out := by
  have hr := solve_run sch cfg st s h
  generalize hk0 : (startOf sch st).1 = k0 at hr
  generalize ht0 : (startOf sch st).2.1 = t0 at hr
  generalize hv0 : sch.toVar (startOf sch st).2.2 = v0 at hr
  -- the file
  have hfile : k0 ≤ k ∧ (k ≤ cfg.nt ∨ k = k0) ∧ t = (trajectory sch v0 t0 (k - k0)).2 ∧
      sch.toVar u = (trajectory sch v0 t0 (k - k0)).1 ∧ lastSync cfg k0 (k - k0) = k - k0 := by
    rw [hr.restarts, List.mem_append] at hk
    rcases hk with hk | hk
    · cases st with
      | restart _ _ _ => simp [firstRestart] at hk
      | fresh u' =>
        simp only [firstRestart] at hk
        split_ifs at hk
        · simp only [List.mem_singleton, Prod.mk.injEq] at hk
          obtain ⟨rfl, rfl, rfl⟩ := hk
          simp only [startOf] at hk0 ht0 hv0
          subst hk0 ht0 hv0
          exact ⟨Nat.le_refl _, Or.inr rfl, rfl, rfl, rfl⟩
        · simp at hk
    · simp only [List.mem_map, List.mem_filter, Prod.mk.injEq] at hk
      obtain ⟨k', ⟨hk', hsv⟩, rfl, rfl, rfl⟩ := hk
      have hk'' := ((steps_spec k0 cfg.nt).2 k').mp hk'
      have hl : lastSync cfg k0 (k' - k0) = k' - k0 := by
        rw [lastSync_eq_iff]
        rcases hsync with h | h
        · omega
        · right; rwa [show k0 + (k' - k0) = k' by omega]
      exact ⟨by omega, Or.inl hk''.2, rfl, by rw [hinv, hl], hl⟩
  obtain ⟨h1, h2, h3, h4, h5⟩ := hfile
  obtain ⟨m, rfl⟩ : ∃ m, k = k0 + m := ⟨k - k0, by omega⟩
  have hm : k0 + m - k0 = m := by omega
  rw [hm] at h3 h4 h5
  have hT : ∀ n, trajectory sch (sch.toVar u) t n = trajectory sch v0 t0 (m + n) := by
    intro n; rw [trajectory_add, ← h3, ← h4]
  obtain ⟨a, ha⟩ := solve_total sch { cfg with nt := k0 + m } st (by
    rw [hk0, ht0, hv0]
    intro j hj
    dsimp only at hj
    rcases h2 with h2 | h2
    · exact hr.sane j (by omega)
    · omega)
  obtain ⟨b, hb⟩ := solve_total sch cfg (.restart (k0 + m) t u) (by
    intro j hj
    simp only [startOf] at hj ⊢
    rw [hT]
    exact hr.sane (m + j) (by omega))
  have ra := solve_run _ _ _ _ ha
  rw [hk0, ht0, hv0] at ra
  have rb := solve_run _ _ _ _ hb
  simp only [startOf] at rb
  have hN : m + (cfg.nt - (k0 + m)) = cfg.nt - k0 ∨ (m = 0 ∧ cfg.nt - k0 = 0) := by omega
  have hN' : trajectory sch v0 t0 (m + (cfg.nt - (k0 + m))) = trajectory sch v0 t0 (cfg.nt - k0) := by
    rcases hN with h | ⟨h, h'⟩
    · rw [h]
    · rw [h, h']; congr 1; omega
  have hsteps : steps k0 cfg.nt = steps k0 (k0 + m) ++ steps (k0 + m) cfg.nt := by
    rcases h2 with h2 | h2
    · exact steps_split _ _ _ (by omega) h2
    · have : m = 0 := by omega
      subst this; simp [steps]
  have hvis : visuals s.out = visuals a.out ++ ((steps (k0 + m) cfg.nt).filter
      (fun k => cfg.visSave ∧ Due cfg.visInterval k)).map (fun k =>
      (k, (trajectory sch (sch.toVar u) t (k - (k0 + m))).2,
        sch.toSub (trajectory sch (sch.toVar u) t (k - (k0 + m))).1)) := by
    rw [hr.visuals, ra.visuals, hsteps, List.filter_append, List.map_append, ← List.append_assoc]
    congr 1
    apply List.map_congr_left
    intro k hk
    have hk := ((steps_spec _ _).2 k).mp (List.mem_filter.mp hk).1
    rw [hT, show m + (k - (k0 + m)) = k - k0 by omega]
  refine ⟨a, b, ha, hb, ?_, ?_, ?_, ?_, ?_, ?_, ?_⟩
  · rw [rb.u, hr.u, hT, hN']
  · rw [rb.ustep, hr.ustep, hT, hN']
  · rw [rb.time, hr.time, hT, hN']
  · rw [hr.snapshots, ra.snapshots, rb.snapshots, hsteps, List.filter_append, List.map_append]
    congr 1
    apply List.map_congr_left
    intro k hk
    have hk := ((steps_spec _ _).2 k).mp (List.mem_filter.mp hk).1
    rw [hT, show m + (k - (k0 + m)) = k - k0 by omega]
  · rw [hr.restarts, ra.restarts, rb.restarts, hsteps, List.filter_append, List.map_append,
      ← List.append_assoc]
    simp only [lastSync_nt]
    rw [show firstRestart sch cfg (.restart (k0 + m) t u) = [] from rfl, List.nil_append]
    refine congrArg₂ _ (congrArg₂ _ (by cases st <;> rfl) rfl) ?_
    apply List.map_congr_left
    intro k hk
    have hk := ((steps_spec _ _).2 k).mp (List.mem_filter.mp hk).1
    rw [hT, hT, show m + (k - (k0 + m)) = k - k0 by omega,
      ← lastSync_shift cfg k0 m h5, show m + (k - (k0 + m)) = k - k0 by omega]
  · rw [hvis, List.drop_left, rb.visuals]
  · rw [hvis, List.take_left]

/-- **C38, partial.** With the default visualisation interval `-1`, every restart file resumes the same
trajectory. -/
theorem restart_default (sch : Scheme V U T) (hinv : ∀ v, sch.toVar (sch.toSub v) = v)
    (cfg : Cfg) (hd : cfg.visInterval = -1) (st : Start U T) (s : St V U T)
    (h : solve sch cfg st = .ok s) (k : Nat) (t : T) (u : U) (hk : (k, t, u) ∈ restarts s.out) :
    ∃ b, solve sch cfg (.restart k t u) = .ok b ∧ b.u = s.u ∧ b.time = s.time := by
  obtain ⟨a, b, -, hb, h1, -, h2, -⟩ := restart_partial sch hinv cfg st s h k t u hk
    (Or.inr ⟨by omega, by rw [hd]; simp⟩)
  exact ⟨b, hb, h1, h2⟩

end

/-- A counter with a solution stored in the opposite order. -/
def counter : Scheme (Nat × Nat) (Nat × Nat) Nat where
  adv t v := (v.1 + 1, v.2 + t)
  tick t := t + 1
  sane v := v.2 < 1000
  toSub v := (v.2, v.1)
  toVar u := (u.2, u.1)
  zero := 0

/-- Saves a restart file every second step and visualises every fourth. -/
def cfg0 : Cfg := ⟨6, true, 4, true, 2, true, 3, 0⟩

example : (solve counter cfg0 (.fresh (10, 0))).toOption.map (fun s => (s.u, s.time)) =
    some ((25, 6), 6) := by decide

example : (solve counter cfg0 (.fresh (10, 0))).toOption.map (fun s => snapshots s.out) =
    some [(13, 3), (25, 6)] := by decide

example : (solve counter cfg0 (.fresh (10, 0))).toOption.map (fun s => restarts s.out) =
    some [(0, 0, (10, 0)), (2, 2, (10, 0)), (4, 4, (16, 4)), (6, 6, (16, 4))] := by decide

example : ∀ v, counter.toVar (counter.toSub v) = v := fun _ => rfl

example : Due cfg0.visInterval 4 ∧ ¬ Due cfg0.visInterval 2 := by decide

/-- **C38 fails in the pinned code.** The restart file of step 2 holds the initial solution, and the
run resumed from it ends in another state. -/
theorem restart_stale :
    ∃ (s b : St (Nat × Nat) (Nat × Nat) Nat) (u : Nat × Nat),
      solve counter cfg0 (.fresh (10, 0)) = .ok s ∧ (2, 2, u) ∈ restarts s.out ∧
      solve counter cfg0 (.restart 2 2 u) = .ok b ∧ b.u ≠ s.u ∧ u = (10, 0) := by
  refine ⟨_, _, (10, 0), rfl, by decide, rfl, by decide, rfl⟩

/-- **C38 fails in the pinned code.** With visualisation switched off by interval 0, every restart file
of a run without snapshots holds the initial solution. -/
theorem restart_never_updated {V U T : Type} (sch : Scheme V U T) (cfg : Cfg)
    (hv : cfg.visInterval = 0) (hg : cfg.sampling = false) (u0 : U) (s : St V U T)
    (h : solve sch cfg (.fresh u0) = .ok s) (k : Nat) (t : T) (u : U)
    (hk : (k, t, u) ∈ restarts s.out) (hk0 : 0 < k) : u = sch.toSub (sch.toVar u0) := by
  have hr := (solve_run sch cfg _ s h).restarts
  have hl : ∀ n, lastSync cfg 0 n = 0 := by
    intro n
    induction n with
    | zero => rfl
    | succ n ih => simp [lastSync, Due, hv, Sampled, hg, ih]
  rw [hr, List.mem_append] at hk
  rcases hk with hk | hk
  · simp only [firstRestart] at hk
    split_ifs at hk
    · simp only [List.mem_singleton, Prod.mk.injEq] at hk; omega
    · simp at hk
  · simp only [List.mem_map, Prod.mk.injEq] at hk
    obtain ⟨k', -, rfl, rfl, rfl⟩ := hk
    simp [startOf, hl, trajectory]

end Verif.TimeLoop
