import Verif.Proofs.Problems
import Mathlib.Analysis.SpecialFunctions.Trigonometric.Basic
import Mathlib.Tactic.Linarith
import Mathlib.Tactic.FieldSimp
import Mathlib.Tactic.Ring

/-!
# The functions of the problems: the properties

C105 (the functions are determined by point, time and parameters, and fit the walls).
-/

namespace Verif.Problems

open Verif Verif.Problems.Spec

section
variable {R : Type} [Field R] [LinearOrder R] [IsStrictOrderedRing R] (M : Math R) (m : String → R)

/-- The functions of `linelast_cwtrain`. -/
def trainFns : List Fn := [.leftDisp, .rightDisp, .upDisp, .downDisp, .bodyForce]

theorem map_zero_eq {y z : List R} (h : y.length = z.length) :
    (y.map fun _ => (0 : R)) = z.map fun _ => 0 := by
  rw [List.map_const', List.map_const', h]

theorem lastEntry_congr {y z : List R} (h : y.length = z.length) (v : R) :
    lastEntry y v = lastEntry z v := by
  unfold lastEntry
  rw [map_zero_eq h, h]

/-- A loop that writes every entry in turn forgets what was there. -/
theorem loop_overwrite {n : Nat} {val : Nat → Outcome R} {body : Nat → List R → Outcome (List R)}
    (hbody : ∀ i y, body i y = (do let v ← val i; wr y i v)) {y z : List R}
    (hy : y.length = n) (hz : z.length = n) : loop n body y = loop n body z := by
  have key : ∀ k i (y z : List R), y.length = z.length → i + k = y.length →
      (∀ j < i, y[j]? = z[j]?) → loopFrom body i k y = loopFrom body i k z := by
    intro k
    induction k with
    | zero =>
      intro i y z hl hk h
      have : y = z := by
        apply List.ext_getElem? 
        intro j
        by_cases hj : j < i
        · exact h j hj
        · rw [List.getElem?_eq_none (by omega), List.getElem?_eq_none (by omega)]
      rw [this]
    | succ k ih =>
      intro i y z hl hk h
      unfold loopFrom
      rw [hbody, hbody]
      cases hv : val i with
      | error e => rfl
      | ok v =>
        rw [ok_bind, ok_bind, wr_of_lt (by omega), wr_of_lt (by omega)]
        dsimp only
        refine ih (i + 1) _ _ (by simpa using hl) (by simp; omega) ?_
        intro j hj
        by_cases hji : j = i
        · subst hji
          rw [List.getElem?_set_self (by omega), List.getElem?_set_self (by omega)]
        · rw [List.getElem?_set_ne (by omega), List.getElem?_set_ne (by omega)]
          exact h j (by omega)
  exact key n 0 y z (by omega) (by omega) (fun j hj => by omega)

/-- **C105**: except for `linelast_cwtrain`, every vector function is determined by point, time and
parameters in every dimension. -/
theorem determined_partial (del : R) (x0 : List R) {f : Fn} (hf : f ∉ trainFns)
    {g : List R → R → List R → Outcome (List R)} (hg : vectorAt M m del x0 f = some g) (dim : Nat) :
    Determined g dim := by
  intro x t y z hx hy hz
  have hyz : y.length = z.length := by omega
  cases f <;> simp only [vectorAt, Option.some.injEq, reduceCtorEq] at hg <;> subst hg
  case zero => rfl
  case channelU => rfl
  case componentU =>
    unfold componentUAt
    congr 1
    exact loop_overwrite (val := fun i => do
      let kx ← loop x.length (fun j kx => do
        let v ← rd x j
        if i < 3 ∧ j < 3 then
          .ok (kx + m ("component_flow::k(" ++ toString j ++ "," ++ toString i ++ ")") * v)
        else .error .ub) 0
      let kx := (kx - entry m "component_flow::offsets" i) * (2 * M.pi)
      .ok (entry m "component_flow::u0" i + entry m "component_flow::du" i * M.sin kx)) (by
        intro i y
        simp only [bind_assoc]
        rfl) (by omega) (by omega)
  case stepU => rfl
  case stepIc => rfl
  case stepPressure => rfl
  case lidU => rfl
  case periodicForce => rfl
  case initDisp =>
    unfold initDispAt
    simp only [lastEntry_congr hyz]
  case initDispCantilever =>
    unfold initDispCantileverAt
    rw [hyz]
    simp only [lastEntry_congr hyz]
  case tipForce => exact lastEntry_congr hyz _
  case gravityLoad => exact lastEntry_congr hyz _
  case windLoad =>
    unfold windLoadAt
    rw [map_zero_eq hyz]
  case frameFixed =>
    unfold frameFixedAt
    rw [map_zero_eq hyz]
  all_goals exact absurd (by simp [trainFns]) hf

/-- **C105** (`linelast_cwtrain`): in two dimensions such a function is determined exactly if both its
switches are on, and then it is constant plus perturbation in both components. -/
theorem train_partial (px py cx cy kx ky : String) :
    (Determined (trainAt M m px py cx cy kx ky) 2 ↔
      1 / 2 ≤ m ("linelast_cwtrain::" ++ px) ∧ 1 / 2 ≤ m ("linelast_cwtrain::" ++ py)) ∧
    (1 / 2 ≤ m ("linelast_cwtrain::" ++ px) → 1 / 2 ≤ m ("linelast_cwtrain::" ++ py) →
      ∀ a b t c d : R, trainAt M m px py cx cy kx ky [a, b] t [c, d] = .ok
        [m ("linelast_cwtrain::" ++ cx) + m ("linelast_cwtrain::" ++ (kx ++ "_amp")) *
            M.sin (M.pi * m ("linelast_cwtrain::" ++ (kx ++ "_freq")) *
              (a / 3 + 2 * m ("linelast_cwtrain::" ++ (kx ++ "_offset")))),
          m ("linelast_cwtrain::" ++ cy) + m ("linelast_cwtrain::" ++ (ky ++ "_amp")) *
            M.sin (M.pi * m ("linelast_cwtrain::" ++ (ky ++ "_freq")) *
              (b / 3 + 2 * m ("linelast_cwtrain::" ++ (ky ++ "_offset"))))]) := by
  have hval : 1 / 2 ≤ m ("linelast_cwtrain::" ++ px) → 1 / 2 ≤ m ("linelast_cwtrain::" ++ py) →
      ∀ a b t c d : R, trainAt M m px py cx cy kx ky [a, b] t [c, d] = .ok
        [m ("linelast_cwtrain::" ++ cx) + m ("linelast_cwtrain::" ++ (kx ++ "_amp")) *
            M.sin (M.pi * m ("linelast_cwtrain::" ++ (kx ++ "_freq")) *
              (a / 3 + 2 * m ("linelast_cwtrain::" ++ (kx ++ "_offset")))),
          m ("linelast_cwtrain::" ++ cy) + m ("linelast_cwtrain::" ++ (ky ++ "_amp")) *
            M.sin (M.pi * m ("linelast_cwtrain::" ++ (ky ++ "_freq")) *
              (b / 3 + 2 * m ("linelast_cwtrain::" ++ (ky ++ "_offset"))))] := by
    intro h1 h2 a b t c d
    unfold trainAt
    dsimp only
    simp only [if_pos h1, if_pos h2]
    rfl
  refine ⟨⟨fun h => ?_, fun h => ?_⟩, hval⟩
  · have h0 := h [0, 0] 0 [0, 0] [1, 1] rfl rfl rfl
    unfold trainAt at h0
    dsimp only at h0
    by_cases h1 : 1 / 2 ≤ m ("linelast_cwtrain::" ++ px)
    · by_cases h2 : 1 / 2 ≤ m ("linelast_cwtrain::" ++ py)
      · exact ⟨h1, h2⟩
      · exfalso
        simp only [if_pos h1, if_neg h2] at h0
        have := congrArg (fun o : Outcome (List R) => match o with
          | .ok l => l[1]?
          | .error _ => none) h0
        simp [rd, wr, bind, Except.bind] at this
    · exfalso
      simp only [if_neg h1] at h0
      by_cases h2 : 1 / 2 ≤ m ("linelast_cwtrain::" ++ py)
      · simp only [if_pos h2] at h0
        have := congrArg (fun o : Outcome (List R) => match o with
          | .ok l => l[0]?
          | .error _ => none) h0
        simp [rd, wr, bind, Except.bind] at this
      · simp only [if_neg h2] at h0
        have := congrArg (fun o : Outcome (List R) => match o with
          | .ok l => l[0]?
          | .error _ => none) h0
        simp [bind, Except.bind] at this
  · intro x t y z hx hy hz
    match x, hx, y, hy, z, hz with
    | [a, b], _, [c, d], _, [e, f], _ => rw [hval h.1 h.2, hval h.1 h.2]

/-- **C105, negation**: with the default parameters every function of `linelast_cwtrain` leaves the vector
as it was, so loads and displacements are whatever the memory held. -/
theorem train_violation (hoff : ∀ s ∈ ["lx", "ly", "rx", "ry", "ux", "uy", "dx", "dy", "bx", "by"],
      m ("linelast_cwtrain::" ++ s) = 0) (del : R) (x0 : List R) {f : Fn} (hf : f ∈ trainFns) :
    ∃ g, vectorAt M m del x0 f = some g ∧ ∀ x t y, g x t y = .ok y := by
  have off : ∀ px py cx cy kx ky : String, m ("linelast_cwtrain::" ++ px) = 0 →
      m ("linelast_cwtrain::" ++ py) = 0 → ∀ x t y, trainAt M m px py cx cy kx ky x t y = .ok y := by
    intro px py cx cy kx ky h1 h2 x t y
    have hneg : ¬ ((1 : R) / 2 ≤ 0) := by
      rw [not_le]
      exact half_pos one_pos
    unfold trainAt
    dsimp only
    simp only [h1, h2, if_neg hneg]
    rfl
  simp only [trainFns, List.mem_cons, List.not_mem_nil, or_false] at hf
  rcases hf with rfl | rfl | rfl | rfl | rfl
  all_goals exact ⟨_, rfl, off _ _ _ _ _ _ (hoff _ (by simp)) (hoff _ (by simp))⟩

/-!
### Profiles
-/

/-- A parabola over an interval of length `L`, zero at both ends, lies between zero and its maximum. -/
theorem parabola {U s : R} (hU : 0 ≤ U) (hs : -1 ≤ s) (hs' : s ≤ 1) :
    0 ≤ U * (1 - s * s) ∧ U * (1 - s * s) ≤ U := by
  have h1 : s * s ≤ 1 := by nlinarith
  have h2 : 0 ≤ s * s := mul_self_nonneg s
  constructor
  · exact mul_nonneg hU (by linarith)
  · nlinarith

/-- **C105** (channel): the inflow of a channel of width `L` centred at `x0` is along the first axis,
vanishes on both walls, is `U` in the middle and lies between zero and `U` in between. -/
theorem channel_profile (del : R) (x0 : List R) (a b t : R) (rest y : List R) (hL : 0 < m "channel_flow::L") :
    ∃ u : R, valueAt M m del x0 .channelU (a :: b :: rest) t y = .ok (u :: List.replicate (rest.length + 1) 0) ∧
      (b = m "channel_flow::x0" - m "channel_flow::L" / 2 ∨
        b = m "channel_flow::x0" + m "channel_flow::L" / 2 → u = 0) ∧
      (b = m "channel_flow::x0" → u = m "channel_flow::U") ∧
      (0 ≤ m "channel_flow::U" → m "channel_flow::x0" - m "channel_flow::L" / 2 ≤ b →
        b ≤ m "channel_flow::x0" + m "channel_flow::L" / 2 → 0 ≤ u ∧ u ≤ m "channel_flow::U") := by
  refine ⟨_, rfl, ?_, ?_, ?_⟩
  · have hne := hL.ne'
    rintro (rfl | rfl) <;> field_simp <;> ring
  · rintro rfl
    simp
  · intro hU h1 h2
    have e : m "channel_flow::U" * (1 - 4 * ((b - m "channel_flow::x0") / m "channel_flow::L") *
        ((b - m "channel_flow::x0") / m "channel_flow::L")) =
        m "channel_flow::U" * (1 - (2 * (b - m "channel_flow::x0") / m "channel_flow::L") *
          (2 * (b - m "channel_flow::x0") / m "channel_flow::L")) := by ring
    rw [e]
    refine parabola hU ?_ ?_
    · rw [le_div_iff₀ hL]; linarith
    · rw [div_le_iff₀ hL]; linarith

/-- **C105** (lid): the lid of a cavity of width `L` moves along the first axis; its velocity vanishes in
both corners, is `u0` in the middle and lies between zero and `u0` in between. -/
theorem lid_profile (del : R) (x0 : List R) (a t : R) (rest y : List R) (hL : 0 < m "lid_driven_cavity::L") :
    ∃ u : R, valueAt M m del x0 .lidU (a :: rest) t y = .ok (u :: List.replicate rest.length 0) ∧
      (a = 0 ∨ a = m "lid_driven_cavity::L" → u = 0) ∧
      (a = m "lid_driven_cavity::L" / 2 → u = m "lid_driven_cavity::u0") ∧
      (0 ≤ m "lid_driven_cavity::u0" → 0 ≤ a → a ≤ m "lid_driven_cavity::L" →
        0 ≤ u ∧ u ≤ m "lid_driven_cavity::u0") := by
  have hne := hL.ne'
  refine ⟨_, rfl, ?_, ?_, ?_⟩
  · rintro (rfl | rfl) <;> simp
  · rintro rfl
    field_simp
    ring
  · intro hU h1 h2
    have e : 4 / m "lid_driven_cavity::L" / m "lid_driven_cavity::L" * m "lid_driven_cavity::u0" * a *
        (m "lid_driven_cavity::L" - a) = m "lid_driven_cavity::u0" *
        (1 - ((2 * a - m "lid_driven_cavity::L") / m "lid_driven_cavity::L") *
          ((2 * a - m "lid_driven_cavity::L") / m "lid_driven_cavity::L")) := by
      field_simp
      ring
    rw [e]
    refine parabola hU ?_ ?_
    · rw [le_div_iff₀ hL]; linarith
    · rw [div_le_iff₀ hL]; linarith

/-- The perturbation of the inflow of the step by mode `k`. -/
def mode (k : Nat) (b t : R) : R :=
  entry m "backward_facing_step::amp" k *
    M.sin (M.pi * entry m "backward_facing_step::ky" k * (b - m "backward_facing_step::y0") /
      (m "backward_facing_step::y1" - m "backward_facing_step::y0")) *
    M.sin (2 * M.pi * (entry m "backward_facing_step::freq" k * t +
      entry m "backward_facing_step::t_offset" k))

theorem stepU_eq (a b t : R) (rest y : List R) :
    stepUAt M m (a :: b :: rest) t y = .ok
      ((-(m "backward_facing_step::u0") * 4 /
          (m "backward_facing_step::y1" - m "backward_facing_step::y0") /
          (m "backward_facing_step::y1" - m "backward_facing_step::y0") *
          (m "backward_facing_step::y0" - b) * (m "backward_facing_step::y1" - b)) ::
        (mode M m 0 b t + mode M m 1 b t) :: List.replicate rest.length 0) := by
  have body : ∀ (c d p v : R) (l : List R),
      (if c = 0 then (.ok (p :: v :: l) : Outcome (List R)) else do
        let w ← rd (p :: v :: l) 1
        wr (p :: v :: l) 1 (w + c * d)) = .ok (p :: (v + c * d) :: l) := by
    intro c d p v l
    by_cases hc : c = 0
    · rw [if_pos hc, hc, zero_mul, add_zero]
    · rw [if_neg hc]
      rfl
  unfold stepUAt mode
  simp only [mul_assoc (entry m "backward_facing_step::amp" _)]
  rw [show rd (a :: b :: rest) 1 = .ok b from rfl, ok_bind]
  simp only [List.length_cons, List.replicate_succ]
  rw [show ∀ v : R, wr (0 :: 0 :: List.replicate rest.length (0 : R)) 0 v =
    .ok (v :: 0 :: List.replicate rest.length 0) from fun _ => rfl, ok_bind]
  simp only [loop, loopFrom]
  rw [body]
  dsimp only
  rw [body, zero_add]

/-- **C105** (step): for an inflow between `y0 < y1`, the velocity along the first axis vanishes at both
ends, is `u0` in the middle and lies between zero and `u0`; further components than the second vanish. The
second component vanishes at `y0` at all times, and at `y1` if the wave numbers are integers. -/
theorem step_profile_partial (del : R) (x0 : List R) (hM : Trig M) (a b t : R) (rest y : List R)
    (hy : m "backward_facing_step::y0" < m "backward_facing_step::y1") :
    ∃ u v : R, valueAt M m del x0 .stepU (a :: b :: rest) t y = .ok (u :: v :: List.replicate rest.length 0) ∧
      (b = m "backward_facing_step::y0" → u = 0 ∧ v = 0) ∧
      (b = m "backward_facing_step::y1" → u = 0) ∧
      (b = m "backward_facing_step::y1" → (∀ k < 2, ∃ n : Int, entry m "backward_facing_step::ky" k = n) →
        v = 0) ∧
      (2 * b = m "backward_facing_step::y0" + m "backward_facing_step::y1" →
        u = m "backward_facing_step::u0") ∧
      (0 ≤ m "backward_facing_step::u0" → m "backward_facing_step::y0" ≤ b →
        b ≤ m "backward_facing_step::y1" → 0 ≤ u ∧ u ≤ m "backward_facing_step::u0") := by
  have hg : 0 < m "backward_facing_step::y1" - m "backward_facing_step::y0" := by linarith
  have hne := hg.ne'
  refine ⟨_, _, stepU_eq M m a b t rest y, ?_, ?_, ?_, ?_, ?_⟩
  · rintro rfl
    have h0 : M.sin 0 = 0 := by simpa using hM 0
    constructor
    · simp
    · simp [mode, h0]
  · rintro rfl
    simp
  · rintro rfl hk
    obtain ⟨n0, e0⟩ := hk 0 (by omega)
    obtain ⟨n1, e1⟩ := hk 1 (by omega)
    unfold mode
    rw [mul_div_assoc, mul_div_assoc, div_self hne, e0, e1, mul_one, mul_one, mul_comm M.pi (n0 : R),
      mul_comm M.pi (n1 : R), hM, hM]
    simp
  · intro hb
    have : b = (m "backward_facing_step::y0" + m "backward_facing_step::y1") / 2 := by linarith
    subst this
    field_simp
    ring
  · intro hU h1 h2
    have e : -(m "backward_facing_step::u0") * 4 /
        (m "backward_facing_step::y1" - m "backward_facing_step::y0") /
        (m "backward_facing_step::y1" - m "backward_facing_step::y0") *
        (m "backward_facing_step::y0" - b) * (m "backward_facing_step::y1" - b) =
        m "backward_facing_step::u0" *
        (1 - ((2 * b - m "backward_facing_step::y0" - m "backward_facing_step::y1") /
            (m "backward_facing_step::y1" - m "backward_facing_step::y0")) *
          ((2 * b - m "backward_facing_step::y0" - m "backward_facing_step::y1") /
            (m "backward_facing_step::y1" - m "backward_facing_step::y0"))) := by
      field_simp
      ring
    rw [e]
    refine parabola hU ?_ ?_
    · rw [le_div_iff₀ hg]; linarith
    · rw [div_le_iff₀ hg]; linarith

/-- **C105** (step): the initial velocity is the unperturbed inflow profile at and above `y0` and zero below;
the initial pressure is zero. -/
theorem step_initial (del : R) (x0 : List R) (a b t : R) (rest y z : List R) :
    (b < m "backward_facing_step::y0" →
      valueAt M m del x0 .stepIc (a :: b :: rest) t y = .ok (List.replicate (rest.length + 2) 0)) ∧
    (m "backward_facing_step::y0" ≤ b → (∀ k < 2, entry m "backward_facing_step::amp" k = 0) →
      valueAt M m del x0 .stepIc (a :: b :: rest) t y = valueAt M m del x0 .stepU (a :: b :: rest) t z) ∧
    valueAt M m del x0 .stepPressure (a :: b :: rest) t y = .ok [0] := by
  refine ⟨fun h => ?_, fun h hk => ?_, rfl⟩
  · change stepIcAt m (a :: b :: rest) t y = _
    unfold stepIcAt
    simp [rd, wr, h, bind, Except.bind, List.replicate_succ]
  · change stepIcAt m (a :: b :: rest) t y = stepUAt M m (a :: b :: rest) t z
    rw [stepU_eq]
    have h0 : mode M m 0 b t = 0 := by simp [mode, hk 0 (by omega)]
    have h1 : mode M m 1 b t = 0 := by simp [mode, hk 1 (by omega)]
    rw [h0, h1]
    unfold stepIcAt
    simp [rd, wr, not_lt.2 h, bind, Except.bind, List.replicate_succ]

/-- **C105** (clamps): displacements vanish where the beams are held, and point along the last axis
elsewhere. -/
theorem clamps (del : R) (x0 : List R) (x t : R) (rest u : List R) :
    valueAt M m del x0 .initDisp (x :: rest) t (u ++ [0]) = .ok (List.replicate u.length 0 ++
      [-(1 / 5) * x * m "linelast_disp::rdisp_f"]) ∧
    (x = 0 → valueAt M m del x0 .initDisp (x :: rest) t (u ++ [0]) = .ok (List.replicate (u.length + 1) 0)) ∧
    (∀ p : List R, p.length = u.length →
      valueAt M m del x0 .initDispCantilever (p ++ [5]) t (u ++ [0]) = .ok (List.replicate (u.length + 1) 0)) := by
  have hl : ∀ v : R, lastEntry (u ++ [0]) v = .ok (List.replicate u.length 0 ++ [v]) := by
    intro v
    unfold lastEntry
    have hlen : (((u ++ [0] : List R).length : Int) - 1).toNat = u.length := by simp
    have hnn : (0 : Int) ≤ ((u ++ [0] : List R).length : Int) - 1 := by simp
    unfold wrI
    rw [if_pos hnn, hlen, List.map_const', List.length_append, List.length_singleton,
      wr_of_lt (by simp), List.replicate_succ', List.set_append_right _ _ (by simp)]
    simp
  refine ⟨hl _, ?_, ?_⟩
  · rintro rfl
    have := hl (-(1 / 5) * 0 * m "linelast_disp::rdisp_f")
    simp only [mul_zero, zero_mul] at this
    change initDispAt m (0 :: rest) t (u ++ [0]) = _
    unfold initDispAt
    simp only [rd, List.getElem?_cons_zero, ok_bind, mul_zero, zero_mul]
    rw [this, List.replicate_succ']
  · intro p hp
    change initDispCantileverAt m (p ++ [5]) t (u ++ [0]) = _
    unfold initDispCantileverAt rdI
    have hlen : (((u ++ [0] : List R).length : Int) - 1).toNat = u.length := by simp
    have hnn : (0 : Int) ≤ ((u ++ [0] : List R).length : Int) - 1 := by simp
    rw [if_pos hnn, hlen]
    have : rd (p ++ [(5 : R)]) u.length = .ok 5 := rd_eq_ok.2 (by rw [← hp]; simp)
    rw [this, ok_bind, hl]
    simp [List.replicate_succ']

/-- **C105** (loads): tip force and weight point down the last axis, wind blows along the first, fixed
boundaries do not move. -/
theorem loads (del : R) (x0 : List R) (x f : List R) (t v : R) :
    valueAt M m del x0 .tipForce x t (f ++ [v]) = .ok (List.replicate f.length 0 ++
      [-(m "linelast_force::rforce_f" / 100)]) ∧
    valueAt M m del x0 .gravityLoad x t (f ++ [v]) = .ok (List.replicate f.length 0 ++
      [-(m "linelast_frame_wind::density" * m "linelast_frame_wind::g")]) ∧
    valueAt M m del x0 .windLoad x t (v :: f) = .ok (m "linelast_frame_wind::qwind_f" :: List.replicate f.length 0) ∧
    valueAt M m del x0 .frameFixed x t f = .ok (List.replicate f.length 0) := by
  have hl : ∀ w : R, lastEntry (f ++ [v]) w = .ok (List.replicate f.length 0 ++ [w]) := by
    intro w
    unfold lastEntry
    have hlen : (((f ++ [v] : List R).length : Int) - 1).toNat = f.length := by simp
    have hnn : (0 : Int) ≤ ((f ++ [v] : List R).length : Int) - 1 := by simp
    unfold wrI
    rw [if_pos hnn, hlen, List.map_const', List.length_append, List.length_singleton,
      wr_of_lt (by simp), List.replicate_succ', List.set_append_right _ _ (by simp)]
    simp
  refine ⟨?_, ?_, ?_, ?_⟩
  · change tipForceAt m x t (f ++ [v]) = _
    unfold tipForceAt
    rw [hl]
    congr 3
    ring
  · change gravityLoadAt m x t (f ++ [v]) = _
    unfold gravityLoadAt
    rw [hl, neg_mul]
  · change windLoadAt m x t (v :: f) = _
    unfold windLoadAt
    rw [List.map_const', List.length_cons, List.replicate_succ]
    rfl
  · change frameFixedAt x t f = _
    unfold frameFixedAt
    rw [List.map_const']

/-- The parameters of the functions of `linelast_cwtrain`: switches, constants and prefixes of the
perturbations of the two components. The perturbations of the loads on three sides share their parameters. -/
def trainParams : Fn → Option (String × String × String × String × String × String)
  | .leftDisp => some ("lx", "ly", "l_ux", "l_uy", "xu", "yu")
  | .rightDisp => some ("rx", "ry", "r_fx", "r_fy", "xf", "yf")
  | .upDisp => some ("ux", "uy", "u_fx", "u_fy", "xf", "yf")
  | .downDisp => some ("dx", "dy", "d_fx", "d_fy", "xf", "yf")
  | .bodyForce => some ("bx", "by", "b_fx", "b_fy", "bxf", "byf")
  | _ => none

/-- **C105** (`linelast_cwtrain`): each function has its own switches and constants. -/
theorem train_values (del : R) (x0 : List R) {f : Fn} {px py cx cy kx ky : String}
    (hf : trainParams f = some (px, py, cx, cy, kx, ky))
    (h1 : 1 / 2 ≤ m ("linelast_cwtrain::" ++ px)) (h2 : 1 / 2 ≤ m ("linelast_cwtrain::" ++ py))
    (a b t c d : R) :
    ∃ g, vectorAt M m del x0 f = some g ∧ g [a, b] t [c, d] = .ok
      [m ("linelast_cwtrain::" ++ cx) + m ("linelast_cwtrain::" ++ (kx ++ "_amp")) *
          M.sin (M.pi * m ("linelast_cwtrain::" ++ (kx ++ "_freq")) *
            (a / 3 + 2 * m ("linelast_cwtrain::" ++ (kx ++ "_offset")))),
        m ("linelast_cwtrain::" ++ cy) + m ("linelast_cwtrain::" ++ (ky ++ "_amp")) *
          M.sin (M.pi * m ("linelast_cwtrain::" ++ (ky ++ "_freq")) *
            (b / 3 + 2 * m ("linelast_cwtrain::" ++ (ky ++ "_offset"))))] := by
  refine ⟨trainAt M m px py cx cy kx ky, ?_, (train_partial M m px py cx cy kx ky).2 h1 h2 a b t c d⟩
  cases f <;> simp only [trainParams, Option.some.injEq, Prod.mk.injEq, reduceCtorEq] at hf
  all_goals
    obtain ⟨rfl, rfl, rfl, rfl, rfl, rfl⟩ := hf
    rfl

/-- **C105** (`component_flow`): in two and three dimensions every component of the velocity is a constant
plus a wave with its own wave vector and offset, minus the correction `del (x - x0)` of the flux. -/
theorem component_velocity (del : R) (x0 x : List R) (t : R) (y : List R) (hx : x.length ≤ 3)
    (h0 : x0.length = x.length) (hy : y.length = x.length) :
    valueAt M m del x0 .componentU x t y = .ok ((List.range x.length).map fun i =>
      entry m "component_flow::u0" i + entry m "component_flow::du" i *
        M.sin ((∑ j ∈ Finset.range x.length, m s!"component_flow::k({j},{i})" * (x[j]?).getD 0 -
          entry m "component_flow::offsets" i) * (2 * M.pi)) -
        ((x[i]?).getD 0 - (x0[i]?).getD 0) * del) := by
  have inner : ∀ i < x.length, loop x.length (fun j kx => do
      let v ← rd x j
      if i < 3 ∧ j < 3 then
        .ok (kx + m ("component_flow::k(" ++ toString j ++ "," ++ toString i ++ ")") * v)
      else .error .ub) 0 =
      .ok (∑ j ∈ Finset.range x.length, m s!"component_flow::k({j},{i})" * (x[j]?).getD 0) := by
    intro i hi
    refine loop_spec (fun k => ∑ j ∈ Finset.range k, m s!"component_flow::k({j},{i})" * (x[j]?).getD 0)
      (by simp) ?_
    intro k hk
    rw [rd_of_lt hk, ok_bind, if_pos ⟨by omega, by omega⟩, Finset.sum_range_succ,
      List.getElem?_eq_getElem hk]
    rfl
  have outer : loop x.length (fun i y => do
      let kx ← loop x.length (fun j kx => do
        let v ← rd x j
        if i < 3 ∧ j < 3 then
          .ok (kx + m ("component_flow::k(" ++ toString j ++ "," ++ toString i ++ ")") * v)
        else .error .ub) 0
      let kx := (kx - entry m "component_flow::offsets" i) * (2 * M.pi)
      wr y i (entry m "component_flow::u0" i + entry m "component_flow::du" i * M.sin kx)) y =
      .ok ((List.range x.length).map fun i => entry m "component_flow::u0" i +
        entry m "component_flow::du" i *
        M.sin ((∑ j ∈ Finset.range x.length, m s!"component_flow::k({j},{i})" * (x[j]?).getD 0 -
          entry m "component_flow::offsets" i) * (2 * M.pi))) := by
    obtain ⟨r, e, hl, hr⟩ := loop_total (n := x.length) (s := y)
      (body := fun i y => do
        let kx ← loop x.length (fun j kx => do
          let v ← rd x j
          if i < 3 ∧ j < 3 then
            .ok (kx + m ("component_flow::k(" ++ toString j ++ "," ++ toString i ++ ")") * v)
          else .error .ub) 0
        let kx := (kx - entry m "component_flow::offsets" i) * (2 * M.pi)
        wr y i (entry m "component_flow::u0" i + entry m "component_flow::du" i * M.sin kx))
      (fun k r => r.length = x.length ∧ ∀ i < k, r[i]? = some (entry m "component_flow::u0" i +
        entry m "component_flow::du" i *
        M.sin ((∑ j ∈ Finset.range x.length, m s!"component_flow::k({j},{i})" * (x[j]?).getD 0 -
          entry m "component_flow::offsets" i) * (2 * M.pi)))) ⟨hy, fun i hi => absurd hi (by omega)⟩ (by
        rintro k r hk ⟨hl, hr⟩
        refine ⟨r.set k (entry m "component_flow::u0" k + entry m "component_flow::du" k *
          M.sin ((∑ j ∈ Finset.range x.length, m s!"component_flow::k({j},{k})" * (x[j]?).getD 0 -
            entry m "component_flow::offsets" k) * (2 * M.pi))), ?_, by simpa using hl, ?_⟩
        · dsimp only
          rw [inner k hk, ok_bind, wr_of_lt (by omega)]
        · intro i hi
          by_cases hik : i = k
          · subst hik
            rw [List.getElem?_set_self (by omega)]
          · rw [List.getElem?_set_ne (by omega)]
            exact hr i (by omega))
    rw [e]
    congr 1
    refine List.ext_getElem? fun i => ?_
    by_cases hi : i < x.length
    · rw [hr i hi, List.getElem?_map, List.getElem?_range hi]
      rfl
    · rw [List.getElem?_eq_none (by omega), List.getElem?_eq_none (by simp; omega)]
  change componentUAt M m del x0 x t y = _
  unfold componentUAt
  rw [outer, ok_bind, h0, beq_self_eq_true]
  show Except.ok _ = Except.ok _
  congr 1
  refine List.ext_getElem (by simp [h0]) fun i h1 h2 => ?_
  have hi : i < x.length := by simpa using h2
  have hi0 : i < x0.length := by omega
  simp [hi, hi0]

/-- `waveSum` is the weighted sum of the coordinates. -/
theorem waveSum_eq (c : Nat → R) (x : List R) :
    waveSum c x = .ok (∑ d ∈ Finset.range x.length, c d * (x[d]?).getD 0) := by
  unfold waveSum
  refine (loop_spec (fun k => ∑ d ∈ Finset.range k, c d * (x[d]?).getD 0) (by simp) ?_)
  intro k hk
  rw [rd_of_lt hk, ok_bind, Finset.sum_range_succ, List.getElem?_eq_getElem hk]
  rfl

/-- **C105** (waves): the scalar data are plane waves in the coordinates of the point, of up to three
dimensions; a vanishing wave vector and offset make the boundary value zero, and the concentration on the
boundary stays within `dq` of `q0` where the sine is bounded by one. -/
theorem scalar_waves (hM : Trig M) (x : List R) (hx : x.length ≤ 3) :
    scalarValue M m .poisson0Rhs x = .ok (M.sin (2 * M.pi *
      ((∑ d ∈ Finset.range x.length, (x[d]?).getD 0) * m "poisson0::k" + m "poisson0::offset"))) ∧
    scalarValue M m .componentRhs x = .ok (M.sin (2 * M.pi *
      ((∑ d ∈ Finset.range x.length, m s!"poisson_component::k[{d}]" * (x[d]?).getD 0) +
        m "poisson_component::offset"))) ∧
    scalarValue M m .componentBdr x = .ok (M.sin (2 * M.pi *
      ((∑ d ∈ Finset.range x.length, m s!"poisson_component::bdr_k[{d}]" * (x[d]?).getD 0) +
        m "poisson_component::bdr_offset"))) ∧
    scalarValue M m .qbdr x = .ok (m "advdiff_flow_past_array::q0" + m "advdiff_flow_past_array::dq" *
      M.sin (2 * M.pi *
        ((∑ d ∈ Finset.range x.length, m s!"advdiff_flow_past_array::qk({d})" * (x[d]?).getD 0) +
          m "advdiff_flow_past_array::qoffset"))) ∧
    ((∀ d, entry m "poisson_component::bdr_k" d = 0) → m "poisson_component::bdr_offset" = 0 →
      scalarValue M m .componentBdr x = .ok 0) ∧
    ((∀ z, -1 ≤ M.sin z ∧ M.sin z ≤ 1) → 0 ≤ m "advdiff_flow_past_array::dq" →
      ∃ q, scalarValue M m .qbdr x = .ok q ∧
        m "advdiff_flow_past_array::q0" - m "advdiff_flow_past_array::dq" ≤ q ∧
        q ≤ m "advdiff_flow_past_array::q0" + m "advdiff_flow_past_array::dq") := by
  have hr : require (decide (x.length ≤ 3)) = .ok () := by
    rw [decide_eq_true hx]
    rfl
  have hq : scalarValue M m .qbdr x = .ok (m "advdiff_flow_past_array::q0" + m "advdiff_flow_past_array::dq" *
      M.sin (2 * M.pi *
        ((∑ d ∈ Finset.range x.length, m s!"advdiff_flow_past_array::qk({d})" * (x[d]?).getD 0) +
          m "advdiff_flow_past_array::qoffset"))) := by
    change qbdrAt M m x = _
    unfold qbdrAt
    rw [hr, ok_bind, waveSum_eq, ok_bind]
    congr 6
    refine Finset.sum_congr rfl fun d hd => ?_
    have : d < 3 := lt_of_lt_of_le (Finset.mem_range.1 hd) hx
    match d, this with
    | 0, _ => rfl
    | 1, _ => rfl
    | 2, _ => rfl
  have he : ∀ (name : String) (d : Nat), d < 3 → entry m name d = m (name ++ "[" ++ toString d ++ "]") := by
    intro name d hd
    match d, hd with
    | 0, _ => unfold entry; rw [String.append_assoc, String.append_assoc]; rfl
    | 1, _ => unfold entry; rw [String.append_assoc, String.append_assoc]; rfl
    | 2, _ => unfold entry; rw [String.append_assoc, String.append_assoc]; rfl
  refine ⟨?_, ?_, ?_, hq, ?_, ?_⟩
  · change poisson0RhsAt M m x = _
    unfold poisson0RhsAt
    have : loop x.length (fun d tmp => do
        let v ← rd x d
        .ok (tmp + v)) 0 = waveSum (fun _ => (1 : R)) x := by
      unfold waveSum
      simp only [one_mul]
    rw [this, waveSum_eq, ok_bind]
    simp only [one_mul]
  · change componentRhsAt M m x = _
    unfold componentRhsAt
    rw [hr, ok_bind, waveSum_eq, ok_bind]
    congr 4
    refine Finset.sum_congr rfl fun d hd => ?_
    rw [he _ d (lt_of_lt_of_le (Finset.mem_range.1 hd) hx)]
    rfl
  · change componentBdrAt M m x = _
    unfold componentBdrAt
    rw [hr, ok_bind, waveSum_eq, ok_bind]
    congr 4
    refine Finset.sum_congr rfl fun d hd => ?_
    rw [he _ d (lt_of_lt_of_le (Finset.mem_range.1 hd) hx)]
    rfl
  · intro hk ho
    change componentBdrAt M m x = _
    unfold componentBdrAt
    rw [hr, ok_bind, waveSum_eq, ok_bind, ho]
    have h0 : M.sin 0 = 0 := by simpa using hM 0
    simp [hk, h0]
  · intro hs hd
    refine ⟨_, hq, ?_, ?_⟩
    · nlinarith [(hs (2 * M.pi *
        ((∑ d ∈ Finset.range x.length, m s!"advdiff_flow_past_array::qk({d})" * (x[d]?).getD 0) +
          m "advdiff_flow_past_array::qoffset"))).1]
    · nlinarith [(hs (2 * M.pi *
        ((∑ d ∈ Finset.range x.length, m s!"advdiff_flow_past_array::qk({d})" * (x[d]?).getD 0) +
          m "advdiff_flow_past_array::qoffset"))).2]

end

/-!
### The sine of the real numbers
-/

/-- Sine and `π` of the real numbers. -/
noncomputable def realMath : Math ℝ := ⟨Real.sin, Real.pi⟩

theorem real_trig : Trig realMath := fun n => Real.sin_int_mul_pi n

/-- A step between `y0 = 0` and `y1 = 1` whose first mode has half a wave number. -/
noncomputable def halfWave (s : String) : ℝ :=
  if s = "backward_facing_step::y1" then 1
  else if s = "backward_facing_step::u0" then 1
  else if s = "backward_facing_step::amp[0]" then 1
  else if s = "backward_facing_step::ky[0]" then 1 / 2
  else if s = "backward_facing_step::t_offset[0]" then 1 / 4
  else 0

/-- **C105, negation**: with half a wave number the inflow flows across the upper wall. -/
theorem step_violation :
    valueAt realMath halfWave 0 [] .stepU [0, 1] 0 [0, 0] = .ok [0, 1] := by
  change stepUAt realMath halfWave [0, 1] 0 [0, 0] = _
  rw [stepU_eq]
  simp only [mode, entry, halfWave, realMath]
  norm_num
  have h : Real.pi * (1 / 2) = Real.pi / 2 := by ring
  have h' : 2 * Real.pi * (1 / 4) = Real.pi / 2 := by ring
  rw [h, h']
  simp

example : ∃ u v : ℝ, valueAt realMath halfWave 0 [] .stepU [0, 0] 3 [7, 7] = .ok [u, v] ∧ u = 0 ∧ v = 0 := by
  obtain ⟨u, v, e, h, -⟩ := step_profile_partial realMath halfWave 0 [] real_trig 0 0 3 [] [7, 7]
    (by simp [halfWave])
  exact ⟨u, v, e, h (by simp [halfWave])⟩

example : Determined (trainAt realMath (fun s => if s = "linelast_cwtrain::lx" ∨ s = "linelast_cwtrain::ly"
    then 1 else 0) "lx" "ly" "l_ux" "l_uy" "xl" "yl") 2 :=
  (train_partial _ _ _ _ _ _ _ _).1.2 (by
    constructor
    · rw [if_pos (by decide)]; norm_num
    · rw [if_pos (by decide)]; norm_num)

example : ∃ g, vectorAt realMath (fun _ => 0) 0 [] .bodyForce = some g ∧ g [1, 2] 0 [7, 8] = .ok [7, 8] := by
  obtain ⟨g, e, h⟩ := train_violation realMath (fun _ => 0) (fun _ _ => rfl) 0 []
    (f := .bodyForce) (by simp [trainFns])
  exact ⟨g, e, h _ _ _⟩

example : ∃ u : ℝ, valueAt realMath (fun s => if s = "channel_flow::U" then 2 else if s = "channel_flow::L" then 1
    else 0) 0 [] .channelU [5, 1 / 2] 0 [] = .ok [u, 0] ∧ u = 0 := by
  obtain ⟨u, e, h, -⟩ := channel_profile realMath (fun s => if s = "channel_flow::U" then 2 else
    if s = "channel_flow::L" then 1 else 0) 0 [] 5 (1 / 2) 0 [] [] (by simp)
  exact ⟨u, e, h (by simp)⟩

end Verif.Problems
