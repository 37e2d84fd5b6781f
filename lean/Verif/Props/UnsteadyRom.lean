import Verif.Props.Unsteady
import Verif.Proofs.UnsteadyRom

/-!
# C73, C74: time steps of the reduced unsteady Navier-Stokes solver
-/

namespace Verif.Unsteady

open Verif Verif.LinAlg Verif.LinAlg.Spec Verif.Unsteady.Spec Verif.EqpRom Finset
open Verif.Blocks (BlockVector)
open Verif.Blocks.Spec (IsOffsets HasSizes)
open Verif.RomHandler Verif.RomHandler.Spec

variable {R : Type}

section
variable [Field R]

/-- **C73.** The reduced operator and mass matrix are assembled without error. -/
theorem assembleROMMat_total {P : Reduced R} {nu np : Nat → Nat} {rom : BlockMat R}
    {comp : List (Option (Blk R))} {r : Rom R} (h : P.Ok nu np rom comp r) :
    ∃ a, assembleROMMat r.h comp r.dt rom = .ok a :=
  let ⟨a, e, _⟩ := assemble_ok h
  ⟨a, e⟩

theorem matsOk {P : Reduced R} {nu np : Nat → Nat} {rom : BlockMat R} {comp : List (Option (Blk R))}
    {r : Rom R} (h : P.Ok nu np rom comp r)
    (e : assembleROMMat r.h comp r.dt rom = .ok (r.romMat, r.romMass)) : MatsOk P rom r := by
  obtain ⟨a, e', hm⟩ := assemble_ok h
  obtain rfl := Except.ok.inj (e.symm.trans e')
  exact hm

/-- A loop whose body relates each state to the next produces a chain of states. -/
theorem loopFrom_chain {σ : Type} {body : Nat → σ → Outcome σ} {good : σ → Prop} {rel : σ → σ → Prop}
    (hb : ∀ j s, good s → ∃ s', body j s = .ok s' ∧ good s' ∧ rel s s') (k i : Nat) {s : σ} (hs : good s) :
    ∃ f : Nat → σ, f 0 = s ∧ (∀ j, j ≤ k → good (f j)) ∧ (∀ j, j < k → rel (f j) (f (j + 1))) ∧
      loopFrom body i k s = .ok (f k) := by
  induction k generalizing i s with
  | zero => exact ⟨fun _ => s, rfl, fun _ _ => hs, fun j hj => by omega, rfl⟩
  | succ k ih =>
    obtain ⟨s', e, g, hr⟩ := hb i s hs
    obtain ⟨f, f0, f1, f2, f3⟩ := ih (i + 1) g
    refine ⟨fun j => if j = 0 then s else f (j - 1), rfl, fun j hj => ?_, fun j hj => ?_, ?_⟩
    · by_cases h0 : j = 0
      · subst h0; exact hs
      · dsimp only; rw [if_neg h0]; exact f1 _ (by omega)
    · by_cases h0 : j = 0
      · subst h0
        dsimp only
        rw [if_pos rfl, if_neg (by omega), Nat.add_sub_cancel, f0]
        exact hr
      · have := f2 (j - 1) (by omega)
        dsimp only
        rw [if_neg h0, if_neg (by omega), Nat.add_sub_cancel]
        rwa [show j - 1 + 1 = j by omega] at this
    · rw [loopFrom, e]
      exact f3

/-- The chain of reduced states that `solveRom` computes from `x0` at time `t0` to `x1`, `k` steps later. -/
def Chain (P : Reduced R) (r : Rom R) (Np : Nat) (t0 : R) (k : Nat) (xs : Nat → Nat → R) : Prop :=
  ∀ s, s < k → ∃ z, P.Step (t0 + s * P.dt) (xs s) z ∧
    if r.presDbc then ∀ c, c < P.N → xs (s + 1) c = z c else P.Normalised r.h Np z (xs (s + 1))

/-- **C73.** The reduced time loop.  It starts from the projection of the initial condition on the bases;
every step solves the reduced equations at the time reached (with convection explicit), after which the
pressure is normalised if none is prescribed; the result is the last state, lifted, and the time has
advanced by `dt` per step. -/
theorem solveRom_spec {P : Reduced R} {nu np : Nat → Nat} {rom : BlockMat R} {comp : List (Option (Blk R))}
    {r : Rom R} (h : P.Ok nu np rom comp r)
    (e : assembleROMMat r.h comp r.dt rom = .ok (r.romMat, r.romMass)) (hs : P.Solvable)
    {solver : Blk R → List R → Outcome (List R)} (hd : Direct solver) (nt step0 : Nat) (t0 : R)
    {u : BlockVector R} (hu : HasSizes u ((List.range P.n).flatMap fun m => [nu m, np m])) (junk : Nat → R) :
    ∃ (xs : Nat → Nat → R) (u' : BlockVector R),
      solveRom r solver nt step0 t0 u junk = .ok (u', t0 + (nt - step0 : Nat) * P.dt) ∧
      HasSizes u' ((List.range P.n).flatMap fun m => [nu m, np m]) ∧
      (∀ m v k, m < P.n → v < 2 → k < (if v = 0 then P.wu m else P.wp m) →
        xs 0 (P.start m v + k) = ∑ i ∈ range (if v = 0 then nu m else np m),
          ent (basisOf r.h r.h.refBasis m v) i k * bent u (2 * m + v) i) ∧
      Chain P r (first np P.n) t0 (nt - step0) xs ∧
      ∀ m v i, m < P.n → v < 2 → i < (if v = 0 then nu m else np m) →
        bent u' (2 * m + v) i = ∑ k ∈ range (if v = 0 then P.wu m else P.wp m),
          ent (basisOf r.h r.h.refBasis m v) i k * xs (nt - step0) (P.start m v + k) := by
  have hmt := matsOk h e
  have h2 := vars_two h
  have hsum : P.sizes.sum = P.N := by rw [sizes_eq, byVar_sum]; rfl
  obtain ⟨x, p1, p2, p3, p4⟩ := project_spec h.ready u hu junk
  obtain ⟨ones, o1, o2, o3⟩ := romOnes_ok h
  have lx : x.data.length = P.N := by rw [p2.2, hsum]
  unfold solveRom
  rw [h.ord, show (Blocks.Order.variable == Blocks.Order.variable) = true from rfl, require_true, ok_bind, h.n,
    romOffsets_ok h.ready.offs, ok_bind, p1, ok_bind, o1, ok_bind]
  dsimp only
  obtain ⟨f, f0, f1, f2, f3⟩ := loopFrom_chain
    (body := fun _ (s : List R × R) => (do
      let x ← romStep r (tab (P.n + 1) (first P.wu)) [0, P.NU, P.N] ones solver s.2 s.1
      return (x, s.2 + r.dt)))
    (good := fun s => s.1.length = P.N)
    (rel := fun s s' => s'.2 = s.2 + P.dt ∧ ∃ z, P.Step s.2 (ve s.1) z ∧
      if r.presDbc then ∀ c, c < P.N → ve s'.1 c = z c else P.Normalised r.h (first np P.n) z (ve s'.1))
    (by
      intro j s hl
      obtain ⟨x', z, a1, a2, a3, a4⟩ := romStep_ok h hmt hs hd o2 o3 s.2 hl
      rw [a1, ok_bind]
      exact ⟨_, rfl, a2, by rw [← h.dt], z, a3, a4⟩) (nt - step0) step0 (s := (x.data, t0)) lx
  rw [f3, ok_bind]
  have ht : ∀ j, j ≤ nt - step0 → (f j).2 = t0 + j * P.dt := by
    intro j hj
    induction j with
    | zero => rw [f0]; simp
    | succ j ih => rw [(f2 j (by omega)).1, ih (by omega)]; push_cast; ring
  have hz : HasSizes (⟨(f (nt - step0)).1, x.offsets⟩ : BlockVector R) P.sizes := by
    refine ⟨p2.1, ?_⟩
    rw [f1 _ le_rfl, hsum]
  obtain ⟨u', l1, l2, l3⟩ := lift_spec h.ready _ u hz hu
  rw [l1, ok_bind]
  have hblk : ∀ m v, m < P.n → v < 2 → P.sizes[romBlock r.h m v]? = some (if v = 0 then P.wu m else P.wp m) ∧
      (P.sizes.take (romBlock r.h m v)).sum = P.start m v ∧
      (basisOf r.h r.h.refBasis m v).w = (if v = 0 then P.wu m else P.wp m) ∧
      (basisOf r.h r.h.refBasis m v).h = if v = 0 then nu m else np m := by
    intro m v hm hv
    obtain ⟨d0, d1, d2, d3⟩ := basis_dims h hm
    rw [romBlock_variable h, sizes_eq]
    obtain rfl | rfl : v = 0 ∨ v = 1 := by omega
    · rw [Nat.zero_mul, Nat.zero_add]
      exact ⟨(byVar_get hm).1, (byVar_take (by omega)).1, d0, d2⟩
    · rw [Nat.one_mul]
      exact ⟨(byVar_get hm).2, (byVar_take (by omega)).2, d1, d3⟩
  have hf : ∀ m v, fomBlock r.h m v = 2 * m + v := fun m v => by unfold fomBlock; rw [h2, Nat.mul_comm]
  refine ⟨fun j => ve (f j).1, u', ?_, l2, fun m v k hm hv hk => ?_, fun j hj => ?_, fun m v i hm hv hi => ?_⟩
  · rw [ht _ le_rfl]; rfl
  · obtain ⟨s1, s2, s3, s4⟩ := hblk m v hm hv
    dsimp only
    rw [f0, ← s2, ← bent_eq p2 s1 hk, p4 m v k (by rw [h.n]; exact hm) (by omega) (by omega), s4, hf]
  · obtain ⟨z, a, b⟩ := (f2 j hj).2
    exact ⟨z, by rw [← ht j (by omega)]; exact a, b⟩
  · obtain ⟨s1, s2, s3, s4⟩ := hblk m v hm hv
    rw [← hf, l3 m v i (by rw [h.n]; exact hm) (by omega) (by omega), s3]
    refine sum_congr rfl fun k hk => ?_
    rw [bent_eq hz s1 (mem_range.1 hk), s2]

/-- **C73.** A solver whose unknowns are not ordered by variable is refused. -/
theorem solveRom_ordering (r : Rom R) (h : r.h.ord ≠ .variable) (solver : Blk R → List R → Outcome (List R))
    (nt step0 : Nat) (t0 : R) (u : BlockVector R) (junk : Nat → R) :
    solveRom r solver nt step0 t0 u junk = .error .abort := by
  unfold solveRom
  cases ho : r.h.ord with
  | domain => rfl
  | «variable» => exact absurd ho h

/-- **C73.** A reduced state that a step leaves unchanged solves the steady reduced equations. -/
theorem step_fixed_rom {P : Reduced R} {t : R} {x z : Nat → R} (h : P.Step t x z)
    (hfix : ∀ c, c < P.N → z c = x c) : P.Steady t x := by
  have hA : ∀ i, ∑ c ∈ range P.N, P.A i c * z c = ∑ c ∈ range P.N, P.A i c * x c := fun i =>
    sum_congr rfl fun c hc => by rw [hfix c (mem_range.1 hc)]
  refine ⟨fun m k hm hk => ?_, fun q hq => ?_⟩
  · have := h.1 m k hm hk
    have hb := first_bound P.wu hm
    rw [sum_eq_zero (s := range (P.wu m)) fun l hl => by
        have := mem_range.1 hl
        rw [hfix _ (by unfold Reduced.N Reduced.NU; omega), sub_self, zero_div, mul_zero],
      zero_add, hA] at this
    rw [this, sub_add_cancel]
  · rw [← h.2 q hq, hA]

/-! ### The pressure level -/

/-- Sum of the nodal values of the pressure that the state `x` represents. -/
def nodalSum (P : Reduced R) (h : Handler R) (x : Nat → R) : R :=
  ∑ m ∈ range P.n, ∑ i ∈ range (basisOf h h.refBasis m 1).h,
    ∑ k ∈ range (P.wp m), ent (basisOf h h.refBasis m 1) i k * x (P.start m 1 + k)

theorem nodalSum_ones (P : Reduced R) (h : Handler R) (x : Nat → R) : nodalSum P h x =
    ∑ i ∈ range P.n, ∑ j ∈ range (P.wp i), onesAt h i j * x (P.start i 1 + j) := by
  unfold nodalSum onesAt
  refine sum_congr rfl fun m _ => ?_
  rw [sum_comm]
  exact sum_congr rfl fun k _ => by rw [sum_mul]

/-- **C74.** What the normalisation does to the nodal sum: it is multiplied by `1 - |c|² / Np`, with `c`
the coefficients of the projected constant. -/
theorem nodalSum_normalised {P : Reduced R} {h : Handler R} {Np : Nat} {z x : Nat → R}
    (hn : P.Normalised h Np z x) : nodalSum P h x = nodalSum P h z *
      (1 - (∑ m ∈ range P.n, ∑ k ∈ range (P.wp m), onesAt h m k * onesAt h m k) / Np) := by
  rw [nodalSum_ones, nodalSum_ones, mul_sub, mul_one, mul_div_assoc', mul_comm, ← mul_div_assoc', sum_mul,
    ← sum_sub_distrib]
  refine sum_congr rfl fun m hm => ?_
  rw [sum_mul, ← sum_sub_distrib]
  refine sum_congr rfl fun k hk => ?_
  rw [hn.2 m k (mem_range.1 hm) (mem_range.1 hk)]
  ring

/-- The constant function lies in the span of the pressure basis of every subdomain. -/
def ConstantsIn (P : Reduced R) (h : Handler R) : Prop :=
  ∃ a : Nat → Nat → R, ∀ m i, m < P.n → i < (basisOf h h.refBasis m 1).h →
    ∑ k ∈ range (P.wp m), ent (basisOf h h.refBasis m 1) i k * a m k = 1

/-- The projected constant has squared norm `Np` if the bases are orthonormal and contain constants. -/
theorem ones_norm {P : Reduced R} {nu np : Nat → Nat} {rom : BlockMat R} {comp : List (Option (Blk R))}
    {r : Rom R} (h : P.Ok nu np rom comp r) (ho : Orthonormal r.h) (hc : ConstantsIn P r.h) :
    ∑ m ∈ range P.n, ∑ k ∈ range (P.wp m), onesAt r.h m k * onesAt r.h m k = (first np P.n : Nat) := by
  obtain ⟨a, ha⟩ := hc
  have h2 := vars_two h
  unfold first
  rw [Nat.cast_sum]
  refine sum_congr rfl fun m hm => ?_
  have hm := mem_range.1 hm
  obtain ⟨_, d1, _, d3⟩ := basis_dims h hm
  have hone : ∀ k, k < P.wp m → onesAt r.h m k = a m k := by
    intro k hk
    unfold onesAt
    rw [sum_congr rfl fun i hi => by
      rw [← mul_one (ent (basisOf r.h r.h.refBasis m 1) i k), ← ha m i hm (mem_range.1 hi), mul_sum], sum_comm]
    rw [sum_congr rfl fun l hl => by
      rw [sum_congr rfl fun i _ => (mul_assoc (ent (basisOf r.h r.h.refBasis m 1) i k)
          (ent (basisOf r.h r.h.refBasis m 1) i l) (a m l)).symm, ← sum_mul,
        ho m 1 k l (by rw [h.n]; exact hm) (by omega) (by omega)
          (by have := mem_range.1 hl; omega), ite_mul, one_mul, zero_mul]]
    rw [sum_ite_eq (range (P.wp m)), if_pos (mem_range.2 hk)]
  have : ∑ k ∈ range (P.wp m), onesAt r.h m k * onesAt r.h m k =
      ∑ i ∈ range (np m), ∑ k ∈ range (P.wp m), ent (basisOf r.h r.h.refBasis m 1) i k * a m k := by
    rw [sum_comm]
    refine sum_congr rfl fun k hk => ?_
    rw [← sum_mul, ← d3, hone k (mem_range.1 hk), ← hone k (mem_range.1 hk)]
    rfl
  rw [this, sum_congr rfl fun i hi => ha m i hm (by rw [d3]; exact mem_range.1 hi)]
  simp

/-- **C74.** Without a prescribed pressure, if the bases are orthonormal and constants lie in the span of
every pressure basis, the pressure that the reduced solver returns after at least one step has nodal mean
zero, as that of the full-order solver.  *Missing*: without constants in the span it does not, see
`mean_not_zero`. -/
theorem solveRom_mean_partial [CharZero R] {P : Reduced R} {nu np : Nat → Nat} {rom : BlockMat R}
    {comp : List (Option (Blk R))} {r : Rom R} (h : P.Ok nu np rom comp r)
    (e : assembleROMMat r.h comp r.dt rom = .ok (r.romMat, r.romMass)) (hs : P.Solvable)
    {solver : Blk R → List R → Outcome (List R)} (hd : Direct solver) {nt step0 : Nat} (hlt : step0 < nt) (t0 : R)
    {u u' : BlockVector R} {t1 : R} (hu : HasSizes u ((List.range P.n).flatMap fun m => [nu m, np m]))
    (junk : Nat → R) (hrun : solveRom r solver nt step0 t0 u junk = .ok (u', t1)) (hp : r.presDbc = false)
    (ho : Orthonormal r.h) (hc : ConstantsIn P r.h) :
    ∑ m ∈ range P.n, ∑ i ∈ range (np m), bent u' (2 * m + 1) i = 0 := by
  obtain ⟨xs, u'', e1, _, _, e4, e5⟩ := solveRom_spec h e hs hd nt step0 t0 hu junk
  obtain rfl : u' = u'' := congrArg Prod.fst (Except.ok.inj (hrun.symm.trans e1))
  obtain ⟨z, _, hz⟩ := e4 (nt - step0 - 1) (by omega)
  rw [hp, if_neg (by simp), show nt - step0 - 1 + 1 = nt - step0 by omega] at hz
  have h1 : ∑ m ∈ range P.n, ∑ i ∈ range (np m), bent u' (2 * m + 1) i = nodalSum P r.h (xs (nt - step0)) := by
    unfold nodalSum
    refine sum_congr rfl fun m hm => ?_
    have hm := mem_range.1 hm
    rw [(basis_dims h hm).2.2.2]
    exact sum_congr rfl fun i hi => e5 m 1 i hm (by omega) (mem_range.1 hi)
  rw [h1, nodalSum_normalised hz, ones_norm h ho hc]
  rcases Nat.eq_zero_or_pos (first np P.n) with h0 | h0
  · have : nodalSum P r.h z = 0 := by
      unfold nodalSum
      refine sum_eq_zero fun m hm => ?_
      have hm := mem_range.1 hm
      have := first_bound np hm
      rw [(basis_dims h hm).2.2.2, show np m = 0 by omega, range_zero, sum_empty]
    rw [this, zero_mul]
  · have : ((first np P.n : Nat) : R) ≠ 0 := by exact_mod_cast h0.ne'
    rw [div_self this, sub_self, mul_zero]

/-- **C73.** The reduced mass matrix of every component is the Galerkin projection of its mass matrix on the
velocity basis of the component. -/
theorem buildMass_spec {h : Handler R} {nc : Nat} (hb : RomAssembly.Spec.BasesOk h nc) (hsep : h.separate = true)
    (hv : 0 < h.numVar) {ms : List (Op R)} (hl : ms.length = nc)
    (hm : ∀ c a, ms[c]? = some a → RomAssembly.Spec.IsLinear a ∧ a.h = (RomAssembly.Spec.refB h c 0).h ∧
      a.w = (RomAssembly.Spec.refB h c 0).h) :
    ∃ l, buildMass h ms = .ok l ∧ l.length = nc ∧ ∀ c a, ms[c]? = some a →
      ∃ b : Blk R, l[c]? = some (some b) ∧ b.h = (RomAssembly.Spec.refB h c 0).w ∧ b.w = (RomAssembly.Spec.refB h c 0).w ∧
        ∀ p q, p < (RomAssembly.Spec.refB h c 0).w → q < (RomAssembly.Spec.refB h c 0).w →
          b.val p q = RomAssembly.Spec.galerkin (RomAssembly.Spec.refB h c 0) (RomAssembly.Spec.refB h c 0)
            (RomAssembly.Spec.opEnt a) p q := by
  have hvars : vars h = h.numVar := by unfold vars; rw [hsep, if_pos rfl]
  unfold buildMass
  obtain ⟨l, e, l1, l2⟩ := loop_total (n := ms.length) (body := fun c (acc : List (Option (Blk R))) => (do
      let a ← rd ms c
      if !h.separate then return acc ++ [none]
      let s ← h.projectRefMat (c * h.numVar : Nat) (c * h.numVar : Nat) (some a)
      return acc ++ [some ⟨s.h, s.w, fun r c => s.get r c⟩]))
    (fun n acc => acc.length = n ∧ ∀ c a, c < n → ms[c]? = some a →
      ∃ b : Blk R, acc[c]? = some (some b) ∧ b.h = (RomAssembly.Spec.refB h c 0).w ∧ b.w = (RomAssembly.Spec.refB h c 0).w ∧
        ∀ p q, p < (RomAssembly.Spec.refB h c 0).w → q < (RomAssembly.Spec.refB h c 0).w →
          b.val p q = RomAssembly.Spec.galerkin (RomAssembly.Spec.refB h c 0) (RomAssembly.Spec.refB h c 0)
            (RomAssembly.Spec.opEnt a) p q) (s := []) ⟨rfl, fun c a hc => by omega⟩ (by
    rintro c acc hc ⟨a1, a2⟩
    obtain ⟨g1, g2, g3⟩ := hm c ms[c] (List.getElem?_eq_getElem hc)
    obtain ⟨s, s1, s2, s3, s4⟩ := RomAssembly.projectRef_spec hb (c1 := c) (c2 := c) (v := 0) (w := 0)
      (by omega) (by omega) (by omega) (by omega) g1 g2 g3
    rw [RomAssembly.refIndex_nat h c (by omega), hvars, Nat.add_zero] at s1
    rw [rd_of_lt hc, ok_bind]
    simp only [hsep, Bool.not_true, Bool.false_eq_true, if_false]
    rw [s1, ok_bind]
    refine ⟨_, rfl, by simp [a1], fun c' a' hc' ha' => ?_⟩
    by_cases he : c' = c
    · subst he
      rw [List.getElem?_eq_getElem hc] at ha'
      obtain rfl := Option.some.inj ha'
      refine ⟨⟨s.h, s.w, fun r c => s.get r c⟩, ?_, s2, s3, s4⟩
      rw [List.getElem?_append_right (by omega), a1, Nat.sub_self]; rfl
    · obtain ⟨b, b1, b2⟩ := a2 c' a' (by omega) ha'
      exact ⟨b, by rw [List.getElem?_append_left (by omega)]; exact b1, b2⟩)
  refine ⟨l, e, by omega, fun c a ha => l2 c a (List.getElem?_eq_some_iff.1 ha).1 ha⟩

end

/-! ### The hypotheses can be met -/

/-- Two copies of one component, with one velocity dof, and the pressure basis `pb`. -/
def exHandler (pb : Mat ℚ) : Handler ℚ :=
  ⟨true, .variable, 2, [0, 0], [0, 1, 2, 3, 4], [⟨1, 1, [1]⟩, pb], [⟨1, 1, [1]⟩, ⟨1, 1, [1]⟩, pb, pb], true⟩

/-- A reduced problem with one velocity and one pressure unknown per subdomain. -/
def exReduced : Reduced ℚ :=
  ⟨2, fun _ => 1, fun _ => 1, fun _ _ _ => 1,
    fun r c => if r < 2 then (if c = r then 2 else if c = r + 2 then 1 else 0) else if c + 2 = r then 1 else 0,
    fun _ _ x k => ve x k * ve x k, fun t x m _ => t * ve x (1 - m),
    fun t => if t = 0 then 1 else if t = 1 then 2 else if t = 2 then 3 else -3, 1 / 2⟩

/-- Its operator as a block matrix. -/
def exMat : BlockMat ℚ :=
  ⟨[0, 1, 2, 3, 4], [0, 1, 2, 3, 4], true, fun i j =>
    if i < 4 ∧ j < 4 then some ⟨1, 1, fun _ _ => exReduced.A i j⟩ else none⟩

/-- The solver, before its matrices are assembled. -/
def exRom (pb : Mat ℚ) : Rom ℚ :=
  ⟨exHandler pb, exMat, exMat, [1, 2, 3, -3], [0, pb.h, 2 * pb.h], exFom.conv, false, 1 / 2⟩

theorem offs4 : IsOffsets [0, 1, 2, 3, 4] exReduced.sizes :=
  ⟨rfl, rfl, fun i s h => by
    match i, h with
    | 0, h => cases h; exact ⟨0, rfl, rfl⟩
    | 1, h => cases h; exact ⟨1, rfl, rfl⟩
    | 2, h => cases h; exact ⟨2, rfl, rfl⟩
    | 3, h => cases h; exact ⟨3, rfl, rfl⟩⟩

theorem exSizes {i s : Nat} (h : exReduced.sizes[i]? = some s) :
    i < 4 ∧ s = 1 ∧ (exReduced.sizes.take i).sum = i := by
  match i, h with
  | 0, h => cases h; exact ⟨by omega, rfl, rfl⟩
  | 1, h => cases h; exact ⟨by omega, rfl, rfl⟩
  | 2, h => cases h; exact ⟨by omega, rfl, rfl⟩
  | 3, h => cases h; exact ⟨by omega, rfl, rfl⟩

theorem exRom_ok (pb : Mat ℚ) (hw : pb.w = 1) :
    exReduced.Ok (fun _ => 1) (fun _ => pb.h) exMat [some ⟨1, 1, fun _ _ => 1⟩] (exRom pb) := by
  refine ⟨rfl, rfl, rfl, rfl, rfl, by norm_num [exReduced], ?_, ?_, rfl, rfl, rfl, ?_, ?_, ?_, rfl, ?_, exConv 2 rfl⟩
  · refine ⟨rfl, ?_, offs4, rfl, rfl, ?_, ?_⟩
    all_goals
      intro m v hm hv
      have hm : m < 2 := hm
      have hv : v < 2 := hv
      interval_cases m <;> interval_cases v <;> first | rfl | exact congrArg some hw.symm
  · refine ⟨rfl, rfl, fun i s h => ?_⟩
    match i, h with
    | 0, h => cases h; exact ⟨0, rfl, by simp [exRom]⟩
    | 1, h => cases h; exact ⟨pb.h, rfl, by simp [exRom]; omega⟩
  · intro i j b h
    unfold exMat at h
    dsimp only at h
    split at h
    · rename_i hij
      obtain rfl := Option.some.inj h
      obtain ⟨hi, hj⟩ := hij
      interval_cases i <;> interval_cases j <;> exact ⟨rfl, rfl⟩
    · cases h
  · intro i j s s' k l hi hj hk hl
    obtain ⟨i4, rfl, ti⟩ := exSizes hi
    obtain ⟨j4, rfl, tj⟩ := exSizes hj
    obtain rfl : k = 0 := by omega
    obtain rfl : l = 0 := by omega
    have hb : exMat.blk i j = some ⟨1, 1, fun _ _ => exReduced.A i j⟩ := if_pos ⟨i4, j4⟩
    rw [ti, tj, hb]
    rfl
  · intro m c hc
    match m, hc with
    | 0, h => cases h; rfl
    | 1, h => cases h; rfl
  · intro t ht
    have ht : t < 4 := ht
    interval_cases t <;> simp [exRom, exReduced, ve]

theorem exReduced_solvable : exReduced.Solvable := by
  intro t x
  refine ⟨fun c => if c = 0 then 3 else if c = 1 then -3 else if c = 2 then
      1 - exReduced.conv t x 0 0 + 2 * x 0 - 12 else 2 - exReduced.conv t x 1 0 + 2 * x 1 + 12,
    fun m k hm hk => ?_, fun q hq => ?_⟩
  · obtain rfl : k = 0 := by have : k < 1 := hk; omega
    have hm : m < 2 := hm
    interval_cases m
    · generalize exReduced.conv t x 0 0 = y
      norm_num [exReduced, Reduced.N, Reduced.NU, Reduced.NP, first, sum_range_succ]
      ring
    · generalize exReduced.conv t x 1 0 = y
      norm_num [exReduced, Reduced.N, Reduced.NU, Reduced.NP, first, sum_range_succ]
      ring
  · have hq : q < 2 := hq
    interval_cases q <;> norm_num [exReduced, Reduced.N, Reduced.NU, Reduced.NP, first, sum_range_succ]

theorem exOrth4 : Orthonormal (exHandler ⟨4, 1, [1 / 2, 1 / 2, 1 / 2, 1 / 2]⟩) := by
  intro m v i j hm hv hi hj
  have hm : m < 2 := hm
  have hv : v < 2 := hv
  interval_cases m <;> interval_cases v <;>
    (obtain rfl : i = 0 := by have : i < 1 := hi; omega) <;>
    (obtain rfl : j = 0 := by have : j < 1 := hj; omega) <;> decide +kernel

theorem exOrth2 : Orthonormal (exHandler ⟨2, 1, [3 / 5, 4 / 5]⟩) := by
  intro m v i j hm hv hi hj
  have hm : m < 2 := hm
  have hv : v < 2 := hv
  interval_cases m <;> interval_cases v <;>
    (obtain rfl : i = 0 := by have : i < 1 := hi; omega) <;>
    (obtain rfl : j = 0 := by have : j < 1 := hj; omega) <;> decide +kernel

theorem exConst4 : ConstantsIn exReduced (exHandler ⟨4, 1, [1 / 2, 1 / 2, 1 / 2, 1 / 2]⟩) := by
  refine ⟨fun _ _ => 2, fun m i hm hi => ?_⟩
  have hm : m < 2 := hm
  have hi : i < 4 := by interval_cases m <;> exact hi
  interval_cases m <;> interval_cases i <;> decide +kernel

theorem exOnes2 : onesAt (exHandler ⟨2, 1, [3 / 5, 4 / 5]⟩) 0 0 = 7 / 5 ∧
    onesAt (exHandler ⟨2, 1, [3 / 5, 4 / 5]⟩) 1 0 = 7 / 5 := by decide +kernel

/-- C73 and C74 apply to it, with four pressure nodes and the constant pressure as basis. -/
example : ∃ r u', exReduced.Ok (fun _ => 1) (fun _ => 4) exMat [some ⟨1, 1, fun _ _ => 1⟩] r ∧
    solveRom r exact 3 0 0 ⟨[1, 5, 6, 7, 8, 2, 5, 6, 7, 8], [0, 1, 5, 6, 10]⟩ (fun _ => 0) =
      .ok (u', 0 + (3 : Nat) * (1 / 2)) ∧
    ∑ m ∈ range 2, ∑ i ∈ range 4, bent u' (2 * m + 1) i = 0 := by
  have h0 := exRom_ok ⟨4, 1, [1 / 2, 1 / 2, 1 / 2, 1 / 2]⟩ rfl
  obtain ⟨a, e⟩ := assembleROMMat_total h0
  let r : Rom ℚ := { exRom ⟨4, 1, [1 / 2, 1 / 2, 1 / 2, 1 / 2]⟩ with romMat := a.1, romMass := a.2 }
  have h1 : exReduced.Ok (fun _ => 1) (fun _ => 4) exMat [some ⟨1, 1, fun _ _ => 1⟩] r := { h0 with }
  have hu : HasSizes (⟨[1, 5, 6, 7, 8, 2, 5, 6, 7, 8], [0, 1, 5, 6, 10]⟩ : BlockVector ℚ)
      ((List.range exReduced.n).flatMap fun m => [(fun _ => 1) m, (fun _ => 4) m]) := by
    refine ⟨⟨rfl, rfl, fun i s h => ?_⟩, rfl⟩
    match i, h with
    | 0, h => cases h; exact ⟨0, rfl, rfl⟩
    | 1, h => cases h; exact ⟨1, rfl, rfl⟩
    | 2, h => cases h; exact ⟨5, rfl, rfl⟩
    | 3, h => cases h; exact ⟨6, rfl, rfl⟩
  obtain ⟨xs, u', e1, _⟩ := solveRom_spec h1 e exReduced_solvable exact_direct 3 0 0 hu (fun _ => 0)
  refine ⟨r, u', h1, e1, ?_⟩
  refine solveRom_mean_partial h1 e exReduced_solvable exact_direct (by omega) 0 hu _ e1 rfl ?_ ?_
  · exact exOrth4
  · exact exConst4

/-- **C74.** In general the nodal mean of the reduced pressure is not removed: with the orthonormal basis
`(3/5, 4/5)` of two pressure nodes, one step leaves the nodal sum `21/250`. -/
theorem mean_not_zero : ∃ (P : Reduced ℚ) (nu np : Nat → Nat) (rom : BlockMat ℚ) (comp : List (Option (Blk ℚ)))
    (r : Rom ℚ) (u u' : BlockVector ℚ) (t1 : ℚ), P.Ok nu np rom comp r ∧
    assembleROMMat r.h comp r.dt rom = .ok (r.romMat, r.romMass) ∧ P.Solvable ∧
    Direct (exact (R := ℚ)) ∧ HasSizes u ((List.range P.n).flatMap fun m => [nu m, np m]) ∧
    solveRom r exact 1 0 0 u (fun _ => 0) = .ok (u', t1) ∧ r.presDbc = false ∧ Orthonormal r.h ∧
    ∑ m ∈ range P.n, ∑ i ∈ range (np m), bent u' (2 * m + 1) i ≠ 0 := by
  have h0 := exRom_ok ⟨2, 1, [3 / 5, 4 / 5]⟩ rfl
  obtain ⟨a, e⟩ := assembleROMMat_total h0
  let r : Rom ℚ := { exRom ⟨2, 1, [3 / 5, 4 / 5]⟩ with romMat := a.1, romMass := a.2 }
  have h1 : exReduced.Ok (fun _ => 1) (fun _ => 2) exMat [some ⟨1, 1, fun _ _ => 1⟩] r := { h0 with }
  have hu : HasSizes (⟨[0, 0, 0, 0, 0, 0], [0, 1, 3, 4, 6]⟩ : BlockVector ℚ)
      ((List.range exReduced.n).flatMap fun m => [(fun _ => 1) m, (fun _ => 2) m]) := by
    refine ⟨⟨rfl, rfl, fun i s h => ?_⟩, rfl⟩
    match i, h with
    | 0, h => cases h; exact ⟨0, rfl, rfl⟩
    | 1, h => cases h; exact ⟨1, rfl, rfl⟩
    | 2, h => cases h; exact ⟨3, rfl, rfl⟩
    | 3, h => cases h; exact ⟨4, rfl, rfl⟩
  obtain ⟨xs, u', e1, _, e3, e4, e5⟩ := solveRom_spec h1 e exReduced_solvable exact_direct 1 0 0 hu (fun _ => 0)
  refine ⟨_, _, _, _, _, r, _, u', _, h1, e, exReduced_solvable, exact_direct, hu, e1, rfl, ?_, ?_⟩
  · exact exOrth2
  · obtain ⟨z, hz, hn⟩ := e4 0 (by omega)
    rw [if_neg (show ¬ r.presDbc = true from Bool.false_ne_true)] at hn
    have x0 : xs 0 0 = 0 := by
      have := e3 0 0 0 (by decide) (by omega) (by decide)
      simpa [exReduced, Reduced.start, first, bent, ve, Blocks.Spec.blockOf] using this
    have x1 : xs 0 1 = 0 := by
      have := e3 1 0 0 (by decide) (by omega) (by decide)
      simpa [exReduced, Reduced.start, first, bent, ve, Blocks.Spec.blockOf] using this
    have c0 : exReduced.conv (0 + (0 : Nat) * exReduced.dt) (xs 0) 0 0 = 0 := by
      simp [exReduced, Reduced.conv, part, vecOf, first, ve, Reduced.NU, x0]
    have c1 : exReduced.conv (0 + (0 : Nat) * exReduced.dt) (xs 0) 1 0 = 0 := by
      simp [exReduced, Reduced.conv, part, vecOf, first, ve, Reduced.NU, x1]
    have z0 := hz.2 0 (by decide)
    have z1 := hz.2 1 (by decide)
    have z2 := hz.1 0 0 (by decide) (by decide)
    have z3 := hz.1 1 0 (by decide) (by decide)
    rw [c0] at z2
    rw [c1] at z3
    norm_num [exReduced, Reduced.N, Reduced.NU, Reduced.NP, first, sum_range_succ] at z0 z1 z2 z3
    rw [z0, x0] at z2
    rw [z1, x1] at z3
    have s1 : ∑ m ∈ range exReduced.n, ∑ i ∈ range ((fun _ => 2) m), bent u' (2 * m + 1) i =
        nodalSum exReduced r.h (xs 1) := by
      unfold nodalSum
      refine sum_congr rfl fun m hm => ?_
      have hm := mem_range.1 hm
      rw [(basis_dims h1 hm).2.2.2]
      exact sum_congr rfl fun i hi => e5 m 1 i hm (by omega) (mem_range.1 hi)
    have o0 : onesAt r.h 0 0 = 7 / 5 := exOnes2.1
    have o1 : onesAt r.h 1 0 = 7 / 5 := exOnes2.2
    have s2 : nodalSum exReduced r.h z = 21 / 5 := by
      rw [nodalSum_ones]
      norm_num [exReduced, Reduced.start, Reduced.NU, first, sum_range_succ, o0, o1]
      linear_combination (7 / 5 : ℚ) * z2 + (7 / 5 : ℚ) * z3
    have s3 := nodalSum_normalised hn
    rw [s2] at s3
    rw [s1, s3]
    norm_num [exReduced, first, sum_range_succ, o0, o1]

end Verif.Unsteady
