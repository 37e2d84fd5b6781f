import Verif.Proofs.Boundary
import Verif.Proofs.LinAlg
import Mathlib.Tactic.Ring
import Mathlib.Tactic.FieldSimp
import Mathlib.Tactic.Linarith
import Mathlib.Algebra.Order.Field.Basic
import Mathlib.Data.Rat.Defs
import Mathlib.Algebra.Order.Field.Rat

/-!
# Incompressible boundary data and the pressure level

C36 (complementary flux) and the second half of C35 (the returned pressure has zero mean).
-/

namespace Verif.Boundary

open Verif.Topology

section
variable {K : Type} [Field K] [LinearOrder K]

/-- What one boundary element contributes to a loop over the marked boundaries. -/
def visit {σ : Type} (attrs : List Int) (nz : List Bool) (f : Nat → BdrElem K → σ → σ) (s : σ)
    (e : BdrElem K) : σ :=
  match attrs.findIdx? (· == e.attr) with
  | some i => if nz[i]? = some true then f i e s else s
  | none => s

omit [Field K] [LinearOrder K] in
theorem overBoundary_inner {σ : Type} {attrs : List Int} {nz : List Bool}
    (hnz : nz.length = attrs.length) (f : Nat → BdrElem K → σ → σ) (es : List (BdrElem K)) (s : σ) :
    loop es.length (fun i s => do
      let e ← rd es i
      let g := arrFind attrs e.attr
      if g < 0 then .ok s
      else do
        let z ← rdI nz g
        if z then .ok (f g.toNat e s) else .ok s) s = .ok (es.foldl (visit attrs nz f) s) := by
  have := loop_spec (n := es.length) (body := fun i s => do
      let e ← rd es i
      let g := arrFind attrs e.attr
      if g < 0 then .ok s
      else do
        let z ← rdI nz g
        if z then .ok (f g.toNat e s) else .ok s) (s := s)
    (fun i => (es.take i).foldl (visit attrs nz f) s) (by simp) (by
      intro i hi
      rw [List.take_add_one, List.getElem?_eq_getElem hi, List.foldl_append]
      simp only [rd_of_lt hi, ok_bind, Option.toList_some, List.foldl_cons, List.foldl_nil]
      rcases hf : attrs.findIdx? (· == es[i].attr) with _ | g
      · rw [arrFind_none hf]
        simp [visit, hf]
      · obtain ⟨hg, _, _⟩ := List.findIdx?_eq_some_iff_getElem.1 hf
        have hgn : g < nz.length := by omega
        rw [arrFind_some hf, if_neg (by omega), rdI_of_lt (by omega) (by simpa using hgn)]
        simp only [ok_bind, Int.toNat_natCast, visit, hf, List.getElem?_eq_getElem hgn]
        cases hz : nz[g] <;> simp)
  rw [this]
  simp

omit [Field K] [LinearOrder K] in
theorem overBoundary_eq {σ : Type} {attrs : List Int} {nz : List Bool}
    (hnz : nz.length = attrs.length) (f : Nat → BdrElem K → σ → σ)
    (elems : List (List (BdrElem K))) (s : σ) :
    overBoundary attrs nz elems f s = .ok (elems.flatten.foldl (visit attrs nz f) s) := by
  unfold overBoundary
  have := loop_spec (n := elems.length) (body := fun m s => do
    let es ← rd elems m
    loop es.length (fun i s => do
      let e ← rd es i
      let g := arrFind attrs e.attr
      if g < 0 then .ok s
      else do
        let z ← rdI nz g
        if z then .ok (f g.toNat e s) else .ok s) s) (s := s)
    (fun m => (elems.take m).flatten.foldl (visit attrs nz f) s) (by simp) (by
      intro m hm
      simp only [rd_of_lt hm, ok_bind]
      rw [overBoundary_inner hnz, ← List.foldl_append, List.take_add_one,
        List.getElem?_eq_getElem hm, List.flatten_append]
      simp)
  rw [this]
  simp

omit [LinearOrder K] in
theorem foldl_visit_sum {attrs : List Int} {nz : List Bool} (q : Nat → BdrElem K → K) :
    ∀ (es : List (BdrElem K)) (c : K),
      es.foldl (visit attrs nz fun i e (s : K) => s + q i e) c =
        c + (es.map fun e =>
          match attrs.findIdx? (· == e.attr) with
          | some i => if nz[i]? = some true then q i e else 0
          | none => 0).sum
  | [], c => by simp
  | e :: es, c => by
    rw [List.foldl_cons, foldl_visit_sum q es]
    simp only [visit, List.map_cons, List.sum_cons]
    cases attrs.findIdx? (· == e.attr) with
    | none => simp
    | some i =>
      dsimp only
      split
      · rw [add_assoc]
      · simp

omit [LinearOrder K] in
theorem visit_sum {attrs : List Int} {nz : List Bool} (q : Nat → BdrElem K → K)
    (elems : List (List (BdrElem K))) :
    elems.flatten.foldl (visit attrs nz fun i e (s : K) => s + q i e) 0 =
      Spec.boundarySum attrs nz elems q := by
  rw [foldl_visit_sum, zero_add]; rfl

omit [Field K] [LinearOrder K] in
theorem visit_pair {σ τ : Type} {attrs : List Int} {nz : List Bool} (f : Nat → BdrElem K → σ → σ)
    (g : Nat → BdrElem K → τ → τ) : ∀ (es : List (BdrElem K)) (s : σ) (t : τ),
    es.foldl (visit attrs nz fun i e (p : σ × τ) => (f i e p.1, g i e p.2)) (s, t) =
      (es.foldl (visit attrs nz f) s, es.foldl (visit attrs nz g) t)
  | [], _, _ => rfl
  | e :: es, s, t => by
    simp only [List.foldl_cons]
    rw [← visit_pair f g es]
    congr 1
    unfold visit
    cases attrs.findIdx? (· == e.attr) with
    | none => rfl
    | some i => dsimp only; split <;> rfl

omit [LinearOrder K] in
theorem foldl_add_eq {α : Type} (g : α → K) : ∀ (l : List α) (c : K),
    l.foldl (fun acc q => acc + g q) c = c + (l.map g).sum
  | [], c => by simp
  | a :: l, c => by rw [List.foldl_cons, foldl_add_eq g l]; simp [add_assoc]

omit [LinearOrder K] in
theorem beFlux_eq (u : List K → List K) (e : BdrElem K) : beFlux u e = Spec.fluxThrough u e := by
  unfold beFlux Spec.fluxThrough
  rw [foldl_add_eq (fun q : BdrPoint K => q.w * vdot (u q.x) q.nor), zero_add]; rfl

omit [LinearOrder K] in
theorem beArea_eq (e : BdrElem K) : beArea e = Spec.area e := by
  unfold beArea Spec.area
  rw [foldl_add_eq (fun q : BdrPoint K => q.jac * q.w), zero_add]

omit [LinearOrder K] in
theorem vzip_add_tab (n : Nat) (f g : Nat → K) :
    vzip (· + ·) (tab n f) (tab n g) = tab n (fun k => f k + g k) := by
  unfold vzip
  apply List.ext_getElem?
  intro k
  rw [List.getElem?_zipWith, getElem?_tab, getElem?_tab, getElem?_tab]
  by_cases h : k < n <;> simp [h]

omit [LinearOrder K] in
theorem replicate_tab (n : Nat) : List.replicate n (0 : K) = tab n (fun _ => 0) := by
  apply List.ext_getElem?
  intro k
  rw [List.getElem?_replicate, getElem?_tab]

omit [LinearOrder K] in
theorem list_tab (x : List K) {n : Nat} (h : x.length = n) :
    x = tab n (fun k => (x[k]?).getD 0) := by
  subst h; exact (tab_getD x 0).symm

omit [LinearOrder K] in
theorem beIntegral_eq {dim : Nat} (e : BdrElem K) (hx : ∀ q ∈ e.pts, q.x.length = dim) :
    beIntegral dim (dir ⟨0, List.replicate dim 0⟩) e = tab dim (fun k => Spec.moment k e) := by
  unfold beIntegral Spec.moment
  rw [replicate_tab]
  have : ∀ (pts : List (BdrPoint K)) (c : Nat → K), (∀ q ∈ pts, q.x.length = dim) →
      pts.foldl (fun acc q => vzip (· + ·) acc
        ((dir ⟨0, tab dim (fun _ => 0)⟩ q.x).map (fun y => y * (q.jac * q.w)))) (tab dim c) =
      tab dim (fun k => c k + (pts.map fun q => (q.x[k]?).getD 0 * (q.jac * q.w)).sum) := by
    intro pts
    induction pts with
    | nil => intro c _; simp
    | cons q pts ih =>
      intro c h
      have hq : (dir ⟨0, tab dim (fun _ => 0)⟩ q.x).map (fun y => y * (q.jac * q.w)) =
          tab dim (fun k => (q.x[k]?).getD 0 * (q.jac * q.w)) := by
        have hl := h q (by simp)
        unfold dir vzip
        apply List.ext_getElem?
        intro k
        rw [List.getElem?_map, List.getElem?_zipWith, getElem?_tab, getElem?_tab]
        by_cases hk : k < dim
        · have hk' : k < q.x.length := by omega
          simp [hk, hk']
        · have hk' : ¬ k < q.x.length := by omega
          simp [hk]
      rw [List.foldl_cons, hq, vzip_add_tab, ih _ (fun r hr => h r (by simp [hr]))]
      apply tab_congr
      intro k _
      simp only [List.map_cons, List.sum_cons]
      ring
  rw [this _ _ hx]
  apply tab_congr
  intro k _
  ring

omit [LinearOrder K] in
theorem visit_moment {attrs : List Int} {nz : List Bool} {dim : Nat} :
    ∀ (es : List (BdrElem K)) (c : Nat → K), (∀ e ∈ es, ∀ q ∈ e.pts, q.x.length = dim) →
    es.foldl (visit attrs nz fun _ e (s : List K) =>
      vzip (· + ·) s (beIntegral dim (dir ⟨0, List.replicate dim 0⟩) e)) (tab dim c) =
    tab dim (fun k => c k + (es.map fun e =>
          match attrs.findIdx? (· == e.attr) with
          | some i => if nz[i]? = some true then Spec.moment k e else 0
          | none => 0).sum)
  | [], c, _ => by simp
  | e :: es, c, h => by
    have hv : visit attrs nz (fun _ e (s : List K) =>
        vzip (· + ·) s (beIntegral dim (dir ⟨0, List.replicate dim 0⟩) e)) (tab dim c) e =
        tab dim (fun k => c k + (match attrs.findIdx? (· == e.attr) with
          | some i => if nz[i]? = some true then Spec.moment k e else 0
          | none => 0)) := by
      unfold visit
      cases attrs.findIdx? (· == e.attr) with
      | none => simp
      | some i =>
        dsimp only
        split
        · rw [beIntegral_eq e (h e (by simp)), vzip_add_tab]
        · simp
    rw [List.foldl_cons, hv, visit_moment es _ (fun e he => h e (by simp [he]))]
    apply tab_congr
    intro k _
    simp only [List.map_cons, List.sum_cons, add_assoc]

/-- The flux through the marked boundaries. -/
def totalFlux (attrs : List Int) (nz : List Bool) (elems : List (List (BdrElem K)))
    (u : Nat → List K → List K) : K :=
  Spec.boundarySum attrs nz elems fun i e => Spec.fluxThrough (u i) e

theorem complementaryFlux_eq {dim : Nat} {thr : K} {attrs : List Int} {nz : List Bool}
    {elems : List (List (BdrElem K))} {ud : Nat → FlowGlobals K → List K → List K}
    (hnz : nz.length = attrs.length)
    (hdim : ∀ es ∈ elems, ∀ e ∈ es, ∀ q ∈ e.pts, q.x.length = dim) :
    complementaryFlux dim thr attrs nz elems ud =
      if Spec.boundarySum attrs nz elems (fun _ e => Spec.area e) = 0 then .ok none
      else if totalFlux attrs nz elems
          (fun _ x => List.zipWith (· - ·) x (Spec.centre dim attrs nz elems)) = 0 then .ok none
      else
        let g1 : FlowGlobals K := ⟨0, Spec.centre dim attrs nz elems⟩
        let g2 : FlowGlobals K := ⟨totalFlux attrs nz elems (fun i => ud i g1) /
          totalFlux attrs nz elems
            (fun _ x => List.zipWith (· - ·) x (Spec.centre dim attrs nz elems)),
          Spec.centre dim attrs nz elems⟩
        if thr < |totalFlux attrs nz elems (fun i => ud i g2)| then .error .abort
        else .ok (some g2) := by
  have hfl : ∀ e ∈ elems.flatten, ∀ q ∈ e.pts, q.x.length = dim := by
    intro e he
    obtain ⟨es, hes, he⟩ := List.mem_flatten.1 he
    exact hdim es hes e he
  unfold complementaryFlux
  simp only [overBoundary_eq hnz, ok_bind]
  have h1 : elems.flatten.foldl (visit attrs nz fun _ e (s : K × List K) =>
        (s.1 + beArea e, vzip (· + ·) s.2 (beIntegral dim (dir ⟨0, List.replicate dim 0⟩) e)))
        (0, List.replicate dim 0) =
      (Spec.boundarySum attrs nz elems (fun _ e => Spec.area e),
        tab dim (fun k => Spec.boundarySum attrs nz elems (fun _ e => Spec.moment k e))) := by
    rw [visit_pair (fun _ e (s : K) => s + beArea e) (fun _ e (s : List K) =>
      vzip (· + ·) s (beIntegral dim (dir ⟨0, List.replicate dim 0⟩) e))]
    congr 1
    · simp only [beArea_eq]
      exact visit_sum _ _
    · rw [replicate_tab dim, ← replicate_tab dim, replicate_tab dim]
      have := visit_moment (attrs := attrs) (nz := nz) (dim := dim) elems.flatten
        (fun _ => (0 : K)) hfl
      rw [← replicate_tab dim] at this ⊢
      rw [this]
      apply tab_congr
      intro k _
      rw [zero_add]; rfl
  rw [h1]
  dsimp only
  have hc : (tab dim (fun k => Spec.boundarySum attrs nz elems (fun _ e => Spec.moment k e))).map
      (fun y => y / Spec.boundarySum attrs nz elems (fun _ e => Spec.area e)) =
      Spec.centre dim attrs nz elems := by
    simp [tab, Spec.centre]
  rw [hc]
  split
  · rfl
  · have h2 : ∀ g : FlowGlobals K, elems.flatten.foldl (visit attrs nz fun i e (s : K × K) =>
        (s.1 + beFlux (ud i g) e, s.2 + beFlux (dir g) e)) (0, 0) =
        (totalFlux attrs nz elems (fun i => ud i g), totalFlux attrs nz elems
          (fun _ x => List.zipWith (· - ·) x g.x0)) := by
      intro g
      rw [visit_pair (fun i e (s : K) => s + beFlux (ud i g) e)
        (fun _ e (s : K) => s + beFlux (dir g) e)]
      simp only [beFlux_eq]
      rw [visit_sum, visit_sum]
      rfl
    rw [h2]
    dsimp only
    split
    · rfl
    · have h3 : ∀ g : FlowGlobals K, elems.flatten.foldl (visit attrs nz fun i e (s : K) =>
          s + beFlux (ud i g) e) 0 = totalFlux attrs nz elems (fun i => ud i g) := by
        intro g
        simp only [beFlux_eq]
        rw [visit_sum]; rfl
      rw [h3]

omit [LinearOrder K] in
theorem dot_profile (c : K) : ∀ (p d n : List K), d.length ≤ p.length →
    (List.zipWith (· * ·) (List.zipWith (· - ·) p (d.map fun y => y * c)) n).sum =
      (List.zipWith (· * ·) (List.zipWith (· - ·) p (d.map fun y => y * 0)) n).sum -
        c * (List.zipWith (· * ·) d n).sum
  | _, [], _, _ => by simp
  | [], _ :: _, _, h => by simp at h
  | _ :: _, _ :: _, [], _ => by simp
  | p :: ps, d :: ds, n :: ns, h => by
    have := dot_profile c ps ds ns (by simpa using h)
    simp only [List.map_cons, List.zipWith_cons_cons, List.sum_cons, this]
    ring

omit [LinearOrder K] in
theorem boundarySum_sub {attrs : List Int} {nz : List Bool} {elems : List (List (BdrElem K))}
    {f g h : Nat → BdrElem K → K} {c : K}
    (hfg : ∀ i, ∀ es ∈ elems, ∀ e ∈ es, f i e = g i e - c * h i e) :
    Spec.boundarySum attrs nz elems f =
      Spec.boundarySum attrs nz elems g - c * Spec.boundarySum attrs nz elems h := by
  unfold Spec.boundarySum
  have : ∀ es : List (BdrElem K), (∀ e ∈ es, ∀ i, f i e = g i e - c * h i e) →
      (es.map fun e => match attrs.findIdx? (· == e.attr) with
        | some i => if nz[i]? = some true then f i e else 0
        | none => 0).sum =
      (es.map fun e => match attrs.findIdx? (· == e.attr) with
        | some i => if nz[i]? = some true then g i e else 0
        | none => 0).sum - c * (es.map fun e => match attrs.findIdx? (· == e.attr) with
        | some i => if nz[i]? = some true then h i e else 0
        | none => 0).sum := by
    intro es
    induction es with
    | nil => intro _; simp
    | cons e es ih =>
      intro he
      have hh := he e (by simp)
      simp only [List.map_cons, List.sum_cons, ih (fun e' h' => he e' (by simp [h']))]
      cases attrs.findIdx? (· == e.attr) with
      | none => simp
      | some i =>
        dsimp only
        by_cases hz : nz[i]? = some true
        · simp only [hz, if_true, hh i]; ring
        · simp only [hz, if_false]; ring
  refine this _ ?_
  intro e he i
  obtain ⟨es, hes, he⟩ := List.mem_flatten.1 he
  exact hfg i es hes e he

/-- C36, soundness for arbitrary boundary functions: if the routine ends normally with finite
values, the flux of the final boundary data through the marked boundaries is zero up to the
threshold. -/
theorem complementaryFlux_sound {dim : Nat} {thr : K} {attrs : List Int} {nz : List Bool}
    {elems : List (List (BdrElem K))} {ud : Nat → FlowGlobals K → List K → List K}
    {g : FlowGlobals K} (hnz : nz.length = attrs.length)
    (hdim : ∀ es ∈ elems, ∀ e ∈ es, ∀ q ∈ e.pts, q.x.length = dim)
    (h : complementaryFlux dim thr attrs nz elems ud = .ok (some g)) :
    |Spec.boundarySum attrs nz elems fun i e => Spec.fluxThrough (ud i g) e| ≤ thr := by
  rw [complementaryFlux_eq hnz hdim] at h
  split at h
  · simp at h
  · split at h
    · simp at h
    · dsimp only at h
      split at h
      · cases h
      · rename_i hle
        simp only [Except.ok.injEq, Option.some.injEq] at h
        subst h
        exact not_lt.1 hle

/-- C36: if the boundary functions subtract `del_u * (x - x0)` from a fixed profile, the routine never
aborts; the flux of the final boundary data through the marked boundaries is exactly zero, the
reference point is the centre of those boundaries, and the values are not finite only if their area
is zero or the direction field has no flux through them. -/
theorem complementaryFlux_incompressible [IsStrictOrderedRing K] {dim : Nat} {thr : K}
    (hthr : 0 ≤ thr) {attrs : List Int}
    {nz : List Bool} {elems : List (List (BdrElem K))}
    {ud : Nat → FlowGlobals K → List K → List K} (profile : Nat → List K → List K)
    (hprofile : ∀ i x, x.length = dim → (profile i x).length = dim ∧ ∀ g : FlowGlobals K,
      ud i g x = List.zipWith (· - ·) (profile i x)
        ((List.zipWith (· - ·) x g.x0).map fun y => y * g.delU))
    (hnz : nz.length = attrs.length)
    (hdim : ∀ es ∈ elems, ∀ e ∈ es, ∀ q ∈ e.pts, q.x.length = dim) :
    ∃ r, complementaryFlux dim thr attrs nz elems ud = .ok r ∧
      (r = none ↔ Spec.boundarySum attrs nz elems (fun _ e => Spec.area e) = 0 ∨
        Spec.boundarySum attrs nz elems (fun _ e => Spec.fluxThrough
          (fun x => List.zipWith (· - ·) x (Spec.centre dim attrs nz elems)) e) = 0) ∧
      ∀ g, r = some g → g.x0 = Spec.centre dim attrs nz elems ∧
        Spec.boundarySum attrs nz elems (fun i e => Spec.fluxThrough (ud i g) e) = 0 := by
  rw [complementaryFlux_eq hnz hdim]
  by_cases ha : Spec.boundarySum attrs nz elems (fun _ e => Spec.area e) = 0
  · rw [if_pos ha]
    exact ⟨none, rfl, by simp [ha], by simp⟩
  rw [if_neg ha]
  by_cases hd : totalFlux attrs nz elems
      (fun _ x => List.zipWith (· - ·) x (Spec.centre dim attrs nz elems)) = 0
  · rw [if_pos hd]
    refine ⟨none, rfl, ?_, by simp⟩
    simp only [true_iff]
    exact Or.inr hd
  rw [if_neg hd]
  dsimp only
  generalize hcen : Spec.centre dim attrs nz elems = cen at hd ⊢
  generalize hB : totalFlux attrs nz elems (fun i => ud i ⟨0, cen⟩) = B
  generalize hD : totalFlux attrs nz elems (fun _ x => List.zipWith (· - ·) x cen) = D at hd ⊢
  have hzero : totalFlux attrs nz elems (fun i => ud i ⟨B / D, cen⟩) = 0 := by
    have hc : ∀ c : K, totalFlux attrs nz elems (fun i => ud i ⟨c, cen⟩) = B - c * D := by
      intro c
      rw [← hD, ← hB]
      unfold totalFlux
      apply boundarySum_sub
      intro i es hes e he
      unfold Spec.fluxThrough
      have hpts := hdim es hes e he
      generalize e.pts = pts at hpts
      induction pts with
      | nil => simp
      | cons q pts ih =>
        simp only [List.map_cons, List.sum_cons, ih (fun r hr => hpts r (by simp [hr]))]
        obtain ⟨hl, hu⟩ := hprofile i q.x (hpts q (by simp))
        rw [hu, hu]
        dsimp only
        rw [dot_profile c (profile i q.x) (List.zipWith (· - ·) q.x cen) q.nor (by
          rw [hl, List.length_zipWith, hpts q (by simp)]; omega)]
        ring
    rw [hc]
    field_simp
    ring
  rw [hzero, abs_zero, if_neg (not_lt.2 hthr)]
  refine ⟨_, rfl, ?_, ?_⟩
  · simp only [reduceCtorEq, false_iff, not_or]
    exact ⟨ha, by have h' := hd; rw [← hD] at h'; exact h'⟩
  · intro g hg
    simp only [Option.some.injEq] at hg
    subst hg
    exact ⟨rfl, hzero⟩

/-- A segment from `a` to `b` in the plane with one quadrature point and its normal. -/
def demoSegment (attr : Int) (len : ℚ) (nor x : List ℚ) : BdrElem ℚ :=
  ⟨attr, [⟨1, len, nor, x⟩]⟩

/-- A square with inflow and outflow profiles that do not balance; the lower and upper walls are
homogeneous. -/
def demoElems : List (List (BdrElem ℚ)) :=
  [[demoSegment 1 2 [-2, 0] [0, 1], demoSegment 2 2 [2, 0] [2, 1], demoSegment 3 2 [0, -2] [1, 0],
    demoSegment 4 2 [0, 2] [1, 2], demoSegment 9 2 [0, 2] [1, 2]]]

/-- Velocity one at the inflow, three at the outflow, zero at the walls. -/
def demoProfile (i : Nat) (_ : List ℚ) : List ℚ :=
  if i = 0 then [1, 0] else if i = 1 then [3, 0] else [0, 0]

/-- The hypotheses of `complementaryFlux_incompressible` are met and the correction is not
trivial. -/
example : (complementaryFlux 2 (1 / 10) [1, 2, 3, 4] [true, true, false, false] demoElems
    (fun i g x => List.zipWith (· - ·) (demoProfile i x)
      ((List.zipWith (· - ·) x g.x0).map fun y => y * g.delU))).map
      (fun r => r.map fun g => (g.delU, g.x0)) = .ok (some (1, [1, 1])) := by decide +kernel

example : ∀ es ∈ demoElems, ∀ e ∈ es, ∀ q ∈ e.pts, q.x.length = 2 := by decide +kernel

/-- A boundary function that ignores the correction is rejected. -/
example : (complementaryFlux 2 (1 / 10) [1, 2, 3, 4] [true, true, false, false] demoElems
    (fun i _ x => demoProfile i x)).map (fun _ => ()) = .error .abort := by decide +kernel

/-- If every boundary is homogeneous the routine divides by a zero area and continues. -/
theorem complementaryFlux_all_homogeneous :
    (complementaryFlux (1 : Nat) (1 / 10 : ℚ) [1, 2, 3, 4] [false, false, false, false] demoElems
      (fun i _ x => demoProfile i x)).map (fun r => r.isNone) = .ok true := by decide +kernel

/-!
### Pressure level
-/

omit [LinearOrder K] in
/-- C35: with a velocity condition on every boundary the returned pressure block has zero mean,
pressure differences are those of the linear solve and all other entries are unchanged. -/
theorem removeMean_spec [CharZero K] {sol : List K} {off stop : Nat} (h1 : off < stop)
    (h2 : stop ≤ sol.length) :
    ∃ r, removeMean false sol off stop = .ok r ∧ r.length = sol.length ∧
      (((List.range (stop - off)).map fun i => (r[off + i]?).getD 0).sum = 0) ∧
      (∀ i : Nat, (i < off ∨ stop ≤ i) → r[i]? = sol[i]?) ∧
      ∃ c : K, ∀ i : Nat, off ≤ i → i < stop → (r[i]?).getD 0 = (sol[i]?).getD 0 - c := by
  let n := stop - off
  let S : K := ((List.range n).map fun i => (sol[off + i]?).getD 0).sum
  let c : K := S / n
  have hsum : loop n (fun i acc => do
      let x ← rd sol (off + i)
      .ok (acc + x)) (0 : K) = .ok S := by
    refine loop_spec (fun k => ((List.range k).map fun i => (sol[off + i]?).getD 0).sum) rfl ?_
    intro i hi
    have : off + i < sol.length := by simp only [n] at hi; omega
    simp [rd_of_lt this, List.range_succ, this]
  have hsub : loop n (fun i s => do
      let x ← rd s (off + i)
      wr s (off + i) (x - c)) sol = .ok (tab sol.length fun k =>
        if off ≤ k ∧ k < stop then (sol[k]?).getD 0 - c else (sol[k]?).getD 0) := by
    have := loop_spec (n := n) (body := fun i s => do
        let x ← rd s (off + i)
        wr s (off + i) (x - c)) (s := sol)
      (fun j => tab sol.length fun k =>
        if off ≤ k ∧ k < off + j then (sol[k]?).getD 0 - c else (sol[k]?).getD 0) (by
        conv_lhs => rw [← tab_getD sol 0]
        apply tab_congr
        intro k _
        rw [if_neg (by omega)]) (by
        intro i hi
        have hlt : off + i < sol.length := by simp only [n] at hi; omega
        rw [rd_tab hlt]
        simp only [ok_bind]
        rw [wr_tab hlt]
        congr 1
        apply tab_congr
        intro k hk
        by_cases hki : k = off + i
        · subst hki
          rw [Function.update_self, if_neg (by omega), if_pos (by omega)]
        · rw [Function.update_of_ne hki]
          by_cases hb : off ≤ k ∧ k < off + i
          · rw [if_pos hb, if_pos (by omega)]
          · rw [if_neg hb, if_neg (by omega)])
    rw [this]
    congr 1
    apply tab_congr
    intro k _
    have : off + n = stop := by simp only [n]; omega
    rw [this]
  refine ⟨tab sol.length fun k =>
        if off ≤ k ∧ k < stop then (sol[k]?).getD 0 - c else (sol[k]?).getD 0,
    ?_, ?_, ?_, ?_, c, ?_⟩
  · unfold removeMean
    rw [if_neg (by simp)]
    dsimp only
    exact bind_eq_ok.2 ⟨S, hsum, hsub⟩
  · simp
  · have hn : (n : K) ≠ 0 := by
      have : n ≠ 0 := by simp only [n]; omega
      exact_mod_cast this
    have e : ((List.range n).map fun i => ((tab sol.length fun k =>
        if off ≤ k ∧ k < stop then (sol[k]?).getD 0 - c else (sol[k]?).getD 0)[off + i]?).getD 0).sum
        = S - n * c := by
      have : ∀ k ≤ n, ((List.range k).map fun i => ((tab sol.length fun k =>
        if off ≤ k ∧ k < stop then (sol[k]?).getD 0 - c else (sol[k]?).getD 0)[off + i]?).getD 0).sum
        = ((List.range k).map fun i => (sol[off + i]?).getD 0).sum - k * c := by
        intro k
        induction k with
        | zero => intro _; simp
        | succ k ih =>
          intro hk
          have hk' : off + k < stop := by simp only [n] at hk; omega
          rw [List.range_succ, List.map_append, List.map_append, List.sum_append, List.sum_append,
            ih (by omega)]
          simp only [List.map_cons, List.map_nil, List.sum_cons, List.sum_nil, getElem?_tab,
            if_pos (show off + k < sol.length by omega), Option.getD_some,
            if_pos (show off ≤ off + k ∧ off + k < stop from ⟨by omega, hk'⟩)]
          push_cast
          ring
      exact this n le_rfl
    rw [e]
    simp only [c]
    field_simp
    ring
  · intro i hi
    rw [getElem?_tab]
    split
    · rename_i hlt
      rw [if_neg (by omega)]
      simp [hlt]
    · rename_i hlt
      simp at hlt
      simp [hlt]
  · intro i hi1 hi2
    rw [getElem?_tab, if_pos (by omega), if_pos ⟨hi1, hi2⟩]
    rfl

omit [LinearOrder K] in
/-- C35: if some boundary leaves the velocity free the solution is returned as it is. -/
theorem removeMean_pinned (sol : List K) (off stop : Nat) :
    removeMean true sol off stop = .ok sol := rfl

example : removeMean false [(5 : ℚ), 1, 2, 6] 1 4 = .ok [5, -2, -1, 3] := by decide +kernel

end

end Verif.Boundary
