import Verif.Spec.Cfl
import Verif.Props.DivideFlow

/-!
# C121: the reported CFL number is the largest one of the undivided mesh

`Verif.Model.Cfl` models `ComputeCFL`; `Verif.Spec.Cfl` says what the CFL number of a velocity is on the
undivided mesh.
-/

namespace Verif.Cfl

open Verif Verif.LinAlg Verif.LinAlg.Spec Verif.SubMesh Verif.SubMesh.Spec Finset Spec
open Verif.RomHandler Verif.RomHandler.Spec Verif.Blocks Verif.Blocks.Spec
open Verif.Divide Verif.Divide.Spec
open Verif.InterfaceForm (Space)
open Verif.InterfaceForm.Spec (sizeIn)
open Verif.Unsteady.Spec (first)
open Verif.Boundary (BC)

variable {R : Type} [Field R] [LinearOrder R] [IsStrictOrderedRing R] {pm : Parent} {subs : List Sub}
variable {φ : Nat → Nat → Nat} {g : Int} {C : Cells R} {uspaces pspaces : List Space}

/-- Largest of the numbers with property `P`, or zero. -/
structure Top (P : R → Prop) (c : R) : Prop where
  nonneg : 0 ≤ c
  bound : ∀ r, P r → r ≤ c
  reached : c = 0 ∨ P c

theorem Top.insert {P Q : R → Prop} {c r : R} (h : Top P c) (hQ : ∀ x, Q x ↔ P x ∨ x = r) :
    Top Q (max c r) := by
  refine ⟨le_max_of_le_left h.nonneg, ?_, ?_⟩
  · intro x hx
    rcases (hQ x).1 hx with hx | hx
    · exact le_max_of_le_left (h.bound x hx)
    · exact hx ▸ le_max_right _ _
  · rcases le_total r c with hle | hle
    · rw [max_eq_left hle]
      exact h.reached.imp id fun hp => (hQ c).2 (Or.inl hp)
    · rw [max_eq_right hle]
      exact Or.inr ((hQ r).2 (Or.inr rfl))

theorem Top.congr {P Q : R → Prop} {c : R} (h : Top P c) (hQ : ∀ x, Q x ↔ P x) : Top Q c :=
  ⟨h.nonneg, fun r hr => h.bound r ((hQ r).1 hr), h.reached.imp id (hQ c).2⟩

/-- `r` is the CFL number at a point met before point `q` of element `i` of subdomain `m`. -/
def Seen (C : Cells R) (subs : List Sub) (d : Nat) (dt : R) (υ : Nat → Nat → R) (m i q : Nat) (r : R) : Prop :=
  ∃ m' i' e q', At subs m' i' e ∧ q' < C.pts e ∧ (m' < m ∨ m' = m ∧ (i' < i ∨ i' = i ∧ q' < q)) ∧
    r = courant C d dt υ e q'

/-- Number of components. -/
def dims (three : Bool) : Nat := if three then 3 else 2

theorem quotient (dt x h : R) (p : Nat) (hh : 0 < h) :
    |dt * x / (h / (p : R))| = |dt| * |x| * (p : R) / h := by
  rw [abs_div, abs_div, abs_mul, abs_of_pos hh, Nat.abs_cast, div_div_eq_mul_div]

theorem courant_nonneg (d : Nat) (dt : R) (υ : Nat → Nat → R) {e i : Nat} (hh : 0 < C.h e) :
    0 ≤ courant C d dt υ e i := by
  unfold courant
  have : 0 ≤ ∑ c ∈ range d, |C.val e (c + 1) (valuesOn C.n υ e) i| := sum_nonneg fun _ _ => abs_nonneg _
  positivity

/-- Both models of the step variable `cflz`. -/
def Flat (three : Bool) (s : Vars R) : Prop := three = false → s.cflz = 0

theorem point_ok (three : Bool) (dt : R) (υ : Nat → Nat → R) {e i : Nat} {ux uy uz : List R} {s : Vars R}
    (hh : 0 < C.h e) (hx : ux[i]? = some (C.val e 1 (valuesOn C.n υ e) i))
    (hy : uy[i]? = some (C.val e 2 (valuesOn C.n υ e) i))
    (hz : three = true → uz[i]? = some (C.val e 3 (valuesOn C.n υ e) i)) (hs : Flat three s) :
    ∃ t, pointCFL three dt (C.h e / (C.p : R)) ux uy uz i s = .ok t ∧ Flat three t ∧
      t.cflmax = max s.cflmax (courant C (dims three) dt υ e i) := by
  unfold pointCFL
  rw [rd_eq_ok.2 hx, ok_bind, rd_eq_ok.2 hy, ok_bind]
  dsimp only
  cases three with
  | true =>
    rw [if_pos rfl, rd_eq_ok.2 (hz rfl)]
    refine ⟨_, rfl, fun h => absurd h (by decide), ?_⟩
    dsimp only
    rw [quotient _ _ _ _ hh, quotient _ _ _ _ hh, quotient _ _ _ _ hh]
    congr 1
    unfold courant dims
    rw [if_pos rfl, sum_range_succ, sum_range_succ, sum_range_one]
    ring
  | false =>
    rw [if_neg (by decide)]
    refine ⟨_, rfl, fun _ => hs rfl, ?_⟩
    dsimp only
    rw [quotient _ _ _ _ hh, quotient _ _ _ _ hh, hs rfl]
    congr 1
    unfold courant dims
    rw [if_neg (by decide), sum_range_succ, sum_range_one]
    ring

theorem seen_point {d : Nat} {dt : R} {υ : Nat → Nat → R} {m i e q : Nat} (hat : At subs m i e)
    (hq : q < C.pts e) (r : R) :
    Seen C subs d dt υ m i (q + 1) r ↔ Seen C subs d dt υ m i q r ∨ r = courant C d dt υ e q := by
  constructor
  · rintro ⟨m', i', e', q', h1, h2, h3, h4⟩
    by_cases hc : m' = m ∧ i' = i ∧ q' = q
    · obtain ⟨rfl, rfl, rfl⟩ := hc
      obtain ⟨s, a1, a2⟩ := h1
      obtain ⟨s', b1, b2⟩ := hat
      rw [a1] at b1; cases b1
      rw [a2] at b2; cases b2
      exact Or.inr h4
    · exact Or.inl ⟨m', i', e', q', h1, h2, by omega, h4⟩
  · rintro (⟨m', i', e', q', h1, h2, h3, h4⟩ | h)
    · exact ⟨m', i', e', q', h1, h2, by omega, h4⟩
    · exact ⟨m, i, e, q, hat, hq, by omega, h⟩

theorem seen_element {d : Nat} {dt : R} {υ : Nat → Nat → R} {m i e : Nat} (hat : At subs m i e) (r : R) :
    Seen C subs d dt υ m (i + 1) 0 r ↔ Seen C subs d dt υ m i (C.pts e) r := by
  constructor
  · rintro ⟨m', i', e', q', h1, h2, h3, h4⟩
    refine ⟨m', i', e', q', h1, h2, ?_, h4⟩
    by_cases hc : m' = m ∧ i' = i
    · obtain ⟨rfl, rfl⟩ := hc
      obtain ⟨s, a1, a2⟩ := h1
      obtain ⟨s', b1, b2⟩ := hat
      rw [a1] at b1; cases b1
      rw [a2] at b2; cases b2
      exact Or.inr ⟨rfl, Or.inr ⟨rfl, h2⟩⟩
    · omega
  · rintro ⟨m', i', e', q', h1, h2, h3, h4⟩
    exact ⟨m', i', e', q', h1, h2, by omega, h4⟩

theorem seen_sub {d : Nat} {dt : R} {υ : Nat → Nat → R} {m : Nat} {sm : Sub} (hm : subs[m]? = some sm) (r : R) :
    Seen C subs d dt υ (m + 1) 0 0 r ↔ Seen C subs d dt υ m sm.elemMap.length 0 r := by
  constructor
  · rintro ⟨m', i', e', q', h1, h2, h3, h4⟩
    refine ⟨m', i', e', q', h1, h2, ?_, h4⟩
    by_cases hc : m' = m
    · subst hc
      obtain ⟨s, a1, a2⟩ := h1
      rw [hm] at a1; cases a1
      exact Or.inr ⟨rfl, Or.inl (List.getElem?_eq_some_iff.1 a2).1⟩
    · omega
  · rintro ⟨m', i', e', q', h1, h2, h3, h4⟩
    exact ⟨m', i', e', q', h1, h2, by omega, h4⟩

/-- C121: for a velocity stored on the submeshes `ComputeCFL` ends without an error, and its result is the
largest CFL number of that velocity on the undivided mesh. -/
theorem cfl_is_largest (three : Bool) (dt : R) {views : List (VelView R)} {u : BlockVector R}
    {υ : Nat → Nat → R} (hcov : Covers pm subs) (hsp : Spaces subs C.n uspaces)
    (hF : CflFits C (dims three) subs uspaces views) (hh : ∀ e, e < pm.elemEdges.length → 0 < C.h e)
    (hu : HasSizes u (tab subs.length (sizeIn uspaces) ++ tab subs.length (sizeIn pspaces)))
    (hυ : Represents subs uspaces C.n (velocity (sizeIn uspaces) u.data) υ) :
    ∃ c, computeCFL three dt views u = .ok c ∧ IsLargest C pm (dims three) dt υ c := by
  have inside : ∀ {k i e : Nat}, At subs k i e → e < pm.elemEdges.length :=
    fun hat => (hcov _).1 ⟨_, hat.owns⟩
  have hd : 2 ≤ dims three := by cases three <;> decide
  suffices key : ∃ t, loop views.length (fun m s => do
      let v ← rd views m
      let blk ← readBlock u m
      loop v.orders.length (elementCFL three dt v blk) s) ⟨0, 0, 0, 0, 0⟩ = .ok t ∧
      Flat three t ∧ Top (Seen C subs (dims three) dt υ views.length 0 0) t.cflmax by
    obtain ⟨t, ht, _, htop⟩ := key
    refine ⟨t.cflmax, ?_, ?_, ?_⟩
    · unfold computeCFL
      rw [ht, ok_bind]; rfl
    · intro e i he hi
      obtain ⟨k, hown⟩ := (hcov e).2 he
      obtain ⟨j, y, hat, h3⟩ := owns_at hown
      have hy : y = e := by exact_mod_cast h3
      subst hy
      have hk : k < views.length := by
        rw [hF.count]
        obtain ⟨sm, h1, _⟩ := hat
        exact (List.getElem?_eq_some_iff.1 h1).1
      exact htop.bound _ ⟨k, j, y, i, hat, hi, Or.inl hk, rfl⟩
    · rcases htop.reached with h0 | ⟨k, j, e, i, hat, hi, _, hc⟩
      · by_cases hex : ∃ e i, e < pm.elemEdges.length ∧ i < C.pts e
        · obtain ⟨e, i, he, hi⟩ := hex
          refine Or.inl ⟨e, i, he, hi, le_antisymm ?_ ?_⟩
          · rw [h0]; exact courant_nonneg _ _ _ (hh e he)
          · obtain ⟨k, hown⟩ := (hcov e).2 he
            obtain ⟨j, y, hat, h3⟩ := owns_at hown
            have hy : y = e := by exact_mod_cast h3
            subst hy
            have hk : k < views.length := by
              rw [hF.count]
              obtain ⟨sm, h1, _⟩ := hat
              exact (List.getElem?_eq_some_iff.1 h1).1
            exact htop.bound _ ⟨k, j, y, i, hat, hi, Or.inl hk, rfl⟩
        · refine Or.inr ⟨h0, fun e he => ?_⟩
          by_contra hne
          exact hex ⟨e, 0, he, by omega⟩
      · exact Or.inl ⟨e, i, inside hat, hi, hc⟩
  refine loop_total
    (Inv := fun m s => Flat three s ∧ Top (Seen C subs (dims three) dt υ m 0 0) s.cflmax)
    ⟨fun _ => rfl, le_refl _, ?_, Or.inl rfl⟩ ?_
  · rintro r ⟨_, _, _, _, _, _, h, _⟩
    omega
  · intro m s hm hs
    have hm' : m < subs.length := by rw [← hF.count]; exact hm
    have hv : views[m]? = some views[m] := List.getElem?_eq_getElem hm
    have hsm : subs[m]? = some subs[m] := List.getElem?_eq_getElem hm'
    have hspm : uspaces[m]? = some (uspaces[m]'(by rw [hsp.1]; exact hm')) := List.getElem?_eq_getElem _
    generalize uspaces[m]'(by rw [hsp.1]; exact hm') = sp at hspm
    generalize views[m] = v at hv
    generalize subs[m] = sm at hsm
    obtain ⟨f1, f2, f3⟩ := hF.elems m sm v hsm hv
    have hz := (Unsteady.byVar_get (a := sizeIn uspaces) (b := sizeIn pspaces) hm').1
    rw [rd_eq_ok.2 hv, ok_bind, readBlock_eq hu hz, ok_bind]
    -- the values of the block are those of the function
    have hblk : ∀ {i e : Nat}, sm.elemMap[i]? = some e →
        tab (C.n e) (fun b => ve (tab (sizeIn uspaces m) fun k => bent u m k) (pos sp i b)) =
          valuesOn C.n υ e := by
      intro i e hi
      refine tab_congr fun b hb => ?_
      have hlt := dof_lt hsp hsm hspm hi hb
      rw [LinAlg.ve_tab hlt, bent_eq hu hz hlt, (Unsteady.byVar_take (le_of_lt hm')).1]
      exact hυ m sm sp i e b hsm hspm hi hb
    generalize tab (sizeIn uspaces m) (fun k => bent u m k) = blk at hblk ⊢
    suffices key : ∃ w, loop v.orders.length (elementCFL three dt v blk) s = .ok w ∧ Flat three w ∧
        Top (Seen C subs (dims three) dt υ m v.orders.length 0) w.cflmax by
      obtain ⟨w, hw, hw1, hw2⟩ := key
      refine ⟨w, hw, hw1, hw2.congr fun r => ?_⟩
      rw [f1]; exact seen_sub hsm r
    refine loop_total
      (Inv := fun i s => Flat three s ∧ Top (Seen C subs (dims three) dt υ m i 0) s.cflmax) hs ?_
    · intro i s hi hs
      have hi' : i < sm.elemMap.length := by rw [← f1]; exact hi
      have hie : sm.elemMap[i]? = some sm.elemMap[i] := List.getElem?_eq_getElem hi'
      generalize sm.elemMap[i] = e at hie
      have hat : At subs m i e := ⟨sm, hsm, hie⟩
      obtain ⟨e1, e2, e3⟩ := hF.at_elem m sm sp v i e hsm hspm hv hie
      have hord : v.orders[0]? = some C.p := by
        rw [List.getElem?_eq_getElem (by omega)]
        exact congrArg some (f3 _ (List.getElem_mem _))
      unfold elementCFL
      rw [rd_eq_ok.2 e1, ok_bind, rd_eq_ok.2 hord, ok_bind]
      rw [e2]
      have hval : ∀ c, 1 ≤ c → c ≤ dims three → ∀ q, q < C.pts e →
          (v.vals blk i c)[q]? = some (C.val e c (valuesOn C.n υ e) q) := by
        intro c c1 c2 q hq
        rw [e3 c blk c1 c2, getElem?_tab, if_pos hq, hblk hie]
      suffices key : ∃ w, loop (C.pts e) (pointCFL three dt (C.h e / (C.p : R)) (v.vals blk i 1)
          (v.vals blk i 2) (if three then v.vals blk i 3 else [])) s = .ok w ∧ Flat three w ∧
          Top (Seen C subs (dims three) dt υ m i (C.pts e)) w.cflmax by
        obtain ⟨w, hw, hw1, hw2⟩ := key
        exact ⟨w, hw, hw1, hw2.congr fun r => seen_element hat r⟩
      refine loop_total
        (Inv := fun q s => Flat three s ∧ Top (Seen C subs (dims three) dt υ m i q) s.cflmax) hs ?_
      · intro q s hq hs
        obtain ⟨w, hw, hw1, hw2⟩ := point_ok three dt υ (s := s) (uz := if three then v.vals blk i 3 else [])
          (hh e (inside hat)) (hval 1 (by omega) (by omega) q hq) (hval 2 (by omega) hd q hq)
          (fun h3 => by rw [if_pos h3]; exact hval 3 (by omega) (by rw [h3]; decide) q hq) hs.1
        refine ⟨w, hw, hw1, ?_⟩
        rw [hw2]
        exact hs.2.insert fun r => seen_point hat hq r

omit [IsStrictOrderedRing R] in
theorem largest_unique {d : Nat} {dt : R} {υ : Nat → Nat → R} {c c' : R} (h : IsLargest C pm d dt υ c)
    (h' : IsLargest C pm d dt υ c') : c = c' := by
  rcases h.reached with ⟨e, i, he, hi, hc⟩ | ⟨hc, hn⟩ <;>
    rcases h'.reached with ⟨e', i', he', hi', hc'⟩ | ⟨hc', hn'⟩
  · refine le_antisymm ?_ ?_
    · rw [hc]; exact h'.bound e i he hi
    · rw [hc']; exact h.bound e' i' he' hi'
  · rw [hn' e he] at hi; omega
  · rw [hn e' he'] at hi'; omega
  · rw [hc, hc']

/-- Multiplying the length of the step by `a` multiplies the largest CFL number by `|a|`. -/
theorem largest_scale {d : Nat} {dt : R} {υ : Nat → Nat → R} {c : R} (a : R)
    (h : IsLargest C pm d dt υ c) : IsLargest C pm d (a * dt) υ (|a| * c) := by
  have hs : ∀ e i, courant C d (a * dt) υ e i = |a| * courant C d dt υ e i := by
    intro e i
    unfold courant
    rw [abs_mul]; ring
  refine ⟨fun e i he hi => ?_, ?_⟩
  · rw [hs]; exact mul_le_mul_of_nonneg_left (h.bound e i he hi) (abs_nonneg a)
  · rcases h.reached with ⟨e, i, he, hi, hc⟩ | ⟨hc, hn⟩
    · exact Or.inl ⟨e, i, he, hi, by rw [hs, ← hc]⟩
    · exact Or.inr ⟨by rw [hc, mul_zero], hn⟩

/-- C121: two divisions of the same mesh report the same CFL number for the same velocity. -/
theorem cfl_divisions_agree (three : Bool) (dt : R) {subs₂ : List Sub} {uspaces₂ pspaces₂ : List Space}
    {views views₂ : List (VelView R)} {u u₂ : BlockVector R} (D : Division pm subs φ g)
    (hcov : Covers pm subs) (hsp : Spaces subs C.n uspaces) (hF : CflFits C (dims three) subs uspaces views)
    (hcov₂ : Covers pm subs₂) (hsp₂ : Spaces subs₂ C.n uspaces₂)
    (hF₂ : CflFits C (dims three) subs₂ uspaces₂ views₂)
    (hh : ∀ e, e < pm.elemEdges.length → 0 < C.h e)
    (hu : HasSizes u (tab subs.length (sizeIn uspaces) ++ tab subs.length (sizeIn pspaces)))
    (hu₂ : HasSizes u₂ (tab subs₂.length (sizeIn uspaces₂) ++ tab subs₂.length (sizeIn pspaces₂)))
    (hsame : SameFunction C.n subs uspaces (velocity (sizeIn uspaces) u.data) subs₂ uspaces₂
      (velocity (sizeIn uspaces₂) u₂.data)) :
    ∃ c, computeCFL three dt views u = .ok c ∧ computeCFL three dt views₂ u₂ = .ok c := by
  obtain ⟨υ, hυ⟩ := represents_of (n := C.n) (spaces := uspaces) D (velocity (sizeIn uspaces) u.data)
  have hυ₂ := represents_same hcov hcov₂ hsp.1 hsame hυ
  obtain ⟨c, h1, h2⟩ := cfl_is_largest three dt hcov hsp hF hh hu hυ
  obtain ⟨c₂, k1, k2⟩ := cfl_is_largest three dt hcov₂ hsp₂ hF₂ hh hu₂ hυ₂
  rw [← largest_unique h2 k2] at k1
  exact ⟨c, h1, k1⟩

/-- C121: multiplying the length of the step by `a` multiplies the reported CFL number by `|a|`. -/
theorem cfl_scales (three : Bool) (dt a : R) {views : List (VelView R)} {u : BlockVector R}
    (D : Division pm subs φ g) (hcov : Covers pm subs) (hsp : Spaces subs C.n uspaces)
    (hF : CflFits C (dims three) subs uspaces views) (hh : ∀ e, e < pm.elemEdges.length → 0 < C.h e)
    (hu : HasSizes u (tab subs.length (sizeIn uspaces) ++ tab subs.length (sizeIn pspaces))) :
    ∃ c, computeCFL three dt views u = .ok c ∧ 0 ≤ c ∧ computeCFL three (a * dt) views u = .ok (|a| * c) := by
  obtain ⟨υ, hυ⟩ := represents_of (n := C.n) (spaces := uspaces) D (velocity (sizeIn uspaces) u.data)
  obtain ⟨c, h1, h2⟩ := cfl_is_largest three dt hcov hsp hF hh hu hυ
  obtain ⟨c', k1, k2⟩ := cfl_is_largest three (a * dt) hcov hsp hF hh hu hυ
  refine ⟨c, h1, ?_, ?_⟩
  · rcases h2.reached with ⟨e, i, he, _, hc⟩ | ⟨hc, _⟩
    · rw [hc]; exact courant_nonneg _ _ _ (hh e he)
    · rw [hc]
  · rw [k1, largest_unique (largest_scale a h2) k2]

variable {δ F : Type} {E : FlowEq R F} {bc : BC F} {I : FlowInput R δ F}

/-- C121: two runs of the unsteady solver on two divisions of the same mesh that start from the same velocity
report the same CFL number after every step. -/
theorem flows_report_same {subs₂ : List Sub} {φ₂ : Nat → Nat → Nat} {uspaces₂ pspaces₂ : List Space}
    {I₂ : FlowInput R δ F} (hE : E.Consistent) (hdt : 0 < E.dt) (hsol : E.Solvable pm bc)
    (hsym : E.Symmetric pm bc) {presDbc : Bool} (huni : E.Unique pm bc presDbc) (hbc : Conditions pm bc)
    (hfun : HasFunctions bc)
    (D : Division pm subs φ g) (hcov : Covers pm subs) (H : FlowForms E pm subs φ uspaces pspaces I)
    (D₂ : Division pm subs₂ φ₂ g) (hcov₂ : Covers pm subs₂)
    (H₂ : FlowForms E pm subs₂ φ₂ uspaces₂ pspaces₂ I₂) (three : Bool) {views views₂ : List (VelView R)}
    (hC : C.n = E.W.nt) (hF : CflFits C (dims three) subs uspaces views)
    (hF₂ : CflFits C (dims three) subs₂ uspaces₂ views₂)
    (hh : ∀ e, e < pm.elemEdges.length → 0 < C.h e) {offs offs₂ : List Nat}
    (ho : IsOffsets offs (tab subs.length (sizeIn uspaces) ++ tab subs.length (sizeIn pspaces)))
    (ho₂ : IsOffsets offs₂ (tab subs₂.length (sizeIn uspaces₂) ++ tab subs₂.length (sizeIn pspaces₂))) :
    ∃ s rhs i s₂ rhs₂ i₂, flowSetup true bc pm subs I presDbc E.dt = .ok (s, rhs) ∧
      Unsteady.initTime s = .ok i ∧ flowSetup true bc pm subs₂ I₂ presDbc E.dt = .ok (s₂, rhs₂) ∧
      Unsteady.initTime s₂ = .ok i₂ ∧
      ∀ lower solver old x lower₂ solver₂ old₂ x₂ t, Unsteady.Spec.Direct solver →
        Unsteady.Spec.Direct solver₂ →
        (∀ j, (old j).length = unknowns subs uspaces pspaces) →
        (∀ j, (old₂ j).length = unknowns subs₂ uspaces₂ pspaces₂) →
        x.length = unknowns subs uspaces pspaces → x₂.length = unknowns subs₂ uspaces₂ pspaces₂ →
        SameFunction E.W.nt subs uspaces (velocity (sizeIn uspaces) x) subs₂ uspaces₂
          (velocity (sizeIn uspaces₂) x₂) →
        ∀ n, ∃ x' x₂' c, steps s i lower solver rhs old n t x = .ok (x', t + n * E.dt) ∧
          steps s₂ i₂ lower₂ solver₂ rhs₂ old₂ n t x₂ = .ok (x₂', t + n * E.dt) ∧
          computeCFL three E.dt views ⟨x', offs⟩ = .ok c ∧
          computeCFL three E.dt views₂ ⟨x₂', offs₂⟩ = .ok c := by
  obtain ⟨s, rhs, i, s₂, rhs₂, i₂, h1, h2, h3, h4, h5⟩ :=
    flows_agree' hE hdt hsol hsym huni hbc hfun D hcov H D₂ hcov₂ H₂
  refine ⟨s, rhs, i, s₂, rhs₂, i₂, h1, h2, h3, h4, ?_⟩
  intro lower solver old x lower₂ solver₂ old₂ x₂ t hd hd₂ hol hol₂ hx hx₂ hsame n
  obtain ⟨x', x₂', a1, a2, a3, a4, a5, _⟩ :=
    h5 lower solver old x lower₂ solver₂ old₂ x₂ t hd hd₂ hol hol₂ hx hx₂ hsame n
  obtain ⟨c, c1, c2⟩ := cfl_divisions_agree (u := ⟨x', offs⟩) (u₂ := ⟨x₂', offs₂⟩) three E.dt D hcov
    (by rw [hC]; exact H.uspace) hF hcov₂ (by rw [hC]; exact H₂.uspace) hF₂ hh
    ⟨ho, by rw [Unsteady.byVar_sum]; exact a3⟩ ⟨ho₂, by rw [Unsteady.byVar_sum]; exact a4⟩
    (by rw [hC]; exact a5)
  exact ⟨x', x₂', c, a1, a2, c1, c2⟩

/-! Non-vacuity: the strip of three cells of C116. -/

/-- What MFEM could deliver for a division. -/
def cflViews (C : Cells R) (subs : List Sub) : List (VelView R) :=
  subs.map fun sm =>
    { orders := sm.elemMap.map fun _ => C.p
      sizes := sm.elemMap.map C.h
      pts := fun i => C.pts (sm.elemMap[i]?.getD 0)
      vals := fun blk i c => tab (C.pts (sm.elemMap[i]?.getD 0))
        (C.val (sm.elemMap[i]?.getD 0) c (tab (C.n (sm.elemMap[i]?.getD 0))
          fun b => ve blk (pos (space sm.elemMap C.n) i b))) }

omit [LinearOrder R] [IsStrictOrderedRing R] in
/-- Every division is met. -/
theorem cflViews_fits (C : Cells R) (d : Nat) (subs : List Sub) :
    CflFits C d subs (subs.map fun sm => space sm.elemMap C.n) (cflViews C subs) := by
  refine ⟨by simp [cflViews], ?_, ?_⟩
  · intro k sm v hk hv
    unfold cflViews at hv
    rw [List.getElem?_map, hk] at hv
    cases hv
    refine ⟨by simp, by simp, ?_⟩
    intro p hp
    obtain ⟨_, _, h⟩ := List.mem_map.1 hp
    exact h.symm
  · intro k sm s v i e hk hs hv hi
    unfold cflViews at hv
    rw [List.getElem?_map, hk] at hv hs
    cases hv
    cases hs
    dsimp only
    rw [hi]
    refine ⟨by rw [List.getElem?_map, hi]; rfl, rfl, fun _ _ _ _ => rfl⟩

/-- Cells of sizes 1, 2 and 3, a space of order 2, one point on the first cell and two on the others. -/
def demoCells : Cells ℚ where
  n _ := 2
  h e := e + 1
  p := 2
  pts e := if e = 0 then 1 else 2
  val e c l i := ve l (c - 1) * (i + 1) - e

theorem demo_size : ∀ e, e < demoParent.elemEdges.length → 0 < demoCells.h e := by
  intro e _
  show (0 : ℚ) < e + 1
  positivity

/-- The theorem on runs applies to the two and the three submeshes, from velocity zero. -/
example (presDbc : Bool) (n : Nat) : ∃ s rhs i s₂ rhs₂ i₂ x x₂ c,
    flowSetup true demoBC demoParent twoSubs (flowInput demoFlow demoParent twoSubs twoPhi demoFlips) presDbc
      (1 / 2) = .ok (s, rhs) ∧ Unsteady.initTime s = .ok i ∧
    flowSetup true demoBC demoParent demoSubs (flowInput demoFlow demoParent demoSubs demoPhi demoFlips) presDbc
      (1 / 2) = .ok (s₂, rhs₂) ∧ Unsteady.initTime s₂ = .ok i₂ ∧
    steps s i true Unsteady.exact rhs (fun _ => List.replicate 9 0) n 0 (List.replicate 9 0) =
      .ok (x, 0 + n * (1 / 2)) ∧
    steps s₂ i₂ false Unsteady.exact rhs₂ (fun _ => List.replicate 9 0) n 0 (List.replicate 9 0) =
      .ok (x₂, 0 + n * (1 / 2)) ∧
    computeCFL false (1 / 2) (cflViews demoCells twoSubs) ⟨x, [0, 4, 6, 8, 9]⟩ = .ok c ∧
    computeCFL false (1 / 2) (cflViews demoCells demoSubs) ⟨x₂, [0, 2, 4, 6, 7, 8, 9]⟩ = .ok c := by
  have off : ∀ (offs sizes : List Nat), offs.length = sizes.length + 1 → offs[0]? = some 0 →
      (∀ i < sizes.length, offs[i + 1]? = some (offs[i]?.getD 0 + sizes[i]?.getD 0)) →
      IsOffsets offs sizes := by
    intro offs sizes h1 h2 h3
    refine ⟨h1, h2, fun i s hs => ?_⟩
    have hi := (List.getElem?_eq_some_iff.1 hs).1
    have h := h3 i hi
    rw [hs, List.getElem?_eq_getElem (show i < offs.length by omega)] at h
    exact ⟨_, List.getElem?_eq_getElem (show i < offs.length by omega), h⟩
  obtain ⟨s, rhs, i, s₂, rhs₂, i₂, h1, h2, h3, h4, h5⟩ := flows_report_same (presDbc := presDbc) (C := demoCells)
    demo_consistent
    (by decide +kernel) (demo_solvable _) (demo_symmetric _) (demo_unique _ _) demo_conditions demo_functions
    two_division demo_covers.2.1
    (flowInput_fits demo_consistent (fun _ => rfl) demoFlips two_division) three_division demo_covers.2.2
    (flowInput_fits demo_consistent (fun _ => rfl) demoFlips three_division) false rfl
    (cflViews_fits demoCells _ _) (cflViews_fits demoCells _ _) demo_size
    (offs := [0, 4, 6, 8, 9]) (offs₂ := [0, 2, 4, 6, 7, 8, 9])
    (off _ _ (by decide +kernel) (by decide +kernel) (by decide +kernel))
    (off _ _ (by decide +kernel) (by decide +kernel) (by decide +kernel))
  have zero : ∀ (w : Nat → Nat) k r, velocity w (List.replicate 9 (0 : ℚ)) k r = 0 := by
    intro w k r
    unfold velocity ve
    rw [List.getElem?_replicate]
    split <;> rfl
  obtain ⟨x, x₂, c, e1, e2, e3, e4⟩ := h5 true Unsteady.exact (fun _ => List.replicate 9 0) (List.replicate 9 0)
    false Unsteady.exact (fun _ => List.replicate 9 0) (List.replicate 9 0) 0 Unsteady.exact_direct
    Unsteady.exact_direct (fun _ => by decide +kernel) (fun _ => by decide +kernel) (by decide +kernel)
    (by decide +kernel) (fun k i l j e b sm s sm₂ s₂ _ _ _ _ _ _ _ => by rw [zero, zero]) n
  exact ⟨s, rhs, i, s₂, rhs₂, i₂, x, x₂, c, h1, h2, h3, h4, e1, e2, e3, e4⟩

/-- The velocity (1, 5), (-9, 2), (4, 3) on the two and on the three submeshes, with the same largest number,
which is that of the second cell at its second point; and half of it for half the step. -/
example :
    computeCFL false 1 (cflViews demoCells twoSubs) ⟨[-9, 2, 1, 5, 4, 3, 0, 0, 0], [0, 4, 6, 8, 9]⟩ = .ok 22 ∧
    computeCFL false 1 (cflViews demoCells demoSubs)
      ⟨[1, 5, -9, 2, 4, 3, 0, 0, 0], [0, 2, 4, 6, 7, 8, 9]⟩ = .ok 22 ∧
    computeCFL false (1 / 2) (cflViews demoCells demoSubs)
      ⟨[1, 5, -9, 2, 4, 3, 0, 0, 0], [0, 2, 4, 6, 7, 8, 9]⟩ = .ok 11 ∧
    courant demoCells 2 1 (fun e b => ve ([[1, 5], [-9, 2], [4, 3]][e]?.getD []) b) 1 1 = 22 := by
  decide +kernel

/-- In three dimensions the third component counts. -/
example : computeCFL true 1 [⟨[2], [1 / 2], fun _ => 1, fun blk _ c => [ve blk (c - 1)]⟩]
      (⟨[1, -2, 4], [0, 3]⟩ : BlockVector ℚ) = .ok 28 ∧
    computeCFL false 1 [⟨[2], [1 / 2], fun _ => 1, fun blk _ c => [ve blk (c - 1)]⟩]
      (⟨[1, -2, 4], [0, 3]⟩ : BlockVector ℚ) = .ok 12 := by
  decide +kernel

end Verif.Cfl
