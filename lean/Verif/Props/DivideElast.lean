import Verif.Spec.DivideElast
import Verif.Proofs.ElastRom
import Verif.Props.DivideRhs

/-!
# C117: dividing a mesh does not change the elasticity problem
-/

namespace Verif.Divide

open Verif Verif.LinAlg Verif.LinAlg.Spec Verif.SubMesh Verif.SubMesh.Spec Finset Spec
open Verif.InterfaceForm (Space Integ MatArr)
open Verif.InterfaceForm.Spec (dofsOf dofAt sizeIn mget)
open Verif.RomAssembly (BForm fomArray fomMats)
open Verif.Boundary (BC ElastRhs bcExists rhsBC lhsBC rhsElast lhsElast forBoundaries)
open Verif.ElastRom (Material setProblem setProblem_eq at_uniform)

variable {R δ F α : Type} {pm : Parent} {subs : List Sub} {φ : Nat → Nat → Nat} {g : Int} {bc : BC F}

/-! The boundary conditions of the elasticity solver seen as those of the Poisson solver. -/

/-- The conditions with a term in the operator. -/
def fixedBC (bc : BC F) : BC F :=
  { bc with coeffs := tab bc.attrs.length fun k =>
      if bc.types[k]? = some .dirichlet then (bc.coeffs[k]?).join else none }

/-- What is imposed on boundary `k`. -/
def imposedAt (bc : BC F) (k : Nat) : Option (ElastRhs F) :=
  match bc.types[k]?, (bc.coeffs[k]?).join with
  | some .dirichlet, some f => some (.dirichlet f)
  | some .neumann, some f => some (.traction f)
  | _, _ => none

/-- The conditions with a term in the right-hand side. -/
def imposedBC (bc : BC F) : BC (ElastRhs F) :=
  ⟨bc.attrs, tab bc.attrs.length (imposedAt bc), List.replicate bc.attrs.length .dirichlet, bc.presDbc⟩

theorem fixed_conditions (h : Conditions pm bc) : Conditions pm (fixedBC bc) :=
  ⟨⟨by simp [fixedBC, length_tab], h.wf.2⟩, h.nodup, h.occur⟩

theorem imposed_conditions (h : Conditions pm bc) : Conditions pm (imposedBC bc) :=
  ⟨⟨by simp [imposedBC, length_tab], by simp [imposedBC]⟩, h.nodup, h.occur⟩

theorem bcExists_ok {G : Type} {s : BC G} (hw : Boundary.Wf s) {b : Nat} (hb : b < s.attrs.length) :
    ∃ c, s.coeffs[b]? = some c ∧ rd s.coeffs b = .ok c ∧ bcExists s b = .ok c.isSome := by
  have hb' : b < s.coeffs.length := by rw [hw.1]; exact hb
  refine ⟨s.coeffs[b], List.getElem?_eq_getElem hb', rd_of_lt hb', ?_⟩
  unfold bcExists
  rw [decide_eq_true hb, require_true, ok_bind, hw.1, beq_self_eq_true, require_true, ok_bind,
    rd_of_lt hb', ok_bind]

theorem lhsElast_fixed (hw : Boundary.Wf bc) (hw' : Boundary.Wf (fixedBC bc)) (attrs : List Int) :
    lhsElast true bc attrs = lhsBC (fixedBC bc) attrs := by
  unfold lhsElast lhsBC forBoundaries
  rw [if_pos rfl]
  refine loop_congr fun b acc hb => ?_
  have ht : b < bc.types.length := by rw [hw.2]; exact hb
  obtain ⟨c, h1, -, h2⟩ := bcExists_ok hw hb
  obtain ⟨c', h1', -, h2'⟩ := bcExists_ok hw' (b := b) hb
  have hc' : c' = if bc.types[b]? = some .dirichlet then c else none := by
    have : (fixedBC bc).coeffs[b]? = some (if bc.types[b]? = some .dirichlet then (bc.coeffs[b]?).join else none) := by
      unfold fixedBC; dsimp only; rw [getElem?_tab, if_pos hb]
    rw [this] at h1'
    rw [← Option.some.inj h1', h1]; rfl
  have hr : rd bc.types b = .ok bc.types[b] := rd_of_lt ht
  have hr' : rd (fixedBC bc).types b = .ok bc.types[b] := hr
  rw [List.getElem?_eq_getElem ht] at hc'
  dsimp only
  rw [h2, h2', hr, hr', show (fixedBC bc).attrs = bc.attrs from rfl, hc']
  cases c with
  | none => simp
  | some f => cases hty : bc.types[b] <;> simp

theorem rhsElast_imposed (hw : Boundary.Wf bc) (hw' : Boundary.Wf (imposedBC bc)) (attrs : List Int) :
    rhsElast bc attrs = rhsBC (imposedBC bc) attrs := by
  unfold rhsElast rhsBC forBoundaries
  refine loop_congr fun b acc hb => ?_
  have ht : b < bc.types.length := by rw [hw.2]; exact hb
  obtain ⟨c, h1, h3, h2⟩ := bcExists_ok hw hb
  obtain ⟨c', h1', h3', h2'⟩ := bcExists_ok hw' (b := b) hb
  have hr : rd bc.types b = .ok bc.types[b] := rd_of_lt ht
  have hc' : c' = match (generalizing := false) bc.types[b], c with
      | .dirichlet, some f => some (.dirichlet f)
      | .neumann, some f => some (.traction f)
      | _, _ => none := by
    have : (imposedBC bc).coeffs[b]? = some (imposedAt bc b) := by
      unfold imposedBC; dsimp only; rw [getElem?_tab, if_pos hb]
    rw [this] at h1'
    rw [← Option.some.inj h1']
    unfold imposedAt
    rw [h1, List.getElem?_eq_getElem ht]
    cases c <;> cases bc.types[b] <;> rfl
  have hr' : rd (imposedBC bc).types b = .ok .dirichlet := by
    rw [rd_eq_ok]; unfold imposedBC; dsimp only
    rw [List.getElem?_replicate, if_pos hb]
  dsimp only
  rw [h2, h2', h3, h3', hr, hr', show (imposedBC bc).attrs = bc.attrs from rfl, hc']
  cases c <;> cases bc.types[b] <;> simp

section
variable [CommRing R]

theorem elastLoads_eq {n : Nat} {l u : α} {mat : Material α} (h : setProblem n [l, u] = .ok mat)
    (hw : Boundary.Wf bc) (hw' : Boundary.Wf (imposedBC bc)) {p : ElastParts R δ F α} (hn : p.loads.length ≤ n)
    (mks : List (List Int)) (mesh : List (List Int × List Int)) :
    elastLoads mat bc mks mesh p = loads (imposedBC bc) mks mesh (p.loads.map fun v => v l u) := by
  unfold elastLoads loads
  rw [List.length_map]
  refine loop_congr fun k acc hk => ?_
  have h1 : rd (p.loads.map fun v => v l u) k = .ok (p.loads[k] l u) := by
    rw [rd_eq_ok, List.getElem?_map, List.getElem?_eq_getElem hk]; rfl
  rw [at_uniform h (show k < n by omega), h1, rd_of_lt hk]
  simp only [ok_bind]
  unfold elastLoad load
  rw [funext (rhsElast_imposed hw hw')]

theorem elastForms_eq {n : Nat} {l u : α} {mat : Material α} (h : setProblem n [l, u] = .ok mat)
    {p : ElastParts R δ F α} (hn : p.views.length ≤ n) :
    elastForms true mat p = forms (p.views.map fun v => v l u) [p.inner l u] := by
  unfold elastForms forms
  rw [List.length_map]
  refine loop_congr fun k acc hk => ?_
  have h1 : rd (p.views.map fun v => v l u) k = .ok (p.views[k] l u) := by
    rw [rd_eq_ok, List.getElem?_map, List.getElem?_eq_getElem hk]; rfl
  rw [at_uniform h (show k < n by omega), h1, rd_of_lt hk]
  simp only [ok_bind, if_true]

theorem elastOperator_eq {n : Nat} {l u : α} {mat : Material α} (h : setProblem n [l, u] = .ok mat)
    (hw : Boundary.Wf bc) (hw' : Boundary.Wf (fixedBC bc)) {p : ElastParts R δ F α} (hn : p.views.length ≤ n)
    (h0 : 0 < n) (mks : List (List Int)) (mesh : List (List Int × List Int)) (st : IState) :
    elastOperator true mat bc mks mesh st p = (do
      let fs ← forms (p.views.map fun v => v l u) [p.inner l u]
      fomMats (fixedBC bc) mks mesh fs (itf (p.views.map fun v => v l u) [some (p.itf l u)] st)) := by
  have hstep : ElastRom.domainStep true bc mks mesh = RomAssembly.domainStep (R := R) (fixedBC bc) mks mesh := by
    funext forms m acc
    unfold ElastRom.domainStep RomAssembly.domainStep ElastRom.domainMatrix RomAssembly.domainMatrix
    rw [funext (lhsElast_fixed hw hw')]
  unfold elastOperator
  rw [elastForms_eq h hn, at_uniform h h0, hstep]
  unfold fomMats fomArray
  simp only [bind_assoc, ok_bind, pure_bind]

/-- The elasticity equations are the equations of C112 with these conditions. -/
theorem elast_eq {l u : α} (D : Division pm subs φ g) (hbc : Conditions pm bc) (h0 : 0 < subs.length)
    {p : ElastParts R δ F α} (hl : p.loads.length = subs.length) (hv : p.views.length = subs.length)
    {f : List (List R)} {M : MatArr R}
    (hf : rhs (imposedBC bc) pm subs (p.loads.map fun v => v l u) = .ok f)
    (hM : operator false (fixedBC bc) pm subs (p.views.map fun v => v l u) [p.inner l u] [some (p.itf l u)] = .ok M) :
    elastEquations true [l, u] bc pm subs p = .ok (f, M) := by
  obtain ⟨st, fms, mesh, mks, mx, hst, hmesh, hmks, -, -⟩ := setup D hbc
  unfold rhs at hf
  unfold operator at hM
  rw [hst, ok_bind] at hf hM
  dsimp only at hf hM
  rw [hmesh, ok_bind, show (imposedBC bc).attrs = bc.attrs from rfl, hmks, ok_bind] at hf
  rw [hmesh, ok_bind, show (fixedBC bc).attrs = bc.attrs from rfl, hmks, ok_bind] at hM
  simp only [Bool.false_eq_true, if_false] at hM
  unfold elastEquations
  have hm := setProblem_eq subs.length l u
  rw [hst, ok_bind]
  dsimp only
  rw [hmesh, ok_bind, hmks, ok_bind, hm, ok_bind,
    elastLoads_eq hm hbc.wf (imposed_conditions hbc).wf hl.le, hf, ok_bind,
    elastOperator_eq hm hbc.wf (fixed_conditions hbc).wf hv.le h0, hM, ok_bind]
  rfl

end

/-! The specification. -/

theorem idxOf_eq (hn : bc.attrs.Nodup) {k : Nat} {a : Int} (h : bc.attrs[k]? = some a) : bc.attrs.idxOf a = k := by
  obtain ⟨hk, rfl⟩ := List.getElem?_eq_some_iff.1 h
  exact hn.idxOf_getElem k hk

theorem imposed_eq {a : Int} : imposed bc a = imposedAt bc (bc.attrs.idxOf a) := rfl

theorem weak_fixed (hbc : Conditions pm bc) (a : Int) : RomAssembly.Spec.Weak (fixedBC bc) a ↔ Fixed bc a := by
  constructor
  · rintro ⟨k, f, h1, h2, -⟩
    have hk : k < bc.attrs.length := (List.getElem?_eq_some_iff.1 h1).1
    have hi := idxOf_eq hbc.nodup (show bc.attrs[k]? = some a from h1)
    unfold fixedBC at h2
    dsimp only at h2
    rw [getElem?_tab, if_pos hk] at h2
    have h2 := Option.some.inj h2
    refine ⟨f, ?_⟩
    rw [imposed_eq, hi]
    unfold imposedAt
    split at h2
    · rename_i ht
      rw [ht, h2]
    · cases h2
  · rintro ⟨f, hf⟩
    have hk : bc.attrs.idxOf a < bc.attrs.length := by
      by_contra hc
      unfold imposed at hf
      rw [List.getElem?_eq_none (by rw [hbc.wf.2]; omega)] at hf
      simp at hf
    unfold imposed at hf
    split at hf
    · rename_i f' ht hc
      refine ⟨bc.attrs.idxOf a, f', ?_, ?_, ?_⟩
      · show bc.attrs[_]? = _
        rw [List.getElem?_eq_getElem hk, List.getElem_idxOf]
      · unfold fixedBC
        dsimp only
        rw [getElem?_tab, if_pos hk, if_pos ht, hc]
      · show bc.types[_]? ≠ _
        rw [ht]; simp
    · cases hf
    · cases hf

theorem condOf_imposed (hbc : Conditions pm bc) (a : Int) : condOf (imposedBC bc) a = imposed bc a := by
  unfold condOf
  have ha : (imposedBC bc).attrs = bc.attrs := rfl
  rw [ha]
  by_cases hk : bc.attrs.idxOf a < bc.attrs.length
  · have h1 : (imposedBC bc).types[bc.attrs.idxOf a]? = some .dirichlet := by
      unfold imposedBC; dsimp only; rw [List.getElem?_replicate, if_pos hk]
    have h2 : (imposedBC bc).coeffs[bc.attrs.idxOf a]? = some (imposedAt bc (bc.attrs.idxOf a)) := by
      unfold imposedBC; dsimp only; rw [getElem?_tab, if_pos hk]
    rw [h1, h2, if_neg (by simp)]
    rfl
  · have h2 : (imposedBC bc).coeffs[bc.attrs.idxOf a]? = none := by
      unfold imposedBC; dsimp only; rw [getElem?_tab, if_neg hk]
    have h3 : imposed bc a = none := by
      unfold imposed
      rw [List.getElem?_eq_none (by rw [hbc.wf.2]; omega)]
    rw [h2, h3]
    split <;> rfl

section
variable [CommRing R]

theorem entry_fixed (W : Whole R) (hbc : Conditions pm bc) (e a e' b : Nat) :
    entry W pm (fixedBC bc) e a e' b = elastEntry W pm bc e a e' b := by
  classical
  unfold entry elastEntry
  congr 2
  refine List.map_congr_left fun q _ => ?_
  unfold bdrSum
  refine if_congr ?_ rfl rfl
  rw [weak_fixed hbc]
  refine and_congr_right fun _ => and_congr_right fun _ => ?_
  cases pm.faces[q.1]? <;> simp

theorem load_imposed (L : Loads R (ElastRhs F)) (hbc : Conditions pm bc) (e a : Nat) :
    loadAt L pm (imposedBC bc) e a = elastLoadAt L pm bc e a := by
  unfold loadAt elastLoadAt
  congr 2
  refine List.map_congr_left fun q _ => ?_
  unfold bdrLoad
  rw [condOf_imposed hbc]
  cases imposed bc q.2 <;> rfl

variable {W : Whole R} {L : Loads R (ElastRhs F)} {spaces : List Space} {p : ElastParts R δ F α} {l u : α}

/-- C117: a block vector solves the elasticity equations assembled on a division exactly if the discrete
displacement it stands for is in equilibrium on the undivided mesh. -/
theorem elast_solution_iff (D : Division pm subs φ g) (hbc : Conditions pm bc) (hcov : Covers pm subs)
    (h0 : 0 < subs.length) (hE : ElastFits W L pm subs φ spaces p l u) (hn : W.ns = W.nt) :
    ∃ f M, elastEquations true [l, u] bc pm subs p = .ok (f, M) ∧
      ∀ x ξ, Represents subs spaces W.ns x ξ →
        (Solves M f subs.length (sizeIn spaces) (sizeIn spaces) x ↔ Equilibrium W L pm bc ξ) := by
  have hmt : (p.views.map fun v => v l u).map (·.test) = spaces := by rw [List.map_map]; exact hE.test
  have hms : (p.views.map fun v => v l u).map (·.trial) = spaces := by rw [List.map_map]; exact hE.trial
  have hml : (p.loads.map fun v => v l u).map (·.space) = spaces := by rw [List.map_map]; exact hE.loads
  obtain ⟨f, f1, -, f3⟩ := rhs_spec D (imposed_conditions hbc) hE.load
  obtain ⟨M, m1, m2⟩ := entries_of_operator false D (fixed_conditions hbc) hE.form
  refine ⟨f, M, elast_eq D hbc h0 ?_ ?_ f1 m1, ?_⟩
  · have := hE.load.count; rwa [List.length_map] at this
  · have := hE.form.count; rwa [List.length_map] at this
  · intro x ξ hx
    have hst : Spaces subs W.nt spaces := by
      have := spaces_test hE.form (fun v hv => hE.complete _ (by rw [← hmt]; exact List.mem_map.2 ⟨v, hv, rfl⟩))
      rwa [hmt] at this
    rw [hmt, hms] at m2
    unfold Equilibrium
    refine all_entries hcov hst ?_
    intro k i e a sm s hk hs hi ha
    rw [row_eq D hcov m2 (by rw [hn]; exact hst) hx hk hs hi ha, rhs_at hml f3 hk hs hi ha, load_imposed L hbc]
    unfold applied
    simp only [entry_fixed W hbc]

/-- C117: two divisions of the same mesh have the same solutions. -/
theorem elast_solutions_agree {subs₂ : List Sub} {φ₂ : Nat → Nat → Nat} {spaces₂ : List Space}
    {p₂ : ElastParts R δ F α} (hbc : Conditions pm bc) (hn : W.ns = W.nt)
    (D : Division pm subs φ g) (hcov : Covers pm subs) (h0 : 0 < subs.length)
    (hE : ElastFits W L pm subs φ spaces p l u)
    (D₂ : Division pm subs₂ φ₂ g) (hcov₂ : Covers pm subs₂) (h0₂ : 0 < subs₂.length)
    (hE₂ : ElastFits W L pm subs₂ φ₂ spaces₂ p₂ l u) :
    ∃ f M f₂ M₂, elastEquations true [l, u] bc pm subs p = .ok (f, M) ∧
      elastEquations true [l, u] bc pm subs₂ p₂ = .ok (f₂, M₂) ∧
      (∀ x x₂, SameFunction W.ns subs spaces x subs₂ spaces₂ x₂ →
        (Solves M f subs.length (sizeIn spaces) (sizeIn spaces) x ↔
          Solves M₂ f₂ subs₂.length (sizeIn spaces₂) (sizeIn spaces₂) x₂)) ∧
      ∀ x : Nat → Nat → R, ∃ x₂, SameFunction W.ns subs spaces x subs₂ spaces₂ x₂ := by
  obtain ⟨f, M, e1, h1⟩ := elast_solution_iff D hbc hcov h0 hE hn
  obtain ⟨f₂, M₂, e2, h2⟩ := elast_solution_iff D₂ hbc hcov₂ h0₂ hE₂ hn
  have hl : spaces.length = subs.length := by
    rw [← hE.test, List.length_map]
    have := hE.form.count; rwa [List.length_map] at this
  refine ⟨f, M, f₂, M₂, e1, e2, ?_, ?_⟩
  · intro x x₂ h
    obtain ⟨ξ, hξ⟩ := represents_of (n := W.ns) (spaces := spaces) D x
    rw [h1 x ξ hξ, h2 x₂ ξ (represents_same hcov hcov₂ hl h hξ)]
  · intro x
    obtain ⟨ξ, hξ⟩ := represents_of (n := W.ns) (spaces := spaces) D x
    have hss₂ : Spaces subs₂ W.ns spaces₂ := by
      have hms : (p₂.views.map fun v => v l u).map (·.trial) = spaces₂ := by rw [List.map_map]; exact hE₂.trial
      have := spaces_trial hE₂.form (fun v hv => hE₂.complete _ (by rw [← hms]; exact List.mem_map.2 ⟨v, hv, rfl⟩))
      rwa [hms] at this
    obtain ⟨x₂, hx₂⟩ := represented hss₂ ξ
    exact ⟨x₂, same_of_represents hξ hx₂⟩

/-- C117, why discontinuous elements are required: without them the operator is the same whatever the types and
functions of the boundaries are, so that a prescribed displacement has no term in it. -/
theorem continuous_ignores_conditions {G : Type} (scalars : List α) {bc' : BC G} {p' : ElastParts R δ G α}
    (hv : p'.views = p.views) (hi : p'.itf = p.itf) (ha : bc'.attrs = bc.attrs) {f : List (List R)} {f' : List (List R)}
    {M M' : MatArr R} (h : elastEquations false scalars bc pm subs p = .ok (f, M))
    (h' : elastEquations false scalars bc' pm subs p' = .ok (f', M')) : M = M' := by
  unfold elastEquations at h h'
  simp only [bind_eq_ok] at h h'
  obtain ⟨⟨st, fms⟩, a1, mesh, a2, mks, a3, mat, a4, _, _, M1, a5, a6⟩ := h
  obtain ⟨⟨st', fms'⟩, b1, mesh', b2, mks', b3, mat', b4, _, _, M1', b5, b6⟩ := h'
  rw [a1] at b1; cases b1
  dsimp only at a2 b2 a5 b5
  rw [a2] at b2; cases b2
  rw [ha, a3] at b3; cases b3
  rw [a4] at b4; cases b4
  cases a6; cases b6
  have : elastOperator false mat bc' mks mesh st p' = elastOperator false mat bc mks mesh st p := by
    unfold elastOperator elastForms ElastRom.domainStep ElastRom.domainMatrix lhsElast
    rw [hv, hi]
    simp only [Bool.false_eq_true, if_false]
  rw [this, a5] at b5
  exact Except.ok.inj b5

/-! Non-vacuity: the strip of three cells of C111, with a displacement on attribute 1 (both ends) and a traction on
attribute 2. -/

/-- The realisation of C111 and C112 for integrals that depend on the material. -/
def elastParts (W : α → α → Whole R) (L : α → α → Loads R (ElastRhs F)) (pm : Parent) (subs : List Sub)
    (φ : Nat → Nat → Nat) (flips : Nat → Nat → Bool) : ElastParts R Geo F α where
  views := (List.range subs.length).map fun k l u =>
    (realize (W l u) pm subs φ flips)[k]?.getD ⟨⟨0, []⟩, ⟨0, []⟩, [], [], [], ⟨fun _ => none, fun _ => 0, fun t _ => t⟩⟩
  inner l u := innerInt (W l u)
  itf l u := itfInt (W l u)
  loads := (List.range subs.length).map fun k l u =>
    (realizeLoads (L l u) (W l u).nt subs φ)[k]?.getD ⟨⟨0, []⟩, [], []⟩

theorem range_getD {β : Type} (xs : List β) (d : β) {n : Nat} (h : xs.length = n) :
    (List.range n).map (fun k => xs[k]?.getD d) = xs := by
  refine List.ext_getElem (by simp [h]) fun i h1 h2 => ?_
  simp [List.getElem?_eq_getElem h2]

theorem elastParts_fits (W : α → α → Whole R) (L : α → α → Loads R (ElastRhs F)) (flips : Nat → Nat → Bool)
    (D : Division pm subs φ g) (l u : α) (hn : (W l u).ns = (W l u).nt) :
    ElastFits (W l u) (L l u) pm subs φ ((realize (W l u) pm subs φ flips).map (·.test))
      (elastParts W L pm subs φ flips) l u := by
  have hv : (elastParts W L pm subs φ flips).views.map (fun v => v l u) = realize (W l u) pm subs φ flips := by
    unfold elastParts
    rw [List.map_map]
    exact range_getD _ _ (by unfold realize; simp)
  have hl : (elastParts W L pm subs φ flips).loads.map (fun v => v l u) =
      realizeLoads (L l u) (W l u).nt subs φ := by
    unfold elastParts
    rw [List.map_map]
    exact range_getD _ _ (by unfold realizeLoads; simp)
  refine ⟨?_, ?_, ?_, ?_, ?_, ?_⟩
  · rw [hv]; exact realize_fits _ flips D
  · rw [hl]; exact realizeLoads_fits _ _ D
  · rw [← hv, List.map_map]; rfl
  · rw [show (fun v : α → α → View R Geo => (v l u).trial) = (·.trial) ∘ (fun v => v l u) from rfl, ← List.map_map, hv]
    unfold realize
    rw [map_mapIdx, map_mapIdx]
    unfold view
    simp only [hn]
  · rw [show (fun v : α → α → LView R (ElastRhs F) => (v l u).space) = (·.space) ∘ (fun v => v l u) from rfl,
      ← List.map_map, hl]
    exact realize_same _ _ _
  · intro s hs
    obtain ⟨v, h1, rfl⟩ := List.mem_map.1 hs
    exact (realize_complete _ _).1 v h1

end

def elastWhole (l u : Int) : Whole Int where
  nt _ := 1
  ns _ := 1
  vol e _ _ := l * (10 * e + 4) + u
  face f I J _ _ := (if I = J then u else -u) * ((f : Int) + 1)
  bdr f _ _ := (l + 2 * u) * f

def elastLoadOf (l u : Int) : Loads Int (ElastRhs Int) where
  vol e _ := e + 1
  bdr f c _ := match c with
    | .dirichlet d => (l + 2 * u) * f * d
    | .traction t => t * (f + 1)

def elastBC : BC Int := ⟨[1, 2], [some 5, some 3], [.dirichlet, .neumann], false⟩

theorem elast_conditions : Conditions demoParent elastBC :=
  ⟨⟨rfl, rfl⟩, by decide, by decide⟩

/-- The theorem applies to the two and the three submeshes. -/
example : ∃ f M f₂ M₂,
    elastEquations true [3, 1] elastBC demoParent demoSubs
      (elastParts elastWhole elastLoadOf demoParent demoSubs demoPhi demoFlips) = .ok (f, M) ∧
    elastEquations true [3, 1] elastBC demoParent twoSubs
      (elastParts elastWhole elastLoadOf demoParent twoSubs twoPhi demoFlips) = .ok (f₂, M₂) := by
  obtain ⟨f, M, f₂, M₂, h1, h2, _⟩ := elast_solutions_agree elast_conditions rfl
    three_division demo_covers.2.2 (by decide) (elastParts_fits elastWhole elastLoadOf demoFlips three_division 3 1 rfl)
    two_division demo_covers.2.1 (by decide) (elastParts_fits elastWhole elastLoadOf demoFlips two_division 3 1 rfl)
  exact ⟨f, M, f₂, M₂, h1, h2⟩

/-- The conditions of the demonstration: attribute 1 is fixed, attribute 2 carries a traction. -/
example : imposed elastBC 1 = some (.dirichlet 5) ∧ imposed elastBC 2 = some (.traction 3) ∧
    imposed elastBC 3 = none := by decide

/-- Right-hand side and the entries of the operator at the given positions. -/
def elastTable (dg : Bool) (bc : BC Int) (subs : List Sub) (φ : Nat → Nat → Nat) (q : List (Nat × Nat)) :
    Outcome (List (List Int) × List (List Int)) := do
  let (f, M) ← elastEquations dg [3, 1] bc demoParent subs
    (elastParts elastWhole elastLoadOf demoParent subs φ demoFlips)
  return (f, q.map fun x => q.map fun y => mget M x.1 y.1 x.2 y.2)

/-- The same equations on all three divisions: the ends are fixed, the traction is in the right-hand side only. -/
example : elastTable true elastBC oneSub onePhi [(0, 0), (0, 1), (0, 2)] =
      .ok ([[51, 14, 103]], [[24, -1, 0], [-1, 46, -2], [0, -2, 95]]) ∧
    elastTable true elastBC twoSubs twoPhi [(0, 1), (0, 0), (1, 0)] =
      .ok ([[14, 51], [103]], [[24, -1, 0], [-1, 46, -2], [0, -2, 95]]) ∧
    elastTable true elastBC demoSubs demoPhi [(0, 0), (1, 0), (2, 0)] =
      .ok ([[51], [14], [103]], [[24, -1, 0], [-1, 46, -2], [0, -2, 95]]) := by
  decide +kernel

/-- Without discontinuous elements the fixed ends have no term in the operator, although they have one in the
right-hand side: exchanging displacement and traction changes the latter only. -/
example : elastTable false elastBC oneSub onePhi [(0, 0), (0, 1), (0, 2)] =
      .ok ([[51, 14, 103]], [[13, 0, 0], [0, 43, 0], [0, 0, 73]]) ∧
    elastTable false ⟨[1, 2], [some 5, some 3], [.neumann, .dirichlet], false⟩ oneSub onePhi
      [(0, 0), (0, 1), (0, 2)] = .ok ([[16, 47, 28]], [[13, 0, 0], [0, 43, 0], [0, 0, 73]]) := by
  decide +kernel

end Verif.Divide
