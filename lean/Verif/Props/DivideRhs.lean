import Verif.Proofs.DivideRhs
import Verif.Props.Divide

/-!
# C112: dividing a mesh does not change the solutions of the equations
-/

namespace Verif.Divide

open Verif Verif.LinAlg Verif.LinAlg.Spec Verif.SubMesh Verif.SubMesh.Spec Finset Spec
open Verif.InterfaceForm (Space Integ MatArr)
open Verif.InterfaceForm.Spec (dofsOf dofAt sizeIn mget)
open Verif.RomAssembly (loop_collect)
open Verif.Boundary (BC)

variable {R δ F : Type} [CommRing R] {pm : Parent} {subs : List Sub} {φ : Nat → Nat → Nat} {g : Int}
variable {Ld : Loads R F} {n : Nat → Nat} {Ls : List (LView R F)} {bc : BC F}

/-- C112: on every division of a mesh the program assembles the right-hand side of the undivided mesh. -/
theorem rhs_spec (D : Division pm subs φ g) (hbc : Conditions pm bc) (hL : LoadsFit Ld n pm subs φ Ls) :
    ∃ f, rhs bc pm subs Ls = .ok f ∧ f.length = subs.length ∧
      ∀ (k : Nat) sm v, subs[k]? = some sm → Ls[k]? = some v → ∃ y, f[k]? = some y ∧
        y.length = v.space.vsize ∧ ∀ (i e a : Nat), sm.elemMap[i]? = some e → a < n e →
          ve y (pos v.space i a) = loadAt Ld pm bc e a := by
  obtain ⟨st, fms, mesh, mks, mx, hst, hmesh, hmks, hmk, hall⟩ := setup D hbc
  obtain ⟨f, e, hl, h⟩ := loop_collect (n := Ls.length)
    (body := fun k (acc : List (List R)) => do
      let e ← rd mesh k
      let L ← rd Ls k
      let y ← load bc mks e L
      return acc ++ [y])
    (fun k y => ∀ sm v, subs[k]? = some sm → Ls[k]? = some v → y.length = v.space.vsize ∧
      ∀ (i e a : Nat), sm.elemMap[i]? = some e → a < n e →
          ve y (pos v.space i a) = loadAt Ld pm bc e a) (by
      intro k acc hk
      have hv := List.getElem?_eq_getElem hk
      have hlt : k < subs.length := by rw [← hL.count]; exact hk
      have hs := List.getElem?_eq_getElem hlt
      have V := hL.view _ _ _ hs hv
      obtain ⟨l', u, m1, m2, m3, m4, m5, m6⟩ := hall k _ hs
      obtain ⟨y, y1, y2, y3⟩ := load_spec V (fun b be hbe => by
          obtain ⟨_, x, _, _, hx, _⟩ := D.wf.onFace k b _ be hs hbe
          exact ⟨x, hx⟩) hbc.wf hmk (e := (l'.map fun b => b.attr, u)) m2 hbc.nodup m3 m5
        (by rw [List.length_map, m4])
      refine ⟨y, ?_, ?_⟩
      · rw [rd_eq_ok.2 m1, ok_bind, rd_eq_ok.2 hv, ok_bind, y1, ok_bind]; rfl
      · intro sm v hsm hv'
        rw [hs] at hsm; cases hsm
        rw [hv] at hv'; cases hv'
        refine ⟨y2, fun i e a hi ha => ?_⟩
        rw [y3 i e a hi ha, bdr_load_sum D hbc hs V m4 m6 hi ha]
        rfl)
  refine ⟨f, ?_, hl.trans hL.count, ?_⟩
  · unfold rhs
    rw [hst, ok_bind]
    dsimp only
    rw [hmesh, ok_bind, hmks, ok_bind]
    exact e
  · intro k sm v hs hv
    obtain ⟨y, h1, h2⟩ := h k (List.getElem?_eq_some_iff.1 hv).1
    exact ⟨y, h1, h2 sm v hs hv⟩

variable {W : Whole R} {ints : List (ITr δ → Mat R)} {views : List (View R δ)}
variable {fnfi : List (Option (Integ R δ))}

/-- The entries of an array of matrices are those of the undivided mesh. -/
def Entries (W : Whole R) (pm : Parent) (bc : BC F) (subs : List Sub) (tests trials : List Space)
    (M : MatArr R) : Prop :=
  ∀ (k i e k' i' e' a b : Nat) sm s sm' s', subs[k]? = some sm → tests[k]? = some s →
    sm.elemMap[i]? = some e → subs[k']? = some sm' → trials[k']? = some s' →
    sm'.elemMap[i']? = some e' → a < W.nt e → b < W.ns e' →
    mget M k k' (pos s i a) (pos s' i' b) = entry W pm bc e a e' b

/-- Spaces on the submeshes. -/
def Spaces (subs : List Sub) (n : Nat → Nat) (spaces : List Space) : Prop :=
  spaces.length = subs.length ∧ ∀ (k : Nat) sm s, subs[k]? = some sm → spaces[k]? = some s →
    SpaceFits sm.elemMap n s ∧ Complete s

theorem entries_of_operator (mixed : Bool) (D : Division pm subs φ g) (hbc : Conditions pm bc)
    (hF : Fits W pm subs φ views ints fnfi) : ∃ M, operator mixed bc pm subs views ints fnfi = .ok M ∧
      Entries W pm bc subs (views.map (·.test)) (views.map (·.trial)) M := by
  obtain ⟨M, h1, _, h2⟩ := operator_spec mixed D hbc hF
  refine ⟨M, h1, ?_⟩
  intro k i e k' i' e' a b sm s sm' s' hk hs hi hk' hs' hi' ha hb
  rw [List.getElem?_map] at hs hs'
  cases hv : views[k]? with
  | none => rw [hv] at hs; cases hs
  | some v =>
    cases hv' : views[k']? with
    | none => rw [hv'] at hs'; cases hs'
    | some v' =>
      rw [hv] at hs; rw [hv'] at hs'
      cases hs; cases hs'
      exact h2 k i e k' i' e' a b sm v sm' v' hk hv hi hk' hv' hi' ha hb

theorem sum_blocks {spaces : List Space} (D : Division pm subs φ g) (hcov : Covers pm subs)
    (hsp : Spaces subs n spaces) (G : Nat → Nat → R) (T : Nat → Nat → R)
    (hG : ∀ (k i e b : Nat) sm s, subs[k]? = some sm → spaces[k]? = some s → sm.elemMap[i]? = some e →
      b < n e → G k (pos s i b) = T e b) :
    ∑ k ∈ range subs.length, ∑ c ∈ range (sizeIn spaces k), G k c =
      ∑ e ∈ range pm.elemEdges.length, ∑ b ∈ range (n e), T e b := by
  rw [← sum_elems D hcov fun e => ∑ b ∈ range (n e), T e b]
  refine sum_congr rfl fun k hk => ?_
  rw [mem_range] at hk
  have hs := List.getElem?_eq_getElem hk
  have hk' : k < spaces.length := by rw [hsp.1]; exact hk
  have hsp' := List.getElem?_eq_getElem hk'
  obtain ⟨h1, h2⟩ := hsp.2 k _ _ hs hsp'
  have hsz : sizeIn spaces k = spaces[k].vsize := by unfold sizeIn; rw [hsp']; rfl
  have hpar : parents subs k = subs[k].elemMap := by unfold parents; rw [hs]; rfl
  rw [hsz, sum_block h1 h2, hpar]
  refine sum_congr rfl fun i hi => ?_
  rw [mem_range] at hi
  have he := List.getElem?_eq_getElem hi
  refine sum_congr rfl fun b hb => ?_
  rw [mem_range] at hb
  rw [he] at hb ⊢
  exact hG k i _ b _ _ hs hsp' he hb

theorem row_eq {tests trials : List Space} {M : MatArr R} {x ξ : Nat → Nat → R}
    (D : Division pm subs φ g) (hcov : Covers pm subs) (hM : Entries W pm bc subs tests trials M)
    (hsp : Spaces subs W.ns trials) (hx : Represents subs trials W.ns x ξ) {k i e a : Nat} {sm : Sub}
    {s : Space} (hk : subs[k]? = some sm) (hs : tests[k]? = some s) (hi : sm.elemMap[i]? = some e)
    (ha : a < W.nt e) :
    rowMult M subs.length (sizeIn trials) x k (pos s i a) = applied W pm bc ξ e a := by
  unfold rowMult applied
  refine sum_blocks D hcov hsp (fun k' c => mget M k k' (pos s i a) c * x k' c)
    (fun e' b => entry W pm bc e a e' b * ξ e' b) ?_
  intro k' i' e' b sm' s' hk' hs' hi' hb
  rw [hM k i e k' i' e' a b sm s sm' s' hk hs hi hk' hs' hi' ha hb, hx k' sm' s' i' e' b hk' hs' hi' hb]

theorem col_eq {tests trials : List Space} {M : MatArr R} {y η : Nat → Nat → R}
    (D : Division pm subs φ g) (hcov : Covers pm subs) (hM : Entries W pm bc subs tests trials M)
    (hsp : Spaces subs W.nt tests) (hy : Represents subs tests W.nt y η) {k i e b : Nat} {sm : Sub}
    {s : Space} (hk : subs[k]? = some sm) (hs : trials[k]? = some s) (hi : sm.elemMap[i]? = some e)
    (hb : b < W.ns e) :
    colMult M subs.length (sizeIn tests) y k (pos s i b) = appliedT W pm bc η e b := by
  unfold colMult appliedT
  refine sum_blocks D hcov hsp (fun k' r => mget M k' k r (pos s i b) * y k' r)
    (fun e' a => entry W pm bc e' a e b * η e' a) ?_
  intro k' i' e' a sm' s' hk' hs' hi' ha
  rw [hM k' i' e' k i e a b sm' s' sm s hk' hs' hi' hk hs hi ha hb, hy k' sm' s' i' e' a hk' hs' hi' ha]

/-- Statements about all entries of block vectors and about all degrees of freedom of all elements. -/
theorem all_entries {spaces : List Space} (hcov : Covers pm subs)
    (hsp : Spaces subs n spaces) {P : Nat → Nat → Prop} {Q : Nat → Nat → Prop}
    (h : ∀ (k i e a : Nat) sm s, subs[k]? = some sm → spaces[k]? = some s → sm.elemMap[i]? = some e →
      a < n e → (P k (pos s i a) ↔ Q e a)) :
    (∀ k r, k < subs.length → r < sizeIn spaces k → P k r) ↔
      ∀ e a, e < pm.elemEdges.length → a < n e → Q e a := by
  constructor
  · intro hP e a he ha
    obtain ⟨k, hown⟩ := (hcov e).2 he
    obtain ⟨i, x, ⟨sm, h1, h2⟩, h3⟩ := owns_at hown
    have hx : x = e := by exact_mod_cast h3
    subst hx
    have hk := (List.getElem?_eq_some_iff.1 h1).1
    have hk' : k < spaces.length := by rw [hsp.1]; exact hk
    have hs := List.getElem?_eq_getElem hk'
    have hsz : sizeIn spaces k = spaces[k].vsize := by unfold sizeIn; rw [hs]; rfl
    obtain ⟨f1, _⟩ := hsp.2 k _ _ h1 hs
    refine (h k i x a sm _ h1 hs h2 ha).1 (hP k _ hk ?_)
    rw [hsz]
    obtain ⟨_, b2, b3⟩ := sized_dofs f1 h2
    refine b3 _ ?_
    unfold dofAt
    rw [List.getElem?_eq_getElem (by rw [b2]; exact ha)]
    exact List.getElem_mem _
  · intro hQ k r hk hr
    have h1 := List.getElem?_eq_getElem hk
    have hk' : k < spaces.length := by rw [hsp.1]; exact hk
    have hs := List.getElem?_eq_getElem hk'
    have hsz : sizeIn spaces k = spaces[k].vsize := by unfold sizeIn; rw [hs]; rfl
    obtain ⟨f1, f2⟩ := hsp.2 k _ _ h1 hs
    obtain ⟨i, a, ha, rfl⟩ := f2 r (by rw [← hsz]; exact hr)
    have hi : i < subs[k].elemMap.length := by
      rw [← f1.count]
      by_contra hn
      unfold dofsOf at ha
      rw [List.getElem?_eq_none (by omega)] at ha
      simp at ha
    have he := List.getElem?_eq_getElem hi
    have ha' : a < n subs[k].elemMap[i] := by rw [← (sized_dofs f1 he).2.1]; exact ha
    refine (h k i _ a _ _ h1 hs he ha').2 (hQ _ a ?_ ha')
    exact (hcov _).1 ⟨k, (show At subs k i _ from ⟨_, h1, he⟩).owns⟩

/-- Every block vector is a discrete function. -/
theorem represents_of {spaces : List Space} (D : Division pm subs φ g) (x : Nat → Nat → R) :
    ∃ ξ, Represents subs spaces n x ξ := by
  classical
  refine ⟨fun e b => if h : ∃ p : Nat × Nat, At subs p.1 p.2 e then
    x h.choose.1 (pos (spaces[h.choose.1]?.getD ⟨0, []⟩) h.choose.2 b) else 0, ?_⟩
  intro k sm s i e b hk hs hi hb
  have hex : ∃ p : Nat × Nat, At subs p.1 p.2 e := ⟨(k, i), sm, hk, hi⟩
  dsimp only
  rw [dif_pos hex]
  obtain ⟨h1, h2⟩ := (At.eq_iff D hex.choose_spec ⟨sm, hk, hi⟩).2 rfl
  rw [h1, h2, hs]; rfl

/-- Every discrete function is given by a block vector. -/
theorem represented {spaces : List Space} (hsp : Spaces subs n spaces) (ξ : Nat → Nat → R) :
    ∃ x, Represents subs spaces n x ξ := by
  classical
  refine ⟨fun k r => if h : ∃ p : Nat × Nat, p.2 < n ((parents subs k)[p.1]?.getD 0) ∧
      p.1 < (parents subs k).length ∧ pos (spaces[k]?.getD ⟨0, []⟩) p.1 p.2 = r then
    ξ ((parents subs k)[h.choose.1]?.getD 0) h.choose.2 else 0, ?_⟩
  intro k sm s i e b hk hs hi hb
  have hpar : parents subs k = sm.elemMap := by unfold parents; rw [hk]; rfl
  have hex : ∃ p : Nat × Nat, p.2 < n ((parents subs k)[p.1]?.getD 0) ∧
      p.1 < (parents subs k).length ∧ pos (spaces[k]?.getD ⟨0, []⟩) p.1 p.2 = pos s i b := by
    refine ⟨(i, b), ?_, ?_, ?_⟩
    · rw [hpar, hi]; exact hb
    · rw [hpar]; exact (List.getElem?_eq_some_iff.1 hi).1
    · rw [hs]; rfl
  dsimp only
  rw [dif_pos hex]
  have hch := hex.choose_spec
  generalize hex.choose = p at hch ⊢
  obtain ⟨c1, c2, c3⟩ := hch
  obtain ⟨f1, _⟩ := hsp.2 k _ _ hk hs
  rw [hpar] at c1 c2
  rw [hs, Option.getD_some] at c3
  have he := List.getElem?_eq_getElem c2
  rw [he] at c1
  obtain ⟨e1, e2⟩ := (pos_eq f1 (by rw [(sized_dofs f1 he).2.1]; exact c1)
    (by rw [(sized_dofs f1 hi).2.1]; exact hb)).1 c3
  rw [hpar, e1, hi, e2]; rfl

theorem spaces_test (hF : Fits W pm subs φ views ints fnfi) (h : ∀ v ∈ views, Complete v.test) :
    Spaces subs W.nt (views.map (·.test)) := by
  refine ⟨by rw [List.length_map, hF.count], ?_⟩
  intro k sm s hk hs
  rw [List.getElem?_map] at hs
  cases hv : views[k]? with
  | none => rw [hv] at hs; cases hs
  | some v =>
    rw [hv] at hs; cases hs
    exact ⟨(hF.view k sm v hk hv).test, h v (List.mem_of_getElem? hv)⟩

theorem spaces_trial (hF : Fits W pm subs φ views ints fnfi) (h : ∀ v ∈ views, Complete v.trial) :
    Spaces subs W.ns (views.map (·.trial)) := by
  refine ⟨by rw [List.length_map, hF.count], ?_⟩
  intro k sm s hk hs
  rw [List.getElem?_map] at hs
  cases hv : views[k]? with
  | none => rw [hv] at hs; cases hs
  | some v =>
    rw [hv] at hs; cases hs
    exact ⟨(hF.view k sm v hk hv).trial, h v (List.mem_of_getElem? hv)⟩

theorem rhs_at {Ls : List (LView R F)} {tests : List Space} {f : List (List R)}
    (hsame : Ls.map (·.space) = tests)
    (hf : ∀ (k : Nat) sm v, subs[k]? = some sm → Ls[k]? = some v → ∃ y, f[k]? = some y ∧
        y.length = v.space.vsize ∧ ∀ (i e a : Nat), sm.elemMap[i]? = some e → a < n e →
          ve y (pos v.space i a) = loadAt Ld pm bc e a) {k i e a : Nat} {sm : Sub} {s : Space}
    (hk : subs[k]? = some sm) (hs : tests[k]? = some s) (hi : sm.elemMap[i]? = some e) (ha : a < n e) :
    ve (f[k]?.getD []) (pos s i a) = loadAt Ld pm bc e a := by
  rw [← hsame, List.getElem?_map] at hs
  cases hv : Ls[k]? with
  | none => rw [hv] at hs; cases hs
  | some v =>
    rw [hv] at hs; cases hs
    obtain ⟨y, h1, _, h2⟩ := hf k sm v hk hv
    rw [h1]; exact h2 i e a hi ha

/-- C112: a block vector solves the equations assembled on a division exactly if the discrete function it
stands for solves the equations of the undivided mesh, one for every degree of freedom of every element. -/
theorem solution_iff (D : Division pm subs φ g) (hbc : Conditions pm bc) (hcov : Covers pm subs)
    (hF : Fits W pm subs φ views ints fnfi) (hL : LoadsFit Ld W.nt pm subs φ Ls)
    (hsame : SameSpaces views Ls) (hct : ∀ v ∈ views, Complete v.test)
    (hcs : ∀ v ∈ views, Complete v.trial) :
    ∃ f M, equations bc pm subs views ints fnfi Ls = .ok (f, M) ∧
      ∀ x ξ, Represents subs (views.map (·.trial)) W.ns x ξ →
        (Solves M f subs.length (sizeIn (views.map (·.test))) (sizeIn (views.map (·.trial))) x ↔
          ∀ e a, e < pm.elemEdges.length → a < W.nt e →
            applied W pm bc ξ e a = loadAt Ld pm bc e a) := by
  obtain ⟨f, f1, _, f3⟩ := rhs_spec D hbc hL
  obtain ⟨M, m1, m2⟩ := entries_of_operator false D hbc hF
  refine ⟨f, M, ?_, ?_⟩
  · unfold equations
    rw [f1, ok_bind, m1, ok_bind]; rfl
  · intro x ξ hx
    have hst : Spaces subs W.nt (views.map (·.test)) := spaces_test hF hct
    have hss : Spaces subs W.ns (views.map (·.trial)) := spaces_trial hF hcs
    refine all_entries hcov hst ?_
    intro k i e a sm s hk hs hi ha
    rw [row_eq D hcov m2 hss hx hk hs hi ha, rhs_at hsame f3 hk hs hi ha]

/-- Two block vectors that are the same function stand for the same values on the undivided mesh. -/
theorem represents_same {subs₂ : List Sub} {spaces spaces₂ : List Space} {x x₂ ξ : Nat → Nat → R}
    (hcov : Covers pm subs) (hcov₂ : Covers pm subs₂) (hl : spaces.length = subs.length)
    (h : SameFunction n subs spaces x subs₂ spaces₂ x₂) (hx : Represents subs spaces n x ξ) :
    Represents subs₂ spaces₂ n x₂ ξ := by
  intro l sm₂ s₂ j e b hl' hs₂ hj hb
  obtain ⟨k, hown⟩ := (hcov e).2 ((hcov₂ e).1 ⟨l, (show At subs₂ l j e from ⟨sm₂, hl', hj⟩).owns⟩)
  obtain ⟨i, y, ⟨sm, h1, h2⟩, h3⟩ := owns_at hown
  have hy : y = e := by exact_mod_cast h3
  subst hy
  have hk : k < spaces.length := by rw [hl]; exact (List.getElem?_eq_some_iff.1 h1).1
  have hs := List.getElem?_eq_getElem hk
  rw [← h k i l j y b sm _ sm₂ s₂ h1 hs h2 hl' hs₂ hj hb]
  exact hx k sm _ i y b h1 hs h2 hb

theorem same_of_represents {subs₂ : List Sub} {spaces spaces₂ : List Space} {x x₂ ξ : Nat → Nat → R}
    (h : Represents subs spaces n x ξ) (h₂ : Represents subs₂ spaces₂ n x₂ ξ) :
    SameFunction n subs spaces x subs₂ spaces₂ x₂ := by
  intro k i l j e b sm s sm₂ s₂ a1 a2 a3 b1 b2 b3 hb
  rw [h k sm s i e b a1 a2 a3 hb, h₂ l sm₂ s₂ j e b b1 b2 b3 hb]

/-- C112: two divisions of the same mesh have the same solutions: of two block vectors that are the same
discrete function either both solve the equations of their division or neither does, and every block
vector on the one division has its counterpart on the other. -/
theorem solutions_agree {subs₂ : List Sub} {φ₂ : Nat → Nat → Nat} {views₂ : List (View R δ)}
    {Ls₂ : List (LView R F)} (hbc : Conditions pm bc)
    (D : Division pm subs φ g) (hcov : Covers pm subs) (hF : Fits W pm subs φ views ints fnfi)
    (hL : LoadsFit Ld W.nt pm subs φ Ls) (hsame : SameSpaces views Ls)
    (hct : ∀ v ∈ views, Complete v.test) (hcs : ∀ v ∈ views, Complete v.trial)
    (D₂ : Division pm subs₂ φ₂ g) (hcov₂ : Covers pm subs₂)
    (hF₂ : Fits W pm subs₂ φ₂ views₂ ints fnfi) (hL₂ : LoadsFit Ld W.nt pm subs₂ φ₂ Ls₂)
    (hsame₂ : SameSpaces views₂ Ls₂) (hct₂ : ∀ v ∈ views₂, Complete v.test)
    (hcs₂ : ∀ v ∈ views₂, Complete v.trial) :
    ∃ f M f₂ M₂, equations bc pm subs views ints fnfi Ls = .ok (f, M) ∧
      equations bc pm subs₂ views₂ ints fnfi Ls₂ = .ok (f₂, M₂) ∧
      (∀ x x₂, SameFunction W.ns subs (views.map (·.trial)) x subs₂ (views₂.map (·.trial)) x₂ →
        (Solves M f subs.length (sizeIn (views.map (·.test))) (sizeIn (views.map (·.trial))) x ↔
          Solves M₂ f₂ subs₂.length (sizeIn (views₂.map (·.test))) (sizeIn (views₂.map (·.trial))) x₂)) ∧
      ∀ x : Nat → Nat → R, ∃ x₂, SameFunction W.ns subs (views.map (·.trial)) x subs₂ (views₂.map (·.trial)) x₂ := by
  obtain ⟨f, M, e1, h1⟩ := solution_iff D hbc hcov hF hL hsame hct hcs
  obtain ⟨f₂, M₂, e2, h2⟩ := solution_iff D₂ hbc hcov₂ hF₂ hL₂ hsame₂ hct₂ hcs₂
  have hss := spaces_trial hF hcs
  have hss₂ := spaces_trial hF₂ hcs₂
  refine ⟨f, M, f₂, M₂, e1, e2, ?_, ?_⟩
  · intro x x₂ h
    obtain ⟨ξ, hξ⟩ := represents_of (n := W.ns) (spaces := views.map (·.trial)) D x
    rw [h1 x ξ hξ, h2 x₂ ξ (represents_same hcov hcov₂ hss.1 h hξ)]
  · intro x
    obtain ⟨ξ, hξ⟩ := represents_of (n := W.ns) (spaces := views.map (·.trial)) D x
    obtain ⟨x₂, hx₂⟩ := represented hss₂ ξ
    exact ⟨x₂, same_of_represents hξ hx₂⟩

/-! Stokes: `views` and `Ls` are for the velocity, `views'` has test functions for the pressure and trial
functions for the velocity. -/

variable {W' : Whole R} {ints' : List (ITr δ → Mat R)} {views' : List (View R δ)}
variable {fnfi' : List (Option (Integ R δ))} {Ld' : Loads R F} {Ls' : List (LView R F)}

/-- C112: velocity and pressure solve the Stokes equations assembled on a division exactly if the discrete
functions solve those of the undivided mesh. -/
theorem stokes_solution_iff {uspaces pspaces : List Space} (hn : W.ns = W.nt) (hn' : W'.ns = W.nt)
    (D : Division pm subs φ g) (hbc : Conditions pm bc) (hcov : Covers pm subs)
    (S : StokesForms W W' Ld Ld' pm subs φ uspaces pspaces views views' ints ints' fnfi fnfi' Ls Ls') :
    ∃ f h M B, stokesEquations bc pm subs views views' ints ints' fnfi fnfi' Ls Ls' =
        .ok ((f, h), (M, B)) ∧
      ∀ u p υ π, Represents subs uspaces W.nt u υ → Represents subs pspaces W'.nt p π →
        (SolvesStokes M B f h subs.length (sizeIn uspaces) (sizeIn pspaces) u p ↔
          (∀ e a, e < pm.elemEdges.length → a < W.nt e →
            applied W pm bc υ e a + appliedT W' pm bc π e a = loadAt Ld pm bc e a) ∧
          ∀ e a, e < pm.elemEdges.length → a < W'.nt e →
            applied W' pm bc υ e a = loadAt Ld' pm bc e a) := by
  obtain ⟨f, f1, _, f3⟩ := rhs_spec D hbc S.momentum
  obtain ⟨h, h1, _, h3⟩ := rhs_spec D hbc S.mass
  obtain ⟨M, m1, m2⟩ := entries_of_operator false D hbc S.viscous
  obtain ⟨B, b1, b2⟩ := entries_of_operator true D hbc S.divergence
  refine ⟨f, h, M, B, ?_, ?_⟩
  · unfold stokesEquations
    rw [f1, ok_bind, h1, ok_bind, m1, ok_bind, b1, ok_bind]; rfl
  · intro u p υ π hu hp
    have hst : Spaces subs W.nt uspaces := by
      have := spaces_test S.viscous (fun v hv => S.ucomplete _ (by
        rw [← S.utest]; exact List.mem_map.2 ⟨v, hv, rfl⟩))
      rw [S.utest] at this; exact this
    have hpt : Spaces subs W'.nt pspaces := by
      have := spaces_test S.divergence (fun v hv => S.pcomplete _ (by
        rw [← S.pdiv]; exact List.mem_map.2 ⟨v, hv, rfl⟩))
      rw [S.pdiv] at this; exact this
    rw [S.utest, S.utrial] at m2
    rw [S.pdiv, S.udiv] at b2
    refine and_congr ?_ ?_
    · refine all_entries hcov hst ?_
      intro k i e a sm s hk hs hi ha
      rw [row_eq D hcov m2 (by rw [hn]; exact hst) (by rw [hn]; exact hu) hk hs hi ha,
        col_eq D hcov b2 hpt hp hk hs hi (by rw [hn']; exact ha), rhs_at S.uload f3 hk hs hi ha]
    · refine all_entries hcov hpt ?_
      intro k i e a sm s hk hs hi ha
      rw [row_eq D hcov b2 (by rw [hn']; exact hst) (by rw [hn']; exact hu) hk hs hi ha,
        rhs_at S.pload h3 hk hs hi ha]

/-- C112 for the Stokes equations: two divisions have the same solutions. -/
theorem stokes_solutions_agree {uspaces pspaces uspaces₂ pspaces₂ : List Space} {subs₂ : List Sub}
    {φ₂ : Nat → Nat → Nat} {views₂ views₂' : List (View R δ)} {Ls₂ Ls₂' : List (LView R F)}
    (hn : W.ns = W.nt) (hn' : W'.ns = W.nt) (hbc : Conditions pm bc)
    (D : Division pm subs φ g) (hcov : Covers pm subs)
    (S : StokesForms W W' Ld Ld' pm subs φ uspaces pspaces views views' ints ints' fnfi fnfi' Ls Ls')
    (D₂ : Division pm subs₂ φ₂ g) (hcov₂ : Covers pm subs₂)
    (S₂ : StokesForms W W' Ld Ld' pm subs₂ φ₂ uspaces₂ pspaces₂ views₂ views₂' ints ints' fnfi fnfi'
      Ls₂ Ls₂') :
    ∃ f h M B f₂ h₂ M₂ B₂,
      stokesEquations bc pm subs views views' ints ints' fnfi fnfi' Ls Ls' = .ok ((f, h), (M, B)) ∧
      stokesEquations bc pm subs₂ views₂ views₂' ints ints' fnfi fnfi' Ls₂ Ls₂' =
        .ok ((f₂, h₂), (M₂, B₂)) ∧
      ∀ u p u₂ p₂, SameFunction W.nt subs uspaces u subs₂ uspaces₂ u₂ →
        SameFunction W'.nt subs pspaces p subs₂ pspaces₂ p₂ →
        (SolvesStokes M B f h subs.length (sizeIn uspaces) (sizeIn pspaces) u p ↔
          SolvesStokes M₂ B₂ f₂ h₂ subs₂.length (sizeIn uspaces₂) (sizeIn pspaces₂) u₂ p₂) := by
  obtain ⟨f, h, M, B, e1, h1⟩ := stokes_solution_iff hn hn' D hbc hcov S
  obtain ⟨f₂, h₂, M₂, B₂, e2, h2⟩ := stokes_solution_iff hn hn' D₂ hbc hcov₂ S₂
  refine ⟨f, h, M, B, f₂, h₂, M₂, B₂, e1, e2, ?_⟩
  intro u p u₂ p₂ hu hp
  have lu : uspaces.length = subs.length := by
    rw [← S.utest, List.length_map, S.viscous.count]
  have lp : pspaces.length = subs.length := by
    rw [← S.pdiv, List.length_map, S.divergence.count]
  obtain ⟨υ, hυ⟩ := represents_of (n := W.nt) (spaces := uspaces) D u
  obtain ⟨π, hπ⟩ := represents_of (n := W'.nt) (spaces := pspaces) D p
  rw [h1 u p υ π hυ hπ, h2 u₂ p₂ υ π (represents_same hcov hcov₂ lu hu hυ)
    (represents_same hcov hcov₂ lp hp hπ)]

/-! Non-vacuity: the strip of three cells, as in C111. -/

theorem demo_covers : Covers demoParent oneSub ∧ Covers demoParent twoSubs ∧
    Covers demoParent demoSubs :=
  ⟨covers_of_check (by decide), covers_of_check (by decide), covers_of_check (by decide)⟩

/-- One degree of freedom per cell. -/
def demoSquare : Whole Int where
  nt _ := 1
  ns _ := 1
  vol e _ _ := 10 * e + 4
  face f I J _ _ := (if I = J then 1 else -1) * ((f : Int) + 1) + (if I && !J then 1 else 0)
  bdr f _ _ := 7 * f

/-- Integrals for which the values 1, 2, 3 on the cells solve the equations. -/
def demoLoads : Loads Int Int where
  vol e _ := [(8 : Int), 31, 145].getD e 0
  bdr f c _ := 2 * f + c

/-- The theorem applies to the two and the three submeshes. -/
example : ∃ f M f₂ M₂,
    equations demoBC demoParent demoSubs (realize demoSquare demoParent demoSubs demoPhi demoFlips)
      [innerInt demoSquare] [some (itfInt demoSquare)]
      (realizeLoads demoLoads demoSquare.nt demoSubs demoPhi) = .ok (f, M) ∧
    equations demoBC demoParent twoSubs (realize demoSquare demoParent twoSubs twoPhi demoFlips)
      [innerInt demoSquare] [some (itfInt demoSquare)]
      (realizeLoads demoLoads demoSquare.nt twoSubs twoPhi) = .ok (f₂, M₂) := by
  obtain ⟨f, M, f₂, M₂, h1, h2, _⟩ := solutions_agree (W := demoSquare) (Ld := demoLoads)
    demo_conditions three_division demo_covers.2.2 (realize_fits demoSquare demoFlips three_division)
    (realizeLoads_fits demoLoads demoSquare.nt three_division) (realize_same _ _ _)
    (realize_complete _ _).1 (realize_complete _ _).2
    two_division demo_covers.2.1 (realize_fits demoSquare demoFlips two_division)
    (realizeLoads_fits demoLoads demoSquare.nt two_division) (realize_same _ _ _)
    (realize_complete _ _).1 (realize_complete _ _).2
  exact ⟨f, M, f₂, M₂, h1, h2⟩

/-- Right-hand side and operator times a block vector. -/
def both (subs : List Sub) (φ : Nat → Nat → Nat) (x : Nat → Nat → Int) (p : List (Nat × Nat)) :
    Outcome (List (List Int) × List Int) := do
  let (f, M) ← equations demoBC demoParent subs (realize demoSquare demoParent subs φ demoFlips)
    [innerInt demoSquare] [some (itfInt demoSquare)] (realizeLoads demoLoads demoSquare.nt subs φ)
  return (f, p.map fun q => rowMult M subs.length
    (fun k => ((subs[k]?).map fun sm => sm.elemMap.length).getD 0) x q.1 q.2)

/-- The computed right-hand sides, and a solution on each division. -/
example : both oneSub onePhi (fun _ r => r + 1) [(0, 0), (0, 1), (0, 2)] =
      .ok ([[17, 31, 158]], [17, 31, 158]) ∧
    both twoSubs twoPhi (fun k r => if k = 0 then 2 - r else 3) [(0, 0), (0, 1), (1, 0)] =
      .ok ([[31, 17], [158]], [31, 17, 158]) ∧
    both demoSubs demoPhi (fun k _ => k + 1) [(0, 0), (1, 0), (2, 0)] =
      .ok ([[17], [31], [158]], [17, 31, 158]) := by
  decide +kernel


/-- A pressure with two degrees of freedom on cell 1. -/
def demoDiv : Whole Int where
  nt e := if e = 1 then 2 else 1
  ns _ := 1
  vol e a _ := 3 * e + a + 1
  face f I J a _ := (if I then 5 else 7) * f + (if J then a else 1)
  bdr f a _ := f + a

/-- The Stokes theorem applies to the one and the three meshes. -/
example : ∃ f h M B f₂ h₂ M₂ B₂,
    stokesEquations demoBC demoParent oneSub (realize demoSquare demoParent oneSub onePhi demoFlips)
      (realize demoDiv demoParent oneSub onePhi demoFlips) [innerInt demoSquare] [innerInt demoDiv]
      [some (itfInt demoSquare)] [some (itfInt demoDiv)]
      (realizeLoads demoLoads demoSquare.nt oneSub onePhi)
      (realizeLoads demoLoads demoDiv.nt oneSub onePhi) = .ok ((f, h), (M, B)) ∧
    stokesEquations demoBC demoParent demoSubs (realize demoSquare demoParent demoSubs demoPhi demoFlips)
      (realize demoDiv demoParent demoSubs demoPhi demoFlips) [innerInt demoSquare] [innerInt demoDiv]
      [some (itfInt demoSquare)] [some (itfInt demoDiv)]
      (realizeLoads demoLoads demoSquare.nt demoSubs demoPhi)
      (realizeLoads demoLoads demoDiv.nt demoSubs demoPhi) = .ok ((f₂, h₂), (M₂, B₂)) := by
  obtain ⟨f, h, M, B, f₂, h₂, M₂, B₂, h1, h2, _⟩ := stokes_solutions_agree (W := demoSquare)
    (W' := demoDiv) rfl rfl demo_conditions one_division demo_covers.1
    (realize_stokes demoSquare demoDiv demoLoads demoLoads rfl rfl demoFlips one_division)
    three_division demo_covers.2.2
    (realize_stokes demoSquare demoDiv demoLoads demoLoads rfl rfl demoFlips three_division)
  exact ⟨f, h, M, B, f₂, h₂, M₂, B₂, h1, h2⟩

end Verif.Divide
