import Verif.Proofs.DivideRhs
import Verif.Spec.DivideNS
import Verif.Props.InterfaceForm

/-!
# Helper lemmas for the convective terms on a divided mesh
-/

namespace Verif.Divide

open Verif Verif.LinAlg Verif.LinAlg.Spec Verif.SubMesh Verif.SubMesh.Spec Finset Spec
open Verif.InterfaceForm (Space Integ side addElementVector_spec getSubVector_eq)
open Verif.InterfaceForm.Spec (dofsOf dofAt dofPos dofSign gather SpaceOk trOf Sides sidesOf FormOk VecsOk
  faceVec portVec formVec vecBlockTerm scatterVec)
open Verif.RomAssembly (bdrMarkers maxOr maxOr_ge pickMarkers unionMarker loop_collect)
open Verif.Boundary (BC weakOf rhsBC rhsBC_eq forBoundaries forBoundaries_eq bcExists bcExists_eq)
open Verif.Blocks (BlockVector)
open Verif.Blocks.Spec (HasSizes)
open Verif.RomHandler (readBlock writeBlock readBlock_eq writeBlock_spec)
open Verif.RomHandler.Spec (bent)

variable {R δ F : Type} [CommRing R]
variable {pm : Parent} {subs : List Sub} {φ : Nat → Nat → Nat} {g : Int}
variable {N : Conv R F} {ints : List (ITr δ → List R → List R)} {k : Nat} {sm : Sub} {v : NView R δ F}
variable {X : Nat → R} {ξ : Nat → Nat → R}

/-! ## For given values the form is linear -/

/-- The linear form with the element vectors at the values `X`. -/
def lview (v : NView R δ F) (X : Nat → R) : LView R (Option F) :=
  ⟨v.space, v.dom.map fun g i => g i (gather X (dofsOf v.space i)),
    v.bel.map (Option.map fun b => ⟨b.rows, fun c => b.vec c (gather X b.rows)⟩)⟩

omit [CommRing R] in
theorem rd_map_bind {α β γ : Type} (l : List α) (f : α → β) (i : Nat) (h : β → Outcome γ) :
    (rd (l.map f) i >>= h) = (rd l i >>= fun x => h (f x)) := by
  unfold rd
  rw [List.getElem?_map]
  cases l[i]? <;> rfl

theorem nlElems_eq (hsp : SpaceOk v.space) (y : List R) :
    nlElems v (tab v.space.vsize X) y = loadElems (lview v X) y := by
  unfold nlElems loadElems
  refine loop_congr ?_
  intro i t hi
  have hv : v.space.vdofs[i]? = some (dofsOf v.space i) := by
    unfold dofsOf; rw [List.getElem?_eq_getElem hi]; rfl
  unfold nlElem loadElem
  rw [show (lview v X).space = v.space from rfl, rd_eq_ok.2 hv, ok_bind, ok_bind,
    getSubVector_eq (hsp _ (List.mem_of_getElem? hv)), ok_bind]
  rw [show (lview v X).dom = v.dom.map fun g i => g i (gather X (dofsOf v.space i)) from rfl,
    List.length_map]
  refine loop_congr ?_
  intro r t _
  rw [rd_map_bind]

theorem nlBdr_eq (hb : ∀ b, some b ∈ v.bel → ∀ d ∈ b.rows, dofPos d < v.space.vsize)
    (al at_ : List Int) (act : List (Nat × Option F)) (ms : List (List Int)) (y : List R) :
    nlBdr al at_ act ms v.bel (tab v.space.vsize X) y = loadBdr al at_ act ms (lview v X).bel y := by
  unfold nlBdr loadBdr
  by_cases h0 : ms.length = 0
  · rw [if_pos h0, if_pos h0]
  rw [if_neg h0, if_neg h0]
  congr 1
  funext u
  refine loop_congr ?_
  intro i t _
  unfold nlBdrElem loadBdrElem
  congr 1
  funext a
  congr 1
  funext z
  rw [show (lview v X).bel = v.bel.map (Option.map fun b => ⟨b.rows, fun c => b.vec c (gather X b.rows)⟩)
    from rfl, rd_map_bind]
  cases hr : rd v.bel i with
  | error e => rfl
  | ok b =>
    rw [ok_bind, ok_bind]
    cases z with
    | false => rfl
    | true =>
      cases b with
      | none => rfl
      | some b =>
        show nlMarked act ms a b (tab v.space.vsize X) t =
          loadMarked act ms a ⟨b.rows, fun c => b.vec c (gather X b.rows)⟩ t
        unfold nlMarked loadMarked
        rw [getSubVector_eq (hb b (List.mem_of_getElem? (rd_eq_ok.1 hr))), ok_bind]

/-! ## Values on elements -/

theorem gather_eq {em : List Nat} {n : Nat → Nat} {s : Space} (h : SpaceFits em n s) {i e : Nat}
    (hi : em[i]? = some e) (hX : ∀ b < n e, X (pos s i b) = ξ e b) :
    gather X (dofsOf s i) = valuesOn n ξ e := by
  obtain ⟨b1, b2, b3⟩ := sized_dofs h hi
  unfold gather valuesOn
  apply List.ext_getElem?
  intro b
  rw [List.getElem?_map, getElem?_tab]
  by_cases hb : b < n e
  · rw [if_pos hb, List.getElem?_eq_getElem (by rw [b2]; exact hb)]
    have hd : dofAt (dofsOf s i) b = (dofsOf s i)[b]'(by rw [b2]; exact hb) := by
      unfold dofAt; rw [List.getElem?_eq_getElem]; rfl
    have p1 := dof_plain h (i := i) (a := b) (by rw [b2]; exact hb)
    rw [hd] at p1
    rw [Option.map_some, ← hX b hb]
    unfold pos
    rw [hd]
    have s1 : (dofSign ((dofsOf s i)[b]'(by rw [b2]; exact hb)) : R) = 1 := if_neg (by omega)
    rw [s1, one_mul]
  · rw [if_neg hb, List.getElem?_eq_none (by rw [b2]; omega)]; rfl

omit [CommRing R] in
theorem length_valuesOn (n : Nat → Nat) (ξ : Nat → Nat → R) (e : Nat) :
    (valuesOn n ξ e).length = n e := length_tab _ _

/-- The convective integrals at a given function. -/
def loadsOf (N : Conv R F) (pm : Parent) (ξ : Nat → Nat → R) : Loads R (Option F) where
  vol e a := N.vol e (valuesOn N.n ξ e) a
  bdr f c a := N.bdr f c (valuesOn N.n ξ (((pm.faces[f]?).map Face.e0).getD 0).toNat) a

theorem lview_fits (D : Division pm subs φ g) (hk : subs[k]? = some sm)
    (hv : NViewFits N pm subs φ ints k sm v)
    (hX : ∀ (i e b : Nat), sm.elemMap[i]? = some e → b < N.n e → X (pos v.space i b) = ξ e b) :
    LoadFits (loadsOf N pm ξ) N.n pm (φ k) sm (lview v X) := by
  have bel_at : ∀ (b : Nat) x, (lview v X).bel[b]? = some (some x) → ∃ x', v.bel[b]? = some (some x') ∧
      x = ⟨x'.rows, fun c => x'.vec c (gather X x'.rows)⟩ := by
    intro b x hx
    unfold lview at hx
    dsimp only at hx
    rw [List.getElem?_map] at hx
    cases h : v.bel[b]? with
    | none => rw [h] at hx; cases hx
    | some w =>
      cases w with
      | none => rw [h] at hx; cases hx
      | some w => rw [h] at hx; cases hx; exact ⟨w, rfl, rfl⟩
  refine ⟨hv.space, ?_, ?_, ?_, ?_, ?_⟩
  · intro i e hi g' hg
    obtain ⟨g0, h0, rfl⟩ := List.mem_map.1 hg
    exact hv.length i e hi g0 h0 _
  · intro i e a hi ha
    show (List.map _ (v.dom.map _)).sum = _
    rw [List.map_map]
    have hg := gather_eq hv.space hi (fun b hb => hX i e b hi hb)
    simp only [Function.comp_def]
    rw [hg]
    exact hv.dom i e a _ hi (length_valuesOn _ _ _) ha
  · show (v.bel.map _).length = _
    rw [List.length_map]; exact hv.belCount
  · intro b be x hb hx
    obtain ⟨x', h1, rfl⟩ := bel_at b x hx
    obtain ⟨r1, r2⟩ := hv.bel b be x' hb h1
    exact ⟨r1, fun c => r2 c _⟩
  · intro b be x q hb hq hqf hx
    obtain ⟨y, y1, y2⟩ := hv.outerBdr b be x q hb hq hqf hx
    obtain ⟨fc, x', _, h3, h4, h5⟩ := D.wf.onFace k b sm _ hk hb
    rw [hx] at h4; cases h4
    have hout := D.bdrOuter q hq fc (by rw [hqf]; exact h3)
    have hx0 : (x : Int) = fc.e0 := by
      rcases h5 with h | h
      · exact h.1
      · have := h.1; omega
    refine ⟨⟨y.rows, fun c => y.vec c (gather X y.rows)⟩, ?_, ?_⟩
    · show (v.bel.map _)[b]? = _
      rw [List.getElem?_map, y1]; rfl
    · intro c a ha
      dsimp only [loadsOf]
      rw [(hv.bel b be y hb y1).1, gather_eq hv.space hx (fun b hb => hX _ _ b hx hb),
        y2 c _ a (length_valuesOn _ _ _) ha, hqf, h3, Option.map_some, Option.getD_some, ← hx0,
        Int.toNat_natCast]

/-! ## Boundary conditions -/

/-- The conditions of the convective terms as conditions with a function each. -/
def bcN (bc : BC F) : BC (Option F) where
  attrs := bc.attrs
  coeffs := tab bc.attrs.length fun b =>
    if bc.types[b]? = some .neumann then some none else ((bc.coeffs[b]?).join).map some
  types := List.replicate bc.attrs.length .dirichlet
  presDbc := bc.presDbc

omit [CommRing R] in
theorem bcN_wf (bc : BC F) : Boundary.Wf (bcN bc) := ⟨by simp [bcN], by simp [bcN]⟩

omit [CommRing R] in
theorem bcN_conditions {bc : BC F} (h : Conditions pm bc) : Conditions pm (bcN bc) :=
  ⟨bcN_wf bc, h.nodup, h.occur⟩

omit [CommRing R] in
theorem condOf_bcN {bc : BC F} (hw : Boundary.Wf bc) (a : Int) : condOf (bcN bc) a = condN bc a := by
  by_cases ha : a ∈ bc.attrs
  · have hlt : bc.attrs.idxOf a < bc.attrs.length := List.idxOf_lt_length_of_mem ha
    unfold condOf condN bcN
    dsimp only
    rw [List.getElem?_replicate, if_pos hlt, getElem?_tab, if_pos hlt]
    rw [if_neg (by simp)]
    rfl
  · rw [condOf_none (bcN_wf bc) (show a ∉ (bcN bc).attrs from ha)]
    unfold condN
    rw [List.idxOf_eq_length ha, List.getElem?_eq_none (l := bc.types) (by rw [hw.2]),
      List.getElem?_eq_none (l := bc.coeffs) (by rw [hw.1])]
    simp

omit [CommRing R] in
theorem weakOf_bcN (bc : BC F) {b : Nat} (hb : b < bc.attrs.length) :
    weakOf (bcN bc) b = if bc.types[b]? = some .neumann then some none
      else ((bc.coeffs[b]?).join).map some := by
  unfold weakOf bcN
  dsimp only
  rw [getElem?_tab, if_pos hb, List.getElem?_replicate, if_pos hb]
  split
  · rename_i f h
    rw [if_neg (by simp)]
    exact (Option.some.inj h).symm
  · rename_i h
    cases hc : (if bc.types[b]? = some .neumann then some none
      else ((bc.coeffs[b]?).join).map some) with
    | none => rfl
    | some f => exact absurd (congrArg some hc) (h f)

omit [CommRing R] in
theorem nlBC_ok {bc : BC F} (hw : Boundary.Wf bc) {mesh : List Int}
    (hf : ∀ (b : Nat) a, bc.attrs[b]? = some a → a ∈ mesh →
      bc.types[b]? = some .neumann ∨ ∃ f, bc.coeffs[b]? = some (some f)) :
    nlBC bc mesh = rhsBC (bcN bc) mesh := by
  rw [rhsBC_eq (bcN_wf bc)]
  refine forBoundaries_eq (weakOf (bcN bc)) ?_
  intro b a ha ham
  have hb : b < bc.attrs.length := (List.getElem?_eq_some_iff.1 ha).1
  have ht : b < bc.types.length := by rw [hw.2]; exact hb
  have hc : b < bc.coeffs.length := by rw [hw.1]; exact hb
  rw [weakOf_bcN bc hb, rd_of_lt ht, ok_bind, List.getElem?_eq_getElem ht]
  rcases hf b a ha ham with h | ⟨f, h⟩
  · rw [List.getElem?_eq_getElem ht] at h
    rw [if_pos (Option.some.inj h), if_pos h]
  · by_cases hn : bc.types[b] = .neumann
    · rw [if_pos hn, if_pos (congrArg some hn)]
    · rw [if_neg hn, if_neg (fun h => hn (Option.some.inj h)), bcExists_eq hw hb, ok_bind, h]
      have hcf : bc.coeffs[b] = some f := by
        rw [List.getElem?_eq_getElem hc] at h; exact Option.some.inj h
      simp only [Option.any_some, Option.isSome_some, require_true, ok_bind, rd_of_lt hc, hcf]
      rfl

omit [CommRing R] in
theorem nlBC_eq {bc : BC F} (hw : Boundary.Wf bc) (hf : HasFunctions bc) (mesh : List Int) :
    nlBC bc mesh = rhsBC (bcN bc) mesh :=
  nlBC_ok hw fun b _ ha _ => hf b (List.getElem?_eq_some_iff.1 ha).1

/-! ## Loops that stop -/

omit [CommRing R] in
theorem loopFrom_abort {σ : Type} {body : Nat → σ → Outcome σ} (m i : Nat) (s : σ)
    (h : ∀ j t, i ≤ j → j < i + m → (∃ t', body j t = .ok t') ∨ body j t = .error .abort)
    (h1 : ∃ j, i ≤ j ∧ j < i + m ∧ ∀ t, body j t = .error .abort) :
    loopFrom body i m s = .error .abort := by
  induction m generalizing i s with
  | zero => obtain ⟨j, a, b, _⟩ := h1; omega
  | succ m ih =>
    rcases h i s (Nat.le_refl _) (by omega) with ⟨t, ht⟩ | ht
    · unfold loopFrom
      rw [ht]
      refine ih (i + 1) t (fun j t a b => h j t (by omega) (by omega)) ?_
      obtain ⟨j, a, b, hj⟩ := h1
      refine ⟨j, ?_, by omega, hj⟩
      rcases Nat.lt_or_ge i j with hlt | hge
      · exact hlt
      · have : j = i := by omega
        subst this
        rw [hj s] at ht; cases ht
    · unfold loopFrom
      rw [ht]

omit [CommRing R] in
theorem loop_abort {σ : Type} {body : Nat → σ → Outcome σ} {n : Nat} {s : σ}
    (h : ∀ j t, j < n → (∃ t', body j t = .ok t') ∨ body j t = .error .abort)
    (h1 : ∃ j < n, ∀ t, body j t = .error .abort) : loop n body s = .error .abort := by
  obtain ⟨j, a, b⟩ := h1
  exact loopFrom_abort n 0 s (fun j t _ b => h j t (by omega)) ⟨j, by omega, by omega, b⟩

omit [CommRing R] in
theorem nlBC_abort {bc : BC F} (hw : Boundary.Wf bc) {mesh : List Int} {b : Nat} {a : Int}
    (ha : bc.attrs[b]? = some a) (ham : a ∈ mesh) (hn : bc.types[b]? ≠ some .neumann)
    (hf : bc.coeffs[b]? = some none) : nlBC bc mesh = .error .abort := by
  unfold nlBC forBoundaries
  have pos : ∀ x, x ∈ mesh → ¬ Topology.arrFind mesh x < 0 := by
    intro x hx
    cases h : mesh.findIdx? (· == x) with
    | none =>
      rw [List.findIdx?_eq_none_iff] at h
      have := h x hx
      simp at this
    | some i => rw [Boundary.arrFind_some h]; omega
  refine loop_abort ?_ ?_
  · intro j t hj
    have ht : j < bc.types.length := by rw [hw.2]; exact hj
    have hc : j < bc.coeffs.length := by rw [hw.1]; exact hj
    rw [rd_of_lt hj, ok_bind]
    split
    · exact .inl ⟨_, rfl⟩
    · dsimp only
      rw [rd_of_lt ht, ok_bind]
      split
      · exact .inl ⟨_, rfl⟩
      · rw [bcExists_eq hw hj, ok_bind]
        cases (bc.coeffs[j]?).any Option.isSome with
        | false => exact .inr rfl
        | true =>
          rw [require_true, ok_bind, rd_of_lt hc]
          exact .inl ⟨_, rfl⟩
  · obtain ⟨hb, rfl⟩ := List.getElem?_eq_some_iff.1 ha
    have ht : b < bc.types.length := by rw [hw.2]; exact hb
    refine ⟨b, hb, fun t => ?_⟩
    rw [rd_of_lt hb, ok_bind, if_neg (pos _ ham)]
    dsimp only
    rw [rd_of_lt ht, ok_bind,
      if_neg (fun h => hn (by rw [List.getElem?_eq_getElem ht, h])), bcExists_eq hw hb, ok_bind, hf]
    rfl

theorem bdrLoad_eq {bc : BC F} (hw : Boundary.Wf bc) (e a : Nat) (q : Nat × Int) :
    bdrLoad (loadsOf N pm ξ) pm (bcN bc) e a q = bdrConv N pm bc ξ e a q := by
  unfold bdrLoad bdrConv
  by_cases h : (pm.faces[q.1]?).map (·.e0) = some (e : Int)
  · rw [if_pos h, if_pos h, condOf_bcN hw]
    cases condN bc q.2 with
    | none => rfl
    | some c =>
      dsimp only [loadsOf]
      rw [h, Option.getD_some, Int.toNat_natCast]
  · rw [if_neg h, if_neg h]

/-! ## Interior faces -/

theorem vscat_append (r1 r2 : List Int) (E : Nat → R) (t : Nat) :
    vscat (r1 ++ r2) E t = ∑ I : Bool, vscat (if I then r2 else r1)
      (fun a => E (if I then r1.length + a else a)) t := by
  unfold vscat
  have h1 : ∀ k, k ∈ range r1.length → dofAt (r1 ++ r2) k = dofAt r1 k := by
    intro k hk; rw [dofAt_append, if_pos (mem_range.1 hk)]
  have h2 : ∀ k, dofAt (r1 ++ r2) (r1.length + k) = dofAt r2 k := by
    intro k; rw [dofAt_append, if_neg (by omega), Nat.add_sub_cancel_left]
  rw [List.length_append, sum_range_add, Fintype.sum_bool, add_comm]
  congr 1
  · simp only [h2, if_true]
  · refine sum_congr rfl fun k hk => ?_
    rw [h1 k hk]
    rfl

/-- What face `s` of a submesh adds at the values `X`. -/
def nlInner (v : NView R δ F) (ints : List (ITr δ → List R → List R)) (X : Nat → R) (s : Nat) :
    Nat → R :=
  match v.faces[s]? with
  | some (some t) => (ints.map fun g => vscat (dofsOf v.space t.elem1 ++ dofsOf v.space t.elem2)
      (ve (g t (gather X (dofsOf v.space t.elem1 ++ dofsOf v.space t.elem2))))).sum
  | _ => 0

theorem nlFace_spec (D : Division pm subs φ g) (hk : subs[k]? = some sm)
    (hv : NViewFits N pm subs φ ints k sm v) {s : Nat} (hs : s < sm.numFaces) {t : Option (ITr δ)}
    (ht : v.faces[s]? = some t) {y : List R} (hy : y.length = v.space.vsize) :
    ∃ y', nlFace v ints (tab v.space.vsize X) t y = .ok y' ∧ y'.length = v.space.vsize ∧
      ve y' = ve y + nlInner v ints X s := by
  unfold nlInner
  rw [ht]
  cases t with
  | none => exact ⟨y, rfl, hy, by simp⟩
  | some t =>
    have hfc := List.getElem?_eq_getElem (D.faceIn k sm s hk hs)
    rcases inside_dec subs k (pm.faces[φ k s]'(D.faceIn k sm s hk hs)) with hi | hi
    swap
    · have := hv.outer s _ hs hfc hi
      rw [ht] at this; cases this
    obtain ⟨t', o, x1, x2, h1, h2, h3, -, -, h4, -⟩ := hv.inner s _ hs hfc hi
    rw [ht] at h1; cases h1
    obtain ⟨b1, b2, b3⟩ := sized_dofs hv.space h2
    obtain ⟨b4, b5, b6⟩ := sized_dofs hv.space h3
    have hin : ∀ d ∈ dofsOf v.space t.elem1 ++ dofsOf v.space t.elem2, dofPos d < v.space.vsize := by
      intro d hd
      rcases List.mem_append.1 hd with hd | hd
      · exact b3 d hd
      · exact b6 d hd
    dsimp only [nlFace]
    rw [rd_eq_ok.2 b1, ok_bind, rd_eq_ok.2 b4, ok_bind, getSubVector_eq hin, ok_bind]
    obtain ⟨y', e, l1, l2⟩ := loop_list_acc (l := ints) (fun u : List R => u.length = v.space.vsize) ve
      (fun g => vscat (dofsOf v.space t.elem1 ++ dofsOf v.space t.elem2)
        (ve (g t (gather X (dofsOf v.space t.elem1 ++ dofsOf v.space t.elem2))))) (s := y)
      (body := fun r y => do
        let g ← rd ints r
        addElementVector y 0 (dofsOf v.space t.elem1 ++ dofsOf v.space t.elem2)
          (g t (gather X (dofsOf v.space t.elem1 ++ dofsOf v.space t.elem2)))) hy (by
        intro r gg u hg hr hu
        obtain ⟨u', e, d1, d2⟩ := add_spec (y := u)
          (rows := dofsOf v.space t.elem1 ++ dofsOf v.space t.elem2)
          (el := gg t (gather X (dofsOf v.space t.elem1 ++ dofsOf v.space t.elem2)))
          (by rw [hu]; exact hin) (by rw [List.length_append, b2, b5]; exact h4 gg hg _)
        exact ⟨u', by rw [hr, ok_bind, e], d1.trans hu, d2⟩)
    exact ⟨y', e, l1, l2⟩

theorem nlInterior_spec (D : Division pm subs φ g) (hk : subs[k]? = some sm)
    (hv : NViewFits N pm subs φ ints k sm v) {y : List R} (hy : y.length = v.space.vsize) :
    ∃ y', nlInterior v ints (tab v.space.vsize X) y = .ok y' ∧ y'.length = v.space.vsize ∧
      ve y' = ve y + ∑ s ∈ range sm.numFaces, nlInner v ints X s := by
  unfold nlInterior
  by_cases hz : ints.length = 0
  · rw [if_pos hz]
    refine ⟨y, rfl, hy, ?_⟩
    have hn : ints = [] := List.length_eq_zero_iff.1 hz
    have : ∀ s, nlInner v ints X s = 0 := by
      intro s
      unfold nlInner
      rw [hn]
      split <;> rfl
    rw [sum_congr rfl fun s _ => this s, sum_const_zero, add_zero]
  rw [if_neg hz, hv.faceCount]
  have key := @loop_vec R _ sm.numFaces (fun i y => do
      let t ← rd v.faces i
      nlFace v ints (tab v.space.vsize X) t y) v.space.vsize (nlInner v ints X) y hy
  apply key
  intro s t hs ht
  have hlt : s < v.faces.length := by rw [hv.faceCount]; exact hs
  have hf := List.getElem?_eq_getElem hlt
  obtain ⟨t', e, d1, d2⟩ := nlFace_spec (X := X) D hk hv hs hf ht
  exact ⟨t', by rw [rd_eq_ok.2 hf, ok_bind, e], d1, d2⟩

theorem sum_xor1 (o : Bool) (G : Bool → R) : ∑ I : Bool, G (o ^^ I) = ∑ I : Bool, G I := by
  cases o
  · simp
  · simp only [Fintype.sum_bool, Bool.true_xor, Bool.not_true, Bool.not_false]
    exact add_comm _ _

theorem list_sum_bool1 {α : Type} (l : List α) (G : α → Bool → R) :
    (l.map fun x => ∑ I : Bool, G x I).sum = ∑ I : Bool, (l.map fun x => G x I).sum := by
  simp only [Fintype.sum_bool]
  induction l with
  | nil => simp
  | cons x l ih =>
    simp only [List.map_cons, List.sum_cons, ih]
    abel

theorem gather_append (X : Nat → R) (l l' : List Int) : gather X (l ++ l') = gather X l ++ gather X l' := by
  unfold gather; exact List.map_append

omit [CommRing R] in
/-- The values on both sides of a face, whichever side comes first. -/
theorem sides_values {fc : Face} {o : Bool} {x1 x2 : Nat} (h1 : (x1 : Int) = elemAt fc o)
    (h2 : (x2 : Int) = elemAt fc (!o)) (n : Nat → Nat) (ξ : Nat → Nat → R) :
    (fun J => if J = o then valuesOn n ξ x1 else valuesOn n ξ x2) =
      fun J => valuesOn n ξ (elemAt fc J).toNat := by
  funext J
  by_cases h : J = o
  · rw [if_pos h, h, ← h1, Int.toNat_natCast]
  · rw [if_neg h]
    have : J = !o := by cases J <;> cases o <;> simp_all
    rw [this, ← h2, Int.toNat_natCast]

open Classical in
theorem nlInner_at (D : Division pm subs φ g) (hk : subs[k]? = some sm)
    (hv : NViewFits N pm subs φ ints k sm v)
    (hX : ∀ (i e b : Nat), sm.elemMap[i]? = some e → b < N.n e → X (pos v.space i b) = ξ e b)
    {s : Nat} (hs : s < sm.numFaces) {fc : Face} (hfc : pm.faces[φ k s]? = some fc) {i e a : Nat}
    (hi : sm.elemMap[i]? = some e) (ha : a < N.n e) :
    nlInner v ints X s (pos v.space i a) =
      if Inside subs k fc then faceConv N pm ξ e a (φ k s) else 0 := by
  by_cases hin : Inside subs k fc
  swap
  · rw [if_neg hin]
    unfold nlInner
    rw [hv.outer s fc hs hfc hin]
    rfl
  rw [if_pos hin]
  obtain ⟨t, o, x1, x2, h1, h2, h3, h4, h5, -, h6⟩ := hv.inner s fc hs hfc hin
  obtain ⟨b1, b2, b3⟩ := sized_dofs hv.space h2
  obtain ⟨_, b4, _⟩ := sized_dofs hv.space hi
  have A1 : At subs k t.elem1 x1 := ⟨sm, hk, h2⟩
  have A2 : At subs k t.elem2 x2 := ⟨sm, hk, h3⟩
  have Ai : At subs k i e := ⟨sm, hk, hi⟩
  have side : ∀ (I : Bool) (j y : Nat), At subs k j y →
      ((if I then t.elem2 else t.elem1) = j ↔ elemAt fc (o ^^ I) = y) := by
    intro I j y hj
    cases I
    · have := At.eq_iff D A1 hj
      simp only [true_and] at this
      rw [Bool.xor_false, ← h4]
      simp only [Bool.false_eq_true, if_false]
      rw [this]; norm_cast
    · have := At.eq_iff D A2 hj
      simp only [true_and] at this
      rw [Bool.xor_true, ← h5]
      simp only [if_true]
      rw [this]; norm_cast
  have parent : ∀ (I : Bool) (j y : Nat), At subs k j y → (if I then t.elem2 else t.elem1) = j →
      (if I then x2 else x1) = y := by
    intro I j y hj hI
    cases I
    · exact ((At.eq_iff D A1 hj).1 ⟨rfl, hI⟩)
    · exact ((At.eq_iff D A2 hj).1 ⟨rfl, hI⟩)
  unfold nlInner faceConv
  rw [h1, hfc]
  dsimp only
  rw [if_neg (by have := hin.1; omega), list_sum_fun, gather_append,
    gather_eq hv.space h2 (fun b hb => hX _ _ b h2 hb), gather_eq hv.space h3 (fun b hb => hX _ _ b h3 hb)]
  have e1 : ∀ I : Bool, (if I then dofsOf v.space t.elem2 else dofsOf v.space t.elem1) =
      dofsOf v.space (if I then t.elem2 else t.elem1) := by intro I; cases I <;> rfl
  have e2 : ∀ gg : ITr δ → List R → List R,
      vscat (dofsOf v.space t.elem1 ++ dofsOf v.space t.elem2)
        (ve (gg t (valuesOn N.n ξ x1 ++ valuesOn N.n ξ x2))) (pos v.space i a) =
      ∑ I : Bool, if (if I then t.elem2 else t.elem1) = i then
        ve (gg t (valuesOn N.n ξ x1 ++ valuesOn N.n ξ x2)) (if I then N.n x1 + a else a) else 0 := by
    intro gg
    rw [vscat_append]
    refine sum_congr rfl fun I _ => ?_
    rw [e1, vscat_at hv.space (by rw [b4]; exact ha), b2]
  simp only [e2]
  rw [list_sum_bool1]
  simp only [list_sum_if]
  rw [← sum_xor1 o (fun I => if elemAt fc I = e then N.face (φ k s) I
    (fun J => valuesOn N.n ξ (elemAt fc J).toNat) a else 0)]
  refine sum_congr rfl fun I _ => ?_
  by_cases hc : (if I then t.elem2 else t.elem1) = i
  · refine (if_pos hc).trans (Eq.trans ?_ (if_pos ((side I i e Ai).1 hc)).symm)
    rw [h6 I _ _ a (length_valuesOn _ _ _) (length_valuesOn _ _ _)
      (by rw [parent I i e Ai hc]; exact ha), sides_values h4 h5]
  · rw [if_neg hc, if_neg]
    intro q1
    exact hc ((side I i e Ai).2 q1)

open Classical in
theorem nlInner_sum (D : Division pm subs φ g) (hk : subs[k]? = some sm)
    (hv : NViewFits N pm subs φ ints k sm v)
    (hX : ∀ (i e b : Nat), sm.elemMap[i]? = some e → b < N.n e → X (pos v.space i b) = ξ e b)
    {i e a : Nat} (hi : sm.elemMap[i]? = some e) (ha : a < N.n e) :
    ∑ s ∈ range sm.numFaces, nlInner v ints X s (pos v.space i a) =
      ∑ f ∈ range pm.faces.length, if InsideAt pm subs k f then faceConv N pm ξ e a f else 0 := by
  have h1 : ∀ s ∈ range sm.numFaces, nlInner v ints X s (pos v.space i a) =
      if InsideAt pm subs k (φ k s) then faceConv N pm ξ e a (φ k s) else 0 := by
    intro s hs
    rw [mem_range] at hs
    have hfc := List.getElem?_eq_getElem (D.faceIn k sm s hk hs)
    rw [nlInner_at D hk hv hX hs hfc hi ha]
    congr 1
    apply propext
    constructor
    · exact fun h => ⟨_, hfc, h⟩
    · rintro ⟨fc, q1, q2⟩
      rw [hfc] at q1; cases q1; exact q2
  rw [sum_congr rfl h1, sum_range_list, sum_range_list]
  rw [show (fun s => if InsideAt pm subs k (φ k s) then faceConv N pm ξ e a (φ k s) else 0) =
    (fun f => if InsideAt pm subs k f then faceConv N pm ξ e a f else 0) ∘ φ k from rfl,
    ← List.map_map]
  refine list_sum_eq ?_ List.nodup_range _ ?_
  · rw [List.nodup_map_iff_inj_on List.nodup_range]
    intro x hx y hy hxy
    exact D.faceOnce k sm x y hk (List.mem_range.1 hx) (List.mem_range.1 hy) hxy
  · intro f hf
    have hin : InsideAt pm subs k f := by
      by_contra hc
      rw [if_neg hc] at hf; exact hf rfl
    obtain ⟨fc, q1, q2⟩ := hin
    rw [List.mem_map, List.mem_range]
    constructor
    · intro _; exact (List.getElem?_eq_some_iff.1 q1).1
    · intro _
      obtain ⟨s, s1, s2⟩ := D.faceAll k sm f fc hk q1 q2
      exact ⟨s, List.mem_range.2 s1, s2⟩

/-! ## Interfaces -/

variable {views : List (NView R δ F)} {fnfi : List (Option (Integ R δ))} {st : IState}
variable {fms : List (List Int)} {bes : List (List BE)} {x : BlockVector R}

theorem nfits_at (hF : NFits N pm subs φ views ints fnfi) {P : PortInfo} {I : InterfaceInfo} {f : Nat}
    {fc : Face} {o : Bool} {si sj : Sub} {bei bej : BE} {x1 x2 : Nat}
    (h : InfoAt pm subs φ P I f fc o si sj bei bej x1 x2) :
    ∃ vi vj, views[P.mesh1]? = some vi ∧ views[P.mesh2]? = some vj ∧
      NViewFits N pm subs φ ints P.mesh1 si vi ∧ NViewFits N pm subs φ ints P.mesh2 sj vj ∧
      NInterfaceFits N fnfi f fc o vi vj I.be1 I.be2 bei bej x1 x2 := by
  have l1 : P.mesh1 < views.length := by rw [hF.count]; exact (List.getElem?_eq_some_iff.1 h.sub1).1
  have l2 : P.mesh2 < views.length := by rw [hF.count]; exact (List.getElem?_eq_some_iff.1 h.sub2).1
  have v1 := List.getElem?_eq_getElem l1
  have v2 := List.getElem?_eq_getElem l2
  exact ⟨_, _, v1, v2, hF.view _ _ _ h.sub1 v1, hF.view _ _ _ h.sub2 v2,
    hF.itf _ _ _ _ _ _ _ _ _ _ _ _ _ _ _ h.sub1 h.sub2 v1 v2 h.ne h.be1 h.be2 h.face1 h.face2 h.face
      h.par1 h.par2 h.side1 h.side2⟩

omit [CommRing R] in
theorem nsides_eq {P : PortInfo} {l : List InterfaceInfo} {vi vj : NView R δ F}
    (h1 : views[P.mesh1]? = some vi) (h2 : views[P.mesh2]? = some vj) :
    sidesOf (itf (views.map asView) fnfi st) (portOf P l) =
      ⟨vi.fmesh, vj.fmesh, vi.space, vj.space, vi.space, vj.space⟩ :=
  sides_eq (vi := asView vi) (vj := asView vj) (by rw [List.getElem?_map, h1]; rfl)
    (by rw [List.getElem?_map, h2]; rfl)

/-- The values of a block vector are those of the discrete function `ξ`. -/
def Values (N : Conv R F) (subs : List Sub) (views : List (NView R δ F)) (x : BlockVector R)
    (ξ : Nat → Nat → R) : Prop :=
  ∀ (k i e b : Nat) sm v, subs[k]? = some sm → views[k]? = some v → sm.elemMap[i]? = some e →
    b < N.n e → bent x k (pos v.space i b) = ξ e b

theorem nitf_at (D : Division pm subs φ g) (hF : NFits N pm subs φ views ints fnfi)
    (hX : Values N subs views x ξ) {P : PortInfo}
    {l : List InterfaceInfo} {I : InterfaceInfo} {f : Nat} {fc : Face} {o : Bool} {si sj : Sub}
    {bei bej : BE} {x1 x2 : Nat} (h : InfoAt pm subs φ P I f fc o si sj bei bej x1 x2)
    {k i e a : Nat} {sm : Sub} {v : NView R δ F} (hk : subs[k]? = some sm)
    (hv : views[k]? = some v) (hi : sm.elemMap[i]? = some e) (ha : a < N.n e) :
    faceVec P.mesh1 P.mesh2 (sidesOf (itf (views.map asView) fnfi st) (portOf P l)) fnfi x
      ⟨I.be1, I.be2, I.inf1, I.inf2⟩ k (pos v.space i a) = faceConv N pm ξ e a f := by
  obtain ⟨vi, vj, v1, v2, w1, w2, t1, t2, q1, q2, q3, q4, -, q6⟩ := nfits_at hF h
  have V := hF.view _ _ _ hk hv
  obtain ⟨_, b4, _⟩ := sized_dofs V.space hi
  rw [nsides_eq v1 v2]
  have hface : Sides.face (⟨vi.fmesh, vj.fmesh, vi.space, vj.space, vi.space, vj.space⟩ : Sides δ)
      ⟨I.be1, I.be2, I.inf1, I.inf2⟩ = some (t1, t2) := by
    unfold Sides.face
    dsimp only
    rw [h.inf1, h.inf2, q1, q3]
  unfold faceVec
  rw [hface]
  dsimp only
  rw [InterfaceForm.list_sum_apply2]
  have g1 : gather (bent x P.mesh1)
      (Sides.rows (⟨vi.fmesh, vj.fmesh, vi.space, vj.space, vi.space, vj.space⟩ : Sides δ) t1 t2 0) =
      valuesOn N.n ξ x1 := by
    show gather _ (dofsOf vi.space t1.elem) = _
    rw [q2]
    exact gather_eq w1.space h.par1 (fun b hb => hX _ _ _ b _ _ h.sub1 v1 h.par1 hb)
  have g2 : gather (bent x P.mesh2)
      (Sides.rows (⟨vi.fmesh, vj.fmesh, vi.space, vj.space, vi.space, vj.space⟩ : Sides δ) t1 t2 1) =
      valuesOn N.n ξ x2 := by
    show gather _ (dofsOf vj.space t2.elem) = _
    rw [q4]
    exact gather_eq w2.space h.par2 (fun b hb => hX _ _ _ b _ _ h.sub2 v2 h.par2 hb)
  rw [g1, g2]
  set mesh : Bool → Nat := fun J => if J then P.mesh2 else P.mesh1 with hmesh
  set el : Bool → Nat := fun J => if J then bej.elem else bei.elem with hel
  set vw : Bool → NView R δ F := fun J => if J then vj else vi with hvw
  set par : Bool → Nat := fun J => if J then x2 else x1 with hpar
  have A : ∀ J, At subs (mesh J) (el J) (par J) := by
    intro J
    cases J
    · exact ⟨si, h.sub1, h.par1⟩
    · exact ⟨sj, h.sub2, h.par2⟩
  have E : ∀ J, elemAt fc (o ^^ J) = par J := by
    intro J
    cases J
    · rw [Bool.xor_false]; exact h.side1.symm
    · rw [Bool.xor_true]; exact h.side2.symm
  have Vw : ∀ J, views[mesh J]? = some (vw J) := by
    intro J
    cases J
    · exact v1
    · exact v2
  have Ai : At subs k i e := ⟨sm, hk, hi⟩
  have term : ∀ gg ∈ fnfi, (match gg with
      | none => (0 : Nat → Nat → R)
      | some gg => vecBlockTerm P.mesh1 P.mesh2
          (Sides.rows ⟨vi.fmesh, vj.fmesh, vi.space, vj.space, vi.space, vj.space⟩ t1 t2)
          (gg.vec t1 t2 (valuesOn N.n ξ x1) (valuesOn N.n ξ x2))) k (pos v.space i a) =
      ∑ I : Bool, if mesh I = k ∧ el I = i then
        (gg.map fun gg => ve (gg.vec t1 t2 (valuesOn N.n ξ x1) (valuesOn N.n ξ x2) I.toNat) a).getD 0
        else 0 := by
    intro gg hgg
    cases gg with
    | none => exact absurd hgg hF.integrators
    | some gg =>
      dsimp only
      unfold vecBlockTerm
      rw [show ∀ G : Nat → R, ∑ s ∈ range 2, G s = ∑ I : Bool, G I.toNat from by
        intro G
        simp only [sum_range_succ, range_zero, sum_empty, zero_add, Fintype.sum_bool, Bool.toNat_true,
          Bool.toNat_false]
        exact add_comm _ _]
      refine sum_congr rfl fun I _ => ?_
      have s1 : side P.mesh1 P.mesh2 I.toNat = mesh I := by cases I <;> rfl
      have r1 : Sides.rows (⟨vi.fmesh, vj.fmesh, vi.space, vj.space, vi.space, vj.space⟩ : Sides δ) t1 t2
          I.toNat = dofsOf (vw I).space (el I) := by
        cases I
        · show dofsOf vi.space t1.elem = dofsOf vi.space bei.elem
          rw [q2]
        · show dofsOf vj.space t2.elem = dofsOf vj.space bej.elem
          rw [q4]
      rw [r1]
      simp only [s1]
      by_cases hm : mesh I = k
      · rw [if_pos hm]
        have u1 : vw I = v := by
          have := Vw I
          rw [hm, hv] at this; exact (Option.some.inj this).symm
        rw [u1]
        refine (vscat_at V.space (by rw [b4]; exact ha) _).trans ?_
        simp only [hm, true_and, Option.map_some, Option.getD_some]
      · rw [if_neg hm, if_neg]
        rintro ⟨m1, _⟩
        exact hm m1
  refine (congrArg List.sum (List.map_congr_left term)).trans ?_
  rw [list_sum_bool1]
  simp only [list_sum_if]
  obtain ⟨fc', z1, z2, _⟩ := h.split
  rw [h.face] at z1; cases z1
  unfold faceConv
  rw [h.face]
  dsimp only
  rw [if_neg (by omega)]
  rw [← sum_xor1 o (fun I => if elemAt fc I = e then
    N.face f I (fun J => valuesOn N.n ξ (elemAt fc J).toNat) a else 0)]
  refine sum_congr rfl fun I _ => ?_
  by_cases hc : mesh I = k ∧ el I = i
  · have y1 := (At.eq_iff D (A I) Ai).1 hc
    refine (if_pos hc).trans (Eq.trans ?_ (if_pos (by rw [E, y1])).symm)
    rw [q6 I _ _ a (length_valuesOn _ _ _) (length_valuesOn _ _ _)
      (by rw [show (if I then x2 else x1) = par I from rfl, y1]; exact ha),
      sides_values h.side1 h.side2]
  · rw [if_neg hc, if_neg]
    intro m1
    rw [E] at m1
    exact hc ((At.eq_iff D (A I) Ai).2 (by exact_mod_cast m1))

open Classical in
theorem nform_sum (D : Division pm subs φ g) (T : Result pm subs φ g st fms bes)
    (hF : NFits N pm subs φ views ints fnfi) (hX : Values N subs views x ξ)
    {k i e a : Nat} {sm : Sub} {v : NView R δ F} (hk : subs[k]? = some sm) (hv : views[k]? = some v)
    (hi : sm.elemMap[i]? = some e) (ha : a < N.n e) :
    formVec (itf (views.map asView) fnfi st) x k (pos v.space i a) =
      ∑ f ∈ range pm.faces.length, if Split pm subs f then faceConv N pm ξ e a f else 0 := by
  have hL : formVec (itf (views.map asView) fnfi st) x k (pos v.space i a) =
      (((List.zip st.ports st.infos).flatMap fun x => x.2.map (faceOf subs φ x.1)).map
        fun f => if Split pm subs f then faceConv N pm ξ e a f else 0).sum := by
    unfold formVec
    rw [itf_ports, List.map_map, InterfaceForm.list_sum_apply2, List.map_flatMap, sum_flatMap]
    congr 1
    apply List.map_congr_left
    intro y hy
    obtain ⟨p, h1, h2⟩ := mem_zip hy
    simp only [Function.comp]
    unfold portVec
    rw [InterfaceForm.list_sum_apply2]
    show (List.map _ (y.2.map _)).sum = _
    rw [List.map_map, List.map_map]
    congr 1
    apply List.map_congr_left
    intro I hI
    obtain ⟨f, fc, o, si, sj, bei, bej, x1, x2, h⟩ := info_at D T h1 h2 hI
    simp only [Function.comp]
    rw [faceOf_eq h, if_pos h.split]
    exact nitf_at D hF hX h hk hv hi ha
  rw [hL, sum_range_list]
  refine list_sum_eq (faces_nodup D T) List.nodup_range _ ?_
  intro f hf
  have hs : Split pm subs f := by
    by_contra hc
    exact hf (if_neg hc)
  constructor
  · intro _
    obtain ⟨fc, h1, _⟩ := hs
    exact List.mem_range.2 (List.getElem?_eq_some_iff.1 h1).1
  · intro _; exact split_found D T hs

theorem nitf_ok (D : Division pm subs φ g) (T : Result pm subs φ g st fms bes)
    (hF : NFits N pm subs φ views ints fnfi) : FormOk (itf (views.map asView) fnfi st) ∧
      ∀ p ∈ (itf (views.map asView) fnfi st).ports,
        VecsOk (sidesOf (itf (views.map asView) fnfi st) p) p.infos fnfi := by
  have hlen : (itf (views.map asView) fnfi st).meshes.length = subs.length := by
    show ((views.map asView).map _).length = _
    rw [List.length_map, List.length_map, hF.count]
  have hport : ∀ p ∈ (itf (views.map asView) fnfi st).ports,
      ∃ (j : Nat) (P : PortInfo) (l : List InterfaceInfo),
      st.ports[j]? = some P ∧ st.infos[j]? = some l ∧ p = portOf P l := by
    intro p hp
    rw [itf_ports] at hp
    obtain ⟨x, hx, rfl⟩ := List.mem_map.1 hp
    obtain ⟨j, h1, h2⟩ := mem_zip hx
    exact ⟨j, x.1, x.2, h1, h2, rfl⟩
  refine ⟨⟨?_, ?_, ?_⟩, ?_⟩
  · show ((views.map asView).map _).length = ((views.map asView).map _).length
    simp only [List.length_map]
  · show ((views.map asView).map _).length = ((views.map asView).map _).length
    simp only [List.length_map]
  · intro p hp
    obtain ⟨j, P, l, h1, h2, rfl⟩ := hport p hp
    obtain ⟨p1, p2, _⟩ := T.correct.port j P h1
    have hs1 := List.getElem?_eq_getElem (show P.mesh1 < subs.length by omega)
    have hs2 := List.getElem?_eq_getElem p2
    have l1 : P.mesh1 < views.length := by rw [hF.count]; omega
    have l2 : P.mesh2 < views.length := by rw [hF.count]; omega
    have v1 := List.getElem?_eq_getElem l1
    have v2 := List.getElem?_eq_getElem l2
    have w1 := hF.view _ _ _ hs1 v1
    have w2 := hF.view _ _ _ hs2 v2
    refine ⟨?_, ?_, ?_, ?_⟩
    · rw [hlen]; show P.mesh1 < _; omega
    · rw [hlen]; show P.mesh2 < _; omega
    · show P.mesh1 ≠ P.mesh2; omega
    rw [nsides_eq v1 v2]
    have info : ∀ i ∈ (portOf P l).infos, ∃ I ∈ l, i = ⟨I.be1, I.be2, I.inf1, I.inf2⟩ := by
      intro i hi
      obtain ⟨I, hI, rfl⟩ := List.mem_map.1 hi
      exact ⟨I, hI, rfl⟩
    have fits : ∀ I ∈ l, ∃ f fc o si sj bei bej x1 x2, InfoAt pm subs φ P I f fc o si sj bei bej x1 x2 ∧
        NInterfaceFits N fnfi f fc o views[P.mesh1] views[P.mesh2] I.be1 I.be2 bei bej x1 x2 := by
      intro I hI
      obtain ⟨f, fc, o, si, sj, bei, bej, x1, x2, h⟩ := info_at D T h1 h2 hI
      obtain ⟨vi, vj, u1, u2, _, _, u3⟩ := nfits_at hF h
      rw [v1] at u1; cases u1
      rw [v2] at u2; cases u2
      exact ⟨f, fc, o, si, sj, bei, bej, x1, x2, h, u3⟩
    refine ⟨?_, ?_, ?_, w1.space.inside, w2.space.inside, w1.space.inside, w2.space.inside⟩
    · intro i hi
      obtain ⟨I, hI, rfl⟩ := info i hi
      obtain ⟨f, fc, o, si, sj, bei, bej, x1, x2, h, t1, t2, q1, _⟩ := fits I hI
      right
      intro hn
      unfold trOf at q1
      rw [hn] at q1; cases q1
    · intro i hi
      obtain ⟨I, hI, rfl⟩ := info i hi
      obtain ⟨f, fc, o, si, sj, bei, bej, x1, x2, h, t1, t2, _, _, q3, _⟩ := fits I hI
      right
      intro hn
      unfold trOf at q3
      rw [hn] at q3; cases q3
    · intro i hi t1' t2' ht
      obtain ⟨I, hI, rfl⟩ := info i hi
      obtain ⟨f, fc, o, si, sj, bei, bej, x1, x2, h, t1, t2, q1, q2, q3, q4, _⟩ := fits I hI
      unfold Sides.face at ht
      dsimp only at ht
      rw [h.inf1, h.inf2, q1, q3] at ht
      cases ht
      have a1 := h.par1
      have a2 := h.par2
      have b1 := h.sub1
      have b2 := h.sub2
      rw [hs1] at b1; cases b1
      rw [hs2] at b2; cases b2
      rw [q2, q4]
      dsimp only
      rw [w1.space.count, w2.space.count]
      have c1 := (List.getElem?_eq_some_iff.1 a1).1
      have c2 := (List.getElem?_eq_some_iff.1 a2).1
      exact ⟨c1, c2, c1, c2⟩
  · intro p hp gg hgg
    obtain ⟨j, P, l, h1, h2, rfl⟩ := hport p hp
    cases gg with
    | none => exact absurd hgg hF.integrators
    | some gg =>
      refine ⟨gg, rfl, ?_⟩
      intro i hi t1' t2' ht e1 e2 kk hkk
      obtain ⟨I, hI, rfl⟩ := List.mem_map.1 hi
      obtain ⟨f, fc, o, si, sj, bei, bej, x1, x2, h⟩ := info_at D T h1 h2 hI
      obtain ⟨vi, vj, u1, u2, w1, w2, t1, t2, q1, q2, q3, q4, q5, _⟩ := nfits_at hF h
      rw [nsides_eq u1 u2] at ht ⊢
      unfold Sides.face at ht
      dsimp only at ht
      rw [h.inf1, h.inf2, q1, q3] at ht
      cases ht
      have r1 := q5 gg hgg e1 e2 kk hkk
      obtain ⟨_, b4, _⟩ := sized_dofs w1.space h.par1
      obtain ⟨_, b5, _⟩ := sized_dofs w2.space h.par2
      refine le_trans (le_of_eq ?_) r1
      unfold Sides.rows
      dsimp only
      rw [q2, q4]
      split
      · exact b4
      · exact b5

open Classical in
/-- The faces inside submesh `k` and those between submeshes are all faces. -/
theorem nface_split (D : Division pm subs φ g) {k i e : Nat} (hi : At subs k i e) (a : Nat) :
    (∑ f ∈ range pm.faces.length, if InsideAt pm subs k f then faceConv N pm ξ e a f else 0) +
      ∑ f ∈ range pm.faces.length, (if Split pm subs f then faceConv N pm ξ e a f else 0) =
      ∑ f ∈ range pm.faces.length, faceConv N pm ξ e a f := by
  have zero : ∀ f, ¬ Split pm subs f → ¬ InsideAt pm subs k f → faceConv N pm ξ e a f = 0 := by
    intro f h1 h2
    unfold faceConv
    cases hf : pm.faces[f]? with
    | none => rfl
    | some fc =>
      dsimp only
      by_cases hneg : fc.e1 < 0
      · rw [if_pos hneg]
      rw [if_neg hneg]
      have hin : ∃ m, Inside subs m fc := by
        by_contra hc
        exact h1 ⟨fc, hf, by omega, hc⟩
      obtain ⟨m, hm⟩ := hin
      refine sum_eq_zero fun I _ => ?_
      rw [if_neg]
      intro q1
      have own : ∀ I, Owns subs m (elemAt fc I) := by
        intro I; cases I
        · exact hm.2.1
        · exact hm.2.2
      have o1 := own I
      rw [q1] at o1
      have w1 := D.wf.disjoint _ _ _ o1 hi.owns
      subst w1
      exact h2 ⟨fc, hf, hm⟩
  have excl : ∀ f, InsideAt pm subs k f → ¬ Split pm subs f := by
    rintro f ⟨fc, h1, h2⟩ ⟨fc', h3, _, h4⟩
    rw [h1] at h3; cases h3
    exact h4 ⟨k, h2⟩
  rw [← sum_add_distrib]
  refine sum_congr rfl fun f _ => ?_
  by_cases h1 : InsideAt pm subs k f
  · rw [if_pos h1, if_neg (excl f h1), add_zero]
  · rw [if_neg h1, zero_add]
    by_cases h2 : Split pm subs f
    · rw [if_pos h2]
    · rw [if_neg h2, zero f h2 h1]

/-! ## The forms of the subdomains -/

open Classical in
/-- Entry `pos s i a` of the result on submesh `k`. -/
noncomputable def insideAt (lf : Bool) (N : Conv R F) (pm : Parent) (subs : List Sub) (bc : BC F)
    (ξ : Nat → Nat → R) (k e a : Nat) : R :=
  N.vol e (valuesOn N.n ξ e) a + if lf then
    (∑ f ∈ range pm.faces.length, if InsideAt pm subs k f then faceConv N pm ξ e a f else 0) +
      (pm.bdr.map (bdrConv N pm bc ξ e a)).sum else 0

theorem elems_spec (D : Division pm subs φ g) (hk : subs[k]? = some sm)
    (hv : NViewFits N pm subs φ ints k sm v)
    (hX : ∀ (i e b : Nat), sm.elemMap[i]? = some e → b < N.n e → X (pos v.space i b) = ξ e b) :
    ∃ y, nlElems v (tab v.space.vsize X) (List.replicate v.space.vsize 0) = .ok y ∧
      y.length = v.space.vsize ∧ ∀ (i e a : Nat), sm.elemMap[i]? = some e → a < N.n e →
        ve y (pos v.space i a) = N.vol e (valuesOn N.n ξ e) a := by
  have hL := lview_fits D hk hv hX
  obtain ⟨y, e, l, h⟩ := loadElems_spec hL (y := List.replicate v.space.vsize 0) (by simp [lview])
  refine ⟨y, by rw [nlElems_eq hv.space.inside, e], l, ?_⟩
  intro i ee a hi ha
  rw [h, Pi.add_apply, ve_replicate, zero_add]
  exact elems_at hL hi ha

theorem form_lf {bc : BC F} {mx : Int} {mks : List (List Int)} {l' : List BE} {u : List Int}
    (D : Division pm subs φ g) (hbc : Conditions pm bc) (hf : HasFunctions bc) (hk : subs[k]? = some sm)
    (hv : NViewFits N pm subs φ ints k sm v)
    (hX : ∀ (i e b : Nat), sm.elemMap[i]? = some e → b < N.n e → X (pos v.space i b) = ξ e b)
    (hm : Boundary.markers bc.attrs mx = .ok mks) (hx : maxOr u ≤ mx)
    (he : Topology.Spec.AttributeList (l'.map fun b => b.attr) u)
    (hp : ∀ a ∈ l'.map (fun b => b.attr), 0 < a) (hlen : l'.length = sm.bes.length)
    (hfin : ∀ (b : Nat) be, sm.bes[b]? = some be → ∃ be', l'[b]? = some be' ∧
        ((∃ q ∈ pm.bdr, q.1 = φ k be.face ∧ be'.attr = q.2) ∨
          (Free pm (φ k be.face) ∧ g < be'.attr))) :
    ∃ act ms y, nlBC bc u = .ok act ∧ pickMarkers (act.map fun c => (c.1, ())) mks = .ok ms ∧
      nlForm v ints (l'.map fun b => b.attr, u) (act, ms) (tab v.space.vsize X) = .ok y ∧
      y.length = v.space.vsize ∧ ∀ (i e a : Nat), sm.elemMap[i]? = some e → a < N.n e →
        ve y (pos v.space i a) = insideAt true N pm subs bc ξ k e a := by
  classical
  have hL := lview_fits D hk hv hX
  have hel : ∀ (b : Nat) be, sm.bes[b]? = some be → ∃ x, sm.elemMap[be.elem]? = some x := by
    intro b be hbe
    obtain ⟨_, x, _, _, hx, _⟩ := D.wf.onFace k b _ be hk hbe
    exact ⟨x, hx⟩
  obtain ⟨y0, e0, l0, h0⟩ := elems_spec D hk hv hX
  obtain ⟨y1, e1, l1, h1⟩ := nlInterior_spec (X := X) D hk hv l0
  obtain ⟨act, ms, y, c1, c2, c3, c4, c5⟩ := load_bdr_spec (bc := bcN bc) hL hel (bcN_wf bc) hm
    (e := (l'.map fun b => b.attr, u)) hx hbc.nodup he hp (by rw [List.length_map, hlen]) l1
  refine ⟨act, ms, y, ?_, c2, ?_, c4, ?_⟩
  · rw [nlBC_eq hbc.wf hf]; exact c1
  · unfold nlForm
    rw [length_tab]
    simp only [BEq.rfl, require_true, ok_bind]
    rw [e0, ok_bind, e1, ok_bind, nlBdr_eq]
    · exact c3
    · intro b hb d hd
      obtain ⟨j, hj⟩ := List.mem_iff_getElem?.1 hb
      have hlt : j < sm.bes.length := by
        rw [← hv.belCount]; exact (List.getElem?_eq_some_iff.1 hj).1
      have hbe := List.getElem?_eq_getElem hlt
      obtain ⟨x, hx⟩ := hel j _ hbe
      rw [(hv.bel j _ b hbe hj).1] at hd
      exact (sized_dofs hv.space hx).2.2 d hd
  · intro i e a hi ha
    have c6 := c5 i e a hi ha
    rw [show (lview v X).space = v.space from rfl] at c6
    have hb := bdr_load_sum D (bcN_conditions hbc) hk hL hlen hfin hi ha
    rw [show (lview v X).space = v.space from rfl] at hb
    rw [c6, hb, h1, Pi.add_apply, Finset.sum_apply, h0 i e a hi ha, nlInner_sum D hk hv hX hi ha]
    rw [show (bdrLoad (loadsOf N pm ξ) pm (bcN bc) e a) = bdrConv N pm bc ξ e a from
      funext fun q => bdrLoad_eq hbc.wf e a q]
    unfold insideAt
    rw [if_pos rfl, add_assoc]

theorem form_plain (D : Division pm subs φ g) (hk : subs[k]? = some sm)
    (hv : NViewFits N pm subs φ ints k sm v)
    (hX : ∀ (i e b : Nat), sm.elemMap[i]? = some e → b < N.n e → X (pos v.space i b) = ξ e b)
    (bc : BC F) (e : List Int × List Int) :
    ∃ y, nlForm v [] e ([], []) (tab v.space.vsize X) = .ok y ∧
      y.length = v.space.vsize ∧ ∀ (i e a : Nat), sm.elemMap[i]? = some e → a < N.n e →
        ve y (pos v.space i a) = insideAt false N pm subs bc ξ k e a := by
  obtain ⟨y0, e0, l0, h0⟩ := elems_spec D hk hv hX
  refine ⟨y0, ?_, l0, ?_⟩
  · unfold nlForm
    rw [length_tab]
    simp only [BEq.rfl, require_true, ok_bind]
    rw [e0, ok_bind]
    rfl
  · intro i e a hi ha
    rw [h0 i e a hi ha]
    unfold insideAt
    simp

/-! ## All subdomains -/

theorem hopMult_spec {z : List Nat} {mesh : List (List Int × List Int)}
    {ts : List (List (Nat × Option F) × List (List Int))} {x y : BlockVector R}
    {ii : List (ITr δ → List R → List R)} (P : Nat → List R → Prop)
    (hz : z = views.map fun v => v.space.vsize) (hx : HasSizes x z) (hy : HasSizes y z)
    (h : ∀ (k : Nat) v, views[k]? = some v → ∃ e t yk, mesh[k]? = some e ∧ ts[k]? = some t ∧
      nlForm v ii e t (tab v.space.vsize (bent x k)) = .ok yk ∧ yk.length = v.space.vsize ∧ P k yk) :
    ∃ y', hopMult views ii mesh ts x y = .ok y' ∧ HasSizes y' z ∧
      ∀ (k : Nat) v, views[k]? = some v → ∃ yk, P k yk ∧ ∀ r < v.space.vsize, bent y' k r = ve yk r := by
  have zk : ∀ (k : Nat) v, views[k]? = some v → z[k]? = some v.space.vsize := by
    intro k v hv
    rw [hz, List.getElem?_map, hv]; rfl
  unfold hopMult
  obtain ⟨y', e, h1, h2⟩ := loop_total (n := views.length) (s := y)
    (body := fun k y => do
      let v ← rd views k
      let e ← rd mesh k
      let t ← rd ts k
      let xk ← readBlock x k
      let yk ← nlForm v ii e t xk
      writeBlock y k yk)
    (fun j y => HasSizes y z ∧ ∀ (k : Nat) v, k < j → views[k]? = some v →
      ∃ yk, P k yk ∧ ∀ r < v.space.vsize, bent y k r = ve yk r)
    ⟨hy, fun k v hk => by omega⟩ (by
      rintro j w hj ⟨w1, w2⟩
      have hv := List.getElem?_eq_getElem hj
      obtain ⟨e, t, yk, m1, m2, m3, m4, m5⟩ := h j _ hv
      obtain ⟨w', d1, d2, d3, d4⟩ := writeBlock_spec (l := yk) w1 (by rw [m4]; exact zk j _ hv)
      refine ⟨w', ?_, d2, ?_⟩
      · rw [rd_eq_ok.2 hv, ok_bind, rd_eq_ok.2 m1, ok_bind, rd_eq_ok.2 m2, ok_bind,
          readBlock_eq hx (zk j _ hv), ok_bind, m3, ok_bind, d1]
      · intro k v hk hvk
        by_cases hkj : k = j
        · subst hkj
          rw [hv] at hvk; cases hvk
          exact ⟨yk, m5, fun r hr => d3 r (by rw [m4]; exact hr)⟩
        · obtain ⟨yk', p1, p2⟩ := w2 k v (by omega) hvk
          exact ⟨yk', p1, fun r hr => by rw [d4 k _ r hkj (zk k v hvk) hr]; exact p2 r hr⟩)
  exact ⟨y', e, h1, fun k v hv => h2 k v (List.getElem?_eq_some_iff.1 hv).1 hv⟩

end Verif.Divide
