import Verif.Proofs.Divide

/-!
# Every division has integrals: a realisation of `Fits`

For every division of a mesh and every choice of integrals over the undivided mesh there are spaces,
transformations and integrators as MFEM delivers them.  A decidable condition implies `Division`.
-/

namespace Verif.Divide

open Verif Verif.LinAlg Verif.LinAlg.Spec Verif.SubMesh Verif.SubMesh.Spec Finset Spec
open Verif.InterfaceForm (Space FMesh Integ Tr)
open Verif.InterfaceForm.Spec (dofsOf dofAt dofPos trOf)
open Verif.RomAssembly (BFace)

variable {R : Type} [CommRing R]

/-- A matrix by its entries. -/
def mk (h w : Nat) (E : Nat → Nat → R) : Mat R := ⟨h, w, tab (h * w) fun n => E (n % h) (n / h)⟩

theorem mk_ok (h w : Nat) (E : Nat → Nat → R) : MatOk (mk h w E) := by
  unfold MatOk mk; simp

theorem mk_is (h w : Nat) (E : Nat → Nat → R) : MatIs (mk h w E) h w E := by
  refine ⟨rfl, rfl, mk_ok h w E, ?_⟩
  intro a b ha hb
  unfold ent mk ve
  have hlt : a + b * h < h * w := by
    have : (b + 1) * h ≤ w * h := Nat.mul_le_mul_right h hb
    rw [Nat.mul_comm h w]
    rw [Nat.add_mul] at this; omega
  have h1 : (a + b * h) % h = a := by rw [Nat.add_mul_mod_self_right, Nat.mod_eq_of_lt ha]
  have h2 : (a + b * h) / h = b := by
    rw [Nat.add_mul_div_right _ _ (by omega), Nat.div_eq_of_lt ha, Nat.zero_add]
  dsimp only
  rw [getElem?_tab, if_pos hlt, Option.getD_some, h1, h2]

/-- First position of element `i`. -/
def offset (em : List Nat) (n : Nat → Nat) (i : Nat) : Nat := ((em.take i).map n).sum

theorem offset_succ (em : List Nat) (n : Nat → Nat) {i e : Nat} (h : em[i]? = some e) :
    offset em n (i + 1) = offset em n i + n e := by
  unfold offset
  rw [List.take_add_one, h]; simp

theorem offset_mono (em : List Nat) (n : Nat → Nat) {i j : Nat} (h : i ≤ j) :
    offset em n i ≤ offset em n j := by
  induction h with
  | refl => exact Nat.le_refl _
  | step h ih =>
    rename_i m
    refine ih.trans ?_
    unfold offset
    rw [List.take_add_one]; simp

/-- A space with the elements one after another. -/
def space (em : List Nat) (n : Nat → Nat) : Space :=
  ⟨(em.map n).sum, tab em.length fun i => tab (n (em[i]?.getD 0)) fun a => ((offset em n i + a : Nat) : Int)⟩

theorem space_dofs (em : List Nat) (n : Nat → Nat) {i e : Nat} (h : em[i]? = some e) :
    dofsOf (space em n) i = tab (n e) fun a => ((offset em n i + a : Nat) : Int) := by
  unfold dofsOf space
  dsimp only
  rw [getElem?_tab, if_pos (List.getElem?_eq_some_iff.1 h).1, h]; rfl

theorem space_none (em : List Nat) (n : Nat → Nat) {i : Nat} (h : em[i]? = none) :
    dofsOf (space em n) i = [] := by
  unfold dofsOf space
  dsimp only
  rw [getElem?_tab, if_neg (by have := List.getElem?_eq_none_iff.1 h; omega)]; rfl

theorem space_fits (em : List Nat) (n : Nat → Nat) : SpaceFits em n (space em n) := by
  refine ⟨?_, ?_, ?_, ?_, ?_⟩
  · unfold space; simp
  · intro i e h; rw [space_dofs em n h]; simp
  · intro l hl d hd
    obtain ⟨i, hi⟩ := List.mem_iff_getElem?.1 hl
    have hlt : i < em.length := by
      have := (List.getElem?_eq_some_iff.1 hi).1; unfold space at this; simpa using this
    have hq := List.getElem?_eq_getElem hlt
    have h1 : dofsOf (space em n) i = l := by unfold dofsOf; rw [hi]; rfl
    rw [space_dofs em n hq] at h1
    subst h1
    unfold tab at hd
    obtain ⟨a, ha, rfl⟩ := List.mem_map.1 hd
    have ha := List.mem_range.1 ha
    have h2 := offset_succ em n hq
    have h3 := offset_mono em n (show i + 1 ≤ em.length from hlt)
    have h4 : offset em n em.length = (space em n).vsize := by unfold offset space; simp
    have : dofPos ((offset em n i + a : Nat) : Int) = offset em n i + a := by
      unfold dofPos; rw [if_neg (by omega)]; omega
    rw [this]; omega
  · intro l hl d hd
    obtain ⟨i, hi⟩ := List.mem_iff_getElem?.1 hl
    unfold space at hi
    dsimp only at hi
    rw [getElem?_tab] at hi
    split at hi
    · cases hi
      unfold tab at hd
      obtain ⟨a, _, rfl⟩ := List.mem_map.1 hd
      omega
    · cases hi
  · have key : ∀ i a, a < (dofsOf (space em n) i).length → ∃ e, em[i]? = some e ∧ a < n e ∧
        dofAt (dofsOf (space em n) i) a = ((offset em n i + a : Nat) : Int) := by
      intro i a ha
      cases h : em[i]? with
      | none => rw [space_none em n h] at ha; simp at ha
      | some e =>
        rw [space_dofs em n h] at ha ⊢
        rw [length_tab] at ha
        refine ⟨e, rfl, ha, ?_⟩
        unfold dofAt
        rw [getElem?_tab, if_pos ha]; rfl
    intro i i' a a' ha ha' heq
    obtain ⟨e, h1, h2, h3⟩ := key i a ha
    obtain ⟨e', h1', h2', h3'⟩ := key i' a' ha'
    rw [h3, h3'] at heq
    have heq : offset em n i + a = offset em n i' + a' := by exact_mod_cast heq
    have s1 := offset_succ em n h1
    have s2 := offset_succ em n h1'
    rcases Nat.lt_trichotomy i i' with h | h | h
    · have := offset_mono em n (show i + 1 ≤ i' from h); omega
    · subst h; exact ⟨rfl, by omega⟩
    · have := offset_mono em n (show i' + 1 ≤ i from h); omega

/-- What the transformations carry here: the face of the parent mesh, which side of it comes first, and
the parent elements. -/
structure Geo where
  face : Nat
  flip : Bool
  x1 : Nat
  x2 : Nat
deriving DecidableEq

/-- The integrator on faces inside a submesh. -/
def innerInt (W : Whole R) (t : ITr Geo) : Mat R :=
  mk (W.nt t.data.x1 + W.nt t.data.x2) (W.ns t.data.x1 + W.ns t.data.x2) fun a b =>
    W.face t.data.face (t.data.flip ^^ decide (W.nt t.data.x1 ≤ a))
      (t.data.flip ^^ decide (W.ns t.data.x1 ≤ b))
      (if W.nt t.data.x1 ≤ a then a - W.nt t.data.x1 else a)
      (if W.ns t.data.x1 ≤ b then b - W.ns t.data.x1 else b)

/-- The integrator on interfaces. -/
def itfInt (W : Whole R) : Integ R Geo where
  mat t1 t2 k l := mk (W.nt (if k = 0 then t1.data.x1 else t2.data.x1))
    (W.ns (if l = 0 then t1.data.x1 else t2.data.x1)) fun a b =>
      W.face t1.data.face (t1.data.flip ^^ decide (k = 1)) (t1.data.flip ^^ decide (l = 1)) a b
  vec _ _ _ _ _ := []
  grad _ _ _ _ _ _ := ⟨0, 0, []⟩

/-- Submesh `k`; `flips` says on which faces the two elements are met in the opposite order. -/
def view (W : Whole R) (pm : Parent) (φ : Nat → Nat) (flips : Nat → Bool) (sm : Sub) : View R Geo where
  test := space sm.elemMap W.nt
  trial := space sm.elemMap W.ns
  vols := sm.elemMap.map fun e => mk (W.nt e) (W.ns e) (W.vol e)
  faces := tab sm.numFaces fun s =>
    match pm.faces[φ s]? with
    | none => none
    | some fc =>
      if 0 ≤ fc.e0 ∧ 0 ≤ fc.e1 ∧ fc.e0.toNat ∈ sm.elemMap ∧ fc.e1.toNat ∈ sm.elemMap then
        some ⟨sm.elemMap.idxOf (elemAt fc (flips s)).toNat, sm.elemMap.idxOf (elemAt fc (!flips s)).toNat,
          φ s, flips s, (elemAt fc (flips s)).toNat, (elemAt fc (!flips s)).toNat⟩
      else none
  bel := sm.bes.map fun be => some ⟨dofsOf (space sm.elemMap W.nt) be.elem,
    dofsOf (space sm.elemMap W.ns) be.elem,
    mk (W.nt (sm.elemMap[be.elem]?.getD 0)) (W.ns (sm.elemMap[be.elem]?.getD 0)) (W.bdr (φ be.face))⟩
  fmesh := {
    face := fun b => (sm.bes[b]?).bind fun be => (pm.faces[φ be.face]?).map fun fc =>
      ⟨be.elem, φ be.face, decide (fc.e0 ≠ ((sm.elemMap[be.elem]?.getD 0 : Nat) : Int)),
        sm.elemMap[be.elem]?.getD 0, 0⟩
    inf := fun _ => 0
    fix := fun t _ => t }

/-- All submeshes. -/
def realize (W : Whole R) (pm : Parent) (subs : List Sub) (φ : Nat → Nat → Nat)
    (flips : Nat → Nat → Bool) : List (View R Geo) :=
  subs.mapIdx fun k sm => view W pm (φ k) (flips k) sm

theorem owns_iff {subs : List Sub} {k : Nat} {sm : Sub} (h : subs[k]? = some sm) (x : Int) :
    Owns subs k x ↔ 0 ≤ x ∧ x.toNat ∈ sm.elemMap := by
  constructor
  · rintro ⟨s, h1, y, hy, rfl⟩
    rw [h] at h1; cases h1
    exact ⟨by omega, by simpa using hy⟩
  · rintro ⟨h1, h2⟩
    exact ⟨sm, h, _, h2, by omega⟩

/-- Every division and every choice of integrals over the parent mesh are met by what MFEM could
deliver, with the elements of a face met in any order. -/
theorem realize_fits (W : Whole R) {pm : Parent} {subs : List Sub} {φ : Nat → Nat → Nat} {g : Int}
    (flips : Nat → Nat → Bool) (D : Division pm subs φ g) :
    Fits W pm subs φ (realize W pm subs φ flips) [innerInt W] [some (itfInt W)] := by
  have at_ : ∀ (k : Nat) sm v, subs[k]? = some sm → (realize W pm subs φ flips)[k]? = some v →
      v = view W pm (φ k) (flips k) sm := by
    intro k sm v h1 h2
    unfold realize at h2
    rw [List.getElem?_mapIdx, h1] at h2
    exact (Option.some.inj h2).symm
  refine ⟨by unfold realize; simp, ?_, by simp, ?_⟩
  · intro k sm v hk hv
    rw [at_ k sm v hk hv]
    have hface : ∀ s fc, s < sm.numFaces → pm.faces[φ k s]? = some fc →
        (view W pm (φ k) (flips k) sm).faces[s]? = some (if 0 ≤ fc.e0 ∧ 0 ≤ fc.e1 ∧
          fc.e0.toNat ∈ sm.elemMap ∧ fc.e1.toNat ∈ sm.elemMap then
          some ⟨sm.elemMap.idxOf (elemAt fc (flips k s)).toNat,
            sm.elemMap.idxOf (elemAt fc (!flips k s)).toNat,
            φ k s, flips k s, (elemAt fc (flips k s)).toNat, (elemAt fc (!flips k s)).toNat⟩
          else none) := by
      intro s fc hs hf
      unfold view
      dsimp only
      rw [getElem?_tab, if_pos hs, hf]
    have hins : ∀ fc : Face, Inside subs k fc ↔ 0 ≤ fc.e0 ∧ 0 ≤ fc.e1 ∧
          fc.e0.toNat ∈ sm.elemMap ∧ fc.e1.toNat ∈ sm.elemMap := by
      intro fc
      unfold Inside
      rw [owns_iff hk, owns_iff hk]
      constructor
      · rintro ⟨_, ⟨a, b⟩, c, d⟩; exact ⟨a, c, b, d⟩
      · rintro ⟨a, c, b, d⟩; exact ⟨c, ⟨a, b⟩, c, d⟩
    have hbe : ∀ (b : Nat) be, sm.bes[b]? = some be → ∃ x, sm.elemMap[be.elem]? = some x := by
      intro b be hb
      obtain ⟨_, x, _, _, h, _⟩ := D.wf.onFace _ _ _ _ hk hb
      exact ⟨x, h⟩
    refine ⟨space_fits _ _, space_fits _ _, by unfold view; simp, ?_, by unfold view; simp, ?_, ?_,
      by unfold view; simp, ?_, ?_⟩
    · intro i e m hi hm
      unfold view at hm
      dsimp only at hm
      rw [List.getElem?_map, hi] at hm
      cases hm
      exact mk_is _ _ _
    · intro s fc hs hf hin
      rw [hface s fc hs hf, if_neg fun h => hin ((hins fc).2 h)]
    · intro s fc hs hf hin
      have hm := (hins fc).1 hin
      refine ⟨_, flips k s, (elemAt fc (flips k s)).toNat, (elemAt fc (!flips k s)).toNat,
        (hface s fc hs hf).trans (by rw [if_pos hm]), ?_, ?_, ?_, ?_, ?_, ?_⟩
      · refine List.getElem?_idxOf ?_
        cases flips k s
        · exact hm.2.2.1
        · exact hm.2.2.2
      · refine List.getElem?_idxOf ?_
        cases flips k s
        · exact hm.2.2.2
        · exact hm.2.2.1
      · cases flips k s
        · exact Int.toNat_of_nonneg hm.1
        · exact Int.toNat_of_nonneg hm.2.1
      · cases flips k s
        · exact Int.toNat_of_nonneg hm.2.1
        · exact Int.toNat_of_nonneg hm.1
      · intro g hg
        rw [List.mem_singleton] at hg
        subst hg
        exact ⟨rfl, rfl, mk_ok _ _ _⟩
      · intro I J a b ha hb
        rw [List.map_singleton, List.sum_singleton]
        have hI : (if I then W.nt (elemAt fc (flips k s)).toNat + a else a) <
            W.nt (elemAt fc (flips k s)).toNat + W.nt (elemAt fc (!flips k s)).toNat := by
          cases I <;> simp at ha ⊢ <;> omega
        have hJ : (if J then W.ns (elemAt fc (flips k s)).toNat + b else b) <
            W.ns (elemAt fc (flips k s)).toNat + W.ns (elemAt fc (!flips k s)).toNat := by
          cases J <;> simp at hb ⊢ <;> omega
        refine ((mk_is _ _ _).2.2.2 _ _ hI hJ).trans ?_
        dsimp only
        cases I <;> cases J <;> simp only [Bool.false_eq_true, if_false, if_true] at ha hb ⊢
        · rw [if_neg (by omega), if_neg (by omega), decide_eq_false (by omega), decide_eq_false (by omega)]
        · rw [if_neg (by omega), if_pos (by omega), decide_eq_false (by omega), decide_eq_true (by omega),
            Nat.add_sub_cancel_left]
        · rw [if_pos (by omega), if_neg (by omega), decide_eq_true (by omega), decide_eq_false (by omega),
            Nat.add_sub_cancel_left]
        · rw [if_pos (by omega), if_pos (by omega), decide_eq_true (by omega), decide_eq_true (by omega),
            Nat.add_sub_cancel_left, Nat.add_sub_cancel_left]
    · intro b be x hb hx
      unfold view at hx
      dsimp only at hx
      rw [List.getElem?_map, hb] at hx
      cases hx
      obtain ⟨y, hy⟩ := hbe b be hb
      refine ⟨rfl, rfl, mk_ok _ _ _, ?_, ?_⟩
      · show W.nt _ = _
        rw [(space_fits sm.elemMap W.nt).size _ _ hy, hy]; rfl
      · show W.ns _ = _
        rw [(space_fits sm.elemMap W.ns).size _ _ hy, hy]; rfl
    · intro b be x q hb hq hqf hx
      refine ⟨⟨dofsOf (space sm.elemMap W.nt) be.elem, dofsOf (space sm.elemMap W.ns) be.elem,
        mk (W.nt x) (W.ns x) (W.bdr q.1)⟩, ?_, mk_is _ _ _⟩
      unfold view
      dsimp only
      rw [List.getElem?_map, hb, hqf]
      dsimp only [Option.map]
      rw [hx, Option.getD_some]
  · intro i j si sj vi vj b b' bei bej f fc o x1 x2 hi hj hvi hvj hij hb hb' hf hf' hfc h1 h2 e1 e2
    rw [at_ i si vi hi hvi, at_ j sj vj hj hvj]
    have hdiff : elemAt fc o ≠ elemAt fc (!o) := by
      intro h
      have o1 : Owns subs i (elemAt fc o) := ⟨si, hi, x1, List.mem_of_getElem? h1, e1⟩
      have o2 : Owns subs j (elemAt fc (!o)) := ⟨sj, hj, x2, List.mem_of_getElem? h2, e2⟩
      rw [← h] at o2
      exact hij (D.wf.disjoint _ _ _ o1 o2)
    have ho : decide (fc.e0 ≠ (x1 : Int)) = o := by
      cases o
      · exact decide_eq_false (by intro h; exact h e1.symm)
      · exact decide_eq_true (by rw [e1]; exact fun h => hdiff h.symm)
    have tr : ∀ (φ' : Nat → Nat) fl (sm : Sub) (b : Nat) be x inf, sm.bes[b]? = some be →
        sm.elemMap[be.elem]? = some x → pm.faces[φ' be.face]? = some fc →
        trOf (view W pm φ' fl sm).fmesh b inf =
          some ⟨be.elem, φ' be.face, decide (fc.e0 ≠ (x : Int)), x, 0⟩ := by
      intro φ' fl sm b be x inf hb hx hf
      unfold trOf view
      dsimp only
      rw [hb]
      dsimp only [Option.bind]
      rw [hf, hx]
      dsimp only [Option.map, Option.getD]
      simp only [ite_self]
    have t1 := tr (φ i) (flips i) si b bei x1 (infAt fc o) hb h1 (by rw [hf]; exact hfc)
    have t2 := tr (φ j) (flips j) sj b' bej x2 (infAt fc (!o)) hb' h2 (by rw [hf']; exact hfc)
    refine ⟨_, _, t1, rfl, t2, rfl, ?_, ?_⟩
    · intro g hg k l hk hl
      rw [List.mem_singleton] at hg
      cases hg
      exact ⟨rfl, rfl, mk_ok _ _ _⟩
    · intro k l a c hk hl ha hc
      rw [List.map_singleton, List.sum_singleton]
      refine ((mk_is _ _ _).2.2.2 a c ha hc).trans ?_
      dsimp only
      rw [ho, hf]

/-! ## A decidable condition -/

instance (subs : List Sub) (k : Nat) (e : Int) : Decidable (Owns subs k e) :=
  decidable_of_iff (∃ x ∈ parents subs k, (x : Int) = e) (by
    unfold parents Owns
    cases subs[k]? <;> simp)

instance (subs : List Sub) (k : Nat) (fc : Face) : Decidable (Inside subs k fc) := by
  unfold Inside; infer_instance

/-- The part of the condition that concerns one submesh. -/
def CheckSub (pm : Parent) (subs : List Sub) (k : Nat) (sm : Sub) (φ : Nat → Nat) : Prop :=
  (∀ (i : Nat) (_ : i < sm.elemEdges.length), i < sm.elemMap.length ∧
    sm.elemMap[i]?.getD 0 < pm.elemEdges.length ∧
    ∀ (j : Nat) (_ : j < sm.elemEdges[i].length), sm.elemEdges[i][j] < sm.numFaces ∧
      (pm.elemEdges[sm.elemMap[i]?.getD 0]?.getD [])[j]? = some (φ sm.elemEdges[i][j])) ∧
  (∀ s < sm.numFaces, ∃ sel ∈ sm.elemEdges, s ∈ sel) ∧
  (∀ (b : Nat) (_ : b < sm.bes.length), sm.bes[b].face < sm.numFaces ∧
    ∃ (_ : φ sm.bes[b].face < pm.faces.length) (_ : sm.bes[b].elem < sm.elemMap.length),
      (((sm.elemMap[sm.bes[b].elem] : Int) = pm.faces[φ sm.bes[b].face].e0 ∧
        ¬ Owns subs k pm.faces[φ sm.bes[b].face].e1) ∨
      ((sm.elemMap[sm.bes[b].elem] : Int) = pm.faces[φ sm.bes[b].face].e1 ∧
        ¬ Owns subs k pm.faces[φ sm.bes[b].face].e0))) ∧
  (∀ (b : Nat) (_ : b < sm.bes.length) (b' : Nat) (_ : b' < sm.bes.length),
    φ sm.bes[b].face = φ sm.bes[b'].face → b = b') ∧
  sm.elemMap.Nodup ∧
  (∀ s < sm.numFaces, ∀ s' < sm.numFaces, φ s = φ s' → s = s') ∧
  (∀ s < sm.numFaces, φ s < pm.faces.length) ∧
  (∀ (f : Nat) (_ : f < pm.faces.length), Inside subs k pm.faces[f] → ∃ s < sm.numFaces, φ s = f) ∧
  (∀ q ∈ pm.bdr, ∀ (_ : q.1 < pm.faces.length), Owns subs k pm.faces[q.1].e0 →
    ∃ be ∈ sm.bes, φ be.face = q.1) ∧
  sm.bes ≠ []

instance (pm : Parent) (subs : List Sub) (k : Nat) (sm : Sub) (φ : Nat → Nat) :
    Decidable (CheckSub pm subs k sm φ) := by
  unfold CheckSub
  infer_instance

/-- Faces between submeshes are on the boundary of both. -/
def CheckItf (pm : Parent) (subs : List Sub) (φ : Nat → Nat → Nat) : Prop :=
  ∀ (f : Nat) (_ : f < pm.faces.length) (i : Nat) (_ : i < subs.length), ∀ j < subs.length, i ≠ j →
    ((Owns subs i pm.faces[f].e0 ∧ Owns subs j pm.faces[f].e1) ∨
      (Owns subs i pm.faces[f].e1 ∧ Owns subs j pm.faces[f].e0)) →
    ∃ be ∈ subs[i].bes, φ i be.face = f

instance (pm : Parent) (subs : List Sub) (φ : Nat → Nat → Nat) : Decidable (CheckItf pm subs φ) := by
  unfold CheckItf
  infer_instance

/-- Every element of a face belongs to a submesh. -/
def CheckOwned (pm : Parent) (subs : List Sub) : Prop :=
  ∀ (f : Nat) (_ : f < pm.faces.length), (∃ k < subs.length, Owns subs k pm.faces[f].e0) ∧
    (0 ≤ pm.faces[f].e1 → ∃ k < subs.length, Owns subs k pm.faces[f].e1)

instance (pm : Parent) (subs : List Sub) : Decidable (CheckOwned pm subs) := by
  unfold CheckOwned
  infer_instance

/-- A decidable condition for a division. -/
def Check (pm : Parent) (subs : List Sub) (φ : Nat → Nat → Nat) (g : Int) : Prop :=
  0 ≤ g ∧
  (∀ (k : Nat) (_ : k < subs.length), CheckSub pm subs k subs[k] (φ k)) ∧
  (∀ q ∈ pm.bdr, q.1 < pm.faces.length ∧ q.2 ≤ g) ∧
  (∀ k < subs.length, ∀ k' < subs.length, ∀ e ∈ parents subs k, e ∈ parents subs k' → k = k') ∧
  CheckItf pm subs φ ∧ CheckOwned pm subs ∧
  (∀ q ∈ pm.bdr, 0 < q.2) ∧
  (∀ q ∈ pm.bdr, ∀ (_ : q.1 < pm.faces.length), pm.faces[q.1].e1 < 0) ∧
  (pm.bdr.map Prod.fst).Nodup

instance (pm : Parent) (subs : List Sub) (φ : Nat → Nat → Nat) (g : Int) :
    Decidable (Check pm subs φ g) := by
  unfold Check
  infer_instance

theorem division_of_check {pm : Parent} {subs : List Sub} {φ : Nat → Nat → Nat} {g : Int}
    (c1 : arrMax pm.bdrAttributes = .ok g) (h : Check pm subs φ g) : Division pm subs φ g := by
  obtain ⟨c2, c3, c4, c5, c6, c7, c8, c9, c10⟩ := h
  have sub : ∀ (k : Nat) sm, subs[k]? = some sm → CheckSub pm subs k sm (φ k) := by
    intro k sm hk
    obtain ⟨hlt, rfl⟩ := List.getElem?_eq_some_iff.1 hk
    exact c3 k hlt
  have ownlt : ∀ k e, Owns subs k e → k < subs.length := by
    rintro k e ⟨s, hs, _⟩
    exact (List.getElem?_eq_some_iff.1 hs).1
  refine ⟨c1, c2, ⟨?_, c4, ?_, ?_, ?_, ?_⟩, ?_, ?_, ?_, ?_, ?_, c8, ?_, c10, ?_, ?_⟩
  · intro k sm hk
    obtain ⟨d1, d2, _⟩ := sub k sm hk
    refine ⟨?_, d2⟩
    intro i sel hi
    obtain ⟨hlt, rfl⟩ := List.getElem?_eq_some_iff.1 hi
    obtain ⟨g1, g2, g3⟩ := d1 i hlt
    rw [List.getElem?_eq_getElem g1, Option.getD_some] at g2 g3
    refine ⟨sm.elemMap[i], pm.elemEdges[sm.elemMap[i]], List.getElem?_eq_getElem g1,
      List.getElem?_eq_getElem g2, ?_⟩
    intro j s hj
    obtain ⟨hjl, rfl⟩ := List.getElem?_eq_some_iff.1 hj
    have := g3 j hjl
    rw [List.getElem?_eq_getElem g2, Option.getD_some] at this
    exact this
  · intro e k k' h1 h2
    have l1 := ownlt _ _ h1
    have l2 := ownlt _ _ h2
    obtain ⟨s, hs, x, hx, rfl⟩ := h1
    obtain ⟨s', hs', x', hx', he⟩ := h2
    have : x' = x := by exact_mod_cast he
    subst this
    refine c5 k l1 k' l2 x' ?_ ?_
    · unfold parents; rw [hs]; exact hx
    · unfold parents; rw [hs']; exact hx'
  · intro m b sm be hm hb
    obtain ⟨_, _, d3, _⟩ := sub m sm hm
    obtain ⟨hlt, rfl⟩ := List.getElem?_eq_some_iff.1 hb
    obtain ⟨g1, g2, g3, g4⟩ := d3 b hlt
    exact ⟨_, _, g1, List.getElem?_eq_getElem g2, List.getElem?_eq_getElem g3, g4⟩
  · intro m b b' sm be be' hm hb hb' he
    obtain ⟨_, _, _, d4, _⟩ := sub m sm hm
    obtain ⟨hlt, rfl⟩ := List.getElem?_eq_some_iff.1 hb
    obtain ⟨hlt', rfl⟩ := List.getElem?_eq_some_iff.1 hb'
    exact d4 b hlt b' hlt' he
  · rintro f i j ⟨hij, fc, hf, ho⟩
    obtain ⟨hlt, rfl⟩ := List.getElem?_eq_some_iff.1 hf
    have li : i < subs.length := by rcases ho with h | h <;> exact ownlt _ _ h.1
    have lj : j < subs.length := by rcases ho with h | h <;> exact ownlt _ _ h.2
    obtain ⟨be, hbe, h⟩ := c6 f hlt i li j lj hij ho
    exact ⟨_, be, List.getElem?_eq_getElem li, hbe, h⟩
  · intro k sm hk
    exact (sub k sm hk).2.2.2.2.1
  · intro f fc hf
    obtain ⟨hlt, rfl⟩ := List.getElem?_eq_some_iff.1 hf
    obtain ⟨⟨k, _, h1⟩, h2⟩ := c7 f hlt
    refine ⟨⟨k, h1⟩, fun h => ?_⟩
    obtain ⟨k', _, h3⟩ := h2 h
    exact ⟨k', h3⟩
  · intro k sm s s' hk hs hs' he
    exact (sub k sm hk).2.2.2.2.2.1 s hs s' hs' he
  · intro k sm s hk hs
    exact (sub k sm hk).2.2.2.2.2.2.1 s hs
  · intro k sm f fc hk hf hin
    obtain ⟨hlt, rfl⟩ := List.getElem?_eq_some_iff.1 hf
    obtain ⟨s, h1, h2⟩ := (sub k sm hk).2.2.2.2.2.2.2.1 f hlt hin
    exact ⟨s, h1, h2⟩
  · intro q hq fc hf
    obtain ⟨hlt, rfl⟩ := List.getElem?_eq_some_iff.1 hf
    exact c9 q hq hlt
  · intro q hq k sm fc hk hf hown
    obtain ⟨hlt, rfl⟩ := List.getElem?_eq_some_iff.1 hf
    exact (sub k sm hk).2.2.2.2.2.2.2.2.1 q hq hlt hown
  · intro k sm hk
    exact (sub k sm hk).2.2.2.2.2.2.2.2.2

end Verif.Divide
