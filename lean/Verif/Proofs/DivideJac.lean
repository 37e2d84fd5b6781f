import Verif.Proofs.DivideNS
import Verif.Props.DivideRhs
import Verif.Spec.DivideJac

/-!
# Helper lemmas for the Newton matrix on a divided mesh

At given values the gradient is a bilinear form; the values are carried along as data of the faces.
-/

namespace Verif.Divide

open Verif Verif.LinAlg Verif.LinAlg.Spec Verif.SubMesh Verif.SubMesh.Spec Finset Spec
open Verif.InterfaceForm (Space Integ FMesh Form MatArr Tr getSubVector_eq sideTr transformations
  addIntegs)
open Verif.InterfaceForm.Spec (dofsOf dofAt dofPos gather SpaceOk trOf sizeIn mget)
open Verif.RomAssembly (BFace BForm bdrMarkers maxOr pickMarkers unionMarker assembleBdr addBdrElem
  addMarked domainMatrix domainStep fomArray fomMats)
open Verif.Boundary (BC weakOf lhsBC lhsBC_eq rhsBC rhsBC_eq)
open Verif.Blocks (BlockVector)
open Verif.Blocks.Spec (HasSizes)
open Verif.RomHandler (readBlock readBlock_eq)
open Verif.RomHandler.Spec (bent)

variable {R δ F : Type} [CommRing R]
variable {pm : Parent} {subs : List Sub} {φ : Nat → Nat → Nat} {g : Int}
variable {G : Grad R F} {ints : List (ITr δ → List R → Mat R)} {k : Nat} {sm : Sub} {v : GView R δ F}
variable {X : Nat → R} {ξ : Nat → Nat → R}

/-! ## The reduction -/

/-- A transformation together with the values on its element. -/
def liftTr (s : Space) (X : Nat → R) (t : Tr δ) : Tr (δ × List R) :=
  ⟨t.elem, t.data, gather X (dofsOf s t.elem)⟩

/-- A transformation without the values. -/
def dropTr (t : Tr (δ × List R)) : Tr δ := ⟨t.elem, t.data.1⟩

/-- The faces of a mesh with the values on the elements. -/
def liftMesh (s : Space) (X : Nat → R) (m : FMesh δ) : FMesh (δ × List R) where
  face b := (m.face b).map (liftTr s X)
  inf := m.inf
  fix t i := liftTr s X (m.fix (dropTr t) i)

/-- The bilinear form at the values `X`; `c` are the prescribed velocities on the boundary elements. -/
def gview (v : GView R δ F) (X : Nat → R) (c : Nat → Option F) : View R (δ × List R) where
  test := v.space
  trial := v.space
  vols := tab v.space.vdofs.length fun i => v.dom i (gather X (dofsOf v.space i))
  faces := v.faces.map (Option.map fun t => ⟨t.elem1, t.elem2, t.data,
    gather X (dofsOf v.space t.elem1 ++ dofsOf v.space t.elem2)⟩)
  bel := v.bel.mapIdx fun b y => y.map fun y => ⟨y.rows, y.rows, y.mat (c b) (gather X y.rows)⟩
  fmesh := liftMesh v.space X v.fmesh

/-- Interior face integrators that read the values from the data of a face. -/
def gints (ints : List (ITr δ → List R → Mat R)) : List (ITr (δ × List R) → Mat R) :=
  ints.map fun g t => g ⟨t.elem1, t.elem2, t.data.1⟩ t.data.2

/-- Interface integrators that read the values from the data of a face. -/
def gfnfi (fnfi : List (Option (Integ R δ))) : List (Option (Integ R (δ × List R))) :=
  fnfi.map (Option.map fun g => ⟨fun t1 t2 => g.grad (dropTr t1) (dropTr t2) t1.data.2 t2.data.2,
    fun _ _ _ _ _ => [], fun _ _ _ _ _ _ => ⟨0, 0, []⟩⟩)

theorem gElems_eq (hsp : SpaceOk v.space) (c : Nat → Option F) (s : Sp R) :
    gElems v (tab v.space.vsize X) s = addElems (gview v X c) s := by
  unfold gElems addElems
  rw [show (gview v X c).vols.length = v.space.vdofs.length from length_tab _ _]
  refine loop_congr ?_
  intro i t hi
  have hv : v.space.vdofs[i]? = some (dofsOf v.space i) := by
    unfold dofsOf; rw [List.getElem?_eq_getElem hi]; rfl
  have hm : (gview v X c).vols[i]? = some (v.dom i (gather X (dofsOf v.space i))) := by
    show (tab _ _)[i]? = _
    rw [getElem?_tab, if_pos hi]
  unfold gElem
  rw [show (gview v X c).test = v.space from rfl, show (gview v X c).trial = v.space from rfl,
    rd_eq_ok.2 hm, ok_bind, rd_eq_ok.2 hv, ok_bind, ok_bind, ok_bind,
    getSubVector_eq (hsp _ (List.mem_of_getElem? hv)), ok_bind]

theorem gInterior_eq (hsp : SpaceOk v.space) (ints : List (ITr δ → List R → Mat R))
    (c : Nat → Option F) (s : Sp R) :
    gInterior v ints (tab v.space.vsize X) s = addInterior (gview v X c) (gints ints) s := by
  unfold gInterior addInterior
  rw [show (gints ints).length = ints.length from List.length_map _]
  by_cases h0 : ints.length = 0
  · rw [if_pos h0, if_pos h0]
  rw [if_neg h0, if_neg h0, show (gview v X c).faces.length = v.faces.length from List.length_map _]
  refine loop_congr ?_
  intro i t hi
  rw [show (gview v X c).faces = v.faces.map (Option.map fun t => ⟨t.elem1, t.elem2, t.data,
    gather X (dofsOf v.space t.elem1 ++ dofsOf v.space t.elem2)⟩) from rfl, rd_map_bind, rd_of_lt hi, ok_bind,
    ok_bind]
  cases v.faces[i] with
  | none => rfl
  | some f =>
    dsimp only [Option.map, gFace, addFace]
    rw [show (gview v X c).test = v.space from rfl, show (gview v X c).trial = v.space from rfl]
    cases h1 : rd v.space.vdofs f.elem1 with
    | error e => rfl
    | ok d1 =>
      cases h2 : rd v.space.vdofs f.elem2 with
      | error e => rfl
      | ok d2 =>
        have e1 : dofsOf v.space f.elem1 = d1 := by unfold dofsOf; rw [rd_eq_ok.1 h1]; rfl
        have e2 : dofsOf v.space f.elem2 = d2 := by unfold dofsOf; rw [rd_eq_ok.1 h2]; rfl
        rw [e1, e2]
        simp only [ok_bind]
        rw [getSubVector_eq (by
          intro d hd
          rcases List.mem_append.1 hd with hd | hd
          · exact hsp _ (List.mem_of_getElem? (rd_eq_ok.1 h1)) d hd
          · exact hsp _ (List.mem_of_getElem? (rd_eq_ok.1 h2)) d hd), ok_bind]
        unfold addInts
        rw [show (gints ints).length = ints.length from List.length_map _]
        refine loop_congr ?_
        intro r t _
        unfold gints
        rw [rd_map_bind]

theorem gBdr_eq (hb : ∀ b, some b ∈ v.bel → ∀ d ∈ b.rows, dofPos d < v.space.vsize)
    {al attrs : List Int} {act : List (Nat × Option F)} {ms : List (List Int)} {c : Nat → Option F}
    (hl : act.length = ms.length)
    (hc : ∀ (i : Nat) a (k : Nat) mk z, attrs[i]? = some a → ms[k]? = some mk → rdI mk (a - 1) = .ok z →
      z ≠ 0 → (act[k]?).map Prod.snd = some (c i)) (s : Sp R) :
    gBdr al attrs act ms v.bel (tab v.space.vsize X) s = assembleBdr al attrs ms (gview v X c).bel s := by
  unfold gBdr assembleBdr
  by_cases h0 : ms.length = 0
  · rw [if_pos h0, if_pos h0]
  rw [if_neg h0, if_neg h0]
  congr 1
  funext u
  refine loop_congr ?_
  intro i t hi
  unfold gBdrElem addBdrElem
  rw [rd_of_lt hi, ok_bind, ok_bind]
  congr 1
  funext z
  have hbel : rd (gview v X c).bel i = (rd v.bel i).map fun y =>
      y.map fun y => ⟨y.rows, y.rows, y.mat (c i) (gather X y.rows)⟩ := by
    unfold rd
    rw [show (gview v X c).bel = v.bel.mapIdx fun b y => y.map fun y =>
      ⟨y.rows, y.rows, y.mat (c b) (gather X y.rows)⟩ from rfl, List.getElem?_mapIdx]
    cases v.bel[i]? <;> rfl
  rw [hbel]
  cases hr : rd v.bel i with
  | error e => rfl
  | ok b =>
    show _ = (Except.ok _ >>= _)
    rw [ok_bind, ok_bind]
    cases z with
    | false => rfl
    | true =>
      cases b with
      | none => rfl
      | some b =>
        show gMarked act ms _ b (tab v.space.vsize X) t = addMarked ms _
          ⟨b.rows, b.rows, b.mat (c i) (gather X b.rows)⟩ t
        unfold gMarked addMarked
        rw [getSubVector_eq (hb b (List.mem_of_getElem? (rd_eq_ok.1 hr))), ok_bind, hl]
        refine loop_congr ?_
        intro k t hk
        rw [rd_of_lt hk, ok_bind, ok_bind]
        cases hz : rdI ms[k] (attrs[i] - 1) with
        | error e => rfl
        | ok z =>
          rw [ok_bind, ok_bind]
          by_cases hz0 : z = 0
          · rw [if_pos hz0, if_pos hz0]
          · rw [if_neg hz0, if_neg hz0]
            have := hc i _ k _ z (List.getElem?_eq_getElem hi) (List.getElem?_eq_getElem hk) hz hz0
            cases ha : act[k]? with
            | none => rw [ha] at this; cases this
            | some x =>
              rw [ha] at this
              rw [rd_eq_ok.2 ha, ok_bind, Option.some.inj this]

/-- The gradient of the form of one subdomain is the assembled bilinear form. -/
theorem gForm_eq (hsp : SpaceOk v.space)
    (hb : ∀ b, some b ∈ v.bel → ∀ d ∈ b.rows, dofPos d < v.space.vsize)
    {e : List Int × List Int} {act : List (Nat × Option F)} {ms : List (List Int)} {c : Nat → Option F}
    (hl : act.length = ms.length)
    (hc : ∀ (i : Nat) a (k : Nat) mk z, e.1[i]? = some a → ms[k]? = some mk → rdI mk (a - 1) = .ok z →
      z ≠ 0 → (act[k]?).map Prod.snd = some (c i)) :
    gForm v ints e (act, ms) (tab v.space.vsize X) =
      (base (gview v X c) (gints ints) >>= assembleBdr e.2 e.1 ms (gview v X c).bel) := by
  unfold gForm base
  rw [length_tab, show (v.space.vsize == v.space.vsize) = true from beq_self_eq_true _, require_true, ok_bind,
    gElems_eq hsp c]
  rw [show (gview v X c).test = v.space from rfl, show (gview v X c).trial = v.space from rfl, bind_assoc]
  congr 1
  funext s
  rw [gInterior_eq hsp ints c]
  congr 1
  funext s
  exact gBdr_eq hb hl hc s

/-! ## The interface form -/

theorem sideTr_lift (s : Space) (X : Nat → R) (m : FMesh δ) (be : Nat) (inf : Int) :
    sideTr (liftMesh s X m) be inf = (sideTr m be inf).map (Option.map (liftTr s X)) := by
  unfold sideTr liftMesh
  dsimp only
  by_cases h : m.inf be = inf
  · rw [if_pos h, if_pos h]; rfl
  · rw [if_neg h, if_neg h]
    cases m.face be <;> rfl

theorem transformations_lift (same : Bool) (s1 s2 : Space) (X1 X2 : Nat → R) (m1 m2 : FMesh δ)
    (i : Ports.InterfaceInfo) :
    transformations same (liftMesh s1 X1 m1) (liftMesh s2 X2 m2) i =
      (transformations same m1 m2 i).map fun t => (t.1.map (liftTr s1 X1), t.2.map (liftTr s2 X2)) := by
  unfold transformations
  rw [sideTr_lift, sideTr_lift]
  cases same with
  | true => rfl
  | false =>
    simp only [Bool.not_false, require_true, ok_bind]
    cases sideTr m1 i.be1 i.inf1 with
    | error e => rfl
    | ok t1 =>
      cases sideTr m2 i.be2 i.inf2 with
      | error e => rfl
      | ok t2 => rfl

theorem faceGrad_eq {s1 s2 : Space} (h1 : SpaceOk s1) (h2 : SpaceOk s2) (X1 X2 : Nat → R) (a b : Nat)
    (fnfi : List (Option (Integ R δ))) (t : Option (Tr δ) × Option (Tr δ)) (mats : MatArr R) :
    InterfaceForm.faceGrad a b s1 s2 fnfi (tab s1.vsize X1) (tab s2.vsize X2) mats t =
      InterfaceForm.faceMatrix a b s1 s2 s1 s2 (gfnfi fnfi) mats
        (t.1.map (liftTr s1 X1), t.2.map (liftTr s2 X2)) := by
  obtain ⟨t1, t2⟩ := t
  cases t1 with
  | none => rfl
  | some t1 =>
    cases t2 with
    | none => rfl
    | some t2 =>
      dsimp only [InterfaceForm.faceGrad, InterfaceForm.faceMatrix, Option.map, liftTr]
      cases e1 : rd s1.vdofs t1.elem with
      | error e => rfl
      | ok d1 =>
        cases e2 : rd s2.vdofs t2.elem with
        | error e => rfl
        | ok d2 =>
          have q1 : dofsOf s1 t1.elem = d1 := by unfold dofsOf; rw [rd_eq_ok.1 e1]; rfl
          have q2 : dofsOf s2 t2.elem = d2 := by unfold dofsOf; rw [rd_eq_ok.1 e2]; rfl
          simp only [ok_bind]
          rw [getSubVector_eq (h1 _ (List.mem_of_getElem? (rd_eq_ok.1 e1))), ok_bind,
            getSubVector_eq (h2 _ (List.mem_of_getElem? (rd_eq_ok.1 e2))), ok_bind]
          unfold addIntegs gfnfi
          rw [List.length_map]
          refine loop_congr ?_
          intro r t _
          rw [rd_map_bind]
          congr 1
          funext f
          cases f with
          | none => rfl
          | some f =>
            dsimp only [Option.map, nonNull, dropTr]
            rw [q1, q2]
            rfl

/-- The bilinear forms at the values of a block vector. -/
def gviews (views : List (GView R δ F)) (x : BlockVector R) (c : Nat → Nat → Option F) :
    List (View R (δ × List R)) :=
  views.mapIdx fun k v => gview v (bent x k) (c k)

theorem gviews_at {views : List (GView R δ F)} {x : BlockVector R} {c : Nat → Nat → Option F} {k : Nat}
    {v : GView R δ F} (h : views[k]? = some v) :
    (gviews views x c)[k]? = some (gview v (bent x k) (c k)) := by
  unfold gviews
  rw [List.getElem?_mapIdx, h]; rfl

theorem gradient_eq {views : List (GView R δ F)} {x : BlockVector R} (c : Nat → Nat → Option F)
    (hx : HasSizes x (views.map fun v => v.space.vsize)) (hsp : ∀ v ∈ views, SpaceOk v.space)
    (fnfi : List (Option (Integ R δ))) (st : IState) (M : MatArr R) :
    (itf (views.map gAsView) fnfi st).gradient x M =
      (itf (gviews views x c) (gfnfi fnfi) st).assemble M := by
  unfold Form.gradient Form.assemble Form.assembleMixed
  have hl : (itf (views.map gAsView) fnfi st).meshes.length =
      (itf (gviews views x c) (gfnfi fnfi) st).meshes.length := by
    simp [itf, gviews]
  rw [hl]
  congr 1; funext _
  congr 1; funext _
  congr 1; funext _
  refine loop_congr ?_
  intro i t hi
  unfold Form.portGrad Form.portMatrix
  rw [show (itf (gviews views x c) (gfnfi fnfi) st).ports = (itf (views.map gAsView) fnfi st).ports from rfl]
  congr 1; funext p
  congr 1; funext _
  have none1 : ∀ m : Nat, views[m]? = none → rd (itf (views.map gAsView) fnfi st).meshes m = .error .ub ∧
      rd (itf (gviews views x c) (gfnfi fnfi) st).meshes m = .error .ub := by
    intro m hm
    unfold rd itf gviews
    dsimp only
    simp only [List.getElem?_map, List.getElem?_mapIdx, hm, Option.map_none]
    exact ⟨trivial, trivial⟩
  have some1 : ∀ (m : Nat) v, views[m]? = some v →
      rd (itf (views.map gAsView) fnfi st).meshes m = .ok v.fmesh ∧
      rd (itf (views.map gAsView) fnfi st).test m = .ok v.space ∧
      rd (itf (gviews views x c) (gfnfi fnfi) st).meshes m = .ok (liftMesh v.space (bent x m) v.fmesh) ∧
      rd (itf (gviews views x c) (gfnfi fnfi) st).test m = .ok v.space ∧
      rd (itf (gviews views x c) (gfnfi fnfi) st).trial m = .ok v.space := by
    intro m v hm
    refine ⟨?_, ?_, ?_, ?_, ?_⟩ <;> rw [rd_eq_ok] <;>
      simp [itf, gviews, gview, gAsView, hm]
  cases h1 : views[p.mesh1]? with
  | none =>
    obtain ⟨a1, a2⟩ := none1 _ h1
    rw [a1, a2]; rfl
  | some v1 =>
    obtain ⟨a1, a2, a3, a4, a5⟩ := some1 _ _ h1
    rw [a1, a2, a3, a4, a5, ok_bind, ok_bind]
    cases h2 : views[p.mesh2]? with
    | none =>
      obtain ⟨b1, b2⟩ := none1 _ h2
      rw [b1, b2]; rfl
    | some v2 =>
      obtain ⟨b1, b2, b3, b4, b5⟩ := some1 _ _ h2
      rw [b1, b2, b3, b4, b5]
      simp only [ok_bind]
      rw [readBlock_eq hx (s := v1.space.vsize) (by rw [List.getElem?_map, h1]; rfl), ok_bind,
        readBlock_eq hx (s := v2.space.vsize) (by rw [List.getElem?_map, h2]; rfl), ok_bind]
      simp only [length_tab, beq_self_eq_true, require_true, ok_bind]
      unfold InterfaceForm.assembleMatrix
      refine loop_congr ?_
      intro j t _
      congr 1; funext i
      rw [transformations_lift]
      cases transformations (p.mesh1 == p.mesh2) v1.fmesh v2.fmesh i with
      | error e => rfl
      | ok tt =>
        show InterfaceForm.faceGrad _ _ _ _ _ _ _ _ _ = InterfaceForm.faceMatrix _ _ _ _ _ _ _ _ _
        exact faceGrad_eq (hsp _ (List.mem_of_getElem? h1)) (hsp _ (List.mem_of_getElem? h2)) _ _ _ _ _ _ _

/-! ## The integrals at a given function -/

/-- The attribute of a boundary face. -/
def attrOf (pm : Parent) (f : Nat) : Int := ((pm.bdr.find? fun q => q.1 == f).map (·.2)).getD 0

/-- The bilinear integrals at the function `ξ`. -/
def wholeOf (G : Grad R F) (pm : Parent) (bc : BC F) (ξ : Nat → Nat → R) : Whole R where
  nt := G.n
  ns := G.n
  vol e a b := G.vol e (valuesOn G.n ξ e) a b
  face f I J a b := G.face f I J (fun K =>
    valuesOn G.n ξ (((pm.faces[f]?).map fun fc => elemAt fc K).getD 0).toNat) a b
  bdr f a b := G.bdr f ((condN bc (attrOf pm f)).getD none)
    (valuesOn G.n ξ (((pm.faces[f]?).map Face.e0).getD 0).toNat) a b

theorem faceSum_wholeOf (bc : BC F) (e a e' b f : Nat) :
    faceSum (wholeOf G pm bc ξ) pm e a e' b f = Spec.faceGrad G pm ξ e a e' b f := by
  unfold faceSum Spec.faceGrad wholeOf
  cases hf : pm.faces[f]? with
  | none => rfl
  | some fc =>
    dsimp only
    rw [hf]
    rfl

theorem attrOf_eq (D : Division pm subs φ g) {q : Nat × Int} (hq : q ∈ pm.bdr) :
    attrOf pm q.1 = q.2 := by
  unfold attrOf
  cases h : pm.bdr.find? (fun p => p.1 == q.1) with
  | none =>
    rw [List.find?_eq_none] at h
    have := h q hq
    simp at this
  | some p =>
    have h1 := List.mem_of_find?_eq_some h
    have h2 : p.1 = q.1 := by simpa using List.find?_some h
    have := List.inj_on_of_nodup_map D.bdrOnce h1 hq h2
    rw [this]; rfl

theorem weak_bcN {bc : BC F} (hw : Boundary.Wf bc) (hn : bc.attrs.Nodup) (a : Int) :
    RomAssembly.Spec.Weak (bcN bc) a ↔ ∃ c, condN bc a = some c := by
  unfold RomAssembly.Spec.Weak
  constructor
  · rintro ⟨k, f, h1, h2, _⟩
    have hk : k < bc.attrs.length := (List.getElem?_eq_some_iff.1 h1).1
    refine ⟨f, ?_⟩
    have hidx : bc.attrs.idxOf a = k := by
      have h1' : bc.attrs[k]? = some a := h1
      have := hn.idxOf_getElem k hk
      rw [List.getElem?_eq_getElem hk] at h1'
      rw [← Option.some.inj h1']
      exact this
    unfold condN
    rw [hidx]
    unfold bcN at h2
    dsimp only at h2
    rw [getElem?_tab, if_pos hk] at h2
    exact Option.some.inj h2
  · rintro ⟨c, hc⟩
    by_cases ha : a ∈ bc.attrs
    · have hlt : bc.attrs.idxOf a < bc.attrs.length := List.idxOf_lt_length_of_mem ha
      refine ⟨bc.attrs.idxOf a, c, List.getElem?_idxOf ha, ?_, ?_⟩
      · unfold bcN
        dsimp only
        rw [getElem?_tab, if_pos hlt]
        exact congrArg some hc
      · unfold bcN
        dsimp only
        rw [List.getElem?_replicate, if_pos hlt]
        simp
    · exfalso
      unfold condN at hc
      rw [List.idxOf_eq_length ha, List.getElem?_eq_none (l := bc.types) (by rw [hw.2]),
        List.getElem?_eq_none (l := bc.coeffs) (by rw [hw.1])] at hc
      simp at hc

theorem bdrSum_wholeOf {bc : BC F} (D : Division pm subs φ g) (hbc : Conditions pm bc) (e a e' b : Nat)
    {q : Nat × Int} (hq : q ∈ pm.bdr) :
    bdrSum (wholeOf G pm bc ξ) pm (bcN bc) e a e' b q = bdrGrad G pm bc ξ e a e' b q := by
  classical
  unfold bdrSum bdrGrad
  rw [weak_bcN hbc.wf hbc.nodup]
  have hmap : (∃ fc, pm.faces[q.1]? = some fc ∧ fc.e0 = (e : Int)) ↔
      (pm.faces[q.1]?).map (·.e0) = some (e : Int) := by
    rw [Option.map_eq_some_iff]
  by_cases h : e = e' ∧ (pm.faces[q.1]?).map (·.e0) = some (e : Int)
  · rw [if_pos h]
    cases hc : condN bc q.2 with
    | none =>
      rw [if_neg]
      rintro ⟨_, ⟨c, h1⟩, _⟩
      cases h1
    | some c =>
      rw [if_pos ⟨h.1, ⟨c, rfl⟩, hmap.2 h.2⟩]
      dsimp only [wholeOf]
      rw [attrOf_eq D hq, hc, h.2]
      rfl
  · rw [if_neg h, if_neg]
    rintro ⟨h1, _, h3⟩
    exact h ⟨h1, hmap.1 h3⟩

theorem entry_wholeOf {bc : BC F} (D : Division pm subs φ g) (hbc : Conditions pm bc) (e a e' b : Nat) :
    entry (wholeOf G pm bc ξ) pm (bcN bc) e a e' b = gradAt true G pm bc ξ e a e' b := by
  unfold entry gradAt
  rw [if_pos rfl, sum_congr rfl fun f _ => faceSum_wholeOf (ξ := ξ) (G := G) (pm := pm) bc e a e' b f,
    List.map_congr_left fun q hq => bdrSum_wholeOf D hbc e a e' b hq]
  unfold wholeOf
  ring

theorem length_gather {em : List Nat} {n : Nat → Nat} {s : Space} (h : SpaceFits em n s) {i e : Nat}
    (hi : em[i]? = some e) (X : Nat → R) : (gather X (dofsOf s i)).length = n e := by
  unfold gather
  rw [List.length_map, h.size i e hi]

/-- The bilinear form at the values of `ξ` has the integrals at `ξ`. -/
theorem gview_fits {bc : BC F} {c : Nat → Option F} (D : Division pm subs φ g) (hk : subs[k]? = some sm)
    (hv : GViewFits G pm subs φ ints k sm v)
    (hX : ∀ (i e b : Nat), sm.elemMap[i]? = some e → b < G.n e → X (pos v.space i b) = ξ e b)
    (hc : ∀ (b : Nat) be q, sm.bes[b]? = some be → q ∈ pm.bdr → q.1 = φ k be.face →
      c b = (condN bc q.2).getD none) :
    ViewFits (wholeOf G pm bc ξ) pm subs φ (gints ints) k sm (gview v X c) := by
  have gv : ∀ {i e : Nat}, sm.elemMap[i]? = some e → gather X (dofsOf v.space i) = valuesOn G.n ξ e :=
    fun hi => gather_eq hv.space hi (fun b hb => hX _ _ b hi hb)
  have bel_at : ∀ (b : Nat) x, (gview v X c).bel[b]? = some (some x) → ∃ x', v.bel[b]? = some (some x') ∧
      x = ⟨x'.rows, x'.rows, x'.mat (c b) (gather X x'.rows)⟩ := by
    intro b x hx
    unfold gview at hx
    dsimp only at hx
    rw [List.getElem?_mapIdx] at hx
    cases h : v.bel[b]? with
    | none => rw [h] at hx; cases hx
    | some w =>
      cases w with
      | none => rw [h] at hx; cases hx
      | some w => rw [h] at hx; cases hx; exact ⟨w, rfl, rfl⟩
  refine ⟨hv.space, hv.space, ?_, ?_, ?_, ?_, ?_, ?_, ?_, ?_⟩
  · show (tab _ _).length = _
    rw [length_tab, hv.space.count]
  · intro i e m hi hm
    have hlt : i < v.space.vdofs.length := by
      rw [hv.space.count]; exact (List.getElem?_eq_some_iff.1 hi).1
    have : (gview v X c).vols[i]? = some (v.dom i (gather X (dofsOf v.space i))) := by
      show (tab _ _)[i]? = _
      rw [getElem?_tab, if_pos hlt]
    rw [this] at hm; cases hm
    rw [gv hi]
    exact hv.dom i e _ hi (length_valuesOn _ _ _)
  · show (v.faces.map _).length = _
    rw [List.length_map, hv.faceCount]
  · intro s fc hs hfc hin
    show (v.faces.map _)[s]? = _
    rw [List.getElem?_map, hv.outer s fc hs hfc hin]; rfl
  · intro s fc hs hfc hin
    obtain ⟨t, o, x1, x2, h1, h2, h3, h4, h5, h6, h7⟩ := hv.inner s fc hs hfc hin
    refine ⟨⟨t.elem1, t.elem2, t.data, gather X (dofsOf v.space t.elem1 ++ dofsOf v.space t.elem2)⟩, o, x1, x2,
      ?_, h2, h3, h4, h5, ?_, ?_⟩
    · show (v.faces.map _)[s]? = _
      rw [List.getElem?_map, h1]; rfl
    · intro g' hg
      obtain ⟨g0, h0, rfl⟩ := List.mem_map.1 hg
      dsimp only
      rw [gather_append]
      exact h6 g0 h0 _ _ (length_gather hv.space h2 X) (length_gather hv.space h3 X)
    · intro I J a b ha hb
      show (List.map _ (ints.map _)).sum = _
      rw [List.map_map]
      simp only [Function.comp_def]
      rw [gather_append, gv h2, gv h3]
      have := h7 I J _ _ a b (length_valuesOn G.n ξ x1) (length_valuesOn G.n ξ x2) ha hb
      rw [sides_values h4 h5] at this
      refine this.trans ?_
      unfold wholeOf
      dsimp only
      rw [hfc]
      rfl
  · show (v.bel.mapIdx _).length = _
    rw [List.length_mapIdx, hv.belCount]
  · intro b be x hb hx
    obtain ⟨x', h1, rfl⟩ := bel_at b x hx
    obtain ⟨r1, r2⟩ := hv.bel b be x' hb h1
    refine ⟨r1, r1, ?_⟩
    exact r2 (c b) _ (by unfold gather; rw [List.length_map])
  · intro b be x q hb hq hqf hx
    obtain ⟨y, y1, y2⟩ := hv.outerBdr b be x q hb hq hqf hx
    obtain ⟨fc, x', _, h3, h4, h5⟩ := D.wf.onFace k b sm _ hk hb
    rw [hx] at h4; cases h4
    have hout := D.bdrOuter q hq fc (by rw [hqf]; exact h3)
    have hx0 : (x : Int) = fc.e0 := by
      rcases h5 with h | h
      · exact h.1
      · have := h.1; omega
    refine ⟨⟨y.rows, y.rows, y.mat (c b) (gather X y.rows)⟩, ?_, ?_⟩
    · show (v.bel.mapIdx _)[b]? = _
      rw [List.getElem?_mapIdx, y1]; rfl
    · dsimp only
      rw [(hv.bel b be y hb y1).1, gv hx, hc b be q hb hq hqf]
      have := y2 ((condN bc q.2).getD none) _ (length_valuesOn G.n ξ x)
      have he : (wholeOf G pm bc ξ).bdr q.1 = G.bdr q.1 ((condN bc q.2).getD none) (valuesOn G.n ξ x) := by
        unfold wholeOf
        dsimp only
        rw [attrOf_eq D hq, hqf, h3, Option.map_some, Option.getD_some, ← hx0, Int.toNat_natCast]
      rw [he]
      exact this

theorem trOf_lift (s : Space) (X : Nat → R) (m : FMesh δ) (be : Nat) (inf : Int) :
    trOf (liftMesh s X m) be inf = (trOf m be inf).map (liftTr s X) := by
  unfold trOf liftMesh
  dsimp only
  rw [Option.map_map, Option.map_map]
  cases m.face be with
  | none => rfl
  | some t =>
    simp only [Option.map_some, Function.comp]
    by_cases h : m.inf be = inf
    · rw [if_pos h, if_pos h]
    · rw [if_neg h, if_neg h]; rfl

variable {views : List (GView R δ F)} {fnfi : List (Option (Integ R δ))} {bc : BC F} {x : BlockVector R}

theorem gviews_fits {c : Nat → Nat → Option F} (D : Division pm subs φ g)
    (hF : GFits G pm subs φ views ints fnfi)
    (hX : ∀ (k i e b : Nat) sm v, subs[k]? = some sm → views[k]? = some v → sm.elemMap[i]? = some e →
      b < G.n e → bent x k (pos v.space i b) = ξ e b)
    (hc : ∀ (k b : Nat) sm be q, subs[k]? = some sm → sm.bes[b]? = some be → q ∈ pm.bdr →
      q.1 = φ k be.face → c k b = (condN bc q.2).getD none) :
    Fits (wholeOf G pm bc ξ) pm subs φ (gviews views x c) (gints ints) (gfnfi fnfi) := by
  have at_ : ∀ (k : Nat) w, (gviews views x c)[k]? = some w → ∃ v, views[k]? = some v ∧
      w = gview v (bent x k) (c k) := by
    intro k w hw
    cases h : views[k]? with
    | none =>
      unfold gviews at hw
      rw [List.getElem?_mapIdx, h] at hw; cases hw
    | some v => rw [gviews_at h] at hw; cases hw; exact ⟨v, rfl, rfl⟩
  refine ⟨?_, ?_, ?_, ?_⟩
  · unfold gviews
    rw [List.length_mapIdx, hF.count]
  · intro k sm w hk hw
    obtain ⟨v, hv, rfl⟩ := at_ k w hw
    exact gview_fits D hk (hF.view k sm v hk hv) (fun i e b hi hb => hX k i e b sm v hk hv hi hb)
      (fun b be q hb hq hf => hc k b sm be q hk hb hq hf)
  · unfold gfnfi
    rw [List.mem_map]
    rintro ⟨o, h1, h2⟩
    cases o with
    | none => exact hF.integrators h1
    | some o => cases h2
  · intro i j si sj wi wj b b' bei bej f fc o x1 x2 hi hj hwi hwj hij hb hb' hf hf' hfc h1 h2 e1 e2
    obtain ⟨vi, hvi, rfl⟩ := at_ i wi hwi
    obtain ⟨vj, hvj, rfl⟩ := at_ j wj hwj
    obtain ⟨t1, t2, a1, a2, a3, a4, a5, a6⟩ := hF.itf i j si sj vi vj b b' bei bej f fc o x1 x2 hi hj hvi hvj
      hij hb hb' hf hf' hfc h1 h2 e1 e2
    have Vi := hF.view i si vi hi hvi
    have Vj := hF.view j sj vj hj hvj
    have q1 : gather (bent x i) (dofsOf vi.space t1.elem) = valuesOn G.n ξ x1 := by
      rw [a2]; exact gather_eq Vi.space h1 (fun b hb => hX i _ _ b si vi hi hvi h1 hb)
    have q2 : gather (bent x j) (dofsOf vj.space t2.elem) = valuesOn G.n ξ x2 := by
      rw [a4]; exact gather_eq Vj.space h2 (fun b hb => hX j _ _ b sj vj hj hvj h2 hb)
    refine ⟨liftTr vi.space (bent x i) t1, liftTr vj.space (bent x j) t2, ?_, a2, ?_, a4, ?_, ?_⟩
    · show trOf (liftMesh _ _ _) _ _ = _
      rw [trOf_lift, a1]; rfl
    · show trOf (liftMesh _ _ _) _ _ = _
      rw [trOf_lift, a3]; rfl
    · intro g' hg k l hk hl
      obtain ⟨g0, h0, h00⟩ := List.mem_map.1 hg
      cases g0 with
      | none => cases h00
      | some g0 =>
        cases h00
        dsimp only [liftTr, dropTr]
        rw [q1, q2]
        exact a5 g0 h0 _ _ (length_valuesOn _ _ _) (length_valuesOn _ _ _) k l hk hl
    · intro k l a b hk hl ha hb
      have := a6 _ _ (length_valuesOn G.n ξ x1) (length_valuesOn G.n ξ x2) k l a b hk hl ha hb
      rw [sides_values e1 e2] at this
      unfold gfnfi
      rw [List.map_map]
      have hL : ((fun g : Option (Integ R (δ × List R)) => (g.map fun g => ent (g.mat
          (liftTr vi.space (bent x i) t1) (liftTr vj.space (bent x j) t2) k l) a b).getD 0) ∘
          Option.map fun g => (⟨fun t1 t2 => g.grad (dropTr t1) (dropTr t2) t1.data.2 t2.data.2,
            fun _ _ _ _ _ => [], fun _ _ _ _ _ _ => ⟨0, 0, []⟩⟩ : Integ R (δ × List R))) =
          fun g : Option (Integ R δ) => (g.map fun g =>
            ent (g.grad t1 t2 (valuesOn G.n ξ x1) (valuesOn G.n ξ x2) k l) a b).getD 0 := by
        funext g
        cases g with
        | none => rfl
        | some g =>
          dsimp only [Function.comp, Option.map, Option.getD, liftTr, dropTr]
          rw [q1, q2]
      rw [hL, this]
      unfold wholeOf
      dsimp only
      rw [hfc]
      rfl

/-! ## Boundary terms and markers -/

omit [CommRing R] in
/-- The boundary integrators of a subdomain: those of the bilinear form with the conditions `bcN`, each with
its prescribed velocity; a marker selects the condition of its attribute. -/
theorem nlTerm_at {mx : Int} {mks : List (List Int)} (hbc : Conditions pm bc) (hf : HasFunctions bc)
    (hm : Boundary.markers bc.attrs mx = .ok mks) (mesh : List Int) :
    ∃ act act' ms, nlBC bc mesh = .ok act ∧ act.map (fun c => (c.1, ())) = act' ∧
      lhsBC (bcN bc) mesh = .ok act' ∧ pickMarkers act' mks = .ok ms ∧ act.length = ms.length ∧
      ∀ (a : Int) (k : Nat) mk z, 0 < a → a ≤ mx → ms[k]? = some mk → rdI mk (a - 1) = .ok z → z ≠ 0 →
        (act[k]?).map Prod.snd = some ((condN bc a).getD none) := by
  obtain ⟨ms0, hms, hl, hmk⟩ := Boundary.markers_spec (RomAssembly.markers_ok hm)
  rw [hm] at hms; cases hms
  set act := (List.range bc.attrs.length).filterMap fun b =>
      if (bc.attrs[b]?).any (fun a => decide (a ∈ mesh)) then (weakOf (bcN bc) b).map (fun x => (b, x))
      else none with hact
  have hmem : ∀ y ∈ act, y.1 < bc.attrs.length ∧ weakOf (bcN bc) y.1 = some y.2 := by
    intro y hy
    rw [hact, List.mem_filterMap] at hy
    obtain ⟨b, hb, hb'⟩ := hy
    have hlt := List.mem_range.1 hb
    split at hb'
    · obtain ⟨w, hw, rfl⟩ := Option.map_eq_some_iff.1 hb'
      exact ⟨hlt, hw⟩
    · cases hb'
  refine ⟨act, act.map fun c => (c.1, ()), (act.map fun c => (c.1, ())).map fun x => mks[x.1]?.getD [], ?_, rfl,
    ?_, ?_, by simp, ?_⟩
  · rw [nlBC_eq hbc.wf hf, rhsBC_eq (bcN_wf bc)]
    rfl
  · rw [lhsBC_eq (bcN_wf bc), hact, List.map_filterMap]
    congr 1
    refine List.filterMap_congr fun b _ => ?_
    show (if ((bcN bc).attrs[b]?).any _ then _ else none) = _
    by_cases hb : ((bcN bc).attrs[b]?).any (fun a => decide (a ∈ mesh))
    · rw [if_pos hb, if_pos (show (bc.attrs[b]?).any _ from hb)]
      cases weakOf (bcN bc) b <;> rfl
    · rw [if_neg hb, if_neg (show ¬ (bc.attrs[b]?).any _ from hb)]; rfl
  · refine RomAssembly.pickMarkers_eq ?_
    intro y hy
    obtain ⟨y', hy', rfl⟩ := List.mem_map.1 hy
    rw [hl]
    exact (hmem y' hy').1
  · intro a k mk z ha0 ha hk hz hz0
    rw [List.map_map, List.getElem?_map] at hk
    cases hy : act[k]? with
    | none => rw [hy] at hk; cases hk
    | some y =>
      rw [hy] at hk
      have hk' : mks[y.1]?.getD [] = mk := Option.some.inj hk
      obtain ⟨h1, h2⟩ := hmem y (List.mem_of_getElem? hy)
      obtain ⟨mk', g1, g2, g3⟩ := hmk y.1 _ (List.getElem?_eq_getElem h1)
      rw [g1] at hk'
      have hk'' : mk' = mk := hk'
      subst hk''
      have hz' : rdI mk' (a - 1) = .ok (if a = bc.attrs[y.1] then 1 else 0) := by
        unfold rdI
        rw [if_pos (by omega)]
        exact rd_eq_ok.2 (g3 a ha0 ha)
      rw [hz'] at hz
      have hzz := Except.ok.inj hz
      have haa : a = bc.attrs[y.1] := by
        by_contra hne
        rw [if_neg hne] at hzz
        exact hz0 hzz.symm
      have hidx : bc.attrs.idxOf a = y.1 := by rw [haa]; exact hbc.nodup.idxOf_getElem y.1 h1
      rw [weakOf_bcN bc h1] at h2
      have hcond : condN bc a = some y.2 := by
        unfold condN
        rw [hidx]; exact h2
      rw [hcond]; rfl

end Verif.Divide
