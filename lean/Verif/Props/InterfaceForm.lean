import Verif.Proofs.InterfaceForm
import Mathlib.Tactic.IntervalCases

/-! # C42, C43: interface assembly -/

namespace Verif.InterfaceForm

open Verif Verif.LinAlg Verif.LinAlg.Spec Verif.Blocks Verif.Blocks.Spec Verif.InterfaceForm.Spec
open Verif.Ports (InterfaceInfo)
open Verif.RomHandler (bent_eq readBlock_eq)
open Verif.RomHandler.Spec (bent)
open Finset

variable {R δ : Type} [CommRing R]

theorem rd_getD {α : Type} {l : List α} {i : Nat} {d : α} (h : i < l.length) :
    rd l i = .ok (l[i]?.getD d) := by
  rw [rd_of_lt h]; simp [h]

theorem view_ok {mats : MatArr R} {n : Nat} {rz cz : Nat → Nat} (hm : MatsOk mats n rz cz) {a b : Nat}
    (ha : a < n) (hb : b < n) : mats.view a b = .ok () := by
  unfold MatArr.view
  rw [if_pos ⟨by rw [hm.1]; exact ha, by rw [hm.2.1]; exact ha, by rw [hm.1]; exact hb,
    by rw [hm.2.1]; exact hb⟩]

theorem sized_of (f : Form R δ) (p : Port) :
    Sized (sidesOf f p) p.mesh1 p.mesh2 (sizeIn f.test) (sizeIn f.trial) := ⟨rfl, rfl, rfl, rfl⟩

/-- **C42.** Assembling the interface matrices succeeds and adds to every entry of every block
exactly the contributions of the interfaces of all ports; sizes are unchanged. -/
theorem assembleMixed_spec {f : Form R δ} (hf : FormOk f) {mats : MatArr R}
    (hm : MatsOk mats f.meshes.length (sizeIn f.test) (sizeIn f.trial))
    (hg : ∀ p ∈ f.ports, IntegsOk (sidesOf f p) p.infos f.fnfi (fun g => g.mat)) :
    ∃ m', f.assembleMixed mats = .ok m' ∧
      MatsOk m' f.meshes.length (sizeIn f.test) (sizeIn f.trial) ∧
      ∀ a b r c, mget m' a b r c = mget mats a b r c + formTerm f matOf a b r c := by
  unfold Form.assembleMixed
  obtain ⟨m', e, h1, h2⟩ := loop_list_acc (l := f.ports) (body := f.portMatrix)
    (fun m => MatsOk m f.meshes.length (sizeIn f.test) (sizeIn f.trial)) mget
    (portTerm f matOf) hm (by
      intro k p m hp e hm
      obtain ⟨b1, b2, b3, b4⟩ := hf.ports p hp
      have hne : (p.mesh1 == p.mesh2) = false := by simpa using b3
      obtain ⟨m', e', h⟩ := assembleMatrix_spec hm b1 b2 b4 (sized_of f p) (hg p hp)
      refine ⟨m', ?_, h⟩
      rw [← e', Form.portMatrix, e, ok_bind, view_ok hm b1 b2, ok_bind]
      rw [rd_getD b1, ok_bind, rd_getD b2, ok_bind, rd_getD (by rw [hf.trial]; exact b1), ok_bind,
        rd_getD (by rw [hf.trial]; exact b2), ok_bind, rd_getD (by rw [hf.test]; exact b1), ok_bind,
        rd_getD (by rw [hf.test]; exact b2), ok_bind, hne]
      rfl)
  exact ⟨m', e, h1, fun a b r c => by rw [h2]; rfl⟩

theorem allSet_ok {mats : MatArr R} {n : Nat} {rz cz : Nat → Nat} (hm : MatsOk mats n rz cz) :
    allSet mats = .ok () := by
  unfold allSet
  obtain ⟨t, h, -⟩ := loop_total (n := mats.nr) (body := fun i _ => loop mats.nc (fun j _ => do
    let _ ← nonNull (mats.at_ i j)
    return ()) ()) (fun _ _ => True) (s := ()) trivial (by
      intro i u hi _
      obtain ⟨t, h, -⟩ := loop_total (n := mats.nc) (body := fun j _ => do
        let _ ← nonNull (mats.at_ i j)
        return ()) (fun _ _ => True) (s := ()) trivial (by
          intro j u hj _
          obtain ⟨s, e, -⟩ := hm.2.2 i j (by rw [← hm.1]; exact hi) (by rw [← hm.2.1]; exact hj)
          refine ⟨(), ?_, trivial⟩
          rw [e]; rfl)
      exact ⟨t, h, trivial⟩)
  exact h

/-- **C42** for `InterfaceForm`, whose extra checks accept a complete array of matrices. -/
theorem assemble_spec {f : Form R δ} (hf : FormOk f) {mats : MatArr R}
    (hm : MatsOk mats f.meshes.length (sizeIn f.test) (sizeIn f.trial))
    (hg : ∀ p ∈ f.ports, IntegsOk (sidesOf f p) p.infos f.fnfi (fun g => g.mat)) :
    ∃ m', f.assemble mats = .ok m' ∧
      MatsOk m' f.meshes.length (sizeIn f.test) (sizeIn f.trial) ∧
      ∀ a b r c, mget m' a b r c = mget mats a b r c + formTerm f matOf a b r c := by
  obtain ⟨m', e, h⟩ := assembleMixed_spec hf hm hg
  refine ⟨m', ?_, h⟩
  unfold Form.assemble
  rw [hm.1, hm.2.1, beq_self_eq_true, require_true, ok_bind, ok_bind, allSet_ok hm,
    ok_bind, e]

/-! ## Locality -/

theorem list_sum_apply4 {α : Type} (l : List α) (g : α → Nat → Nat → Nat → Nat → R) (a b r c : Nat) :
    (l.map g).sum a b r c = (l.map (fun x => g x a b r c)).sum := by
  induction l with
  | nil => rfl
  | cons x l ih => simp [ih]

theorem list_sum_apply2 {α : Type} (l : List α) (g : α → Nat → Nat → R) (a r : Nat) :
    (l.map g).sum a r = (l.map (fun x => g x a r)).sum := by
  induction l with
  | nil => rfl
  | cons x l ih => simp [ih]

theorem list_sum_zero {α : Type} (l : List α) (g : α → R) (h : ∀ x ∈ l, g x = 0) :
    (l.map g).sum = 0 := by
  induction l with
  | nil => rfl
  | cons x l ih =>
    rw [List.map_cons, List.sum_cons, h x (by simp), ih (fun y hy => h y (by simp [hy])), add_zero]

theorem scatter_zero {rows cols : List Int} {a : Mat R} {r c : Nat}
    (h : (∀ d ∈ rows, dofPos d ≠ r) ∨ ∀ d ∈ cols, dofPos d ≠ c) : scatter rows cols a r c = 0 := by
  unfold scatter
  refine sum_eq_zero fun k hk => sum_eq_zero fun l hl => ?_
  rw [if_neg]
  rintro ⟨h1, h2⟩
  rcases h with h | h
  · exact h _ (dofAt_mem (mem_range.1 hk)).2 h1
  · exact h _ (dofAt_mem (mem_range.1 hl)).2 h2

/-- An interface touches row `r` of subdomain `a` and column `c` of subdomain `b`: the two subdomains
are sides of its port, and the entry belongs to the adjacent elements. -/
def Touches (f : Form R δ) (p : Port) (i : InterfaceInfo) (a b r c : Nat) : Prop :=
  ∃ t1 t2, (sidesOf f p).face i = some (t1, t2) ∧ ∃ k l, k < 2 ∧ l < 2 ∧ side p.mesh1 p.mesh2 k = a ∧
    side p.mesh1 p.mesh2 l = b ∧ (∃ d ∈ (sidesOf f p).rows t1 t2 k, dofPos d = r) ∧
    ∃ d ∈ (sidesOf f p).cols t1 t2 l, dofPos d = c

theorem faceTerm_zero (f : Form R δ) (p : Port) (i : InterfaceInfo) (a b r c : Nat)
    (em : Integ R δ → Tr δ → Tr δ → Nat → Nat → Mat R) (h : ¬ Touches f p i a b r c) :
    faceTerm p.mesh1 p.mesh2 (sidesOf f p) f.fnfi em i a b r c = 0 := by
  unfold faceTerm
  rcases hf : (sidesOf f p).face i with _ | ⟨t1, t2⟩
  · rfl
  · dsimp only
    rw [list_sum_apply4]
    refine list_sum_zero _ _ fun g _ => ?_
    rcases g with _ | g
    · rfl
    · show blockTerm _ _ _ _ _ a b r c = 0
      unfold blockTerm
      refine sum_eq_zero fun k hk => sum_eq_zero fun l hl => ?_
      split
      · rename_i hs
        apply scatter_zero
        by_contra hc
        push Not at hc
        obtain ⟨⟨d, hd, hd'⟩, d2, hd2, hd2'⟩ := hc
        exact h ⟨t1, t2, hf, k, l, mem_range.1 hk, mem_range.1 hl, hs.1, hs.2, ⟨d, hd, hd'⟩,
          ⟨d2, hd2, hd2'⟩⟩
      · rfl

/-- **C42, locality.** An entry that no interface touches keeps its value. -/
theorem assemble_untouched {f : Form R δ} (hf : FormOk f) {mats m' : MatArr R}
    (hm : MatsOk mats f.meshes.length (sizeIn f.test) (sizeIn f.trial))
    (hg : ∀ p ∈ f.ports, IntegsOk (sidesOf f p) p.infos f.fnfi (fun g => g.mat))
    (he : f.assemble mats = .ok m') (a b r c : Nat)
    (h : ∀ p ∈ f.ports, ∀ i ∈ p.infos, ¬ Touches f p i a b r c) :
    mget m' a b r c = mget mats a b r c := by
  obtain ⟨m2, e, -, hv⟩ := assemble_spec hf hm hg
  obtain rfl := Except.ok.inj (he.symm.trans e)
  rw [hv]
  unfold formTerm
  rw [list_sum_apply4, list_sum_zero, add_zero]
  intro p hp
  unfold portTerm
  rw [list_sum_apply4]
  exact list_sum_zero _ _ fun i hi => faceTerm_zero f p i a b r c _ (h p hp i hi)

/-- **C42, locality.** A block whose two subdomains are not both sides of some port is unchanged. -/
theorem assemble_local {f : Form R δ} (hf : FormOk f) {mats m' : MatArr R}
    (hm : MatsOk mats f.meshes.length (sizeIn f.test) (sizeIn f.trial))
    (hg : ∀ p ∈ f.ports, IntegsOk (sidesOf f p) p.infos f.fnfi (fun g => g.mat))
    (he : f.assemble mats = .ok m') (a b : Nat)
    (h : ∀ p ∈ f.ports, ¬ ((a = p.mesh1 ∨ a = p.mesh2) ∧ (b = p.mesh1 ∨ b = p.mesh2))) (r c : Nat) :
    mget m' a b r c = mget mats a b r c := by
  refine assemble_untouched hf hm hg he a b r c ?_
  rintro p hp i hi ⟨t1, t2, -, k, l, -, -, h1, h2, -⟩
  refine h p hp ⟨?_, ?_⟩
  · unfold side at h1; split at h1 <;> omega
  · unfold side at h2; split at h2 <;> omega

/-- **C42, order.** Listing the ports in another order gives the same matrices. -/
theorem assemble_order {f f' : Form R δ} (hf : FormOk f) (hp : f'.ports.Perm f.ports)
    (e1 : f'.meshes = f.meshes) (e2 : f'.test = f.test) (e3 : f'.trial = f.trial)
    (e4 : f'.fnfi = f.fnfi) {mats : MatArr R}
    (hm : MatsOk mats f.meshes.length (sizeIn f.test) (sizeIn f.trial))
    (hg : ∀ p ∈ f.ports, IntegsOk (sidesOf f p) p.infos f.fnfi (fun g => g.mat)) :
    ∃ m m', f.assemble mats = .ok m ∧ f'.assemble mats = .ok m' ∧
      ∀ a b r c, mget m' a b r c = mget m a b r c := by
  have hs : ∀ p, sidesOf f' p = sidesOf f p := by intro p; unfold sidesOf; rw [e1, e2, e3]
  have hf' : FormOk f' := ⟨by rw [e1, e2]; exact hf.test, by rw [e1, e3]; exact hf.trial, by
    intro p h; rw [e1, hs]; exact hf.ports p (hp.mem_iff.1 h)⟩
  obtain ⟨m, h1, -, h2⟩ := assemble_spec hf hm hg
  obtain ⟨m', h3, -, h4⟩ := assemble_spec (mats := mats) hf' (by rw [e1, e2, e3]; exact hm) (by
    intro p h; rw [hs, e4]; exact hg p (hp.mem_iff.1 h))
  refine ⟨m, m', h1, h3, fun a b r c => ?_⟩
  rw [h2, h4]
  congr 1
  have ht : portTerm f' (matOf (R := R) (δ := δ)) = portTerm f matOf := by
    funext p; unfold portTerm; rw [hs, e4]
  unfold formTerm
  rw [ht, (hp.map _).sum_eq]

/-! ## Rejected input -/

/-- A port that joins a subdomain with itself aborts, as soon as it has an interface. -/
theorem self_port_aborts (f : Form R δ) (mats : MatArr R) (k m : Nat) (i : InterfaceInfo)
    (infos : List InterfaceInfo) (hk : rd f.ports k = .ok ⟨m, m, i :: infos⟩)
    (h1 : m < f.meshes.length) (h2 : f.test.length = f.meshes.length)
    (h3 : f.trial.length = f.meshes.length) (h4 : m < mats.nr ∧ m < mats.nc) :
    f.portMatrix k mats = .error .abort := by
  unfold Form.portMatrix
  rw [hk, ok_bind]
  have : mats.view m m = .ok () := by unfold MatArr.view; rw [if_pos ⟨h4.1, h4.2, h4⟩]
  dsimp only
  rw [this, ok_bind, rd_of_lt h1, ok_bind, ok_bind, rd_of_lt (by omega : m < f.trial.length), ok_bind,
    ok_bind, rd_of_lt (by omega : m < f.test.length), ok_bind, ok_bind]
  rw [beq_self_eq_true]
  rfl

/-- A missing matrix aborts before anything is assembled. -/
theorem missing_block_aborts (f : Form R δ) (mats : MatArr R) (h1 : mats.nr = f.meshes.length)
    (h2 : mats.nc = f.meshes.length) (a b : Nat) (ha : a < mats.nr) (hb : b < mats.nc)
    (hn : mats.at_ a b = none) : f.assemble mats = .error .abort := by
  unfold Form.assemble
  have h3 : (mats.nr == f.meshes.length) = true := by simpa using h1
  have h4 : (mats.nc == f.meshes.length) = true := by simpa using h2
  rw [h3, h4, require_true, ok_bind, ok_bind]
  have hstep : ∀ i j, (do
      let _ ← nonNull (mats.at_ i j)
      return () : Outcome Unit) = if mats.at_ i j = none then .error .abort else .ok () := by
    intro i j; rcases mats.at_ i j with _ | s <;> simp [nonNull] <;> rfl
  have hrow : ∀ i, (∃ j, j < mats.nc ∧ mats.at_ i j = none) →
      loop mats.nc (fun j _ => do
        let _ ← nonNull (mats.at_ i j)
        return ()) () = .error .abort := by
    rintro i ⟨j, hj, hij⟩
    refine loop_error_of (fun _ => True) trivial ?_ ⟨j, hj, fun _ _ => ?_⟩
    · intro j u hj _
      rw [hstep]; split
      · right; rfl
      · left; exact ⟨(), rfl, trivial⟩
    · rw [hstep, if_pos hij]
  have : allSet mats = .error .abort := by
    unfold allSet
    refine loop_error_of (fun _ => True) trivial ?_ ⟨a, ha, fun _ _ => hrow a ⟨b, hb, hn⟩⟩
    intro k u hk _
    by_cases h : ∃ j, j < mats.nc ∧ mats.at_ k j = none
    · right; exact hrow k h
    · left
      push Not at h
      obtain ⟨t, e, -⟩ := loop_total (n := mats.nc) (body := fun j _ => do
        let _ ← nonNull (mats.at_ k j)
        return ()) (fun _ _ => True) (s := ()) trivial (by
          intro j u hj _
          exact ⟨(), by rw [hstep, if_neg (h j hj)], trivial⟩)
      exact ⟨t, e, trivial⟩
  rw [this]; rfl

/-- A null integrator aborts on the first face that exists. -/
theorem null_integrator_aborts (a b : Nat) (rows cols : Nat → List Int) (mats : MatArr R)
    (fnfi : List (Option (Integ R δ))) (em : Integ R δ → Nat → Nat → Mat R) :
    addIntegs a b rows cols (none :: fnfi) em mats = .error .abort := by
  unfold addIntegs loop
  rfl

/-! ## Matrix-free action -/

/-- Sizes of the blocks of the vectors. -/
def sizes (f : Form R δ) : List Nat := f.test.map (fun s => s.vsize)

theorem sizes_get {f : Form R δ} {m : Nat} (h : m < f.test.length) :
    (sizes f)[m]? = some (sizeIn f.test m) := by
  unfold sizes sizeIn
  simp [h]

/-- The matrix-free interface action adds the element vectors of all interfaces. -/
theorem addMult_spec {f : Form R δ} (hf : FormOk f)
    (hg : ∀ p ∈ f.ports, VecsOk (sidesOf f p) p.infos f.fnfi) {x y : BlockVector R}
    (hx : HasSizes x (sizes f)) (hy : HasSizes y (sizes f)) :
    ∃ y', f.addMult x y = .ok y' ∧ HasSizes y' (sizes f) ∧
      ∀ a r, bent y' a r = bent y a r + formVec f x a r := by
  unfold Form.addMult
  obtain ⟨y', e, h1, h2⟩ := loop_list_acc (l := f.ports) (body := f.portVector x)
    (fun y => HasSizes y (sizes f)) bent (portVec f x) hy (by
      intro k p y hp e hy
      obtain ⟨b1, b2, b3, b4⟩ := hf.ports p hp
      have hne : (p.mesh1 == p.mesh2) = false := by simpa using b3
      have l1 : p.mesh1 < f.test.length := by rw [hf.test]; exact b1
      have l2 : p.mesh2 < f.test.length := by rw [hf.test]; exact b2
      have z1 := sizes_get l1
      have z2 := sizes_get l2
      obtain ⟨d', e', h1, h2⟩ := faceVector_spec (x := x) (d := y.data) (offs := y.offsets) b4 (hg p hp)
        hy z1 z2
      refine ⟨{ y with data := d' }, ?_, h1, h2⟩
      unfold Form.portVector
      rw [e, ok_bind, rd_getD b1, ok_bind, rd_getD b2, ok_bind, rd_getD l1, ok_bind, rd_getD l2,
        ok_bind, readBlock_eq hx z1, ok_bind, readBlock_eq hx z2, ok_bind]
      have q1 : ((tab (sizeIn f.test p.mesh1) (bent x p.mesh1)).length ==
        (f.test[p.mesh1]?.getD ⟨0, []⟩).vsize) = true := by simp [sizeIn]
      have q2 : ((tab (sizeIn f.test p.mesh2) (bent x p.mesh2)).length ==
        (f.test[p.mesh2]?.getD ⟨0, []⟩).vsize) = true := by simp [sizeIn]
      have len : y.offsets.length = (sizes f).length + 1 := hy.1.1
      have lz : (sizes f).length = f.test.length := by simp [sizes]
      rw [q1, q2, require_true, ok_bind, ok_bind, hy.blockSize z1, ok_bind, hy.blockSize z2, ok_bind,
        length_tab, length_tab, beq_self_eq_true, beq_self_eq_true, require_true, ok_bind, ok_bind,
        rd_eq_ok.2 (hy.1.value (i := p.mesh1) (by omega)), ok_bind,
        rd_eq_ok.2 (hy.1.value (i := p.mesh2) (by omega)), ok_bind, hne]
      have e'' := congrArg (fun o : Outcome (List R) => o >>= fun d => (pure { y with data := d } :
        Outcome (BlockVector R))) e'
      exact e'')
  exact ⟨y', e, h1, fun a r => by rw [h2]; rfl⟩

/-- Applying a block matrix to a block vector, as a linear map in the matrix. -/
def applyTo (n : Nat) (cz : Nat → Nat) (x : Nat → Nat → R) :
    (Nat → Nat → Nat → Nat → R) →+ (Nat → Nat → R) where
  toFun A := fun a r => ∑ b ∈ range n, ∑ c ∈ range (cz b), A a b r c * x b c
  map_zero' := by funext a r; simp
  map_add' A B := by
    funext a r
    simp only [Pi.add_apply, add_mul, sum_add_distrib]

theorem ve_gather (x : Nat → R) (dofs : List Int) {l : Nat} (h : l < dofs.length) :
    ve (gather x dofs) l = dofSign (dofAt dofs l) * x (dofPos (dofAt dofs l)) := by
  unfold ve gather dofAt
  simp [h]

/-- An element matrix scattered and applied is the element product scattered. -/
theorem scatter_apply {rows cols : List Int} {a : Mat R} {C : Nat} (hc : ∀ d ∈ cols, dofPos d < C)
    (x : Nat → R) (r : Nat) :
    ∑ c ∈ range C, scatter rows cols a r c * x c =
      ∑ k ∈ range rows.length, if dofPos (dofAt rows k) = r then dofSign (dofAt rows k) *
        ∑ l ∈ range cols.length, ent a k l * ve (gather x cols) l else 0 := by
  unfold scatter
  simp only [sum_mul]
  rw [sum_comm]
  refine sum_congr rfl fun k _ => ?_
  rw [sum_comm]
  by_cases hk : dofPos (dofAt rows k) = r
  · rw [if_pos hk, mul_sum]
    refine sum_congr rfl fun l hl => ?_
    have hl' := mem_range.1 hl
    rw [sum_eq_single (dofPos (dofAt cols l))]
    · rw [if_pos ⟨hk, rfl⟩, ve_gather x cols hl']; ring
    · intro c _ hne; rw [if_neg (fun h => hne h.2.symm), zero_mul]
    · intro h; exact absurd (mem_range.2 (hc _ (dofAt_mem hl').2)) h
  · rw [if_neg hk]
    refine sum_eq_zero fun l _ => sum_eq_zero fun c _ => ?_
    rw [if_neg (fun h => hk h.1), zero_mul]

/-- For a linear integrator the element matrices applied to the vector are the element vectors. -/
theorem blockTerm_apply {n a b : Nat} (ha : a < n) (hb : b < n) {cz : Nat → Nat}
    {rows cols : Nat → List Int} {em : Nat → Nat → Mat R} {ev : Nat → List R} (x : Nat → Nat → R)
    (hc : ∀ i, i < 2 → ∀ d ∈ cols i, dofPos d < cz (side a b i))
    (hl : ∀ k r, k < 2 → r < (rows k).length → ve (ev k) r =
      ∑ c ∈ range (cols 0).length, ent (em k 0) r c * ve (gather (x a) (cols 0)) c +
      ∑ c ∈ range (cols 1).length, ent (em k 1) r c * ve (gather (x b) (cols 1)) c) :
    applyTo n cz x (blockTerm a b rows cols em) = vecBlockTerm a b rows ev := by
  funext p r
  show ∑ q ∈ range n, ∑ c ∈ range (cz q), blockTerm a b rows cols em p q r c * x q c = _
  unfold blockTerm vecBlockTerm
  have h1 : ∀ i j, j < 2 → ∑ q ∈ range n, ∑ c ∈ range (cz q),
      (if side a b i = p ∧ side a b j = q then scatter (rows i) (cols j) (em i j) r c else 0) * x q c =
      if side a b i = p then ∑ c ∈ range (cz (side a b j)),
        scatter (rows i) (cols j) (em i j) r c * x (side a b j) c else 0 := by
    intro i j hj
    rw [sum_eq_single (side a b j)]
    · by_cases h : side a b i = p
      · simp [h]
      · simp [h]
    · intro q _ hq
      refine sum_eq_zero fun c _ => ?_
      rw [if_neg (fun h => hq h.2.symm), zero_mul]
    · intro h
      refine absurd (mem_range.2 ?_) h
      unfold side; split <;> assumption
  simp only [sum_mul]
  have h2 : ∑ q ∈ range n, ∑ c ∈ range (cz q), ∑ i ∈ range 2, ∑ j ∈ range 2,
      (if side a b i = p ∧ side a b j = q then scatter (rows i) (cols j) (em i j) r c else 0) * x q c =
      ∑ i ∈ range 2, ∑ j ∈ range 2, ∑ q ∈ range n, ∑ c ∈ range (cz q),
      (if side a b i = p ∧ side a b j = q then scatter (rows i) (cols j) (em i j) r c else 0) * x q c := by
    simp only [sum_range_succ, sum_range_zero, zero_add, sum_add_distrib]
  rw [h2]
  refine sum_congr rfl fun i hi => ?_
  have hi' := mem_range.1 hi
  rw [sum_congr rfl fun j hj => h1 i j (mem_range.1 hj)]
  by_cases h : side a b i = p
  · simp only [h, if_true]
    rw [sum_congr rfl fun j hj => scatter_apply (hc j (mem_range.1 hj)) (x (side a b j)) r]
    unfold scatterVec
    rw [sum_range_succ, sum_range_succ, sum_range_zero, zero_add, ← sum_add_distrib]
    refine sum_congr rfl fun k hk => ?_
    by_cases hk' : dofPos (dofAt (rows i) k) = r
    · rw [if_pos hk', if_pos hk', if_pos hk', ← mul_add, hl i k hi' (mem_range.1 hk)]; rfl
    · rw [if_neg hk', if_neg hk', if_neg hk', add_zero]
  · simp [h]

/-- The assembled interface matrices applied to `x` are the matrix-free action. -/
theorem formTerm_apply {f : Form R δ} (hf : FormOk f) (hsame : f.trial = f.test)
    (hg : ∀ p ∈ f.ports, IntegsOk (sidesOf f p) p.infos f.fnfi (fun g => g.mat))
    (hlin : ∀ g, some g ∈ f.fnfi → IsLinear g) (x : BlockVector R) :
    applyTo f.meshes.length (sizeIn f.test) (bent x) (formTerm f matOf) = formVec f x := by
  unfold formTerm formVec
  rw [map_list_sum, List.map_map]
  congr 1
  refine List.map_congr_left fun p hp => ?_
  obtain ⟨b1, b2, b3, b4⟩ := hf.ports p hp
  show applyTo _ _ _ (portTerm f matOf p) = portVec f x p
  unfold portTerm portVec
  rw [map_list_sum, List.map_map]
  congr 1
  refine List.map_congr_left fun i hi => ?_
  show applyTo _ _ _ (faceTerm _ _ _ _ _ i) = faceVec _ _ _ _ _ i
  unfold faceTerm faceVec
  rcases hface : (sidesOf f p).face i with _ | ⟨t1, t2⟩
  · exact map_zero _
  · dsimp only
    rw [map_list_sum, List.map_map]
    congr 1
    refine List.map_congr_left fun g hgm => ?_
    obtain ⟨g', rfl, hsh⟩ := hg p hp g hgm
    have hsh := hsh i hi t1 t2 hface
    have hcr : (sidesOf f p).cols t1 t2 = (sidesOf f p).rows t1 t2 := by
      funext j; unfold Sides.cols Sides.rows sidesOf; dsimp only; rw [hsame]
    show applyTo _ _ _ (blockTerm _ _ _ _ _) = _
    refine blockTerm_apply b1 b2 (bent x) ?_ ?_
    · have := (rows_lt b4 (sized_of f p) t1 t2).2
      rw [hsame] at this
      exact this
    · intro k r hk hr
      have := hlin g' hgm t1 t2 (gather (bent x p.mesh1) ((sidesOf f p).rows t1 t2 0))
        (gather (bent x p.mesh2) ((sidesOf f p).rows t1 t2 1)) k r hk
        (by rw [(hsh k 0 hk (by omega)).1]; exact hr)
      rw [hcr]
      rw [this]
      simp only [gather, List.length_map]
      rfl

/-- **C43.** For linear integrators, `InterfaceAddMult(x)` adds to `y` exactly the product of `x`
with the matrices that `AssembleInterfaceMatrices` adds. -/
theorem addMult_eq_assembled {f : Form R δ} (hf : FormOk f) (hsame : f.trial = f.test)
    (hg : ∀ p ∈ f.ports, IntegsOk (sidesOf f p) p.infos f.fnfi (fun g => g.mat))
    (hv : ∀ p ∈ f.ports, VecsOk (sidesOf f p) p.infos f.fnfi)
    (hlin : ∀ g, some g ∈ f.fnfi → IsLinear g) {mats : MatArr R}
    (hm : MatsOk mats f.meshes.length (sizeIn f.test) (sizeIn f.trial)) {x y : BlockVector R}
    (hx : HasSizes x (sizes f)) (hy : HasSizes y (sizes f)) :
    ∃ m' y', f.assemble mats = .ok m' ∧ f.addMult x y = .ok y' ∧ HasSizes y' (sizes f) ∧
      ∀ a r, bent y' a r = bent y a r +
        ∑ b ∈ range f.meshes.length, ∑ c ∈ range (sizeIn f.test b),
          (mget m' a b r c - mget mats a b r c) * bent x b c := by
  obtain ⟨m', e1, -, h1⟩ := assemble_spec hf hm hg
  obtain ⟨y', e2, h2, h3⟩ := addMult_spec hf hv hx hy
  refine ⟨m', y', e1, e2, h2, fun a r => ?_⟩
  rw [h3, ← formTerm_apply hf hsame hg hlin x]
  congr 1
  show ∑ b ∈ range f.meshes.length, ∑ c ∈ range (sizeIn f.test b),
    formTerm f matOf a b r c * bent x b c = _
  refine sum_congr rfl fun b _ => sum_congr rfl fun c _ => ?_
  rw [h1, add_sub_cancel_left]

/-- The interface gradient adds the element gradients at `x` of all interfaces. -/
theorem gradient_spec {f : Form R δ} (hf : FormOk f) (hsame : f.trial = f.test) {mats : MatArr R}
    (hm : MatsOk mats f.meshes.length (sizeIn f.test) (sizeIn f.test)) {x : BlockVector R}
    (hx : HasSizes x (sizes f))
    (hg : ∀ p ∈ f.ports, IntegsOk (sidesOf f p) p.infos f.fnfi (gradOf f x p)) :
    ∃ m', f.gradient x mats = .ok m' ∧ MatsOk m' f.meshes.length (sizeIn f.test) (sizeIn f.test) ∧
      ∀ a b r c, mget m' a b r c = mget mats a b r c + formTerm f (gradOf f x) a b r c := by
  unfold Form.gradient
  rw [hm.1, hm.2.1, beq_self_eq_true, require_true, ok_bind, ok_bind, allSet_ok hm, ok_bind]
  obtain ⟨m', e, h1, h2⟩ := loop_list_acc (l := f.ports) (body := f.portGrad x)
    (fun m => MatsOk m f.meshes.length (sizeIn f.test) (sizeIn f.test)) mget
    (portTerm f (gradOf f x)) hm (by
      intro k p m hp e hm
      obtain ⟨b1, b2, b3, b4⟩ := hf.ports p hp
      have hne : (p.mesh1 == p.mesh2) = false := by simpa using b3
      have l1 : p.mesh1 < f.test.length := by rw [hf.test]; exact b1
      have l2 : p.mesh2 < f.test.length := by rw [hf.test]; exact b2
      have z1 := sizes_get l1
      have z2 := sizes_get l2
      have g1 : ∀ t1 t2, getSubVector (tab (sizeIn f.test p.mesh1) (bent x p.mesh1))
          ((sidesOf f p).rows t1 t2 0) = .ok (gather (bent x p.mesh1) ((sidesOf f p).rows t1 t2 0)) :=
        fun t1 t2 => getSubVector_eq ((rows_lt b4 (sized_of f p) t1 t2).1 0 (by omega))
      have g2 : ∀ t1 t2, getSubVector (tab (sizeIn f.test p.mesh2) (bent x p.mesh2))
          ((sidesOf f p).rows t1 t2 1) = .ok (gather (bent x p.mesh2) ((sidesOf f p).rows t1 t2 1)) :=
        fun t1 t2 => getSubVector_eq ((rows_lt b4 (sized_of f p) t1 t2).1 1 (by omega))
      have hz := sized_of f p
      rw [hsame] at hz
      obtain ⟨m', e', h⟩ := faceGrad_spec (em := gradOf f x p) hm b1 b2 b4 hz
        (by unfold sidesOf; dsimp only; rw [hsame]) (by unfold sidesOf; dsimp only; rw [hsame])
        (x1 := tab (sizeIn f.test p.mesh1) (bent x p.mesh1))
        (x2 := tab (sizeIn f.test p.mesh2) (bent x p.mesh2))
        (by
          intro g t1 t2 e1 e2 h1 h2
          rw [g1] at h1; rw [g2] at h2
          rw [← Except.ok.inj h1, ← Except.ok.inj h2]; rfl)
        (fun i hi t1 t2 _ => ⟨_, _, g1 t1 t2, g2 t1 t2⟩) (hg p hp)
      refine ⟨m', ?_, h⟩
      unfold Form.portGrad
      rw [e, ok_bind, view_ok hm b1 b2, ok_bind, rd_getD b1, ok_bind, rd_getD b2, ok_bind, rd_getD l1,
        ok_bind, rd_getD l2, ok_bind, readBlock_eq hx z1, ok_bind, readBlock_eq hx z2, ok_bind]
      have q1 : ((tab (sizeIn f.test p.mesh1) (bent x p.mesh1)).length ==
        (f.test[p.mesh1]?.getD ⟨0, []⟩).vsize) = true := by simp [sizeIn]
      have q2 : ((tab (sizeIn f.test p.mesh2) (bent x p.mesh2)).length ==
        (f.test[p.mesh2]?.getD ⟨0, []⟩).vsize) = true := by simp [sizeIn]
      rw [q1, q2, require_true, ok_bind, ok_bind, hne]
      exact e')
  exact ⟨m', e, h1, fun a b r c => by rw [h2]; rfl⟩

/-! ## Reference ports -/

/-- The sides of a reference port. -/
def refSides (meshes : List (FMesh δ)) (test trial : List Space) (c1 c2 : Nat) : Sides δ :=
  let none_ : FMesh δ := ⟨fun _ => none, fun _ => 0, fun t _ => t⟩
  ⟨meshes[c1]?.getD none_, meshes[c2]?.getD none_, test[c1]?.getD ⟨0, []⟩, test[c2]?.getD ⟨0, []⟩,
    trial[c1]?.getD ⟨0, []⟩, trial[c2]?.getD ⟨0, []⟩⟩

/-- `AssembleInterfaceMatrixAtPort` returns the four blocks of the interfaces of the reference port,
also when both sides are the same component. -/
theorem assembleAtPort_spec (meshes : List (FMesh δ)) (test trial : List Space)
    (fnfi : List (Option (Integ R δ))) {c1 c2 : Nat} {infos : List InterfaceInfo}
    (h1 : c1 < meshes.length) (h2 : c2 < meshes.length) (h3 : test.length = meshes.length)
    (h4 : trial.length = meshes.length) (hs : SidesOk (refSides meshes test trial c1 c2) infos)
    (hf : IntegsOk (refSides meshes test trial c1 c2) infos fnfi (fun g => g.mat)) :
    ∃ m', assembleAtPort meshes test trial fnfi c1 c2 infos = .ok m' ∧
      MatsOk m' 2 (fun i => sizeIn test (side c1 c2 i)) (fun i => sizeIn trial (side c1 c2 i)) ∧
      ∀ i j r c, mget m' i j r c =
        (infos.map (faceTerm 0 1 (refSides meshes test trial c1 c2) fnfi (fun g => g.mat))).sum
          i j r c := by
  have hm : MatsOk (⟨2, 2, fun i j => some ⟨(if i = 0 then test[c1]?.getD ⟨0, []⟩ else
      test[c2]?.getD ⟨0, []⟩).vsize, (if j = 0 then trial[c1]?.getD ⟨0, []⟩ else
      trial[c2]?.getD ⟨0, []⟩).vsize, []⟩⟩ : MatArr R) 2
      (fun i => sizeIn test (side c1 c2 i)) (fun i => sizeIn trial (side c1 c2 i)) := by
    refine ⟨rfl, rfl, fun a b _ _ => ⟨_, rfl, ?_, ?_⟩⟩ <;>
    · unfold sizeIn side; dsimp only; split <;> rfl
  obtain ⟨m', e, g1, g2⟩ := assembleMatrix_spec hm (a := 0) (b := 1) (by omega) (by omega) hs
    ⟨rfl, rfl, rfl, rfl⟩ hf
  refine ⟨m', ?_, g1, fun i j r c => ?_⟩
  · unfold assembleAtPort
    rw [rd_getD h1, ok_bind, rd_getD h2, ok_bind, rd_getD (by omega), ok_bind, rd_getD (by omega),
      ok_bind, rd_getD (by omega), ok_bind, rd_getD (by omega), ok_bind]
    exact e
  · rw [g2]
    simp only [Pi.add_apply]
    unfold mget
    simp [Sp.get]

/-! ## A concrete form

Three subdomains with two degrees of freedom each, joined in a row by two ports; the second degree
of freedom of an element has a flipped sign, and one side of the second port has its orientation
corrected. -/

def exMat (a b c d : Int) : Mat Int := ⟨2, 2, [a, c, b, d]⟩

def exInteg : Integ Int Nat where
  mat t1 t2 i j := if i = j then exMat (1 + t1.data) 2 3 4 else exMat (-1) 5 0 (t2.data)
  vec t1 t2 e1 e2 i :=
    (List.range 2).map fun r =>
      ∑ c ∈ range e1.length, ent (if i = 0 then exMat (1 + t1.data) 2 3 4 else exMat (-1) 5 0 t2.data) r c
        * ve e1 c +
      ∑ c ∈ range e2.length, ent (if i = 1 then exMat (1 + t1.data) 2 3 4 else exMat (-1) 5 0 t2.data) r c
        * ve e2 c
  grad t1 t2 e1 e2 i j := if i = j then exMat (ve e1 0 + t1.data) 2 3 4 else exMat (-1) 5 0 (ve e2 1)

def exMesh : FMesh Nat :=
  ⟨fun be => if be < 2 then some ⟨0, be⟩ else none, fun _ => 64, fun t _ => { t with data := t.data + 10 }⟩

def exSpace : Space := ⟨2, [[0, -2]]⟩

def exForm : Form Int Nat :=
  ⟨[exMesh, exMesh, exMesh], [exSpace, exSpace, exSpace], [exSpace, exSpace, exSpace], [some exInteg],
    [⟨0, 1, [⟨1, 0, 64, 64⟩]⟩, ⟨1, 2, [⟨1, 0, 64, 65⟩]⟩]⟩

def exMats : MatArr Int := ⟨3, 3, fun _ _ => some ⟨2, 2, []⟩⟩

theorem exForm_ok : FormOk exForm := by
  have hsp : SpaceOk exSpace := by unfold SpaceOk exSpace; decide
  refine ⟨rfl, rfl, fun p hp => ?_⟩
  have hp' : p = ⟨0, 1, [⟨1, 0, 64, 64⟩]⟩ ∨ p = ⟨1, 2, [⟨1, 0, 64, 65⟩]⟩ := by
    simpa [exForm] using hp
  rcases hp' with rfl | rfl <;>
  · refine ⟨by decide, by decide, by decide, ?_, ?_, ?_, hsp, hsp, hsp, hsp⟩
    · intro i hi
      simp at hi; subst hi; left; rfl
    · intro i hi
      simp at hi; subst hi; right; intro h; simp [sidesOf, exForm, exMesh] at h
    · intro i hi t1 t2 h
      simp at hi; subst hi
      simp [Sides.face, sidesOf, exForm, exMesh, trOf] at h
      obtain ⟨rfl, rfl⟩ := h
      decide

theorem exMats_ok : MatsOk exMats exForm.meshes.length (sizeIn exForm.test) (sizeIn exForm.trial) := by
  refine ⟨rfl, rfl, fun a b ha hb => ⟨_, rfl, ?_, ?_⟩⟩
  · have : a < 3 := ha
    interval_cases a <;> rfl
  · have : b < 3 := hb
    interval_cases b <;> rfl

theorem exInteg_shape (i j : Nat) (t1 t2 : Tr Nat) : (exInteg.mat t1 t2 i j).h = 2 ∧
    (exInteg.mat t1 t2 i j).w = 2 ∧ MatOk (exInteg.mat t1 t2 i j) := by
  unfold exInteg
  dsimp only
  split <;> exact ⟨rfl, rfl, Nat.le_refl 4⟩

theorem exElem (p : Port) (hp : p ∈ exForm.ports) (i : InterfaceInfo) (hi : i ∈ p.infos)
    (t1 t2 : Tr Nat) (h : (sidesOf exForm p).face i = some (t1, t2)) (k : Nat) :
    ((sidesOf exForm p).rows t1 t2 k).length = 2 ∧ ((sidesOf exForm p).cols t1 t2 k).length = 2 := by
  have hp' : p = ⟨0, 1, [⟨1, 0, 64, 64⟩]⟩ ∨ p = ⟨1, 2, [⟨1, 0, 64, 65⟩]⟩ := by
    simpa [exForm] using hp
  rcases hp' with rfl | rfl <;>
  · simp at hi; subst hi
    simp [Sides.face, sidesOf, exForm, exMesh, trOf] at h
    obtain ⟨rfl, rfl⟩ := h
    unfold Sides.rows Sides.cols
    split <;> exact ⟨rfl, rfl⟩

theorem exForm_integs (p : Port) (hp : p ∈ exForm.ports) :
    IntegsOk (sidesOf exForm p) p.infos exForm.fnfi (fun g => g.mat) := by
  intro g hg
  have : g = some exInteg := by simpa [exForm] using hg
  subst this
  refine ⟨exInteg, rfl, fun i hi t1 t2 h k l _ _ => ?_⟩
  rw [(exElem p hp i hi t1 t2 h k).1, (exElem p hp i hi t1 t2 h l).2]
  exact exInteg_shape k l t1 t2

theorem exForm_vecs (p : Port) (hp : p ∈ exForm.ports) :
    VecsOk (sidesOf exForm p) p.infos exForm.fnfi := by
  intro g hg
  have : g = some exInteg := by simpa [exForm] using hg
  subst this
  refine ⟨exInteg, rfl, fun i hi t1 t2 h e1 e2 k _ => ?_⟩
  rw [(exElem p hp i hi t1 t2 h k).1]
  simp [exInteg]

theorem exInteg_linear : IsLinear exInteg := by
  intro t1 t2 e1 e2 k r hk hr
  rw [(exInteg_shape k 0 t1 t2).1] at hr
  unfold exInteg
  dsimp only
  refine (ve_tab (n := 2) hr).trans ?_
  have hk' : k = 0 ∨ k = 1 := by omega
  rcases hk' with rfl | rfl <;> rfl

example : FormOk exForm ∧ (∀ p ∈ exForm.ports, IntegsOk (sidesOf exForm p) p.infos exForm.fnfi
      (fun g => g.mat)) ∧ (∀ p ∈ exForm.ports, VecsOk (sidesOf exForm p) p.infos exForm.fnfi) ∧
    MatsOk exMats exForm.meshes.length (sizeIn exForm.test) (sizeIn exForm.trial) ∧
    (∀ g, some g ∈ exForm.fnfi → IsLinear g) ∧ exForm.trial = exForm.test ∧
    HasSizes (⟨[1, 2, 3, 4, 5, 6], [0, 2, 4, 6]⟩ : BlockVector Int) (sizes exForm) :=
  ⟨exForm_ok, exForm_integs, exForm_vecs, exMats_ok, fun g hg => by
    have : g = exInteg := by simpa [exForm] using hg
    subst this; exact exInteg_linear, rfl, by
      refine ⟨⟨rfl, rfl, ?_⟩, rfl⟩
      intro i s h
      have : i < 3 := (List.getElem?_eq_some_iff.1 h).1
      interval_cases i <;> (have : s = 2 := by simpa [sizes, exForm, exSpace] using h.symm) <;>
        subst this <;> decide⟩

/-- The gradient's element matrices have the right shape at any `x`. -/
example (x : BlockVector Int) (p : Port) (hp : p ∈ exForm.ports) :
    IntegsOk (sidesOf exForm p) p.infos exForm.fnfi (gradOf exForm x p) := by
  intro g hg
  have : g = some exInteg := by simpa [exForm] using hg
  subst this
  refine ⟨exInteg, rfl, fun i hi t1 t2 h k l _ _ => ?_⟩
  rw [(exElem p hp i hi t1 t2 h k).1, (exElem p hp i hi t1 t2 h l).2]
  unfold gradOf exInteg
  dsimp only
  split <;> exact ⟨rfl, rfl, Nat.le_refl 4⟩

/-- The assembled example: the middle subdomain receives both ports, the outer pair none; the
matrix-free action agrees. -/
example : (exForm.assemble exMats).map (fun m =>
      [mget m 0 0 0 0, mget m 0 1 0 1, mget m 1 1 0 0, mget m 1 2 1 1, mget m 0 2 0 0]) =
    .ok [2, -5, 4, 10, 0] := by decide +kernel

example : (exForm.addMult ⟨[1, 2, 3, 4, 5, 6], [0, 2, 4, 6]⟩ ⟨[0, 0, 0, 0, 0, 0], [0, 2, 4, 6]⟩).map
    BlockVector.data = .ok [-25, 5, -50, 74, -25, 49] := by decide +kernel

end Verif.InterfaceForm
