import Verif.Spec.Pipeline
import Verif.Props.Online
import Verif.Props.RomElems
import Verif.Props.Options
import Verif.Proofs.CompLoad
import Verif.Proofs.Timer

/-! Helper lemmas for the pipeline from building a ROM to running it. -/

namespace Verif.Pipeline

open Verif Verif.LinAlg Verif.LinAlg.Spec Verif.RomAssembly Verif.Hdf5 Verif.Hdf5.Spec Spec Finset
open Verif.RomHandler (Handler)
open Verif.RomHandler.Spec (vars Ready romBlock)
open Verif.RomAssembly.Spec (BasesOk refB)
open Verif.RomElems.Spec
open Verif.CompSetup (Comp PortRow)
open Verif.Ports (PortData)
open Verif.Boundary (BC)
open Verif.InterfaceForm (side)
open Verif.CompLoad (loop_append_iff)

variable {R F : Type} [CommRing R]

/-- Two loops whose steps preserve a relation. -/
theorem loop_rel {σ τ : Type} {Rel : σ → τ → Prop} {n : Nat} {f : Nat → σ → Outcome σ}
    {g : Nat → τ → Outcome τ} {s : σ} {t : τ} (h0 : Rel s t)
    (hs : ∀ i u v u', i < n → Rel u v → f i u = .ok u' → ∃ v', g i v = .ok v' ∧ Rel u' v')
    {s' : σ} (e : loop n f s = .ok s') : ∃ t', loop n g t = .ok t' ∧ Rel s' t' := by
  induction n generalizing s' with
  | zero => cases e; exact ⟨t, rfl, h0⟩
  | succ n ih =>
    rw [Timer.loop_succ] at e ⊢
    obtain ⟨u, e1, e2⟩ := bind_eq_ok.1 e
    obtain ⟨v, g1, r1⟩ := ih (fun i u v u' hi => hs i u v u' (by omega)) e1
    obtain ⟨w, g2, r2⟩ := hs n u v s' (by omega) r1 e2
    exact ⟨w, by rw [g1, ok_bind, g2], r2⟩

/-! ## The same elements under the same names -/

theorem projectRef_eq {h : Handler R} {nc : Nat} (hb : BasesOk h nc) {c1 c2 v w : Nat}
    (hc1 : c1 < nc) (hc2 : c2 < nc) (hv : v < vars h) (hw : w < vars h) (a : Op R) :
    h.projectRefMat (h.refIndex c1 v) (h.refIndex c2 w) (some a) =
      RomHandler.projectMat (refB h c1 v) (refB h c2 w) a := by
  obtain ⟨l1, g1, m1⟩ := refB_get hb hc1 hv
  obtain ⟨l2, g2, m2⟩ := refB_get hb hc2 hw
  unfold Handler.projectRefMat
  rw [refIndex_nat h c1 hv, refIndex_nat h c2 hw]
  rw [show (decide ((0 : Int) ≤ ((c1 * vars h + v : Nat) : Int)) &&
    decide (((c1 * vars h + v : Nat) : Int) < h.refBasis.length)) = true by simp; omega]
  rw [show (decide ((0 : Int) ≤ ((c2 * vars h + w : Nat) : Int)) &&
    decide (((c2 * vars h + w : Nat) : Int) < h.refBasis.length)) = true by simp; omega]
  rw [require_true, ok_bind, ok_bind, hb.loaded, require_true, ok_bind, Int.toNat_natCast,
    Int.toNat_natCast, rd_eq_ok.2 g1, ok_bind, rd_eq_ok.2 g2, ok_bind]
  rfl

section
variable {h h' : Handler R} {nc nc' : Nat}

theorem putLocal_congr (hb : BasesOk h nc) (hb' : BasesOk h' nc') (hv : vars h = vars h')
    {c1 c2 c1' c2' : Nat} (k1 : c1 < nc) (k2 : c2 < nc) (k1' : c1' < nc') (k2' : c2' < nc')
    (e1 : ∀ v, v < vars h → refB h c1 v = refB h' c1' v)
    (e2 : ∀ v, v < vars h → refB h c2 v = refB h' c2' v) (i0 j0 : Nat) (l : Local R)
    (b : MatBlocks R) : putLocal h c1 c2 i0 j0 l b = putLocal h' c1' c2' i0 j0 l b := by
  unfold putLocal
  rw [nvars_eq, nvars_eq, ← hv]
  refine loop_congr fun v b hv1 => loop_congr fun w b hw1 => ?_
  unfold putBlock
  cases l v w with
  | none => rfl
  | some a =>
    dsimp only
    rw [projectRef_eq hb k1 k2 hv1 hw1, projectRef_eq hb' k1' k2' (by omega) (by omega), e1 v hv1,
      e2 w hw1]

theorem compElem_congr (hb : BasesOk h nc) (hb' : BasesOk h' nc') (hv : vars h = vars h')
    {c c' : Nat} (k : c < nc) (k' : c' < nc') (e : ∀ v, v < vars h → refB h c v = refB h' c' v)
    (l : Local R) : compElem h c l = compElem h' c' l := by
  unfold compElem
  rw [putLocal_congr hb hb' hv k k k' k' e e, nvars_eq, nvars_eq, hv]

theorem portElem_congr (hb : BasesOk h nc) (hb' : BasesOk h' nc') (hv : vars h = vars h')
    {c1 c2 c1' c2' : Nat} (k1 : c1 < nc) (k2 : c2 < nc) (k1' : c1' < nc') (k2' : c2' < nc')
    (e1 : ∀ v, v < vars h → refB h c1 v = refB h' c1' v)
    (e2 : ∀ v, v < vars h → refB h c2 v = refB h' c2' v) (l : Nat → Nat → Local R) :
    portElem h c1 c2 l = portElem h' c1' c2' l := by
  unfold portElem
  rw [nvars_eq, nvars_eq, ← hv]
  have s : ∀ i, side c1 c2 i < nc ∧ side c1' c2' i < nc' ∧
      ∀ v, v < vars h → refB h (side c1 c2 i) v = refB h' (side c1' c2' i) v := by
    intro i
    unfold side
    split
    · exact ⟨k1, k1', e1⟩
    · exact ⟨k2, k2', e2⟩
  refine loop_congr fun i b _ => loop_congr fun j b _ => ?_
  exact putLocal_congr hb hb' hv (s i).1 (s j).1 (s i).2.1 (s j).2.1 (s i).2.2 (s j).2.2 _ _ _ _

end

/-! ## Shapes of the elements -/

theorem putLocal_dims {h : Handler R} {c1 c2 i0 j0 : Nat} {l : Local R} {b b' : MatBlocks R}
    (e : putLocal h c1 c2 i0 j0 l b = .ok b') : b'.nrows = b.nrows ∧ b'.ncols = b.ncols := by
  unfold putLocal at e
  refine loop_inv (fun _ u => u.nrows = b.nrows ∧ u.ncols = b.ncols) ⟨rfl, rfl⟩ ?_ e
  intro v u u' _ hu e
  refine loop_inv (fun _ u => u.nrows = b.nrows ∧ u.ncols = b.ncols) hu ?_ e
  intro w u u' _ hu e
  unfold putBlock at e
  split at e
  · cases e; exact hu
  · obtain ⟨s, _, e⟩ := bind_eq_ok.1 e
    cases e; exact hu

theorem compElem_dims {h : Handler R} {c : Nat} {l : Local R} {b : MatBlocks R}
    (e : compElem h c l = .ok b) : b.nrows = nvars h ∧ b.ncols = nvars h :=
  putLocal_dims e

theorem portElem_dims {h : Handler R} {c1 c2 : Nat} {l : Nat → Nat → Local R} {b : MatBlocks R}
    (e : portElem h c1 c2 l = .ok b) : b.nrows = 2 * nvars h ∧ b.ncols = 2 * nvars h := by
  unfold portElem at e
  refine loop_inv (fun _ u => u.nrows = 2 * nvars h ∧ u.ncols = 2 * nvars h) ⟨rfl, rfl⟩ ?_ e
  intro i u u' _ hu e
  refine loop_inv (fun _ u => u.nrows = 2 * nvars h ∧ u.ncols = 2 * nvars h) hu ?_ e
  intro j u u' _ hu e
  obtain ⟨a, b⟩ := putLocal_dims e
  exact ⟨a.trans hu.1, b.trans hu.2⟩

/-- What `buildElems` makes, element by element. -/
structure Built (h : Handler R) (comps : List Comp) (refPorts : List PortData) (l : LocalOf R)
    (el : RomAssembly.RomElems R) : Prop where
  compLen : el.comp.length = comps.length
  bdrLen : el.bdr.length = comps.length
  portLen : el.port.length = refPorts.length
  comp : ∀ c, c < comps.length → ∃ e, (l.comp c >>= compElem h c) = .ok e ∧ el.comp[c]? = some e
  bdr : ∀ (c : Nat) comp, comps[c]? = some comp → ∃ es, el.bdr[c]? = some es ∧
    es.length = comp.bdrAttributes.length ∧
    ∀ b, b < comp.bdrAttributes.length → ∃ e, (l.bdr c b >>= compElem h c) = .ok e ∧ es[b]? = some e
  port : ∀ (p : Nat) q, refPorts[p]? = some q →
    ∃ e, (l.port p >>= portElem h q.comp1 q.comp2) = .ok e ∧ el.port[p]? = some e

theorem built {h : Handler R} {comps : List Comp} {refPorts : List PortData} {l : LocalOf R}
    {el : RomAssembly.RomElems R} (e : buildElems h comps refPorts l = .ok el) :
    Built h comps refPorts l el := by
  unfold buildElems at e
  obtain ⟨cs, e1, e⟩ := bind_eq_ok.1 e
  obtain ⟨bs, e2, e⟩ := bind_eq_ok.1 e
  obtain ⟨ps, e3, e⟩ := bind_eq_ok.1 e
  cases e
  unfold buildComp at e1
  unfold buildBdr at e2
  unfold buildPorts at e3
  obtain ⟨c1, c2⟩ := (loop_append_iff (g := fun c => l.comp c >>= compElem h c) (by
    intro k _ acc; simp [bind_assoc]; rfl)).1 e1
  obtain ⟨b1, b2⟩ := (loop_append_iff (g := fun c => do
      let comp ← rd comps c
      loop comp.bdrAttributes.length (fun b acc => do
        let x ← l.bdr c b
        let e ← compElem h c x
        return acc ++ [e]) []) (by
    intro k _ acc; simp [bind_assoc]; rfl)).1 e2
  obtain ⟨p1, p2⟩ := (loop_append_iff (g := fun p => do
      let q ← rd refPorts p
      l.port p >>= portElem h q.comp1 q.comp2) (by
    intro k _ acc; simp [bind_assoc]; rfl)).1 e3
  refine ⟨c1, b1, p1, c2, ?_, ?_⟩
  · intro c comp hc
    obtain ⟨es, g1, g2⟩ := b2 c (List.getElem?_eq_some_iff.1 hc).1
    rw [rd_eq_ok.2 hc, ok_bind] at g1
    obtain ⟨q1, q2⟩ := (loop_append_iff (g := fun b => l.bdr c b >>= compElem h c) (by
      intro k _ acc; simp [bind_assoc]; rfl)).1 g1
    exact ⟨es, g2, q1, q2⟩
  · intro p q hq
    obtain ⟨es, g1, g2⟩ := p2 p (List.getElem?_eq_some_iff.1 hq).1
    rw [rd_eq_ok.2 hq, ok_bind] at g1
    exact ⟨es, g1, g2⟩

/-! ## Blocks before and after storage -/

/-- Same shape and entries; a zero block may be missing. -/
def NearBlk (x y : Option (Blk R)) : Prop :=
  match x with
  | none => y = none
  | some x => (y = none ∧ ∀ p q, p < x.h → q < x.w → x.val p q = 0) ∨
      ∃ z, y = some z ∧ z.h = x.h ∧ z.w = x.w ∧ ∀ p q, p < x.h → q < x.w → x.val p q = z.val p q

/-- The same for tables of blocks. -/
structure Near (a b : MatBlocks R) : Prop where
  nrows : b.nrows = a.nrows
  ncols : b.ncols = a.ncols
  blk : ∀ i j, i < a.nrows → j < a.ncols → NearBlk (a.mats i j) (b.mats i j)

theorem stored_blk {fin : Blk R → Csr R} (hf : Finalizes fin) {x : Option (Blk R)} {y : Option (Csr R)}
    (h : match x.map fin with
      | none => y = none
      | some m => if nnz m = 0 then y = none else ∃ m', y = some m' ∧ SameCsr m m') :
    NearBlk x (y.map blkOf) := by
  unfold NearBlk
  cases x with
  | none => dsimp only [Option.map_none] at h ⊢; rw [h]; rfl
  | some x =>
    dsimp only [Option.map_some] at h ⊢
    obtain ⟨f1, f2, f3, f4⟩ := hf x
    split at h
    · rename_i hn
      refine .inl ⟨by rw [h]; rfl, fun p q hp hq => ?_⟩
      rw [← f4 p q hp hq, csrEntry_empty _ f1 hn p q (by omega)]
    · obtain ⟨m', e, hs⟩ := h
      refine .inr ⟨blkOf m', by rw [e]; rfl, hs.1.symm.trans f2, hs.2.1.symm.trans f3, ?_⟩
      intro p q hp hq
      rw [← f4 p q hp hq]
      exact (sameCsr_entry _ m' f1 hs p q (by omega)).symm

theorem near_of_same {fin : Blk R → Csr R} (hf : Finalizes fin) {a : MatBlocks R} {m : MBlocks R}
    (h : SameM (pack fin a) m) : Near a (unpack m) where
  nrows := h.1
  ncols := h.2.1
  blk i j hi hj := stored_blk hf (h.2.2 i j hi hj)

/-! ## Assembly -/

/-- Same offsets, and the same entries inside every block. -/
structure BNear (a b : BlockMat R) : Prop where
  roffs : b.roffs = a.roffs
  coffs : b.coffs = a.coffs
  owns : b.ownsBlocks = a.ownsBlocks
  val : ∀ r c p q : Nat,
    (p : Int) < (a.roffs[r + 1]?.getD 0 : Int) - (a.roffs[r]?.getD 0 : Int) →
    (q : Int) < (a.coffs[c + 1]?.getD 0 : Int) - (a.coffs[c]?.getD 0 : Int) →
    bval b r c p q = bval a r c p q

theorem addTo_offs (b : BlockMat R) (r c : Nat) (m : Blk R) : (b.addTo r c m).roffs = b.roffs ∧
    (b.addTo r c m).coffs = b.coffs ∧ (b.addTo r c m).ownsBlocks = b.ownsBlocks := ⟨rfl, rfl, rfl⟩

theorem step_near {ridx cidx : List Int} {x y : MatBlocks R} (hxy : Near x y) {i j : Nat}
    (hi : i < x.nrows) (hj : j < x.ncols) {a b a' : BlockMat R} (hab : BNear a b)
    (e : addToBlockStep ridx cidx x i j a = .ok a') :
    ∃ b', addToBlockStep ridx cidx y i j b = .ok b' ∧ BNear a' b' := by
  have hblk := hxy.blk i j hi hj
  unfold NearBlk at hblk
  unfold addToBlockStep at e ⊢
  cases hx : x.mats i j with
  | none =>
    rw [hx] at hblk e
    dsimp only at hblk e
    rw [hblk]
    cases e
    exact ⟨b, rfl, hab⟩
  | some m =>
    rw [hx] at hblk e
    dsimp only at hblk e
    obtain ⟨r, er, e⟩ := bind_eq_ok.1 e
    obtain ⟨c, ec, e⟩ := bind_eq_ok.1 e
    obtain ⟨r1, e1, e⟩ := bind_eq_ok.1 e
    obtain ⟨r0, e0, e⟩ := bind_eq_ok.1 e
    obtain ⟨c1, e3, e⟩ := bind_eq_ok.1 e
    obtain ⟨c0, e2, e⟩ := bind_eq_ok.1 e
    obtain ⟨_, eq, e⟩ := bind_eq_ok.1 e
    cases e
    have hd := require_eq_ok.1 eq
    rw [Bool.and_eq_true, decide_eq_true_iff, decide_eq_true_iff] at hd
    have look : ∀ {l : List Nat} {k : Int} {v : Nat}, rdI l k = .ok v → 0 ≤ k ∧ l[k.toNat]? = some v := by
      intro l k v hk
      exact CompLoad.rdI_iff.1 hk
    obtain ⟨p1, q1⟩ := look e1
    obtain ⟨p0, q0⟩ := look e0
    obtain ⟨p3, q3⟩ := look e3
    obtain ⟨p2, q2⟩ := look e2
    have tr : (r + 1).toNat = r.toNat + 1 := by omega
    have tc : (c + 1).toNat = c.toNat + 1 := by omega
    rw [tr] at q1
    rw [tc] at q3
    rcases hblk with ⟨hy, hz⟩ | ⟨n, hy, h1, h2, h3⟩
    · rw [hy]
      refine ⟨b, rfl, hab.roffs, hab.coffs, hab.owns, ?_⟩
      intro a1 d p q hp hq
      rw [hab.val a1 d p q hp hq, bval_addTo]
      by_cases hc : a1 = r.toNat ∧ d = c.toNat
      · rw [if_pos hc, hz p q, add_zero]
        · have : (p : Int) < m.h := by
            rw [(addTo_offs a r.toNat c.toNat m).1, hc.1, q1, q0] at hp
            simp only [Option.getD_some] at hp
            omega
          omega
        · have : (q : Int) < m.w := by
            rw [(addTo_offs a r.toNat c.toNat m).2.1, hc.2, q3, q2] at hq
            simp only [Option.getD_some] at hq
            omega
          omega
      · rw [if_neg hc, add_zero]
    · rw [hy]
      dsimp only
      refine ⟨b.addTo r.toNat c.toNat n, ?_, hab.roffs, hab.coffs, hab.owns, ?_⟩
      · rw [er, ok_bind, ec, ok_bind, hab.roffs, e1, ok_bind, e0, ok_bind, hab.coffs, e3, ok_bind, e2,
          ok_bind, h1, h2, eq, ok_bind]
        rfl
      · intro a1 d p q hp hq
        rw [bval_addTo, bval_addTo, hab.val a1 d p q hp hq]
        by_cases hc : a1 = r.toNat ∧ d = c.toNat
        · rw [if_pos hc, if_pos hc, h3 p q]
          · have : (p : Int) < m.h := by
              rw [(addTo_offs a r.toNat c.toNat m).1, hc.1, q1, q0] at hp
              simp only [Option.getD_some] at hp
              omega
            omega
          · have : (q : Int) < m.w := by
              rw [(addTo_offs a r.toNat c.toNat m).2.1, hc.2, q3, q2] at hq
              simp only [Option.getD_some] at hq
              omega
            omega
        · rw [if_neg hc, if_neg hc]

theorem add_near {ridx cidx : List Int} {x y : MatBlocks R} (hxy : Near x y) {a b a' : BlockMat R}
    (hab : BNear a b) (e : addToBlockMatrix ridx cidx x a = .ok a') :
    ∃ b', addToBlockMatrix ridx cidx y b = .ok b' ∧ BNear a' b' := by
  unfold addToBlockMatrix at e ⊢
  obtain ⟨_, e1, e⟩ := bind_eq_ok.1 e
  obtain ⟨_, e2, e⟩ := bind_eq_ok.1 e
  obtain ⟨_, e3, e⟩ := bind_eq_ok.1 e
  obtain ⟨rm, e4, e⟩ := bind_eq_ok.1 e
  obtain ⟨rM, e5, e⟩ := bind_eq_ok.1 e
  obtain ⟨_, e6, e⟩ := bind_eq_ok.1 e
  obtain ⟨cm, e7, e⟩ := bind_eq_ok.1 e
  obtain ⟨cM, e8, e⟩ := bind_eq_ok.1 e
  obtain ⟨_, e9, e⟩ := bind_eq_ok.1 e
  rw [hab.owns, e1, ok_bind, hxy.nrows, e2, ok_bind, hxy.ncols, e3, ok_bind, e4, ok_bind, e5, ok_bind,
    hab.roffs, e6, ok_bind, e7, ok_bind, e8, ok_bind, hab.coffs, e9, ok_bind]
  have n1 : ridx.length = x.nrows := by simpa using require_eq_ok.1 e2
  have n2 : cidx.length = x.ncols := by simpa using require_eq_ok.1 e3
  refine loop_rel hab ?_ e
  intro i u v u' hi huv e
  refine loop_rel huv ?_ e
  intro j u v u' hj huv e
  exact step_near hxy (by omega) (by omega) huv e

/-- Same elements up to storage. -/
structure ENear (a b : RomAssembly.RomElems R) : Prop where
  comp : ∀ (c : Nat) x, a.comp[c]? = some x → ∃ y, b.comp[c]? = some y ∧ Near x y
  bdr : ∀ (c : Nat) l, a.bdr[c]? = some l → ∃ l', b.bdr[c]? = some l' ∧
    ∀ (k : Nat) x, l[k]? = some x → ∃ y, l'[k]? = some y ∧ Near x y
  port : ∀ (p : Nat) x, a.port[p]? = some x → ∃ y, b.port[p]? = some y ∧ Near x y

theorem assemble_near {h : Handler R} {bc : BC F} {c2g : List (List Int)} {rows : List PortRow}
    {el el' : RomAssembly.RomElems R} (he : ENear el el') {rom : BlockMat R}
    (e : assembleROM h bc c2g rows el = .ok rom) :
    ∃ rom', assembleROM h bc c2g rows el' = .ok rom' ∧ BNear rom rom' := by
  unfold assembleROM at e ⊢
  obtain ⟨u, e1, e2⟩ := bind_eq_ok.1 e
  obtain ⟨u', e1', h1⟩ := loop_rel (Rel := BNear)
    (t := ⟨h.romOffs, h.romOffs, true, fun _ _ => none⟩) (g := addSubdomain h bc c2g el')
    ⟨rfl, rfl, rfl, fun _ _ _ _ _ _ => rfl⟩ (by
      intro m u v u' _ huv e
      unfold addSubdomain at e ⊢
      obtain ⟨c, g1, e⟩ := bind_eq_ok.1 e
      obtain ⟨idx, g2, e⟩ := bind_eq_ok.1 e
      obtain ⟨a, g3, e⟩ := bind_eq_ok.1 e
      obtain ⟨w, g4, e⟩ := bind_eq_ok.1 e
      obtain ⟨row, g5, e⟩ := bind_eq_ok.1 e
      obtain ⟨act, g6, e⟩ := bind_eq_ok.1 e
      obtain ⟨a', ga, na⟩ := he.comp c a (rd_eq_ok.1 g3)
      obtain ⟨w', gw, nw⟩ := add_near na huv g4
      rw [g1, ok_bind, g2, ok_bind, rd_eq_ok.2 ga, ok_bind, gw, ok_bind, g5, ok_bind, g6, ok_bind]
      refine loop_rel nw ?_ e
      intro k u v u' _ huv e
      obtain ⟨b, q1, e⟩ := bind_eq_ok.1 e
      obtain ⟨bs, q2, e⟩ := bind_eq_ok.1 e
      obtain ⟨x, q3, e⟩ := bind_eq_ok.1 e
      obtain ⟨bs', b1, b2⟩ := he.bdr c bs (rd_eq_ok.1 q2)
      obtain ⟨y, b3, b4⟩ := b2 b x (rd_eq_ok.1 q3)
      rw [q1, ok_bind, rd_eq_ok.2 b1, ok_bind, rd_eq_ok.2 b3, ok_bind]
      exact add_near b4 huv e) e1
  rw [e1', ok_bind]
  refine loop_rel h1 ?_ e2
  intro p u v u' _ huv e
  unfold addPort at e ⊢
  obtain ⟨r, g1, e⟩ := bind_eq_ok.1 e
  obtain ⟨x, g2, e⟩ := bind_eq_ok.1 e
  obtain ⟨i1, g3, e⟩ := bind_eq_ok.1 e
  obtain ⟨i2, g4, e⟩ := bind_eq_ok.1 e
  obtain ⟨k0, gx⟩ := CompLoad.rdI_iff.1 g2
  obtain ⟨y, gy, ny⟩ := he.port _ x gx
  rw [g1, ok_bind, CompLoad.rdI_iff.2 ⟨k0, gy⟩, ok_bind, g3, ok_bind, g4, ok_bind]
  exact add_near ny huv e

/-! ## Storing and loading component elements -/

theorem pack_ok {fin : Blk R → Csr R} (hf : Finalizes fin) {m : MatBlocks R} (h1 : 0 < m.nrows)
    (h2 : 0 < m.ncols) : MOk (pack fin m) := by
  refine ⟨h1, h2, fun i j _ _ x hx => ?_⟩
  obtain ⟨b, -, rfl⟩ := Option.map_eq_some_iff.1 hx
  exact (hf b).1

theorem packed_ok {P : Prob R F} (hl : LibOk P.lib) (hv : 0 < nvars P.h) {fin : Blk R → Csr R}
    (hf : Finalizes fin) {el : RomAssembly.RomElems R}
    (hb : Built P.h P.comps P.refPorts P.locals el) :
    Fits P.lib (packElems fin P el) ∧ Proper (packElems fin P el) := by
  have hn : P.comps.length = P.names.length := by simpa [Prob.lib] using hl.bdr
  constructor
  · refine ⟨?_, ?_, ?_, ?_⟩
    · simp [packElems, Prob.lib, hb.compLen, hn]
    · simp [packElems, Prob.lib]
    · refine List.ext_getElem? fun c => ?_
      simp only [packElems, Prob.lib, List.getElem?_map, Option.map_map]
      by_cases hc : c < P.comps.length
      · obtain ⟨es, h1, h2, -⟩ := hb.bdr c _ (List.getElem?_eq_getElem hc)
        rw [h1, List.getElem?_eq_getElem hc]
        simp [h2]
      · rw [List.getElem?_eq_none (by rw [hb.bdrLen]; omega), List.getElem?_eq_none (by omega)]
        rfl
    · simp [packElems, Prob.lib, hb.portLen]
  · refine ⟨?_, ?_, ?_, ?_⟩
    · intro m hm
      simp only [packElems, List.mem_map] at hm
      obtain ⟨x, hx, rfl⟩ := hm
      obtain ⟨c, hc, rfl⟩ := List.getElem_of_mem hx
      obtain ⟨e, h1, h2⟩ := hb.comp c (by rw [← hb.compLen]; exact hc)
      rw [List.getElem?_eq_getElem hc] at h2
      cases h2
      obtain ⟨l, _, h1⟩ := bind_eq_ok.1 h1
      obtain ⟨d1, d2⟩ := compElem_dims h1
      exact pack_ok hf (by omega) (by omega)
    · intro m hm
      simp only [packElems, List.mem_map] at hm
      obtain ⟨_, -, rfl⟩ := hm
      exact ⟨hv, hv, fun i j _ _ m h => by simp [RomElems.emptyBlocks] at h⟩
    · intro l hl m hm
      simp only [packElems, List.mem_map] at hl
      obtain ⟨es, hes, rfl⟩ := hl
      obtain ⟨x, hx, rfl⟩ := List.mem_map.1 hm
      obtain ⟨c, hc, rfl⟩ := List.getElem_of_mem hes
      have hc' : c < P.comps.length := by rw [← hb.bdrLen]; exact hc
      obtain ⟨es, h1, h2, h3⟩ := hb.bdr c _ (List.getElem?_eq_getElem hc')
      rw [List.getElem?_eq_getElem hc] at h1
      cases h1
      obtain ⟨b, hbb, rfl⟩ := List.getElem_of_mem hx
      obtain ⟨e, g1, g2⟩ := h3 b (by omega)
      rw [List.getElem?_eq_getElem hbb] at g2
      cases g2
      obtain ⟨l, _, g1⟩ := bind_eq_ok.1 g1
      obtain ⟨d1, d2⟩ := compElem_dims g1
      exact pack_ok hf (by omega) (by omega)
    · intro m hm
      simp only [packElems, List.mem_map] at hm
      obtain ⟨x, hx, rfl⟩ := hm
      obtain ⟨p, hp, rfl⟩ := List.getElem_of_mem hx
      have hp' : p < P.refPorts.length := by rw [← hb.portLen]; exact hp
      obtain ⟨e, h1, h2⟩ := hb.port p _ (List.getElem?_eq_getElem hp')
      rw [List.getElem?_eq_getElem hp] at h2
      cases h2
      obtain ⟨l, _, h1⟩ := bind_eq_ok.1 h1
      obtain ⟨d1, d2⟩ := portElem_dims h1
      exact pack_ok hf (by omega) (by omega)

/-- The local systems of components, boundaries and reference ports of the same names are the same. -/
structure SameLocals (P P' : Prob R F) : Prop where
  comp : ∀ (c c' : Nat) n, P.names[c]? = some n → P'.names[c']? = some n →
    P.locals.comp c = P'.locals.comp c'
  bdr : ∀ (c c' : Nat) n b, P.names[c]? = some n → P'.names[c']? = some n →
    P.locals.bdr c b = P'.locals.bdr c' b
  port : ∀ p p', EqpStore.Spec.SamePort P.lib.topo P'.lib.topo p p' →
    P.locals.port p = P'.locals.port p'

section
variable {P P' : Prob R F} {refItfs refItfs' : List (List Ports.InterfaceInfo)}

theorem covers (hk : Knows P P' refItfs refItfs') : Covers P.lib P'.lib := by
  refine ⟨?_, fun p' hp' => ?_⟩
  · intro c' hc'
    have hc : c' < P'.names.length := hc'
    obtain ⟨c, hcl, he⟩ := List.getElem_of_mem (hk.names _ (List.getElem_mem hc))
    have h1 : P.names[c]? = some P'.names[c'] := by rw [List.getElem?_eq_getElem hcl, he]
    have h2 : P'.names[c']? = some P'.names[c'] := List.getElem?_eq_getElem hc
    refine ⟨c, ⟨_, h1, h2⟩, ?_⟩
    simp only [Prob.lib, List.getElem?_map]
    rw [(hk.comp c c' _ h1 h2).1]
  · have : p' < P'.refPorts.length := by simpa [Prob.lib] using hp'
    obtain ⟨p, hp, h⟩ := hk.ports p' this
    exact ⟨p, by simpa [Prob.lib] using hp, h⟩

theorem loaded_near (hk : Knows P P' refItfs refItfs') (hs : SameLocals P P') (hl : LibOk P.lib)
    (hl' : LibOk P'.lib) (hb : BasesOk P.h P.comps.length) (hb' : BasesOk P'.h P'.comps.length)
    {fin : Blk R → Csr R} (hf : Finalizes fin) {el el' : RomAssembly.RomElems R}
    (hel : Built P.h P.comps P.refPorts P.locals el)
    (hel' : Built P'.h P'.comps P'.refPorts P'.locals el') {e : RomElems.Elems R}
    (ha : Agree P.lib P'.lib (packElems fin P el) e) : ENear el' (unpackElems e) := by
  have hn : P.comps.length = P.names.length := by simpa [Prob.lib] using hl.bdr
  have hn' : P'.comps.length = P'.names.length := by simpa [Prob.lib] using hl'.bdr
  have find : ∀ c', c' < P'.comps.length → ∃ c n, P.names[c]? = some n ∧ P'.names[c']? = some n ∧
      c < P.comps.length := by
    intro c' hc'
    have hc : c' < P'.names.length := by omega
    obtain ⟨c, hcl, he⟩ := List.getElem_of_mem (hk.names _ (List.getElem_mem hc))
    exact ⟨c, _, by rw [List.getElem?_eq_getElem hcl, he], List.getElem?_eq_getElem hc, by omega⟩
  have near : ∀ {x : MatBlocks R} {a b : Option (MBlocks R)}, a = some (pack fin x) → Same a b →
      ∃ y, b = some y ∧ Near x (unpack y) := by
    rintro x a b rfl ⟨x', y, h1, h2, h3⟩
    cases h1
    exact ⟨y, h2, near_of_same hf h3⟩
  refine ⟨?_, ?_, ?_⟩
  · intro c' x hx
    have hc' : c' < P'.comps.length := by
      rw [← hel'.compLen]; exact (List.getElem?_eq_some_iff.1 hx).1
    obtain ⟨c, n, h1, h2, hc⟩ := find c' hc'
    obtain ⟨x1, g1, g2⟩ := hel.comp c hc
    obtain ⟨x2, g3, g4⟩ := hel'.comp c' hc'
    rw [hx] at g4
    cases g4
    have hx1 : x1 = x := by
      rw [hs.comp c c' n h1 h2, show compElem P.h c = compElem P'.h c' from
        funext fun l => compElem_congr hb hb' hk.vars hc hc' (hk.comp c c' n h1 h2).2 l, g3] at g1
      cases g1; rfl
    subst hx1
    obtain ⟨y, hy, hny⟩ := near (x := x1) (by simp [packElems, g2]) (ha.comp c c' ⟨n, h1, h2⟩)
    exact ⟨_, by simp [unpackElems, hy], hny⟩
  · intro c' l hlst
    have hc' : c' < P'.comps.length := by
      rw [← hel'.bdrLen]; exact (List.getElem?_eq_some_iff.1 hlst).1
    obtain ⟨c, n, h1, h2, hc⟩ := find c' hc'
    have hcomp := (hk.comp c c' n h1 h2).1
    rw [List.getElem?_eq_getElem hc', List.getElem?_eq_getElem hc] at hcomp
    obtain ⟨es, g1, g2, g3⟩ := hel.bdr c _ (List.getElem?_eq_getElem hc)
    obtain ⟨es', g4, g5, g6⟩ := hel'.bdr c' _ (List.getElem?_eq_getElem hc')
    rw [hlst] at g4
    cases g4
    obtain ⟨l1, l2, a1, a2, a3, a4⟩ := ha.bdr c c' ⟨n, h1, h2⟩
    have hl1 : l1 = es.map (pack fin) := by
      simp [packElems, g1] at a1; exact a1.symm
    subst hl1
    refine ⟨l2.map unpack, by simp [unpackElems, a2], ?_⟩
    intro k x hx
    have hkl : k < l.length := (List.getElem?_eq_some_iff.1 hx).1
    have hlen := congrArg (fun c : Comp => c.bdrAttributes.length) (Option.some.inj hcomp)
    obtain ⟨x1, q1, q2⟩ := g3 k (by omega)
    obtain ⟨x2, q3, q4⟩ := g6 k (by omega)
    rw [hx] at q4
    cases q4
    have hx1 : x1 = x := by
      rw [hs.bdr c c' n k h1 h2, show compElem P.h c = compElem P'.h c' from
        funext fun l => compElem_congr hb hb' hk.vars hc hc' (hk.comp c c' n h1 h2).2 l, q3] at q1
      cases q1; rfl
    subst hx1
    obtain ⟨y, hy, hny⟩ := near (x := x1) (by simp [q2]) (a4 k (by rw [List.length_map]; omega))
    exact ⟨_, by simp [hy], hny⟩
  · intro p' x hx
    have hp' : p' < P'.refPorts.length := by
      rw [← hel'.portLen]; exact (List.getElem?_eq_some_iff.1 hx).1
    obtain ⟨p, hp, hsp⟩ := hk.ports p' hp'
    obtain ⟨x1, g1, g2⟩ := hel.port p _ (List.getElem?_eq_getElem hp)
    obtain ⟨x2, g3, g4⟩ := hel'.port p' _ (List.getElem?_eq_getElem hp')
    rw [hx] at g4
    cases g4
    have hx1 : x1 = x := by
      obtain ⟨rp, rp', n1, n2, r1, r2, s1, s2, s3, s4, -, -⟩ := id hsp
      simp only [Prob.lib, List.getElem?_map, List.getElem?_eq_getElem hp,
        List.getElem?_eq_getElem hp', Option.map_some, Option.some.injEq] at r1 r2
      subst r1 r2
      have lt : ∀ {l : List String} {k : Nat} {n : String}, l[k]? = some n → k < l.length :=
        fun h => (List.getElem?_eq_some_iff.1 h).1
      have := lt s1
      have := lt s2
      have := lt s3
      have := lt s4
      simp only [Prob.lib] at *
      rw [hs.port p p' hsp, show portElem P.h P.refPorts[p].comp1 P.refPorts[p].comp2 =
          portElem P'.h P'.refPorts[p'].comp1 P'.refPorts[p'].comp2 from
        funext fun l => portElem_congr hb hb' hk.vars (by omega) (by omega) (by omega) (by omega)
          (hk.comp _ _ n1 s1 s2).2 (hk.comp _ _ n2 s3 s4).2 l, g3] at g1
      cases g1; rfl
    subst hx1
    obtain ⟨y, hy, hny⟩ := near (x := x1) (by simp [packElems, g2]) (ha.port p p' hsp)
    exact ⟨_, by simp [unpackElems, hy], hny⟩

/-- Elements stored by one program and loaded by another assemble to the same operator as elements built
by the second. -/
theorem component_near (hk : Knows P P' refItfs refItfs') (hs : SameLocals P P') (hl : LibOk P.lib)
    (hl' : LibOk P'.lib) (hbd : HasBdr P'.lib) (hb : BasesOk P.h P.comps.length)
    (hb' : BasesOk P'.h P'.comps.length) (hv : 0 < vars P.h)
    {fin : Blk R → Csr R} (hf : Finalizes fin) {el el' : RomAssembly.RomElems R}
    (e1 : buildElems P.h P.comps P.refPorts P.locals = .ok el)
    (e2 : buildElems P'.h P'.comps P'.refPorts P'.locals = .ok el') {rom : BlockMat R}
    (e3 : assembleROM P'.h P'.bc P'.c2g P'.rows el' = .ok rom) :
    ∃ f rom', buildComponent fin P = .ok f ∧ loadComponent P' f = .ok rom' ∧ BNear rom rom' := by
  have b1 := built e1
  have b2 := built e2
  obtain ⟨f1, f2⟩ := packed_ok hl (by rw [nvars_eq]; exact hv) hf b1
  obtain ⟨f, ef⟩ := RomElems.save_succeeds hl f1 f2
  have hv' : 0 < nvars P'.h := by rw [nvars_eq, ← hk.vars]; exact hv
  obtain ⟨e, ee, -, ha⟩ := RomElems.save_load hl hl' hbd f1 f2
    (RomElems.init_ok (R := R) (t := P'.lib) hv').1 (covers hk) ef
  obtain ⟨rom', er, hn⟩ := assemble_near (loaded_near hk hs hl hl' hb hb' hf b1 b2 ha) e3
  refine ⟨f, rom', ?_, ?_, hn⟩
  · unfold buildComponent; rw [e1, ok_bind, ef]
  · unfold loadComponent; rw [ee, ok_bind, er]

end

/-! ## Storing and loading the global operator -/

theorem offs_diff {offs z : List Nat} (h : Blocks.Spec.IsOffsets offs z) {i s : Nat} (hs : z[i]? = some s) :
    (offs[i + 1]?.getD 0 : Int) - (offs[i]?.getD 0 : Int) = s := by
  obtain ⟨o, h1, h2⟩ := h.2.2 i s hs
  rw [h1, h2]
  simp

theorem offs_none {offs z : List Nat} (h : Blocks.Spec.IsOffsets offs z) {i : Nat} (hi : z.length ≤ i) :
    (offs[i + 1]?.getD 0 : Int) - (offs[i]?.getD 0 : Int) ≤ 0 := by
  rw [List.getElem?_eq_none (show offs.length ≤ i + 1 by rw [h.1]; omega)]
  simp

theorem map_getD (l : List Nat) (i : Nat) : (l.map Int.ofNat)[i]?.getD 0 = (l[i]?.getD 0 : Int) := by
  rw [List.getElem?_map]
  cases l[i]? <;> rfl

omit [CommRing R] in
/-- Blocks set in a block matrix fit its offsets. -/
theorem readBlockMatrix_shapes {f : File R} {loc : Loc} {name : String} {off : List Int} {m : BMat R}
    (e : readBlockMatrix f loc name off = .ok m) : ∀ i j b, m.blocks i j = some b →
      i + 1 < off.length ∧ j + 1 < off.length ∧ off[i + 1]?.getD 0 - off[i]?.getD 0 = (b.h : Int) ∧
      off[j + 1]?.getD 0 - off[j]?.getD 0 = (b.w : Int) := by
  unfold readBlockMatrix at e
  iterate 15 obtain ⟨_, _, e⟩ := bind_eq_ok.1 e
  let Inv : Nat → BMat R → Prop := fun _ m => m.rowOffsets = off ∧ m.colOffsets = off ∧
    ∀ i j b, m.blocks i j = some b →
      i + 1 < off.length ∧ j + 1 < off.length ∧ off[i + 1]?.getD 0 - off[i]?.getD 0 = (b.h : Int) ∧
      off[j + 1]?.getD 0 - off[j]?.getD 0 = (b.w : Int)
  refine (loop_inv Inv ⟨rfl, rfl, fun _ _ _ h => by cases h⟩ ?_ e : Inv _ _).2.2
  intro i u v _ hu e
  refine (loop_inv Inv hu ?_ e : Inv _ _)
  intro j u v _ hu e
  obtain ⟨z, _, e⟩ := bind_eq_ok.1 e
  split at e
  · cases e; exact hu
  · obtain ⟨b, _, e⟩ := bind_eq_ok.1 e
    unfold BMat.setBlock at e
    obtain ⟨_, q0, e⟩ := bind_eq_ok.1 e
    obtain ⟨r0, g0, e⟩ := bind_eq_ok.1 e
    obtain ⟨r1, g1, e⟩ := bind_eq_ok.1 e
    obtain ⟨c0, g2, e⟩ := bind_eq_ok.1 e
    obtain ⟨c1, g3, e⟩ := bind_eq_ok.1 e
    obtain ⟨_, q1, e⟩ := bind_eq_ok.1 e
    cases e
    refine ⟨hu.1, hu.2.1, ?_⟩
    intro i' j' b' hb'
    dsimp only at hb'
    split at hb'
    · rename_i hij
      cases hb'
      rw [hij.1, hij.2]
      have h0 := rd_eq_ok.1 g0
      have h1 := rd_eq_ok.1 g1
      have h2 := rd_eq_ok.1 g2
      have h3 := rd_eq_ok.1 g3
      rw [hu.1] at h0 h1
      rw [hu.2.1] at h2 h3
      have q1 := require_eq_ok.1 q1
      rw [Bool.and_eq_true, beq_iff_eq, beq_iff_eq] at q1
      rw [h0, h1, h2, h3]
      exact ⟨(List.getElem?_eq_some_iff.1 h1).1, (List.getElem?_eq_some_iff.1 h3).1, q1.1, q1.2⟩
    · exact hu.2.2 i' j' b' hb'

theorem shapes_of_offs {offs z : List Nat} (ho : Blocks.Spec.IsOffsets offs z) {i h : Nat}
    (hi : i + 1 < offs.length) (hd : (offs[i + 1]?.getD 0 : Int) - (offs[i]?.getD 0 : Int) = h) :
    z[i]? = some h := by
  have hz : i < z.length := by have := ho.1; omega
  have h1 := offs_diff ho (List.getElem?_eq_getElem hz)
  rw [List.getElem?_eq_getElem hz]
  congr 1
  omega

open Verif.Unsteady (Shapes) in
/-- A stored global operator is loaded with the same entries. -/
theorem global_near {h : Handler R} {zr : List Nat} (ho : Blocks.Spec.IsOffsets h.romOffs zr)
    (hz : 0 < zr.length) {fin : Blk R → Csr R} (hf : Finalizes fin) {rom : BlockMat R}
    (hs : Shapes rom zr zr) (h1 : rom.roffs = h.romOffs) (h2 : rom.coffs = h.romOffs)
    (h3 : rom.ownsBlocks = true) :
    ∃ f rom', saveOperator fin rom = .ok f ∧ loadOperator h f = .ok rom' ∧ BNear rom rom' ∧
      Shapes rom' zr zr ∧ rom'.roffs = h.romOffs ∧ rom'.coffs = h.romOffs := by
  have hlen : h.romOffs.length = zr.length + 1 := ho.1
  obtain ⟨f, ef, -, -, -, hread⟩ := blockMatrix_roundTrip ([] : File R) [] "ROM_matrix"
    ⟨valid_empty, rfl, rfl⟩
    ⟨rom.roffs.map Int.ofNat, rom.coffs.map Int.ofNat, fun i j => (rom.blk i j).map fin⟩
    (h.romOffs.map Int.ofNat) (by simp [h1]) (by simp [h2]) (by simp [BMat.nrb, h1, hlen, hz])
    (fun i j _ _ m hm => by
      obtain ⟨b, -, rfl⟩ := Option.map_eq_some_iff.1 hm
      exact (hf b).1)
    (fun i j b _ _ hb => by
      obtain ⟨m, hm, rfl⟩ := Option.map_eq_some_iff.1 hb
      obtain ⟨s1, s2⟩ := hs i j m hm
      rw [map_getD, map_getD, map_getD, map_getD, offs_diff ho s1, offs_diff ho s2, (hf m).2.1,
        (hf m).2.2.1]
      exact ⟨rfl, rfl⟩)
  obtain ⟨r, er, -, -, hsb⟩ := hread f (fun _ _ h => h)
  have hsh := readBlockMatrix_shapes er
  refine ⟨f, ⟨h.romOffs, h.romOffs, true, fun i j => (r.blocks i j).map blkOf⟩, ef, ?_, ?_, ?_, rfl, rfl⟩
  · unfold loadOperator; rw [er, ok_bind]; rfl
  · refine ⟨h1.symm, h2.symm, h3.symm, ?_⟩
    intro a c p q hp hq
    rw [h1] at hp
    rw [h2] at hq
    have ha : a < zr.length := by
      by_contra hn
      have := offs_none ho (i := a) (by omega)
      omega
    have hc : c < zr.length := by
      by_contra hn
      have := offs_none ho (i := c) (by omega)
      omega
    rw [offs_diff ho (List.getElem?_eq_getElem ha)] at hp
    rw [offs_diff ho (List.getElem?_eq_getElem hc)] at hq
    have hn : (BMat.nrb (⟨rom.roffs.map Int.ofNat, rom.coffs.map Int.ofNat,
        fun i j => (rom.blk i j).map fin⟩ : BMat R)) = zr.length := by simp [BMat.nrb, h1, hlen]
    rw [hn] at hsb
    have hb := stored_blk hf (hsb a c ha hc)
    unfold NearBlk at hb
    unfold bval
    dsimp only
    cases hm : rom.blk a c with
    | none =>
      rw [hm] at hb
      dsimp only at hb
      rw [hb]
    | some m =>
      rw [hm] at hb
      dsimp only at hb
      obtain ⟨s1, s2⟩ := hs a c m hm
      rw [List.getElem?_eq_getElem ha] at s1
      rw [List.getElem?_eq_getElem hc] at s2
      have := Option.some.inj s1
      have := Option.some.inj s2
      rcases hb with ⟨e, hzero⟩ | ⟨z, e, -, -, hval⟩
      · rw [e]
        exact (hzero p q (by omega) (by omega)).symm
      · rw [e]
        exact (hval p q (by omega) (by omega)).symm
  · intro i j m hm
    obtain ⟨b, hb, rfl⟩ := Option.map_eq_some_iff.1 hm
    obtain ⟨l1, l2, d1, d2⟩ := hsh i j b hb
    rw [map_getD, map_getD] at d1 d2
    rw [List.length_map] at l1 l2
    exact ⟨shapes_of_offs ho l1 d1, shapes_of_offs ho l2 d2⟩

theorem projectFom_owns {h : Handler R} {L : Nat → Nat → Outcome (Local R)} {rom : BlockMat R}
    (e : projectFom h L = .ok rom) : rom.ownsBlocks = true := by
  unfold projectFom at e
  obtain ⟨tmp, _, e⟩ := bind_eq_ok.1 e
  refine (loop_inv (fun _ (u : BlockMat R) => u.ownsBlocks = true) rfl ?_ e)
  intro a u v _ hu e
  refine (loop_inv (fun _ (u : BlockMat R) => u.ownsBlocks = true) hu ?_ e)
  intro b u v _ hu e
  obtain ⟨s, _, e⟩ := bind_eq_ok.1 e
  cases e
  exact hu

/-! ## Running -/

open Verif.Unsteady (Shapes) in
open Verif.Online (Projects) in
theorem near_projects {h : Handler R} {zr zf : List Nat} (hr : Ready h zr zf)
    {A : Nat → Nat → Nat → Nat → Nat → Nat → R} {rom rom' : BlockMat R} (hp : Projects h zr A rom)
    (hn : BNear rom rom') (hs : Shapes rom' zr zr) : Projects h zr A rom' := by
  refine ⟨hn.roffs.trans hp.roffs, hn.coffs.trans hp.coffs, hs, ?_⟩
  intro m m' v w p q hm hm' hv hw hpp hqq
  rw [hn.val, hp.val m m' v w p q hm hm' hv hw hpp hqq]
  · rw [hp.roffs, offs_diff hr.offs (hr.szR m v hm hv)]
    exact_mod_cast hpp
  · rw [hp.coffs, offs_diff hr.offs (hr.szR m' w hm' hw)]
    exact_mod_cast hqq

/-! ## Components of the same name have the same local systems -/

section
variable {P P' : Prob R F} {refItfs refItfs' : List (List Ports.InterfaceInfo)} {δ : Type}

theorem rd_congr {α : Type} {l l' : List α} {i j : Nat} (h : l[i]? = l'[j]?) : rd l i = rd l' j := by
  unfold rd; rw [h]

theorem atPort_same (hk : Knows P P' refItfs refItfs') {f f' : Forms R δ} (hs : SameForms P P' f f')
    {p p' : Nat} (h : EqpStore.Spec.SamePort P.lib.topo P'.lib.topo p p') :
    f.atPort P.refPorts refItfs p = f'.atPort P'.refPorts refItfs' p' := by
  have hi := hk.itfs p p' h
  obtain ⟨rp, rp', n1, n2, r1, r2, s1, s2, s3, s4, -, -⟩ := h
  simp only [Prob.lib, List.getElem?_map, Option.map_eq_some_iff] at r1 r2
  obtain ⟨q, q1, rfl⟩ := r1
  obtain ⟨q', q1', rfl⟩ := r2
  obtain ⟨a1, a2, a3, a4⟩ := hs.comp _ _ n1 s1 s2
  obtain ⟨b1, b2, b3, b4⟩ := hs.comp _ _ n2 s3 s4
  unfold Forms.atPort InterfaceForm.assembleAtPort
  rw [rd_eq_ok.2 q1, rd_eq_ok.2 q1', ok_bind, ok_bind, rd_congr hi, rd_congr a2, rd_congr b2, rd_congr a3,
    rd_congr b3, rd_congr a4, rd_congr b4, hs.integs]

theorem poisson_same (hk : Knows P P' refItfs refItfs') {f f' : Forms R δ} (hs : SameForms P P' f f')
    (h1 : P.locals = poissonLocals f P.comps P.refPorts refItfs)
    (h2 : P'.locals = poissonLocals f' P'.comps P'.refPorts refItfs') : SameLocals P P' := by
  refine ⟨?_, ?_, ?_⟩
  · intro c c' n g1 g2
    rw [h1, h2]
    unfold poissonLocals
    dsimp only
    rw [rd_congr (hs.comp c c' n g1 g2).1]
  · intro c c' n b g1 g2
    rw [h1, h2]
    unfold poissonLocals
    dsimp only
    rw [rd_congr (hs.comp c c' n g1 g2).1, rd_congr (hk.comp c c' n g1 g2).1]
  · intro p p' hp
    rw [h1, h2]
    unfold poissonLocals
    dsimp only
    rw [atPort_same hk hs hp]

theorem stokes_same (hk : Knows P P' refItfs refItfs') {fm fb fm' fb' : Forms R δ}
    (hs : SameForms P P' fm fm') (hd : SameForms P P' fb fb')
    (h1 : P.locals = stokesLocals P.h.separate fm fb P.comps P.refPorts refItfs)
    (h2 : P'.locals = stokesLocals P'.h.separate fm' fb' P'.comps P'.refPorts refItfs') :
    SameLocals P P' := by
  refine ⟨?_, ?_, ?_⟩
  · intro c c' n g1 g2
    rw [h1, h2]
    unfold stokesLocals
    dsimp only
    rw [rd_congr (hs.comp c c' n g1 g2).1, rd_congr (hd.comp c c' n g1 g2).1, hk.separate]
  · intro c c' n b g1 g2
    rw [h1, h2]
    unfold stokesLocals
    dsimp only
    rw [rd_congr (hs.comp c c' n g1 g2).1, rd_congr (hd.comp c c' n g1 g2).1,
      rd_congr (hk.comp c c' n g1 g2).1, hk.separate]
  · intro p p' hp
    rw [h1, h2]
    unfold stokesLocals
    dsimp only
    rw [atPort_same hk hs hp, atPort_same hk hd hp, hk.separate]

end

/-! ## Files of the other level -/

open Verif.Unsteady (Shapes) in
/-- A file with a global operator holds no component elements. -/
theorem global_file_rejected {h : Handler R} {zr : List Nat} (ho : Blocks.Spec.IsOffsets h.romOffs zr)
    (hz : 0 < zr.length) {fin : Blk R → Csr R} (hf : Finalizes fin) {rom : BlockMat R}
    (hs : Shapes rom zr zr) (h1 : rom.roffs = h.romOffs) (h2 : rom.coffs = h.romOffs) {f : File R}
    (e : saveOperator fin rom = .ok f) (P : Prob R F) : loadComponent P f = .error .abort := by
  have hlen : h.romOffs.length = zr.length + 1 := ho.1
  obtain ⟨f', ef, -, -, hon, -⟩ := blockMatrix_roundTrip ([] : File R) [] "ROM_matrix"
    ⟨valid_empty, rfl, rfl⟩
    ⟨rom.roffs.map Int.ofNat, rom.coffs.map Int.ofNat, fun i j => (rom.blk i j).map fin⟩
    (h.romOffs.map Int.ofNat) (by simp [h1]) (by simp [h2]) (by simp [BMat.nrb, h1, hlen, hz])
    (fun i j _ _ m hm => by
      obtain ⟨b, -, rfl⟩ := Option.map_eq_some_iff.1 hm
      exact (hf b).1)
    (fun i j b _ _ hb => by
      obtain ⟨m, hm, rfl⟩ := Option.map_eq_some_iff.1 hb
      obtain ⟨s1, s2⟩ := hs i j m hm
      rw [map_getD, map_getD, map_getD, map_getD, offs_diff ho s1, offs_diff ho s2, (hf m).2.1,
        (hf m).2.2.1]
      exact ⟨rfl, rfl⟩)
  unfold saveOperator at e
  rw [ef] at e
  cases e
  have hn : find f ⟨[], "components", false⟩ = none := by
    rw [hon ⟨[], "components", false⟩ (by simp) (by simp)]; rfl
  unfold loadComponent RomElems.load RomElems.loadComps openGroup
  rw [hn]
  rfl

/-- A file with component elements holds no global operator. -/
theorem component_file_rejected {P : Prob R F} (hl : LibOk P.lib) (hv : 0 < vars P.h)
    {fin : Blk R → Csr R} (hf : Finalizes fin) {el : RomAssembly.RomElems R}
    (e1 : buildElems P.h P.comps P.refPorts P.locals = .ok el) {f : File R}
    (e : buildComponent fin P = .ok f) (h : Handler R) : loadOperator h f = .error .abort := by
  obtain ⟨f1, f2⟩ := packed_ok hl (by rw [nvars_eq]; exact hv) hf (built e1)
  obtain ⟨g, eg, hg⟩ := RomElems.save_ok hl f1 f2
  unfold buildComponent at e
  rw [e1, ok_bind, eg] at e
  cases e
  unfold loadOperator readBlockMatrix openGroup
  rw [hg.onlyTop "ROM_matrix" (by decide) (by decide)]
  rfl

/-! ## Levels -/

open Verif.Options (Node Conv option_iff required_iff)

theorem readLevel_component {c : Conv} {cfg : Node} {pre : String} (h : Asks c cfg "component" pre) :
    readLevel c cfg = .ok (.component, pre) := by
  unfold readLevel
  rw [(option_iff _ _ _ _ _).2 (.inl h.1), ok_bind, if_neg (by decide), if_neg (by decide),
    if_pos rfl, (required_iff _ _ _ _).2 h.2, ok_bind]
  rfl

theorem readLevel_global {c : Conv} {cfg : Node} {pre : String} (h : Asks c cfg "global" pre) :
    readLevel c cfg = .ok (.global, pre) := by
  unfold readLevel
  rw [(option_iff _ _ _ _ _).2 (.inl h.1), ok_bind, if_neg (by decide), if_pos rfl,
    (required_iff _ _ _ _).2 h.2, ok_bind]
  rfl

theorem readLevel_none {c : Conv} {cfg : Node} (h : AsksNone c cfg) :
    readLevel c cfg = .ok (.none, "") := by
  unfold readLevel
  rw [(option_iff _ _ _ _ _).2 (h.imp id fun h => ⟨h.1, h.2, rfl⟩), ok_bind, if_pos rfl]
  rfl

end Verif.Pipeline
