import Verif.Proofs.RomHandler

/-!
# Property C44: projection and lifting
-/

namespace Verif.RomHandler

open Verif Verif.LinAlg Verif.LinAlg.Spec Verif.Blocks Verif.Blocks.Spec Verif.RomHandler.Spec Finset

variable {R : Type} [CommRing R]

/-! ## Loading the bases -/

theorem copyBasis_loop (carom : List (Option (CMat R)))
    (hc : ∀ c ∈ carom, ∃ b, c = some b ∧ CMatOk b) :
    ∃ ref, loop carom.length (copyBasis carom) [] = .ok ref ∧ ref.length = carom.length ∧
      ∀ k, k < carom.length → ∃ c m, carom[k]? = some (some c) ∧ ref[k]? = some m ∧
        m.h = c.rows ∧ m.w = c.cols ∧ MatOk m ∧
        ∀ i j, i < c.rows → j < c.cols → ent m i j = cent c i j := by
  obtain ⟨ref, h1, h2, h3⟩ := loop_total (n := carom.length) (body := copyBasis carom)
    (fun n ref => ref.length = n ∧ ∀ k, k < n → ∃ c m, carom[k]? = some (some c) ∧ ref[k]? = some m ∧
        m.h = c.rows ∧ m.w = c.cols ∧ MatOk m ∧
        ∀ i j, i < c.rows → j < c.cols → ent m i j = cent c i j) (s := [])
    ⟨rfl, fun k hk => by omega⟩ (by
      rintro n ref hn ⟨r1, r2⟩
      obtain ⟨c, hc1, hc2⟩ := hc carom[n] (List.getElem_mem hn)
      obtain ⟨m, e1, e2, e3, e4, e5⟩ := copyMatrix_spec c
        ⟨c.rows, c.cols, List.replicate (c.rows * c.cols) 0⟩ hc2 (by unfold MatOk; simp)
      refine ⟨ref ++ [m], ?_, by simp [r1], ?_⟩
      · unfold copyBasis
        rw [rd_of_lt hn, ok_bind, hc1]
        show (do let c ← Except.ok c; _) = _
        rw [ok_bind, e1]; rfl
      · intro k hk
        by_cases hkn : k < n
        · obtain ⟨c', m', a, b, d⟩ := r2 k hkn
          exact ⟨c', m', a, by rw [List.getElem?_append_left (by omega)]; exact b, d⟩
        · have : k = n := by omega
          subst this
          exact ⟨c, m, by rw [List.getElem?_eq_getElem hn, hc1], by
            rw [List.getElem?_append_right (by omega), r1]; simp, e2, e3, e4, e5⟩)
  exact ⟨ref, h1, h2, h3⟩

theorem refIndex_eq (h : Handler R) (c v : Nat) (hv : v < vars h) :
    h.refIndex c (if h.separate then (v : Int) else -1) = ((c * vars h + v : Nat) : Int) := by
  unfold Handler.refIndex vars at *
  by_cases hs : h.separate = true
  · simp only [hs, if_true]; push_cast; ring
  · rw [if_neg hs] at hv
    simp only [hs]
    have : v = 0 := by omega
    subst this; simp

theorem pickBasis_loop (h : Handler R) (ref : List (Mat R))
    (hty : ∀ c ∈ h.meshType, c * vars h + vars h ≤ ref.length) :
    ∃ dom, loop h.numBlocks (h.pickBasis ref) [] = .ok dom ∧ dom.length = h.numBlocks ∧
      ∀ m v, m < h.numSub → v < vars h → dom[romBlock h m v]? = some (basisOf h ref m v) := by
  obtain ⟨dom, h1, h2, h3⟩ := loop_total (n := h.numBlocks) (body := h.pickBasis ref)
    (fun n dom => dom.length = n ∧ ∀ m v, m < h.numSub → v < vars h → romBlock h m v < n →
      dom[romBlock h m v]? = some (basisOf h ref m v)) (s := [])
    ⟨rfl, fun m v _ _ hk => by omega⟩ (by
      rintro n dom hn ⟨r1, r2⟩
      obtain ⟨m, v, hm, hv, hn'⟩ := romBlock_surj h hn
      have hm' : m < h.meshType.length := hm
      have hl : h.meshType[m] * vars h + v < ref.length := by
        have := hty _ (List.getElem_mem hm'); omega
      refine ⟨dom ++ [basisOf h ref m v], ?_, by simp [r1], ?_⟩
      · unfold Handler.pickBasis
        rw [← hn', decode h hm hv, ok_bind]
        dsimp only
        rw [show rdI h.meshType (m : Int) = .ok h.meshType[m] by
          unfold rdI; rw [if_pos (by omega), Int.toNat_natCast, rd_of_lt hm'], ok_bind]
        rw [refIndex_eq h _ _ hv]
        rw [show rdI ref ((h.meshType[m] * vars h + v : Nat) : Int) = .ok (basisOf h ref m v) by
          unfold rdI; rw [if_pos (by omega), Int.toNat_natCast, rd_of_lt hl]
          unfold basisOf; simp [hm', hl]]
        rfl
      · intro m' v' hm' hv' hk
        by_cases hkn : romBlock h m' v' < n
        · rw [List.getElem?_append_left (by omega)]; exact r2 m' v' hm' hv' hkn
        · have : romBlock h m' v' = n := by omega
          obtain ⟨a, b⟩ := romBlock_inj h hm' hm hv' hv (by omega)
          subst a; subst b
          rw [List.getElem?_append_right (by omega), r1, this]; simp)
  exact ⟨dom, h1, h2, fun m v hm hv => h3 m v hm hv (romBlock_lt h hm hv)⟩

/-- Loading: with one libROM basis per component (and variable), of the widths used to lay out the
reduced blocks, every subdomain gets exactly the basis of its component, entry by entry, and the
handler is ready. -/
theorem load_ready (h : Handler R) (carom : List (Option (CMat R))) (numComp : Nat)
    (numRef zr zf : List Nat) (compOffs : List Nat)
    (hc : ∀ c ∈ carom, ∃ b, c = some b ∧ CMatOk b)
    (hlen : carom.length = numComp * vars h) (hty : ∀ c ∈ h.meshType, c < numComp)
    (href : numRef.length = carom.length)
    (hcols : ∀ (k : Nat) (c : CMat R), carom[k]? = some (some c) → numRef[k]? = some c.cols)
    (hoffs : setBlockSizes h.separate h.ord h.numVar numComp h.meshType numRef
      = .ok (zr, h.romOffs, compOffs))
    (hzf : zf.length = h.numSub * vars h)
    (hrows : ∀ (m v t : Nat) (c : CMat R), h.meshType[m]? = some t → v < vars h →
      carom[t * vars h + v]? = some (some c) → zf[m * vars h + v]? = some c.rows) :
    ∃ h', h.load carom = .ok h' ∧ Ready h' zr zf ∧ h'.separate = h.separate ∧ h'.ord = h.ord ∧
      h'.numVar = h.numVar ∧ h'.meshType = h.meshType ∧ h'.romOffs = h.romOffs ∧
      ∀ m v t, h.meshType[m]? = some t → v < vars h → ∃ c, carom[t * vars h + v]? = some (some c) ∧
        (basisOf h' h'.refBasis m v).h = c.rows ∧ (basisOf h' h'.refBasis m v).w = c.cols ∧
        ∀ i j, i < c.rows → j < c.cols → ent (basisOf h' h'.refBasis m v) i j = cent c i j := by
  obtain ⟨ref, e1, e2, e3⟩ := copyBasis_loop carom hc
  have hidx : ∀ c ∈ h.meshType, c * vars h + vars h ≤ ref.length := by
    intro c hcm
    rw [e2, hlen]
    have := Nat.mul_le_mul_right (vars h) (show c + 1 ≤ numComp from hty c hcm)
    rw [Nat.add_mul, Nat.one_mul] at this
    exact this
  obtain ⟨dom, d1, d2, d3⟩ := pickBasis_loop h ref hidx
  have hb : ∀ m v t, h.meshType[m]? = some t → v < vars h →
      ∃ c, carom[t * vars h + v]? = some (some c) ∧ (basisOf h ref m v).h = c.rows ∧
        (basisOf h ref m v).w = c.cols ∧
        ∀ i j, i < c.rows → j < c.cols → ent (basisOf h ref m v) i j = cent c i j := by
    intro m v t ht hv
    have hlt : t * vars h + v < carom.length := by
      have := hidx t (List.mem_of_getElem? ht); omega
    obtain ⟨c, b, c1, c2, c3, c4, _, c5⟩ := e3 _ hlt
    have : basisOf h ref m v = b := by unfold basisOf; rw [ht]; simp [c2]
    rw [this]
    exact ⟨c, c1, c3, c4, c5⟩
  have hsz : IsOffsets h.romOffs zr ∧ zr.length = h.numSub * vars h ∧
      ∀ m v t, h.meshType[m]? = some t → v < vars h →
        zr[romBlock h m v]? = numRef[t * vars h + v]? := by
    by_cases hs : h.separate = true
    · have hvar : vars h = h.numVar := by unfold vars; rw [if_pos hs]
      obtain ⟨nb, of, co, s1, s2, s3, s4, _⟩ := setBlockSizes_separate h.ord h.numVar numComp
        h.meshType numRef (by rw [href, hlen, hvar]) hty
      rw [hs] at hoffs
      rw [s1] at hoffs
      have hq := Except.ok.inj hoffs
      simp only [Prod.mk.injEq] at hq
      obtain ⟨q1, q2, _⟩ := hq
      subst q1
      rw [q2] at s3
      refine ⟨s3, by rw [s2, hvar]; rfl, ?_⟩
      intro m v t ht hv
      have hm : m < h.numSub := (List.getElem?_eq_some_iff.1 ht).1
      obtain ⟨b, b1, _, _, b2⟩ := blockIndex_decode h.ord h.numSub h.numVar m v (by omega) (by omega)
        (by omega) (by omega)
      have := (s4 m v t b ht (by omega) b1).1
      have hb : b.toNat = romBlock h m v := by
        have hv0 : ¬ (v : Int) < 0 := by omega
        cases ho : h.ord with
        | domain =>
          rw [ho] at b1
          simp only [getBlockIndex, hv0, if_false, Bool.not_true, Bool.false_eq_true, pure,
            Except.pure] at b1
          rw [← Except.ok.inj b1]
          unfold romBlock; rw [ho, hvar]; dsimp only
          rw [show (v : Int) + (m : Int) * (h.numVar : Int) = ((m * h.numVar + v : Nat) : Int) by
            push_cast; ring, Int.toNat_natCast]
        | «variable» =>
          rw [ho] at b1
          simp only [getBlockIndex, hv0, if_false, Bool.not_true, Bool.false_eq_true, pure,
            Except.pure] at b1
          rw [← Except.ok.inj b1]
          unfold romBlock; rw [ho, if_pos hs]
          rw [show (m : Int) + (v : Int) * (h.numSub : Int) = ((v * h.numSub + m : Nat) : Int) by
            push_cast; ring, Int.toNat_natCast]
      rw [← hb, this, hvar]
    · have hs' : h.separate = false := by simpa using hs
      have hvar : vars h = 1 := by unfold vars; rw [if_neg hs]
      have hnc : numComp = numRef.length := by rw [href, hlen, hvar]; omega
      obtain ⟨nb, of, co, s1, s2, s3, s4, _⟩ := setBlockSizes_unified h.ord h.numVar
        h.meshType numRef (by rw [← hnc]; exact hty)
      rw [hs', hnc, s1] at hoffs
      have hq := Except.ok.inj hoffs
      simp only [Prod.mk.injEq] at hq
      obtain ⟨q1, q2, _⟩ := hq
      subst q1
      rw [q2] at s3
      refine ⟨s3, by rw [s2, hvar]; simp [Handler.numSub], ?_⟩
      intro m v t ht hv
      have hv0 : v = 0 := by omega
      have : romBlock h m v = m := by unfold romBlock; cases h.ord <;> simp [hvar, hs', hv0]
      rw [this, s4 m t ht, hvar, hv0]; simp
  obtain ⟨z1, z2, z3⟩ := hsz
  refine ⟨{ h with refBasis := ref, domBasis := dom, loaded := true }, ?_, ?_, rfl, rfl, rfl, rfl, rfl, hb⟩
  · unfold Handler.load
    rw [e1, ok_bind, d1]; rfl
  · refine ⟨rfl, d3, z1, z2, hzf, ?_, ?_⟩
    · intro m v hm hv
      have ht : h.meshType[m]? = some h.meshType[m] := List.getElem?_eq_getElem hm
      obtain ⟨c, c1, _, c3, _⟩ := hb m v _ ht hv
      show zr[romBlock h m v]? = some (basisOf h ref m v).w
      rw [c3, z3 m v _ ht hv]
      exact hcols _ _ c1
    · intro m v hm hv
      have ht : h.meshType[m]? = some h.meshType[m] := List.getElem?_eq_getElem hm
      obtain ⟨c, c1, c2, _, _⟩ := hb m v _ ht hv
      show zf[m * vars h + v]? = some (basisOf h ref m v).h
      rw [c2]
      exact hrows m v _ c ht hv c1

/-- A missing basis stops the load, wherever it is. -/
theorem load_missing (h : Handler R) (carom : List (Option (CMat R)))
    (hc : ∀ c ∈ carom, c = none ∨ ∃ b, c = some b ∧ CMatOk b) (hk : none ∈ carom) :
    h.load carom = .error .abort := by
  obtain ⟨k, hkl, hk⟩ := List.getElem_of_mem hk
  have : loop carom.length (copyBasis carom) [] = .error .abort := by
    refine loop_error_of (fun _ => True) trivial ?_ ⟨k, hkl, ?_⟩
    · intro n s hn _
      rcases hc carom[n] (List.getElem_mem hn) with c1 | ⟨c, c1, c2⟩
      · right
        unfold copyBasis
        rw [rd_of_lt hn, ok_bind, c1]
        rfl
      · left
        obtain ⟨m, e1, _⟩ := copyMatrix_spec c
          ⟨c.rows, c.cols, List.replicate (c.rows * c.cols) 0⟩ c2 (by unfold MatOk; simp)
        refine ⟨s ++ [m], ?_, trivial⟩
        unfold copyBasis
        rw [rd_of_lt hn, ok_bind, c1]
        show (do let c ← Except.ok c; _) = _
        rw [ok_bind, e1]; rfl
    · intro s _
      unfold copyBasis
      rw [rd_of_lt hkl, ok_bind, hk]
      rfl
  unfold Handler.load
  rw [this]; rfl

/-! ## Projection and lifting of vectors -/

theorem domainBasis_eq {h : Handler R} {zr zf : List Nat} (hr : Ready h zr zf) {m v : Nat}
    (hm : m < h.numSub) (hv : v < vars h) :
    h.domainBasis (romBlock h m v) = .ok (basisOf h h.refBasis m v) := by
  unfold Handler.domainBasis
  rw [hr.loaded, require_true, ok_bind, decide_eq_true (romBlock_lt h hm hv), require_true, ok_bind,
    rd_eq_ok.2 (hr.basis m v hm hv)]

theorem projectStep_eq {h : Handler R} {zr zf : List Nat} (hr : Ready h zr zf)
    {vec rom : BlockVector R} (hvec : HasSizes vec zf) (hrom : HasSizes rom zr) {m v : Nat}
    (hm : m < h.numSub) (hv : v < vars h) :
    h.projectStep vec (romBlock h m v) rom = writeBlock rom (romBlock h m v)
      (tab (basisOf h h.refBasis m v).w (fun c => ∑ r ∈ range (basisOf h h.refBasis m v).h,
        ent (basisOf h h.refBasis m v) r c * bent vec (fomBlock h m v) r)) := by
  unfold Handler.projectStep
  rw [fomIndex_eq h hm hv, ok_bind, readBlock_eq hvec (hr.szF m v hm hv), ok_bind,
    hrom.blockSize (hr.szR m v hm hv), ok_bind]
  unfold Handler.projectDomain
  rw [domainBasis_eq hr hm hv, ok_bind]
  rw [length_tab, beq_self_eq_true, beq_self_eq_true, require_true, ok_bind, ok_bind,
    multTranspose_eq (length_tab _ _), ok_bind]
  congr 1
  refine tab_congr fun c _ => sum_congr rfl fun r hr' => ?_
  rw [ve_tab (mem_range.1 hr')]

theorem liftStep_eq {h : Handler R} {zr zf : List Nat} (hr : Ready h zr zf)
    {vec rom : BlockVector R} (hvec : HasSizes vec zf) (hrom : HasSizes rom zr) {m v : Nat}
    (hm : m < h.numSub) (hv : v < vars h) :
    h.liftStep rom (romBlock h m v) vec = writeBlock vec (fomBlock h m v)
      (tab (basisOf h h.refBasis m v).h (fun r => ∑ c ∈ range (basisOf h h.refBasis m v).w,
        ent (basisOf h h.refBasis m v) r c * bent rom (romBlock h m v) c)) := by
  unfold Handler.liftStep
  rw [fomIndex_eq h hm hv, ok_bind, readBlock_eq hrom (hr.szR m v hm hv), ok_bind,
    hvec.blockSize (hr.szF m v hm hv), ok_bind]
  unfold Handler.liftDomain
  rw [domainBasis_eq hr hm hv, ok_bind]
  rw [length_tab, beq_self_eq_true, beq_self_eq_true, require_true, ok_bind, ok_bind,
    Mat.mult_eq (length_tab _ _), ok_bind]
  congr 1
  refine tab_congr fun c _ => sum_congr rfl fun r hr' => ?_
  rw [ve_tab (mem_range.1 hr')]

/-- Projection: each reduced block is `basis^T` times the full-order block of the same subdomain and
variable, whatever the ordering of the reduced blocks and the previous contents of the target. -/
theorem project_spec {h : Handler R} {zr zf : List Nat} (hr : Ready h zr zf) (vec : BlockVector R)
    (hvec : HasSizes vec zf) (junk : Nat → R) :
    ∃ rom, h.project vec junk = .ok rom ∧ HasSizes rom zr ∧ rom.offsets = h.romOffs ∧
      ∀ m v c, m < h.numSub → v < vars h → c < (basisOf h h.refBasis m v).w →
        bent rom (romBlock h m v) c = ∑ r ∈ range (basisOf h h.refBasis m v).h,
          ent (basisOf h h.refBasis m v) r c * bent vec (fomBlock h m v) r := by
  have hn : vec.numBlocks = h.numBlocks := by rw [hvec.numBlocks, hr.lenF, numBlocks_eq]
  have hlast : h.romOffs[h.numBlocks]? = some zr.sum := by
    rw [numBlocks_eq, ← hr.lenR]; exact hr.offs.last
  obtain ⟨rom, e1, e2, e3, e4⟩ := loop_total (n := h.numBlocks) (body := h.projectStep vec)
    (fun n rom => HasSizes rom zr ∧ rom.offsets = h.romOffs ∧
      ∀ m v c, m < h.numSub → v < vars h → romBlock h m v < n → c < (basisOf h h.refBasis m v).w →
        bent rom (romBlock h m v) c = ∑ r ∈ range (basisOf h h.refBasis m v).h,
          ent (basisOf h h.refBasis m v) r c * bent vec (fomBlock h m v) r)
    (s := ⟨(List.range zr.sum).map junk, h.romOffs⟩)
    ⟨⟨hr.offs, by simp⟩, rfl, fun m v c _ _ hk => by omega⟩ (by
      rintro n rom hn ⟨r1, r2, r3⟩
      obtain ⟨m, v, hm, hv, hn'⟩ := romBlock_surj h hn
      obtain ⟨rom', w1, w2, w3, w4⟩ := writeBlock_spec r1 (i := romBlock h m v)
        (l := tab (basisOf h h.refBasis m v).w (fun c => ∑ r ∈ range (basisOf h h.refBasis m v).h,
          ent (basisOf h h.refBasis m v) r c * bent vec (fomBlock h m v) r))
        (by rw [length_tab]; exact hr.szR m v hm hv)
      refine ⟨rom', by rw [← hn', projectStep_eq hr hvec r1 hm hv]; exact w1, w2,
        w2.1.unique hr.offs, ?_⟩
      intro m' v' c hm' hv' hk hc
      by_cases hkn : romBlock h m' v' = romBlock h m v
      · obtain ⟨a, b⟩ := romBlock_inj h hm' hm hv' hv hkn
        subst a; subst b
        rw [w3 c (by rw [length_tab]; exact hc), ve_tab hc]
      · rw [w4 _ _ _ hkn (hr.szR m' v' hm' hv') hc]
        exact r3 m' v' c hm' hv' (by omega) hc)
  refine ⟨rom, ?_, e2, e3, fun m v c hm hv hc => e4 m v c hm hv (romBlock_lt h hm hv) hc⟩
  unfold Handler.project
  rw [hn, beq_self_eq_true, require_true, ok_bind, rd_eq_ok.2 hlast, ok_bind]
  exact e1

/-- Lifting: each full-order block is the basis times the reduced block of the same subdomain and
variable; every entry of the target is overwritten. -/
theorem lift_spec {h : Handler R} {zr zf : List Nat} (hr : Ready h zr zf) (rom vec : BlockVector R)
    (hrom : HasSizes rom zr) (hvec : HasSizes vec zf) :
    ∃ vec', h.lift rom vec = .ok vec' ∧ HasSizes vec' zf ∧
      ∀ m v r, m < h.numSub → v < vars h → r < (basisOf h h.refBasis m v).h →
        bent vec' (fomBlock h m v) r = ∑ c ∈ range (basisOf h h.refBasis m v).w,
          ent (basisOf h h.refBasis m v) r c * bent rom (romBlock h m v) c := by
  have hn : vec.numBlocks = h.numBlocks := by rw [hvec.numBlocks, hr.lenF, numBlocks_eq]
  have hn' : rom.numBlocks = h.numBlocks := by rw [hrom.numBlocks, hr.lenR, numBlocks_eq]
  obtain ⟨vec', e1, e2, e4⟩ := loop_total (n := h.numBlocks) (body := h.liftStep rom)
    (fun n vec' => HasSizes vec' zf ∧
      ∀ m v r, m < h.numSub → v < vars h → romBlock h m v < n → r < (basisOf h h.refBasis m v).h →
        bent vec' (fomBlock h m v) r = ∑ c ∈ range (basisOf h h.refBasis m v).w,
          ent (basisOf h h.refBasis m v) r c * bent rom (romBlock h m v) c)
    (s := vec)
    ⟨hvec, fun m v c _ _ hk => by omega⟩ (by
      rintro n vec' hn ⟨r1, r3⟩
      obtain ⟨m, v, hm, hv, hn'⟩ := romBlock_surj h hn
      obtain ⟨rom', w1, w2, w3, w4⟩ := writeBlock_spec r1 (i := fomBlock h m v)
        (l := tab (basisOf h h.refBasis m v).h (fun r => ∑ c ∈ range (basisOf h h.refBasis m v).w,
          ent (basisOf h h.refBasis m v) r c * bent rom (romBlock h m v) c))
        (by rw [length_tab]; exact hr.szF m v hm hv)
      refine ⟨rom', by rw [← hn', liftStep_eq hr r1 hrom hm hv]; exact w1, w2, ?_⟩
      intro m' v' c hm' hv' hk hc
      by_cases hkn : fomBlock h m' v' = fomBlock h m v
      · obtain ⟨a, b⟩ := fomBlock_inj h hv' hv hkn
        subst a; subst b
        rw [w3 c (by rw [length_tab]; exact hc), ve_tab hc]
      · rw [w4 _ _ _ hkn (hr.szF m' v' hm' hv') hc]
        refine r3 m' v' c hm' hv' ?_ hc
        by_contra hge
        have : romBlock h m' v' = romBlock h m v := by omega
        obtain ⟨a, b⟩ := romBlock_inj h hm' hm hv' hv this
        subst a; subst b; exact hkn rfl)
  refine ⟨vec', ?_, e2, fun m v c hm hv hc => e4 m v c hm hv (romBlock_lt h hm hv) hc⟩
  unfold Handler.lift
  rw [hn, hn', beq_self_eq_true, require_true, ok_bind, ok_bind]
  exact e1

/-- Projecting a lifted vector returns it, for orthonormal bases. -/
theorem project_lift {h : Handler R} {zr zf : List Nat} (hr : Ready h zr zf) (ho : Orthonormal h)
    (rom vec vec' : BlockVector R) (hrom : HasSizes rom zr) (hvec : HasSizes vec zf)
    (e : h.lift rom vec = .ok vec') (junk : Nat → R) : h.project vec' junk = .ok rom := by
  obtain ⟨x, x1, x2, x3⟩ := lift_spec hr rom vec hrom hvec
  rw [e] at x1
  obtain rfl := Except.ok.inj x1
  obtain ⟨y, y1, y2, _, y3⟩ := project_spec hr vec' x2 junk
  rw [y1]
  congr 1
  refine bent_ext y2 hrom fun i s k hs hk => ?_
  have hi : i < h.numBlocks := by
    have := (List.getElem?_eq_some_iff.1 hs).1
    rw [hr.lenR] at this; rw [numBlocks_eq]; exact this
  obtain ⟨m, v, hm, hv, rfl⟩ := romBlock_surj h hi
  have hw : s = (basisOf h h.refBasis m v).w := by
    have := hr.szR m v hm hv; rw [hs] at this; exact Option.some.inj this
  rw [hw] at hk
  rw [y3 m v k hm hv hk]
  calc _ = ∑ r ∈ range (basisOf h h.refBasis m v).h, ∑ c ∈ range (basisOf h h.refBasis m v).w,
        ent (basisOf h h.refBasis m v) r k * ent (basisOf h h.refBasis m v) r c *
          bent rom (romBlock h m v) c := by
        refine sum_congr rfl fun r hr' => ?_
        rw [x3 m v r hm hv (mem_range.1 hr'), mul_sum]
        exact sum_congr rfl fun c _ => by ring
    _ = ∑ c ∈ range (basisOf h h.refBasis m v).w, (if k = c then 1 else 0) *
          bent rom (romBlock h m v) c := by
        rw [sum_comm]
        refine sum_congr rfl fun c hc => ?_
        rw [← sum_mul, ho m v k c hm hv hk (mem_range.1 hc)]
    _ = _ := by
        simp only [ite_mul, one_mul, zero_mul]
        rw [sum_ite_eq, if_pos (mem_range.2 hk)]

/-- Lifting the projection of a vector in the span of the bases returns that vector. -/
theorem lift_project_span {h : Handler R} {zr zf : List Nat} (hr : Ready h zr zf)
    (ho : Orthonormal h) (x : BlockVector R) (hx : HasSizes x zf) (coef : Nat → Nat → Nat → R)
    (hspan : ∀ m v r, m < h.numSub → v < vars h → r < (basisOf h h.refBasis m v).h →
      bent x (fomBlock h m v) r = ∑ c ∈ range (basisOf h h.refBasis m v).w,
        coef m v c * ent (basisOf h h.refBasis m v) r c)
    (junk : Nat → R) (vec rom : BlockVector R) (hvec : HasSizes vec zf)
    (e : h.project x junk = .ok rom) : h.lift rom vec = .ok x := by
  obtain ⟨y, y1, y2, _, y3⟩ := project_spec hr x hx junk
  rw [e] at y1
  obtain rfl := Except.ok.inj y1
  obtain ⟨z, z1, z2, z3⟩ := lift_spec hr rom vec y2 hvec
  rw [z1]
  congr 1
  have hc : ∀ m v c, m < h.numSub → v < vars h → c < (basisOf h h.refBasis m v).w →
      bent rom (romBlock h m v) c = coef m v c := by
    intro m v k hm hv hk
    rw [y3 m v k hm hv hk]
    calc _ = ∑ r ∈ range (basisOf h h.refBasis m v).h, ∑ c ∈ range (basisOf h h.refBasis m v).w,
          ent (basisOf h h.refBasis m v) r k * ent (basisOf h h.refBasis m v) r c * coef m v c := by
          refine sum_congr rfl fun r hr' => ?_
          rw [hspan m v r hm hv (mem_range.1 hr'), mul_sum]
          exact sum_congr rfl fun c _ => by ring
      _ = ∑ c ∈ range (basisOf h h.refBasis m v).w, (if k = c then 1 else 0) * coef m v c := by
          rw [sum_comm]
          refine sum_congr rfl fun c hc => ?_
          rw [← sum_mul, ho m v k c hm hv hk (mem_range.1 hc)]
      _ = _ := by
          simp only [ite_mul, one_mul, zero_mul]
          rw [sum_ite_eq, if_pos (mem_range.2 hk)]
  refine bent_ext z2 hx fun i s r hs hk => ?_
  have hi : i < h.numBlocks := by
    have := (List.getElem?_eq_some_iff.1 hs).1
    rw [hr.lenF] at this; rw [numBlocks_eq]; exact this
  obtain ⟨m, v, hm, hv, rfl⟩ := fomBlock_surj h hi
  have hw : s = (basisOf h h.refBasis m v).h := by
    have := hr.szF m v hm hv; rw [hs] at this; exact Option.some.inj this
  rw [hw] at hk
  rw [z3 m v r hm hv hk, hspan m v r hm hv hk]
  refine sum_congr rfl fun c hc' => ?_
  rw [hc m v c hm hv (mem_range.1 hc'), mul_comm]

/-- Lift after project is idempotent. -/
theorem lift_project_idempotent {h : Handler R} {zr zf : List Nat} (hr : Ready h zr zf)
    (ho : Orthonormal h) (x : BlockVector R) (hx : HasSizes x zf) (junk : Nat → R)
    (vec : BlockVector R) (hvec : HasSizes vec zf) :
    ∃ rom y, h.project x junk = .ok rom ∧ h.lift rom vec = .ok y ∧
      ∀ junk' vec', HasSizes vec' zf →
        ∃ rom', h.project y junk' = .ok rom' ∧ h.lift rom' vec' = .ok y := by
  obtain ⟨rom, a1, a2, _, _⟩ := project_spec hr x hx junk
  obtain ⟨y, b1, b2, b3⟩ := lift_spec hr rom vec a2 hvec
  refine ⟨rom, y, a1, b1, fun junk' vec' hv' => ?_⟩
  refine ⟨rom, project_lift hr ho rom vec y a2 hvec b1 junk', ?_⟩
  obtain ⟨y', c1, c2, c3⟩ := lift_spec hr rom vec' a2 hv'
  rw [c1]
  congr 1
  refine bent_ext c2 b2 fun i s r hs hk => ?_
  have hi : i < h.numBlocks := by
    have := (List.getElem?_eq_some_iff.1 hs).1
    rw [hr.lenF] at this; rw [numBlocks_eq]; exact this
  obtain ⟨m, v, hm, hv, rfl⟩ := fomBlock_surj h hi
  have hw : s = (basisOf h h.refBasis m v).h := by
    have := hr.szF m v hm hv; rw [hs] at this; exact Option.some.inj this
  rw [hw] at hk
  rw [c3 m v r hm hv hk, b3 m v r hm hv hk]

/-- What the projection drops is orthogonal to every basis vector: the error of lift after project
is orthogonal to the bases, block by block. -/
theorem lift_project_orthogonal {h : Handler R} {zr zf : List Nat} (hr : Ready h zr zf)
    (ho : Orthonormal h) (x : BlockVector R) (hx : HasSizes x zf) (junk : Nat → R)
    (vec rom y : BlockVector R) (hvec : HasSizes vec zf) (e1 : h.project x junk = .ok rom)
    (e2 : h.lift rom vec = .ok y) (m v c : Nat) (hm : m < h.numSub) (hv : v < vars h)
    (hc : c < (basisOf h h.refBasis m v).w) :
    ∑ r ∈ range (basisOf h h.refBasis m v).h, ent (basisOf h h.refBasis m v) r c *
      (bent x (fomBlock h m v) r - bent y (fomBlock h m v) r) = 0 := by
  obtain ⟨rom', a1, a2, _, a3⟩ := project_spec hr x hx junk
  rw [e1] at a1
  obtain rfl := Except.ok.inj a1
  obtain ⟨y', b1, b2, _⟩ := lift_spec hr rom vec a2 hvec
  rw [e2] at b1
  obtain rfl := Except.ok.inj b1
  obtain ⟨rom', c1, _, _, c3⟩ := project_spec hr y b2 junk
  rw [project_lift hr ho rom vec y a2 hvec e2 junk] at c1
  obtain rfl := Except.ok.inj c1
  simp only [mul_sub]
  rw [sum_sub_distrib, ← a3 m v c hm hv hc, ← c3 m v c hm hv hc, sub_self]

/-- Blocks do not mix: two full-order vectors that agree on a subdomain and variable have the same
reduced block there. -/
theorem project_local {h : Handler R} {zr zf : List Nat} (hr : Ready h zr zf)
    (x x' rom rom' : BlockVector R) (hx : HasSizes x zf) (hx' : HasSizes x' zf)
    (junk junk' : Nat → R) (e : h.project x junk = .ok rom) (e' : h.project x' junk' = .ok rom')
    (m v : Nat) (hm : m < h.numSub) (hv : v < vars h)
    (hag : blockOf x (fomBlock h m v) = blockOf x' (fomBlock h m v)) :
    ∀ c, c < (basisOf h h.refBasis m v).w →
      bent rom (romBlock h m v) c = bent rom' (romBlock h m v) c := by
  obtain ⟨_, a1, _, _, a3⟩ := project_spec hr x hx junk
  rw [e] at a1
  obtain rfl := Except.ok.inj a1
  obtain ⟨_, b1, _, _, b3⟩ := project_spec hr x' hx' junk'
  rw [e'] at b1
  obtain rfl := Except.ok.inj b1
  intro c hc
  rw [a3 m v c hm hv hc, b3 m v c hm hv hc]
  refine sum_congr rfl fun r _ => ?_
  unfold bent
  rw [hag]

/-- A full-order or reduced vector with the wrong number of blocks is rejected. -/
theorem project_lift_reject (h : Handler R) (vec rom : BlockVector R) (junk : Nat → R)
    (hn : vec.numBlocks ≠ h.numBlocks) :
    h.project vec junk = .error .abort ∧
    (rom.numBlocks = h.numBlocks → h.lift rom vec = .error .abort) ∧
    h.lift vec rom = .error .abort := by
  have e : (vec.numBlocks == h.numBlocks) = false := by simp [hn]
  refine ⟨?_, ?_, ?_⟩
  · unfold Handler.project; rw [e]; rfl
  · intro hr; unfold Handler.lift; rw [hr, beq_self_eq_true, require_true, ok_bind, e]; rfl
  · unfold Handler.lift; rw [e]; rfl

/-- Nothing is projected before the bases are loaded. -/
theorem project_needs_basis (h : Handler R) (i : Nat) (x : List R) (n : Nat)
    (hl : h.loaded = false) :
    h.projectDomain i x n = .error .abort ∧ h.liftDomain i x n = .error .abort := by
  unfold Handler.projectDomain Handler.liftDomain Handler.domainBasis
  rw [hl]; exact ⟨rfl, rfl⟩

/-- `Solve`: the state returned is the lift of the solver's answer to the reduced system, started
from zero. -/
theorem solve_spec {h : Handler R} {zr zf : List Nat} (hr : Ready h zr zf)
    (solver : List R → List R → List R) (rhs u : BlockVector R) (hu : HasSizes u zf)
    (hsol : (solver rhs.data (List.replicate zr.sum 0)).length = zr.sum) :
    ∃ u', h.solve solver (some rhs) u = .ok u' ∧ HasSizes u' zf ∧
      ∀ m v r, m < h.numSub → v < vars h → r < (basisOf h h.refBasis m v).h →
        bent u' (fomBlock h m v) r = ∑ c ∈ range (basisOf h h.refBasis m v).w,
          ent (basisOf h h.refBasis m v) r c *
          bent ⟨solver rhs.data (List.replicate zr.sum 0), h.romOffs⟩ (romBlock h m v) c := by
  have hn : u.numBlocks = h.numBlocks := by rw [hu.numBlocks, hr.lenF, numBlocks_eq]
  have hlast : h.romOffs[h.numBlocks]? = some zr.sum := by
    rw [numBlocks_eq, ← hr.lenR]; exact hr.offs.last
  obtain ⟨u', a1, a2, a3⟩ := lift_spec hr
    ⟨solver rhs.data (List.replicate zr.sum 0), h.romOffs⟩ u ⟨hr.offs, hsol⟩ hu
  refine ⟨u', ?_, a2, a3⟩
  unfold Handler.solve
  rw [hn, beq_self_eq_true, require_true, ok_bind]
  show (do let rhs ← Except.ok rhs; _) = _
  rw [ok_bind, rd_eq_ok.2 hlast, ok_bind]
  exact a1

/-! ## A concrete handler: three subdomains, two components, two variables, either ordering -/

section Example

/-- Row-major libROM bases: component 0 has bases of shape 2x1 and 1x1, component 1 of shape 2x2
and 2x1. -/
def exBases : List (Option (CMat Int)) :=
  [some ⟨2, 1, true, [1, 0]⟩, some ⟨1, 1, true, [1]⟩, some ⟨2, 2, true, [0, 1, 1, 0]⟩,
   some ⟨2, 1, true, [0, -1]⟩]

def exHandler (ord : Order) (offs : List Nat) : Handler Int :=
  ⟨true, ord, 2, [1, 0, 1], offs, [], [], false⟩

/-- The hypotheses of `load_ready` are met. -/
example : setBlockSizes true .variable 2 2 [1, 0, 1] [1, 1, 2, 1]
    = .ok ([2, 1, 2, 1, 1, 1], [0, 2, 3, 5, 6, 7, 8], [0, 1, 2, 4, 5]) := by decide

def exLoaded : Handler Int :=
  match (exHandler .variable [0, 2, 3, 5, 6, 7, 8]).load exBases with
  | .ok h => h
  | .error _ => exHandler .variable []

example : exLoaded.domBasis = [⟨2, 2, [0, 1, 1, 0]⟩, ⟨2, 1, [1, 0]⟩, ⟨2, 2, [0, 1, 1, 0]⟩,
    ⟨2, 1, [0, -1]⟩, ⟨1, 1, [1]⟩, ⟨2, 1, [0, -1]⟩] := by decide

example : exLoaded.project ⟨[1, 2, 3, 4, 5, 6, 7, 8, 9, 10, 11], [0, 2, 4, 6, 7, 9, 11]⟩ (fun _ => 99)
    = .ok ⟨[2, 1, 5, 9, 8, -4, 7, -11], [0, 2, 3, 5, 6, 7, 8]⟩ := by decide +kernel

example : exLoaded.lift ⟨[2, 1, 5, 9, 8, -4, 7, -11], [0, 2, 3, 5, 6, 7, 8]⟩
    ⟨List.replicate 11 99, [0, 2, 4, 6, 7, 9, 11]⟩
    = .ok ⟨[1, 2, 0, 4, 5, 0, 7, 8, 9, 0, 11], [0, 2, 4, 6, 7, 9, 11]⟩ := by decide +kernel

/-- The hypotheses of `load_ready` hold here. -/
example : ∃ h', (exHandler .variable [0, 2, 3, 5, 6, 7, 8]).load exBases = .ok h' ∧
    Ready h' [2, 1, 2, 1, 1, 1] [2, 2, 2, 1, 2, 2] := by
  obtain ⟨h', a, b, _⟩ := load_ready (exHandler .variable [0, 2, 3, 5, 6, 7, 8]) exBases 2
    [1, 1, 2, 1] [2, 1, 2, 1, 1, 1] [2, 2, 2, 1, 2, 2] [0, 1, 2, 4, 5]
    (by intro c hc
        simp only [exBases, List.mem_cons, List.not_mem_nil, or_false] at hc
        rcases hc with rfl | rfl | rfl | rfl <;> exact ⟨_, rfl, by unfold CMatOk; decide⟩)
    (by decide) (by decide) (by decide)
    (by intro k c hk
        rcases k with _ | _ | _ | _ | k <;> simp [exBases] at hk <;> subst hk <;> rfl)
    (by decide) (by decide)
    (by intro m v t c ht hv hc
        have hv2 : v < 2 := hv
        rcases m with _ | _ | _ | m <;> simp [exHandler] at ht <;> subst ht <;>
          (rcases v with _ | _ | v <;> [skip; skip; omega]) <;>
          simp [exBases, vars, exHandler] at hc <;> subst hc <;> rfl)
  exact ⟨h', a, b⟩

/-- The bases are orthonormal. -/
example : Orthonormal exLoaded := by
  intro m v i j hm hv hi hj
  have hm3 : m < 3 := hm
  have hv2 : v < 2 := hv
  rcases m with _ | _ | _ | m <;> [skip; skip; skip; omega] <;>
    (rcases v with _ | _ | v <;> [skip; skip; omega]) <;>
    (have hi2 : i < 2 := lt_of_lt_of_le hi (by decide)
     have hj2 : j < 2 := lt_of_lt_of_le hj (by decide)
     rcases i with _ | _ | i <;> [skip; skip; omega] <;>
     (rcases j with _ | _ | j <;> [skip; skip; omega]) <;>
     first | (exfalso; revert hi hj; decide) | decide)

end Example

end Verif.RomHandler
