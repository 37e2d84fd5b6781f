import Verif.Proofs.Supremizer
import Verif.Props.Blocks

/-!
# C84: supremizer enrichment

Training writes, for every component, supremizers that extend its velocity modes to an orthonormal basis
containing the discrete gradients of its pressure modes.  A later run, with any selection of these components
in any order, gets exactly these bases.
-/

namespace Verif.Supremizer

open Verif Verif.Hdf5 Verif.Supremizer.Spec Verif.GramSchmidt.Spec
open Verif.LinAlg (Mat)
open Verif.GramSchmidt (Col)
open Verif.Blocks (Order setBlockSizes setBlockSizes_separate)

/-- **Training succeeds** and stores supremizers for every component, if names are distinct and every
component is ready. -/
theorem enrich_ok (pre : String) {comps : List Comp} {nsup : List Int} {numRef : List Nat} {ref : List (Mat ℝ)}
    (hn : (comps.map Comp.name).Nodup)
    (h : ∀ m, m < comps.length → ∃ c n u p, Trained comps nsup numRef ref m c n u p) (d : Disk) :
    ∃ d', enrich pre comps nsup numRef ref d = .ok d' ∧
      (∀ m c n u p, Trained comps nsup numRef ref m c n u p → Stored pre c n u p d') ∧
      ∀ f, (∀ c ∈ comps, f ≠ fileName pre c.name) → d' f = d f := by
  obtain ⟨d', e, i1, i2⟩ := loop_total (n := comps.length) (body := fun m d => do
      let c ← rd comps m
      let u ← rd ref (m * 2)
      let p ← rd ref (m * 2 + 1)
      let n ← rd nsup m
      let k ← rd numRef (m * 2)
      enrichOne pre c n k u p d) (s := d)
    (fun q d' => (∀ m c n u p, m < q → Trained comps nsup numRef ref m c n u p → Stored pre c n u p d') ∧
      ∀ f, (∀ c ∈ comps, f ≠ fileName pre c.name) → d' f = d f)
    ⟨fun m c n u p hm => absurd hm (by omega), fun _ _ => rfl⟩ (by
    intro q d1 hq ⟨j1, j2⟩
    obtain ⟨c, n, u, p, t⟩ := h q hq
    obtain ⟨d2, e, s1, s2⟩ := enrichOne_ok (pre := pre) t.ready d1
    refine ⟨d2, ?_, ?_, ?_⟩
    · rw [rd_eq_ok.2 t.comp, ok_bind, rd_eq_ok.2 t.vel, ok_bind, rd_eq_ok.2 t.prs, ok_bind, rd_eq_ok.2 t.number,
        ok_bind, rd_eq_ok.2 t.count, ok_bind, e]
    · intro m c' n' u' p' hm t'
      by_cases hmq : m = q
      · subst hmq
        cases Option.some.inj (t.comp.symm.trans t'.comp)
        cases Option.some.inj (t.vel.symm.trans t'.vel)
        cases Option.some.inj (t.prs.symm.trans t'.prs)
        cases Int.ofNat.inj (Option.some.inj (t.number.symm.trans t'.number))
        exact s1
      · refine (j1 m c' n' u' p' (by omega) t').mono (s2 _ fun e => ?_)
        have e := fileName_inj e
        have h1 : (comps.map Comp.name)[m]? = some c'.name := by rw [List.getElem?_map, t'.comp]; rfl
        have h2 : (comps.map Comp.name)[q]? = some c.name := by rw [List.getElem?_map, t.comp]; rfl
        rw [e] at h1
        exact hmq ((List.getElem?_inj (List.getElem?_eq_some_iff.1 h1).1 hn).1 (h1.trans h2.symm))
    · intro f hf
      rw [s2 f (hf c (List.mem_of_getElem? t.comp)), j2 f hf])
  refine ⟨d', e, fun m c n u p t => i1 m c n u p ?_ t, i2⟩
  exact (List.getElem?_eq_some_iff.1 t.comp).1

/-- From stored supremizers and usable modes, the enriched basis. -/
theorem enriched_of {c : Comp} {n k : Nat} {u p v s r : Mat ℝ} (hu : Orthonormal c.nu u) (hus : Usable c n u v k)
    (hg : Good c n u p s) (hr : Shape c.nu r) (hw : r.w = v.w + k)
    (hc : colsOf c.nu r = colsOf c.nu v ++ (colsOf c.nu s).take k) : Enriched c u p v k r := by
  have hsk : k ≤ s.w := by rw [hg.width]; exact hus.avail
  have cl : ∀ i, i < v.w → column c.nu r i = column c.nu v i := by
    intro i hi
    rw [← colAt_colsOf (by omega), hc]
    unfold colAt
    rw [List.getElem?_append_left (by rw [length_colsOf]; exact hi)]
    exact colAt_colsOf hi
  have cr : ∀ i, i < k → column c.nu r (v.w + i) = column c.nu s i := by
    intro i hi
    rw [← colAt_colsOf (by omega), hc]
    unfold colAt
    rw [List.getElem?_append_right (by rw [length_colsOf]; omega), length_colsOf, Nat.add_sub_cancel_left,
      List.getElem?_take, if_pos hi]
    exact colAt_colsOf (by omega)
  have so : ∀ i j, i < s.w → j < s.w → column c.nu s i ⬝ᵥ column c.nu s j = if i = j then 1 else 0 := by
    intro i j hi hj
    have := hg.ortho i j (by rw [length_colsOf]; exact hi) (by rw [length_colsOf]; exact hj)
    rwa [colAt_colsOf hi, colAt_colsOf hj] at this
  refine ⟨hr, hw, cl, ?_, ?_⟩
  · intro i j hi hj
    by_cases hi' : i < v.w
    · by_cases hj' : j < v.w
      · rw [cl i hi', cl j hj', hus.cols i hi', hus.cols j hj']
        exact hu i j (by have := hus.le; omega) (by have := hus.le; omega)
      · obtain ⟨j', rfl⟩ : ∃ j', j = v.w + j' := ⟨j - v.w, by omega⟩
        rw [cl i hi', cr j' (by omega), hus.cols i hi', hg.perp i j' (by have := hus.le; omega) (by omega),
          if_neg (by omega)]
    · obtain ⟨i', rfl⟩ : ∃ i', i = v.w + i' := ⟨i - v.w, by omega⟩
      by_cases hj' : j < v.w
      · rw [cl j hj', cr i' (by omega), hus.cols j hj', dotProduct_comm,
          hg.perp j i' (by have := hus.le; omega) (by omega), if_neg (by omega)]
      · obtain ⟨j', rfl⟩ : ∃ j', j = v.w + j' := ⟨j - v.w, by omega⟩
        rw [cr i' (by omega), cr j' (by omega), so i' j' (by omega) (by omega)]
        simp only [Nat.add_left_cancel_iff]
  · intro hvu
    rw [← hg.span k hus.avail]
    apply le_antisymm
    · refine Submodule.span_le.2 ?_
      rintro w ⟨i, hi, rfl⟩
      by_cases hi' : i < v.w
      · rw [cl i hi', hus.cols i hi']
        exact Submodule.mem_sup_left (Submodule.subset_span ⟨i, by omega, rfl⟩)
      · obtain ⟨i', rfl⟩ : ∃ i', i = v.w + i' := ⟨i - v.w, by omega⟩
        rw [cr i' (by omega)]
        refine Submodule.mem_sup_right (Submodule.subset_span ⟨i', by omega, by rw [length_colsOf]; omega, ?_⟩)
        exact colAt_colsOf (by omega)
    · refine sup_le (Submodule.span_le.2 ?_) (Submodule.span_le.2 ?_)
      · rintro w ⟨i, hi, rfl⟩
        rw [← hus.cols i (by omega), ← cl i (by omega)]
        exact Submodule.subset_span ⟨i, by omega, rfl⟩
      · rintro w ⟨i, h1, h2, rfl⟩
        rw [length_colsOf] at h2
        rw [colAt_colsOf h2, ← cr i h1]
        exact Submodule.subset_span ⟨v.w + i, by omega, rfl⟩

/-- Appending to the basis with index `idx`. -/
theorem append_ok {h : Handler} {idx n : Nat} {r mat : Mat ℝ} (hc : idx < h.numComp * 2)
    (hr : h.ref[idx]? = some r) (hn : h.numRef[idx]? = some r.w) (s1 : Shape n r) (s2 : Shape n mat)
    (hl : h.numRef.length = h.numComp * 2) (hty : ∀ c ∈ h.meshType, c < h.numComp) :
    ∃ r' sz, append idx mat h =
        .ok { h with ref := h.ref.set idx r', numRef := h.numRef.set idx (r.w + mat.w), sizes := sz } ∧ Shape n r' ∧ r'.w = r.w + mat.w ∧ colsOf n r' = colsOf n r ++ colsOf n mat ∧
      setBlockSizes true h.ord 2 h.numComp h.meshType (h.numRef.set idx (r.w + mat.w)) = .ok sz := by
  obtain ⟨r1, r2, e1, e2, e3, e4, e5⟩ := append_basis s1 s2
  obtain ⟨a, b, c, e6, -⟩ := setBlockSizes_separate h.ord 2 h.numComp h.meshType
    (h.numRef.set idx (r.w + mat.w)) (by simpa using hl) hty
  refine ⟨r2, (a, b, c), ?_, e3, e4, e5, e6⟩
  unfold append
  rw [show decide (idx < h.numComp * 2) = true by simpa using hc, require_true, ok_bind, rd_eq_ok.2 hr, ok_bind,
    rd_eq_ok.2 hn, ok_bind, show (r.h == mat.h) = true by simp [s1.1, s2.1], require_true, ok_bind,
    show (r.w == r.w) = true by simp, require_true, ok_bind]
  dsimp only
  rw [e1, ok_bind, e2, ok_bind, wr_of_lt (List.getElem?_eq_some_iff.1 hr).1, ok_bind,
    wr_of_lt (List.getElem?_eq_some_iff.1 hn).1, ok_bind, e6, ok_bind]
  rfl

/-- **Loading.**  After training, a handler with any components among those trained, in any order, whose
velocity bases are (leading parts of) those used in training and which asks for at most as many supremizers
as stored, gets for each component its enriched basis.  Pressure bases are untouched, and the block sizes are
those of the new bases. -/
theorem enrich_load (pre : String) {comps : List Comp} {nsup : List Int} {numRef : List Nat} {ref : List (Mat ℝ)}
    {d d' : Disk} (hn : (comps.map Comp.name).Nodup)
    (htr : ∀ m, m < comps.length → ∃ c n u p, Trained comps nsup numRef ref m c n u p)
    (he : enrich pre comps nsup numRef ref d = .ok d')
    {names : List String} {want : List Int} {h : Handler} (hc : names.length = h.numComp) (h0 : 0 < names.length)
    (hl : h.numRef.length = h.numComp * 2) (hty : ∀ c ∈ h.meshType, c < h.numComp)
    (huse : ∀ b, b < names.length → ∃ m c n u p v, ∃ k : Nat, Trained comps nsup numRef ref m c n u p ∧
      names[b]? = some c.name ∧ want[b]? = some (k : Int) ∧ h.ref[b * 2]? = some v ∧
      h.numRef[b * 2]? = some v.w ∧ Usable c n u v k) :
    ∃ h', loadSupremizer pre names want d' h = .ok h' ∧ h'.meshType = h.meshType ∧ h'.ord = h.ord ∧
      h'.numComp = h.numComp ∧ h'.ref.length = h.ref.length ∧ h'.numRef.length = h.numRef.length ∧
      setBlockSizes true h.ord 2 h.numComp h.meshType h'.numRef = .ok h'.sizes ∧
      ∀ b, b < names.length → h'.ref[b * 2 + 1]? = h.ref[b * 2 + 1]? ∧
        h'.numRef[b * 2 + 1]? = h.numRef[b * 2 + 1]? ∧
        ∀ m c n u p v, ∀ k : Nat, Trained comps nsup numRef ref m c n u p → names[b]? = some c.name →
          want[b]? = some (k : Int) → h.ref[b * 2]? = some v →
          ∃ r, h'.ref[b * 2]? = some r ∧ h'.numRef[b * 2]? = some r.w ∧ Enriched c u p v k r := by
  obtain ⟨d2, e2, hst, -⟩ := enrich_ok pre hn htr d
  cases Except.ok.inj (he.symm.trans e2)
  -- the training data of a name is unique
  have huniq : ∀ {m c n u p m' c' n' u' p'}, Trained comps nsup numRef ref m c n u p →
      Trained comps nsup numRef ref m' c' n' u' p' → c.name = c'.name → m = m' := by
    intro m c n u p m' c' n' u' p' t t' e
    have h1 : (comps.map Comp.name)[m]? = some c.name := by rw [List.getElem?_map, t.comp]; rfl
    have h2 : (comps.map Comp.name)[m']? = some c'.name := by rw [List.getElem?_map, t'.comp]; rfl
    rw [← e] at h2
    exact (List.getElem?_inj (List.getElem?_eq_some_iff.1 h1).1 hn).1 (h1.trans h2.symm)
  have hsame : ∀ {m c n u p c' n' u' p'}, Trained comps nsup numRef ref m c n u p →
      Trained comps nsup numRef ref m c' n' u' p' → c' = c ∧ n' = n ∧ u' = u ∧ p' = p := by
    intro m c n u p c' n' u' p' t t'
    exact ⟨Option.some.inj (t'.comp.symm.trans t.comp),
      Int.ofNat.inj (Option.some.inj (t'.number.symm.trans t.number)),
      Option.some.inj (t'.vel.symm.trans t.vel), Option.some.inj (t'.prs.symm.trans t.prs)⟩
  obtain ⟨s, e, i1, i2, i3, i4, i5, i6, i7, i8, i9⟩ := loop_total (n := names.length)
    (body := loadStep pre names want d') (s := (⟨0, 0, []⟩, h))
    (fun q s => s.1.h * s.1.w ≤ s.1.data.length ∧ s.2.meshType = h.meshType ∧ s.2.ord = h.ord ∧
      s.2.numComp = h.numComp ∧ s.2.ref.length = h.ref.length ∧ s.2.numRef.length = h.numRef.length ∧
      (0 < q → setBlockSizes true h.ord 2 h.numComp h.meshType s.2.numRef = .ok s.2.sizes) ∧
      (∀ b, (b % 2 = 1 ∨ q ≤ b / 2) → s.2.ref[b]? = h.ref[b]? ∧ s.2.numRef[b]? = h.numRef[b]?) ∧
      ∀ b, b < q → ∀ m c n u p v, ∀ k : Nat, Trained comps nsup numRef ref m c n u p → names[b]? = some c.name →
          want[b]? = some (k : Int) → h.ref[b * 2]? = some v →
          ∃ r, s.2.ref[b * 2]? = some r ∧ s.2.numRef[b * 2]? = some r.w ∧ Enriched c u p v k r)
    ⟨le_rfl, rfl, rfl, rfl, rfl, rfl, fun hq => absurd hq (by omega), fun _ _ => ⟨rfl, rfl⟩,
      fun b hb => absurd hb (by omega)⟩ (by
    rintro q ⟨old, g⟩ hq ⟨j1, j2, j3, j4, j5, j6, j7, j8, j9⟩
    dsimp only at j1 j2 j3 j4 j5 j6 j7 j8 j9
    obtain ⟨m, c, n, u, p, v, k, t, hname, hk, hv, hvw, hus⟩ := huse q hq
    obtain ⟨f, hf, hread⟩ := hst m c n u p t
    obtain ⟨sup, hsup, hgood⟩ := hread old j1
    obtain ⟨u1, u2⟩ := j8 (q * 2) (Or.inr (by omega))
    have hsk : k ≤ sup.w := by rw [hgood.width]; exact hus.avail
    have hview : Shape c.nu { sup with w := k } :=
      ⟨hgood.shape.1, (Nat.mul_le_mul_left _ hsk).trans hgood.shape.2⟩
    obtain ⟨r, sz, a1, a2, a3, a4, a5⟩ := append_ok (h := g) (idx := q * 2) (r := v) (mat := { sup with w := k })
      (by rw [j4, ← hc]; omega) (u1.trans hv) (u2.trans hvw) hus.shape hview (by rw [j6, hl, j4])
      (by rw [j2, j4]; exact hty)
    dsimp only at a1 a3 a5
    rw [colsOf_take sup hsk] at a4
    have henr : Enriched c u p v k r := enriched_of t.ready.ortho hus hgood a2 a3 a4
    have hlr : q * 2 < g.ref.length := (List.getElem?_eq_some_iff.1 (u1.trans hv)).1
    have hln : q * 2 < g.numRef.length := (List.getElem?_eq_some_iff.1 (u2.trans hvw)).1
    refine ⟨(sup, { g with ref := g.ref.set (q * 2) r, numRef := g.numRef.set (q * 2) (v.w + k), sizes := sz }),
      ?_, ?_, j2, j3, j4, by simpa using j5, by simpa using j6, fun _ => ?_, ?_, ?_⟩
    · unfold loadStep readSup
      dsimp only
      rw [rd_eq_ok.2 hname, ok_bind, hf]
      dsimp only
      rw [hsup, ok_bind, rd_eq_ok.2 hk, ok_bind, show decide ((k : Int) ≤ sup.w) = true by simpa using hsk,
        require_true, ok_bind, if_neg (by omega)]
      have : (k : Int).toNat = k := rfl
      rw [this, a1, ok_bind]
      rfl
    · rw [hgood.shape.1]; exact hgood.shape.2
    · rw [← j3, ← j4, ← j2]; exact a5
    · intro b hb
      have hbq : b ≠ q * 2 := by omega
      dsimp only
      rw [List.getElem?_set_ne (Ne.symm hbq), List.getElem?_set_ne (Ne.symm hbq)]
      exact j8 b (by omega)
    · intro b hb m' c' n' u' p' v' k' t' hname' hk' hv'
      dsimp only
      by_cases hbq : b = q
      · subst hbq
        have hcn : c'.name = c.name := Option.some.inj (hname'.symm.trans hname)
        cases huniq t' t hcn
        obtain ⟨rfl, rfl, rfl, rfl⟩ := hsame t t'
        cases Option.some.inj (hv.symm.trans hv')
        cases Int.ofNat.inj (Option.some.inj (hk.symm.trans hk'))
        refine ⟨r, List.getElem?_set_self hlr, ?_, henr⟩
        rw [List.getElem?_set_self hln, a3]
      · rw [List.getElem?_set_ne (by omega), List.getElem?_set_ne (by omega)]
        exact j9 b (by omega) m' c' n' u' p' v' k' t' hname' hk' hv')
  refine ⟨s.2, ?_, i2, i3, i4, i5, i6, i7 h0, fun b hb => ⟨(i8 _ (Or.inl (by omega))).1,
    (i8 _ (Or.inl (by omega))).2, i9 b hb⟩⟩
  unfold loadSupremizer
  rw [e]
  rfl

/-! ## What enrichment is for -/

/-- A vector in the span of orthonormal columns has the norm of its coefficients. -/
theorem parseval {n : Nat} {r : Mat ℝ} (ho : Orthonormal n r) {g : Col n} (hg : g ∈ colSpan n r) :
    ∑ j ∈ Finset.range r.w, (column n r j ⬝ᵥ g) ^ 2 = g ⬝ᵥ g := by
  obtain ⟨a, rfl⟩ : ∃ a : Nat → ℝ, ∑ j ∈ Finset.range r.w, a j • column n r j = g := by
    refine Submodule.span_induction (p := fun g _ => ∃ a : Nat → ℝ,
      ∑ j ∈ Finset.range r.w, a j • column n r j = g) ?_ ⟨0, by simp⟩ ?_ ?_ hg
    · rintro x ⟨i, hi, rfl⟩
      refine ⟨fun j => if j = i then 1 else 0, ?_⟩
      rw [Finset.sum_eq_single i] <;> simp +contextual [hi]
    · rintro x y _ _ ⟨a, rfl⟩ ⟨b, rfl⟩
      exact ⟨a + b, by simp [add_smul, Finset.sum_add_distrib]⟩
    · rintro t x _ ⟨a, rfl⟩
      exact ⟨fun j => t * a j, by simp [Finset.smul_sum, mul_smul]⟩
  have key : ∀ j ∈ Finset.range r.w, column n r j ⬝ᵥ (∑ i ∈ Finset.range r.w, a i • column n r i) = a j := by
    intro j hj
    rw [dotProduct_sum, Finset.sum_eq_single j]
    · rw [dotProduct_smul, ho j j (Finset.mem_range.1 hj) (Finset.mem_range.1 hj)]; simp
    · intro i hi hij
      rw [dotProduct_smul, ho j i (Finset.mem_range.1 hj) (Finset.mem_range.1 hi), if_neg (Ne.symm hij)]; simp
    · intro h; exact absurd hj h
  rw [Finset.sum_congr rfl fun j hj => by rw [key j hj]]
  conv_rhs => rw [sum_dotProduct]
  refine Finset.sum_congr rfl fun j hj => ?_
  rw [smul_dotProduct, key j hj, smul_eq_mul, sq]

/-- **Stability**: the reduced divergence matrix of an enriched component has entries
`U_j · B^T p_k`.  Its transpose applied to reduced pressures `q` has the full norm of the discrete gradient of
the pressure `q` stands for, and it is not zero unless `q` is zero. -/
theorem reduced_gradient {c : Comp} {n k : Nat} {u p v r : Mat ℝ} (hr : Ready c n u p) (hk : k ≤ n)
    (he : Enriched c u p v k r) (hvu : v.w = u.w) (q : Nat → ℝ) :
    (∀ j, ∑ i ∈ Finset.range k, q i * (column c.nu r j ⬝ᵥ modeGrad c p i) =
      column c.nu r j ⬝ᵥ pressureGrad c p k q) ∧
    ∑ j ∈ Finset.range r.w, (∑ i ∈ Finset.range k, q i * (column c.nu r j ⬝ᵥ modeGrad c p i)) ^ 2 =
      pressureGrad c p k q ⬝ᵥ pressureGrad c p k q ∧
    ((∃ i, i < k ∧ q i ≠ 0) →
      ∃ j, j < r.w ∧ ∑ i ∈ Finset.range k, q i * (column c.nu r j ⬝ᵥ modeGrad c p i) ≠ 0) := by
  have h1 : ∀ j, ∑ i ∈ Finset.range k, q i * (column c.nu r j ⬝ᵥ modeGrad c p i) =
      column c.nu r j ⬝ᵥ pressureGrad c p k q := by
    intro j
    unfold pressureGrad
    rw [dotProduct_sum]
    exact Finset.sum_congr rfl fun i _ => by rw [dotProduct_smul, smul_eq_mul]
  have hmem : pressureGrad c p k q ∈ colSpan c.nu r := by
    rw [he.span hvu]
    refine Submodule.mem_sup_right (Submodule.sum_mem _ fun i hi => Submodule.smul_mem _ _ ?_)
    exact Submodule.subset_span ⟨i, Finset.mem_range.1 hi, rfl⟩
  have h2 : ∑ j ∈ Finset.range r.w, (∑ i ∈ Finset.range k, q i * (column c.nu r j ⬝ᵥ modeGrad c p i)) ^ 2 =
      pressureGrad c p k q ⬝ᵥ pressureGrad c p k q := by
    rw [Finset.sum_congr rfl fun j _ => by rw [h1 j]]
    exact parseval he.ortho hmem
  refine ⟨h1, h2, ?_⟩
  rintro ⟨i, hi, hq⟩
  by_contra hno
  have hz : pressureGrad c p k q = 0 := by
    rw [← dotProduct_self_eq_zero, ← h2]
    refine Finset.sum_eq_zero fun j hj => ?_
    have : ∑ i ∈ Finset.range k, q i * (column c.nu r j ⬝ᵥ modeGrad c p i) = 0 := by
      by_contra h; exact hno ⟨j, Finset.mem_range.1 hj, h⟩
    rw [this]; ring
  have hli := hr.indep.comp (Sum.inr : Fin n → Fin u.w ⊕ Fin n) Sum.inr_injective
  have := Fintype.linearIndependent_iff.1 hli (fun i : Fin n => if (i : Nat) < k then q i else 0) (by
    rw [← hz]
    unfold pressureGrad
    rw [Finset.sum_congr rfl (g := fun x : Fin n => (fun x : Nat => if x < k then q x • modeGrad c p x else 0) x)
      (fun x _ => by
        simp only [Function.comp, Sum.elim_inr]
        split <;> simp), Fin.sum_univ_eq_sum_range (fun x : Nat => if x < k then q x • modeGrad c p x else 0),
      ← Finset.sum_filter]
    refine Finset.sum_congr ?_ fun _ _ => rfl
    ext x
    simp only [Finset.mem_filter, Finset.mem_range]
    omega) ⟨i, by omega⟩
  simp [hi] at this
  exact hq this

/-! ## Failures -/

/-- **A successful load found every file**, the handler's bases had the widths it recorded, no number was
negative. -/
theorem load_needs {pre : String} {names : List String} {want : List Int} {d : Disk} {h h' : Handler}
    (hl : loadSupremizer pre names want d h = .ok h') : ∀ b, b < names.length →
      ∃ name f v k, names[b]? = some name ∧ d (fileName pre name) = some f ∧ h.ref[b * 2]? = some v ∧
        h.numRef[b * 2]? = some v.w ∧ want[b]? = some k ∧ 0 ≤ k := by
  unfold loadSupremizer at hl
  obtain ⟨s, e, -⟩ := bind_eq_ok.1 hl
  have := loop_inv (fun q (s : Mat ℝ × Handler) =>
    (∀ b, q ≤ b → s.2.ref[b * 2]? = h.ref[b * 2]? ∧ s.2.numRef[b * 2]? = h.numRef[b * 2]?) ∧
    ∀ b, b < q → ∃ name f v k, names[b]? = some name ∧ d (fileName pre name) = some f ∧ h.ref[b * 2]? = some v ∧
        h.numRef[b * 2]? = some v.w ∧ want[b]? = some k ∧ 0 ≤ k)
    ⟨fun _ _ => ⟨rfl, rfl⟩, fun b hb => absurd hb (by omega)⟩ (by
    rintro q ⟨old, g⟩ t hq ⟨j1, j2⟩ hs
    unfold loadStep at hs
    simp only [bind_eq_ok, rd_eq_ok] at hs
    obtain ⟨name, hn, sup, hsup, k, hk, _, _, hs⟩ := hs
    split at hs
    · cases hs
    · next hneg =>
      obtain ⟨g', ha, ht⟩ := bind_eq_ok.1 hs
      cases ht
      unfold append at ha
      simp only [bind_eq_ok, rd_eq_ok] at ha
      obtain ⟨_, _, r, hr, n, hn', _, _, _, hw, r1, _, r2, _, ref, hwr, num, hwn, sz, _, hg⟩ := ha
      cases hg
      unfold readSup at hsup
      split at hsup
      · next f hf =>
        dsimp only at j1 ⊢
        have hw' : r.w = n := by simpa using require_eq_ok.1 hw
        refine ⟨fun b hb => ?_, fun b hb => ?_⟩
        · rw [wr_of_lt (List.getElem?_eq_some_iff.1 hr).1] at hwr
          rw [wr_of_lt (List.getElem?_eq_some_iff.1 hn').1] at hwn
          cases hwr; cases hwn
          rw [List.getElem?_set_ne (by omega), List.getElem?_set_ne (by omega)]
          exact j1 b (by omega)
        · by_cases hbq : b = q
          · subst hbq
            obtain ⟨a1, a2⟩ := j1 b le_rfl
            exact ⟨name, f, r, k, hn, hf, a1 ▸ hr, by rw [← a2, hw']; exact hn', hk, by omega⟩
          · exact j2 b (by omega)
      · cases hsup) e
  exact this.2

/-- A loop that reaches a failing step fails. -/
theorem loop_fail {σ : Type} {n i : Nat} {body : Nat → σ → Outcome σ} {s : σ} {e : Fault} (Inv : Nat → σ → Prop)
    (h0 : Inv 0 s) (hi : i < n) (step : ∀ j t, j < i → Inv j t → ∃ t', body j t = .ok t' ∧ Inv (j + 1) t')
    (bad : ∀ t, Inv i t → body i t = .error e) : loop n body s = .error e := by
  have : ∀ (d j : Nat) (t : σ), Inv j t → j ≤ i → i < j + d → loopFrom body j d t = .error e := by
    intro d
    induction d with
    | zero => intro j t _ h1 h2; omega
    | succ d ih =>
      intro j t ht h1 h2
      rw [loopFrom]
      by_cases hji : j = i
      · subst hji; rw [bad t ht]
      · obtain ⟨t', e', ht'⟩ := step j t (by omega) ht
        rw [e']
        exact ih (j + 1) t' ht' (by omega) (by omega)
  exact this n 0 s h0 (Nat.zero_le _) (by omega)

/-- **Out of bounds**: a component with more supremizers than pressure modes makes training read behind the
pressure basis (here: a basis whose buffer has no spare room). -/
theorem enrich_oob (pre : String) (c : Comp) {n : Nat} {u p : Mat ℝ} (hu : u.h = c.nu) (hp : p.h = c.np)
    (h0 : 0 < c.np) (hl : p.data.length = p.h * p.w) (hn : p.w < n) (d : Disk) :
    enrichOne pre c n u.w u p d = .error .ub := by
  have himg : images c n u p = .error .ub := by
    unfold images
    rw [if_neg (by simp [hu, hp])]
    refine loop_fail (i := p.w) (fun _ _ => True) trivial (by simpa using hn) (fun k l hk _ => ?_) fun l _ => ?_
    · refine ⟨l ++ [gradient c ((p.data.drop (k * p.h)).take p.h)], ?_, trivial⟩
      unfold Mat.col
      rw [if_pos (by rw [hl, Nat.mul_comm]; exact Nat.mul_le_mul_left _ hk)]
      rfl
    · unfold Mat.col
      rw [if_neg (by rw [hl, hp]; nlinarith)]
      rfl
  unfold enrichOne
  rw [show (u.w == u.w) = true by simp, require_true, ok_bind, himg]
  rfl

/-! ## Example -/

section Example

/-- A component with two velocity unknowns and one pressure unknown; the gradient is `e₂` times the
pressure. -/
def exComp : Comp := ⟨"a", 2, 1, fun _ i => if i = 1 then 1 else 0⟩

/-- One velocity mode `e₁`, one pressure mode. -/
def exU : Mat ℝ := ⟨2, 1, [1, 0]⟩
def exP : Mat ℝ := ⟨1, 1, [1]⟩

theorem ex_grad : modeGrad exComp exP 0 = ![0, 1] := by
  funext i
  fin_cases i <;> simp [modeGrad, exComp, exP]

theorem ex_col : column 2 exU 0 = ![1, 0] := by
  funext i
  fin_cases i <;> simp [column, exU]

/-- The hypotheses of training hold. -/
theorem ex_ready : Ready exComp 1 exU exP where
  rows := by decide
  vel := ⟨rfl, le_rfl⟩
  prs := ⟨rfl, le_rfl⟩
  pos := Nat.one_pos
  enough := le_rfl
  ortho := by
    intro i j hi hj
    have hi : i = 0 := Nat.lt_one_iff.1 hi
    have hj : j = 0 := Nat.lt_one_iff.1 hj
    subst hi; subst hj
    show column 2 exU 0 ⬝ᵥ column 2 exU 0 = _
    rw [ex_col]; simp
  indep := by
    rw [Fintype.linearIndependent_iff]
    intro g hg
    rw [Fintype.sum_sum_type] at hg
    have h1 : ∀ x : Fin exU.w, x = ⟨0, Nat.one_pos⟩ := fun x => Fin.ext (Nat.lt_one_iff.1 x.2)
    have s1 : ∑ x : Fin exU.w, g (Sum.inl x) • Sum.elim (fun i : Fin exU.w => column exComp.nu exU i)
        (fun k : Fin 1 => modeGrad exComp exP k) (Sum.inl x) = g (Sum.inl ⟨0, Nat.one_pos⟩) • ![1, 0] := by
      rw [Finset.sum_eq_single_of_mem (⟨0, Nat.one_pos⟩ : Fin exU.w) (Finset.mem_univ _)
        (fun b _ hb => absurd (h1 b) hb)]
      exact congrArg _ ex_col
    have s2 : ∑ x : Fin 1, g (Sum.inr x) • Sum.elim (fun i : Fin exU.w => column exComp.nu exU i)
        (fun k : Fin 1 => modeGrad exComp exP k) (Sum.inr x) = g (Sum.inr 0) • ![0, 1] := by
      rw [Fin.sum_univ_one]
      exact congrArg _ ex_grad
    rw [s1, s2] at hg
    have e1 : g (Sum.inl ⟨0, Nat.one_pos⟩) * 1 + g (Sum.inr 0) * 0 = 0 := congrFun hg (0 : Fin 2)
    have e2 : g (Sum.inl ⟨0, Nat.one_pos⟩) * 0 + g (Sum.inr 0) * 1 = 0 := congrFun hg (1 : Fin 2)
    rw [mul_one, mul_zero, add_zero] at e1
    rw [mul_one, mul_zero, zero_add] at e2
    rintro (x | x)
    · rw [h1 x]; exact e1
    · rw [Subsingleton.elim x 0]; exact e2

theorem ex_trained : Trained [exComp] [1] [1, 1] [exU, exP] 0 exComp 1 exU exP :=
  ⟨rfl, rfl, rfl, rfl, rfl, ex_ready⟩

/-- An online handler with two subdomains of this component. -/
def exHandler (v : Mat ℝ) : Handler := ⟨.domain, [0, 0], 1, [v, exP], [v.w, 1], ([], [], [])⟩

/-- Training and loading succeed, and the handler has two velocity modes for the component; the first is
kept, the second carries the gradient. -/
example : ∃ d' h' r, enrich "b" [exComp] [1] [1, 1] [exU, exP] (fun _ => none) = .ok d' ∧
    loadSupremizer "b" ["a"] [1] d' (exHandler exU) = .ok h' ∧ h'.ref[0]? = some r ∧ r.w = 2 ∧
    h'.numRef = [2, 1] ∧ Enriched exComp exU exP exU 1 r := by
  have htr : ∀ m, m < [exComp].length → ∃ c n u p, Trained [exComp] [1] [1, 1] [exU, exP] m c n u p := by
    intro m hm
    cases Nat.lt_one_iff.1 hm
    exact ⟨_, _, _, _, ex_trained⟩
  obtain ⟨d', e, -, -⟩ := enrich_ok "b" (by simp) htr (fun _ => none)
  have hu : Usable exComp 1 exU exU 1 := ⟨⟨rfl, le_rfl⟩, le_rfl, fun _ _ => rfl, le_rfl⟩
  obtain ⟨h', e2, -, -, -, -, hln, -, hb⟩ := enrich_load "b" (by simp) htr e (names := ["a"]) (want := [1])
    (h := exHandler exU) rfl (by simp) rfl (by simp [exHandler]) (by
      intro b hb
      cases Nat.lt_one_iff.1 hb
      exact ⟨0, _, _, _, _, exU, 1, ex_trained, rfl, rfl, rfl, rfl, hu⟩)
  obtain ⟨-, hp, hr⟩ := hb 0 (by simp)
  obtain ⟨r, r1, r2, r3⟩ := hr 0 _ _ _ _ exU 1 ex_trained rfl rfl rfl
  have hw : r.w = 2 := r3.width
  refine ⟨d', h', r, e, e2, r1, hw, ?_, r3⟩
  rw [hw] at r2
  have hln : h'.numRef.length = 2 := hln
  apply List.ext_getElem?
  intro i
  rcases i with _ | _ | i
  · exact r2
  · exact hp
  · rw [List.getElem?_eq_none (by omega), List.getElem?_eq_none (by simp)]

/-- Not more than `n` vectors of length `n` are orthonormal. -/
theorem orthonormal_le {n : Nat} {r : Mat ℝ} (h : Orthonormal n r) : r.w ≤ n := by
  have hli : LinearIndependent ℝ (fun i : Fin r.w => column n r i) := by
    rw [Fintype.linearIndependent_iff]
    intro g hg i
    have := congrArg (fun x => column n r i ⬝ᵥ x) hg
    simp only [dotProduct_sum, dotProduct_zero, dotProduct_smul] at this
    rw [Finset.sum_eq_single_of_mem i (Finset.mem_univ _) (fun j _ hj => by
      rw [h i j i.2 j.2, if_neg (fun e => hj (Fin.ext e.symm))]; simp), h i i i.2 i.2] at this
    simpa using this
  have := hli.fintype_card_le_finrank
  simpa using this

/-- **More modes than in training**: with a velocity basis that has grown since the enrichment, loading
succeeds but the basis is not orthonormal; here it has three columns for two unknowns, so it is not even a
basis.  Nothing is reported. -/
theorem more_modes_not_orthonormal : ∃ (v : Mat ℝ) (d' : Disk) (h' : Handler) (r : Mat ℝ),
    Orthonormal 2 v ∧ column 2 v 0 = column 2 exU 0 ∧
    enrich "b" [exComp] [1] [1, 1] [exU, exP] (fun _ => none) = .ok d' ∧
    loadSupremizer "b" ["a"] [1] d' (exHandler v) = .ok h' ∧ h'.ref[0]? = some r ∧ r.w = 3 ∧
    ¬ Orthonormal 2 r := by
  have htr : ∀ m, m < [exComp].length → ∃ c n u p, Trained [exComp] [1] [1, 1] [exU, exP] m c n u p := by
    intro m hm
    cases Nat.lt_one_iff.1 hm
    exact ⟨_, _, _, _, ex_trained⟩
  obtain ⟨d', e, hst, -⟩ := enrich_ok "b" (by simp) htr (fun _ => none)
  obtain ⟨f, hf, hread⟩ := hst 0 _ _ _ _ ex_trained
  obtain ⟨sup, hsup, hg⟩ := hread ⟨0, 0, []⟩ le_rfl
  let v : Mat ℝ := ⟨2, 2, [1, 0, 0, 1]⟩
  have c0 : column 2 v 0 = ![1, 0] := by funext i; fin_cases i <;> simp [column, v]
  have c1 : column 2 v 1 = ![0, 1] := by funext i; fin_cases i <;> simp [column, v]
  obtain ⟨r, sz, a1, a2, a3, -, -⟩ := append_ok (h := exHandler v) (idx := 0) (r := v)
    (mat := { sup with w := 1 }) (n := 2) (by simp [exHandler]) rfl rfl ⟨rfl, le_rfl⟩
    ⟨hg.shape.1, by have h1 := hg.shape.2; rw [hg.width] at h1; exact h1⟩ rfl (by simp [exHandler])
  refine ⟨v, d',
    { exHandler v with ref := (exHandler v).ref.set 0 r, numRef := (exHandler v).numRef.set 0 (v.w + 1), sizes := sz },
    r, ?_, ?_, e, ?_, rfl, a3, ?_⟩
  · intro i j hi hj
    have hi : i < 2 := hi
    have hj : j < 2 := hj
    interval_cases i <;> interval_cases j <;> simp [c0, c1]
  · rw [c0, ex_col]
  · unfold loadSupremizer
    show ((loopFrom _ 0 1 _ : Outcome (Mat ℝ × Handler)) >>= _) = _
    unfold loopFrom
    unfold loadStep readSup
    have hn : rd ["a"] 0 = .ok exComp.name := rfl
    rw [hn, ok_bind, hf]
    dsimp only
    rw [hsup, ok_bind, show rd ([1] : List Int) 0 = .ok 1 from rfl, ok_bind,
      show decide ((1 : Int) ≤ sup.w) = true by rw [hg.width]; rfl, require_true, ok_bind, if_neg (by omega)]
    rw [show (1 : Int).toNat = 1 from rfl, Nat.zero_mul, a1]
    rfl
  · intro h
    have := orthonormal_le h
    rw [a3] at this
    have h2 : v.w = 2 := rfl
    simp [h2] at this

end Example

end Verif.Supremizer
