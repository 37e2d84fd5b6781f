import Verif.Proofs.Blocks

/-!
# Properties C13-C17: block indices, offsets and block vectors
-/

namespace Verif.Blocks

open Verif Spec

/-! ## C13: block index and (subdomain, variable) pair are inverse -/

/-- Separate variables: the block index of a valid pair is in range and decodes to the pair. -/
theorem blockIndex_decode (ord : Order) (numSub numVar m v : Int) (hm : 0 ≤ m) (hm' : m < numSub)
    (hv : 0 ≤ v) (hv' : v < numVar) :
    ∃ b, getBlockIndex true ord numSub numVar m v = .ok b ∧ 0 ≤ b ∧ b < numSub * numVar ∧
      getDomainAndVariableIndex true ord numSub numVar b = .ok (m, v) := by
  have hv0 : ¬ v < 0 := by omega
  cases ord with
  | domain =>
    refine ⟨v + m * numVar, by simp [getBlockIndex, hv0, pure, Except.pure], ?_, ?_, ?_⟩
    · have := Int.mul_nonneg hm (show 0 ≤ numVar by omega); omega
    · have := Int.mul_le_mul_of_nonneg_right (show m + 1 ≤ numSub by omega) (show 0 ≤ numVar by omega)
      rw [Int.add_mul] at this; omega
    · have hb : 0 ≤ v + m * numVar := by
        have := Int.mul_nonneg hm (show 0 ≤ numVar by omega); omega
      have h1 : (v + m * numVar).tdiv numVar = m := by
        rw [Int.tdiv_eq_ediv_of_nonneg hb, Int.add_mul_ediv_right _ _ (by omega),
          Int.ediv_eq_zero_of_lt hv hv']; omega
      have h2 : (v + m * numVar).tmod numVar = v := by
        rw [Int.tmod_eq_emod_of_nonneg hb, Int.add_mul_emod_self_right, Int.emod_eq_of_lt hv hv']
      simp [getDomainAndVariableIndex, h1, h2, show numVar ≠ 0 by omega]
  | «variable» =>
    have hb : 0 ≤ m + v * numSub := by
      have := Int.mul_nonneg hv (show 0 ≤ numSub by omega); omega
    refine ⟨m + v * numSub, by simp [getBlockIndex, hv0, pure, Except.pure], hb, ?_, ?_⟩
    · have := Int.mul_le_mul_of_nonneg_right (show v + 1 ≤ numVar by omega) (show 0 ≤ numSub by omega)
      rw [Int.add_mul, Int.mul_comm numVar] at this; omega
    · have h1 : (m + v * numSub).tdiv numSub = v := by
        rw [Int.tdiv_eq_ediv_of_nonneg hb, Int.add_mul_ediv_right _ _ (by omega),
          Int.ediv_eq_zero_of_lt hm hm']; omega
      have h2 : (m + v * numSub).tmod numSub = m := by
        rw [Int.tmod_eq_emod_of_nonneg hb, Int.add_mul_emod_self_right, Int.emod_eq_of_lt hm hm']
      simp [getDomainAndVariableIndex, h1, h2, show numSub ≠ 0 by omega]

/-- Separate variables: every block index in range decodes to a valid pair with that index. -/
theorem blockIndex_encode (ord : Order) (numSub numVar b : Int) (hb : 0 ≤ b)
    (hb' : b < numSub * numVar) (hs : 0 ≤ numSub) (hv : 0 ≤ numVar) :
    ∃ m v, getDomainAndVariableIndex true ord numSub numVar b = .ok (m, v) ∧ 0 ≤ m ∧ m < numSub ∧
      0 ≤ v ∧ v < numVar ∧ getBlockIndex true ord numSub numVar m v = .ok b := by
  have hs' : 0 < numSub := by
    rcases Int.lt_or_eq_of_le hs with h | h
    · exact h
    · subst h; simp at hb'; omega
  have hv' : 0 < numVar := by
    rcases Int.lt_or_eq_of_le hv with h | h
    · exact h
    · subst h; simp at hb'; omega
  cases ord with
  | domain =>
    have h1 := Int.emod_nonneg b (show numVar ≠ 0 by omega)
    have h2 := Int.emod_lt_of_pos b hv'
    refine ⟨b / numVar, b % numVar, ?_, Int.ediv_nonneg hb hv, ?_, h1, h2, ?_⟩
    · simp [getDomainAndVariableIndex, show numVar ≠ 0 by omega, Int.tdiv_eq_ediv_of_nonneg hb,
        Int.tmod_eq_emod_of_nonneg hb]
    · exact Int.ediv_lt_of_lt_mul hv' hb'
    · simp only [getBlockIndex, show ¬ b % numVar < 0 by omega, if_false, Bool.not_true,
        Bool.false_eq_true, pure, Except.pure]
      rw [Int.emod_add_ediv_mul]
  | «variable» =>
    have h1 := Int.emod_nonneg b (show numSub ≠ 0 by omega)
    have h2 := Int.emod_lt_of_pos b hs'
    have h3 : 0 ≤ b / numSub := Int.ediv_nonneg hb hs
    refine ⟨b % numSub, b / numSub, ?_, h1, h2, h3, ?_, ?_⟩
    · simp [getDomainAndVariableIndex, show numSub ≠ 0 by omega, Int.tdiv_eq_ediv_of_nonneg hb,
        Int.tmod_eq_emod_of_nonneg hb]
    · exact Int.ediv_lt_of_lt_mul hs' (by rw [Int.mul_comm]; exact hb')
    · simp only [getBlockIndex, show ¬ b / numSub < 0 by omega, if_false, Bool.not_true,
        Bool.false_eq_true, pure, Except.pure]
      rw [Int.emod_add_ediv_mul]

/-- Unified variables: the block index is the subdomain, for any variable argument `≥ 0`. -/
theorem blockIndex_unified (ord : Order) (numSub numVar m v : Int) (hv : 0 ≤ v) :
    getBlockIndex false ord numSub numVar m v = .ok m ∧
    getDomainAndVariableIndex false ord numSub numVar m = .ok (m, -1) := by
  constructor
  · simp [getBlockIndex, show ¬ v < 0 by omega, pure, Except.pure]
  · rfl

/-- Finding: with unified variables, the pair that `GetDomainAndVariableIndex` returns (variable
`-1`, also the default argument) is rejected by `GetBlockIndex`, whatever the block. -/
theorem blockIndex_unified_default_aborts (ord : Order) (numSub numVar b : Int) :
    ∃ m v, getDomainAndVariableIndex false ord numSub numVar b = .ok (m, v) ∧
      getBlockIndex false ord numSub numVar m v = .error .abort := by
  exact ⟨b, -1, rfl, rfl⟩

/-- Finding: arguments are not range checked; two distinct pairs, one out of range, share an index. -/
theorem blockIndex_out_of_range_aliases :
    getBlockIndex true .domain 3 2 0 2 = .ok 2 ∧ getBlockIndex true .domain 3 2 1 0 = .ok 2 := by
  decide

example : getBlockIndex true .domain 3 2 2 1 = .ok 5 ∧ getBlockIndex true .variable 3 2 2 1 = .ok 5 ∧
    getBlockIndex true .variable 3 2 1 1 = .ok 4 ∧
    getDomainAndVariableIndex true .variable 3 2 4 = .ok (1, 1) := by decide

/-! ## C14: ROM block sizes and offsets -/

/-- Separate variables: the ROM blocks have the sizes of the reference bases, at the block index of
each (subdomain, variable) pair, and the offsets are those of consecutive blocks. -/
theorem setBlockSizes_separate (ord : Order) (numVar numComp : Nat) (meshType numRefBasis : List Nat)
    (href : numRefBasis.length = numComp * numVar) (hty : ∀ c ∈ meshType, c < numComp) :
    ∃ numBasis offs compOffs,
      setBlockSizes true ord numVar numComp meshType numRefBasis = .ok (numBasis, offs, compOffs) ∧
      numBasis.length = meshType.length * numVar ∧ IsOffsets offs numBasis ∧
      (∀ (k v c : Nat) (b : Int), meshType[k]? = some c → v < numVar →
        getBlockIndex true ord meshType.length numVar k v = .ok b →
        numBasis[b.toNat]? = numRefBasis[c * numVar + v]? ∧ b.toNat < numBasis.length) ∧
      IsOffsets compOffs numRefBasis := by
  have hlt : ∀ c v, c < numComp → v < numVar → c * numVar + v < numComp * numVar := by
    intro c v hc hv
    have := Nat.mul_le_mul_right numVar (show c + 1 ≤ numComp by omega)
    rw [Nat.add_mul] at this; omega
  -- component offsets
  have e1 : loop numComp (fun c st => loop numVar (fun v st => (do
        let n ← rd numRefBasis (c * numVar + v)
        wr st (c * numVar + v + 1) n : Outcome (List Nat))) st)
        (List.replicate (numComp * numVar + 1) 0) =
      loop numComp (fun c st => loop numVar (fun v st =>
        wr st (c * numVar + v + 1) ((numRefBasis[c * numVar + v]?).getD 0)) st)
        (List.replicate (numComp * numVar + 1) 0) := by
    refine loop_congr fun c s hc => loop_congr fun v s hv => ?_
    have hl : c * numVar + v < numRefBasis.length := by rw [href]; exact hlt c v hc hv
    rw [rd_of_lt hl, ok_bind]; simp [hl]
  have hdec : ∀ {n i j i' j' : Nat}, j < n → j' < n → i * n + j = i' * n + j' → i = i' ∧ j = j' := by
    intro n i j i' j' hj hj' h
    have hn : 0 < n := by omega
    have a1 : (i * n + j) / n = i := by
      rw [Nat.mul_comm, Nat.mul_add_div hn, Nat.div_eq_of_lt hj]; omega
    have a2 : (i' * n + j') / n = i' := by
      rw [Nat.mul_comm, Nat.mul_add_div hn, Nat.div_eq_of_lt hj']; omega
    have : i = i' := by rw [← a1, ← a2, h]
    subst this; omega
  obtain ⟨rc, hrc, c1, c2, c3⟩ := loop2_fill (a := numComp) (b := numVar)
    (fun c v => c * numVar + v + 1) (fun c v => (numRefBasis[c * numVar + v]?).getD 0)
    (List.replicate (numComp * numVar + 1) 0)
    (fun i j i' j' _ hj _ hj' h => hdec hj hj' (by omega))
    (fun i j hi hj => by simpa using hlt i j hi hj)
  have hrc' : rc = 0 :: numRefBasis := by
    apply getElem?_ext_zero (by rw [c1, href]; simp)
    · rw [c3 0 (fun i j _ _ => by omega)]; simp
    · intro i hi
      rw [href] at hi
      have hv : 0 < numVar := by
        rcases Nat.eq_zero_or_pos numVar with h | h
        · subst h; omega
        · exact h
      have := c2 (i / numVar) (i % numVar)
        (Nat.div_lt_of_lt_mul (by rw [Nat.mul_comm]; exact hi)) (Nat.mod_lt _ hv)
      rw [Nat.div_add_mod'] at this
      rw [this]; simp [href, hi]
  -- block offsets
  let idx : Nat → Nat → Nat := fun k v => match ord with
    | .domain => v + k * numVar
    | .variable => k + v * meshType.length
  have hidx : ∀ k v : Nat, getBlockIndex true ord meshType.length numVar k v = .ok ((idx k v : Nat) : Int) := by
    intro k v
    have : ¬ ((v : Int) < 0) := by omega
    cases ord <;> simp [getBlockIndex, idx, this, pure, Except.pure]
  have hidxlt : ∀ k v, k < meshType.length → v < numVar → idx k v < meshType.length * numVar := by
    intro k v hk hv
    cases ord
    · have := Nat.mul_le_mul_right numVar (show k + 1 ≤ meshType.length by omega)
      rw [Nat.add_mul] at this; simp only [idx]; omega
    · have := Nat.mul_le_mul_right meshType.length (show v + 1 ≤ numVar by omega)
      rw [Nat.add_mul, Nat.mul_comm numVar] at this; simp only [idx]; omega
  have hidxinj : ∀ i j i' j', i < meshType.length → j < numVar → i' < meshType.length → j' < numVar →
      idx i j = idx i' j' → i = i' ∧ j = j' := by
    intro i j i' j' hi hj hi' hj' h
    cases ord
    · exact hdec hj hj' (by simp only [idx] at h; omega)
    · exact And.symm (hdec hi hi' (by simp only [idx] at h; omega))
  have e2 : loop meshType.length (fun k st => (do
        let c ← rd meshType k
        loop numVar (fun v st => do
          let idx ← getBlockIndex true ord meshType.length numVar k v
          let n ← rd numRefBasis (c * numVar + v)
          wrI st (idx + 1) n) st : Outcome (List Nat)))
        (List.replicate (meshType.length * numVar + 1) 0) =
      loop meshType.length (fun k st => loop numVar (fun v st =>
        wr st (idx k v + 1) ((numRefBasis[meshType[k]?.getD 0 * numVar + v]?).getD 0)) st)
        (List.replicate (meshType.length * numVar + 1) 0) := by
    refine loop_congr fun k s hk => ?_
    rw [rd_of_lt hk, ok_bind]
    refine loop_congr fun v s hv => ?_
    have hc : meshType[k] < numComp := hty _ (List.getElem_mem hk)
    have hl : meshType[k] * numVar + v < numRefBasis.length := by rw [href]; exact hlt _ v hc hv
    rw [hidx, ok_bind, rd_of_lt hl, ok_bind]
    have : ((idx k v : Nat) : Int) + 1 = ((idx k v + 1 : Nat) : Int) := by push_cast; rfl
    rw [this]
    unfold wrI
    rw [if_pos (by omega)]
    simp [hk, hl]
  obtain ⟨rb, hrb, b1, b2, b3⟩ := loop2_fill (a := meshType.length) (b := numVar)
    (fun k v => idx k v + 1) (fun k v => (numRefBasis[meshType[k]?.getD 0 * numVar + v]?).getD 0)
    (List.replicate (meshType.length * numVar + 1) 0)
    (fun i j i' j' hi hj hi' hj' h => hidxinj i j i' j' hi hj hi' hj' (by omega))
    (fun i j hi hj => by simpa using hidxlt i j hi hj)
  have hrb' : rb = 0 :: rb.drop 1 := by
    have h0 := b3 0 (fun i j _ _ => by omega)
    rw [show (List.replicate (meshType.length * numVar + 1) 0)[0]? = some 0 by simp] at h0
    cases rb with
    | nil => simp at h0
    | cons x xs => simp at h0; simp [h0]
  refine ⟨rb.drop 1, Sampling.partialSum rb, Sampling.partialSum rc, ?_, ?_,
    isOffsets_partialSum' hrb', ?_, isOffsets_partialSum' hrc'⟩
  · unfold setBlockSizes
    simp only [if_true]
    rw [e1, hrc, ok_bind, e2, hrb]
    rfl
  · rw [List.length_drop, b1]; simp
  · intro k v c b hk hv hb
    rw [hidx] at hb
    cases hb
    have hkl := (List.getElem?_eq_some_iff.1 hk).1
    have hc : c < numComp := hty c (List.mem_of_getElem? hk)
    have hl : c * numVar + v < numRefBasis.length := by rw [href]; exact hlt _ v hc hv
    have h2 := b2 k v hkl hv
    rw [hk] at h2
    constructor
    · rw [List.getElem?_drop, Int.toNat_natCast, Nat.add_comm, h2]; simp [hl]
    · rw [List.length_drop, b1]
      have := hidxlt k v hkl hv
      simpa using this

/-- Unified variables: one block per subdomain, of the size of its component's basis. -/
theorem setBlockSizes_unified (ord : Order) (numVar : Nat) (meshType numRefBasis : List Nat)
    (hty : ∀ c ∈ meshType, c < numRefBasis.length) :
    ∃ numBasis offs compOffs,
      setBlockSizes false ord numVar numRefBasis.length meshType numRefBasis
        = .ok (numBasis, offs, compOffs) ∧
      numBasis.length = meshType.length ∧ IsOffsets offs numBasis ∧
      (∀ k c : Nat, meshType[k]? = some c → numBasis[k]? = numRefBasis[c]?) ∧
      IsOffsets compOffs numRefBasis := by
  have e1 : loop numRefBasis.length (fun c st => (do
        let n ← rd numRefBasis c
        wr st (c + 1) n : Outcome (List Nat))) (List.replicate (numRefBasis.length + 1) 0) =
      loop numRefBasis.length (fun c st => wr st (c + 1) ((numRefBasis[c]?).getD 0))
        (List.replicate (numRefBasis.length + 1) 0) := by
    refine loop_congr fun c s hc => ?_
    rw [rd_of_lt hc, ok_bind]; simp [hc]
  have e2 : loop meshType.length (fun k st => (do
        let c ← rd meshType k
        let n ← rd numRefBasis c
        wr st (k + 1) n : Outcome (List Nat))) (List.replicate (meshType.length + 1) 0) =
      loop meshType.length (fun k st => wr st (k + 1) ((numRefBasis[meshType[k]?.getD 0]?).getD 0))
        (List.replicate (meshType.length + 1) 0) := by
    refine loop_congr fun k s hk => ?_
    have hl : meshType[k] < numRefBasis.length := hty _ (List.getElem_mem hk)
    rw [rd_of_lt hk, ok_bind, rd_of_lt hl, ok_bind]; simp [hk, hl]
  obtain ⟨rc, hrc, c1, c2, c3⟩ := loop_fill (n := numRefBasis.length)
    (fun c => c + 1) (fun c => (numRefBasis[c]?).getD 0)
    (List.replicate (numRefBasis.length + 1) 0) (fun i j _ _ h => by omega) (fun i hi => by simp [hi])
  obtain ⟨rb, hrb, b1, b2, b3⟩ := loop_fill (n := meshType.length)
    (fun c => c + 1) (fun k => (numRefBasis[meshType[k]?.getD 0]?).getD 0)
    (List.replicate (meshType.length + 1) 0) (fun i j _ _ h => by omega) (fun i hi => by simp [hi])
  have hrc' : rc = 0 :: numRefBasis := by
    apply getElem?_ext_zero (by rw [c1]; simp)
    · rw [c3 0 (fun i _ => by omega)]; simp
    · intro i hi; rw [c2 i hi]; simp [hi]
  have hrb' : rb = 0 :: rb.drop 1 := by
    have h0 := b3 0 (fun i _ => by omega)
    rw [show (List.replicate (meshType.length + 1) 0)[0]? = some 0 by simp] at h0
    cases rb with
    | nil => simp at h0
    | cons x xs => simp at h0; simp [h0]
  refine ⟨rb.drop 1, Sampling.partialSum rb, Sampling.partialSum rc, ?_, by rw [List.length_drop, b1]; simp,
    isOffsets_partialSum' hrb', ?_, isOffsets_partialSum' hrc'⟩
  · unfold setBlockSizes
    simp only [Bool.false_eq_true, if_false]
    rw [e1, hrc, ok_bind, e2, hrb]
    rfl
  · intro k c hk
    have hkl := (List.getElem?_eq_some_iff.1 hk).1
    have hl : c < numRefBasis.length := hty c (List.mem_of_getElem? hk)
    rw [List.getElem?_drop, Nat.add_comm, b2 k hkl, hk]; simp [hl]

example : setBlockSizes true .domain 2 2 [0, 1, 0] [3, 1, 5, 2]
    = .ok ([3, 1, 5, 2, 3, 1], [0, 3, 4, 9, 11, 14, 15], [0, 3, 4, 9, 11]) := by decide
example : setBlockSizes true .variable 2 2 [0, 1, 0] [3, 1, 5, 2]
    = .ok ([3, 5, 3, 1, 2, 1], [0, 3, 8, 11, 12, 14, 15], [0, 3, 4, 9, 11]) := by decide
example : setBlockSizes false .domain 2 2 [1, 1, 0] [4, 7]
    = .ok ([7, 7, 4], [0, 7, 14, 18], [0, 4, 11]) := by decide

/-! ## C15: reordering between variable-major and subdomain-major -/

section Reorder
variable {R : Type}

theorem pair_inj {n i j i' j' : Nat} (hj : j < n) (hj' : j' < n) (h : n * i + j = n * i' + j') :
    i = i' ∧ j = j' := by
  have hn : 0 < n := by omega
  have a1 : (n * i + j) / n = i := by rw [Nat.mul_add_div hn, Nat.div_eq_of_lt hj]; omega
  have a2 : (n * i' + j') / n = i' := by rw [Nat.mul_add_div hn, Nat.div_eq_of_lt hj']; omega
  have : i = i' := by rw [← a1, ← a2, h]
  subst this; omega

theorem pair_lt {n k i j : Nat} (hi : i < k) (hj : j < n) : n * i + j < n * k := by
  have := Nat.mul_le_mul_left n (show i + 1 ≤ k by omega)
  rw [Nat.mul_add] at this; omega

/-- `SortBySubdomains`: with matching block sizes it succeeds, keeps the block structure of the
target and puts variable-major block `(v, m)` at subdomain-major position `(m, v)`. -/
theorem sortBySubdomains_spec (numSub numVar : Nat) (byVar bySub : BlockVector R)
    (zv zs : List Nat) (hv : HasSizes byVar zv) (hs : HasSizes bySub zs)
    (hlv : zv.length = numVar * numSub) (hls : zs.length = numVar * numSub)
    (hz : ∀ m v : Nat, m < numSub → v < numVar → zs[numVar * m + v]? = zv[numSub * v + m]?) :
    ∃ r, sortBySubdomains numSub numVar byVar bySub = .ok r ∧ HasSizes r zs ∧
      ∀ m v : Nat, m < numSub → v < numVar →
        blockOf r (numVar * m + v) = blockOf byVar (numSub * v + m) := by
  obtain ⟨r, hr, h1, h2⟩ := loop2_copy hs hv (a := numSub) (b := numVar)
    (fun m v => numVar * m + v) (fun m v => numSub * v + m)
    (fun i j i' j' _ hj _ hj' h => pair_inj hj hj' h)
    (fun m v hm hv => by
      have hl : numVar * m + v < zs.length := by rw [hls]; exact pair_lt hm hv
      exact ⟨zs[numVar * m + v], by simp [hl], by rw [← hz m v hm hv]; simp [hl]⟩)
  refine ⟨r, ?_, h1, h2⟩
  unfold sortBySubdomains
  rw [hv.numBlocks, hs.numBlocks, hlv, hls]
  simp only [beq_self_eq_true, require_true, ok_bind]
  exact hr

/-- `SortByVariables`: the mirror image. -/
theorem sortByVariables_spec (numSub numVar : Nat) (bySub byVar : BlockVector R)
    (zs zv : List Nat) (hs : HasSizes bySub zs) (hv : HasSizes byVar zv)
    (hls : zs.length = numVar * numSub) (hlv : zv.length = numVar * numSub)
    (hz : ∀ m v : Nat, m < numSub → v < numVar → zs[numVar * m + v]? = zv[numSub * v + m]?) :
    ∃ r, sortByVariables numSub numVar bySub byVar = .ok r ∧ HasSizes r zv ∧
      ∀ m v : Nat, m < numSub → v < numVar →
        blockOf r (numSub * v + m) = blockOf bySub (numVar * m + v) := by
  obtain ⟨r, hr, h1, h2⟩ := loop2_copy hv hs (a := numSub) (b := numVar)
    (fun m v => numSub * v + m) (fun m v => numVar * m + v)
    (fun i j i' j' hi _ hi' _ h => And.symm (pair_inj hi hi' h))
    (fun m v hm hv => by
      have hl : numVar * m + v < zs.length := by rw [hls]; exact pair_lt hm hv
      exact ⟨zs[numVar * m + v], by rw [← hz m v hm hv]; simp [hl], by simp [hl]⟩)
  refine ⟨r, ?_, h1, h2⟩
  unfold sortByVariables
  rw [hv.numBlocks, hs.numBlocks, hlv, hls]
  simp only [beq_self_eq_true, require_true, ok_bind]
  exact hr

/-- Sorting by subdomains and back, into any target of the original block structure, returns the
original vector entry for entry. -/
theorem sort_roundTrip (numSub numVar : Nat) (byVar bySub byVar' : BlockVector R)
    (zv zs : List Nat) (hv : HasSizes byVar zv) (hs : HasSizes bySub zs) (hv' : HasSizes byVar' zv)
    (hlv : zv.length = numVar * numSub) (hls : zs.length = numVar * numSub)
    (hz : ∀ m v : Nat, m < numSub → v < numVar → zs[numVar * m + v]? = zv[numSub * v + m]?) :
    ∃ r, sortBySubdomains numSub numVar byVar bySub = .ok r ∧
      sortByVariables numSub numVar r byVar' = .ok byVar := by
  obtain ⟨r, hr, r1, r2⟩ := sortBySubdomains_spec numSub numVar byVar bySub zv zs hv hs hlv hls hz
  obtain ⟨q, hq, q1, q2⟩ := sortByVariables_spec numSub numVar r byVar' zs zv r1 hv' hls hlv hz
  refine ⟨r, hr, ?_⟩
  rw [hq]
  congr 1
  refine blocks_ext q1 hv fun i hi => ?_
  rw [hlv] at hi
  have hn : 0 < numSub := by
    rcases Nat.eq_zero_or_pos numSub with h | h
    · subst h; simp at hi
    · exact h
  have hm := Nat.mod_lt i hn
  have hd : i / numSub < numVar := Nat.div_lt_of_lt_mul (by rw [Nat.mul_comm]; exact hi)
  have a := q2 (i % numSub) (i / numSub) hm hd
  have b := r2 (i % numSub) (i / numSub) hm hd
  rw [Nat.div_add_mod] at a b
  rw [a, b]

/-- The other direction of the round trip. -/
theorem sort_roundTrip' (numSub numVar : Nat) (bySub byVar bySub' : BlockVector R)
    (zv zs : List Nat) (hs : HasSizes bySub zs) (hv : HasSizes byVar zv) (hs' : HasSizes bySub' zs)
    (hlv : zv.length = numVar * numSub) (hls : zs.length = numVar * numSub)
    (hz : ∀ m v : Nat, m < numSub → v < numVar → zs[numVar * m + v]? = zv[numSub * v + m]?) :
    ∃ r, sortByVariables numSub numVar bySub byVar = .ok r ∧
      sortBySubdomains numSub numVar r bySub' = .ok bySub := by
  obtain ⟨r, hr, r1, r2⟩ := sortByVariables_spec numSub numVar bySub byVar zs zv hs hv hls hlv hz
  obtain ⟨q, hq, q1, q2⟩ := sortBySubdomains_spec numSub numVar r bySub' zv zs r1 hs' hlv hls hz
  refine ⟨r, hr, ?_⟩
  rw [hq]
  congr 1
  refine blocks_ext q1 hs fun i hi => ?_
  rw [hls] at hi
  have hn : 0 < numVar := by
    rcases Nat.eq_zero_or_pos numVar with h | h
    · subst h; simp at hi
    · exact h
  have hm := Nat.mod_lt i hn
  have hd : i / numVar < numSub := Nat.div_lt_of_lt_mul hi
  have a := q2 (i / numVar) (i % numVar) hd hm
  have b := r2 (i / numVar) (i % numVar) hd hm
  rw [Nat.div_add_mod] at a b
  rw [a, b]

theorem loop_error_of {σ : Type _} {body : Nat → σ → Outcome σ} {n : Nat} {s : σ}
    (P : σ → Prop) (hP : P s) (hstep : ∀ k u, k < n → P u →
      (∃ u', body k u = .ok u' ∧ P u') ∨ body k u = .error .abort)
    (hbad : ∃ k, k < n ∧ ∀ u, P u → body k u = .error .abort) :
    loop n body s = .error .abort := by
  obtain ⟨k, hk, hb⟩ := hbad
  have : ∀ (d i : Nat) (u : σ), P u → i ≤ k → k < i + d → i + d ≤ n →
      loopFrom body i d u = .error .abort := by
    intro d
    induction d with
    | zero => intro i u _ h1 h2; omega
    | succ d ih =>
      intro i u hu h1 h2 h3
      rw [loopFrom]
      by_cases hik : i = k
      · subst hik; rw [hb u hu]
      · rcases hstep i u (by omega) hu with ⟨u', e, hu'⟩ | e
        · rw [e]; exact ih (i + 1) u' hu' (by omega) (by omega) (by omega)
        · rw [e]
  exact this n 0 s hP (Nat.zero_le _) (by omega) (by omega)

/-- Sorting never writes across a size mismatch: if some pair of blocks differs in size, the call
aborts. -/
theorem sortBySubdomains_mismatch (numSub numVar : Nat) (byVar bySub : BlockVector R)
    (zv zs : List Nat) (hv : HasSizes byVar zv) (hs : HasSizes bySub zs)
    (hlv : zv.length = numVar * numSub) (hls : zs.length = numVar * numSub)
    {m v : Nat} (hm : m < numSub) (hvv : v < numVar)
    (hz : zs[numVar * m + v]? ≠ zv[numSub * v + m]?) :
    sortBySubdomains numSub numVar byVar bySub = .error .abort := by
  have hget : ∀ m v : Nat, m < numSub → v < numVar →
      ∃ a b, zs[numVar * m + v]? = some a ∧ zv[numSub * v + m]? = some b := by
    intro m v hm hv
    have h1 : numVar * m + v < zs.length := by rw [hls]; exact pair_lt hm hv
    have h2 : numSub * v + m < zv.length := by
      rw [hlv, Nat.mul_comm numVar]; exact pair_lt hv hm
    exact ⟨zs[numVar * m + v], zv[numSub * v + m], by simp [h1], by simp [h2]⟩
  have hcopy : ∀ m v u, m < numSub → v < numVar → HasSizes u zs →
      (∃ u', copyBlock u (numVar * m + v) byVar (numSub * v + m) = .ok u' ∧ HasSizes u' zs) ∨
      copyBlock u (numVar * m + v) byVar (numSub * v + m) = .error .abort := by
    intro m v u hm hv' hu
    obtain ⟨a, b, ha, hb⟩ := hget m v hm hv'
    by_cases hab : a = b
    · subst hab
      obtain ⟨u', e, h1, _⟩ := copyBlock_spec hu hv ha hb
      exact Or.inl ⟨u', e, h1⟩
    · exact Or.inr (copyBlock_mismatch hu hv ha hb hab)
  unfold sortBySubdomains
  rw [hv.numBlocks, hs.numBlocks, hlv, hls]
  simp only [beq_self_eq_true, require_true, ok_bind]
  refine loop_error_of (fun u => HasSizes u zs) hs ?_ ⟨m, hm, ?_⟩
  · intro k u hk hu
    have : ∀ (d i : Nat) (u : BlockVector R), HasSizes u zs → i + d ≤ numVar →
        (∃ u', loopFrom (fun v bySub => copyBlock bySub (numVar * k + v) byVar (numSub * v + k)) i d u
          = .ok u' ∧ HasSizes u' zs) ∨
        loopFrom (fun v bySub => copyBlock bySub (numVar * k + v) byVar (numSub * v + k)) i d u
          = .error .abort := by
      intro d
      induction d with
      | zero => intro i u hu _; exact Or.inl ⟨u, rfl, hu⟩
      | succ d ih =>
        intro i u hu hi
        rw [loopFrom]
        rcases hcopy k i u hk (by omega) hu with ⟨u', e, hu'⟩ | e
        · rw [e]; exact ih (i + 1) u' hu' (by omega)
        · rw [e]; exact Or.inr rfl
    exact this numVar 0 u hu (by omega)
  · intro u hu
    refine loop_error_of (fun u => HasSizes u zs) hu (fun v u hv' hu => hcopy m v u hm hv' hu)
      ⟨v, hvv, ?_⟩
    intro u hu
    obtain ⟨a, b, ha, hb⟩ := hget m v hm hvv
    refine copyBlock_mismatch hu hv ha hb ?_
    rintro rfl
    exact hz (by rw [ha, hb])

/-- Wrong numbers of blocks abort. -/
theorem sort_wrong_count (numSub numVar : Nat) (a b : BlockVector R)
    (h : a.numBlocks ≠ numVar * numSub ∨ b.numBlocks ≠ numVar * numSub) :
    sortBySubdomains numSub numVar a b = .error .abort ∧
    sortByVariables numSub numVar a b = .error .abort := by
  unfold sortBySubdomains sortByVariables
  by_cases ha : a.numBlocks = numVar * numSub
  · have hb : (b.numBlocks == numVar * numSub) = false := by
      rcases h with h | h
      · exact absurd ha h
      · simp [h]
    simp only [ha, beq_self_eq_true, require_true, ok_bind, hb, require_false, error_bind, and_self]
  · have ha' : (a.numBlocks == numVar * numSub) = false := by simp [ha]
    constructor
    · simp only [ha', require_false, error_bind]
    · by_cases hb : b.numBlocks = numVar * numSub
      · simp only [hb, beq_self_eq_true, require_true, ok_bind, ha', require_false, error_bind]
      · have hb' : (b.numBlocks == numVar * numSub) = false := by simp [hb]
        simp only [hb', require_false, error_bind]

example :
    let byVar : BlockVector Nat := ⟨[10, 11, 20, 30, 40, 41, 42], [0, 2, 3, 4, 7]⟩
    let bySub : BlockVector Nat := ⟨List.replicate 7 0, [0, 2, 3, 4, 7]⟩
    HasSizes byVar [2, 1, 1, 3] ∧
    sortBySubdomains 2 2 byVar ⟨List.replicate 7 0, [0, 2, 3, 4, 7]⟩ =
      .ok ⟨[10, 11, 30, 20, 40, 41, 42], [0, 2, 3, 4, 7]⟩ ∧
    sortByVariables 2 2 ⟨[10, 11, 30, 20, 40, 41, 42], [0, 2, 3, 4, 7]⟩ bySub = .ok byVar := by
  refine ⟨⟨⟨rfl, rfl, ?_⟩, rfl⟩, by decide, by decide⟩
  intro i s h
  rcases i with _ | _ | _ | _ | i <;> simp at h <;> subst h <;> simp

/-! ## C16: extracting and inserting one variable -/

/-- `GetVariableVector`: copies block `(m, var_idx)` of the global vector into block `m`. -/
theorem getVariableVector_spec (numSub numVar : Nat) (i : Nat) (hi : i < numVar)
    (glob var : BlockVector R) (zg zv : List Nat) (hg : HasSizes glob zg) (hv : HasSizes var zv)
    (hlg : zg.length = numVar * numSub) (hlv : zv.length = numSub)
    (hz : ∀ m : Nat, m < numSub → zv[m]? = zg[numVar * m + i]?) :
    ∃ r, getVariableVector numSub numVar i glob var = .ok r ∧ HasSizes r zv ∧
      ∀ m : Nat, m < numSub → blockOf r m = blockOf glob (numVar * m + i) := by
  obtain ⟨r, hr, h1, h2, _⟩ := loop_copy hv hg (n := numSub) (fun m => m) (fun m => numVar * m + i)
    (fun _ _ _ _ h => h) (fun m hm => ⟨zv[m], by simp, by
      rw [← hz m hm]; simp [show m < zv.length by omega]⟩)
  refine ⟨r, ?_, h1, h2⟩
  unfold getVariableVector
  rw [hv.numBlocks, hg.numBlocks, hlv, hlg]
  simp only [beq_self_eq_true, require_true, ok_bind, show (0 : Int) ≤ (i : Int) by omega,
    show (i : Int) < (numVar : Int) by omega, decide_true, Bool.and_self, Int.toNat_natCast]
  exact hr

/-- `SetVariableVector`: overwrites exactly the blocks of that variable. -/
theorem setVariableVector_spec (numSub numVar : Nat) (i : Nat) (hi : i < numVar)
    (var glob : BlockVector R) (zv zg : List Nat) (hv : HasSizes var zv) (hg : HasSizes glob zg)
    (hlv : zv.length = numSub) (hlg : zg.length = numVar * numSub)
    (hz : ∀ m : Nat, m < numSub → zv[m]? = zg[numVar * m + i]?) :
    ∃ r, setVariableVector numSub numVar i var glob = .ok r ∧ HasSizes r zg ∧
      ∀ m v : Nat, m < numSub → v < numVar → blockOf r (numVar * m + v) =
        if v = i then blockOf var m else blockOf glob (numVar * m + v) := by
  obtain ⟨r, hr, h1, h2, h3⟩ := loop_copy hg hv (n := numSub) (fun m => numVar * m + i) (fun m => m)
    (fun m m' _ _ h => (pair_inj hi hi h).1) (fun m hm => ⟨zv[m], by
      rw [← hz m hm]; simp [show m < zv.length by omega], by simp⟩)
  refine ⟨r, ?_, h1, ?_⟩
  · unfold setVariableVector
    rw [hv.numBlocks, hg.numBlocks, hlv, hlg]
    simp only [beq_self_eq_true, require_true, ok_bind, show (0 : Int) ≤ (i : Int) by omega,
      show (i : Int) < (numVar : Int) by omega, decide_true, Bool.and_self, Int.toNat_natCast]
    exact hr
  · intro m v hm hvv
    by_cases hvi : v = i
    · subst hvi; rw [if_pos rfl]; exact h2 m hm
    · rw [if_neg hvi]
      exact h3 _ (by rw [hlg]; exact pair_lt hm hvv)
        (fun m' hm' e => hvi (pair_inj hi hvv e).2.symm)

/-- Set then get returns the inserted vector; get then set leaves the global vector unchanged. -/
theorem variableVector_roundTrip (numSub numVar : Nat) (i : Nat) (hi : i < numVar)
    (var var' glob : BlockVector R) (zv zg : List Nat) (hv : HasSizes var zv)
    (hv' : HasSizes var' zv) (hg : HasSizes glob zg)
    (hlv : zv.length = numSub) (hlg : zg.length = numVar * numSub)
    (hz : ∀ m : Nat, m < numSub → zv[m]? = zg[numVar * m + i]?) :
    (∃ g', setVariableVector numSub numVar i var glob = .ok g' ∧
      getVariableVector numSub numVar i g' var' = .ok var) ∧
    (∃ x, getVariableVector numSub numVar i glob var = .ok x ∧
      setVariableVector numSub numVar i x glob = .ok glob) := by
  constructor
  · obtain ⟨g, hg1, hg2, hg3⟩ := setVariableVector_spec numSub numVar i hi var glob zv zg hv hg hlv hlg hz
    obtain ⟨x, hx1, hx2, hx3⟩ := getVariableVector_spec numSub numVar i hi g var' zg zv hg2 hv' hlg hlv hz
    refine ⟨g, hg1, ?_⟩
    rw [hx1]; congr 1
    refine blocks_ext hx2 hv fun m hm => ?_
    rw [hlv] at hm
    rw [hx3 m hm, hg3 m i hm hi, if_pos rfl]
  · obtain ⟨x, hx1, hx2, hx3⟩ := getVariableVector_spec numSub numVar i hi glob var zg zv hg hv hlg hlv hz
    obtain ⟨g, hg1, hg2, hg3⟩ := setVariableVector_spec numSub numVar i hi x glob zv zg hx2 hg hlv hlg hz
    refine ⟨x, hx1, ?_⟩
    rw [hg1]; congr 1
    refine blocks_ext hg2 hg fun t ht => ?_
    rw [hlg] at ht
    have hn : 0 < numVar := by omega
    have hm : t / numVar < numSub := Nat.div_lt_of_lt_mul ht
    have hr := Nat.mod_lt t hn
    have a := hg3 (t / numVar) (t % numVar) hm hr
    rw [Nat.div_add_mod] at a
    rw [a]
    split
    · rename_i h
      rw [hx3 _ hm, ← h, Nat.div_add_mod]
    · rfl

/-- A variable index out of range or a wrong block count aborts both calls. -/
theorem variableVector_rejects (numSub numVar : Nat) (i : Int) (var glob : BlockVector R)
    (h : ¬ (0 ≤ i ∧ i < numVar) ∨ glob.numBlocks ≠ numVar * numSub ∨ var.numBlocks ≠ numSub) :
    getVariableVector numSub numVar i glob var = .error .abort ∧
    setVariableVector numSub numVar i var glob = .error .abort := by
  unfold getVariableVector setVariableVector
  by_cases h1 : 0 ≤ i ∧ i < numVar
  · have e1 : (decide (0 ≤ i) && decide (i < (numVar : Int))) = true := by simp [h1]
    by_cases h2 : glob.numBlocks = numVar * numSub
    · have e3 : (var.numBlocks == numSub) = false := by
        rcases h with h | h | h
        · exact absurd h1 h
        · exact absurd h2 h
        · simp [h]
      simp only [e1, h2, e3, beq_self_eq_true, require_true, require_false, ok_bind, error_bind,
        and_self]
    · have e2 : (glob.numBlocks == numVar * numSub) = false := by simp [h2]
      simp only [e1, e2, require_true, require_false, ok_bind, error_bind, and_self]
  · have e1 : (decide (0 ≤ i) && decide (i < (numVar : Int))) = false := by
      simp only [Bool.and_eq_false_iff, decide_eq_false_iff_not]; omega
    simp only [e1, require_false, error_bind, and_self]

example :
    setVariableVector 2 2 1 (⟨[7, 8, 9], [0, 1, 3]⟩ : BlockVector Nat) ⟨[1, 2, 3, 4, 5], [0, 1, 2, 3, 5]⟩
      = .ok ⟨[1, 7, 3, 8, 9], [0, 1, 2, 3, 5]⟩ ∧
    getVariableVector 2 2 1 (⟨[1, 7, 3, 8, 9], [0, 1, 2, 3, 5]⟩ : BlockVector Nat) ⟨[0, 0, 0], [0, 1, 3]⟩
      = .ok ⟨[7, 8, 9], [0, 1, 3]⟩ := by decide

end Reorder

/-! ## C17: solution offsets -/

/-- Stokes/Navier-Stokes offsets: the component, variable, domain, velocity and pressure offsets are
the offsets of consecutive blocks of the space dimensions, and all describe the same total. -/
theorem stokes_offsets (dim : Nat) (nu np : List Nat) (hl : nu.length = np.length) :
    ∃ o, stokesInitVariables dim nu np = .ok o ∧
      IsOffsets o.block ((nu.zip np).flatMap fun ab => List.replicate dim ab.1 ++ [ab.2]) ∧
      IsOffsets o.var ((nu.zip np).flatMap fun ab => [dim * ab.1, ab.2]) ∧
      IsOffsets o.domain ((nu.zip np).map fun ab => dim * ab.1 + ab.2) ∧
      IsOffsets o.u (nu.map fun a => dim * a) ∧
      IsOffsets o.p np ∧
      IsOffsets o.vblock [(nu.map fun a => dim * a).sum, np.sum] ∧
      o.numVdofs = (nu.zip np).map (fun ab => dim * ab.1 + ab.2) := by
  let z := nu.zip np
  have hzl : z.length = nu.length := by simp [z, hl]
  let fb : Nat × Nat → List Nat := fun ab => List.replicate dim ab.1 ++ [ab.2]
  let fv : Nat × Nat → List Nat := fun ab => [dim * ab.1, ab.2]
  let fd : Nat × Nat → List Nat := fun ab => [dim * ab.1 + ab.2]
  let fu : Nat × Nat → List Nat := fun ab => [dim * ab.1]
  let fp : Nat × Nat → List Nat := fun ab => [ab.2]
  let S : (Nat × Nat → List Nat) → Nat → Nat → List Nat := fun f w k =>
    0 :: (z.take k).flatMap f ++ List.replicate ((nu.length - k) * w) 0
  have hlen : ∀ (f : Nat × Nat → List Nat) (w k : Nat), (∀ a, (f a).length = w) → k ≤ nu.length →
      (0 :: (z.take k).flatMap f).length = k * w + 1 := by
    intro f w k hf hk
    rw [List.length_cons, length_flatMap_const _ f w hf, List.length_take, hzl, Nat.min_eq_left hk]
  have hrep : ∀ k w, k < nu.length → (nu.length - k) * w = w + (nu.length - (k + 1)) * w := by
    intro k w hk
    rw [show nu.length - k = (nu.length - (k + 1)) + 1 by omega, Nat.add_mul]; omega
  have hone : ∀ (f : Nat × Nat → Nat) (k : Nat) (ab : Nat × Nat), k < nu.length → z[k]? = some ab →
      wr (S (fun ab => [f ab]) 1 k) (k + 1) (f ab) = .ok (S (fun ab => [f ab]) 1 (k + 1)) := by
    intro f k ab hk hz
    simp only [S]
    rw [hrep k 1 hk, Nat.add_comm 1, wr_seq (by rw [hlen _ 1 k (fun _ => rfl) (by omega)]; omega),
      flatMap_take_succ z _ hz]
    simp
  obtain ⟨r, hr, h1⟩ := loop_total (n := nu.length)
    (body := fun m (st : List Nat × List Nat × List Nat × List Nat × List Nat) => (do
      let (block, var, domain, u, p) := st
      let a ← rd nu m
      let b ← rd np m
      let var ← wr var (m * 2 + 0 + 1) (dim * a)
      let block ← loop dim (fun d block => wr block (m * (dim + 1) + d + 1) a) block
      let x ← rd domain (m + 1)
      let domain ← wr domain (m + 1) (x + dim * a)
      let var ← wr var (m * 2 + 1 + 1) b
      let block ← wr block (m * (dim + 1) + dim + 1) b
      let x ← rd domain (m + 1)
      let domain ← wr domain (m + 1) (x + b)
      let u ← wr u (m + 1) (dim * a)
      let p ← wr p (m + 1) b
      return (block, var, domain, u, p) :
        Outcome (List Nat × List Nat × List Nat × List Nat × List Nat)))
    (fun k r => r = (S fb (dim + 1) k, S fv 2 k, S fd 1 k, S fu 1 k, S fp 1 k))
    (s := (List.replicate ((dim + 1) * nu.length + 1) 0, List.replicate (2 * nu.length + 1) 0,
      List.replicate (nu.length + 1) 0, List.replicate (nu.length + 1) 0,
      List.replicate (nu.length + 1) 0))
    (by simp [S, List.replicate_succ, Nat.mul_comm]) (by
      rintro k u hk rfl
      refine ⟨_, ?_, rfl⟩
      have hz : z[k]? = some (nu[k], np[k]) := by
        simp [z, hk, show k < np.length by omega]
      have hz' := hz
      dsimp only
      rw [rd_of_lt hk, ok_bind, rd_of_lt (show k < np.length by omega), ok_bind]
      have v1 : wr (S fv 2 k) (k * 2 + 0 + 1) (dim * nu[k]) =
          .ok (0 :: (z.take k).flatMap fv ++ [dim * nu[k]] ++
            List.replicate (1 + (nu.length - (k + 1)) * 2) 0) := by
        simp only [S]
        rw [hrep k 2 hk, show 2 + (nu.length - (k + 1)) * 2 = (1 + (nu.length - (k + 1)) * 2) + 1 by omega,
          wr_seq (by rw [hlen _ 2 k (fun _ => rfl) (by omega)])]
      have v2 : wr (0 :: (z.take k).flatMap fv ++ [dim * nu[k]] ++
            List.replicate (1 + (nu.length - (k + 1)) * 2) 0) (k * 2 + 1 + 1) np[k] =
          .ok (S fv 2 (k + 1)) := by
        simp only [S]
        rw [Nat.add_comm 1 ((nu.length - (k + 1)) * 2),
          wr_seq (by rw [List.length_append, hlen _ 2 k (fun _ => rfl) (by omega)]; rfl),
          flatMap_take_succ z _ hz]
        simp [fv]
      have b1 : loop dim (fun d block => wr block (k * (dim + 1) + d + 1) nu[k]) (S fb (dim + 1) k) =
          .ok (0 :: (z.take k).flatMap fb ++ List.replicate dim nu[k] ++
            List.replicate (1 + (nu.length - (k + 1)) * (dim + 1)) 0) := by
        simp only [S]
        rw [hrep k (dim + 1) hk, Nat.add_assoc dim 1]
        rw [← loop_seq (base := k * (dim + 1) + 1)
          (by rw [hlen _ (dim + 1) k (fun _ => by simp [fb]) (by omega)])]
        refine loop_congr fun d s _ => ?_
        rw [show k * (dim + 1) + d + 1 = k * (dim + 1) + 1 + d by omega]
      have b2 : wr (0 :: (z.take k).flatMap fb ++ List.replicate dim nu[k] ++
            List.replicate (1 + (nu.length - (k + 1)) * (dim + 1)) 0) (k * (dim + 1) + dim + 1) np[k] =
          .ok (S fb (dim + 1) (k + 1)) := by
        simp only [S]
        rw [Nat.add_comm 1 ((nu.length - (k + 1)) * (dim + 1)),
          wr_seq (by
            rw [List.length_append, hlen _ (dim + 1) k (fun _ => by simp [fb]) (by omega),
              List.length_replicate]; omega),
          flatMap_take_succ z _ hz]
        simp [fb]
      have d0 : rd (S fd 1 k) (k + 1) = .ok 0 := by
        rw [rd_eq_ok]
        simp only [S]
        rw [List.getElem?_append_right (by rw [hlen _ 1 k (fun _ => rfl) (by omega)]; omega),
          hlen _ 1 k (fun _ => rfl) (by omega), List.getElem?_replicate,
          if_pos (by omega)]
      have hS : S fd 1 k = 0 :: (z.take k).flatMap fd ++
          List.replicate ((nu.length - (k + 1)) + 1) 0 := by
        simp only [S]
        rw [show (nu.length - k) * 1 = (nu.length - (k + 1)) + 1 by omega]
      have d1 : wr (S fd 1 k) (k + 1) (0 + dim * nu[k]) =
          .ok (0 :: (z.take k).flatMap fd ++ [dim * nu[k]] ++ List.replicate (nu.length - (k + 1)) 0) := by
        rw [hS, wr_seq (by rw [hlen _ 1 k (fun _ => rfl) (by omega)]; omega), Nat.zero_add]
      have d2 : rd (0 :: (z.take k).flatMap fd ++ [dim * nu[k]] ++
          List.replicate (nu.length - (k + 1)) 0) (k + 1) = .ok (dim * nu[k]) := by
        rw [rd_eq_ok, List.append_assoc, List.getElem?_append_right
          (by rw [hlen _ 1 k (fun _ => rfl) (by omega)]; omega),
          hlen _ 1 k (fun _ => rfl) (by omega)]
        simp
      have d3 : wr (0 :: (z.take k).flatMap fd ++ [dim * nu[k]] ++
          List.replicate (nu.length - (k + 1)) 0) (k + 1) (dim * nu[k] + np[k]) =
          .ok (S fd 1 (k + 1)) := by
        rw [wr_of_lt (by
          rw [List.length_append, List.length_append, hlen _ 1 k (fun _ => rfl) (by omega)]
          simp; omega)]
        simp only [S]
        rw [flatMap_take_succ z _ hz, List.append_assoc, List.set_append_right _ _
          (by rw [hlen _ 1 k (fun _ => rfl) (by omega)]; omega), hlen _ 1 k (fun _ => rfl) (by omega)]
        simp [fd]
      rw [v1, ok_bind, b1, ok_bind, d0, ok_bind, d1, ok_bind, v2, ok_bind, b2, ok_bind, d2, ok_bind,
        d3, ok_bind, hone (fun ab => dim * ab.1) k _ hk hz, ok_bind,
        hone (fun ab => ab.2) k _ hk hz, ok_bind]
      rfl)
  have hfull : ∀ f w, S f w nu.length = 0 :: z.flatMap f := by
    intro f w
    simp only [S]
    rw [List.take_of_length_le (by omega)]; simp
  have hzu : z.flatMap fu = nu.map fun a => dim * a := by
    have : z.map Prod.fst = nu := List.map_fst_zip (by omega)
    conv_rhs => rw [← this]
    simp [fu, ← List.map_eq_flatMap]
  have hzp : z.flatMap fp = np := by
    have : z.map Prod.snd = np := List.map_snd_zip (by omega)
    conv_rhs => rw [← this]
    simp [fp, ← List.map_eq_flatMap]
  have hzd : z.flatMap fd = z.map fun ab => dim * ab.1 + ab.2 := by
    simp [fd, ← List.map_eq_flatMap]
  rw [hfull, hfull, hfull, hfull, hfull, hzu, hzp, hzd] at h1
  have hu := isOffsets_partialSum (nu.map fun a => dim * a)
  have hp := isOffsets_partialSum np
  have lu := hu.last
  have lp := hp.last
  rw [List.length_map] at lu
  rw [← hl] at lp
  refine ⟨⟨Sampling.partialSum (0 :: z.flatMap fb), Sampling.partialSum (0 :: z.flatMap fv),
    Sampling.partialSum (0 :: z.map fun ab => dim * ab.1 + ab.2),
    Sampling.partialSum (0 :: nu.map fun a => dim * a), Sampling.partialSum (0 :: np),
    [0, (nu.map fun a => dim * a).sum, (nu.map fun a => dim * a).sum + np.sum],
    z.map fun ab => dim * ab.1 + ab.2⟩, ?_, isOffsets_partialSum _, isOffsets_partialSum _,
    isOffsets_partialSum _, hu, hp, ?_, rfl⟩
  · unfold stokesInitVariables
    dsimp only
    rw [hr, ok_bind, h1]
    dsimp only
    rw [rd_eq_ok.2 lu, ok_bind, rd_eq_ok.2 lp, ok_bind]
    rfl
  · refine ⟨rfl, rfl, ?_⟩
    intro i s h
    rcases i with _ | _ | i <;> simp at h <;> subst h <;> simp

/-- Consequence: all offset arrays end at the same total, and subdomain `m` starts at the same place
in the component, variable and domain offsets. -/
theorem stokes_offsets_consistent (dim : Nat) (nu np : List Nat) (hl : nu.length = np.length)
    (o : Offsets) (ho : stokesInitVariables dim nu np = .ok o) (m : Nat) (hm : m ≤ nu.length) :
    o.domain[m]? = o.var[2 * m]? ∧ o.domain[m]? = o.block[(dim + 1) * m]? ∧
    (∀ x y z, o.u[m]? = some x → o.p[m]? = some y → o.domain[m]? = some z → z = x + y) ∧
    o.domain[nu.length]? = o.vblock[2]? := by
  obtain ⟨o', ho', hb, hv, hd, hu, hp, hvb, _⟩ := stokes_offsets dim nu np hl
  rw [ho] at ho'
  cases ho'
  have hzl : (nu.zip np).length = nu.length := by simp [hl]
  have hsum : ∀ (l : List (Nat × Nat)),
      ((l.map fun ab => dim * ab.1 + ab.2).sum = (l.flatMap fun ab => [dim * ab.1, ab.2]).sum) ∧
      ((l.map fun ab => dim * ab.1 + ab.2).sum =
        (l.flatMap fun ab => List.replicate dim ab.1 ++ [ab.2]).sum) ∧
      ((l.map fun ab => dim * ab.1 + ab.2).sum =
        (l.map fun ab => dim * ab.1).sum + (l.map Prod.snd).sum) := by
    intro l
    induction l with
    | nil => simp
    | cons a l ih =>
      obtain ⟨i1, i2, i3⟩ := ih
      simp only [List.map_cons, List.sum_cons, List.flatMap_cons, List.sum_append,
        List.sum_replicate_nat, List.sum_nil] at *
      omega
  have htake : ∀ (f : Nat × Nat → List Nat) (w : Nat), (∀ a, (f a).length = w) →
      (((nu.zip np).flatMap f).take (w * m)) = ((nu.zip np).take m).flatMap f := by
    intro f w hf
    have : (nu.zip np).flatMap f = ((nu.zip np).take m).flatMap f ++ ((nu.zip np).drop m).flatMap f := by
      rw [← List.flatMap_append, List.take_append_drop]
    rw [this, List.take_append_of_le_length (by
        rw [length_flatMap_const _ f w hf, List.length_take, hzl, Nat.min_eq_left hm, Nat.mul_comm]),
      List.take_of_length_le (by
        rw [length_flatMap_const _ f w hf, List.length_take, hzl, Nat.min_eq_left hm, Nat.mul_comm])]
  have vd := hd.value (i := m) (by rw [List.length_map, hzl]; exact hm)
  have vv := hv.value (i := 2 * m) (by
    rw [length_flatMap_const _ _ 2 (fun _ => rfl), hzl]; omega)
  have vb := hb.value (i := (dim + 1) * m) (by
    rw [length_flatMap_const _ _ (dim + 1) (fun _ => by simp), hzl, Nat.mul_comm]
    exact Nat.mul_le_mul_right _ hm)
  have vu := hu.value (i := m) (by rw [List.length_map]; exact hm)
  have vp := hp.value (i := m) (by omega)
  rw [← List.map_take] at vd
  rw [htake _ 2 (fun _ => rfl)] at vv
  rw [htake _ (dim + 1) (fun _ => by simp)] at vb
  obtain ⟨s1, s2, s3⟩ := hsum ((nu.zip np).take m)
  refine ⟨by rw [vd, vv, s1], by rw [vd, vb, s2], ?_, ?_⟩
  · intro x y w hx hy hw
    rw [vu] at hx; rw [vp] at hy; rw [vd] at hw
    cases hx; cases hy; cases hw
    have e1 : (nu.map fun a => dim * a).take m = ((nu.zip np).take m).map fun ab => dim * ab.1 := by
      have : (nu.zip np).map Prod.fst = nu := List.map_fst_zip (by omega)
      conv_lhs => rw [← this]
      rw [← List.map_take, ← List.map_take, List.map_map]; rfl
    have e2 : np.take m = ((nu.zip np).take m).map Prod.snd := by
      have : (nu.zip np).map Prod.snd = np := List.map_snd_zip (by omega)
      conv_lhs => rw [← this]
      rw [List.map_take]
    rw [s3, e1, e2]
  · have ld := hd.last
    have lvb := hvb.value (i := 2) (by simp)
    rw [List.length_map, hzl] at ld
    obtain ⟨_, _, t3⟩ := hsum (nu.zip np)
    have e1 : (nu.map fun a => dim * a) = (nu.zip np).map fun ab => dim * ab.1 := by
      have : (nu.zip np).map Prod.fst = nu := List.map_fst_zip (by omega)
      conv_lhs => rw [← this]
      rw [List.map_map]; rfl
    have e2 : np = (nu.zip np).map Prod.snd := (List.map_snd_zip (by omega)).symm
    rw [ld, lvb, t3, e1]
    simp [← e2]

/-- The offsets that `StokesSolver::Solve` builds for the variable-major vectors are those of the
velocity blocks of all subdomains followed by the pressure blocks, and their block sizes match the
subdomain-major ones, so `SortByVariables`/`SortBySubdomains` between vectors over them never
abort. -/
theorem stokes_offsetsByVar (dim : Nat) (nu np : List Nat) (hl : nu.length = np.length)
    (o : Offsets) (ho : stokesInitVariables dim nu np = .ok o) :
    ∃ offs, stokesOffsetsByVar nu.length o.u o.p = .ok offs ∧
      IsOffsets offs ((nu.map fun a => dim * a) ++ np) ∧
      (∀ (R : Type) (x y : BlockVector R),
        HasSizes x ((nu.zip np).flatMap fun ab => [dim * ab.1, ab.2]) →
        HasSizes y ((nu.map fun a => dim * a) ++ np) →
        (∃ r, sortByVariables nu.length 2 x y = .ok r) ∧
        (∃ r, sortBySubdomains nu.length 2 y x = .ok r)) := by
  obtain ⟨o', ho', _, _, _, hu, hp, _, _⟩ := stokes_offsets dim nu np hl
  rw [ho] at ho'
  cases ho'
  let zu := nu.map fun a => dim * a
  have hzu : zu.length = nu.length := by simp [zu]
  have ru : ∀ t, t ≤ nu.length → rd o.u t = .ok (zu.take t).sum := fun t ht =>
    rd_eq_ok.2 (hu.value (by rw [List.length_map]; exact ht))
  have rp : ∀ t, t ≤ nu.length → rd o.p t = .ok (np.take t).sum := fun t ht =>
    rd_eq_ok.2 (hp.value (by omega))
  obtain ⟨r, hr, h1, h2, h3, h4⟩ := loop_total (n := nu.length)
    (body := fun k offs => (do
      let a ← rd o.u (k + 1)
      let offs ← wr offs (k + 1) a
      let b ← rd o.p (k + 1)
      let lu ← rd o.u nu.length
      wr offs (k + 1 + nu.length) (b + lu) : Outcome (List Nat)))
    (fun k r => r.length = 2 * nu.length + 1 ∧ r[0]? = some 0 ∧
      (∀ t, t < k → r[t + 1]? = some (zu.take (t + 1)).sum) ∧
      (∀ t, t < k → r[t + 1 + nu.length]? = some ((np.take (t + 1)).sum + zu.sum)))
    (s := List.replicate (2 * nu.length + 1) 0)
    ⟨by simp, by simp, by intro t ht; omega, by intro t ht; omega⟩ (by
      rintro k u hk ⟨i1, i2, i3, i4⟩
      refine ⟨(u.set (k + 1) (zu.take (k + 1)).sum).set (k + 1 + nu.length)
        ((np.take (k + 1)).sum + zu.sum), ?_, by simp [i1], ?_, ?_, ?_⟩
      · rw [ru _ (by omega), ok_bind, wr_of_lt (by omega), ok_bind, rp _ (by omega), ok_bind,
          ru _ (Nat.le_refl _), ok_bind, List.take_of_length_le (l := zu) (i := nu.length) (by omega),
          wr_of_lt (by rw [List.length_set]; omega)]
      · simp [i2]
      · intro t ht
        rw [List.getElem?_set, if_neg (by omega), List.getElem?_set]
        by_cases htk : t = k
        · subst htk; rw [if_pos rfl, if_pos (by omega)]
        · rw [if_neg (by omega), i3 t (by omega)]
      · intro t ht
        rw [List.getElem?_set]
        by_cases htk : t = k
        · subst htk; rw [if_pos rfl, if_pos (by rw [List.length_set]; omega)]
        · rw [if_neg (by omega), List.getElem?_set, if_neg (by omega), i4 t (by omega)])
  have hoffs : IsOffsets r (zu ++ np) := by
    refine isOffsets_of_value (by rw [h1, List.length_append, hzu, ← hl]; omega) ?_
    intro t ht
    rw [List.length_append, hzu, ← hl] at ht
    rcases t with _ | t
    · simpa using h2
    · by_cases htn : t < nu.length
      · rw [h3 t htn, List.take_append_of_le_length (by omega)]
      · have := h4 (t - nu.length) (by omega)
        rw [show t - nu.length + 1 + nu.length = t + 1 by omega] at this
        rw [this, List.take_append, List.take_of_length_le (l := zu) (i := t + 1) (by omega), List.sum_append, hzu,
          show t + 1 - nu.length = t - nu.length + 1 by omega, Nat.add_comm]
  have hzlen : ((nu.zip np).flatMap fun ab => [dim * ab.1, ab.2]).length = 2 * nu.length := by
    rw [length_flatMap_const _ _ 2 (fun _ => rfl), List.length_zip, ← hl, Nat.min_self]; omega
  have hz : ∀ m v : Nat, m < nu.length → v < 2 →
      ((nu.zip np).flatMap fun ab => [dim * ab.1, ab.2])[2 * m + v]? =
        (zu ++ np)[nu.length * v + m]? := by
    intro m v hm hv
    have hm' : m < np.length := by omega
    rw [getElem?_flatMap_const (nu.zip np) _ 2 (fun _ => rfl) (a := (nu[m], np[m]))
      (by simp [hm, hm']) hv]
    rcases v with _ | _ | v
    · rw [List.getElem?_append_left (by omega)]; simp [zu, hm]
    · rw [List.getElem?_append_right (by omega), hzu]; simp [hm']
    · omega
  refine ⟨r, hr, hoffs, ?_⟩
  intro R x y hx hy
  have hly : (zu ++ np).length = 2 * nu.length := by rw [List.length_append, hzu, ← hl]; omega
  obtain ⟨a, ha, _⟩ := sortByVariables_spec nu.length 2 x y _ _ hx hy hzlen hly hz
  obtain ⟨b, hb, _⟩ := sortBySubdomains_spec nu.length 2 y x _ _ hy hx hly hzlen hz
  exact ⟨⟨a, ha⟩, ⟨b, hb⟩⟩

/-- Poisson, elasticity and advection-diffusion offsets. -/
theorem poisson_offsets (udim : Nat) (nd : List Nat) :
    ∃ block var domain vdofs, poissonInitVariables udim nd = .ok (block, var, domain, vdofs) ∧
      IsOffsets block (nd.flatMap fun a => List.replicate udim a) ∧
      IsOffsets var (nd.map fun a => udim * a) ∧ domain = var ∧
      vdofs = nd.map fun a => udim * a := by
  let fb : Nat → List Nat := fun a => List.replicate udim a
  let fv : Nat → List Nat := fun a => [udim * a]
  have hlenb : ∀ k, k ≤ nd.length → ((nd.take k).flatMap fb).length = k * udim := by
    intro k hk
    rw [length_flatMap_const _ fb udim (fun _ => by simp [fb]), List.length_take, Nat.min_eq_left hk]
  have hlenv : ∀ k, k ≤ nd.length → ((nd.take k).flatMap fv).length = k := by
    intro k hk
    rw [length_flatMap_const _ fv 1 (fun _ => rfl), List.length_take, Nat.min_eq_left hk]; omega
  obtain ⟨r, hr, h1⟩ := loop_total (n := nd.length)
    (body := fun i (st : List Nat × List Nat × List Nat) => (do
      let (block, var, vdofs) := st
      let a ← rd nd i
      let var ← wr var (i + 1) (udim * a)
      let vdofs ← wr vdofs i (udim * a)
      let block ← loop udim (fun d block => wr block (d + i * udim + 1) a) block
      return (block, var, vdofs) : Outcome (List Nat × List Nat × List Nat)))
    (fun k r => r = (0 :: (nd.take k).flatMap fb ++ List.replicate ((nd.length - k) * udim) 0,
      0 :: (nd.take k).flatMap fv ++ List.replicate (nd.length - k) 0,
      (nd.take k).flatMap fv ++ List.replicate (nd.length - k) 0))
    (s := (List.replicate (udim * nd.length + 1) 0, List.replicate (nd.length + 1) 0,
      List.replicate nd.length 0))
    (by simp [List.replicate_succ, Nat.mul_comm]) (by
      rintro k u hk rfl
      refine ⟨_, ?_, rfl⟩
      have hz : nd[k]? = some nd[k] := by simp [hk]
      have e : nd.length - k = (nd.length - (k + 1)) + 1 := by omega
      have e' : (nd.length - k) * udim = udim + (nd.length - (k + 1)) * udim := by
        rw [e, Nat.add_mul]; omega
      have b1 : loop udim (fun d block => wr block (d + k * udim + 1) nd[k])
          (0 :: (nd.take k).flatMap fb ++ List.replicate ((nd.length - k) * udim) 0) =
          .ok (0 :: (nd.take k).flatMap fb ++ List.replicate udim nd[k] ++
            List.replicate ((nd.length - (k + 1)) * udim) 0) := by
        rw [e', ← loop_seq (base := k * udim + 1) (by rw [List.length_cons, hlenb k (by omega)])]
        refine loop_congr fun d s _ => ?_
        rw [show d + k * udim + 1 = k * udim + 1 + d by omega]
      dsimp only
      rw [rd_of_lt hk, ok_bind, b1, e,
        wr_seq (by rw [List.length_cons, hlenv k (by omega)]), ok_bind,
        wr_seq (by rw [hlenv k (by omega)]), ok_bind, ok_bind,
        flatMap_take_succ nd _ hz, flatMap_take_succ nd _ hz]
      simp [fb, fv, pure, Except.pure])
  rw [Nat.sub_self, List.take_length] at h1
  simp only [Nat.zero_mul, List.replicate_zero, List.append_nil] at h1
  have hfv : nd.flatMap fv = nd.map fun a => udim * a := by simp [fv, ← List.map_eq_flatMap]
  refine ⟨_, _, _, _, ?_, isOffsets_partialSum (nd.flatMap fb), isOffsets_partialSum _, rfl, rfl⟩
  unfold poissonInitVariables
  dsimp only
  rw [hr, ok_bind, h1, hfv]
  rfl

example : stokesInitVariables 2 [4, 5] [3, 2] = .ok
    { block := [0, 4, 8, 11, 16, 21, 23], var := [0, 8, 11, 21, 23], domain := [0, 11, 23],
      u := [0, 8, 18], p := [0, 3, 5], vblock := [0, 18, 23], numVdofs := [11, 12] } := by decide
example : stokesOffsetsByVar 2 [0, 8, 18] [0, 3, 5] = .ok [0, 8, 18, 21, 23] := by decide
example : poissonInitVariables 2 [4, 5] = .ok ([0, 4, 8, 13, 18], [0, 8, 18], [0, 8, 18], [8, 10]) := by
  decide

end Verif.Blocks
