import Verif.Proofs.GenConf
import Verif.Props.CompSetup

/-! # C108: the generated configurations -/

namespace Verif.GenConf

open Verif Verif.CompSetup Verif.GenConf.Spec
open Verif.CompSetup.Spec (IsCopy OnPort lastOf bdrAssigns usedPorts)

variable {R : Type}

/-! ## Reading the tables -/

/-- The components and reference ports a program has when it reads the tables: the boundaries of every
component are its faces, and the reference ports are those described in the file. -/
structure Spec.Reader (faces : Int → List Int) (refs : List (RefPort R)) (L : Layout R) (comps : List Comp)
    (refPorts : List Ports.PortData) (refItfs : List (List Ports.InterfaceInfo)) : Prop where
  faces : ∀ (k : Nat) comp, comps[k]? = some comp →
    (∀ a, a ∈ comp.bdrAttributes ↔ a ∈ faces k) ∧ ∀ a ∈ comp.beAttr, a ∈ comp.bdrAttributes
  nonempty : ∀ comp ∈ comps, comp.bdrAttributes ≠ []
  types : ∀ c ∈ L.types, ∃ k : Nat, c = k ∧ k < comps.length
  refs : refPorts.map (fun q => (q.comp1, q.comp2, q.attr1, q.attr2)) =
    refs.map (fun q => (q.comp1, q.comp2, q.attr1, q.attr2))
  itfs : refItfs.length = refPorts.length

/-- Tables that mention every face once, with reference ports that fit, are accepted. -/
theorem accepted {faces : Int → List Int} {refs : List (RefPort R)} {L : Layout R} {comps : List Comp}
    {refPorts : List Ports.PortData} {refItfs : List (List Ports.InterfaceInfo)}
    (hr : Spec.Reader faces refs L comps refPorts refItfs) (hc : Covers faces L) (hne : refs = [] → L.ports = [])
    (hm : 0 < L.types.length) (hb : L.bdr ≠ []) (hg : ∀ r ∈ L.bdr, 0 ≤ r.gattr)
    (hp : ∀ r ∈ L.ports, ∃ (k m1 m2 : Nat) (f : RefPort R), r.type = k ∧ r.mesh1 = m1 ∧
      r.mesh2 = m2 ∧ m1 ≠ m2 ∧ refs[k]? = some f ∧ L.types[m1]? = some (f.comp1 : Int) ∧
      L.types[m2]? = some (f.comp2 : Int) ∧ r.attr1 = f.attr1 ∧ r.attr2 = f.attr2) :
    ∃ t, setup comps L.types L.bdr L.ports refPorts refItfs = .ok t := by
  have hlen : refPorts.length = refs.length := by simpa using congrArg List.length hr.refs
  have hu : usedPorts L.ports refPorts = L.ports := by
    unfold CompSetup.Spec.usedPorts
    split
    · rename_i h
      rw [hlen] at h
      exact (hne (List.length_eq_zero_iff.1 h)).symm
    · rfl
  have hcomp : ∀ (m : Nat) (c : Int), L.types[m]? = some c → ∃ (k : Nat) (comp : Comp), c = k ∧
      comps[k]? = some comp := by
    intro m c h
    obtain ⟨k, rfl, hk⟩ := hr.types c (List.mem_of_getElem? h)
    exact ⟨k, comps[k], rfl, List.getElem?_eq_getElem hk⟩
  have hface : ∀ m a, (m, a) ∈ mentioned L → ∃ (k : Nat) (c : Nat) (comp : Comp), m = k ∧
      L.types[k]? = some (c : Int) ∧ comps[c]? = some comp ∧ a ∈ comp.bdrAttributes := by
    intro m a h
    obtain ⟨k, c, rfl, hk, ha⟩ := mem_allFaces.1 (hc.mem_iff.1 h)
    obtain ⟨c, comp, rfl, hcc⟩ := hcomp k c hk
    exact ⟨k, c, comp, rfl, hk, hcc, ((hr.faces c comp hcc).1 a).2 ha⟩
  refine setup_total (h := ⟨hm, ?_, hr.nonempty, hb, ?_, ?_, ?_, ?_⟩)
  · intro m hm
    obtain ⟨k, comp, e, hk⟩ := hcomp m _ (List.getElem?_eq_getElem hm)
    exact ⟨comp, k, by rw [← e]; exact List.getElem?_eq_getElem hm, hk⟩
  · intro r hrm
    obtain ⟨k, c, comp, e, h1, h2, h3⟩ := hface r.mesh r.cattr (mem_mentioned.2 (.inl ⟨r, hrm, rfl, rfl⟩))
    exact ⟨k, comp, e, ⟨c, h1, h2⟩, h3⟩
  · intro r hrm
    rw [hu] at hrm
    obtain ⟨k, m1, m2, f, e1, e2, e3, e4, e5, e6, e7, e8, e9⟩ := hp r hrm
    have hk : k < refPorts.length := by rw [hlen]; exact (List.getElem?_eq_some_iff.1 e5).1
    have hq : (refPorts[k].comp1, refPorts[k].comp2, refPorts[k].attr1, refPorts[k].attr2) =
        (f.comp1, f.comp2, f.attr1, f.attr2) := by
      have := congrArg (fun l => l[k]?) hr.refs
      simp only [List.getElem?_map, e5, List.getElem?_eq_getElem hk, Option.map_some,
        Option.some.injEq] at this
      exact this
    simp only [Prod.mk.injEq] at hq
    obtain ⟨q1, q2, q3, q4⟩ := hq
    obtain ⟨k1, d1, c1, g1, g2, g3, g4⟩ := hface r.mesh1 r.attr1
      (mem_mentioned.2 (.inr ⟨r, hrm, .inl ⟨rfl, rfl⟩⟩))
    obtain ⟨k2, d2, c2, f1, f2, f3, f4⟩ := hface r.mesh2 r.attr2
      (mem_mentioned.2 (.inr ⟨r, hrm, .inr ⟨rfl, rfl⟩⟩))
    have hk1 : k1 = m1 := by omega
    have hk2 : k2 = m2 := by omega
    subst hk1 hk2
    have hd1 : d1 = f.comp1 := by
      have := g2.symm.trans e6
      injection this with this
      omega
    have hd2 : d2 = f.comp2 := by
      have := f2.symm.trans e7
      injection this with this
      omega
    subst hd1 hd2
    exact ⟨k, k1, k2, refPorts[k], c1, c2, e1, e2, e3, e4, List.getElem?_eq_getElem hk,
      by rw [hr.itfs]; exact hk, by rw [q3]; exact e8, by rw [q4]; exact e9, by rw [q1]; exact e6,
      by rw [q2]; exact e7, by rw [q1]; exact g3, by rw [q2]; exact f3, by rw [q3, ← e8]; exact g4,
      by rw [q4, ← e9]; exact f4⟩
  · intro comp hcm a ha
    obtain ⟨k, hk⟩ := List.getElem?_of_mem hcm
    exact (hr.faces k comp hk).2 a ha
  · rintro m comp ⟨c, hk, hcc⟩ a ha
    rw [hu]
    have hin : ((m : Int), a) ∈ allFaces faces L.types :=
      mem_allFaces.2 ⟨m, c, rfl, hk, ((hr.faces c comp hcc).1 a).1 ((hr.faces c comp hcc).2 a ha)⟩
    rcases mem_mentioned.1 (hc.mem_iff.2 hin) with ⟨r, hrm, h1, h2⟩ | ⟨r, hrm, h⟩
    · right
      have hmem : (⟨r.mesh, r.cattr, r.gattr⟩ : CompSetup.Spec.Assign) ∈
          (bdrAssigns L.bdr).filter (fun w => w.mesh = (m : Int) ∧ w.attr = a) := by
        rw [List.mem_filter]
        exact ⟨List.mem_map.2 ⟨r, hrm, rfl⟩, by simp [h1, h2]⟩
      obtain ⟨w, hw⟩ : ∃ w, ((bdrAssigns L.bdr).filter (fun w => w.mesh = (m : Int) ∧ w.attr = a)).getLast? = some w :=
        ⟨_, List.getLast?_eq_some_getLast (List.ne_nil_of_mem hmem)⟩
      refine ⟨w.value, ?_, by unfold CompSetup.Spec.lastOf; rw [hw]; rfl⟩
      have hwm := List.mem_of_getLast? hw
      rw [List.mem_filter] at hwm
      obtain ⟨r', hr', e⟩ := List.mem_map.1 hwm.1
      rw [← e]
      exact hg r' hr'
    · left
      exact ⟨r, hrm, h⟩

/-! ## Squares -/

section
variable [Field R]

/-- The interfaces of the array of squares. -/
def squarePorts (n : Nat) : List PortRow :=
  tab (2 * n * (n - 1)) (fun k => if n * (n - 1) ≤ k ∧ k < n * (n - 1) + (n - 1) * n then
    ⟨((k - n * (n - 1)) % n + (k - n * (n - 1)) / n * n : Nat),
      ((k - n * (n - 1)) % n + ((k - n * (n - 1)) / n + 1) * n : Nat), 3, 1, 0⟩
    else if 0 ≤ k ∧ k < 0 + n * (n - 1) then
      ⟨((k - 0) % (n - 1) + (k - 0) / (n - 1) * n : Nat),
        ((k - 0) % (n - 1) + 1 + (k - 0) / (n - 1) * n : Nat), 2, 4, 1⟩ else ⟨0, 0, 0, 0, 0⟩)

theorem scaleUp_eq (n : Nat) : (scaleUp n : Outcome (Layout R)) =
    .ok ⟨List.replicate (n * n) 0, tab (n * n) (fun k => (((k % n : Nat) : R), ((k / n : Nat) : R))),
      (List.range n).flatMap (fun b : Nat => [(⟨1, (b : Int), 1⟩ : BdrRow), ⟨2, ((n - 1 + b * n : Nat) : Int), 2⟩,
    ⟨3, ((b + (n - 1) * n : Nat) : Int), 3⟩, ⟨4, ((b * n : Nat) : Int), 4⟩]), squarePorts n⟩ := by
  have h1 : (scalePos n : Outcome (List (R × R))) =
      .ok (tab (n * n) (fun k => (((k % n : Nat) : R), ((k / n : Nat) : R)))) := by
    unfold scalePos
    rw [replicate_tab, fill_grid (o := 0) (f := fun i j => ((i : R), (j : R)))
      (fun i j => by omega) (by omega)]
    congr 1
    refine tab_congr fun k hk => ?_
    rw [if_pos (by omega), Nat.sub_zero]
  have h2 : scalePorts n = .ok (squarePorts n) := by
    unfold scalePorts
    rw [replicate_tab]
    have h := fill_grid (N := 2 * n * (n - 1)) (I := n - 1) (J := n) (o := 0)
      (g := fun _ => (⟨0, 0, 0, 0, 0⟩ : PortRow)) (idx := fun i j => i + j * (n - 1))
      (f := fun i j => (⟨(i + j * n : Nat), (i + 1 + j * n : Nat), 2, 4, 1⟩ : PortRow))
      (fun i j => by omega) (by rw [Nat.mul_assoc]; omega)
    rw [h, ok_bind]
    exact fill_grid (o := n * (n - 1))
      (f := fun i j => (⟨(i + j * n : Nat), (i + (j + 1) * n : Nat), 3, 1, 0⟩ : PortRow))
      (fun i j => by omega) (by rw [Nat.mul_assoc, Nat.mul_comm (n - 1) n]; omega)
  have h3 := loop_append (n := n) (l := ([] : List BdrRow))
    (g := fun b : Nat => [⟨1, (b : Int), 1⟩, ⟨2, ((n - 1 + b * n : Nat) : Int), 2⟩,
      ⟨3, ((b + (n - 1) * n : Nat) : Int), 3⟩, ⟨4, ((b * n : Nat) : Int), 4⟩])
  unfold scaleUp
  rw [h1, ok_bind, h2, ok_bind]
  unfold scaleBdr
  rw [h3]
  rfl

/-- The rows of the interface table. -/
theorem mem_squarePorts {n : Nat} {r : PortRow} : r ∈ squarePorts n ↔
    (∃ i j : Nat, i + 1 < n ∧ j < n ∧ r = ⟨(i + j * n : Nat), (i + 1 + j * n : Nat), 2, 4, 1⟩) ∨
    (∃ i j : Nat, i < n ∧ j + 1 < n ∧ r = ⟨(i + j * n : Nat), (i + (j + 1) * n : Nat), 3, 1, 0⟩) := by
  unfold squarePorts
  rw [mem_tab]
  have hc : 2 * n * (n - 1) = n * (n - 1) + (n - 1) * n := by rw [Nat.mul_assoc, Nat.mul_comm (n - 1) n]; omega
  constructor
  · rintro ⟨k, hk, rfl⟩
    by_cases h1 : n * (n - 1) ≤ k
    · right
      rw [if_pos ⟨h1, by omega⟩]
      have hn : 0 < n := by rcases Nat.eq_zero_or_pos n with rfl | h <;> omega
      have hd : (k - n * (n - 1)) / n < n - 1 :=
        Nat.div_lt_of_lt_mul (by rw [Nat.mul_comm n (n - 1)] at *; omega)
      exact ⟨_, _, Nat.mod_lt _ hn, by omega, rfl⟩
    · left
      rw [if_neg (fun h => h1 h.1), if_pos (by omega), Nat.sub_zero]
      have hn : 0 < n - 1 := by
        rcases Nat.eq_zero_or_pos (n - 1) with h | h
        · rw [h] at h1; omega
        · exact h
      have hm := Nat.mod_lt k hn
      have hd : k / (n - 1) < n := Nat.div_lt_of_lt_mul (by rw [Nat.mul_comm]; omega)
      exact ⟨_, _, by omega, hd, rfl⟩
  · rintro (⟨i, j, hi, hj, rfl⟩ | ⟨i, j, hi, hj, rfl⟩)
    · have hb : j * (n - 1) + (n - 1) ≤ n * (n - 1) := by
        have := Nat.mul_le_mul_right (n - 1) (show j + 1 ≤ n from hj)
        rwa [Nat.succ_mul] at this
      refine ⟨i + j * (n - 1), by omega, ?_⟩
      rw [if_neg (by omega), if_pos (by omega), Nat.sub_zero, Nat.add_mul_mod_self_right,
        Nat.mod_eq_of_lt (by omega), Nat.add_mul_div_right _ _ (by omega), Nat.div_eq_of_lt (by omega),
        Nat.zero_add]
    · have hb : j * n + n ≤ (n - 1) * n := by
        have := Nat.mul_le_mul_right n (show j + 1 ≤ n - 1 by omega)
        rwa [Nat.succ_mul] at this
      refine ⟨i + j * n + n * (n - 1), by omega, ?_⟩
      rw [if_pos (by omega), Nat.add_sub_cancel, Nat.add_mul_mod_self_right,
        Nat.mod_eq_of_lt hi, Nat.add_mul_div_right _ _ (by omega), Nat.div_eq_of_lt hi, Nat.zero_add]

theorem mem_squareBdr {n : Nat} {r : BdrRow} : r ∈ (List.range n).flatMap (fun b : Nat => [(⟨1, (b : Int), 1⟩ :
      BdrRow), ⟨2, ((n - 1 + b * n : Nat) : Int), 2⟩,
    ⟨3, ((b + (n - 1) * n : Nat) : Int), 3⟩, ⟨4, ((b * n : Nat) : Int), 4⟩]) ↔
    ∃ b, b < n ∧ (r = ⟨1, (b : Int), 1⟩ ∨ r = ⟨2, ((n - 1 + b * n : Nat) : Int), 2⟩ ∨
      r = ⟨3, ((b + (n - 1) * n : Nat) : Int), 3⟩ ∨ r = ⟨4, ((b * n : Nat) : Int), 4⟩) := by
  simp only [List.mem_flatMap, List.mem_range, List.mem_cons, List.not_mem_nil, or_false]

/-- **C108** (array of squares, coverage): the script always succeeds, and every face of every square
appears exactly once. -/
theorem scaleUp_covers (n : Nat) : ∃ L : Layout R, scaleUp n = .ok L ∧
    L.types = List.replicate (n * n) 0 ∧ Covers fourFaces L := by
  refine ⟨_, scaleUp_eq n, rfl, ?_⟩
  apply covers_of
  · simp only [List.length_flatMap, List.length_cons, List.length_nil, List.map_const', List.sum_replicate,
      List.length_range, smul_eq_mul, List.length_replicate, squarePorts, length_tab]
    rcases n with _ | n
    · rfl
    · rw [Nat.add_sub_cancel]; ring
  · intro k a hk ha
    rw [List.length_replicate] at hk
    have hn : 0 < n := by rcases Nat.eq_zero_or_pos n with rfl | h <;> omega
    have hx := Nat.mod_lt k hn
    have hy : k / n < n := Nat.div_lt_of_lt_mul hk
    have hkk : k % n + k / n * n = k := by rw [Nat.mul_comm]; exact Nat.mod_add_div k n
    simp only [List.mem_cons, List.not_mem_nil, or_false] at ha
    rcases ha with rfl | rfl | rfl | rfl
    · by_cases h : k / n = 0
      · left
        refine ⟨_, mem_squareBdr.2 ⟨k % n, hx, .inl rfl⟩, ?_, rfl⟩
        rw [h] at hkk
        simp only; omega
      · right
        refine ⟨_, mem_squarePorts.2 (.inr ⟨k % n, k / n - 1, hx, by
          have := Nat.pos_of_ne_zero h; generalize k / n = y at *; omega, rfl⟩), .inr ⟨?_, rfl⟩⟩
        simp only
        rw [show k / n - 1 + 1 = k / n from Nat.succ_pred_eq_of_pos (Nat.pos_of_ne_zero h), hkk]
    · by_cases h : k % n = n - 1
      · left
        refine ⟨_, mem_squareBdr.2 ⟨k / n, hy, .inr (.inl rfl)⟩, ?_, rfl⟩
        simp only
        rw [← h, hkk]
      · right
        refine ⟨_, mem_squarePorts.2 (.inl ⟨k % n, k / n, by omega, hy, rfl⟩), .inl ⟨?_, rfl⟩⟩
        simp only
        rw [hkk]
    · by_cases h : k / n = n - 1
      · left
        refine ⟨_, mem_squareBdr.2 ⟨k % n, hx, .inr (.inr (.inl rfl))⟩, ?_, rfl⟩
        simp only
        rw [← h, hkk]
      · right
        refine ⟨_, mem_squarePorts.2 (.inr ⟨k % n, k / n, hx, by omega, rfl⟩), .inl ⟨?_, rfl⟩⟩
        simp only
        rw [hkk]
    · by_cases h : k % n = 0
      · left
        refine ⟨_, mem_squareBdr.2 ⟨k / n, hy, .inr (.inr (.inr rfl))⟩, ?_, rfl⟩
        simp only; omega
      · right
        refine ⟨_, mem_squarePorts.2 (.inl ⟨k % n - 1, k / n, by omega, hy, rfl⟩), .inr ⟨?_, rfl⟩⟩
        simp only
        rw [show k % n - 1 + 1 = k % n by omega, hkk]

/-- Where a square is. -/
theorem square_placed {n : Nat} {bdr ports} {i j : Nat} (hi : i < n) (hj : j < n) :
    (i + j * n < n * n ∧ (tab (n * n) (fun k => (((k % n : Nat) : R), ((k / n : Nat) : R))))[i + j * n]? =
      some ((i : R), (j : R))) ∧
    Placed unitSize (⟨List.replicate (n * n) 0,
      tab (n * n) (fun k => (((k % n : Nat) : R), ((k / n : Nat) : R))), bdr, ports⟩ : Layout R)
      ((i + j * n : Nat) : Int) ((i : R), (j : R)) (1, 1) := by
  have hlt : i + j * n < n * n := by
    have := Nat.mul_le_mul_right n (show j + 1 ≤ n from hj)
    rw [Nat.succ_mul] at this
    omega
  have hp : (tab (n * n) (fun k => (((k % n : Nat) : R), ((k / n : Nat) : R))))[i + j * n]? =
      some ((i : R), (j : R)) := by
    rw [getElem?_tab, if_pos hlt, Nat.add_mul_mod_self_right, Nat.mod_eq_of_lt hi,
      Nat.add_mul_div_right _ _ (by omega), Nat.div_eq_of_lt hi, Nat.zero_add]
  exact ⟨⟨hlt, hp⟩, _, 0, rfl, by rw [List.getElem?_replicate, if_pos hlt], hp, rfl⟩

theorem square_inv {n : Nat} {bdr ports} {m : Int} {p s : R × R}
    (h : Placed unitSize (⟨List.replicate (n * n) 0,
      tab (n * n) (fun k => (((k % n : Nat) : R), ((k / n : Nat) : R))), bdr, ports⟩ : Layout R) m p s) :
    ∃ i j : Nat, i < n ∧ j < n ∧ m = ((i + j * n : Nat) : Int) ∧ p = ((i : R), (j : R)) ∧ s = (1, 1) := by
  obtain ⟨k, c, rfl, hc, hp, rfl⟩ := h
  simp only [getElem?_tab] at hp
  split at hp
  · rename_i hk
    injection hp with hp
    have hn : 0 < n := by rcases Nat.eq_zero_or_pos n with rfl | h <;> omega
    exact ⟨k % n, k / n, Nat.mod_lt k hn, Nat.div_lt_of_lt_mul hk,
      by rw [Nat.mul_comm, Nat.mod_add_div], hp.symm, rfl⟩
  · exact absurd hp (by simp)

variable [LinearOrder R] [IsStrictOrderedRing R]

/-- **C108** (array of squares, geometry): the squares fill `[0, n] × [0, n]`, interfaces join exactly the
faces at the same place, through the reference port with the right components, faces and shift, and every
boundary row has the attribute of the side it lies on. -/
theorem scaleUp_geometry (n : Nat) : ∃ L : Layout R, scaleUp n = .ok L ∧
    Geometry unitSize squareRefs (n : R) (n : R) L := by
  refine ⟨_, scaleUp_eq n, ?_, ?_, ?_, ?_, ?_⟩
  · simp
  · intro r hr
    rcases mem_squarePorts.1 hr with ⟨i, j, hi, hj, rfl⟩ | ⟨i, j, hi, hj, rfl⟩
    · refine ⟨_, _, _, _, (square_placed (by omega) hj).2, (square_placed hi hj).2, .inl ⟨rfl, rfl, ?_, rfl, rfl⟩⟩
      simp
    · refine ⟨_, _, _, _, (square_placed hi (by omega)).2, (square_placed hi hj).2,
        .inr (.inr (.inl ⟨rfl, rfl, ?_, rfl, rfl⟩))⟩
      simp
  · intro r hr
    rcases mem_squarePorts.1 hr with ⟨i, j, hi, hj, rfl⟩ | ⟨i, j, hi, hj, rfl⟩
    · have h1 := (square_placed (R := R) (bdr := []) (ports := []) (n := n) (i := i) (by omega) hj).1
      have h2 := (square_placed (R := R) (bdr := []) (ports := []) hi hj).1
      refine ⟨1, _, _, ⟨0, 0, 2, 4, (1, 0)⟩, _, _, rfl, rfl, rfl, by omega, rfl, ?_, ?_, rfl, rfl, h1.2, h2.2, ?_⟩
      · simp only [List.getElem?_replicate, if_pos h1.1]; rfl
      · simp only [List.getElem?_replicate, if_pos h2.1]; rfl
      · simp
    · have h1 := (square_placed (R := R) (bdr := []) (ports := []) (n := n) (j := j) hi (by omega)).1
      have h2 := (square_placed (R := R) (bdr := []) (ports := []) hi hj).1
      refine ⟨0, _, _, ⟨0, 0, 3, 1, (0, 1)⟩, _, _, rfl, rfl, rfl, ?_, rfl, ?_, ?_, rfl, rfl, h1.2, h2.2, ?_⟩
      · rw [Nat.succ_mul]; omega
      · simp only [List.getElem?_replicate, if_pos h1.1]; rfl
      · simp only [List.getElem?_replicate, if_pos h2.1]; rfl
      · simp
  · intro m m' p s q t a b h1 h2 ht
    obtain ⟨i, j, hi, hj, rfl, rfl, rfl⟩ := square_inv h1
    obtain ⟨i', j', hi', hj', rfl, rfl, rfl⟩ := square_inv h2
    rcases ht with ⟨rfl, rfl, e, e', -⟩ | ⟨rfl, rfl, e, e', -⟩ | ⟨rfl, rfl, e, e', -⟩ | ⟨rfl, rfl, e, e', -⟩
    · left
      dsimp only at e e'
      have hx : i + 1 = i' := by exact_mod_cast e
      have hy : j = j' := by exact_mod_cast e'
      subst hx hy
      exact ⟨1, mem_squarePorts.2 (.inl ⟨i, j, hi', hj, rfl⟩)⟩
    · right
      dsimp only at e e'
      have hx : i' + 1 = i := by exact_mod_cast e
      have hy : j = j' := by exact_mod_cast e'
      subst hx hy
      exact ⟨1, mem_squarePorts.2 (.inl ⟨i', j, hi, hj, rfl⟩)⟩
    · left
      dsimp only at e e'
      have hy : j + 1 = j' := by exact_mod_cast e
      have hx : i = i' := by exact_mod_cast e'
      subst hx hy
      exact ⟨0, mem_squarePorts.2 (.inr ⟨i, j, hi, hj', rfl⟩)⟩
    · right
      dsimp only at e e'
      have hy : j' + 1 = j := by exact_mod_cast e
      have hx : i = i' := by exact_mod_cast e'
      subst hx hy
      exact ⟨0, mem_squarePorts.2 (.inr ⟨i, j', hi, hj, rfl⟩)⟩
  · intro r hr
    obtain ⟨b, hb, hr⟩ := mem_squareBdr.1 hr
    rcases hr with rfl | rfl | rfl | rfl
    · refine ⟨((b : R), ((0 : Nat) : R)), (1, 1), ?_, ?_⟩
      · simpa using (square_placed (R := R) (n := n) hb (j := 0) (by omega)).2
      · simp [sideOf]
    · refine ⟨(((n - 1 : Nat) : R), (b : R)), (1, 1), (square_placed (by omega) hb).2, ?_⟩
      have : ((n - 1 : Nat) : R) + 1 = n := by
        have : n - 1 + 1 = n := by omega
        exact_mod_cast this
      simp [sideOf, this]
    · refine ⟨((b : R), ((n - 1 : Nat) : R)), (1, 1), (square_placed hb (by omega)).2, ?_⟩
      have : ((n - 1 : Nat) : R) + 1 = n := by
        have : n - 1 + 1 = n := by omega
        exact_mod_cast this
      simp [sideOf, this]
    · refine ⟨(((0 : Nat) : R), (b : R)), (1, 1), ?_, ?_⟩
      · simpa using (square_placed (R := R) (n := n) (i := 0) (by omega) hb).2
      · simp [sideOf]

/-- **C108** (array of squares, reading): a program that knows the square and its two ports accepts the
tables. -/
theorem scaleUp_accepted {n : Nat} (hn : 0 < n) {L : Layout R} (h : scaleUp n = .ok L) {comps : List Comp}
    {refPorts : List Ports.PortData} {refItfs : List (List Ports.InterfaceInfo)}
    (hr : Spec.Reader fourFaces squareRefs L comps refPorts refItfs) :
    ∃ t, setup comps L.types L.bdr L.ports refPorts refItfs = .ok t := by
  obtain ⟨L', h', ht, hc⟩ := scaleUp_covers (R := R) n
  obtain ⟨L'', h'', hG⟩ := scaleUp_geometry (R := R) n
  have e := Except.ok.inj (h'.symm.trans h)
  have e' := Except.ok.inj (h''.symm.trans h)
  subst e e'
  have hb : (⟨1, 0, 1⟩ : BdrRow) ∈ L''.bdr := by
    rw [← Except.ok.inj ((scaleUp_eq n).symm.trans h)]
    exact mem_squareBdr.2 ⟨0, hn, .inl rfl⟩
  refine accepted hr hc (by simp [squareRefs]) ?_ (List.ne_nil_of_mem hb) ?_ ?_
  · rw [ht, List.length_replicate]; exact Nat.mul_pos hn hn
  · intro r hr
    obtain ⟨p, s, -, e⟩ := hG.sides r hr
    rw [e]
    unfold sideOf
    split_ifs <;> decide
  · intro r hr
    obtain ⟨k, m1, m2, f, p, q, h1, h2, h3, h4, h5, h6, h7, h8, h9, -⟩ := hG.ports r hr
    exact ⟨k, m1, m2, f, h1, h2, h3, h4, h5, h6, h7, h8, h9⟩

end

/-- Non-vacuity: a program with the unit square and the two ports of the samples, and the table of four
squares. -/
example : ∃ L : Layout ℚ, scaleUp 2 = .ok L ∧ L.bdr.length = 8 ∧ L.ports =
      [⟨0, 1, 2, 4, 1⟩, ⟨2, 3, 2, 4, 1⟩, ⟨0, 2, 3, 1, 0⟩, ⟨1, 3, 3, 1, 0⟩] ∧
    Spec.Reader fourFaces squareRefs L [⟨[1, 2, 3, 4], [1, 2, 3, 4]⟩]
      [⟨0, 0, 3, 1, [], []⟩, ⟨0, 0, 2, 4, [], []⟩] [[], []] := by
  refine ⟨_, scaleUp_eq 2, by decide +kernel, by decide +kernel, ?_, ?_, ?_, rfl, rfl⟩
  · intro k comp h
    rcases k with _ | k
    · obtain rfl : (⟨[1, 2, 3, 4], [1, 2, 3, 4]⟩ : Comp) = comp := Option.some.inj h
      exact ⟨fun a => Iff.rfl, fun a ha => ha⟩
    · exact absurd h (by simp)
  · simp
  · intro c hc
    exact ⟨0, List.eq_of_mem_replicate hc, by decide⟩

end Verif.GenConf
