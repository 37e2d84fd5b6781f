import Verif.Spec.ElastRom
import Verif.Props.Pipeline
import Verif.Proofs.Visual

/-! # Proofs: the material of the elasticity solver -/

namespace Verif.ElastRom

open Verif Verif.LinAlg Verif.RomAssembly Verif.Topology Spec
open Verif.InterfaceForm (MatArr Form)
open Verif.Boundary (BC bcExists lhsBC lhsElast forBoundaries BdrType)
open Verif.CompSetup (Comp)
open Verif.Ports (InterfaceInfo PortData)
open Verif.Pipeline (Prob)

variable {R F δ α : Type}

theorem setProblem_eq (n : Nat) (l u : α) :
    setProblem n [l, u] = .ok ⟨List.replicate n (some l), List.replicate n (some u)⟩ := by
  have hset : ∀ (x : α) (i : Nat), i < n →
      wr (List.replicate i (some x) ++ List.replicate (n - i) none) i (some x) =
        .ok (List.replicate (i + 1) (some x) ++ List.replicate (n - (i + 1)) none) := by
    intro x i hi
    rw [wr_of_lt (by simp; omega)]
    congr 1
    rw [List.set_append_right _ _ (by simp)]
    rw [List.length_replicate, Nat.sub_self]
    obtain ⟨k, hk⟩ : ∃ k, n - i = k + 1 := ⟨n - i - 1, by omega⟩
    rw [hk, List.replicate_succ, List.set_cons_zero, show n - (i + 1) = k by omega, List.replicate_succ',
      List.append_assoc]
    rfl
  unfold setProblem
  rw [loop_spec (fun i => (⟨List.replicate i (some l) ++ List.replicate (n - i) none,
      List.replicate i (some u) ++ List.replicate (n - i) none⟩ : Material α)) (by simp)]
  · simp
  · intro i hi
    dsimp only
    rw [show rd [l, u] 0 = .ok l from rfl, show rd [l, u] 1 = .ok u from rfl, ok_bind, hset l i hi, ok_bind, ok_bind,
      hset u i hi]
    rfl

theorem at_uniform {n : Nat} {l u : α} {mat : Material α} (h : setProblem n [l, u] = .ok mat) {i : Nat} (hi : i < n) :
    mat.at_ i = .ok (l, u) := by
  rw [setProblem_eq] at h
  cases h
  unfold Material.at_
  rw [rd_of_lt (by simpa using hi), ok_bind]
  rw [rd_of_lt (by simpa using hi)]
  simp only [List.getElem_replicate]
  rfl

theorem at_outside {n : Nat} {l u : α} {mat : Material α} (h : setProblem n [l, u] = .ok mat) {i : Nat} (hi : n ≤ i) :
    mat.at_ i = .error .ub := by
  rw [setProblem_eq] at h
  cases h
  unfold Material.at_ rd
  rw [List.getElem?_eq_none (by simpa using hi)]
  rfl

theorem subForms_uniform {n : Nat} {l u : α} {mat : Material α} (h : setProblem n [l, u] = .ok mat)
    (ph : Parts R δ α) (hn : ph.sub.length ≤ n) : subForms ph mat = .ok (ph.sub.map fun g => g l u) := by
  unfold subForms
  rw [loop_spec (fun i => (ph.sub.take i).map fun g => g l u) (by simp)]
  · rw [List.take_length]
  · intro i hi
    rw [at_uniform h (by omega), ok_bind, rd_of_lt hi, ok_bind, List.take_add_one, List.getElem?_eq_getElem hi,
      List.map_append]
    rfl

theorem subForms_length {n : Nat} {l u : α} {mat : Material α} (h : setProblem n [l, u] = .ok mat)
    {ph : Parts R δ α} {fs : List (BForm R)} (hs : subForms ph mat = .ok fs) : ph.sub.length ≤ n := by
  unfold subForms at hs
  refine loop_inv (fun j _ => j ≤ n) (Nat.zero_le _) (fun j a b _ _ e => ?_) hs
  by_contra hc
  rw [at_outside h (by omega)] at e
  cases e

theorem itfForm_uniform {n : Nat} {l u : α} {mat : Material α} (h : setProblem n [l, u] = .ok mat)
    (ph : Parts R δ α) (hn : 0 < n) :
    itfForm ph mat = .ok { ph.itf with fnfi := [some (ph.integ l u)] } := by
  unfold itfForm
  rw [at_uniform h hn]
  rfl

/-- With discontinuous elements the boundaries that get a term are those of the Poisson solver. -/
theorem lhsElast_eq {bc : BC F} (hw : Boundary.Wf bc) (ht : Typed bc) (attrs : List Int) :
    lhsElast true bc attrs = lhsBC bc attrs := by
  unfold lhsElast lhsBC forBoundaries
  rw [if_pos rfl]
  refine loop_congr fun b acc hb => ?_
  have hb' : b < bc.coeffs.length := by rw [hw.1]; exact hb
  have hb'' : b < bc.types.length := by rw [hw.2]; exact hb
  have he : bcExists bc b = .ok (bc.coeffs[b]).isSome := by
    unfold bcExists
    rw [decide_eq_true hb, require_true, ok_bind, hw.1, beq_self_eq_true, require_true, ok_bind, rd_of_lt hb', ok_bind]
  dsimp only
  rw [he]
  cases hc : bc.coeffs[b] with
  | none => rfl
  | some f =>
    have := ht b f (by rw [List.getElem?_eq_getElem hb', hc])
    rw [rd_of_lt hb'']
    rw [List.getElem?_eq_getElem hb''] at this
    rcases this with h | h <;> rw [Option.some.inj h] <;> rfl

section
variable [CommRing R]

theorem mats_uniform {n : Nat} {l u : α} {mat : Material α} (h : setProblem n [l, u] = .ok mat)
    {ph : Parts R δ α} {bc : BC F} (hw : Boundary.Wf bc) (ht : Typed bc) {mks : List (List Int)}
    {mesh : List (List Int × List Int)} {M : MatArr R} (hM : mats true ph mat bc mks mesh = .ok M) :
    0 < n ∧ fomMats bc mks mesh (uniform ph l u).sub (uniform ph l u).itf = .ok M := by
  have h0 : 0 < n := by
    by_contra hc
    unfold mats at hM
    obtain ⟨fs, -, hM⟩ := bind_eq_ok.1 hM
    obtain ⟨f, hf, -⟩ := bind_eq_ok.1 hM
    unfold itfForm at hf
    rw [at_outside h (by omega)] at hf
    cases hf
  refine ⟨h0, ?_⟩
  unfold mats at hM
  obtain ⟨fs, hfs, hM⟩ := bind_eq_ok.1 hM
  have hl := subForms_length h hfs
  rw [subForms_uniform h ph hl] at hfs
  cases hfs
  rw [itfForm_uniform h ph h0, ok_bind] at hM
  have hstep : domainStep true bc mks mesh = RomAssembly.domainStep (R := R) bc mks mesh := by
    funext forms m acc
    unfold domainStep RomAssembly.domainStep domainMatrix RomAssembly.domainMatrix
    simp only [lhsElast_eq hw ht]
  rw [hstep] at hM
  unfold fomMats fomArray
  rw [bind_assoc]
  exact hM

theorem atPort_uniform (ph : Parts R δ α) (l u : α) (refPorts : List PortData)
    (refItfs : List (List InterfaceInfo)) (p : Nat) : (uniform ph l u).atPort refPorts refItfs p = (do
      let q ← rd refPorts p
      let infos ← rd refItfs p
      InterfaceForm.assembleAtPort ph.cmeshes ph.ctest ph.ctrial [some (ph.integ l u)] q.comp1 q.comp2 infos) := rfl

/-- The elements of a ROM with at most as many components as subdomains. -/
theorem buildElems_uniform {h : RomHandler.Handler R} {n : Nat} {l u : α} {mat : Material α}
    (hm : setProblem n [l, u] = .ok mat) (ph : Parts R δ α) {comps : List Comp} (hn : comps.length ≤ n) (h0 : 0 < n)
    (refPorts : List PortData) (refItfs : List (List InterfaceInfo)) :
    buildElems h comps refPorts (locals ph mat comps refPorts refItfs) =
      buildElems h comps refPorts (poissonLocals (uniform ph l u) comps refPorts refItfs) := by
  have hc : ∀ c, rd (uniform ph l u).comp c = (do let g ← rd ph.comp c; return g l u) := by
    intro c
    unfold rd uniform
    dsimp only
    rw [List.getElem?_map]
    cases ph.comp[c]? <;> rfl
  have e1 : buildComp h comps (locals ph mat comps refPorts refItfs) =
      buildComp h comps (poissonLocals (uniform ph l u) comps refPorts refItfs) := by
    unfold buildComp
    refine loop_congr fun c acc hlt => ?_
    unfold locals poissonLocals
    dsimp only
    rw [at_uniform hm (by omega), ok_bind, hc]
    simp only [bind_assoc, pure_bind]
  have e2 : buildBdr h comps (locals ph mat comps refPorts refItfs) =
      buildBdr h comps (poissonLocals (uniform ph l u) comps refPorts refItfs) := by
    unfold buildBdr
    refine loop_congr fun c acc hlt => ?_
    unfold locals poissonLocals
    dsimp only
    rw [at_uniform hm (by omega), hc]
    simp only [bind_assoc, pure_bind, ok_bind]
  have e3 : buildPorts h refPorts (locals ph mat comps refPorts refItfs) =
      buildPorts h refPorts (poissonLocals (uniform ph l u) comps refPorts refItfs) := by
    unfold buildPorts
    refine loop_congr fun p acc hlt => ?_
    unfold locals poissonLocals
    dsimp only
    rw [itfForm_uniform hm ph h0, ok_bind, atPort_uniform]
    simp only [bind_assoc]
  unfold buildElems
  rw [e1, e2, e3]

end

end Verif.ElastRom
