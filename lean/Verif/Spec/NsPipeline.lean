import Verif.Model.NsPipeline
import Verif.Spec.Pipeline
import Verif.Spec.TensorRom

/-!
# Specification: from building a Navier-Stokes ROM to running it
-/

namespace Verif.NsPipeline.Spec

open Verif Verif.LinAlg Verif.LinAlg.Spec Verif.RomAssembly Verif.Hdf5 Verif.TensorRom Verif.NsPipeline
open Verif.Blocks (BlockVector)
open Verif.Blocks.Spec (HasSizes)
open Verif.RomHandler (Handler)
open Verif.RomHandler.Spec (vars bent romBlock fomBlock)
open Verif.RomAssembly.Spec (refB)
open Verif.TensorRom.Spec (FesOk convForm vec)
open Verif.Online.Spec (V apply Combines InSpan)
open Verif.Pipeline (Disk)
open Verif.Pipeline.Spec (AsksNone)
open Verif.Options (Node Conv)
open Finset

variable {R F : Type} [CommRing R]

/-- The velocity field of the state `u` on subdomain `m`: the degrees of freedom of the first variable. -/
def velocity (h : Handler R) (u : BlockVector R) (m : Nat) : Nat → R := fun k => bent u (fomBlock h m 0) k

/-- The Navier-Stokes residual of the state `u` (without right-hand side), tested with basis vector `p` of
variable `v` of subdomain `m`: the linear operator `A`, and the convection form of the velocity on the
space `W m` if the variable is the velocity. -/
def tested (h : Handler R) (A : Nat → Nat → Nat → Nat → Nat → Nat → R) (W : Nat → Fes R)
    (u : BlockVector R) (m v p : Nat) : R :=
  ∑ k ∈ range (V h m v).h, ent (V h m v) k p * apply h A u m v k +
    if v = 0 then convForm (W m) (velocity h u m) (velocity h u m) (vec (V h m 0) p) else 0

/-- The convective part of a program run: `W m` is the velocity space of subdomain `m`; the subdomains of
a component-wise topology carry the space of their component, and every component has velocity bases. -/
structure Convective (P : NsProb R F) (W : Nat → Fes R) : Prop where
  oper : P.oper ≠ .lf
  vars : P.numVar = P.lin.h.numVar ∧ 0 < P.numVar
  count : P.ufes.length = P.lin.h.numSub
  spaces : ∀ m, m < P.lin.h.numSub → P.ufes[m]? = some (W m) ∧ FesOk (W m) ∧
    (W m).size ≤ (V P.lin.h m 0).h ∧ MatOk (V P.lin.h m 0) ∧ 0 < (V P.lin.h m 0).w

/-- The spaces of the components, for component-wise building. -/
structure Componentwise (P : NsProb R F) (W : Nat → Fes R) : Prop where
  comps : ∀ c, c < P.lin.names.length → ∃ E, P.compFes[c * P.numVar]? = some E ∧ FesOk E ∧
    E.size ≤ (refB P.lin.h c 0).h ∧ 0 < (refB P.lin.h c 0).w
  copies : ∀ m c : Nat, P.lin.h.meshType[m]? = some c → P.compFes[c * P.numVar]? = some (W m)

/-- Components of the same name carry the same velocity space in both problems. -/
def SameSpaces (P P' : NsProb R F) : Prop :=
  ∀ (c c' : Nat) n, P.lin.names[c]? = some n → P'.lin.names[c']? = some n →
    P.compFes[c * P.numVar]? = P'.compFes[c' * P'.numVar]?

/-- Making the monolithic matrix sparse (external) keeps its shape and entries. -/
def Sparse (sparse : Blk R → Sp R) : Prop :=
  ∀ b, (sparse b).h = b.h ∧ (sparse b).w = b.w ∧ ∀ i j, i < b.h → j < b.w → (sparse b).get i j = b.val i j

/-- The operator `r` computes the tested Navier-Stokes residual of every reduced state: of the state `u`
whose coefficients are `x`. -/
def Computes (h : Handler R) (zr zf : List Nat) (A : Nat → Nat → Nat → Nat → Nat → Nat → R)
    (W : Nat → Fes R) (r : Rom R) : Prop :=
  ∀ (x : List R) (u : BlockVector R) (junk : Nat → R), HasSizes ⟨x, h.romOffs⟩ zr → HasSizes u zf →
    Combines h (fun m v p => bent ⟨x, h.romOffs⟩ (romBlock h m v) p) u →
    ∃ y, mult r x junk = .ok y ∧ HasSizes ⟨y, h.romOffs⟩ zr ∧
      ∀ m v p, m < h.numSub → v < vars h → p < (V h m v).w →
        bent ⟨y, h.romOffs⟩ (romBlock h m v) p = tested h A W u m v p

/-- `u` is a Galerkin solution of the Navier-Stokes equations of problem `P`: it lies in the span of the
bases, and its residual vanishes when tested with the bases. -/
structure Galerkin (P : NsProb R F) (zf : List Nat) (A : Nat → Nat → Nat → Nat → Nat → Nat → R)
    (W : Nat → Fes R) (u : List R) : Prop where
  size : HasSizes (Online.view P.lin.h P.lin.varOffs P.lin.domOffs u) zf
  span : InSpan P.lin.h (Online.view P.lin.h P.lin.varOffs P.lin.domOffs u)
  residual : ∀ m v p, m < P.lin.h.numSub → v < RomHandler.Spec.vars P.lin.h → p < (V P.lin.h m v).w →
    tested P.lin.h A W (Online.view P.lin.h P.lin.varOffs P.lin.domOffs u) m v p =
      ∑ k ∈ range (V P.lin.h m v).h, ent (V P.lin.h m v) k p *
        bent (Online.view P.lin.h P.lin.varOffs P.lin.domOffs P.lin.rhs) (fomBlock P.lin.h m v) k

/-- `u` solves the full-order Navier-Stokes equations of problem `P`, degree of freedom by degree of
freedom. -/
def SolvesNs (P : NsProb R F) (A : Nat → Nat → Nat → Nat → Nat → Nat → R) (W : Nat → Fes R)
    (u : BlockVector R) : Prop :=
  ∀ m v k, m < P.lin.h.numSub → v < RomHandler.Spec.vars P.lin.h → k < (V P.lin.h m v).h →
    apply P.lin.h A u m v k +
      (if v = 0 then convForm (W m) (velocity P.lin.h u m) (velocity P.lin.h u m)
        (fun t => if t = k then 1 else 0) else 0) =
      bent (Online.view P.lin.h P.lin.varOffs P.lin.domOffs P.lin.rhs) (fomBlock P.lin.h m v) k

/-- The nonlinear solver (external) solved `F(x) = b` from the initial guess `x0`. -/
def Solved (nls : (List R → Outcome (List R)) → List R → List R → List R)
    (f : List R → Outcome (List R)) (b x0 : List R) : Prop :=
  (nls f b x0).length = b.length ∧ f (nls f b x0) = .ok b

/-- A run of `P` with configuration `cfg` on the files `e`: its operator computes the tested residual of
every reduced state, and whenever the nonlinear solver solves its system the run returns a Galerkin
solution. -/
def RunsOn (c : Conv) (cfg : Node) (P : NsProb R F) (sparse : Blk R → Sp R) (zr zf : List Nat)
    (A : Nat → Nat → Nat → Nat → Nat → Nat → R) (W : Nat → Fes R) (e : Disk R) : Prop :=
  ∀ junk, ∃ r, romOper c cfg P sparse junk e = .ok r ∧ Computes P.lin.h zr zf A W r ∧
    ∀ nls x0, (∀ b, Online.projectRHS P.lin.h P.lin.varOffs P.lin.domOffs P.lin.rhs junk = .ok b →
        Solved nls (fun x => mult r x junk) b.data x0) →
      ∃ u, runNs c cfg P sparse nls x0 junk e = .ok u ∧ Galerkin P zf A W u

/-- What a stored ROM promises: only the two files named by the prefix are written, and every later run of
`P'` with configuration `cfg'` that finds these files works with an operator that computes the tested
residual of every reduced state, as does a run without stored operators; whenever the nonlinear solver
solves its system, the run returns a Galerkin solution. -/
def ServesNs (c : Conv) (cfg cfg' : Node) (pre : String) (fin : Blk R → Csr R) (sparse : Blk R → Sp R)
    (P P' : NsProb R F) (zr zf : List Nat) (A : Nat → Nat → Nat → Nat → Nat → Nat → R)
    (W : Nat → Fes R) : Prop :=
  ∀ (d : Disk R) (junk : Nat → R), ∃ d', buildNs c cfg fin P junk d = .ok d' ∧
    (∀ n, n ≠ pre ++ ".h5" → n ≠ pre ++ ".tensor.h5" → d' n = d n) ∧
    ∀ e : Disk R, e (pre ++ ".h5") = d' (pre ++ ".h5") → e (pre ++ ".tensor.h5") = d' (pre ++ ".tensor.h5") →
      RunsOn c cfg' P' sparse zr zf A W e ∧
      ∀ cfg0, AsksNone c cfg0 → ∀ e0, RunsOn c cfg0 P' sparse zr zf A W e0

end Verif.NsPipeline.Spec
