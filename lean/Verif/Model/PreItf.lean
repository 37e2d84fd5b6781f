import Verif.Model.TrainItf

/-!
# Coefficients of the samples of interface forms

Models `ROMInterfaceForm::PrecomputeCoefficients` (`src/rom_interfaceform.cpp`), which stores in every
sample of every reference port what the fast evaluation needs.  `PrecomputeEQPSample` after it has
fetched the degrees of freedom and the point (shape functions and basis at that point) is the parameter
`pre`; for the Lax-Friedrichs flux it is `Verif.LaxF.precomputeItf`.

The code updates the samples through pointers that the subdomain ports share with the reference ports;
here the lists of the reference ports are returned with the updated samples.
-/

namespace Verif.PreItf

open Verif Verif.LinAlg
open Verif.Ports (InterfaceInfo)
open Verif.InterfaceForm (Tr FMesh Space transformations)
open Verif.Eqp (Sample intPoint)
open Verif.EqpItf (Integ both)
open Verif.TrainItf (RefForm RefPort Side)

variable {P R δ : Type}

/-- The part of `PrecomputeEQPSample` that depends on the integrator's point: bases, degrees of freedom
and transformations of both sides, and the point, src/rom_interfaceform.cpp:831-832, :842-888. -/
abbrev Pre (P R δ : Type) :=
  Integ P R δ → Mat R → List Int → Mat R → List Int → Tr δ → Tr δ → Nat → Outcome P

/-- `comp_basis[c]`, `comp_fes[c]` and `GetComponentMesh(c)`, src/rom_interfaceform.cpp:797-807.  (Where
both components are the same one, the code copies the mesh.) -/
def sideAt (f : RefForm P R δ) (c : Nat) : Outcome (Side R δ) := do
  let b ← rd f.basis c
  let b ← deref b
  let s ← rd f.fes c
  let s ← deref s
  let m ← rd f.meshes c
  return ⟨m, s, b.1, b.2⟩

/-- One sample, src/rom_interfaceform.cpp:811-816 and :834-846.  The degrees of freedom are not shifted
by `comp_basis_dof_offsets`. -/
def preSample (pre : Pre P R δ) (g : Integ P R δ) (nq : Nat) (s1 s2 : Side R δ)
    (infos : List InterfaceInfo) (s : Sample P R) : Outcome (Sample P R) := do
  let i ← rdI infos s.el
  let t ← transformations false s1.mesh s2.mesh i
  let t ← both t
  let d1 ← rd s1.space.vdofs t.1.elem
  let d2 ← rd s2.space.vdofs t.2.elem
  let q ← intPoint nq s.qp
  let c ← pre g s1.basis d1 s2.basis d2 t.1 t.2 q
  return { s with pre := some c }

/-- The loop over the samples of a reference port, src/rom_interfaceform.cpp:809-817. -/
def preList (pre : Pre P R δ) (g : Integ P R δ) (nq : Nat) (s1 s2 : Side R δ)
    (infos : List InterfaceInfo) (l : List (Sample P R)) : Outcome (List (Sample P R)) :=
  loop l.length (fun i acc => do
    let s ← rd l i
    let s ← preSample pre g nq s1 s2 infos s
    return acc ++ [s]) []

/-- One reference port, src/rom_interfaceform.cpp:790-820. -/
def prePort (pre : Pre P R δ) (f : RefForm P R δ) (g : Integ P R δ) (nq k p : Nat)
    (refs : List (Option (List (Sample P R)))) : Outcome (List (Option (List (Sample P R)))) := do
  let rp ← rd f.ports p
  let l ← rd refs (p + k * f.ports.length)
  let l ← nonNull l
  let s1 ← sideAt f rp.c1
  let s2 ← sideAt f rp.c2
  let l ← preList pre g nq s1 s2 rp.infos l
  wr refs (p + k * f.ports.length) (some l)

/-- `PrecomputeCoefficients`, src/rom_interfaceform.cpp:768-822: the new contents of
`fnfi_ref_sample`. -/
def precompute (pre : Pre P R δ) (f : RefForm P R δ) :
    Outcome (List (Option (List (Sample P R)))) := do
  require (f.basis.length == f.meshes.length)
  let _ ← loop f.meshes.length (fun c _ => do
    let b ← rd f.basis c
    let _ ← nonNull b
    return ()) ()
  loop f.fnfi.length (fun k refs => do
    let g ← rd f.fnfi k
    let g ← deref g
    let nq ← nonNull g.rule
    loop f.ports.length (fun p refs => prePort pre f g nq k p refs) refs) f.refs

end Verif.PreItf
