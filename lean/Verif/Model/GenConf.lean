import Verif.Proofs.Basic
import Verif.Model.CompSetup
import Mathlib.Algebra.Order.Field.Basic

/-!
# The scripts that write global configurations

Models the functions of `utils/python/sample_comp.py`, `utils/python/linelast_comp_base.py`,
`utils/python/linelast_comp.py` and `utils/python/linelast_cwtrain.py` that lay out many copies of a few
components and write the tables a component-wise topology is built from.

Simplifications: exact numbers of an ordered field instead of floating-point numbers; of the six entries of
the configuration of a mesh only the first two are kept, the others are `0`; a `numpy` array written out of
its bounds raises an exception, here `ub`.
-/

namespace Verif.GenConf

open Verif Verif.CompSetup

/-- The tables of a global configuration: `components/meshes`, the first two columns of
`components/configuration`, `boundary` and `ports/interface`. -/
structure Layout (R : Type) where
  types : List Int
  pos : List (R × R)
  bdr : List BdrRow
  ports : List PortRow
deriving DecidableEq, Repr

/-- A reference port described in the file: components, boundary attributes and `comp2_configuration`. -/
structure RefPort (R : Type) where
  comp1 : Nat
  comp2 : Nat
  attr1 : Int
  attr2 : Int
  shift : R × R
deriving DecidableEq, Repr

variable {R : Type}

section
variable [Field R]

/-- The positions, `utils/python/sample_comp.py:126-131`. -/
def scalePos (n : Nat) : Outcome (List (R × R)) :=
  loop n (fun j t => loop n (fun i t => wr t (i + j * n) ((i : R), (j : R))) t)
    (List.replicate (n * n) (0, 0))

/-- The table of interfaces, `utils/python/sample_comp.py:133-146`. -/
def scalePorts (n : Nat) : Outcome (List PortRow) := do
  let t ← loop n (fun j t => loop (n - 1) (fun i t =>
    wr t (i + j * (n - 1)) ⟨(i + j * n : Nat), (i + 1 + j * n : Nat), 2, 4, 1⟩) t)
    (List.replicate (2 * n * (n - 1)) ⟨0, 0, 0, 0, 0⟩)
  let offset := n * (n - 1)
  loop (n - 1) (fun j t => loop n (fun i t =>
    wr t (i + j * n + offset) ⟨(i + j * n : Nat), (i + (j + 1) * n : Nat), 3, 1, 0⟩) t) t

/-- The table of boundaries, `utils/python/sample_comp.py:148-153`. -/
def scaleBdr (n : Nat) : Outcome (List BdrRow) :=
  loop n (fun b l => .ok (l ++ [⟨1, (b : Int), 1⟩, ⟨2, ((n - 1 + b * n : Nat) : Int), 2⟩,
    ⟨3, ((b + (n - 1) * n : Nat) : Int), 3⟩, ⟨4, ((b * n : Nat) : Int), 4⟩])) []

/-- `ConfigScaleUp` (`utils/python/sample_comp.py:123-184`). -/
def scaleUp (n : Nat) : Outcome (Layout R) := do
  let pos ← scalePos n
  let ports ← scalePorts n
  let bdr ← scaleBdr n
  return ⟨List.replicate (n * n) 0, pos, bdr, ports⟩

/-- The sizes of a lattice: `nx`, `ny` and the lengths `wh`, `wv`, `lh`, `lv`. -/
structure Sizes (R : Type) where
  nx : Nat
  ny : Nat
  wh : R
  wv : R
  lh : R
  lv : R

/-- `n_joint` (`utils/python/linelast_comp_base.py:11`). -/
def Sizes.nJoint (s : Sizes R) : Nat := (s.nx + 1) * (s.ny + 1)

/-- `n_rod_H` (`utils/python/linelast_comp_base.py:12`). -/
def Sizes.nRodH (s : Sizes R) : Nat := (s.ny + 1) * s.nx

/-- `n_rod_V` (`utils/python/linelast_comp_base.py:13`). -/
def Sizes.nRodV (s : Sizes R) : Nat := (s.nx + 1) * s.ny

/-- The boundaries of joint `i`, `utils/python/linelast_comp_base.py:20-33`. -/
def jointBdr (s : Sizes R) (i : Nat) : List BdrRow :=
  let xi := (i + s.nx + 1) % (s.nx + 1)
  let yi := i / (s.nx + 1)
  (if xi = 0 then [⟨4, i, 4⟩] else if xi = s.nx then [⟨2, i, 2⟩] else []) ++
    (if yi = 0 then [⟨1, i, 1⟩] else if yi = s.ny then [⟨3, i, 3⟩] else [])

/-- The interfaces of joint `i`, `utils/python/linelast_comp_base.py:38-49`. -/
def jointItf (s : Sizes R) (i : Nat) : List PortRow :=
  let xi := (i + s.nx + 1) % (s.nx + 1)
  let yi := i / (s.nx + 1)
  (if xi < s.nx then [⟨i, (i : Int) + s.nJoint - yi, 2, 4, 0⟩] else []) ++
    (if xi > 0 then [⟨i, (i : Int) + s.nJoint - yi - 1, 4, 2, 1⟩] else []) ++
    (if yi < s.ny then [⟨i, (s.nJoint : Int) + s.nRodH + i, 3, 1, 2⟩] else []) ++
    (if yi > 0 then [⟨i, (s.nJoint : Int) + s.nRodH + i - (s.nx + 1), 1, 3, 3⟩] else [])

/-- The boundaries of horizontal rod `i`, `utils/python/linelast_comp_base.py:56-67`. -/
def rodHBdr (s : Sizes R) (i : Nat) : List BdrRow :=
  let m : Int := (s.nJoint + i : Nat)
  let yi := i / s.nx
  if yi = 0 then [⟨5, m, 3⟩, ⟨1, m, 1⟩]
  else if yi = s.ny then [⟨3, m, 3⟩, ⟨5, m, 1⟩]
  else [⟨5, m, 1⟩, ⟨5, m, 3⟩]

/-- The boundaries of vertical rod `i`, `utils/python/linelast_comp_base.py:76-85`. -/
def rodVBdr (s : Sizes R) (i : Nat) : List BdrRow :=
  let m : Int := (s.nJoint + s.nRodH + i : Nat)
  let xi := (i + s.nx + 1) % (s.nx + 1)
  if xi = 0 then [⟨4, m, 4⟩, ⟨5, m, 2⟩]
  else if xi = s.nx then [⟨2, m, 2⟩, ⟨5, m, 4⟩]
  else [⟨5, m, 2⟩, ⟨5, m, 4⟩]

/-- The configuration of joint `i`, `utils/python/linelast_comp_base.py:20-22`. -/
def jointPos (s : Sizes R) (i : Nat) : R × R :=
  ((((i + s.nx + 1) % (s.nx + 1) : Nat) : R) * (s.lh + s.wv), ((i / (s.nx + 1) : Nat) : R) * (s.lv + s.wh))

/-- The configuration of horizontal rod `i`, `utils/python/linelast_comp_base.py:53-55`. -/
def rodHPos (s : Sizes R) (i : Nat) : R × R :=
  ((((i + s.nx) % s.nx : Nat) : R) * (s.lh + s.wv) + s.wv, ((i / s.nx : Nat) : R) * (s.lv + s.wh))

/-- The configuration of vertical rod `i`, `utils/python/linelast_comp_base.py:71-73`. -/
def rodVPos (s : Sizes R) (i : Nat) : R × R :=
  ((((i + s.nx + 1) % (s.nx + 1) : Nat) : R) * (s.lh + s.wv),
    ((i / (s.nx + 1) : Nat) : R) * (s.lv + s.wh) + s.wh)

/-- `cw_generate_nu_mxn` (`utils/python/linelast_comp_base.py:8-100`). -/
def lattice (s : Sizes R) : Outcome (Layout R) := do
  let nMesh := s.nJoint + (s.nRodH + s.nRodV)
  let types := List.replicate s.nJoint 0 ++ List.replicate s.nRodH 1 ++ List.replicate s.nRodV 2
  let t ← loop s.nJoint (fun i t => do
    let pos ← wr t.1 i (jointPos s i)
    return (pos, t.2.1 ++ jointBdr s i, t.2.2 ++ jointItf s i))
    (List.replicate nMesh ((0 : R), (0 : R)), [], [])
  let u ← loop s.nRodH (fun i u => do
    let pos ← wr u.1 (s.nJoint + i) (rodHPos s i)
    return (pos, u.2 ++ rodHBdr s i)) (t.1, t.2.1)
  let v ← loop s.nRodV (fun i v => do
    let pos ← wr v.1 (s.nJoint + s.nRodH + i) (rodVPos s i)
    return (pos, v.2 ++ rodVBdr s i)) u
  return ⟨types, v.1, v.2, t.2.2⟩

/-- The reference ports `Configure2DLatticeComponent` describes
(`utils/python/linelast_comp_base.py:178-213`), with the configurations of
`utils/python/linelast_comp_base.py:88-92`. -/
def latticeRefs (s : Sizes R) : List (RefPort R) :=
  [⟨0, 1, 2, 4, (s.wv, 0)⟩, ⟨0, 1, 4, 2, (-s.lh, 0)⟩, ⟨0, 2, 3, 1, (0, s.wh)⟩, ⟨0, 2, 1, 3, (0, -s.lv)⟩]

/-- `cw_generate_nu_1x1` (`utils/python/linelast_comp_base.py:103-157`); `s.nx` and `s.ny` are not used. -/
def lattice1x1 (s : Sizes R) : Layout R where
  types := [0, 1, 0, 2, 2, 0, 1, 0]
  pos := [(0, 0), (s.wv, 0), (s.wv + s.lh, 0), (0, s.wh), (s.wv + s.lh, s.wh), (0, s.wh + s.lv),
    (s.wv, s.wh + s.lv), (s.wv + s.lh, s.wh + s.lv)]
  ports := [⟨0, 1, 2, 4, 0⟩, ⟨2, 1, 4, 2, 1⟩, ⟨0, 3, 3, 1, 2⟩, ⟨2, 4, 3, 1, 2⟩, ⟨5, 3, 1, 3, 3⟩,
    ⟨7, 4, 1, 3, 3⟩, ⟨5, 6, 2, 4, 0⟩, ⟨7, 6, 4, 2, 1⟩]
  bdr := [⟨1, 0, 1⟩, ⟨1, 1, 1⟩, ⟨1, 2, 1⟩, ⟨2, 2, 2⟩, ⟨2, 4, 2⟩, ⟨2, 7, 2⟩, ⟨3, 5, 3⟩, ⟨3, 6, 3⟩, ⟨3, 7, 3⟩,
    ⟨4, 0, 4⟩, ⟨4, 3, 4⟩, ⟨4, 5, 4⟩, ⟨5, 1, 3⟩, ⟨5, 4, 4⟩, ⟨5, 6, 1⟩, ⟨5, 3, 2⟩]

/-- `LatticeCantilever` (`utils/python/linelast_comp.py:78-84`): the numbers given by the user are replaced
by `2`. -/
def latticeCantilever (_nx _ny : Nat) : Outcome (Layout R) :=
  lattice ⟨2, 2, 1, 1, 4, 4⟩

end

/-- `battr_map` (`utils/python/linelast_cwtrain.py:45-51`). -/
def battrMap : List (List Int) := [[1, 2, 3, 4], [4, 1, 2, 3], [3, 4, 1, 2], [2, 3, 4, 1]]

/-- `PermuteBdrData` (`utils/python/linelast_cwtrain.py:53-59`).  An index below `0` counts from the end in
`numpy`; the attributes of the tables are positive, so that this case is left out (`ub`). -/
def permuteBdr (rows : List BdrRow) (j : Nat) : Outcome (List BdrRow) :=
  loop rows.length (fun i t => do
    let r ← rd t i
    if r.gattr < 5 then do
      let l ← rd battrMap j
      let v ← rdI l (r.gattr - 1)
      wr t i { r with gattr := v }
    else .ok t) rows

end Verif.GenConf
