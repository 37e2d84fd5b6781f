import Verif.Model.Config

/-!
# The script that assembles channels

Models the class `ChannelConfig` of `utils/python/channel_config.py`: a row of meshes along a walk on the
integer lattice, with walls along it, an inlet at the left of the first mesh and an outlet at the end.

Simplifications: those of `Verif.Model.Config`; the dictionary of attributes is the list of its items in
order of insertion.  Indices `-1` and `-2` are the numbers of the last mesh and the one before it.
-/

namespace Verif.Config

open Verif Verif.CompSetup Verif.GenConf

/-- The constructor (`utils/python/channel_config.py:16-39`) followed by calls of `addComponent`: the first
mesh is a copy of the first component, its left face is the inlet. -/
def Conf.channel (start : Part) (more : List Part) : Conf :=
  ⟨start :: more, [(start.name, start.name, 2, 4)], [⟨start, [1, 2, 3]⟩], [0], [(0, 0)], [⟨4, 0, 4⟩], []⟩

/-- `face_map[tuple(d)]`, which raises an exception when the key is absent. -/
def faceAt (d : Int × Int) : Outcome Int :=
  match faceMap d with
  | some f => .ok f
  | none => .error .abort

/-- `num_face` (`utils/python/config.py:27` and `:42`). -/
def Part.numFace (p : Part) : Int := if p.object then 5 else 4

/-- The attribute of a face when the one downstream has attribute 2, `utils/python/channel_config.py:148-150`. -/
def turned (p : Part) (dface face : Int) : Int :=
  let attr := face - dface + 2
  let attr := if attr < 1 then attr + p.numFace else attr
  if attr > p.numFace then attr - p.numFace else attr

/-- `attr_dict[face]`. -/
def attrOf (d : List (Int × Int)) (face : Int) : Outcome Int :=
  match d.find? (fun x => x.1 == face) with
  | some x => .ok x.2
  | none => .error .abort

/-- `attr_dict[face] = attr` for a key that is present. -/
def setAttr (d : List (Int × Int)) (face attr : Int) : List (Int × Int) :=
  d.map fun x => if x.1 = face then (face, attr) else x

/-- `switchBdrAttr` (`utils/python/channel_config.py:165-173`); an attribute that is absent raises an
exception. -/
def switchBdrAttr (d : List (Int × Int)) (face attr : Int) : Outcome (List (Int × Int)) :=
  match d.find? (fun x => x.2 == attr) with
  | none => .error .abort
  | some x => if x.1 ≠ face then do
      let a ← attrOf d face
      return setAttr (setAttr d x.1 a) face attr
    else return d

/-- `gbattr.pop(face)`, which raises an exception when the key is absent. -/
def popAttr (d : List (Int × Int)) (face : Int) : Outcome (List (Int × Int)) := do
  require (d.any fun x => x.1 == face)
  return d.filter fun x => decide (x.1 ≠ face)

/-- `DetermineGlobalAttr` (`utils/python/channel_config.py:138-163`) for a mesh with the given component and
displacements to the cells upstream and downstream: faces with attributes. -/
def globalAttr (p : Part) (du dd : Int × Int) (closure : Bool) : Outcome (List (Int × Int)) := do
  let uface ← faceAt du
  let dface ← faceAt dd
  let g := p.refBattr.map fun f => (f, turned p dface f)
  let g ← if g.any (fun x => x.1 == 5) then switchBdrAttr g 5 5 else pure g
  let g ← switchBdrAttr g uface 4
  let g ← popAttr g uface
  if closure then return g else popAttr g dface

/-- The rows of one mesh, `utils/python/channel_config.py:88-89` and `:103-104`. -/
def Conf.wallRows (s : Conf) (m : Nat) (g : List (Int × Int)) : Outcome Conf :=
  g.foldlM (fun s x => Conf.appendBoundary s x.2 m x.1) s

/-- `a - b` for two cells. -/
def diff (a b : Int × Int) : Int × Int := (a.1 - b.1, a.2 - b.2)

/-- `uloc`, `utils/python/channel_config.py:83-86`. -/
def upstream (loc : List (Int × Int)) (m : Nat) : Outcome (Int × Int) :=
  if m = 0 then do
    let l0 ← rd loc 0
    return (-1 + l0.1, l0.2)
  else rd loc (m - 1)

/-- `addMesh` (`utils/python/channel_config.py:75-97`) with `isLocationAvailable` (`:54-73`). -/
def Conf.extend (s : Conf) (c : Nat) (new : Int × Int) : Outcome Conf := do
  require (decide (new ∉ s.loc))
  let m := s.meshes.length - 1
  let M ← rd s.meshes m
  let l ← rd s.loc m
  let dface ← faceAt (diff new l)
  let u ← upstream s.loc m
  let g ← globalAttr M.part (diff u l) (diff new l) false
  let s ← s.wallRows m g
  let s ← s.addMesh c new
  let uface ← faceAt (diff l new)
  s.appendInterface m (m + 1) dface uface

/-- `close` (`utils/python/channel_config.py:99-108`); with a single mesh `loc[-2]` raises an exception. -/
def Conf.closeChannel (s : Conf) : Outcome Conf := do
  let m := s.meshes.length - 1
  require (decide (2 ≤ s.loc.length))
  let l ← rd s.loc m
  let u ← rd s.loc (m - 1)
  let new := (l.1 + (l.1 - u.1), l.2 + (l.2 - u.2))
  let M ← rd s.meshes m
  let g ← globalAttr M.part (diff u l) (diff new l) true
  let s ← s.wallRows m g
  let ok ← s.allFacesClosed
  require ok
  return s

/-- `close` followed by `save`. -/
def Conf.finish (s : Conf) : Outcome File := do
  let s ← s.closeChannel
  s.save (s.types.map fun t : Nat => (t : Int))

/-- Meshes added one after the other, then `close` and `save`. -/
def Conf.lay (s : Conf) (choices : List (Nat × (Int × Int))) : Outcome File := do
  let s ← choices.foldlM (fun s c => Conf.extend s c.1 c.2) s
  s.finish

/-- `getAvailableFaces` (`utils/python/channel_config.py:41-52`): the cells. -/
def Conf.nextCells (s : Conf) : Outcome (List (Int × Int)) := do
  let m := s.meshes.length - 1
  let M ← rd s.meshes m
  let l ← rd s.loc m
  let cells ← M.free.mapM fun f => do
    let d ← faceInv f
    return (l.1 + d.1, l.2 + d.2)
  return cells.filter fun p => decide (p ∉ s.loc)

/-- `GenerateAllConfigs` (`utils/python/channel_config.py:110-126`): the files with their numbers. -/
def Conf.generate : Nat → Conf → Nat → Outcome (List (Nat × File))
  | 0, s, offset => do
    let f ← s.finish
    return [(offset, f)]
  | n + 1, s, offset => do
    let cells ← s.nextCells
    cells.foldlM (fun fs new => do
      let t ← s.extend 0 new
      let gs ← Conf.generate n t (offset + fs.length)
      return fs ++ gs) []

/-- `CreateRandomConfig` (`utils/python/channel_config.py:128-136`); `rand k n` is the number that
`randint(n)` returns in step `k`; `randint(0)` raises an exception. -/
def Conf.random (rand : Nat → Nat → Nat) (n : Nat) (s : Conf) : Outcome File := do
  let s ← (List.range n).foldlM (fun (s : Conf) (k : Nat) => do
    let cells ← s.nextCells
    require (decide (cells ≠ []))
    let new ← rd cells (rand k cells.length)
    s.extend 0 new) s
  s.finish

end Verif.Config
