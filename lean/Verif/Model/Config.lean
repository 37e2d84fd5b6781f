import Verif.Model.GenConf

/-!
# The scripts that assemble configurations mesh by mesh

Models the class `Configuration` of `utils/python/config.py`, which keeps the faces of every mesh that are
still free, and the class `BoxChannelConfig` of `utils/python/box_channel_config.py`, which fills a box of
cells.

Simplifications: a component is its name and whether it has the fifth face (`PipeHub` and `ObjectInSpace`
have it, `Empty` has not); all of them have the same four outer faces (`utils/python/config.py:29-32`,
`:44-47`).  A dictionary of free faces is the list of its keys in order of insertion, the dictionary of
reference ports is the list of its keys in the order of their numbers, because a new key gets the number of
keys before it.  Exceptions are `abort`.
-/

namespace Verif.Config

open Verif Verif.CompSetup Verif.GenConf

/-- A component (`utils/python/config.py:9-59`). -/
structure Part where
  name : String
  object : Bool
deriving DecidableEq, Repr

/-- `ref_battr` (`utils/python/config.py:28` and `:43`). -/
def Part.refBattr (p : Part) : List Int := if p.object then [1, 2, 3, 4, 5] else [1, 2, 3, 4]

/-- `face_map` (`utils/python/config.py:29-32`). -/
def faceMap (d : Int × Int) : Option Int :=
  if d = (0, -1) then some 1 else if d = (1, 0) then some 2 else if d = (0, 1) then some 3
  else if d = (-1, 0) then some 4 else none

/-- `face_map_inv` (`utils/python/config.py:33-34`); other keys raise an exception. -/
def faceInv (f : Int) : Outcome (Int × Int) :=
  if f = 1 then .ok (0, -1) else if f = 2 then .ok (1, 0) else if f = 3 then .ok (0, 1)
  else if f = 4 then .ok (-1, 0) else .error .abort

/-- A mesh: its component and the faces that are still free. -/
structure Mesh where
  part : Part
  free : List Int
deriving DecidableEq, Repr

/-- The data of a `Configuration` (`utils/python/config.py:61-85`). -/
structure Conf where
  comps : List Part
  ports : List (String × String × Int × Int)
  meshes : List Mesh
  types : List Nat
  loc : List (Int × Int)
  bdr : List BdrRow
  itf : List PortRow
deriving DecidableEq, Repr

/-- The key of a reference port, `utils/python/config.py:176-179`. -/
def portKey (n1 n2 : String) (f1 f2 : Int) : String × String × Int × Int :=
  if f1 < f2 then (n1, n2, f1, f2) else (n2, n1, f2, f1)

/-- Both names belong to components, `utils/python/config.py:165-174`. -/
def Conf.known (s : Conf) (n1 n2 : String) : Bool :=
  s.comps.any (fun c => c.name == n1) && s.comps.any (fun c => c.name == n2)

/-- `appendRefPort` (`utils/python/config.py:164-185`). -/
def Conf.appendRefPort (s : Conf) (n1 n2 : String) (f1 f2 : Int) : Outcome Conf := do
  require (s.known n1 n2)
  if portKey n1 n2 f1 f2 ∈ s.ports then return s
  else return { s with ports := s.ports ++ [portKey n1 n2 f1 f2] }

/-- `getRefPort` (`utils/python/config.py:187-208`). -/
def Conf.getRefPort (s : Conf) (n1 n2 : String) (f1 f2 : Int) : Outcome Nat := do
  require (s.known n1 n2)
  require (decide (portKey n1 n2 f1 f2 ∈ s.ports))
  return s.ports.idxOf (portKey n1 n2 f1 f2)

/-- `avail_face.pop(face)`, which raises an exception when the key is absent. -/
def popFace (ms : List Mesh) (m : Nat) (f : Int) : Outcome (List Mesh) := do
  let c ← rd ms m
  require (decide (f ∈ c.free))
  wr ms m { c with free := c.free.erase f }

/-- `Configuration.addMesh` (`utils/python/config.py:108-126`) without the check of the location, which the
derived classes define. -/
def Conf.addMesh (s : Conf) (c : Nat) (l : Int × Int) : Outcome Conf := do
  let p ← rd s.comps c
  return { s with meshes := s.meshes ++ [⟨p, [1, 2, 3, 4]⟩], types := s.types ++ [c], loc := s.loc ++ [l] }

/-- `appendBoundary` (`utils/python/config.py:128-137`). -/
def Conf.appendBoundary (s : Conf) (g : Int) (m : Nat) (f : Int) : Outcome Conf := do
  let c ← rd s.meshes m
  require (decide (f ∈ c.part.refBattr))
  let ms ← wr s.meshes m { c with free := c.free.erase f }
  return { s with meshes := ms, bdr := s.bdr ++ [⟨g, m, f⟩] }

/-- The row of an interface, `utils/python/config.py:153-156`. -/
def ifRow (m1 m2 : Nat) (f1 f2 : Int) (p : Nat) : PortRow :=
  if f1 < f2 then ⟨m1, m2, f1, f2, p⟩ else ⟨m2, m1, f2, f1, p⟩

/-- `appendInterface` (`utils/python/config.py:139-162`); the index `-1` of the last mesh is the number of
that mesh here. -/
def Conf.appendInterface (s : Conf) (m1 m2 : Nat) (f1 f2 : Int) : Outcome Conf := do
  let c1 ← rd s.meshes m1
  require (decide (f1 ∈ c1.free))
  let c2 ← rd s.meshes m2
  require (decide (f2 ∈ c2.free))
  let ms ← popFace s.meshes m1 f1
  let ms ← popFace ms m2 f2
  let s ← ({ s with meshes := ms } : Conf).appendRefPort c1.part.name c2.part.name f1 f2
  let p ← s.getRefPort c1.part.name c2.part.name f1 f2
  return { s with itf := s.itf ++ [ifRow m1 m2 f1 f2 p] }

/-- `mesh_faces[m].remove(f)`, which raises an exception when the face is absent. -/
def dropFace (fs : List (List Int)) (m f : Int) : Outcome (List (List Int)) := do
  let l ← rdI fs m
  require (decide (f ∈ l))
  wrI fs m (l.erase f)

/-- `allFacesClosed` (`utils/python/config.py:251-272`). -/
def Conf.allFacesClosed (s : Conf) : Outcome Bool := do
  if s.meshes.any (fun m => decide (m.free ≠ [])) then return false
  let fs ← s.bdr.foldlM (fun fs b => dropFace fs b.mesh b.cattr) (s.meshes.map fun m => m.part.refBattr)
  let fs ← s.itf.foldlM (fun fs r => do
    let fs ← dropFace fs r.mesh1 r.attr1
    dropFace fs r.mesh2 r.attr2) fs
  return fs.all (fun l => decide (l = []))

/-- A reference port in the file, `utils/python/config.py:230-243`. -/
structure PortGroup where
  comp1 : String
  comp2 : String
  attr1 : Int
  attr2 : Int
  shift : Int × Int
deriving DecidableEq, Repr

/-- The file: the names of the components, the reference ports and the tables. -/
structure File where
  comps : List String
  refs : List PortGroup
  tables : Layout Int
deriving DecidableEq, Repr

/-- `Configuration.save` (`utils/python/config.py:210-249`), the numbers of the components of the meshes
given. -/
def Conf.save (s : Conf) (types : List Int) : Outcome File := do
  let refs ← s.ports.mapM (fun k => do
    require (s.comps.any fun c => c.name == k.1)
    let d ← faceInv k.2.2.1
    return (⟨k.1, k.2.1, k.2.2.1, k.2.2.2, d⟩ : PortGroup))
  return ⟨s.comps.map Part.name, refs, ⟨types, s.loc, s.bdr, s.itf⟩⟩

/-! ## Boxes -/

/-- A `BoxChannelConfig` (`utils/python/box_channel_config.py:25-51`): the configuration, the numbers of
cells, whether the two directions are periodic, the cells that are still empty and which components have
been used. -/
structure Box where
  conf : Conf
  nx : Nat
  ny : Nat
  px : Bool
  py : Bool
  avail : List (Int × Int)
  used : List Bool
deriving DecidableEq, Repr

/-- The constructor (`utils/python/box_channel_config.py:38-51`). -/
def Box.new (nx ny : Nat) (px py : Bool) : Box :=
  ⟨⟨[], [], [], [], [], [], []⟩, nx, ny, px, py,
    (List.range nx).flatMap fun i : Nat => (List.range ny).map fun j : Nat => ((i : Int), (j : Int)), []⟩

/-- `addComponent` (`utils/python/box_channel_config.py:53-63`); the faces of the components are the ones
it asserts. -/
def Box.addComponent (b : Box) (p : Part) : Box :=
  { b with conf := { b.conf with comps := b.conf.comps ++ [p] }, used := b.used ++ [false] }

/-- `getInterfaces` (`utils/python/box_channel_config.py:10-23`); the missing `raise` in line 21 does not
matter, because the four displacements are closed under the change of sign. -/
def getInterfaces (d : Int × Int) : Option (Int × Int) :=
  match faceMap (-d.1, -d.2) with
  | some f2 => some ((faceMap d).getD (-1), f2)
  | none => none

/-- The displacements of `interfaceForPair`, `utils/python/box_channel_config.py:98-116`. -/
def Box.disps (b : Box) (p q : Int × Int) : List (Int × Int) :=
  let d := (q.1 - p.1, q.2 - p.2)
  [d] ++
  (if b.px then
    (if d.1 = (b.nx : Int) - 1 then [(d.1 - b.nx, d.2)] else []) ++
    (if d.1 = -((b.nx : Int) - 1) ∧ b.nx ≠ 1 then [(d.1 + b.nx, d.2)] else [])
  else []) ++
  (if b.py then
    (if d.2 = (b.ny : Int) - 1 then [(d.1, d.2 - b.ny)] else []) ++
    (if d.2 = -((b.ny : Int) - 1) ∧ b.ny ≠ 1 then [(d.1, d.2 + b.ny)] else [])
  else [])

/-- `interfaceForPair` (`utils/python/box_channel_config.py:93-123`) of meshes in the cells `p` and `q`. -/
def Box.pairs (b : Box) (p q : Int × Int) : List (Int × Int) := (b.disps p q).filterMap getInterfaces

/-- `addMesh` (`utils/python/box_channel_config.py:72-91`).  The locations do not change while the
interfaces are added. -/
def Box.addMesh (b : Box) (c k : Nat) : Outcome Box := do
  require (decide (k < b.avail.length))
  let l ← rd b.avail k
  let s ← b.conf.addMesh c l
  let n := b.conf.meshes.length
  let s ← (List.range (n + 1)).foldlM (fun t i => do
    let p ← rd s.loc i
    let q ← rd s.loc n
    (b.pairs p q).foldlM (fun t f => Conf.appendInterface t i n f.1 f.2) t) s
  let used ← wr b.used c true
  return { b with conf := s, avail := b.avail.erase l, used := used }

/-- `close` (`utils/python/box_channel_config.py:125-138`). -/
def Box.close (b : Box) : Outcome Box := do
  require (decide (b.conf.meshes.length = b.nx * b.ny))
  require (decide (b.avail = []))
  let s ← (List.range b.conf.meshes.length).foldlM (fun s m => do
    let c ← rd s.meshes m
    let s ← c.free.foldlM (fun s f => Conf.appendBoundary s f m f) s
    if (5 : Int) ∈ c.part.refBattr then s.appendBoundary 5 m 5 else return s) b.conf
  let ok ← s.allFacesClosed
  require ok
  return { b with conf := s }

/-- `removeUnusedComponents` (`utils/python/box_channel_config.py:175-196`): the components that are used
and the new numbers of the components of the meshes. -/
def Box.removeUnused (b : Box) : Outcome (List Part × List Int) := do
  require (decide (b.conf.comps.length = b.used.length))
  let r ← loop b.used.length (fun k (r : List Int × List Part) => do
    let u ← rd b.used k
    if u then do
      let c ← rd b.conf.comps k
      let im ← wr r.1 k (r.2.length : Int)
      return (im, r.2 ++ [c])
    else return r) (List.replicate b.conf.comps.length (-1), [])
  let types ← b.conf.types.mapM (fun t => rd r.1 t)
  require (types.all fun t => decide (0 ≤ t))
  return (r.2, types)

/-- `save` (`utils/python/box_channel_config.py:168-173`). -/
def Box.save (b : Box) : Outcome File := do
  let r ← b.removeUnused
  ({ b.conf with comps := r.1 } : Conf).save r.2

/-- The reference ports registered beforehand, `utils/python/box_comp_config.py:21-37`: every pair of
components, face by face. -/
def Box.registerAll (b : Box) : Outcome Box := do
  let s ← b.conf.comps.foldlM (fun (s : Conf) (i : Part) =>
    ([((0, -1), 1), ((1, 0), 2), ((0, 1), 3), ((-1, 0), 4)] : List ((Int × Int) × Int)).foldlM (fun s m =>
      b.conf.comps.foldlM (fun (s : Conf) (j : Part) =>
        match faceMap (-m.1.1, -m.1.2) with
        | some g => s.appendRefPort i.name j.name m.2 g
        | none => pure s) s) s) b.conf
  return { b with conf := s }

/-- The meshes of a box added one after the other, as `CreateRandomConfig`
(`utils/python/box_channel_config.py:158-166`) and `utils/python/box_comp_config.py:39-43` do: the number of
the component and the position in the list of empty cells for each of them. -/
def Box.fill (b : Box) (choices : List (Nat × Nat)) : Outcome File := do
  let b ← choices.foldlM (fun b c => Box.addMesh b c.1 c.2) b
  let b ← b.close
  b.save

/-- `GenerateAllConfigs` (`utils/python/box_channel_config.py:140-156`): the files with their numbers.  The
first argument bounds the depth of the recursion; it is the number of empty cells. -/
def Box.generate : Nat → Box → Nat → Outcome (List (Nat × File))
  | depth, b, offset =>
    if b.avail = [] then do
      let b ← b.close
      let f ← b.save
      return [(offset, f)]
    else match depth with
      | 0 => .error .abort
      | depth + 1 => (List.range b.conf.comps.length).foldlM (fun fs c => do
          let t ← b.addMesh c 0
          let gs ← Box.generate depth t (offset + fs.length)
          return fs ++ gs) []

end Verif.Config
