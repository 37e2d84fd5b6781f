import Verif.Model.CompLoad
import Verif.Spec.Options

/-!
# Specification: the meshes of a component-wise topology
-/

namespace Verif.CompLoad.Spec

open Verif Verif.Options
open Verif.Hdf5 (File Arr2 Dbl find readArray readArray2)

/-- The global configuration file `f` lists the components `names`; its subdomain `m` is of type
`types[m]`, and row `m` of the table `conf` says where it is. -/
structure Lists (f : File ℝ) (names : List String) (types : List Int) (conf : Arr2 (Dbl ℝ)) : Prop where
  group : find f ⟨[], "components", false⟩ = some .group
  number : find f ⟨["components"], "number_of_components", true⟩ = some (.attrInt names.length)
  name : ∀ (c : Nat) n, names[c]? = some n →
    find f ⟨["components"], toString c, true⟩ = some (.attrStr n)
  types : readArray f ["components"] "meshes" = .ok types
  conf : readArray2 f ["components"] "configuration" = .ok conf

/-- Entry `e` of the configuration says that option `k` is `v`. -/
def Says (c : Conv) (e : Node) (k v : String) : Prop := Options.Spec.Named c.str (key k) v e

/-- The configuration lists the file `file` for the component `name`; if it lists several, the last one
counts. -/
def FileOf (c : Conv) (list : List (Option Node)) (name file : String) : Prop :=
  ∃ (k : Nat) (e : Node), list[k]? = some (some e) ∧ Says c e "name" name ∧ Says c e "file" file ∧
    ∀ (k' : Nat) (e' : Node), k < k' → list[k']? = some (some e') → ¬ Says c e' "name" name

/-- The point `q` is `p` in place: rotated by the angle in column 3 and moved by columns 0 and 1 in two
dimensions, moved by columns 0 to 2 in three. -/
inductive Placed (row : Nat → ℝ) : List ℝ → List ℝ → Prop
  | plane (x y : ℝ) : Placed row [x, y]
      [Real.cos (row 3) * x - Real.sin (row 3) * y + row 0,
       Real.sin (row 3) * x + Real.cos (row 3) * y + row 1]
  | space (x y z : ℝ) : Placed row [x, y, z] [x + row 0, y + row 1, z + row 2]

variable {α : Type}

/-- `mesh` is the mesh `comp` with every node in place, and otherwise unchanged. -/
def Copy (row : Nat → ℝ) (comp mesh : Mesh α) : Prop :=
  mesh.dim = comp.dim ∧ mesh.coll = comp.coll ∧ mesh.rest = comp.rest ∧
  List.Forall₂ (Placed row) comp.nodes mesh.nodes

/-- Row `m` of a table. -/
def row (a : Arr2 (Dbl ℝ)) (m : Nat) (d : Nat) : ℝ := ((a.data[m * a.cols + d]?).map Dbl.val).getD 0

/-- The `c`-th component: the mesh in the file listed under its name, refined `k` times. -/
def Component (c : Conv) (x : Meshes α) (list : List (Option Node)) (k : Nat) (name : String)
    (m : Mesh α) : Prop :=
  ∃ file m0, FileOf c list name file ∧ x.load file = .ok m0 ∧ m = x.refine^[k] m0

/-- What the program is given: the file and the component list and number of refinements in the
configuration. -/
structure Input (c : Conv) (disk : String → Option (File ℝ)) (cfg : Node) (names : List String)
    (types : List Int) (conf : Arr2 (Dbl ℝ)) (list : List (Option Node)) (k : Int) : Prop where
  file : ∃ name f, Says c cfg "mesh/component-wise/global_config" name ∧ disk name = some f ∧
    Lists f names types conf
  list : ∃ n, Options.Spec.At cfg (pieces '/' (key "mesh/component-wise/components")) n ∧
    elems n = list
  refinements : option c.int (key "mesh/uniform_refinement") 0 cfg = .ok k

/-- The inputs that are accepted: distinct component names, each of them listed, meshes with the same
nodal collection, a subdomain at least, subdomains of known types, a table with six entries in every row,
and nodes with as many coordinates as the first component has dimensions, two or three. -/
structure Accepted (c : Conv) (x : Meshes α) (names : List String) (types : List Int)
    (conf : Arr2 (Dbl ℝ)) (list : List (Option Node)) (k : Int) : Prop where
  distinct : names.Nodup
  nonempty : 0 < types.length
  known : ∀ t ∈ types, 0 ≤ t ∧ t < names.length
  rows : conf.rows = types.length
  table : ∀ m < conf.rows, m * conf.cols + 5 < conf.data.length
  entries : ∀ (i : Nat) o, list[i]? = some o → ∃ e n, o = some e ∧ Says c e "name" n ∧
    (n ∈ names → ∃ file m, Says c e "file" file ∧ x.load file = .ok m)
  listed : ∀ n ∈ names, ∃ file, FileOf c list n file
  collection : ∃ s, ∀ n ∈ names, ∀ file m, FileOf c list n file → x.load file = .ok m →
    m.coll = some s
  points : ∃ d, (d = 2 ∨ d = 3) ∧
    (∀ n m, names[0]? = some n → Component c x list k.toNat n m → m.dim = d) ∧
    ∀ t ∈ types, ∀ n m, names[t.toNat]? = some n → Component c x list k.toNat n m →
      ∀ p ∈ m.nodes, p.length = d

end Verif.CompLoad.Spec
