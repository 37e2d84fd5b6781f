import Verif.Model.Basic
import Verif.Model.Sampling

/-!
# Input options

`InputParser` over a YAML tree.  Simplifications: nodes are values, so YAML anchors and aliases (two
places sharing a node) are not modelled; keys of maps are strings; the conversions `as<T>()` and
`YAML::Load` are parameters.  A YAML exception (bad subscript, bad conversion) is `abort`, as nothing
catches it.
-/

namespace Verif.Options

open Verif

/-- Text. -/
abbrev Str := List Char

/-- A YAML node.  An absent (undefined, "zombie") node is represented by `none` where it can occur. -/
inductive Node where
  | null
  | scalar (s : Str)
  | seq (l : List Node)
  | map (m : List (Str × Node))

/-- `std::getline(stream, s, d)` on a string stream holding `s`: fails when nothing is left, otherwise
reads up to the delimiter, which is removed. -/
def getline (d : Char) (s : Str) : Option (Str × Str) :=
  match s with
  | [] => none
  | _ => some (s.takeWhile (· != d), (s.dropWhile (· != d)).drop 1)

/-- At most `n` rounds of `while (std::getline(stream, s, d))`. -/
def piecesN (d : Char) : Nat → Str → List Str
  | 0, _ => []
  | n + 1, s =>
    match getline d s with
    | none => []
    | some (p, r) => p :: piecesN d n r

/-- `while (std::getline(stream, s, d))`; every round removes a character, so the length of the text
bounds the number of rounds. -/
def pieces (d : Char) (s : Str) : List Str := piecesN d s.length s

/-- Value of the first pair with key `s`. -/
def lookup (s : Str) : List (Str × Node) → Option Node
  | [] => none
  | (k, v) :: m => if k = s then some v else lookup s m

/-- Assignment to `map[s]`: replaces the first pair with that key, or adds one at the end. -/
def put (s : Str) (v : Node) : List (Str × Node) → List (Str × Node)
  | [] => [(s, v)]
  | (k, w) :: m => if k = s then (k, v) :: m else (k, w) :: put s v m

/-- Decimal digits, the key yaml-cpp gives to element `k` of a sequence it converts. -/
def digits (k : Nat) : Str := (toString k).toList

/-- The pairs of a node about to be indexed with a string (yaml-cpp `node_data::get` converts null and
sequences to maps, and throws on scalars). -/
def pairs : Node → Outcome (List (Str × Node))
  | .null => .ok []
  | .scalar _ => .error .abort
  | .seq l => .ok ((List.range l.length).zip l |>.map fun p => (digits p.1, p.2))
  | .map m => .ok m

/-- `InputParser::FindNodeFromDict(keys, dict)` with `create = false`, on the components of `keys`
(`src/input_parser.cpp:49-72`): the node found, `none` if there is none. -/
def find : Node → List Str → Outcome (Option Node)
  | t, [] => .ok (some t)
  | t, s :: ss => do
    let m ← pairs t
    match lookup s m with
    | none => .ok none
    | some c => find c ss

/-- The tree after that lookup: nodes indexed on the way are maps now. -/
def touch : Node → List Str → Node
  | t, [] => t
  | t, s :: ss =>
    match pairs t with
    | .error _ => t
    | .ok m =>
      match lookup s m with
      | none => .map m
      | some c => .map (put s (touch c ss) m)

/-- `InputParser::SetOptionInDict` on the components of `keys` (`include/input_parser.hpp:132-138`):
`FindNodeFromDict` with `create = true`, then assignment. -/
def assign : Node → List Str → Node → Outcome Node
  | _, [], v => .ok v
  | t, s :: ss, v => do
    let m ← pairs t
    let c ← assign ((lookup s m).getD .null) ss v
    return .map (put s c m)

/-- `GetRequiredOption<T>` (`include/input_parser.hpp:95-106, 121-123`); `as` is `node.as<T>()`. -/
def required {T : Type} (as : Node → Outcome T) (keys : Str) (t : Node) : Outcome T := do
  match ← find t (pieces '/' keys) with
  | none => .error .abort
  | some n => as n

/-- `GetOption<T>` (`include/input_parser.hpp:108-117, 125-127`). -/
def option {T : Type} (as : Node → Outcome T) (keys : Str) (fallback : T) (t : Node) : Outcome T := do
  match ← find t (pieces '/' keys) with
  | none => .ok fallback
  | some n => as n

/-- `SetOption` (`include/input_parser.hpp:132-142`). -/
def setOption (keys : Str) (v : Node) (t : Node) : Outcome Node := assign t (pieces '/' keys) v

/-- `input_dict[k]` for `k < input_dict.size()`. -/
def elems : Node → List (Option Node)
  | .null => []
  | .scalar _ => []
  | .seq l => l.map some
  | .map m => (List.range m.length).map fun k => lookup (digits k) m

/-- The loop of `LookUpFromDict` (`include/input_parser.hpp:151-159, 171-179`): the first element whose
entry `lkey` equals `lval`. -/
def lookUpIn {T : Type} [DecidableEq T] (as : Node → Outcome T) (lkey : Str) (lval : T) :
    List (Option Node) → Outcome (Option Node)
  | [] => .ok none
  | none :: es => lookUpIn as lkey lval es
  | some e :: es => do
    match ← find e (pieces '/' lkey) with
    | none => lookUpIn as lkey lval es
    | some n => do
      let v ← as n
      if v = lval then .ok (some e) else lookUpIn as lkey lval es

/-- `LookUpFromDict(lkey, lval, dict)` (`include/input_parser.hpp:144-162`).  Its side effect, turning
null or list elements into maps, is left out. -/
def lookUp {T : Type} [DecidableEq T] (as : Node → Outcome T) (lkey : Str) (lval : T) (t : Node) :
    Outcome (Option Node) := lookUpIn as lkey lval (elems t)

/-- `LookUpFromDict(lkey, lval, rkey, rval_default, dict)` (`include/input_parser.hpp:164-183`). -/
def lookUpValue {T U : Type} [DecidableEq T] (as : Node → Outcome T) (as' : Node → Outcome U)
    (lkey : Str) (lval : T) (rkey : Str) (dflt : U) (t : Node) : Outcome U := do
  match ← lookUp as lkey lval t with
  | none => .ok dflt
  | some e => option as' rkey dflt e

/-- One `key=value` pair (`src/input_parser.cpp:82-95`): two pieces, and no third. -/
def keyValue (kv : Str) : Outcome (Str × Str) :=
  match getline '=' kv with
  | none => .error .abort
  | some (k, r) =>
    match getline '=' r with
    | none => .error .abort
    | some (v, r) =>
      match getline '=' r with
      | none => .ok (k, v)
      | some _ => .error .abort

/-- The loop of `OverwriteOption` over the pairs. -/
def overwriteAll (load : Str → Outcome Node) : List Str → Node → Outcome Node
  | [], t => .ok t
  | kv :: kvs, t => do
    let (k, v) ← keyValue kv
    let n ← load v
    let t' ← setOption k n t
    overwriteAll load kvs t'

/-- `InputParser::OverwriteOption` (`src/input_parser.cpp:74-98`); `load` is `YAML::Load`. -/
def overwrite (load : Str → Outcome Node) (forced : Str) (t : Node) : Outcome Node :=
  overwriteAll load (pieces ':' forced) t

/-! ## Snapshot files of a basis -/

/-- The conversions `as<T>()` and `string_format` used below. -/
structure Conv where
  str : Node → Outcome String
  strs : Node → Outcome (List String)
  int : Node → Outcome Int
  format : String → Int → String

/-- The text of a key. -/
def key (s : String) : Str := s.toList

/-- `FilenameParam` construction and `ParseFilenames` (`src/parameter.cpp:64-70, 109-112, 130-135`). -/
def formatted (c : Conv) (f : Node) (files : List String) : Outcome (List String) := do
  let lo ← required c.int (key "minimum") f
  let hi ← required c.int (key "maximum") f
  let fmt ← required c.str (key "format") f
  Sampling.parseFilenames (c.format fmt) lo hi files

/-- The files named by the entry `e` of a tag (`src/main_workflow.cpp:399-410`). -/
def entryFiles (c : Conv) (e : Node) : Outcome (List String) := do
  let files ← option c.strs (key "snapshot_files") [] e
  match ← find e (pieces '/' (key "snapshot_format")) with
  | none => .ok files
  | some f => formatted c f files

/-- The files named by the configuration (`src/main_workflow.cpp:385-411`). -/
def listedFiles (c : Conv) (tag : String) (cfg : Node) : Outcome (List String) := do
  match ← find cfg (pieces '/' (key "basis/tags")) with
  | none => .ok []
  | some l => do
    match ← lookUp c.str (key "name") tag l with
    | none => .ok []
    | some e => entryFiles c e

/-- `FindSnapshotFilesForBasis` (`src/main_workflow.cpp:383-415`); `tag` is `basis_tag.print()`. -/
def snapshotFiles (c : Conv) (tag dflt : String) (cfg : Node) : Outcome (List String) := do
  let l ← listedFiles c tag cfg
  return (if l.length = 0 then l ++ [dflt] else l)

end Verif.Options
