import Verif.Config.Model

/-! # What it means for a document to have a value at a path -/

namespace Blackhole.Config

/-- `doc` has the value `v` at path `p`: an index selects an array's item; a key selects the first member of an
object with that name. -/
inductive HasAt : Json → List Step → Json → Prop
  | here (v : Json) : HasAt v [] v
  | idx {items : List Json} {i : Nat} {x v : Json} {p : List Step} :
      items[i]? = some x → HasAt x p v → HasAt (.arr items) (.idx i :: p) v
  | key {before after : List (Str × Json)} {k : Str} {x v : Json} {p : List Step} :
      (∀ m ∈ before, m.1 ≠ k) → HasAt x p v → HasAt (.obj (before ++ (k, x) :: after)) (.key k :: p) v

/-- A path as it is shown in errors. -/
def shown : List Step → Str
  | [] => []
  | .key k :: p => '/' :: k ++ shown p
  | .idx i :: p => '/' :: Nat.toDigits 10 i ++ shown p

/-- The same, with "/" for the document itself. -/
def cursorOf (p : List Step) : Str := if p = [] then ch! "/" else shown p

/-- No key of the path contains NUL. -/
def Plain (p : List Step) : Prop := ∀ k, Step.key k ∈ p → '\x00' ∉ k

/-- The names of the types of JSON. -/
def kindName : Json → Str
  | .arr _ => ['a', 'r', 'r', 'a', 'y']
  | .obj _ => ['o', 'b', 'j', 'e', 'c', 't']
  | .str _ => ['s', 't', 'r', 'i', 'n', 'g']
  | .bool _ => ['b', 'o', 'o', 'l']
  | .null => ['n', 'u', 'l', 'l']
  | .int _ | .double _ => ['n', 'u', 'm', 'b', 'e', 'r']

/-- The error for a value at path `p` that does not have the type asked for. -/
def wrongType (p : List Step) (v : Json) (asked : Str) : Mismatch :=
  { cursor := cursorOf p, expected := asked, actual := kindName v }

end Blackhole.Config
