import Verif.Model.Scene
import Verif.Props.C43

/-!
A reader of Collada documents, written from the format and independently of the code that writes
them. Not in /repo: specification.
-/

namespace AlMath.Spec.Collada

open AlMath.Collada

/-- The children of an element with a given name. Not in /repo: specification. -/
def kids (key : String) (t : Tree) : List Tree :=
  (t.children.filter fun c => c.1 = key).map fun c => c.2

/-- The child with a given name, if there is exactly one. Not in /repo: specification. -/
def child (key : String) (t : Tree) : Option Tree :=
  match kids key t with
  | [c] => some c
  | _ => none

/-- The element at a path. Not in /repo: specification. -/
def descend : List String → Tree → Option Tree
  | [], t => some t
  | k :: path, t => (child k t).bind (descend path)

/-- The value of an attribute. Not in /repo: specification. -/
def attr (key : String) (t : Tree) : Option Data :=
  (descend ["<xmlattr>", key] t).map Tree.data

/-- An attribute that is a text. Not in /repo: specification. -/
def strAttr (key : String) (t : Tree) : Option String :=
  match attr key t with
  | some (.str s) => some s
  | _ => none

/-- An attribute that is an integer. Not in /repo: specification. -/
def intAttr (key : String) (t : Tree) : Option ℤ :=
  match attr key t with
  | some (.int n) => some n
  | _ => none

/-- The numbers of an element. Not in /repo: specification. -/
def numbers (t : Tree) : Option (List ℝ) :=
  match t.data with
  | .nums l => some l
  | _ => none

open Classical in
/-- A number read as a natural number. Not in /repo: specification. -/
noncomputable def asNat (x : ℝ) : Option ℕ := if x = ⌊x⌋₊ then some ⌊x⌋₊ else none

/-- The natural numbers of an element. Not in /repo: specification. -/
noncomputable def naturals (t : Tree) : Option (List ℕ) := (numbers t).bind fun l => l.mapM asNat

mutual
/-- The elements of a document with an identifier, at any depth. Not in /repo: specification. -/
def identified : Tree → List (String × Tree)
  | .node d c =>
    (match strAttr "id" (.node d c) with
      | some s => [(s, .node d c)]
      | none => []) ++ identifiedIn c
/-- The same for a list of elements. Not in /repo: specification. -/
def identifiedIn : List (String × Tree) → List (String × Tree)
  | [] => []
  | (_, t) :: l => identified t ++ identifiedIn l
end

/-- The element designated by a reference `#id`: there must be exactly one with this identifier in the
document. Not in /repo: specification. -/
def resolve (doc : Tree) (url : String) : Option Tree :=
  match (identified doc).filter fun e => url = "#" ++ e.1 with
  | [e] => some e.2
  | _ => none

/-- An `input`: the role of the data, where they are, and the offset of their index. Not in /repo:
specification. -/
structure Input where
  semantic : String
  source : String
  offset : ℤ

/-- The inputs of an element. Not in /repo: specification. -/
def inputs (t : Tree) : Option (List Input) :=
  (kids "input" t).mapM fun i => do
    let semantic ← strAttr "semantic" i
    let source ← strAttr "source" i
    let offset ← intAttr "offset" i
    return ⟨semantic, source, offset⟩

/-- The only input with a given role. Not in /repo: specification. -/
def inputFor (semantic : String) (l : List Input) : Option Input :=
  match l.filter fun i => i.semantic = semantic with
  | [i] => some i
  | _ => none

/-- The points or vectors of a source. Not in /repo: specification. -/
def readSource (doc : Tree) (url : String) : Option (List (ℝ × ℝ × ℝ)) := do
  let source ← resolve doc url
  let accessor ← descend ["technique_common", "accessor"] source
  let count ← intAttr "count" accessor
  let stride ← intAttr "stride" accessor
  let names ← (kids "param" accessor).mapM (strAttr "name")
  let types ← (kids "param" accessor).mapM (strAttr "type")
  guard (stride = 3 ∧ names = ["X", "Y", "Z"] ∧ types = ["float", "float", "float"])
  let array ← resolve doc (← strAttr "source" accessor)
  let l ← numbers array
  let size ← intAttr "count" array
  guard (size = l.length ∧ size = 3 * count)
  return (List.range count.toNat).map (triple l)

/-- The polygons of a `polylist`: for each, the position and the normal of its corners. Not in /repo:
specification. -/
noncomputable def readPolygons (doc polylist : Tree) :
    Option (List (List ((ℝ × ℝ × ℝ) × (ℝ × ℝ × ℝ)))) := do
  let ins ← inputs polylist
  let vertex ← inputFor "VERTEX" ins
  let normal ← inputFor "NORMAL" ins
  let vertices ← resolve doc vertex.source
  let position ← inputFor "POSITION" (← inputs vertices)
  let positions ← readSource doc position.source
  let normals ← readSource doc normal.source
  let count ← intAttr "count" polylist
  let vcount ← naturals (← child "vcount" polylist)
  let p ← naturals (← child "p" polylist)
  let stride := (ins.map fun i => i.offset.toNat).foldr max 0 + 1
  guard (count = vcount.length ∧ p.length = stride * vcount.sum)
  (splits vcount (blocks stride vcount.sum p)).mapM fun f => f.mapM fun v => do
    let i ← v[vertex.offset.toNat]?
    let j ← v[normal.offset.toNat]?
    let a ← positions[i]?
    let b ← normals[j]?
    return (a, b)

/-- The diffuse colour of a material. Not in /repo: specification. -/
def readMaterial (doc : Tree) (url : String) : Option (List ℝ) := do
  let material ← resolve doc url
  let effect ← resolve doc (← strAttr "url" (← child "instance_effect" material))
  numbers (← descend ["profile_COMMON", "technique", "phong", "diffuse", "color"] effect)

/-- What a node shows: polygons, where, and with which colour. Not in /repo: specification. -/
structure Shown where
  matrix : List ℝ
  polygons : List (List ((ℝ × ℝ × ℝ) × (ℝ × ℝ × ℝ)))
  color : List ℝ

/-- Reading of a node. Not in /repo: specification. -/
noncomputable def readNode (doc node : Tree) : Option Shown := do
  let matrix ← numbers (← child "matrix" node)
  let inst ← child "instance_geometry" node
  let geometry ← resolve doc (← strAttr "url" inst)
  let polylist ← descend ["mesh", "polylist"] geometry
  let polygons ← readPolygons doc polylist
  let material ← descend ["bind_material", "technique_common", "instance_material"] inst
  guard ((← strAttr "symbol" material) = (← strAttr "material" polylist))
  let color ← readMaterial doc (← strAttr "target" material)
  return ⟨matrix, polygons, color⟩

/-- What the scene of a document shows. Not in /repo: specification. -/
noncomputable def readScene (doc : Tree) : Option (List Shown) := do
  let inst ← descend ["COLLADA", "scene", "instance_visual_scene"] doc
  let scene ← resolve doc (← strAttr "url" inst)
  (kids "node" scene).mapM (readNode doc)

end AlMath.Spec.Collada
