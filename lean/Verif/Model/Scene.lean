import Verif.Model.Mesh
import Mathlib.Data.Int.Log
import Mathlib.Algebra.Order.Round

/-!
Model of src/scenegraph/colladabuilder.cpp, src/scenegraph/scenebuilder.cpp,
src/scenegraph/colladascenebuilder.cpp and almath/geometrics/shapes3d.h: scenes of meshes written as
Collada documents.

Simplifications. `boost::property_tree::ptree` is trusted and modelled by a tree whose nodes have a
text and named children in document order; a path such as `a.b` is the list of its keys. A text made
of numbers is represented by the list of these numbers, each rounded to the six significant digits
that are written (`sig6`); how ties are rounded, and the conversion of large integers to `float`
before that, are not modelled. A reference to a node that was just added is modelled by its position.
The text of the document (`write_xml`) is not modelled.
-/

namespace AlMath.Collada

/-- The number written by a stream with the default precision of six significant digits
(src/scenegraph/colladabuilder.cpp:15). -/
noncomputable def sig6 (x : ℝ) : ℝ :=
  if x = 0 then 0 else round (x / 10 ^ (Int.log 10 |x| - 5)) * 10 ^ (Int.log 10 |x| - 5)

/-- The text of a node of a `ptree` (almath/scenegraph/colladabuilder.h:30). -/
inductive Data where
  | str (s : String)
  | int (n : ℤ)
  | nums (l : List ℝ)

/-- `boost::property_tree::ptree` (almath/scenegraph/colladabuilder.h:30). -/
inductive Tree where
  | node (data : Data) (children : List (String × Tree))

namespace Tree

/-- The text of a node (`ptree::data`, almath/scenegraph/colladabuilder.h:30). -/
def data : Tree → Data
  | node d _ => d

/-- The children of a node (`begin`, `end` of a `ptree`, almath/scenegraph/colladabuilder.h:30). -/
def children : Tree → List (String × Tree)
  | node _ c => c

/-- `ptree()` (src/scenegraph/colladabuilder.cpp:26). -/
def empty : Tree := node (.str "") []

/-- Edition of the first child with a name, which is added if missing (one step of `put`,
src/scenegraph/colladabuilder.cpp:27). -/
def putChild (key : String) (f : Tree → Tree) : List (String × Tree) → List (String × Tree)
  | [] => [(key, f empty)]
  | c :: l => if c.1 = key then (c.1, f c.2) :: l else c :: putChild key f l

/-- `ptree::put` (src/scenegraph/colladabuilder.cpp:27-28): sets the text at a path, which is
created if missing. -/
def put : List String → Data → Tree → Tree
  | [], d, t => node d t.children
  | k :: path, d, t => node t.data (putChild k (put path d) t.children)

/-- `ptree::add_child` with a single key (src/scenegraph/colladabuilder.cpp:31). -/
def addChild (key : String) (c : Tree) (t : Tree) : Tree := node t.data (t.children ++ [(key, c)])

/-- Edition of the first child with a name (one step of `get_child`,
src/scenegraph/colladabuilder.cpp:45). -/
def editChild (key : String) (f : Tree → Res Tree) : List (String × Tree) → Res (List (String × Tree))
  | [] => .throws
  | c :: l =>
    if c.1 = key then (f c.2).map fun t => (c.1, t) :: l
    else (editChild key f l).map fun l' => c :: l'

/-- Edition of the node at a path through the reference given by `get_child`, which throws if there is
none (src/scenegraph/colladabuilder.cpp:45). -/
def edit : List String → (Tree → Res Tree) → Tree → Res Tree
  | [], f, t => f t
  | k :: path, f, t => (editChild k (edit path f) t.children).map (node t.data)

end Tree

open Tree

/-- src/scenegraph/colladabuilder.cpp:11-17 (`toString` of floats). -/
noncomputable def toText (data : List ℝ) : Data := .nums (data.map sig6)

/-- src/scenegraph/colladabuilder.cpp:11-17 (`toString` of sizes: the iterator converts them to
`float`, line 15). -/
noncomputable def toTextNat (data : List ℕ) : Data := .nums (data.map fun n : ℕ => sig6 (n : ℝ))

/-- almath/scenegraph/scenebuilder.h:58-62 (`SceneBuilder::Color`). -/
structure Color where
  r : ℝ
  g : ℝ
  b : ℝ
  a : ℝ

/-- almath/scenegraph/scenebuilder.h:66-72 (`SceneBuilder::Config`). -/
structure SceneConfig where
  color : Color
  nbArcVertices : ℤ

/-- almath/scenegraph/scenebuilder.h:60, 68 (the default `Config`). -/
noncomputable def SceneConfig.default : SceneConfig := ⟨⟨0.5, 0.5, 0.5, 0.5⟩, 2⟩

/-- A 4x4 matrix by rows (`Eigen::Affine3f::matrix`, src/scenegraph/colladabuilder.cpp:59). -/
abbrev Affine := Matrix (Fin 4) (Fin 4) ℝ

/-- The coefficients row by row (`format` with `fmt`, src/scenegraph/colladabuilder.cpp:56-59). -/
def rowMajor (m : Affine) : List ℝ := (List.finRange 4).flatMap fun i => (List.finRange 4).map (m i)

/-- src/scenegraph/colladabuilder.cpp:22-32 (`addEffectColor`). -/
noncomputable def addEffectColor (id : String) (c : Color) (parent : Tree) : Tree :=
  let effect := put ["<xmlattr>", "id"] (.str id) .empty
  let effect := put ["profile_COMMON", "technique", "phong", "diffuse", "color"]
    (toText [c.r, c.g, c.b, c.a]) effect
  addChild "effect" effect parent

/-- src/scenegraph/colladabuilder.cpp:34-40 (`addMaterial`). -/
def addMaterial (id effectId : String) (parent : Tree) : Tree :=
  let material := put ["<xmlattr>", "id"] (.str id) .empty
  let material := put ["instance_effect", "<xmlattr>", "url"] (.str ("#" ++ effectId)) material
  addChild "material" material parent

/-- src/scenegraph/colladabuilder.cpp:41-47 (`addMaterialEffectColor`). -/
noncomputable def addMaterialEffectColor (c : Color) (id : String) (root : Tree) : Res Tree :=
  (edit ["COLLADA", "library_effects"] (fun t => .ok (addEffectColor (id ++ "-fx") c t)) root).bind
    (edit ["COLLADA", "library_materials"] fun t => .ok (addMaterial id (id ++ "-fx") t))

/-- src/scenegraph/colladabuilder.cpp:49-63 (`createNode`). -/
noncomputable def createNode (id : String) (tf : Affine) : Tree :=
  let node := if id ≠ "" then put ["<xmlattr>", "id"] (.str id) .empty else .empty
  put ["matrix"] (toText (rowMajor tf)) node

/-- src/scenegraph/colladabuilder.cpp:65-70 (`addVisualScene`). -/
def addVisualScene (id : String) (parent : Tree) : Tree :=
  addChild "visual_scene" (put ["<xmlattr>", "id"] (.str id) .empty) parent

/-- src/scenegraph/colladabuilder.cpp:72-77 (`addInstanceVisualScene`). -/
def addInstanceVisualScene (sceneId : String) (parent : Tree) : Tree :=
  addChild "instance_visual_scene" (put ["<xmlattr>", "url"] (.str ("#" ++ sceneId)) .empty) parent

/-- src/scenegraph/colladabuilder.cpp:101-107 (the loop over the names of the coordinates). -/
def addParams : List String → Tree → Tree
  | [], accessor => accessor
  | name :: names, accessor =>
    let param := put ["<xmlattr>", "name"] (.str name) .empty
    let param := put ["<xmlattr>", "type"] (.str "float") param
    addParams names (addChild "param" param accessor)

/-- src/scenegraph/colladabuilder.cpp:85-112 (`addSourceXYZ`). -/
noncomputable def addSourceXYZ (data : List ℝ) (id : String) (parent : Tree) : Tree :=
  let source := put ["<xmlattr>", "id"] (.str id) .empty
  let floatArray := Tree.node (toText data) []
  let floatArray := put ["<xmlattr>", "count"] (.int data.length) floatArray
  let floatArray := put ["<xmlattr>", "id"] (.str (id ++ "_array")) floatArray
  let source := addChild "float_array" floatArray source
  let accessor := put ["<xmlattr>", "count"] (.int (data.length / 3 : ℕ)) .empty
  let accessor := put ["<xmlattr>", "source"] (.str ("#" ++ id ++ "_array")) accessor
  let accessor := put ["<xmlattr>", "stride"] (.int 3) accessor
  let accessor := addParams ["X", "Y", "Z"] accessor
  let technique := addChild "accessor" accessor .empty
  let source := addChild "technique_common" technique source
  addChild "source" source parent

/-- src/scenegraph/colladabuilder.cpp:114-123 (`addInput`). -/
def addInput (semantic sourceId : String) (offset : ℤ) (parent : Tree) : Tree :=
  let input := put ["<xmlattr>", "semantic"] (.str semantic) .empty
  let input := put ["<xmlattr>", "source"] (.str ("#" ++ sourceId)) input
  let input := put ["<xmlattr>", "offset"] (.int offset) input
  addChild "input" input parent

/-- src/scenegraph/colladabuilder.cpp:125-163 (`addGeometryMesh`). The offsets of the position and of
the normal are 0 and 1 (almath/scenegraph/mesh.h:99, 101). -/
noncomputable def addGeometryMesh (id : String) (m : Mesh) (parent : Tree) : Res Tree :=
  if m.withTexCoords then .ub
  else
    let geometry := put ["<xmlattr>", "id"] (.str id) .empty
    let mesh := Tree.empty
    let mesh := addSourceXYZ m.positions (id ++ "_positions") mesh
    let mesh := addSourceXYZ m.normals (id ++ "_normals") mesh
    let vertices := put ["<xmlattr>", "id"] (.str (id ++ "_vertices")) .empty
    let vertices := addInput "POSITION" (id ++ "_positions") 0 vertices
    let mesh := addChild "vertices" vertices mesh
    let polylist := put ["<xmlattr>", "count"] (.int m.vcounts.length) .empty
    let polylist := put ["<xmlattr>", "material"] (.str "material") polylist
    let polylist := addInput "VERTEX" (id ++ "_vertices") 0 polylist
    let polylist := addInput "NORMAL" (id ++ "_normals") 1 polylist
    let polylist := addChild "vcount" (.node (toTextNat m.vcounts) []) polylist
    let polylist := addChild "p" (.node (toTextNat m.vertices) []) polylist
    let mesh := addChild "polylist" polylist mesh
    let geometry := addChild "mesh" mesh geometry
    .ok (addChild "geometry" geometry parent)

/-- src/scenegraph/colladabuilder.cpp:165-177 (`addInstanceGeometry`). -/
def addInstanceGeometry (geometryId materialId : String) (parent : Tree) : Tree :=
  let instance_ := put ["<xmlattr>", "url"] (.str ("#" ++ geometryId)) .empty
  let instance_ := put ["bind_material", "technique_common", "instance_material", "<xmlattr>", "symbol"]
    (.str "material") instance_
  let instance_ := put ["bind_material", "technique_common", "instance_material", "<xmlattr>", "target"]
    (.str ("#" ++ materialId)) instance_
  addChild "instance_geometry" instance_ parent

/-- src/scenegraph/colladabuilder.cpp:179-209 (`createDoc`). -/
def createDoc : Tree :=
  let collada := put ["<xmlattr>", "xmlns"] (.str "http://www.collada.org/2005/11/COLLADASchema") .empty
  let collada := put ["<xmlattr>", "version"] (.str "1.4.1") collada
  let asset := put ["created"] (.str "2010-10-09T17:00:00") .empty
  let asset := put ["modified"] (.str "2010-10-09T17:00:00") asset
  let unit := put ["<xmlattr>", "meter"] (.str "1") .empty
  let unit := put ["<xmlattr>", "name"] (.str "meter") unit
  let asset := addChild "unit" unit asset
  let collada := addChild "asset" asset collada
  let collada := put ["library_effects"] (.str "") collada
  let collada := put ["library_materials"] (.str "") collada
  let collada := put ["library_geometries"] (.str "") collada
  let collada := put ["library_nodes"] (.str "") collada
  let collada := put ["library_visual_scenes"] (.str "") collada
  let collada := put ["scene"] (.str "") collada
  addChild "COLLADA" collada .empty

/-- src/scenegraph/colladascenebuilder.cpp:23-37 (`ColladaSceneBuilderP`), with the configuration its
owner keeps (almath/scenegraph/scenebuilder.h:93). The members `library_geometries` and `visual_scene`
are references into `xml`: `library_geometries` and `visualScene` below give their positions. The
counter `id` is an `int` that is never negative. -/
structure Scene where
  config : SceneConfig
  id : ℕ
  xml : Tree

/-- src/scenegraph/colladascenebuilder.cpp:43 (position of `library_geometries`). -/
def libraryGeometries : List String := ["COLLADA", "library_geometries"]

/-- src/scenegraph/colladascenebuilder.cpp:44-45, 57-59 (position of `visual_scene`). -/
def visualScene : List String := ["COLLADA", "library_visual_scenes", "visual_scene"]

/-- src/scenegraph/colladascenebuilder.cpp:39-49 (constructor; the names are those of lines 18-19). -/
noncomputable def Scene.new (config : SceneConfig) : Res Scene :=
  (edit libraryGeometries .ok createDoc).bind fun xml =>
    (edit ["COLLADA", "library_visual_scenes"] (fun t => .ok (addVisualScene "myscene" t)) xml).bind
      fun xml =>
        (addMaterialEffectColor config.color "mymaterial" xml).bind fun xml =>
          (edit ["COLLADA", "scene"] (fun t => .ok (addInstanceVisualScene "myscene" t)) xml).map
            fun xml => ⟨config, 0, xml⟩

/-- src/scenegraph/colladascenebuilder.cpp:51-60, 65-67 (copy constructors; also the assignment of
lines 69-78). The copy finds its own references with `get_child`. -/
def Scene.copy (s : Scene) : Res Scene :=
  (edit libraryGeometries .ok s.xml).bind fun xml =>
    (edit visualScene .ok xml).map fun xml => { s with xml := xml }

/-- src/scenegraph/colladascenebuilder.cpp:82-89 (`xAddMesh`), with the scene after the call. The node
is edited after it was added (line 88); here it is completed first. -/
noncomputable def Scene.xAddMesh (mesh : Mesh) (tf : Affine) (s : Scene) : Res Unit × Scene :=
  if s.id = 2147483647 then (.ub, s)
  else
    let geometryId := "mesh" ++ toString s.id
    let s := { s with id := s.id + 1 }
    match edit libraryGeometries (addGeometryMesh geometryId mesh) s.xml with
    | .throws => (.throws, s)
    | .ub => (.ub, s)
    | .ok xml =>
      let s := { s with xml := xml }
      let node := addInstanceGeometry geometryId "mymaterial" (createNode "" tf)
      match edit visualScene (fun t => .ok (addChild "node" node t)) s.xml with
      | .throws => (.throws, s)
      | .ub => (.ub, s)
      | .ok xml => (.ok (), { s with xml := xml })

/-- src/scenegraph/scenebuilder.cpp:37-43 (`add` of a mesh with an `Eigen::Affine3f`). -/
noncomputable def Scene.addMesh (mesh : Mesh) (tf : Affine) (s : Scene) : Res Unit × Scene :=
  if mesh.withTexCoords then (.throws, s) else s.xAddMesh mesh tf

/-- src/scenegraph/scenebuilder.cpp:46-47 (`Eigen::Affine3f` of a transform: the twelve fields by rows,
completed by Eigen with the row 0 0 0 1). -/
noncomputable def affineOf (t : Transform) : Affine :=
  !![t.r11, t.r12, t.r13, t.r14; t.r21, t.r22, t.r23, t.r24; t.r31, t.r32, t.r33, t.r34; 0, 0, 0, 1]

/-- src/scenegraph/scenebuilder.cpp:45-48 (`add` of a mesh with a `Math::Transform`). -/
noncomputable def Scene.addMeshTf (mesh : Mesh) (tf : Transform) (s : Scene) : Res Unit × Scene :=
  s.xAddMesh mesh (affineOf tf)

/-- src/scenegraph/scenebuilder.cpp:51-53, 58-60, 64-66 (adding the rounded box made for a shape). -/
noncomputable def Scene.addRoundedBox (hx hy hz radius : ℝ) (tf : Transform) (s : Scene) :
    Res Unit × Scene :=
  match createRoundedBoxMesh hx hy hz radius s.config.nbArcVertices with
  | .ok m => s.addMeshTf m tf
  | .throws => (.throws, s)
  | .ub => (.ub, s)

/-- almath/geometrics/shapes3d.h:26-97 (`Shape3D` and the classes derived from it). -/
inductive Shape where
  | pill (halfExtent radius : ℝ)
  | sphere (radius : ℝ)
  | roundedRectangle (halfExtentX halfExtentY radius : ℝ)
  | plane
  | halfSpace
  | rectangle (halfExtentX halfExtentY : ℝ)
  | halfLine

/-- src/scenegraph/scenebuilder.cpp:50-54 (`add` of a sphere). -/
noncomputable def Scene.addSphere (radius : ℝ) (tf : Transform) (s : Scene) : Res Unit × Scene :=
  s.addRoundedBox 0 0 0 radius tf

/-- src/scenegraph/scenebuilder.cpp:56-61 (`add` of a rounded rectangle). -/
noncomputable def Scene.addRoundedRectangle (halfExtentX halfExtentY radius : ℝ) (tf : Transform)
    (s : Scene) : Res Unit × Scene :=
  s.addRoundedBox halfExtentX halfExtentY 0 radius tf

/-- src/scenegraph/scenebuilder.cpp:63-67 (`add` of a pill). -/
noncomputable def Scene.addPill (halfExtent radius : ℝ) (tf : Transform) (s : Scene) :
    Res Unit × Scene :=
  s.addRoundedBox 0 0 halfExtent radius tf

/-- src/scenegraph/scenebuilder.cpp:69-72 (`add` of a shape), with the visitor of lines 14-27 and
`NotImplementedShape3DVisitor` (almath/geometrics/shapes3d.h:111-140), which throws. -/
noncomputable def Scene.addShape (shape : Shape) (tf : Transform) (s : Scene) : Res Unit × Scene :=
  match shape with
  | .pill h r => s.addPill h r tf
  | .sphere r => s.addSphere r tf
  | .roundedRectangle x y r => s.addRoundedRectangle x y r tf
  | .plane => (.throws, s)
  | .halfSpace => (.throws, s)
  | .rectangle _ _ => (.throws, s)
  | .halfLine => (.throws, s)

end AlMath.Collada
