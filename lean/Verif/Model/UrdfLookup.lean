import Verif.Model.UrdfXml

/-!
The elements of a `RobotTree` looked up by name, and what a caller writes through the references. Same simplifications as in
Model/UrdfXml.lean.
-/

namespace AlMath.UrdfXml.XTree

/-- src/scenegraph/urdf.cpp:727-729 (`RobotTree::link`, const): `at` throws if there is no such link. -/
def linkAt (x : XTree) (name : String) : Res Node :=
  match x.link name with
  | some n => .ok n
  | none => .throws

/-- src/scenegraph/urdf.cpp:734-737 (`RobotTree::joint`, const), with `checked_find` (46-58), which throws if there is no
such joint. -/
def jointAt (x : XTree) (name : String) : Res Node :=
  match x.joint name with
  | some n => .ok n
  | none => .throws

/-- src/scenegraph/urdf.cpp:730-732 (`RobotTree::link`, not const), followed by the assignment of an element to the
returned reference. -/
def writeLink (x : XTree) (name : String) (n : Node) : Res Unit × XTree :=
  match x.link name with
  | some _ => (.ok (), { x with doc := setEl "link" name n x.doc })
  | none => (.throws, x)

/-- src/scenegraph/urdf.cpp:738-741 (`RobotTree::joint`, not const), followed by the assignment of an element to the
returned reference. The index does not see the assignment. -/
def writeJoint (x : XTree) (name : String) (n : Node) : Res Unit × XTree :=
  match x.joint name with
  | some _ => (.ok (), { x with doc := setEl "joint" name n x.doc })
  | none => (.throws, x)

/-- src/scenegraph/urdf.cpp:743 (`RobotTree::root_link`). -/
def rootLink (x : XTree) : String := x.root

end AlMath.UrdfXml.XTree
