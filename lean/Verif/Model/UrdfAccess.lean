import Verif.Model.UrdfXml

/-!
Model of the wrappers of src/scenegraph/urdf.cpp around the elements of a robot description: `Mimic`,
`Joint`, `Inertial`, `Box`, `Cylinder`, `Sphere`, `Mesh`, `Visual` and `Link`. A wrapper is its element.

Same simplifications as in Model/UrdfXml.lean.
-/

namespace AlMath.UrdfXml

open AlMath.Urdf

/-- `get` without default value (src/scenegraph/urdf.cpp:172, 191, 253): it throws when nothing can be
read. -/
def mandatory {α : Type} : Option α → Res α
  | some a => .ok a
  | none => .throws

namespace Mimic

/-- src/scenegraph/urdf.cpp:171-173 (`Mimic::joint`). -/
def joint (n : Node) : Res String := mandatory (n.getStr ["<xmlattr>", "joint"])

/-- src/scenegraph/urdf.cpp:175-180 (`Mimic::multiplier`). -/
def multiplier (n : Node) : Res ℝ :=
  match n.get ["<xmlattr>", "multiplier"] with
  | some c => mandatory c.text.num
  | none => .ok 1

/-- src/scenegraph/urdf.cpp:182-187 (`Mimic::offset`). -/
def offset (n : Node) : Res ℝ :=
  match n.get ["<xmlattr>", "offset"] with
  | some c => mandatory c.text.num
  | none => .ok 0

end Mimic

namespace Joint

/-- src/scenegraph/urdf.cpp:190-192 (`Joint::name`). -/
def name (n : Node) : Res String := mandatory n.name

/-- src/scenegraph/urdf.cpp:194-203 (`Joint::type`). -/
def type (n : Node) : Res JType := mandatory n.type

/-- src/scenegraph/urdf.cpp:205-207 (`Joint::parent_link`). -/
def parentLink (n : Node) : Res String := mandatory n.parentLink

/-- src/scenegraph/urdf.cpp:209-211 (`Joint::child_link`). -/
def childLink (n : Node) : Res String := mandatory n.childLink

/-- src/scenegraph/urdf.cpp:213-215 (`Joint::origin`), also `Inertial::origin` and `Visual::origin`
(src/scenegraph/urdf.cpp:249-251, 304-306). -/
def origin (n : Node) : Res UPose := UPose.fromPtree n.origin

/-- src/scenegraph/urdf.cpp:217-221 (`Joint::axis`). -/
def axis (n : Node) : Array3d := (n.getVec ["axis", "<xmlattr>", "xyz"]).getD ![1, 0, 0]

/-- src/scenegraph/urdf.cpp:223-231 (`Joint::limit_lower_upper`). -/
def limitLowerUpper (n : Node) : Option (ℝ × ℝ) :=
  let lower := n.getNum ["limit", "<xmlattr>", "lower"]
  let upper := n.getNum ["limit", "<xmlattr>", "upper"]
  if lower.isSome || upper.isSome then some (lower.getD 0, upper.getD 0) else none

/-- src/scenegraph/urdf.cpp:233-235 (`Joint::limit_effort`). -/
def limitEffort (n : Node) : Option ℝ := n.getNum ["limit", "<xmlattr>", "effort"]

/-- src/scenegraph/urdf.cpp:237-239 (`Joint::limit_velocity`). -/
def limitVelocity (n : Node) : Option ℝ := n.getNum ["limit", "<xmlattr>", "velocity"]

/-- src/scenegraph/urdf.cpp:241-245 (`Joint::mimic`). -/
def mimic (n : Node) : Option Node := n.get ["mimic"]

end Joint

/-- src/scenegraph/urdf.cpp:271-273 (`Box::size`). -/
def boxSize (n : Node) : Res Array3d := mandatory (n.getVec ["<xmlattr>", "size"])

/-- src/scenegraph/urdf.cpp:277-279, 287-289 (`Cylinder::radius`, `Sphere::radius`). -/
def radius (n : Node) : Res ℝ := mandatory (n.getNum ["<xmlattr>", "radius"])

/-- src/scenegraph/urdf.cpp:281-283 (`Cylinder::length`). -/
def cylinderLength (n : Node) : Res ℝ := mandatory (n.getNum ["<xmlattr>", "length"])

/-- src/scenegraph/urdf.cpp:293-295 (`Mesh::filename`). -/
def meshFilename (n : Node) : Res String := mandatory (n.getStr ["<xmlattr>", "filename"])

/-- src/scenegraph/urdf.cpp:297-301 (`Mesh::scale`). -/
def meshScale (n : Node) : Array3d := (n.getVec ["<xmlattr>", "scale"]).getD ![1, 1, 1]

/-- almath/scenegraph/urdf.h:391 (`Geometry`). -/
inductive Geometry where
  | box (n : Node)
  | cylinder (n : Node)
  | sphere (n : Node)
  | mesh (n : Node)

/-- src/scenegraph/urdf.cpp:308-321 (`Visual::geometry`). -/
def geometry (n : Node) : Res Geometry :=
  match n.get ["geometry"] with
  | none => .throws
  | some g =>
    match g.get ["box"] with
    | some c => .ok (.box c)
    | none =>
      match g.get ["cylinder"] with
      | some c => .ok (.cylinder c)
      | none =>
        match g.get ["sphere"] with
        | some c => .ok (.sphere c)
        | none =>
          match g.get ["mesh"] with
          | some c => .ok (.mesh c)
          | none => .throws

/-- src/scenegraph/urdf.cpp:331-335 (`Link::inertial`). -/
def linkInertial (n : Node) : Option Node := n.get ["inertial"]

/-- almath/scenegraph/urdf.h:411-427 (`Link::visuals`), with src/scenegraph/urdf.cpp:323-325
(`Visual::is_visual`). -/
def linkVisuals (n : Node) : List Node := (n.children.filter fun c => c.1 = "visual").map Prod.snd

end AlMath.UrdfXml
