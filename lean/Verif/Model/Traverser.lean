import Verif.Model.Urdf
import Verif.Model.Builder

/-!
Model of src/scenegraph/urdfrigidbodysystemtraverser.cpp: building a rigid body system from a robot
description.

Simplifications. The XML parser is not modelled: the document is given as the list of the children
of its `robot` element. Numbers of `inertial` elements are taken to be well formed, as in
`Verif.Model.Urdf`.
-/

namespace AlMath.Urdf

open Builder

/-- `Math::toEigenTransform` (src/scenegraph/urdfrigidbodysystemtraverser.cpp:63, 92). -/
noncomputable def toPose (p : UPose) : Pose :=
  ⟨(toEigenTransform p).linear, (toEigenTransform p).translation⟩

/-- src/scenegraph/urdfrigidbodysystemtraverser.cpp:47-49 (the mass of a body). -/
noncomputable def bodyMass (i : UInertial) : Res BodyMass :=
  (UPose.fromPtree i.origin).map fun p =>
    let r := urdfInertialToEigen p i.data
    ⟨r.1, r.2.1, r.2.2⟩

/-- src/scenegraph/urdfrigidbodysystemtraverser.cpp:40-55 (`_discover`). -/
noncomputable def discoverLink {σ : Type} (b : Interface σ) (s : σ) (parentLink linkName : String)
    (origin : Pose) (type : JointType) (link : ULink) (jointName : Option String) : Res Bool × σ :=
  match link.inertials with
  | [] => (.ok false, s)
  | i :: _ =>
    match bodyMass i with
    | .throws => (.throws, s)
    | .ub => (.ub, s)
    | .ok mass =>
      let r := match jointName with
        | some n => b.add s parentLink linkName origin type mass n
        | none => b.addUnnamed s parentLink linkName origin type mass
      (r.1.map fun _ => true, r.2)

open Classical in
/-- src/scenegraph/urdfrigidbodysystemtraverser.cpp:69-85 (the type of a joint that turns). The axis
is (1, 0, 0) when missing (src/scenegraph/urdf.cpp:217-221). -/
noncomputable def turningType (axis : Option Array3d) : Res JointType :=
  let axis := axis.getD ![1, 0, 0]
  if axis = ![1, 0, 0] then .ok .rx
  else if axis = ![0, 1, 0] then .ok .ry
  else if axis = ![0, 0, 1] then .ok .rz
  else .throws

/-- src/scenegraph/urdfrigidbodysystemtraverser.cpp:66-90 (the rest of the switch of `discover`, for a
joint that is not fixed). -/
noncomputable def movingType (j : UJoint) : Res JointType :=
  match j.type with
  | none => .throws
  | some .fixed => .throws
  | some .prismatic => .throws
  | some .planar => .throws
  | some .revolute => turningType j.axis
  | some .continuous => turningType j.axis
  | some .floating => .ok .freeFlyer

/-- src/scenegraph/urdfrigidbodysystemtraverser.cpp:57-95 (`discover`), which ignores the result of
`_discover`; `finish` is that of `JointConstVisitor`, almath/scenegraph/urdf.h:245. -/
noncomputable def buildVisitor {σ : Type} (b : Interface σ) (t : Tree) : Visitor σ where
  discover j s :=
    if j.type = some .fixed then
      match UPose.fromPtree j.origin with
      | .throws => (.throws, s)
      | .ub => (.ub, s)
      | .ok p =>
        let r := b.addFrame s j.parent j.child (toPose p) j.name
        (r.1.map fun _ => true, r.2)
    else
      match movingType j with
      | .throws => (.throws, s)
      | .ub => (.ub, s)
      | .ok ty =>
        match UPose.fromPtree j.origin with
        | .throws => (.throws, s)
        | .ub => (.ub, s)
        | .ok p =>
          match t.findLink j.child with
          | none => (.throws, s)
          | some l =>
            let r := discoverLink b s j.parent j.child (toPose p) ty l (some j.name)
            (r.1.map fun _ => true, r.2)
  finish _ s := (.ok (), s)

/-- src/scenegraph/urdfrigidbodysystemtraverser.cpp:101-103 (the edition of the tree). -/
noncomputable def prepare (n : ℕ) (removeRootJoint makeContinuousFixed : Bool) (t : Tree) :
    Option (Res Unit × Tree) :=
  let r1 : Res Unit × Tree := if removeRootJoint then t.rmRootJoint else (.ok (), t)
  match r1 with
  | (.throws, t1) => some (.throws, t1)
  | (.ub, t1) => some (.ub, t1)
  | (.ok (), t1) =>
    let r2 : Option (Res Unit × Tree) :=
      if makeContinuousFixed then (makeContinuousJointsFixed n t1).map fun r => (r.1, r.2.1)
      else some (.ok (), t1)
    match r2 with
    | some (.ok (), t2) => (makeMasslessJointsFixed n t2).map fun r => (r.1, r.2.1)
    | r => r

/-- src/scenegraph/urdfrigidbodysystemtraverser.cpp:104-108 (the calls to the builder). -/
noncomputable def buildFromTree {σ : Type} (b : Interface σ) (n : ℕ) (t : Tree) (s : σ) :
    Option (Res Unit × σ) :=
  match t.findLink t.root with
  | none => some (.throws, s)
  | some l =>
    match discoverLink b s "" t.root ⟨1, 0⟩ .freeFlyer l none with
    | (.ok _, s1) => traverseJoints (buildVisitor b t) t n s1
    | (.throws, s1) => some (.throws, s1)
    | (.ub, s1) => some (.ub, s1)

/-- src/scenegraph/urdfrigidbodysystemtraverser.cpp:97-109 (`buildRigidBodySystemFromUrdf`). The
number bounds the depth of the recursions. -/
noncomputable def buildFromUrdf {σ : Type} (b : Interface σ) (n : ℕ) (doc : List Elem)
    (removeRootJoint makeContinuousFixed : Bool) (s : σ) : Option (Res Unit × σ) :=
  match load doc with
  | .throws => some (.throws, s)
  | .ub => some (.ub, s)
  | .ok t =>
    match prepare n removeRootJoint makeContinuousFixed t with
    | none => none
    | some (.throws, _) => some (.throws, s)
    | some (.ub, _) => some (.ub, s)
    | some (.ok (), t') => buildFromTree b n t' s

end AlMath.Urdf
