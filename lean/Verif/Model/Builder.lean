import Verif.Basic
import Mathlib.Data.Finset.Insert
import Mathlib.Data.Real.Basic
import Mathlib.LinearAlgebra.Matrix.Notation

/-!
Model of almath/scenegraph/rigidbodysystembuilder.h: builders of rigid body systems and their
decorators.

Simplifications. A builder is any state with the three virtual functions; a call may throw, and may
change the state even then. Builders are parametrised by their scalar type, which is that
of exact numbers unless said otherwise. A cast between scalar types (`cast`, `Adapter`) is a function from
scalars to scalars. Messages of exceptions are dropped. `boost::format` in `joint_name` is an arbitrary
function from names to names.
-/

namespace AlMath.Builder

/-- almath/scenegraph/rigidbodysystembuilder.h:27 (`JointType`). -/
inductive JointType where
  | freeFlyer
  | rx
  | ry
  | rz
  deriving DecidableEq

/-- almath/scenegraph/rigidbodysystembuilder.h:29-40 (`Config`). `jointName` stands for
`joint_name`, lines 37-39. -/
structure Config where
  noStaticFrame : Bool
  jointName : String → String
  galileanFrame : String

/-- almath/scenegraph/bodymass.h:14-33 (`BodyMass`). -/
structure BodyMass (T : Type := ℝ) where
  mass : T
  centerOfMass : Fin 3 → T
  rotationalInertia : Matrix (Fin 3) (Fin 3) T

/-- `Eigen::Transform` (almath/scenegraph/rigidbodysystembuilder.h:45). -/
structure Pose (T : Type := ℝ) where
  linear : Matrix (Fin 3) (Fin 3) T
  translation : Fin 3 → T

/-- almath/scenegraph/rigidbodysystembuilder.h:42-63 (`LinkData`). -/
structure Link (T : Type := ℝ) where
  parentBody : String
  newBody : String
  newJoint : String
  poseParentNew : Pose T
  jointType : JointType
  bodyMass : BodyMass T

/-- almath/scenegraph/rigidbodysystembuilder.h:65-81 (`StaticFrameData`). -/
structure StaticFrame (T : Type := ℝ) where
  parentFrame : String
  newStaticFrame : String
  newStaticTransform : String
  poseParentNew : Pose T

/-- almath/scenegraph/rigidbodysystembuilder.h:84-98 (the virtual functions of `Interface`). -/
structure Interface (σ : Type) (T : Type := ℝ) where
  config : σ → Config
  addLink : σ → Link T → Res Unit × σ
  addStaticFrame : σ → StaticFrame T → Res Unit × σ

namespace Interface

variable {σ T : Type}

/-- almath/scenegraph/rigidbodysystembuilder.h:101-106 (`add` of a link). -/
def add (b : Interface σ T) (s : σ) (parentBody newBody : String) (pose : Pose T) (jointType : JointType)
    (mass : BodyMass T) (newJoint : String) : Res Unit × σ :=
  b.addLink s ⟨parentBody, newBody, newJoint, pose, jointType, mass⟩

/-- almath/scenegraph/rigidbodysystembuilder.h:107-112 (`add` of a link, the joint being named
after the body). -/
def addUnnamed (b : Interface σ T) (s : σ) (parentBody newBody : String) (pose : Pose T)
    (jointType : JointType) (mass : BodyMass T) : Res Unit × σ :=
  b.add s parentBody newBody pose jointType mass ((b.config s).jointName newBody)

/-- almath/scenegraph/rigidbodysystembuilder.h:115-120 (`add` of a static frame). -/
def addFrame (b : Interface σ T) (s : σ) (parentFrame newStaticFrame : String) (pose : Pose T)
    (newStaticTransform : String) : Res Unit × σ :=
  if (b.config s).noStaticFrame then (.ok (), s)
  else b.addStaticFrame s ⟨parentFrame, newStaticFrame, newStaticTransform, pose⟩

/-- almath/scenegraph/rigidbodysystembuilder.h:122-126 (`add` of a static frame, the transform
being named after the frame). -/
def addFrameUnnamed (b : Interface σ T) (s : σ) (parentFrame newStaticFrame : String) (pose : Pose T) :
    Res Unit × σ :=
  b.addFrame s parentFrame newStaticFrame pose ((b.config s).jointName newStaticFrame)

end Interface

namespace BodyMass

/-- almath/scenegraph/bodymass.h:27-31 (`BodyMass::cast`). -/
def cast {S T : Type} (f : S → T) (m : BodyMass S) : BodyMass T :=
  ⟨f m.mass, fun i => f (m.centerOfMass i), fun i j => f (m.rotationalInertia i j)⟩

end BodyMass

namespace Pose

/-- `cast` of `Eigen::Transform` (almath/scenegraph/rigidbodysystembuilder.h:60, 79). -/
def cast {S T : Type} (f : S → T) (p : Pose S) : Pose T :=
  ⟨fun i j => f (p.linear i j), fun i => f (p.translation i)⟩

end Pose

namespace Link

/-- almath/scenegraph/rigidbodysystembuilder.h:57-62 (`LinkData::cast`). -/
def cast {S T : Type} (f : S → T) (l : Link S) : Link T :=
  ⟨l.parentBody, l.newBody, l.newJoint, l.poseParentNew.cast f, l.jointType, l.bodyMass.cast f⟩

end Link

namespace StaticFrame

/-- almath/scenegraph/rigidbodysystembuilder.h:75-80 (`StaticFrameData::cast`). -/
def cast {S T : Type} (f : S → T) (l : StaticFrame S) : StaticFrame T :=
  ⟨l.parentFrame, l.newStaticFrame, l.newStaticTransform, l.poseParentNew.cast f⟩

end StaticFrame

/-- almath/scenegraph/rigidbodysystembuilder.h:139-156 (`Decorator`). -/
def decorator {σ T : Type} (b : Interface σ T) : Interface σ T where
  config := b.config
  addLink := b.addLink
  addStaticFrame := b.addStaticFrame

/-- almath/scenegraph/rigidbodysystembuilder.h:158-176 (`Adapter`). -/
def adapter {σ S T : Type} (f : S → T) (b : Interface σ T) : Interface σ S where
  config := b.config
  addLink s link := b.addLink s (link.cast f)
  addStaticFrame s sframe := b.addStaticFrame s (sframe.cast f)

/-- almath/scenegraph/rigidbodysystembuilder.h:233-237 (the members of `NamesChecker`). -/
structure Known where
  bodies : Finset String
  joints : Finset String
  sframes : Finset String
  stransforms : Finset String

namespace Known

/-- almath/scenegraph/rigidbodysystembuilder.h:233-237 (initial values of the members). -/
def init (galileanFrame : String) : Known := ⟨{galileanFrame}, ∅, ∅, ∅⟩

/-- almath/scenegraph/rigidbodysystembuilder.h:239-241 (`xIsKnownBody`). -/
def isKnownBody (k : Known) (name : String) : Bool := name ∈ k.bodies

/-- almath/scenegraph/rigidbodysystembuilder.h:244-247 (`xIsKnownFrame`). -/
def isKnownFrame (k : Known) (name : String) : Bool := k.isKnownBody name || name ∈ k.sframes

/-- almath/scenegraph/rigidbodysystembuilder.h:249-251 (`xIsKnownJoint`). -/
def isKnownJoint (k : Known) (name : String) : Bool := name ∈ k.joints

/-- almath/scenegraph/rigidbodysystembuilder.h:254-257 (`xIsKnownTransform`). -/
def isKnownTransform (k : Known) (name : String) : Bool := k.isKnownJoint name || name ∈ k.stransforms

end Known

namespace NamesChecker

variable {σ T : Type}

/-- almath/scenegraph/rigidbodysystembuilder.h:183 (the constructor of `NamesChecker`). -/
def new (b : Interface σ T) (s : σ) : Known × σ := (Known.init (b.config s).galileanFrame, s)

/-- almath/scenegraph/rigidbodysystembuilder.h:185-207 (`NamesChecker::addLink`). -/
def addLink (b : Interface σ T) (st : Known × σ) (link : Link T) : Res Unit × (Known × σ) :=
  if !st.1.isKnownBody link.parentBody then (.throws, st)
  else if st.1.isKnownFrame link.newBody then (.throws, st)
  else if st.1.isKnownTransform link.newJoint then (.throws, st)
  else
    match b.addLink st.2 link with
    | (.ok _, s') => (.ok (), ({ st.1 with bodies := insert link.newBody st.1.bodies,
                                           joints := insert link.newJoint st.1.joints }, s'))
    | (.throws, s') => (.throws, (st.1, s'))
    | (.ub, s') => (.ub, (st.1, s'))

/-- almath/scenegraph/rigidbodysystembuilder.h:209-229 (`NamesChecker::addStaticFrame`). -/
def addStaticFrame (b : Interface σ T) (st : Known × σ) (sframe : StaticFrame T) :
    Res Unit × (Known × σ) :=
  if !st.1.isKnownFrame sframe.parentFrame then (.throws, st)
  else if st.1.isKnownFrame sframe.newStaticFrame then (.throws, st)
  else if st.1.isKnownTransform sframe.newStaticTransform then (.throws, st)
  else
    match b.addStaticFrame st.2 sframe with
    | (.ok _, s') => (.ok (), ({ st.1 with
        sframes := insert sframe.newStaticFrame st.1.sframes,
        stransforms := insert sframe.newStaticTransform st.1.stransforms }, s'))
    | (.throws, s') => (.throws, (st.1, s'))
    | (.ub, s') => (.ub, (st.1, s'))

/-- almath/scenegraph/rigidbodysystembuilder.h:178-258 (`NamesChecker`), with `config` of
`Decorator`, line 146. -/
def interface (b : Interface σ T) : Interface (Known × σ) T where
  config st := (decorator b).config st.2
  addLink := addLink b
  addStaticFrame := addStaticFrame b

end NamesChecker

/-- almath/scenegraph/rigidbodysystembuilder.h:260-269 (`InertiaEraser`), with the functions of
`Decorator`, lines 146-152. -/
def inertiaEraser {σ T : Type} [Zero T] (b : Interface σ T) : Interface σ T where
  config := (decorator b).config
  addLink s link := b.addLink s { link with bodyMass := { link.bodyMass with rotationalInertia := 0 } }
  addStaticFrame := (decorator b).addStaticFrame

end AlMath.Builder
