import Verif.Model.UrdfXml
import Verif.Props.C45
import Mathlib.Data.Set.Basic
import Mathlib.Logic.Relation

/-!
Specification vocabulary for the edition of URDF documents: the tree that a document and an index
stand for, and what an edition leaves alone.
-/

namespace AlMath.Spec.UrdfXml

open AlMath.Urdf AlMath.UrdfXml

/-- The links of a document, in order. Not in /repo: specification. -/
noncomputable def linksOf (doc : Nodes) : List ULink := docLinks (doc.map readElem)

/-- The joints of a document, in order. Not in /repo: specification. -/
noncomputable def jointsOf (doc : Nodes) : List UJoint := docJoints (doc.map readElem)

/-- The tree that a document and an index stand for. Not in /repo: specification. -/
noncomputable def view (x : XTree) : Tree :=
  ⟨linksOf x.doc, x.joints.filterMap fun name => (jointsOf x.doc).find? fun j => j.name = name, x.root⟩

/-- The links and joints of a document are complete and their names are different. Not in /repo:
specification. -/
structure Indexable (doc : Nodes) : Prop where
  complete : ∀ c ∈ doc, Complete (readElem c)
  links_nodup : ((linksOf doc).map ULink.name).Nodup
  joints_nodup : ((jointsOf doc).map UJoint.name).Nodup

/-- The index has the joints of the document, each one once. Not in /repo: specification. -/
structure InStep (x : XTree) : Prop where
  doc : Indexable x.doc
  index : x.joints.Perm ((jointsOf x.doc).map UJoint.name)

/-- The element is the same, except perhaps for the children with the given keys: their number, position
and contents. Not in /repo: specification. -/
def SameBut (keys : List String) (n n' : Node) : Prop :=
  n'.text = n.text ∧ n'.children.filter (fun c => c.1 ∉ keys) = n.children.filter (fun c => c.1 ∉ keys)

/-- The documents have the same elements in the same order, except that some elements changed as `P`
tells. Not in /repo: specification. -/
def Edited (P : String × Node → Node → Prop) (doc doc' : Nodes) : Prop :=
  List.Forall₂ (fun c c' => c'.1 = c.1 ∧ (c'.2 = c.2 ∨ P c c'.2)) doc doc'

/-- The link is the same, except perhaps for the `origin` of its inertials, visuals and collisions. Not
in /repo: specification. -/
def FrameMoved (n n' : Node) : Prop :=
  n'.text = n.text ∧ Edited
    (fun c m => c.1 ∈ ["inertial", "visual", "collision"] ∧ SameBut ["origin"] c.2 m)
    n.children n'.children

/-- The joint is the same, except that its type is `ty` and that it has no axis. Not in /repo:
specification. -/
structure Retyped (ty : String) (n n' : Node) : Prop where
  same : SameBut ["<xmlattr>", "axis"] n n'
  type : n'.getStr ["<xmlattr>", "type"] = some ty
  axis : n'.all "axis" = []
  attrs : ∀ a p, a ≠ "type" → n'.get ("<xmlattr>" :: a :: p) = n.get ("<xmlattr>" :: a :: p)

/-- What a change of root link may do to an element, when the joints named in `A` are flipped and the
frames of the links in `B` move. Not in /repo: specification. -/
def RerootEdit (A B : Set String) (c : String × Node) (n : Node) : Prop :=
  (c.1 = "joint" ∧ (∃ a ∈ A, c.2.name = some a) ∧ SameBut ["origin", "parent", "child", "axis"] c.2 n) ∨
  (c.1 = "joint" ∧ (∃ b ∈ B, c.2.parentLink = some b) ∧ SameBut ["origin"] c.2 n) ∨
  (c.1 = "link" ∧ (∃ b ∈ B, c.2.name = some b) ∧ FrameMoved c.2 n)

/-- Two trees have the same root link, the same links in the same order, and the same joints, perhaps in
another order. Not in /repo: specification. -/
structure SameRobot (t t' : Tree) : Prop where
  root : t'.root = t.root
  links : t'.links = t.links
  joints : t'.joints.Perm t.joints

/-- The joints attached to each link are in the order of the document. Not in /repo: specification. -/
def FileOrder (x : XTree) : Prop :=
  ∀ link, x.childJoints link = ((jointsOf x.doc).filter fun j => j.parent = link).map UJoint.name

/-- One call of an edition which neither removes joints nor changes the root link; it may throw. Not in
/repo: specification. -/
inductive Edition [Printer] : XTree → XTree → Prop
  | fixed (x : XTree) (name : String) : Edition x (x.makeJointFixed name).2
  | floating (x : XTree) (name : String) : Edition x (x.makeJointFloating name).2
  | transport (x : XTree) (pose : UPose) (noprune : String → Bool) :
    (x.transportRootLinkFrame pose noprune).1 ≠ .ub →
    Edition x (x.transportRootLinkFrame pose noprune).2
  | squash (x : XTree) (name : String) : (x.squashJointMass name).1 ≠ .ub →
    Edition x (x.squashJointMass name).2
  | continuous (x x' : XTree) (k : ℕ) (r : Res Unit) (names : List String) :
    makeContinuousJointsFixed k x = some (r, x', names) → r ≠ .ub → Edition x x'
  | squashFixed (x x' : XTree) (k : ℕ) (r : Res Unit) :
    squashFixedJointsMass k x = some (r, x', ()) → r ≠ .ub → Edition x x'
  | massless (x x' : XTree) (k : ℕ) (r : Res Unit) (names : List String) :
    makeMasslessJointsFixed k x = some (r, x', names) → r ≠ .ub → Edition x x'

/-- One call of the function that changes the root link; it may throw. Not in /repo: specification. -/
inductive Reroot [Printer] : XTree → XTree → Prop
  | mk (x x' : XTree) (k : ℕ) (link : String) (r : Res Unit) :
    x.defineAsRootLink k link = some (r, x') → r ≠ .ub → Reroot x x'

/-- One call of a function that removes joints; it may throw. Not in /repo: specification. -/
inductive Removal : XTree → XTree → Prop
  | root (x : XTree) : x.rmRootJoint.1 ≠ .ub → Removal x x.rmRootJoint.2
  | leaf (x : XTree) (name : String) : (x.rmLeafJoint name).1 ≠ .ub →
    Removal x (x.rmLeafJoint name).2
  | subtree (x x' : XTree) (k : ℕ) (pred : Node → Bool) (r : Res (List String)) :
    removeSubTreeIfJoint k pred x = some (r, x') → r ≠ .ub → Removal x x'

/-- One call. Not in /repo: specification. -/
def Call [Printer] (x x' : XTree) : Prop := Edition x x' ∨ Reroot x x' ∨ Removal x x'

/-- The tree is obtained from the document by loading it and calling editions. Not in /repo:
specification. -/
def Session [Printer] (doc : Nodes) (x : XTree) : Prop :=
  ∃ x0, load doc = .ok x0 ∧ Relation.ReflTransGen Call x0 x

end AlMath.Spec.UrdfXml
