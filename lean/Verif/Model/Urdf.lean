import Verif.Model.UrdfPose
import Mathlib.Data.String.Basic

/-!
Model of the kinematic tree of src/scenegraph/urdf.cpp (`RobotTree`) and of the functions that
edit it.

Simplifications. The index (`RobotTreeP`) holds iterators into the XML document; here it holds
the elements themselves, so that `Tree` is both the index and the part of the document it points
to. The order of the children of the `robot` element, which no operation changes except by
removing elements, is not kept. Of the five indices of the `multi_index_container`, the list
`Tree.joints` has the order of the `ParentLink` index, the only one whose order is observable: the
`sequenced` one is never read, and the order of the others does not change any result. Among
equal keys, `multi_index` inserts at the upper bound. Strings are compared by code points, as
UTF-8 bytes are by `std::string`. Attributes other than names, links, mimic references and
origins are taken to be well formed; an element has at most one `origin` and one `axis`.
Functions that may loop for ever take a bound on the depth of the recursion or the number of
iterations; `none` means that the bound was not enough.
-/

namespace AlMath.Urdf

/-- almath/scenegraph/urdf.h:321 (`Joint::Type`). -/
inductive JType where
  | revolute
  | continuous
  | prismatic
  | fixed
  | floating
  | planar
  deriving DecidableEq

/-- An `inertial` element (src/scenegraph/urdf.cpp:247-265). -/
structure UInertial where
  origin : Option OriginElem
  data : InertialData

/-- A `link` element (src/scenegraph/urdf.cpp:328-336): its name, its `inertial` children, and the
origins of its `visual` and `collision` children. -/
structure ULink where
  name : String
  inertials : List UInertial
  visuals : List (Option OriginElem)
  collisions : List (Option OriginElem)

/-- A `joint` element (src/scenegraph/urdf.cpp:189-245). The type is `none` when its text is not
one of the six known types; the axis is `none` when missing or malformed. -/
structure UJoint where
  name : String
  type : Option JType
  parent : String
  child : String
  origin : Option OriginElem
  axis : Option Array3d
  mimic : Option String

/-- A child of the `robot` element as read by src/scenegraph/urdf.cpp:406-470. A missing
attribute is `none`; `mimic` is `none` without `mimic` element and `some none` when the element
has no `joint` attribute. -/
inductive Elem where
  | link (name : Option String) (inertials : List UInertial)
      (visuals collisions : List (Option OriginElem))
  | joint (name parent child : Option String) (type : Option JType)
      (origin : Option OriginElem) (axis : Option Array3d) (mimic : Option (Option String))
  | other

/-- src/scenegraph/urdf.cpp:342-392 (the members of `RobotTreeP`). -/
structure Tree where
  links : List ULink
  joints : List UJoint
  root : String

/-- `ptree::get` of a mandatory attribute (src/scenegraph/urdf.cpp:99-109): throws when
missing. -/
def getAttr : Option String → Res String
  | some s => .ok s
  | none => .throws

/-- Insertion in the `ParentLink` index (src/scenegraph/urdf.cpp:358-360), at the upper bound of
the joints with the same key. -/
def insertUpper (l : List UJoint) (j : UJoint) : List UJoint :=
  l.takeWhile (fun x => x.parent ≤ j.parent) ++ j :: l.dropWhile (fun x => x.parent ≤ j.parent)

/-- src/scenegraph/urdf.cpp:397-403 (the loop of `transitively_mimics`): whether `f` holds for
one of the joints, tried in turn. -/
def anyM (f : UJoint → Option Bool) : List UJoint → Option Bool
  | [] => some false
  | j :: l =>
    match f j with
    | none => none
    | some true => some true
    | some false => anyM f l

/-- src/scenegraph/urdf.cpp:394-404 (`transitively_mimics`). A joint is identified by its name.
The first argument bounds the depth of the recursion. -/
def transitivelyMimics : ℕ → List UJoint → String → String → Option Bool
  | 0, _, _, _ => none
  | n + 1, joints, lhs, rhs =>
    anyM (fun j => if j.name = lhs then some true else transitivelyMimics n joints j.name rhs)
      (joints.filter fun j => j.mimic = some rhs)

/-- src/scenegraph/urdf.cpp:410-419 (body of the loop on links). -/
def addLink (links : List ULink) : Elem → Res (List ULink)
  | .link name inertials visuals collisions =>
    (getAttr name).bind fun name =>
      if name ∈ links.map ULink.name then .throws
      else .ok (links ++ [⟨name, inertials, visuals, collisions⟩])
  | _ => .ok links

/-- src/scenegraph/urdf.cpp:38-44 (`mimic_it`). -/
def readMimic : Option (Option String) → Res (Option String)
  | none => .ok none
  | some none => .throws
  | some (some s) => .ok (some s)

/-- src/scenegraph/urdf.cpp:448-462 (the check that a new joint closes no mimic loop). An
exhausted recursion bound, which stands for a call that does not return, is undefined. -/
def checkMimic (joints : List UJoint) (name : String) : Option String → Res Unit
  | none => .ok ()
  | some source =>
    if name = source then .throws
    else if source ∈ joints.map UJoint.name then
      match transitivelyMimics (joints.length + 2) joints source name with
      | some true => .throws
      | some false => .ok ()
      | none => .ub
    else .ok ()

/-- src/scenegraph/urdf.cpp:463-469 (adding a joint to the index). -/
def pushJoint (st : List UJoint × List String) (j : UJoint) : Res (List UJoint × List String) :=
  if j.child ∈ st.2 then
    let roots := st.2.erase j.child
    if roots = [] then .throws else .ok (insertUpper st.1 j, roots)
  else .ub

/-- src/scenegraph/urdf.cpp:423-470 (body of the loop on joints). The state is the index of
joints and the set of candidate roots. -/
def addJoint (links : List String) (st : List UJoint × List String) :
    Elem → Res (List UJoint × List String)
  | .joint name parent child type origin axis mimic =>
    (getAttr name).bind fun name =>
    if name ∈ st.1.map UJoint.name then .throws else
    (getAttr parent).bind fun parent =>
    if parent ∉ links then .throws else
    (getAttr child).bind fun child =>
    if child ∉ links then .throws else
    if child ∈ st.1.map UJoint.child then .throws else
    (readMimic mimic).bind fun mimic =>
    (checkMimic st.1 name mimic).bind fun _ =>
    pushJoint st ⟨name, type, parent, child, origin, axis, mimic⟩
  | _ => .ok st

/-- A loop whose body may throw (used for the loops of src/scenegraph/urdf.cpp:406-487). -/
def foldRes {σ α : Type} (f : σ → α → Res σ) : σ → List α → Res σ
  | s, [] => .ok s
  | s, a :: l => (f s a).bind fun s => foldRes f s l

open Classical in
/-- src/scenegraph/urdf.cpp:471-486 (the end of the constructor). -/
noncomputable def finishLoad (links : List ULink) (joints : List UJoint) :
    List String → Res Tree
  | [] => .ub
  | [root] =>
    if ∃ j ∈ joints, ∃ s, j.mimic = some s ∧ s ∉ joints.map UJoint.name then .throws
    else .ok ⟨links, joints, root⟩
  | _ => .throws

/-- src/scenegraph/urdf.cpp:406-487 (`RobotTreeP::RobotTreeP`): reading the children of the
`robot` element. -/
noncomputable def load (doc : List Elem) : Res Tree :=
  (foldRes addLink [] doc).bind fun links =>
  if links = [] then .throws else
  (foldRes (addJoint (links.map ULink.name)) ([], links.map ULink.name) doc).bind fun st =>
  finishLoad links st.1 st.2

namespace Tree

/-- `joints.get<Name>().find` (src/scenegraph/urdf.cpp:457, 507, 638). -/
def findJoint (t : Tree) (name : String) : Option UJoint :=
  t.joints.find? fun j => j.name = name

/-- `links.find` (src/scenegraph/urdf.cpp:495, 514, 573). -/
def findLink (t : Tree) (name : String) : Option ULink :=
  t.links.find? fun l => l.name = name

/-- `joints.get<ParentLink>().equal_range` (src/scenegraph/urdf.cpp:491, 510, 570, 691): the
joints whose parent is the link, in the order of the index. -/
def childJoints (t : Tree) (link : String) : List UJoint :=
  t.joints.filter fun j => j.parent = link

/-- Removal of a joint and of a link from the document and the index (src/scenegraph/urdf.cpp:
499-503, 516-520). -/
def erase (t : Tree) (joint link : String) : Tree :=
  { t with links := t.links.filter (fun l => l.name ≠ link),
           joints := t.joints.filter (fun j => j.name ≠ joint) }

/-- src/scenegraph/urdf.cpp:489-504 (`rm_root_joint`). -/
def rmRootJoint (t : Tree) : Res Unit × Tree :=
  match t.childJoints t.root with
  | [j] =>
    match t.findLink t.root with
    | none => (.ub, t)
    | some l => (.ok (), { t.erase j.name l.name with root := j.child })
  | _ => (.throws, t)

/-- src/scenegraph/urdf.cpp:506-521 (`rm_leaf_joint`). -/
def rmLeafJoint (t : Tree) (name : String) : Res Unit × Tree :=
  match t.findJoint name with
  | none => (.throws, t)
  | some j =>
    if t.childJoints j.child ≠ [] then (.throws, t)
    else
      match t.findLink j.child with
      | none => (.ub, t)
      | some l => (.ok (), t.erase j.name l.name)

end Tree

open Classical in
/-- src/scenegraph/urdf.cpp:529-562 (`premul`): the new value of the `origin` child. Without
value, dereferencing `new_origin` is undefined. -/
noncomputable def premul (lhs ilhs : UPose) (noprune : Bool) (o : Option OriginElem) :
    Res (Option OriginElem) :=
  if lhs ≠ ilhs.inverse then .ub
  else (UPose.fromPtree o).bind fun rhs =>
    if rhs = ilhs then .ok (if noprune then some ⟨.absent, .absent⟩ else none)
    else
      match (lhs.mul rhs).toPtree with
      | none => .ub
      | some e => .ok (some e)

/-- A loop that edits elements in turn and stops at the first exception, keeping the edits made
(used for the loops of src/scenegraph/urdf.cpp:568-579). -/
def mapUpTo {α : Type} (f : α → Res α) : List α → Res Unit × List α
  | [] => (.ok (), [])
  | a :: l =>
    match f a with
    | .ok b => ((mapUpTo f l).1, b :: (mapUpTo f l).2)
    | .throws => (.throws, a :: l)
    | .ub => (.ub, a :: l)

/-- src/scenegraph/urdf.cpp:568-572 (body of the loop on joints). -/
noncomputable def transportJoint (pose : UPose) (root : String) (noprune : UJoint → Bool)
    (j : UJoint) : Res UJoint :=
  if j.parent = root then
    (premul pose.inverse pose (noprune j) j.origin).map fun o => { j with origin := o }
  else .ok j

/-- src/scenegraph/urdf.cpp:575-578 (body of the loop on the elements of a link, for an
`inertial`). -/
noncomputable def transportInertial (pose : UPose) (i : UInertial) : Res UInertial :=
  (premul pose.inverse pose false i.origin).map fun o => { i with origin := o }

/-- src/scenegraph/urdf.cpp:573-579 (the elements of the root link: inertials, then visuals, then
collisions). -/
noncomputable def transportLink (pose : UPose) (l : ULink) : Res Unit × ULink :=
  match mapUpTo (transportInertial pose) l.inertials with
  | (.ok (), is) =>
    match mapUpTo (premul pose.inverse pose false) l.visuals with
    | (.ok (), vs) =>
      match mapUpTo (premul pose.inverse pose false) l.collisions with
      | (r, cs) => (r, ⟨l.name, is, vs, cs⟩)
    | (r, vs) => (r, ⟨l.name, is, vs, l.collisions⟩)
  | (r, is) => (r, ⟨l.name, is, l.visuals, l.collisions⟩)

/-- src/scenegraph/urdf.cpp:594-613 (`flip_joint_axis`). -/
noncomputable def flipAxis (j : UJoint) : Res UJoint :=
  match j.type with
  | none => .throws
  | some .fixed => .ok j
  | some .floating => .ok j
  | some _ =>
    let old : Array3d := j.axis.getD ![1, 0, 0]
    let new : Array3d := ![-old 0, -old 1, -old 2]
    if new 0 = 1 ∧ new 1 = 0 ∧ new 2 = 0 then .ok { j with axis := none }
    else .ok { j with axis := some new }

/-- Repositioning of a modified joint in the `ParentLink` index (`modify`, called in
src/scenegraph/urdf.cpp:663): it stays in place if it is still between its neighbours, otherwise
it is inserted again. The joint `j` replaces the one between `pre` and `post`. -/
def replaceInIndex (pre post : List UJoint) (j : UJoint) : List UJoint :=
  if (∀ p ∈ pre.getLast?, p.parent ≤ j.parent) ∧ (∀ q ∈ post.head?, j.parent ≤ q.parent) then
    pre ++ j :: post
  else insertUpper (pre ++ post) j

/-- src/scenegraph/urdf.cpp:582-589 (`flip_joint_links_fctor`). -/
def flipLinks (j : UJoint) : UJoint := { j with parent := j.child, child := j.parent }

namespace Tree

/-- src/scenegraph/urdf.cpp:564-580 (`transport_root_link_frame`). -/
noncomputable def transportRootLinkFrame (t : Tree) (pose : UPose) (noprune : UJoint → Bool) :
    Res Unit × Tree :=
  match mapUpTo (transportJoint pose t.root noprune) t.joints with
  | (.ok (), js) =>
    match t.findLink t.root with
    | none => (.throws, { t with joints := js })
    | some l =>
      match transportLink pose l with
      | (r, l') => (r, ⟨t.links.map (fun x => if x.name = t.root then l' else x), js, t.root⟩)
  | (r, js) => (r, { t with joints := js })

/-- src/scenegraph/urdf.cpp:651-661 (moving the root link frame to the joint). -/
noncomputable def transportToJoint (t : Tree) (j : UJoint) (addPruneException : Bool) :
    Res Unit × Tree :=
  match j.origin with
  | none => (.ok (), t)
  | some e =>
    match UPose.fromElem e with
    | .ok pose =>
      t.transportRootLinkFrame pose (fun x => addPruneException && (x.name = j.name : Bool))
    | .throws => (.throws, t)
    | .ub => (.ub, t)

/-- src/scenegraph/urdf.cpp:662-666 (the end of `flip_root_link_joint`). A joint with the same
child as the flipped one makes `modify` fail, which the assertion excludes. -/
noncomputable def flipInIndex (t : Tree) (name : String) : Res Unit × Tree :=
  match t.joints.span (fun j => j.name ≠ name) with
  | (_, []) => (.ub, t)
  | (pre, j :: post) =>
    if (flipLinks j).child ∈ (pre ++ post).map UJoint.child then (.ub, t)
    else
      match flipAxis (flipLinks j) with
      | .ok j' => (.ok (), ⟨t.links, replaceInIndex pre post j', j.child⟩)
      | .throws => (.throws, ⟨t.links, replaceInIndex pre post (flipLinks j), j.child⟩)
      | .ub => (.ub, t)

/-- src/scenegraph/urdf.cpp:636-667 (`flip_root_link_joint`). -/
noncomputable def flipRootLinkJoint (t : Tree) (name : String) (addPruneException : Bool) :
    Res Unit × Tree :=
  match t.findJoint name with
  | none => (.throws, t)
  | some j =>
    if j.parent ≠ t.root then (.ub, t)
    else
      match t.transportToJoint j addPruneException with
      | (.ok (), t1) => t1.flipInIndex name
      | r => r

/-- src/scenegraph/urdf.cpp:672-681 (the first loop of `define_as_root_link`): the names of the
joints from the link up to the root. -/
def pathToRoot (t : Tree) : ℕ → String → Option (Res (List String))
  | 0, _ => none
  | n + 1, cur =>
    if cur = t.root then some (.ok [])
    else
      match t.joints.find? (fun j => j.child = cur) with
      | none => some .throws
      | some j =>
        match j.type with
        | none => some .throws
        | some .floating => some .throws
        | some .planar => some .throws
        | some _ => (pathToRoot t n j.parent).map fun r => r.map fun l => j.name :: l

/-- src/scenegraph/urdf.cpp:682-685 (the second loop of `define_as_root_link`), on the reversed
path. -/
noncomputable def flipAll : List String → Tree → Res Unit × Tree
  | [], t => (.ok (), t)
  | name :: rest, t =>
    match t.flipRootLinkJoint name (rest ≠ [] : Bool) with
    | (.ok (), t1) => flipAll rest t1
    | r => r

/-- src/scenegraph/urdf.cpp:669-686 (`define_as_root_link`). The first argument bounds the number
of iterations of the first loop. -/
noncomputable def defineAsRootLink (n : ℕ) (t : Tree) (link : String) :
    Option (Res Unit × Tree) :=
  match t.pathToRoot n link with
  | none => none
  | some (.ok path) => some (flipAll path.reverse t)
  | some .throws => some (.throws, t)
  | some .ub => some (.ub, t)

end Tree

/-- almath/scenegraph/urdf.h:241-251 (`JointConstVisitor`, `JointVisitor`), for a visitor with
state `σ`. A `JointVisitor` that edits the document has the tree in its state; it finds the
current joint by its name. -/
structure Visitor (σ : Type) where
  discover : UJoint → σ → Res Bool × σ
  finish : UJoint → σ → Res Unit × σ

/-- src/scenegraph/urdf.cpp:690-695, 700-705 (the loop of `walk_joint`). -/
def walkList {σ : Type} (vis : Visitor σ) (recur : String → σ → Option (Res Unit × σ)) :
    List UJoint → σ → Option (Res Unit × σ)
  | [], s => some (.ok (), s)
  | j :: l, s =>
    match vis.discover j s with
    | (.throws, s1) => some (.throws, s1)
    | (.ub, s1) => some (.ub, s1)
    | (.ok b, s1) =>
      match (if b then recur j.child s1 else some (.ok (), s1)) with
      | some (.ok (), s2) =>
        match vis.finish j s2 with
        | (.ok (), s3) => walkList vis recur l s3
        | r => some r
      | r => r

/-- src/scenegraph/urdf.cpp:688-706 (both `walk_joint`). Visitors do not change names and links,
so the joints of a link are those of the initial tree. The number bounds the depth of the
recursion. -/
def walkJoint {σ : Type} (vis : Visitor σ) (t : Tree) :
    ℕ → String → σ → Option (Res Unit × σ)
  | 0, _, _ => none
  | n + 1, link, s => walkList vis (walkJoint vis t n) (t.childJoints link) s

/-- src/scenegraph/urdf.cpp:757-763 (both `traverse_joints`). -/
def traverseJoints {σ : Type} (vis : Visitor σ) (t : Tree) (n : ℕ) (s : σ) :
    Option (Res Unit × σ) :=
  walkJoint vis t n t.root s

namespace Tree

/-- src/scenegraph/urdf.cpp:708-721 (`is_mimic_tree_flat`): the loop. A mimicked joint that is
not in the tree violates the assertion. -/
def mimicFlat (t : Tree) : List UJoint → Res Bool
  | [] => .ok true
  | j :: l =>
    match j.mimic with
    | none => t.mimicFlat l
    | some s =>
      match t.findJoint s with
      | none => .ub
      | some k => if k.mimic ≠ none then .ok false else t.mimicFlat l

/-- src/scenegraph/urdf.cpp:708-721 (`is_mimic_tree_flat`). The joints are visited in the order
of `Tree.joints` instead of that of their names, which matters only when an assertion is
violated. -/
def isMimicTreeFlat (t : Tree) : Res Bool := t.mimicFlat t.joints

/-- Edition of the joints with a given name (used in src/scenegraph/urdf.cpp:780-793). -/
def editJoint (t : Tree) (name : String) (f : UJoint → UJoint) : Tree :=
  { t with joints := t.joints.map fun j => if j.name = name then f j else j }

/-- Edition of the links with a given name (used in src/scenegraph/urdf.cpp:874-875). -/
def editLink (t : Tree) (name : String) (f : ULink → ULink) : Tree :=
  { t with links := t.links.map fun l => if l.name = name then f l else l }

/-- src/scenegraph/urdf.cpp:780-787 (`makeJointFixed`). -/
def makeJointFixed (t : Tree) (name : String) : Res Unit × Tree :=
  match t.findJoint name with
  | none => (.throws, t)
  | some _ => (.ok (), t.editJoint name fun j => { j with type := some .fixed, axis := none })

/-- src/scenegraph/urdf.cpp:789-793 (`makeJointFloating`). -/
def makeJointFloating (t : Tree) (name : String) : Res Unit × Tree :=
  match t.findJoint name with
  | none => (.throws, t)
  | some _ => (.ok (), t.editJoint name fun j => { j with type := some .floating, axis := none })

end Tree

/-- Reading the type of a joint (src/scenegraph/urdf.cpp:194-203). -/
def UJoint.getType (j : UJoint) : Res JType :=
  match j.type with
  | none => .throws
  | some t => .ok t

/-- src/scenegraph/urdf.cpp:796-807 (`MakeContinuousJointsFixedVisitor`). -/
def continuousVisitor : Visitor (Tree × List String) where
  discover j s :=
    match s.1.findJoint j.name with
    | none => (.ub, s)
    | some j =>
      match j.type with
      | none => (.throws, s)
      | some .continuous =>
        (.ok true, (s.1.makeJointFixed j.name).2, s.2 ++ [j.name])
      | some _ => (.ok true, s)
  finish _ s := (.ok (), s)

/-- src/scenegraph/urdf.cpp:809-813 (`makeContinuousJointsFixed`). -/
def makeContinuousJointsFixed (n : ℕ) (t : Tree) : Option (Res Unit × Tree × List String) :=
  traverseJoints continuousVisitor t n (t, [])

/-- `put("origin.<xmlattr>.xyz", …)` (src/scenegraph/urdf.cpp:867). -/
def putXyz (xyz : Array3d) : Option OriginElem → Option OriginElem
  | none => some ⟨.val xyz, .absent⟩
  | some e => some ⟨.val xyz, e.rpy⟩

/-- `put("origin.<xmlattr>.rpy", …)` (src/scenegraph/urdf.cpp:870). -/
def putRpy (rpy : Array3d) : Option OriginElem → Option OriginElem
  | none => some ⟨.absent, .val rpy⟩
  | some e => some ⟨e.xyz, .val rpy⟩

open Classical in
/-- src/scenegraph/urdf.cpp:863-873 (writing the pose of the new inertial). -/
noncomputable def putPose (T : ETransform) (o : Option OriginElem) : Option OriginElem :=
  let o := if T.translation ≠ 0 then putXyz T.translation o else o
  if T.linear ≠ 1 then putRpy (rpyFromMatrix T.linear) o else o

/-- src/scenegraph/urdf.cpp:833-873 (the new inertial of the parent link). The arguments are the
origin of the joint, the inertial of the child and the one of the parent. -/
noncomputable def mergeInertial (jointOrigin : Option OriginElem) (child : UInertial)
    (parent : Option UInertial) : Res UInertial :=
  (UPose.fromPtree jointOrigin).bind fun jo =>
  (UPose.fromPtree child.origin).bind fun co =>
  let childPose := (toEigenTransform jo).mul (toEigenTransform co)
  match parent with
  | none => .ok ⟨putPose childPose child.origin, child.data⟩
  | some p =>
    (UPose.fromPtree p.origin).bind fun po =>
    (squashInertial p.data.mass (toEigenTransform po) (toEigenMatrix3 p.data)
      child.data.mass childPose (toEigenMatrix3 child.data)).bind fun r =>
    .ok ⟨putPose r.2.1 none,
      ⟨r.1, r.2.2 0 0, r.2.2 0 1, r.2.2 0 2, r.2.2 1 1, r.2.2 1 2, r.2.2 2 2⟩⟩

/-- `put_child("inertial", …)` (src/scenegraph/urdf.cpp:874): replaces the first inertial or adds
one. -/
def putInertial (i : UInertial) (l : ULink) : ULink :=
  match l.inertials with
  | [] => { l with inertials := [i] }
  | _ :: rest => { l with inertials := i :: rest }

namespace Tree

/-- src/scenegraph/urdf.cpp:816-876 (`squashJointMass` of a joint). -/
noncomputable def squashJoint (t : Tree) (j : UJoint) : Res Unit × Tree :=
  match t.findLink j.child with
  | none => (.throws, t)
  | some c =>
    match c.inertials with
    | [] => (.ok (), t)
    | ci :: _ =>
      match t.findLink j.parent with
      | none => (.throws, t)
      | some p =>
        match mergeInertial j.origin ci p.inertials.head? with
        | .throws => (.throws, t)
        | .ub => (.ub, t)
        | .ok i => (.ok (), (t.editLink j.parent (putInertial i)).editLink j.child
            fun l => { l with inertials := [] })

/-- src/scenegraph/urdf.cpp:878-880 (`squashJointMass` of a joint given by name). -/
noncomputable def squashJointMass (t : Tree) (name : String) : Res Unit × Tree :=
  match t.findJoint name with
  | none => (.throws, t)
  | some j => t.squashJoint j

end Tree

/-- src/scenegraph/urdf.cpp:883-893 (`SquashFixedJointsMassVisitor`). -/
noncomputable def squashFixedVisitor : Visitor Tree where
  discover _ s := (.ok true, s)
  finish j s :=
    match s.findJoint j.name with
    | none => (.ub, s)
    | some j =>
      match j.type with
      | none => (.throws, s)
      | some .fixed => s.squashJoint j
      | some _ => (.ok (), s)

/-- src/scenegraph/urdf.cpp:895-898 (`squashFixedJointsMass`). -/
noncomputable def squashFixedJointsMass (n : ℕ) (t : Tree) : Option (Res Unit × Tree) :=
  traverseJoints squashFixedVisitor t n t

/-- src/scenegraph/urdf.cpp:901-919 (`MakeMasslessJointsFixedVisitor`). -/
noncomputable def masslessVisitor : Visitor (Tree × List String) where
  discover _ s := (.ok true, s)
  finish j s :=
    match s.1.findJoint j.name with
    | none => (.ub, s)
    | some j =>
      match j.type with
      | none => (.throws, s)
      | some .fixed => ((s.1.squashJoint j).1, (s.1.squashJoint j).2, s.2)
      | some _ =>
        match s.1.findLink j.child with
        | none => (.throws, s)
        | some c =>
          match c.inertials with
          | [] => (.ok (), (s.1.makeJointFixed j.name).2, s.2 ++ [j.name])
          | _ => (.ok (), s)

/-- src/scenegraph/urdf.cpp:921-925 (`makeMasslessJointsFixed`). -/
noncomputable def makeMasslessJointsFixed (n : ℕ) (t : Tree) :
    Option (Res Unit × Tree × List String) :=
  traverseJoints masslessVisitor t n (t, [])

/-- src/scenegraph/urdf.cpp:928-953 (`ListJointsToRemoveVisitor`); the state is `level` and
`names`. -/
def listVisitor (pred : UJoint → Bool) : Visitor (ℤ × List String) where
  discover j s :=
    let level := if pred j then s.1 + 1 else s.1
    (.ok true, level, if level > 0 then s.2 ++ [j.name] else s.2)
  finish j s :=
    let level := if pred j then s.1 - 1 else s.1
    if level ≥ 0 then (.ok (), level, s.2) else (.ub, level, s.2)

/-- src/scenegraph/urdf.cpp:961-963 (the loop of `removeSubTreeIfJoint`), on the reversed
names. -/
def rmLeaves : List String → Tree → Res Unit × Tree
  | [], t => (.ok (), t)
  | name :: rest, t =>
    match t.rmLeafJoint name with
    | (.ok (), t1) => rmLeaves rest t1
    | r => r

/-- src/scenegraph/urdf.cpp:955-965 (`removeSubTreeIfJoint`), for a predicate without side
effects. -/
def removeSubTreeIfJoint (n : ℕ) (pred : UJoint → Bool) (t : Tree) :
    Option (Res (List String) × Tree) :=
  match traverseJoints (listVisitor pred) t n (0, []) with
  | none => none
  | some (.throws, _) => some (.throws, t)
  | some (.ub, _) => some (.ub, t)
  | some (.ok (), s) =>
    match rmLeaves s.2.reverse t with
    | (r, t1) => some (r.map fun _ => s.2, t1)

end AlMath.Urdf
