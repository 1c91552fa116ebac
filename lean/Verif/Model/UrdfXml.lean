import Verif.Model.Urdf

/-!
Model of src/scenegraph/urdf.cpp on XML documents. Model/Urdf.lean keeps the parts of the elements
that the functions of `RobotTree` use; here these functions read and edit the document itself, so
that one can also say what they leave alone.

Simplifications. `boost::property_tree::ptree` is trusted and modelled by a tree whose nodes have a
text and named children in document order; attributes are the children of the child `<xmlattr>`.
A text comes with the number and the array of three numbers that the translators read in it, if any;
printing a number or an array gives an unspecified string (`Printer`) that is read back exactly.
The index (`RobotTreeP`) holds iterators; here an iterator is the name of the element it points
to, the constructor refusing that two links or two joints have the same name and no modelled
function changing a name. The index of links is not stored, as it has one entry for each `link` child
of the document.
-/

namespace AlMath.UrdfXml

open AlMath.Urdf

/-- The text of a node, with what `Array3dTranslator` (src/scenegraph/urdf.cpp:66-88) and the
translator of boost for `double` (used in src/scenegraph/urdf.cpp:253-258) read in it. -/
structure Text where
  str : String
  num : Option ℝ
  vec : Option Array3d

/-- `boost::property_tree::ptree` (almath/scenegraph/urdf.h:59). -/
inductive Node where
  | mk (text : Text) (children : List (String × Node))

/-- The children of an element, with their keys (almath/scenegraph/urdf.h:59). -/
abbrev Nodes := List (String × Node)

/-- Printing of `double` by boost and of `Array3d` (src/scenegraph/urdf.cpp:90-97). -/
class Printer where
  num : ℝ → String
  vec : Array3d → String

/-- The text written by `put` of a string (src/scenegraph/urdf.cpp:586-587, 781, 791). No modelled
function reads numbers in the attributes written in this way. -/
def Text.ofStr (s : String) : Text := ⟨s, none, none⟩

/-- The text written by `put` of a `double` (src/scenegraph/urdf.cpp:856-862). -/
def Text.ofNum [Printer] (x : ℝ) : Text := ⟨Printer.num x, some x, none⟩

/-- The text written by `put` with `Array3dTranslator` (src/scenegraph/urdf.cpp:90-97). -/
def Text.ofVec [Printer] (a : Array3d) : Text := ⟨Printer.vec a, none, some a⟩

namespace Node

/-- The text of a node (`get_value`, src/scenegraph/urdf.cpp:146). -/
def text : Node → Text
  | mk t _ => t

/-- The children of a node (src/scenegraph/urdf.cpp:410). -/
def children : Node → Nodes
  | mk _ c => c

/-- `ptree()` (src/scenegraph/urdf.cpp:545). -/
def empty : Node := ⟨Text.ofStr "", []⟩

/-- `find`: the first child with a key (used by `get_child_optional`,
src/scenegraph/urdf.cpp:209, 333). -/
def find (k : String) (n : Node) : Option Node :=
  (n.children.find? fun c => c.1 = k).map Prod.snd

/-- `get_child_optional` of a path (src/scenegraph/urdf.cpp:145). -/
def get : List String → Node → Option Node
  | [], n => some n
  | k :: p, n =>
    match n.find k with
    | some c => get p c
    | none => none

/-- Replacement of the first child with a key, or addition at the end (`put_child`,
src/scenegraph/urdf.cpp:545, 552, 874). -/
def setFirst (k : String) (v : Node) : Nodes → Nodes
  | [] => [(k, v)]
  | c :: l => if c.1 = k then (k, v) :: l else c :: setFirst k v l

/-- `put_child` of a single key (src/scenegraph/urdf.cpp:545, 552, 874). -/
def putChild (n : Node) (k : String) (v : Node) : Node := ⟨n.text, setFirst k v n.children⟩

/-- `put` of a path (src/scenegraph/urdf.cpp:586-587, 607, 856-862): sets the text of the node, which
is created with its parents if needed. -/
def put : List String → Text → Node → Node
  | [], t, n => ⟨t, n.children⟩
  | k :: p, t, n => n.putChild k (put p t ((n.find k).getD empty))

/-- `erase` of a key (src/scenegraph/urdf.cpp:547, 605, 782, 792, 875): removes all the children with
that key. -/
def erase (k : String) (n : Node) : Node := ⟨n.text, n.children.filter fun c => c.1 ≠ k⟩

/-- `get<std::string>` of a path (src/scenegraph/urdf.cpp:99-109); `none` when it throws. -/
def getStr (p : List String) (n : Node) : Option String := (n.get p).map fun c => c.text.str

/-- `get_optional<double>` of a path (src/scenegraph/urdf.cpp:225-226), also `get<double>`
(src/scenegraph/urdf.cpp:253-258), which throws when it is `none`. -/
def getNum (p : List String) (n : Node) : Option ℝ := (n.get p).bind fun c => c.text.num

/-- `get_optional` with `Array3dTranslator` (used by `get` with a default value,
src/scenegraph/urdf.cpp:217-219). -/
def getVec (p : List String) (n : Node) : Option Array3d := (n.get p).bind fun c => c.text.vec

/-- src/scenegraph/urdf.cpp:143-148 (what `get_pose_child_array3d` finds). -/
def getAttr (p : List String) (n : Node) : Attr :=
  match n.get p with
  | none => .absent
  | some c =>
    match c.text.vec with
    | none => .bad
    | some a => .val a

/-- src/scenegraph/urdf.cpp:99-101 (`name`). -/
def name (n : Node) : Option String := n.getStr ["<xmlattr>", "name"]

/-- src/scenegraph/urdf.cpp:103-105 (`parent_link`). -/
def parentLink (n : Node) : Option String := n.getStr ["parent", "<xmlattr>", "link"]

/-- src/scenegraph/urdf.cpp:107-109 (`child_link`). -/
def childLink (n : Node) : Option String := n.getStr ["child", "<xmlattr>", "link"]

/-- src/scenegraph/urdf.cpp:150-153 (what `Pose::from_ptree` reads in an element). -/
def originElem (n : Node) : OriginElem :=
  ⟨n.getAttr ["<xmlattr>", "xyz"], n.getAttr ["<xmlattr>", "rpy"]⟩

/-- The `origin` child of an element (`get_child_optional("origin")`, src/scenegraph/urdf.cpp:213, 249,
534, 652). -/
def origin (n : Node) : Option OriginElem := (n.find "origin").map originElem

/-- src/scenegraph/urdf.cpp:196-201 (the names of the types of joints). -/
def typeOfString (s : String) : Option JType :=
  if s = "revolute" then some .revolute
  else if s = "continuous" then some .continuous
  else if s = "prismatic" then some .prismatic
  else if s = "fixed" then some .fixed
  else if s = "floating" then some .floating
  else if s = "planar" then some .planar
  else none

/-- src/scenegraph/urdf.cpp:194-203 (`Joint::type`); `none` when it throws. -/
def type (n : Node) : Option JType := (n.getStr ["<xmlattr>", "type"]).bind typeOfString

/-- src/scenegraph/urdf.cpp:216-220 (`Joint::axis`); `none` when the default value is used. -/
def axis (n : Node) : Option Array3d := n.getVec ["axis", "<xmlattr>", "xyz"]

/-- src/scenegraph/urdf.cpp:38-44 (`mimic_it`). -/
def mimic (n : Node) : Option (Option String) :=
  (n.find "mimic").map fun m => m.getStr ["<xmlattr>", "joint"]

/-- The `inertial`, `visual` or `collision` children of a link (`equal_range`,
src/scenegraph/urdf.cpp:575). -/
def all (k : String) (n : Node) : List Node := (n.children.filter fun c => c.1 = k).map Prod.snd

/-- src/scenegraph/urdf.cpp:253-265 (the getters of `Inertial`); `none` when one of them throws. -/
def inertialData (n : Node) : Option InertialData := do
  let mass ← n.getNum ["mass", "<xmlattr>", "value"]
  let ixx ← n.getNum ["inertia", "<xmlattr>", "ixx"]
  let ixy ← n.getNum ["inertia", "<xmlattr>", "ixy"]
  let ixz ← n.getNum ["inertia", "<xmlattr>", "ixz"]
  let iyy ← n.getNum ["inertia", "<xmlattr>", "iyy"]
  let iyz ← n.getNum ["inertia", "<xmlattr>", "iyz"]
  let izz ← n.getNum ["inertia", "<xmlattr>", "izz"]
  return ⟨mass, ixx, ixy, ixz, iyy, iyz, izz⟩

/-- An `inertial` element as Model/Urdf.lean sees it (src/scenegraph/urdf.cpp:247-265); missing or
malformed numbers are replaced with zeros, as only the functions that squash masses read them. -/
noncomputable def toInertial (n : Node) : UInertial :=
  ⟨n.origin, n.inertialData.getD ⟨0, 0, 0, 0, 0, 0, 0⟩⟩

end Node

/-- A child of the `robot` element as Model/Urdf.lean sees it: what src/scenegraph/urdf.cpp:406-470
reads. -/
noncomputable def readElem (c : String × Node) : Elem :=
  if c.1 = "link" then
    .link c.2.name ((c.2.all "inertial").map Node.toInertial)
      ((c.2.all "visual").map Node.origin) ((c.2.all "collision").map Node.origin)
  else if c.1 = "joint" then
    .joint c.2.name c.2.parentLink c.2.childLink c.2.type c.2.origin c.2.axis c.2.mimic
  else .other

/-- src/scenegraph/urdf.cpp:342-392 (the members of `RobotTreeP`): the children of `robot`, the names
of the joints in the order of the `ParentLink` index, and the root link. -/
structure XTree where
  doc : Nodes
  joints : List String
  root : String

/-- src/scenegraph/urdf.cpp:406-487 (`RobotTreeP::RobotTreeP`), which does not change the document. -/
noncomputable def load (doc : Nodes) : Res XTree :=
  (Urdf.load (doc.map readElem)).map fun t => ⟨doc, t.joints.map UJoint.name, t.root⟩

/-- The element an iterator of the index points to (`name_it`, src/scenegraph/urdf.cpp:27-29). -/
def findEl (key name : String) (doc : Nodes) : Option Node :=
  (doc.find? fun c => c.1 = key ∧ c.2.name = some name).map Prod.snd

/-- Edition of the element an iterator of the index points to (src/scenegraph/urdf.cpp:558-562). -/
def setEl (key name : String) (n : Node) : Nodes → Nodes
  | [] => []
  | c :: l => if c.1 = key ∧ c.2.name = some name then (c.1, n) :: l else c :: setEl key name n l

/-- `erase` of the element an iterator of the index points to (src/scenegraph/urdf.cpp:499-500,
516-517). -/
def eraseEl (key name : String) : Nodes → Nodes
  | [] => []
  | c :: l => if c.1 = key ∧ c.2.name = some name then l else c :: eraseEl key name l

namespace XTree

/-- `joints.get<Name>().find` (src/scenegraph/urdf.cpp:507, 638, 734): the element of a joint. -/
def joint (x : XTree) (name : String) : Option Node :=
  if name ∈ x.joints then findEl "joint" name x.doc else none

/-- `links.find` (src/scenegraph/urdf.cpp:495, 514, 573, 726): the element of a link. -/
def link (x : XTree) (name : String) : Option Node := findEl "link" name x.doc

/-- `joints.get<ParentLink>().equal_range` (src/scenegraph/urdf.cpp:491, 510, 570, 691). -/
def childJoints (x : XTree) (link : String) : List String :=
  x.joints.filter fun j => (x.joint j).bind Node.parentLink = some link

/-- src/scenegraph/urdf.cpp:489-504 (`rm_root_joint`). -/
def rmRootJoint (x : XTree) : Res Unit × XTree :=
  match x.childJoints x.root with
  | [j] =>
    match (x.joint j).bind Node.childLink, x.link x.root with
    | some c, some _ =>
      (.ok (), ⟨eraseEl "joint" j (eraseEl "link" x.root x.doc), x.joints.erase j, c⟩)
    | _, _ => (.ub, x)
  | _ => (.throws, x)

/-- src/scenegraph/urdf.cpp:506-521 (`rm_leaf_joint`). -/
def rmLeafJoint (x : XTree) (name : String) : Res Unit × XTree :=
  match x.joint name with
  | none => (.throws, x)
  | some n =>
    match n.childLink with
    | none => (.throws, x)
    | some c =>
      if x.childJoints c ≠ [] then (.throws, x)
      else
        match x.link c with
        | none => (.ub, x)
        | some _ =>
          (.ok (), ⟨eraseEl "link" c (eraseEl "joint" name x.doc), x.joints.erase name, x.root⟩)

end XTree

open Classical in
/-- src/scenegraph/urdf.cpp:159-167 (`Pose::to_ptree`). -/
noncomputable def toPtree [Printer] (p : UPose) : Option Node :=
  if isZero p.xyz ∧ isZero p.rpy then none
  else
    let res := Node.empty
    let res := if ¬ isZero p.xyz then res.put ["<xmlattr>", "xyz"] (.ofVec p.xyz) else res
    let res := if ¬ isZero p.rpy then res.put ["<xmlattr>", "rpy"] (.ofVec p.rpy) else res
    some res

open Classical in
/-- src/scenegraph/urdf.cpp:529-554 (`premul`). Without value, dereferencing `new_origin` is
undefined. -/
noncomputable def premul [Printer] (lhs ilhs : UPose) (noprune : Bool) (n : Node) : Res Node :=
  if lhs ≠ ilhs.inverse then .ub
  else (UPose.fromPtree n.origin).bind fun rhs =>
    if rhs = ilhs then .ok (if noprune then n.putChild "origin" Node.empty else n.erase "origin")
    else
      match toPtree (lhs.mul rhs) with
      | none => .ub
      | some o => .ok (n.putChild "origin" o)

/-- A loop on elements given by iterators of the index, which stops at the first exception
(src/scenegraph/urdf.cpp:568-572). -/
def editEls (key : String) (f : String → Node → Res Node) : List String → Nodes → Res Unit × Nodes
  | [], doc => (.ok (), doc)
  | name :: rest, doc =>
    match findEl key name doc with
    | none => (.ub, doc)
    | some n =>
      match f name n with
      | .ok n' => editEls key f rest (setEl key name n' doc)
      | .throws => (.throws, doc)
      | .ub => (.ub, doc)

/-- src/scenegraph/urdf.cpp:575-578 (the loop on the children of a link with a key), which stops at the
first exception. -/
def editAll (key : String) (f : Node → Res Node) : Nodes → Res Unit × Nodes :=
  mapUpTo fun c => if c.1 = key then (f c.2).map fun n => (c.1, n) else .ok c

/-- src/scenegraph/urdf.cpp:574-579 (the loop on the keys). -/
def editKeys (f : Node → Res Node) : List String → Nodes → Res Unit × Nodes
  | [], c => (.ok (), c)
  | key :: rest, c =>
    match editAll key f c with
    | (.ok (), c') => editKeys f rest c'
    | r => r

/-- src/scenegraph/urdf.cpp:573-579 (the elements of the root link). -/
noncomputable def transportLink [Printer] (pose : UPose) (n : Node) : Res Unit × Node :=
  match editKeys (premul pose.inverse pose false) ["inertial", "visual", "collision"] n.children with
  | (r, c) => (r, ⟨n.text, c⟩)

/-- src/scenegraph/urdf.cpp:582-589 (`flip_joint_links_fctor`); `none` when it throws. -/
def flipLinks (n : Node) : Option Node :=
  match n.parentLink, n.childLink with
  | some parent, some child =>
    some ((n.put ["parent", "<xmlattr>", "link"] (.ofStr child)).put
      ["child", "<xmlattr>", "link"] (.ofStr parent))
  | _, _ => none

/-- src/scenegraph/urdf.cpp:594-613 (`flip_joint_axis`). -/
noncomputable def flipAxis [Printer] (n : Node) : Res Node :=
  match n.type with
  | none => .throws
  | some .fixed => .ok n
  | some .floating => .ok n
  | some _ =>
    let old : Array3d := n.axis.getD ![1, 0, 0]
    let new : Array3d := ![-old 0, -old 1, -old 2]
    if new 0 = 1 ∧ new 1 = 0 ∧ new 2 = 0 then .ok (n.erase "axis")
    else .ok (n.put ["axis", "<xmlattr>", "xyz"] (.ofVec new))

/-- Insertion in the `ParentLink` index (src/scenegraph/urdf.cpp:358-360), at the upper bound of the
joints with the same key; `key` gives the keys. -/
def insertUpper (key : String → String) (l : List String) (j : String) : List String :=
  l.takeWhile (fun x => key x ≤ key j) ++ j :: l.dropWhile (fun x => key x ≤ key j)

/-- Repositioning of a modified joint in the `ParentLink` index (`modify`, called in
src/scenegraph/urdf.cpp:663): it stays in place if it is still between its neighbours, otherwise it
is inserted again. -/
def replaceInIndex (key : String → String) (pre post : List String) (j : String) : List String :=
  if (∀ p ∈ pre.getLast?, key p ≤ key j) ∧ (∀ q ∈ post.head?, key j ≤ key q) then pre ++ j :: post
  else insertUpper key (pre ++ post) j

/-- The key of a joint in the `ParentLink` index (`parent_link_it`, src/scenegraph/urdf.cpp:35-36). -/
def parentKey (doc : Nodes) (name : String) : String :=
  ((findEl "joint" name doc).bind Node.parentLink).getD ""

namespace XTree

/-- src/scenegraph/urdf.cpp:564-580 (`transport_root_link_frame`). -/
noncomputable def transportRootLinkFrame [Printer] (x : XTree) (pose : UPose)
    (noprune : String → Bool) : Res Unit × XTree :=
  match editEls "joint" (fun j => premul pose.inverse pose (noprune j)) (x.childJoints x.root) x.doc with
  | (.ok (), doc) =>
    match findEl "link" x.root doc with
    | none => (.throws, { x with doc := doc })
    | some l =>
      match transportLink pose l with
      | (r, l') => (r, { x with doc := setEl "link" x.root l' doc })
  | (r, doc) => (r, { x with doc := doc })

/-- src/scenegraph/urdf.cpp:651-661 (moving the root link frame to the joint). -/
noncomputable def transportToJoint [Printer] (x : XTree) (name : String) (n : Node)
    (addPruneException : Bool) : Res Unit × XTree :=
  match n.origin with
  | none => (.ok (), x)
  | some e =>
    match UPose.fromElem e with
    | .ok pose => x.transportRootLinkFrame pose (fun j => addPruneException && (j = name : Bool))
    | .throws => (.throws, x)
    | .ub => (.ub, x)

/-- src/scenegraph/urdf.cpp:662-666 (the end of `flip_root_link_joint`). A joint with the same child as
the flipped one makes `modify` fail, which the assertion excludes. -/
noncomputable def flipInIndex [Printer] (x : XTree) (name : String) : Res Unit × XTree :=
  match x.joints.span (fun j => j ≠ name), (x.joint name).bind fun n => (flipLinks n).map (n, ·) with
  | (pre, _ :: post), some (n, n1) =>
    if n1.childLink ∈ (pre ++ post).map (fun j => (x.joint j).bind Node.childLink) then (.ub, x)
    else
      let doc1 := setEl "joint" name n1 x.doc
      let joints := replaceInIndex (parentKey doc1) pre post name
      match flipAxis n1 with
      | .ok n2 => (.ok (), ⟨setEl "joint" name n2 doc1, joints, n1.parentLink.getD ""⟩)
      | .throws => (.throws, ⟨doc1, joints, n1.parentLink.getD ""⟩)
      | .ub => (.ub, x)
  | _, _ => (.ub, x)

/-- src/scenegraph/urdf.cpp:636-667 (`flip_root_link_joint`). -/
noncomputable def flipRootLinkJoint [Printer] (x : XTree) (name : String)
    (addPruneException : Bool) : Res Unit × XTree :=
  match x.joint name with
  | none => (.throws, x)
  | some n =>
    if n.parentLink ≠ some x.root then (.ub, x)
    else
      match x.transportToJoint name n addPruneException with
      | (.ok (), x1) => x1.flipInIndex name
      | r => r

/-- src/scenegraph/urdf.cpp:672-681 (the first loop of `define_as_root_link`): the names of the joints
from the link up to the root. The number bounds the number of iterations. -/
def pathToRoot (x : XTree) : ℕ → String → Option (Res (List String))
  | 0, _ => none
  | n + 1, cur =>
    if cur = x.root then some (.ok [])
    else
      match x.joints.find? (fun j => (x.joint j).bind Node.childLink = some cur) with
      | none => some .throws
      | some j =>
        match (x.joint j).bind Node.type with
        | none => some .throws
        | some .floating => some .throws
        | some .planar => some .throws
        | some _ =>
          match (x.joint j).bind Node.parentLink with
          | none => some .throws
          | some p => (pathToRoot x n p).map fun r => r.map fun l => j :: l

/-- src/scenegraph/urdf.cpp:682-685 (the second loop of `define_as_root_link`), on the reversed path. -/
noncomputable def flipAll [Printer] : List String → XTree → Res Unit × XTree
  | [], x => (.ok (), x)
  | name :: rest, x =>
    match x.flipRootLinkJoint name (rest ≠ [] : Bool) with
    | (.ok (), x1) => flipAll rest x1
    | r => r

/-- src/scenegraph/urdf.cpp:669-686 (`define_as_root_link`). -/
noncomputable def defineAsRootLink [Printer] (n : ℕ) (x : XTree) (link : String) :
    Option (Res Unit × XTree) :=
  match x.pathToRoot n link with
  | none => none
  | some (.ok path) => some (flipAll path.reverse x)
  | some .throws => some (.throws, x)
  | some .ub => some (.ub, x)

end XTree

/-- src/scenegraph/urdf.cpp:779-783 (`makeJointFixed` of an element). -/
def makeFixed (n : Node) : Node := (n.put ["<xmlattr>", "type"] (.ofStr "fixed")).erase "axis"

/-- src/scenegraph/urdf.cpp:791-792 (the end of `makeJointFloating`). -/
def makeFloating (n : Node) : Node :=
  (n.put ["<xmlattr>", "type"] (.ofStr "floating")).erase "axis"

namespace XTree

/-- src/scenegraph/urdf.cpp:785-787 (`makeJointFixed`). -/
def makeJointFixed (x : XTree) (name : String) : Res Unit × XTree :=
  match x.joint name with
  | none => (.throws, x)
  | some n => (.ok (), { x with doc := setEl "joint" name (makeFixed n) x.doc })

/-- src/scenegraph/urdf.cpp:789-793 (`makeJointFloating`). -/
def makeJointFloating (x : XTree) (name : String) : Res Unit × XTree :=
  match x.joint name with
  | none => (.throws, x)
  | some n => (.ok (), { x with doc := setEl "joint" name (makeFloating n) x.doc })

end XTree

open Classical in
/-- src/scenegraph/urdf.cpp:863-873 (writing the pose of the new inertial). -/
noncomputable def putPose [Printer] (T : ETransform) (n : Node) : Node :=
  let n := if T.translation ≠ 0 then n.put ["origin", "<xmlattr>", "xyz"] (.ofVec T.translation)
    else n
  if T.linear ≠ 1 then n.put ["origin", "<xmlattr>", "rpy"] (.ofVec (rpyFromMatrix T.linear)) else n

/-- src/scenegraph/urdf.cpp:856-862 (writing the numbers of the new inertial). -/
def putData [Printer] (d : InertialData) (n : Node) : Node :=
  ((((((n.put ["mass", "<xmlattr>", "value"] (.ofNum d.mass)).put
    ["inertia", "<xmlattr>", "ixx"] (.ofNum d.ixx)).put
    ["inertia", "<xmlattr>", "ixy"] (.ofNum d.ixy)).put
    ["inertia", "<xmlattr>", "ixz"] (.ofNum d.ixz)).put
    ["inertia", "<xmlattr>", "iyy"] (.ofNum d.iyy)).put
    ["inertia", "<xmlattr>", "iyz"] (.ofNum d.iyz)).put
    ["inertia", "<xmlattr>", "izz"] (.ofNum d.izz)

/-- The getters of `Inertial` (src/scenegraph/urdf.cpp:253-265), which throw when a number is missing or
malformed. -/
def readData (n : Node) : Res InertialData :=
  match n.inertialData with
  | some d => .ok d
  | none => .throws

/-- src/scenegraph/urdf.cpp:827-873 (the new inertial of the parent link). The arguments are the
joint, the inertial of the child and the one of the parent. -/
noncomputable def mergeInertial [Printer] (joint child : Node) (parent : Option Node) : Res Node :=
  (UPose.fromPtree joint.origin).bind fun jo =>
  (UPose.fromPtree child.origin).bind fun co =>
  let childPose := (toEigenTransform jo).mul (toEigenTransform co)
  match parent with
  | none => .ok (putPose childPose child)
  | some p =>
    (UPose.fromPtree p.origin).bind fun po =>
    (readData p).bind fun pd =>
    (readData child).bind fun cd =>
    (squashInertial pd.mass (toEigenTransform po) (toEigenMatrix3 pd)
      cd.mass childPose (toEigenMatrix3 cd)).bind fun r =>
    .ok (putPose r.2.1 (putData
      ⟨r.1, r.2.2 0 0, r.2.2 0 1, r.2.2 0 2, r.2.2 1 1, r.2.2 1 2, r.2.2 2 2⟩ Node.empty))

namespace XTree

/-- src/scenegraph/urdf.cpp:816-876 (`squashJointMass` of a joint). -/
noncomputable def squashJoint [Printer] (x : XTree) (j : Node) : Res Unit × XTree :=
  match j.childLink with
  | none => (.throws, x)
  | some child =>
    match x.link child with
    | none => (.throws, x)
    | some c =>
      match c.find "inertial" with
      | none => (.ok (), x)
      | some ci =>
        match j.parentLink with
        | none => (.throws, x)
        | some parent =>
          match x.link parent with
          | none => (.throws, x)
          | some p =>
            match mergeInertial j ci (p.find "inertial") with
            | .throws => (.throws, x)
            | .ub => (.ub, x)
            | .ok i =>
              let doc1 := setEl "link" parent (p.putChild "inertial" i) x.doc
              match findEl "link" child doc1 with
              | none => (.ub, x)
              | some c1 => (.ok (), { x with doc := setEl "link" child (c1.erase "inertial") doc1 })

/-- src/scenegraph/urdf.cpp:878-880 (`squashJointMass` of a joint given by name). -/
noncomputable def squashJointMass [Printer] (x : XTree) (name : String) : Res Unit × XTree :=
  match x.joint name with
  | none => (.throws, x)
  | some j => x.squashJoint j

end XTree

/-- almath/scenegraph/urdf.h:241-251 (`JointConstVisitor`, `JointVisitor`), for a visitor whose own
state is `τ`. The visitor gets a reference to the element of a joint, here its name; it may edit
the document. -/
structure Visitor (τ : Type) where
  discover : String → Node → XTree × τ → Res Bool × XTree × τ
  finish : String → Node → XTree × τ → Res Unit × XTree × τ

/-- src/scenegraph/urdf.cpp:694, 704 (the recursive call of `walk_joint`). -/
def walkChild {τ : Type} (recur : String → XTree × τ → Option (Res Unit × XTree × τ)) (j : String)
    (s : XTree × τ) : Option (Res Unit × XTree × τ) :=
  match (s.1.joint j).bind Node.childLink with
  | none => some (.throws, s)
  | some c => recur c s

/-- src/scenegraph/urdf.cpp:690-695, 700-705 (the loop of `walk_joint`): the elements are read when the
loop gets to them, the link of the recursive call after `discover`. -/
def walkList {τ : Type} (vis : Visitor τ)
    (recur : String → XTree × τ → Option (Res Unit × XTree × τ)) :
    List String → XTree × τ → Option (Res Unit × XTree × τ)
  | [], s => some (.ok (), s)
  | j :: l, s =>
    match s.1.joint j with
    | none => some (.ub, s)
    | some n =>
      match vis.discover j n s with
      | (.throws, s1) => some (.throws, s1)
      | (.ub, s1) => some (.ub, s1)
      | (.ok b, s1) =>
        match (if b then walkChild recur j s1 else some (.ok (), s1)) with
        | some (.ok (), s2) =>
          match s2.1.joint j with
          | none => some (.ub, s2)
          | some n2 =>
            match vis.finish j n2 s2 with
            | (.ok (), s3) => walkList vis recur l s3
            | r => some r
        | r => r

/-- src/scenegraph/urdf.cpp:688-706 (both `walk_joint`). The number bounds the depth of the
recursion. -/
def walkJoint {τ : Type} (vis : Visitor τ) : ℕ → String → XTree × τ → Option (Res Unit × XTree × τ)
  | 0, _, _ => none
  | n + 1, link, s => walkList vis (walkJoint vis n) (s.1.childJoints link) s

/-- src/scenegraph/urdf.cpp:757-763 (both `traverse_joints`). -/
def traverseJoints {τ : Type} (vis : Visitor τ) (n : ℕ) (s : XTree × τ) :
    Option (Res Unit × XTree × τ) :=
  walkJoint vis n s.1.root s

/-- src/scenegraph/urdf.cpp:796-807 (`MakeContinuousJointsFixedVisitor`). -/
def continuousVisitor : Visitor (List String) where
  discover j n s :=
    match n.type with
    | none => (.throws, s)
    | some .continuous =>
      (.ok true, { s.1 with doc := setEl "joint" j (makeFixed n) s.1.doc }, s.2 ++ [j])
    | some _ => (.ok true, s)
  finish _ _ s := (.ok (), s)

/-- src/scenegraph/urdf.cpp:809-813 (`makeContinuousJointsFixed`). -/
def makeContinuousJointsFixed (n : ℕ) (x : XTree) : Option (Res Unit × XTree × List String) :=
  traverseJoints continuousVisitor n (x, [])

/-- src/scenegraph/urdf.cpp:883-893 (`SquashFixedJointsMassVisitor`). -/
noncomputable def squashFixedVisitor [Printer] : Visitor Unit where
  discover _ _ s := (.ok true, s)
  finish _ n s :=
    match n.type with
    | none => (.throws, s)
    | some .fixed => ((s.1.squashJoint n).1, (s.1.squashJoint n).2, s.2)
    | some _ => (.ok (), s)

/-- src/scenegraph/urdf.cpp:895-898 (`squashFixedJointsMass`). -/
noncomputable def squashFixedJointsMass [Printer] (n : ℕ) (x : XTree) :
    Option (Res Unit × XTree × Unit) :=
  traverseJoints squashFixedVisitor n (x, ())

/-- src/scenegraph/urdf.cpp:901-919 (`MakeMasslessJointsFixedVisitor`). -/
noncomputable def masslessVisitor [Printer] : Visitor (List String) where
  discover _ _ s := (.ok true, s)
  finish j n s :=
    match n.type with
    | none => (.throws, s)
    | some .fixed => ((s.1.squashJoint n).1, (s.1.squashJoint n).2, s.2)
    | some _ =>
      match n.childLink.bind s.1.link with
      | none => (.throws, s)
      | some c =>
        match c.find "inertial" with
        | none =>
          (.ok (), { s.1 with doc := setEl "joint" j (makeFixed n) s.1.doc }, s.2 ++ [j])
        | some _ => (.ok (), s)

/-- src/scenegraph/urdf.cpp:921-925 (`makeMasslessJointsFixed`). -/
noncomputable def makeMasslessJointsFixed [Printer] (n : ℕ) (x : XTree) :
    Option (Res Unit × XTree × List String) :=
  traverseJoints masslessVisitor n (x, [])

/-- src/scenegraph/urdf.cpp:928-953 (`ListJointsToRemoveVisitor`), for a predicate without side effects;
the state is `level` and `names`. -/
def listVisitor (pred : Node → Bool) : Visitor (ℤ × List String) where
  discover j n s :=
    let level := if pred n then s.2.1 + 1 else s.2.1
    (.ok true, s.1, level, if level > 0 then s.2.2 ++ [j] else s.2.2)
  finish _ n s :=
    let level := if pred n then s.2.1 - 1 else s.2.1
    if level ≥ 0 then (.ok (), s.1, level, s.2.2) else (.ub, s.1, level, s.2.2)

/-- src/scenegraph/urdf.cpp:961-963 (the loop of `removeSubTreeIfJoint`), on the reversed names. -/
def rmLeaves : List String → XTree → Res Unit × XTree
  | [], x => (.ok (), x)
  | name :: rest, x =>
    match x.rmLeafJoint name with
    | (.ok (), x1) => rmLeaves rest x1
    | r => r

/-- src/scenegraph/urdf.cpp:955-965 (`removeSubTreeIfJoint`). -/
def removeSubTreeIfJoint (n : ℕ) (pred : Node → Bool) (x : XTree) :
    Option (Res (List String) × XTree) :=
  match traverseJoints (listVisitor pred) n (x, 0, []) with
  | none => none
  | some (.throws, _) => some (.throws, x)
  | some (.ub, _) => some (.ub, x)
  | some (.ok (), s) =>
    match rmLeaves s.2.2.reverse x with
    | (r, x1) => some (r.map fun _ => s.2.2, x1)

end AlMath.UrdfXml
