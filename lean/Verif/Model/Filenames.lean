import Verif.Basic
import Mathlib.Data.String.Basic

/-!
Model of `urdf::robot::transform_filenames` (src/scenegraph/urdf.cpp:971-1014), on whole XML documents.

Simplifications. `boost::property_tree::ptree` is trusted and modelled by a tree whose nodes have a text
and named children in document order; attributes are the children of the child `<xmlattr>`. The children
with a given key are visited in document order (`equal_range`), and `get_child` finds the first one. The
function given by the caller returns a text or throws (`none`); it does not change the document.
-/

namespace AlMath.Filenames

/-- `boost::property_tree::ptree` (almath/scenegraph/urdf.h:59). -/
inductive Xml where
  | node (text : String) (children : List (String × Xml))

/-- The text of a node (`get_value`, src/scenegraph/urdf.cpp:985). -/
def Xml.text : Xml → String
  | node s _ => s

/-- The children of a node (`equal_range`, src/scenegraph/urdf.cpp:989). -/
def Xml.children : Xml → List (String × Xml)
  | node _ c => c

/-- An edition of a node in place: whether it throws, and the node after that
(src/scenegraph/urdf.cpp:975-987, the lambda `apply_op` takes a reference). -/
abbrev Edit := Xml → Res Unit × Xml

/-- One edition after the other, unless the first one throws (a sequence of statements,
src/scenegraph/urdf.cpp:1000-1010). -/
def Edit.seq (f g : Edit) : Edit := fun t =>
  match f t with
  | (.ok _, t') => g t'
  | r => r

/-- The loop of `each`, over the children (src/scenegraph/urdf.cpp:989-990). -/
def eachIn (key : String) (f : Edit) : List (String × Xml) → Res Unit × List (String × Xml)
  | [] => (.ok (), [])
  | (k, c) :: l =>
    if k = key then
      match f c with
      | (.ok _, c') => ((eachIn key f l).1, (k, c') :: (eachIn key f l).2)
      | (.throws, c') => (.throws, (k, c') :: l)
      | (.ub, c') => (.ub, (k, c') :: l)
    else ((eachIn key f l).1, (k, c) :: (eachIn key f l).2)

/-- Edition of all the children with a key (loop over `equal_range`, src/scenegraph/urdf.cpp:989-990,
996-997, 998-999, 1001-1002, 1005-1006). -/
def each (key : String) (f : Edit) : Edit := fun t =>
  ((eachIn key f t.children).1, .node t.text (eachIn key f t.children).2)

/-- The search of `first`, over the children (src/scenegraph/urdf.cpp:991, 1000). -/
def firstIn (key : String) (missing : Res Unit) (f : Edit) :
    List (String × Xml) → Res Unit × List (String × Xml)
  | [] => (missing, [])
  | (k, c) :: l =>
    if k = key then ((f c).1, (k, (f c).2) :: l)
    else ((firstIn key missing f l).1, (k, c) :: (firstIn key missing f l).2)

/-- Edition of the first child with a key, with the outcome when there is none (`get_child_optional` and
`get_child`, src/scenegraph/urdf.cpp:982, 991, 1000, 1007). -/
def first (key : String) (missing : Res Unit) (f : Edit) : Edit := fun t =>
  ((firstIn key missing f t.children).1, .node t.text (firstIn key missing f t.children).2)

/-- src/scenegraph/urdf.cpp:985 (`put_value` of `op` of the value). -/
def applyValue (op : String → Option String) : Edit := fun t =>
  match op t.text with
  | some s => (.ok (), .node s t.children)
  | none => (.throws, t)

/-- src/scenegraph/urdf.cpp:975-987 (`apply_op`; the path `<xmlattr>.filename` has two keys). -/
def applyOp (op : String → Option String) : Edit :=
  first "<xmlattr>" (.ok ()) (first "filename" (.ok ()) (applyValue op))

/-- src/scenegraph/urdf.cpp:972-1013 (`transform_filenames`). -/
def transformFilenames (op : String → Option String) : Edit :=
  Edit.seq (each "material" (first "texture" (.ok ()) (applyOp op)))
    (each "link" (each "visual"
      (Edit.seq (first "geometry" .throws (each "mesh" (applyOp op)))
        (each "material" (first "texture" (.ok ()) (applyOp op))))))

end AlMath.Filenames
