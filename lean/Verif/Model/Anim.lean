import Verif.Basic
import Mathlib.Data.Real.Archimedean

/-!
Model of src/scenegraph/qianim.cpp and almath/scenegraph/qianim.h: edition of animation documents.

Simplifications. `boost::property_tree::ptree` is trusted and modelled by a tree whose nodes have
a text and named children in document order. A text that is written or read as a number is
represented by the number (`Data.num`), conversion to text and back being exact; other text is
`Data.str`. In an attribute that is only read as text (a name, a version) there is no `Data.num`.
`find` and `equal_range` return children in document order; they are called here only for names
whose children are never inserted out of order. A reference to a child is modelled by its
position. `double` and `float` are exact real arithmetic, `int` is an integer in the range of
32-bit numbers.
-/

namespace AlMath.Anim

/-- The text of a node of a `ptree` (almath/scenegraph/qianim.h:22). -/
inductive Data where
  | num (x : ℝ)
  | str (s : String)

/-- `boost::property_tree::ptree` (almath/scenegraph/qianim.h:22). -/
inductive PTree where
  | node (data : Data) (children : List (String × PTree))

namespace PTree

/-- `ptree::data` (used in src/scenegraph/qianim.cpp:209). -/
def data : PTree → Data
  | node d _ => d

/-- The children of a node (`begin`, `end`, used in src/scenegraph/qianim.cpp:56-57). -/
def children : PTree → List (String × PTree)
  | node _ c => c

/-- `ptree{}` (src/scenegraph/qianim.cpp:190). -/
def empty : PTree := node (.str "") []

/-- `ptree::find` (used by `get` and `get_child_optional`, src/scenegraph/qianim.cpp:18, 279). -/
def find (key : String) (pt : PTree) : Option PTree :=
  (pt.children.find? fun c => c.1 = key).map Prod.snd

/-- Reading an attribute (`get("<xmlattr>.name")`, src/scenegraph/qianim.cpp:18, 41). -/
def attr (name : String) (pt : PTree) : Option Data :=
  ((pt.find "<xmlattr>").bind (find name)).map data

end PTree

open Classical in
/-- Conversion of text to `int` (`get<int>`, src/scenegraph/qianim.cpp:41). -/
noncomputable def Data.toInt : Data → Option ℤ
  | .num x => if x = ⌊x⌋ ∧ -2 ^ 31 ≤ ⌊x⌋ ∧ ⌊x⌋ < 2 ^ 31 then some ⌊x⌋ else none
  | .str _ => none

/-- Conversion of text to a floating-point number (`get<T>`, almath/scenegraph/qianim.h:58). -/
def Data.toReal : Data → Option ℝ
  | .num x => some x
  | .str _ => none

/-- `get` of a mandatory value (src/scenegraph/qianim.cpp:41): throws when it is missing or
malformed. -/
def mandatory {α : Type} : Option α → Res α
  | some a => .ok a
  | none => .throws

/-- Edition of the first child with a name, which is added if missing (`put`,
src/scenegraph/qianim.cpp:50). -/
def putChild (key : String) (f : PTree → PTree) : List (String × PTree) → List (String × PTree)
  | [] => [(key, f .empty)]
  | c :: l => if c.1 = key then (c.1, f c.2) :: l else c :: putChild key f l

/-- Writing an attribute (`put("<xmlattr>.name", …)`, src/scenegraph/qianim.cpp:50). -/
def putAttr (name : String) (d : Data) (pt : PTree) : PTree :=
  .node pt.data (putChild "<xmlattr>" (fun x =>
    .node x.data (putChild name (fun y => .node d y.children) x.children)) pt.children)

/-- almath/scenegraph/qianim.h:27-30 (`Side`). -/
inductive Side where
  | left
  | right
  deriving DecidableEq

/-- src/scenegraph/qianim.cpp:17-25 (`Tangent::get_side`). -/
def getSide (pt : PTree) : Res Side :=
  match pt.attr "side" with
  | some (.str "left") => .ok .left
  | some (.str "right") => .ok .right
  | _ => .throws

/-- src/scenegraph/qianim.cpp:27-30 (`Tangent::put_side`). -/
def putSide (pt : PTree) (side : Side) : PTree :=
  putAttr "side" (.str (if side = .left then "left" else "right")) pt

/-- almath/scenegraph/qianim.h:55-59 (`Tangent::get_abscissa`). -/
def getAbscissa (pt : PTree) : Res ℝ := mandatory ((pt.attr "abscissaParam").bind Data.toReal)

/-- almath/scenegraph/qianim.h:63-67 (`Tangent::put_abscissa`). -/
def putAbscissa (pt : PTree) (x : ℝ) : PTree := putAttr "abscissaParam" (.num x) pt

/-- almath/scenegraph/qianim.h:70-74 (`Tangent::get_ordinate`). -/
def getOrdinate (pt : PTree) : Res ℝ := mandatory ((pt.attr "ordinateParam").bind Data.toReal)

/-- almath/scenegraph/qianim.h:76-80 (`Tangent::put_ordinate`). -/
def putOrdinate (pt : PTree) (x : ℝ) : PTree := putAttr "ordinateParam" (.num x) pt

/-- src/scenegraph/qianim.cpp:40-45 (`Key::get_frame`). -/
noncomputable def getFrame (pt : PTree) : Res ℤ :=
  (mandatory ((pt.attr "frame").bind Data.toInt)).bind fun frame =>
    if frame < 0 then .throws else .ok frame

/-- src/scenegraph/qianim.cpp:47-51 (`Key::put_frame`). -/
noncomputable def putFrame (pt : PTree) (frame : ℤ) : Res PTree :=
  if frame < 0 then .throws else .ok (putAttr "frame" (.num frame) pt)

/-- almath/scenegraph/qianim.h:121-125 (`Key::get_value`). -/
def getValue (pt : PTree) : Res ℝ := mandatory ((pt.attr "value").bind Data.toReal)

/-- almath/scenegraph/qianim.h:127-131 (`Key::put_value`). -/
def putValue (pt : PTree) (x : ℝ) : PTree := putAttr "value" (.num x) pt

/-- src/scenegraph/qianim.cpp:56-64 (the loop of `erase_tangent`). The children erased before an
exception stay erased. -/
def eraseLoop (side : Side) : List (String × PTree) → Res ℕ × List (String × PTree)
  | [] => (.ok 0, [])
  | c :: l =>
    if c.1 = "Tangent" then
      match getSide c.2 with
      | .ok s =>
        if s = side then ((eraseLoop side l).1.map (· + 1), (eraseLoop side l).2)
        else ((eraseLoop side l).1, c :: (eraseLoop side l).2)
      | .throws => (.throws, c :: l)
      | .ub => (.ub, c :: l)
    else ((eraseLoop side l).1, c :: (eraseLoop side l).2)

/-- src/scenegraph/qianim.cpp:53-66 (`Key::erase_tangent`). -/
def eraseTangent (pt : PTree) (side : Side) : Res ℕ × PTree :=
  ((eraseLoop side pt.children).1, .node pt.data (eraseLoop side pt.children).2)

/-- src/scenegraph/qianim.cpp:68-75 (`get_tangent_optional_impl`): the position of the first
tangent with the given side. The last argument is the position of the first child of the list. -/
def findTangent (side : Side) : List (String × PTree) → ℕ → Res (Option ℕ)
  | [], _ => .ok none
  | c :: l, i =>
    if c.1 = "Tangent" then
      (getSide c.2).bind fun s => if side = s then .ok (some i) else findTangent side l (i + 1)
    else findTangent side l (i + 1)

/-- src/scenegraph/qianim.cpp:77-83 (`Key::get_tangent_optional`). -/
def getTangentOptional (pt : PTree) (side : Side) : Res (Option ℕ) :=
  findTangent side pt.children 0

/-- almath/scenegraph/qianim.h:100-106 (`Key::get_tangent`): the tangent itself. -/
def getTangent (pt : PTree) (side : Side) : Res PTree :=
  (getTangentOptional pt side).bind fun o =>
    mandatory (o.bind fun i => (pt.children[i]?).map Prod.snd)

/-- src/scenegraph/qianim.cpp:86-91 (`add_tangent`, whose assertion holds in its only call). -/
def addTangent (pt : PTree) (side : Side) : ℕ × PTree :=
  (pt.children.length, .node pt.data (pt.children ++ [("Tangent", putSide .empty side)]))

/-- src/scenegraph/qianim.cpp:93-96 (`Key::require_tangent`). -/
def requireTangent (pt : PTree) (side : Side) : Res ℕ × PTree :=
  match getTangentOptional pt side with
  | .ok (some i) => (.ok i, pt)
  | .ok none => (.ok (addTangent pt side).1, (addTangent pt side).2)
  | .throws => (.throws, pt)
  | .ub => (.ub, pt)

/-- Edition of the child at a position (through a reference, almath/scenegraph/qianim.h:115-117). -/
def editChild (pt : PTree) (i : ℕ) (f : PTree → PTree) : PTree :=
  .node pt.data (pt.children.modify i fun c => (c.1, f c.2))

/-- almath/scenegraph/qianim.h:112-119 (`Key::put_tangent`). -/
def putTangent (pt : PTree) (side : Side) (abscissa ordinate : ℝ) : Res ℕ × PTree :=
  match requireTangent pt side with
  | (.ok i, pt1) => (.ok i, editChild pt1 i fun t => putOrdinate (putAbscissa t abscissa) ordinate)
  | r => r

open Classical in
/-- almath/scenegraph/qianim.h:137-155 (`Key::check_cubic_bezier`). The difference of frames is
an `int`. -/
noncomputable def checkInterval (p0Frame : ℤ) (p1Dframe p2Dframe : ℝ) (p3Frame : ℤ) : Res Unit :=
  let dframe := p3Frame - p0Frame
  if dframe < -2 ^ 31 ∨ 2 ^ 31 ≤ dframe then .ub
  else if dframe ≤ 0 then .throws
  else if p1Dframe < 0 ∨ p1Dframe > dframe then .throws
  else if p2Dframe > 0 ∨ p2Dframe < -dframe then .throws
  else .ok ()

/-- The eight numbers read by almath/scenegraph/qianim.h:173-186 (`apply_cubic_bezier`). -/
structure BezierArgs where
  p0Frame : ℤ
  p0Value : ℝ
  p1Dframe : ℝ
  p1Dvalue : ℝ
  p2Dframe : ℝ
  p2Dvalue : ℝ
  p3Frame : ℤ
  p3Value : ℝ

/-- almath/scenegraph/qianim.h:173-186 (`Key::apply_cubic_bezier`): the arguments given to the
functor. The order of evaluation of the arguments does not matter, all failures being
exceptions. -/
noncomputable def bezierArgs (p0Key p3Key : PTree) : Res BezierArgs :=
  (getTangent p0Key .right).bind fun p1 =>
  (getTangent p3Key .left).bind fun p2 =>
  (getFrame p0Key).bind fun f0 =>
  (getValue p0Key).bind fun v0 =>
  (getAbscissa p1).bind fun x1 =>
  (getOrdinate p1).bind fun y1 =>
  (getAbscissa p2).bind fun x2 =>
  (getOrdinate p2).bind fun y2 =>
  (getFrame p3Key).bind fun f3 =>
  (getValue p3Key).bind fun v3 =>
  .ok ⟨f0, v0, x1, y1, x2, y2, f3, v3⟩

/-- almath/scenegraph/qianim.h:34-48 (`adjacent_for_each`), for a functor that may throw. -/
def adjacentForEach {α : Type} (op : α → α → Res Unit) : List α → Res Unit
  | a :: b :: l => (op a b).bind fun _ => adjacentForEach op (b :: l)
  | _ => .ok ()

/-- almath/scenegraph/qianim.h:235-247 (`get_keys`). -/
def getKeys (pt : PTree) : List PTree :=
  (pt.children.filter fun c => c.1 = "Key").map Prod.snd

/-- almath/scenegraph/qianim.h:251-261 (`ActuatorCurve::check_cubic_bezier`). -/
noncomputable def checkCubicBezier (pt : PTree) : Res Unit :=
  adjacentForEach (fun p0 p3 => (bezierArgs p0 p3).bind fun a =>
    checkInterval a.p0Frame a.p1Dframe a.p2Dframe a.p3Frame) (getKeys pt)

/-- `std::lower_bound` (called in src/scenegraph/qianim.cpp:173): the loop of its usual
implementation, for a comparison that may throw. `first` and `len` describe the range still
searched. -/
def lowerBound {α : Type} (comp : α → Res Bool) (l : List α) (first len : ℕ) : Res ℕ :=
  if hlen : len = 0 then .ok first
  else
    let half := len / 2
    match l[first + half]? with
    | none => .ub
    | some a =>
      match comp a with
      | .ok true => lowerBound comp l (first + half + 1) (len - half - 1)
      | .ok false => lowerBound comp l first half
      | .throws => .throws
      | .ub => .ub
termination_by len
decreasing_by all_goals omega

/-- src/scenegraph/qianim.cpp:168-170 (`key_comp`). -/
noncomputable def keyComp (frame : ℤ) (key : String × PTree) : Res Bool :=
  if key.1 ≠ "Key" then .ok true
  else (getFrame key.2).map fun f => f < frame

/-- src/scenegraph/qianim.cpp:188 (the test that the key was found). -/
noncomputable def isFrameAt (pt : PTree) (it : ℕ) (frame : ℤ) : Res Bool :=
  match pt.children[it]? with
  | none => .ok false
  | some c => (getFrame c.2).map fun f => f = frame

/-- src/scenegraph/qianim.cpp:172-184 (both `get_key_optional`). -/
noncomputable def getKeyOptional (pt : PTree) (frame : ℤ) : Res (Option ℕ) :=
  (lowerBound (keyComp frame) pt.children 0 pt.children.length).bind fun it =>
  (isFrameAt pt it frame).bind fun b => .ok (if b then some it else none)

/-- Insertion of a child and writing of its frame (src/scenegraph/qianim.cpp:190-191,
221-222). The child stays inserted when the frame is refused. -/
noncomputable def insertFrame (pt : PTree) (it : ℕ) (tag : String) (child : PTree) (frame : ℤ) :
    Res ℕ × PTree :=
  match putFrame child frame with
  | .ok k => (.ok it, .node pt.data (pt.children.insertIdx it (tag, k)))
  | .throws => (.throws, .node pt.data (pt.children.insertIdx it (tag, child)))
  | .ub => (.ub, pt)

/-- src/scenegraph/qianim.cpp:186-193 (`require_key`). -/
noncomputable def requireKey (pt : PTree) (frame : ℤ) : Res ℕ × PTree :=
  match lowerBound (keyComp frame) pt.children 0 pt.children.length with
  | .ok it =>
    match isFrameAt pt it frame with
    | .ok true => (.ok it, pt)
    | .ok false => insertFrame pt it "Key" .empty frame
    | .throws => (.throws, pt)
    | .ub => (.ub, pt)
  | .throws => (.throws, pt)
  | .ub => (.ub, pt)

/-- `std::upper_bound` (called in src/scenegraph/qianim.cpp:220): the loop of its usual
implementation, for a comparison that may throw. -/
def upperBound {α : Type} (comp : α → Res Bool) (l : List α) (first len : ℕ) : Res ℕ :=
  if hlen : len = 0 then .ok first
  else
    let half := len / 2
    match l[first + half]? with
    | none => .ub
    | some a =>
      match comp a with
      | .ok true => upperBound comp l first half
      | .ok false => upperBound comp l (first + half + 1) (len - half - 1)
      | .throws => .throws
      | .ub => .ub
termination_by len
decreasing_by all_goals omega

/-- src/scenegraph/qianim.cpp:199-201 (`label_comp`). -/
noncomputable def labelComp (frame : ℤ) (label : String × PTree) : Res Bool :=
  if label.1 ≠ "Label" then .ok false
  else (getFrame label.2).map fun f => frame < f

/-- src/scenegraph/qianim.cpp:219-224 (`add_label`). -/
noncomputable def addLabel (pt : PTree) (frame : ℤ) (value : String) : Res ℕ × PTree :=
  match upperBound (labelComp frame) pt.children 0 pt.children.length with
  | .ok it => insertFrame pt it "Label" (.node (.str value) []) frame
  | .throws => (.throws, pt)
  | .ub => (.ub, pt)

/-- almath/scenegraph/qianim/unit.h:15-20 (`Unit`). -/
inductive Unit' where
  | dimensionless
  | radian
  | degree
  | meter
  deriving DecidableEq

/-- src/scenegraph/qianim.cpp:105-107 (`ActuatorCurve::get_actuator`). -/
def getActuator (pt : PTree) : Res Data := mandatory (pt.attr "actuator")

/-- src/scenegraph/qianim.cpp:109-111 (`ActuatorCurve::put_actuator`). -/
def putActuator (pt : PTree) (name : String) : PTree := putAttr "actuator" (.str name) pt

/-- src/scenegraph/qianim.cpp:114-119 (`ActuatorCurve::get_fps`). -/
noncomputable def getFps (pt : PTree) : Res ℤ :=
  (mandatory ((pt.attr "fps").bind Data.toInt)).bind fun fps =>
    if fps ≤ 0 then .throws else .ok fps

/-- src/scenegraph/qianim.cpp:121-125 (`ActuatorCurve::put_fps`). -/
noncomputable def putFps (pt : PTree) (fps : ℤ) : Res PTree :=
  if fps ≤ 0 then .throws else .ok (putAttr "fps" (.num fps) pt)

open Classical in
/-- src/scenegraph/qianim.cpp:127-129 (`ActuatorCurve::get_mute`): a missing or malformed
attribute reads as false. -/
noncomputable def getMute (pt : PTree) : Res Bool :=
  match pt.attr "mute" with
  | some (.str "true") => .ok true
  | some (.num x) => .ok (x = 1 : Bool)
  | _ => .ok false

/-- src/scenegraph/qianim.cpp:131-133 (`ActuatorCurve::put_mute`). -/
def putMute (pt : PTree) (mute : Bool) : PTree :=
  putAttr "mute" (.str (if mute then "true" else "false")) pt

/-- src/scenegraph/qianim.cpp:135-146 (`ActuatorCurve::get_unit`). -/
def getUnit (pt : PTree) : Res Unit' :=
  match pt.attr "unit" with
  | some (.str "dimensionless") => .ok .dimensionless
  | some (.str "radian") => .ok .radian
  | some (.str "degree") => .ok .degree
  | some (.str "meter") => .ok .meter
  | _ => .throws

/-- src/scenegraph/qianim.cpp:148-161 (`ActuatorCurve::to_string`). -/
def unitString : Unit' → String
  | .dimensionless => "dimensionless"
  | .radian => "radian"
  | .degree => "degree"
  | .meter => "meter"

/-- src/scenegraph/qianim.cpp:163-165 (`ActuatorCurve::put_unit`). -/
def putUnit (pt : PTree) (unit : Unit') : PTree := putAttr "unit" (.str (unitString unit)) pt

/-- src/scenegraph/qianim.cpp:230-233 (`Animation::check_version`). -/
def checkVersion (pt : PTree) : Res Unit :=
  match pt.attr "typeVersion" with
  | some (.str "2.0") => .ok ()
  | _ => .throws

/-- almath/scenegraph/qianim.h:306-318 (`Animation::get_actuatorcurves`). -/
def getActuatorCurves (pt : PTree) : List PTree :=
  (pt.children.filter fun c => c.1 = "ActuatorCurve").map Prod.snd

/-- src/scenegraph/qianim.cpp:238-242 (the body of the loop of `check_all`). -/
noncomputable def checkCurve (curve : PTree) : Res Unit :=
  (getActuator curve).bind fun _ =>
  (getFps curve).bind fun _ =>
  (getMute curve).bind fun _ =>
  (getUnit curve).bind fun _ => checkCubicBezier curve

/-- A loop whose body may throw (src/scenegraph/qianim.cpp:237-243). -/
def forEach {α : Type} (op : α → Res Unit) : List α → Res Unit
  | [] => .ok ()
  | a :: l => (op a).bind fun _ => forEach op l

/-- src/scenegraph/qianim.cpp:235-244 (`Animation::check_all`). -/
noncomputable def checkAll (pt : PTree) : Res Unit :=
  (checkVersion pt).bind fun _ => forEach checkCurve (getActuatorCurves pt)

open Classical in
/-- src/scenegraph/qianim.cpp:247-250 (`std::find_if` in `require_actuatorcurve`): the position of
the first curve of the actuator. -/
noncomputable def findCurve (actuator : String) : List (String × PTree) → ℕ → Res (Option ℕ)
  | [], _ => .ok none
  | c :: l, i =>
    if c.1 = "ActuatorCurve" then
      (getActuator c.2).bind fun a =>
        if a = .str actuator then .ok (some i) else findCurve actuator l (i + 1)
    else findCurve actuator l (i + 1)

/-- src/scenegraph/qianim.cpp:246-257 (`Animation::require_actuatorcurve`). -/
noncomputable def requireActuatorCurve (pt : PTree) (actuator : String) : Res ℕ × PTree :=
  match findCurve actuator pt.children 0 with
  | .ok (some i) => (.ok i, pt)
  | .ok none => (.ok pt.children.length,
      .node pt.data (pt.children ++ [("ActuatorCurve", putActuator .empty actuator)]))
  | .throws => (.throws, pt)
  | .ub => (.ub, pt)

/-- src/scenegraph/qianim.cpp:259-261 (`Animation::add_labels`). -/
def addLabels (pt : PTree) : ℕ × PTree :=
  (pt.children.length, .node pt.data (pt.children ++ [("Labels", .empty)]))

/-- src/scenegraph/qianim.cpp:266-276 (both `get_animation`). -/
def getAnimation (root : PTree) : Res PTree :=
  (mandatory (root.find "Animation")).bind fun a => (checkVersion a).bind fun _ => .ok a

/-- src/scenegraph/qianim.cpp:278-287 (`require_animation`): the animation and the new document. -/
def requireAnimation (root : PTree) : Res PTree × PTree :=
  match root.find "Animation" with
  | some a => ((checkVersion a).map fun _ => a, root)
  | none =>
    let a := putAttr "typeVersion" (.str "2.0") .empty
    (.ok a, .node root.data (root.children ++ [("Animation", a)]))

end AlMath.Anim
