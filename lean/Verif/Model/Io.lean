import Verif.Model.Aggregates
import Verif.Model.Quaternion

/-!
Model of src/tools/almathio.cpp: printing on streams.

A stream is its format flags and the text printed so far. How a number is printed, which depends on the
flags, is a parameter `fmt`. Not modelled: the width (taken to be 0), the precision and the locale (part of
`fmt`), streams in a failed state.
-/

namespace AlMath.Io

/-- The flags that src/tools/almathio.cpp:15 sets. -/
@[ext] structure Flags where
  showpoint : Bool
  left : Bool
  showpos : Bool

/-- The stream of src/tools/almathio.cpp:13. -/
@[ext] structure Stream where
  flags : Flags
  text : List Char

/-- What is inserted: a text or a number (src/tools/almathio.cpp:16-17). -/
inductive Item where
  | s (t : String)
  | n (x : ℝ)

/-- src/tools/almathio.cpp:15 (`setf` with these three flags). -/
def Stream.setf (s : Stream) : Stream := { s with flags := ⟨true, true, true⟩ }

/-- src/tools/almathio.cpp:16-17 (insertion of a text, of a number). -/
def Stream.put (fmt : Flags → ℝ → List Char) (s : Stream) : Item → Stream
  | .s t => { s with text := s.text ++ t.toList }
  | .n x => { s with text := s.text ++ fmt s.flags x }

/-- A sequence of insertions such as src/tools/almathio.cpp:16-22. -/
def Stream.putAll (fmt : Flags → ℝ → List Char) (s : Stream) (l : List Item) : Stream :=
  l.foldl (Stream.put fmt) s

/-- The stream of `std::stringstream os;` (src/tools/almathio.cpp:248): no text, default flags. -/
def Stream.fresh : Stream := ⟨⟨false, false, false⟩, []⟩

variable (fmt : Flags → ℝ → List Char)

/-- src/tools/almathio.cpp:13-24 (`operator<<`). -/
def putPose2D (s : Stream) (p : Pose2D) : Stream :=
  s.setf.putAll fmt [.s "{x: ", .n p.x, .s ", y:", .n p.y, .s ", theta:", .n p.theta, .s "}"]

/-- src/tools/almathio.cpp:26-35 (`operator<<`). -/
def putPosition2D (s : Stream) (p : Position2D) : Stream :=
  s.setf.putAll fmt [.s "{x: ", .n p.x, .s ", y:", .n p.y, .s "}"]

/-- src/tools/almathio.cpp:37-48 (`operator<<`). -/
def putPosition3D (s : Stream) (p : Position3D) : Stream :=
  s.setf.putAll fmt [.s "{x: ", .n p.x, .s ", y:", .n p.y, .s ", z:", .n p.z, .s "}"]

/-- src/tools/almathio.cpp:50-67 (`operator<<`). -/
def putPosition6D (s : Stream) (p : Position6D) : Stream :=
  s.setf.putAll fmt [.s "{x: ", .n p.x, .s ", y: ", .n p.y, .s ", z: ", .n p.z, .s ", wx: ", .n p.wx,
    .s ", wy: ", .n p.wy, .s ", wz: ", .n p.wz, .s "}"]

/-- src/tools/almathio.cpp:69-78 (`operator<<`). -/
def putPositionAndVelocity (s : Stream) (p : PositionAndVelocity) : Stream :=
  s.setf.putAll fmt [.s "{q: ", .n p.q, .s ", dq: ", .n p.dq, .s "}"]

/-- src/tools/almathio.cpp:81-103 (`operator<<`). -/
def putRotation (s : Stream) (p : Rotation) : Stream :=
  s.setf.putAll fmt [.n p.r11, .s " ", .n p.r12, .s " ", .n p.r13, .s "\n",
    .n p.r21, .s " ", .n p.r22, .s " ", .n p.r23, .s "\n",
    .n p.r31, .s " ", .n p.r32, .s " ", .n p.r33, .s "\n"]

/-- src/tools/almathio.cpp:106-117 (`operator<<`). -/
def putRotation3D (s : Stream) (p : Rotation3D) : Stream :=
  s.setf.putAll fmt [.s "{wx: ", .n p.wx, .s " ,wy: ", .n p.wy, .s " ,wz: ", .n p.wz, .s "}"]

/-- src/tools/almathio.cpp:119-150 (`operator<<`). -/
def putTransform (s : Stream) (p : Transform) : Stream :=
  s.setf.putAll fmt [.n p.r11, .s " ", .n p.r12, .s " ", .n p.r13, .s " ", .n p.r14, .s "\n",
    .n p.r21, .s " ", .n p.r22, .s " ", .n p.r23, .s " ", .n p.r24, .s "\n",
    .n p.r31, .s " ", .n p.r32, .s " ", .n p.r33, .s " ", .n p.r34, .s "\n",
    .s "0.0 0.0 0.0 1.0", .s "\n"]

/-- src/tools/almathio.cpp:153-197 (`operator<<`). -/
def putTransformAndVelocity6D (s : Stream) (p : TransformAndVelocity6D) : Stream :=
  s.setf.putAll fmt [.n p.T.r11, .s " ", .n p.T.r12, .s " ", .n p.T.r13, .s " ", .n p.T.r14, .s "\n",
    .n p.T.r21, .s " ", .n p.T.r22, .s " ", .n p.T.r23, .s " ", .n p.T.r24, .s "\n",
    .n p.T.r31, .s " ", .n p.T.r32, .s " ", .n p.T.r33, .s " ", .n p.T.r34, .s "\n",
    .s "0.0 0.0 0.0 1.0", .s "\n",
    .s "{xd: ", .n p.V.xd, .s " ,yd: ", .n p.V.yd, .s " ,zd: ", .n p.V.zd, .s " ,wxd: ", .n p.V.wxd,
    .s " ,wyd: ", .n p.V.wyd, .s " ,wzd: ", .n p.V.wzd, .s "}"]

/-- src/tools/almathio.cpp:199-212 (`operator<<`). -/
def putQuaternion (s : Stream) (p : Quat) : Stream :=
  s.setf.putAll fmt [.s "{w: ", .n p.w, .s ", x:", .n p.x, .s ", y:", .n p.y, .s ", z:", .n p.z, .s "}"]

/-- src/tools/almathio.cpp:214-225 (`operator<<`). -/
def putVelocity3D (s : Stream) (p : Velocity3D) : Stream :=
  s.setf.putAll fmt [.s "{xd: ", .n p.xd, .s ", yd:", .n p.yd, .s ", zd:", .n p.zd, .s "}"]

/-- src/tools/almathio.cpp:227-244 (`operator<<`). -/
def putVelocity6D (s : Stream) (p : Velocity6D) : Stream :=
  s.setf.putAll fmt [.s "{xd: ", .n p.xd, .s " ,yd: ", .n p.yd, .s " ,zd: ", .n p.zd, .s " ,wxd: ", .n p.wxd,
    .s " ,wyd: ", .n p.wyd, .s " ,wzd: ", .n p.wzd, .s "}"]

/-- src/tools/almathio.cpp:246-251 (`toSpaceSeparated`). -/
def spaceSeparatedVelocity6D (p : Velocity6D) : List Char := (putVelocity6D fmt .fresh p).text

/-- src/tools/almathio.cpp:253-258 (`toSpaceSeparated`). -/
def spaceSeparatedTransform (p : Transform) : List Char := (putTransform fmt .fresh p).text

/-- src/tools/almathio.cpp:260-265 (`toSpaceSeparated`). -/
def spaceSeparatedPosition3D (p : Position3D) : List Char := (putPosition3D fmt .fresh p).text

/-- src/tools/almathio.cpp:267-272 (`toSpaceSeparated`). -/
def spaceSeparatedRotation3D (p : Rotation3D) : List Char := (putRotation3D fmt .fresh p).text

/-- src/tools/almathio.cpp:274-279 (`toSpaceSeparated`). -/
def spaceSeparatedPosition6D (p : Position6D) : List Char := (putPosition6D fmt .fresh p).text

/-- src/tools/almathio.cpp:281-286 (`toSpaceSeparated`). -/
def spaceSeparatedQuaternion (p : Quat) : List Char := (putQuaternion fmt .fresh p).text

end AlMath.Io
