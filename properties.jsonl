{"id": "C01", "title": "Flat-vector conversion round-trips and rejects wrong sizes", "statement": "For each value type (Position2D/3D/6D, Pose2D, Velocity3D/6D, Rotation3D, Quaternion, Rotation, Transform) constructing the type from the vector produced by toVector() gives back the same value, the vector always has the documented length, and constructing from a vector of any other length yields the documented fallback value and never reads outside the vector.", "quantifier": "every value of every type; every input vector length", "why_tests_cant": "The space of values and lengths is infinite; tests sample a handful of vectors per type.", "anchors": ["src/types/alposition2d.cpp:Position2D(const std::vector<float>&)", "src/types/alposition3d.cpp", "src/types/alposition6d.cpp", "src/types/alpose2d.cpp", "src/types/alvelocity3d.cpp", "src/types/alvelocity6d.cpp", "src/types/alrotation3d.cpp", "src/types/alquaternion.cpp", "src/types/alrotation.cpp", "src/types/altransform.cpp:toVector"]}
{"id": "C02", "title": "Division and normalisation fail exactly on zero", "statement": "Dividing a vector-like value by a scalar throws exactly when the scalar is zero and otherwise undoes multiplication by it; normalising throws exactly when the norm is zero and otherwise returns a value of norm exactly one that is a positive multiple of the input.", "quantifier": "every vector value and every scalar", "why_tests_cant": "Requires all values, including arbitrarily small ones; a test can only try a few.", "anchors": ["src/types/alposition3d.cpp:Position3D::operator/", "src/types/alposition3d.cpp:normalize", "src/types/alposition2d.cpp", "src/types/alvelocity3d.cpp", "src/types/alvelocity6d.cpp", "src/types/alquaternion.cpp", "src/types/alpose2d.cpp"]}
{"id": "C03", "title": "Distances are metrics and isNear is a tolerance relation", "statement": "distance() on Position2D and Position3D is a metric (non-negative, zero exactly on equal points, symmetric, triangle inequality); distance on Pose2D and Position6D only sees the translation part; isNear with a non-negative tolerance is reflexive and symmetric, is monotone in the tolerance, and with tolerance zero coincides with equality.", "quantifier": "all pairs and triples of points and all tolerances", "why_tests_cant": "Triangle inequality and symmetry quantify over triples of reals.", "anchors": ["src/types/alposition3d.cpp:distance", "src/types/alposition2d.cpp:distance", "src/types/alpose2d.cpp:distance", "src/types/alposition6d.cpp:distance", "src/types/alposition3d.cpp:isNear"]}
{"id": "C04", "title": "Planar poses form a group", "statement": "Pose2D composition is associative with Pose2D() as identity; inverse() is a two-sided inverse; a * a.diff(b) = b; the in-place forms (*=, pose2dInvertInPlace, pose2DInverse) agree with the value-returning ones, also when an object is composed with itself.", "quantifier": "all planar poses", "why_tests_cant": "Algebraic laws over a continuum of angles and translations.", "anchors": ["almath/types/alpose2d.h:operator*", "src/types/alpose2d.cpp:operator*=", "src/types/alpose2d.cpp:pose2dInvertInPlace", "src/types/alpose2d.cpp:pose2dDiff", "src/types/alpose2d.cpp:pose2DInverse"]}
{"id": "C05", "title": "A planar pose acts on points as a rigid motion", "statement": "Applying a Pose2D to Position2D is a group action (applying a*b is applying b then a), preserves distances and orientation, and agrees with the 3-D transform built from the same pose.", "quantifier": "all planar poses and points", "why_tests_cant": "Quantifies over all poses and points.", "anchors": ["src/tools/almath.cpp:operator*(const Pose2D&, const Position2D&)", "src/tools/altransformhelpers.cpp:transformFromPose2D"]}
{"id": "C06", "title": "Every rotation factory yields a proper rotation about the stated axis", "statement": "rotationFromRotX/Y/Z, rotationFrom3DRotation, rotationFromAngleDirection (unit axis), rotationFromQuaternion (unit quaternion), the *Pi constants, and their Transform counterparts return matrices with R^T R = I and det R = 1; RotX/Y/Z fix their axis; angles add under composition; rotationFrom3DRotation equals Rz*Ry*Rx.", "quantifier": "all angles, unit axes and unit quaternions", "why_tests_cant": "Orthogonality must hold for a continuum of angles.", "anchors": ["src/types/alrotation.cpp:rotationFromRotX", "src/types/alrotation.cpp:rotationFrom3DRotation", "src/types/alrotation.cpp:rotationFromAngleDirection", "src/types/alrotation.cpp:rotationFromQuaternion", "src/types/altransform.cpp:transformFromRotX", "almath/types/alrotation.h:fromRotXPi"]}
{"id": "C07", "title": "Rotation validity check is sound and complete", "statement": "isRotation / isTransform with tolerance 0 return true exactly for proper rotations (orthonormal, determinant 1), and return true for every proper rotation under every non-negative tolerance.", "quantifier": "all 3x3 matrices and all tolerances", "why_tests_cant": "Soundness quantifies over all matrices, and the check mixes row norms and column dot products so soundness is not syntactic.", "anchors": ["src/types/alrotation.cpp:isRotation", "src/types/altransform.cpp:isTransform"]}
{"id": "C08", "title": "Normalisation always produces a proper rotation", "statement": "normalizeRotation / normalizeTransform leave any matrix with a rotation part that is a proper rotation, leave the translation untouched, do not change an exact rotation, and are idempotent.", "quantifier": "all matrices, including singular ones", "why_tests_cant": "Singular and near-singular inputs form a continuum; branches on column norms.", "anchors": ["src/types/alrotation.cpp:normalizeRotation", "src/types/altransform.cpp:normalizeTransform"]}
{"id": "C09", "title": "Homogeneous transforms form a group", "statement": "Transform composition is associative with the default transform as identity; rigid transforms are closed under composition and inverse; transformInverse is a two-sided inverse of every rigid transform; composition corresponds to 4x4 matrix multiplication.", "quantifier": "all transforms / all rigid transforms", "why_tests_cant": "Algebraic identities over twelve real entries.", "anchors": ["src/types/altransform.cpp:operator*", "src/types/altransform.cpp:operator*=", "src/types/altransform.cpp:transformInverse"]}
{"id": "C10", "title": "All inverse entry points agree and diff recovers the second pose", "statement": "transformInverse (both overloads), Transform::inverse, transformInvertInPlace and pinv return the same value on every transform; T1 * transformDiff(T1,T2) = T2 for rigid T1; transformDiff(T,T) is the identity.", "quantifier": "all transforms (agreement), all rigid transforms (inverse laws)", "why_tests_cant": "Equality of independently written code paths for every input.", "anchors": ["src/types/altransform.cpp:transformInverse", "src/types/altransform.cpp:transformInvertInPlace", "src/types/altransform.cpp:pinv", "src/types/altransform.cpp:transformDiff"]}
{"id": "C11", "title": "In-place and aliased operator forms agree with the functional forms", "statement": "x *= y leaves the same value as x * y for Rotation, Transform, Quaternion, Pose2D, Displacement, also when x and y are the same object; two-argument output functions (transformInverse(in,out), transformPreMultiply(in,inout)) give the functional result when the arguments are distinct objects.", "quantifier": "all operands, both aliasing patterns", "why_tests_cant": "Aliasing is a property of call patterns that tests rarely exercise.", "anchors": ["src/types/alrotation.cpp:operator*=", "src/types/altransform.cpp:operator*=", "src/types/altransform.cpp:transformPreMultiply", "src/types/altransform.cpp:transformInverse"]}
{"id": "C12", "title": "Rigid transforms act on points as isometries", "statement": "Applying a Transform (or Rotation) to a Position3D is a group action; rigid transforms preserve distances, dot and cross products of difference vectors.", "quantifier": "all transforms and points", "why_tests_cant": "Continuum of inputs.", "anchors": ["src/tools/altransformhelpers.cpp:operator*(const Transform&, const Position3D&)", "src/tools/almath.cpp:operator*(const Rotation&, const Position3D&)"]}
{"id": "C13", "title": "Euler-angle extraction inverts Euler-angle construction on every rotation", "statement": "Rebuilding a transform from position6DFromTransform(T) (or from rotation3DFromTransform / rotation3DFromRotation) gives back T for every rigid T, including gimbal lock.", "quantifier": "all rigid transforms", "why_tests_cant": "Gimbal-lock set has measure zero so sampling never hits it; every rotation must be covered.", "anchors": ["src/tools/altransformhelpers.cpp:position6DFromTransform", "src/tools/altransformhelpers.cpp:rotation3DFromTransform", "src/tools/altransformhelpers.cpp:transformFromPosition6D"]}
{"id": "C14", "title": "Extracted Euler angles are in canonical range", "statement": "The angles returned by position6DFromTransform satisfy wx, wz in (-pi, pi] and wy in [-pi/2, pi/2] for rigid input, and building then extracting returns the same angles whenever they lie in the open canonical range.", "quantifier": "all rigid transforms; all canonical angle triples", "why_tests_cant": "Continuum of inputs with branch cuts.", "anchors": ["src/tools/altransformhelpers.cpp:position6DFromTransform", "src/tools/altransformhelpers.cpp:transformFromPosition6D"]}
{"id": "C15", "title": "Quaternion multiplication is Hamilton's", "statement": "Quaternion product is associative with identity (1,0,0,0), norm is multiplicative, the inverse of a unit quaternion is two-sided and reverses products, and inverse of a non-unit quaternion is only its conjugate.", "quantifier": "all quaternions", "why_tests_cant": "Algebraic laws over four real components.", "anchors": ["almath/types/alquaternion.h:operator*", "src/types/alquaternion.cpp:quaternionInverse", "src/types/alquaternion.cpp:norm"]}
{"id": "C16", "title": "Quaternions and rotation matrices describe the same rotations", "statement": "For unit quaternions rotationFromQuaternion / transformFromQuaternion is a homomorphism into proper rotations, q and -q give the same matrix and nothing else does, and applying the quaternion to a point equals applying the matrix.", "quantifier": "all unit quaternions, all points", "why_tests_cant": "Continuum of inputs.", "anchors": ["src/types/alrotation.cpp:rotationFromQuaternion", "src/tools/altransformhelpers.cpp:transformFromQuaternion", "src/tools/almath.cpp:operator*(const Quaternion&, const Position3D&)"]}
{"id": "C17", "title": "Rotation-matrix to quaternion conversion is exact for every rotation", "statement": "quaternionFromTransform returns a unit quaternion whose matrix is the input, for every proper rotation, including half-turns where the trace is -1.", "quantifier": "all proper rotations", "why_tests_cant": "Half-turns and branch boundaries are measure-zero sets.", "anchors": ["src/tools/altransformhelpers.cpp:quaternionFromTransform"]}
{"id": "C18", "title": "Angle-axis quaternions are unit quaternions rotating about the axis", "statement": "quaternionFromAngleAndAxisRotation(angle, axis) is a unit quaternion that rotates by the angle about the axis for every non-zero axis, and angleAndAxisRotationFromQuaternion recovers the rotation for every non-zero quaternion.", "quantifier": "all angles and all non-zero axes", "why_tests_cant": "Quantifies over all axes, in particular non-unit ones.", "anchors": ["src/types/alquaternion.cpp:quaternionFromAngleAndAxisRotation", "src/types/alquaternion.cpp:angleAndAxisRotationFromQuaternion"]}
{"id": "C19", "title": "Angle/direction rotation accepts only near-unit directions", "statement": "rotationFromAngleDirection throws exactly when the squared length of the direction is outside the documented band around one; for a unit direction it returns the proper rotation by that angle that fixes the direction and agrees with the angle-axis quaternion.", "quantifier": "all angles and directions", "why_tests_cant": "Continuum of inputs and an error band.", "anchors": ["src/types/alrotation.cpp:rotationFromAngleDirection"]}
{"id": "C20", "title": "Velocity exponential is a rigid motion", "statement": "velocityExponential(V) is the identity at V = 0, is a rigid transform whenever the angular speed is at least the series threshold, fixes its rotation axis, satisfies exp(sV) exp(tV) = exp((s+t)V), and has inverse exp(-V).", "quantifier": "all velocities (above the series threshold)", "why_tests_cant": "One-parameter-group laws over a continuum.", "anchors": ["src/tools/altransformhelpers.cpp:velocityExponential"]}
{"id": "C21", "title": "Logarithm inverts the exponential", "statement": "velocityExponential(transformLogarithm(H)) = H for every rigid H.", "quantifier": "all rigid transforms", "why_tests_cant": "Near-identity and half-turn branches are thin sets; must hold for all H.", "anchors": ["src/tools/altransformhelpers.cpp:transformLogarithm", "src/tools/altransformhelpers.cpp:transformLogarithmInPlace"]}
{"id": "C22", "title": "Transform interpolation hits its end points and stays rigid", "statement": "transformMean(H1,H2,d) throws exactly when d is outside [0,1]; at d=0 it returns H1; at d=1 it returns H2; in between the result is rigid.", "quantifier": "all rigid pairs and all ratios", "why_tests_cant": "Continuum of inputs.", "anchors": ["src/tools/altransformhelpers.cpp:transformMean", "src/tools/altransformhelpers.cpp:transformMeanInPlace"]}
{"id": "C23", "title": "Changing reference and changing back is the identity", "statement": "changeReference* rotates vectors by the rotation part, changeReferenceTranspose* undoes it for rigid transforms, both preserve norms; changeReferencePose2D by theta then -theta is the identity.", "quantifier": "all rigid transforms and all vectors", "why_tests_cant": "Continuum of inputs.", "anchors": ["src/tools/altransformhelpers.cpp:changeReferenceVelocity6D", "src/tools/altransformhelpers.cpp:changeReferencePosition3D", "src/tools/altransformhelpers.cpp:changeReferenceTransposePosition3D", "src/tools/almath.cpp:changeReferencePose2D"]}
{"id": "C24", "title": "Projecting a rotation on an axis yields the best rotation about that axis", "statement": "axisRotationProjection throws exactly on unusable input; otherwise it returns a proper rotation that fixes the axis, keeps the translation, leaves a rotation already about the axis unchanged, and is the rotation about the axis closest to the input.", "quantifier": "all axes, all rotations", "why_tests_cant": "Optimality quantifies over all candidate rotations.", "anchors": ["src/tools/altransformhelpers.cpp:axisRotationProjection", "src/tools/altransformhelpers.cpp:axisRotationProjectionInPlace"]}
{"id": "C25", "title": "orthogonalSpace completes an axis to a right-handed orthonormal frame", "statement": "orthogonalSpace throws exactly for the zero vector; otherwise the rotation part of the result is a proper rotation whose third column is the normalised axis.", "quantifier": "all vectors", "why_tests_cant": "Branch near the z axis uses a tolerance; all vectors must be covered.", "anchors": ["src/tools/altransformhelpers.cpp:orthogonalSpace"]}
{"id": "C26", "title": "Pill parameters round-trip", "statement": "computePillParameters(A,B) followed by getSphereCentersFromPill returns the two points as sphere centres, B as the upper (first) and A as the lower (second) one, since the pill is oriented from A to B; the half extent is half the distance.", "quantifier": "all pairs of distinct points", "why_tests_cant": "Continuum of inputs, incl. vertical segments.", "anchors": ["src/geometrics/shapes3d_utils.cpp:computePillParameters", "src/geometrics/shapes3d_utils.cpp:getSphereCentersFromPill"]}
{"id": "C27", "title": "modulo2PI normalises angles", "statement": "modulo2PI returns an angle in [-PI, PI] that differs from the input by an integer multiple of 2PI, is idempotent, and is the identity on angles already in range.", "quantifier": "all angles", "why_tests_cant": "All reals, arbitrarily many turns.", "anchors": ["src/tools/almath.cpp:modulo2PI", "src/tools/almath.cpp:modulo2PIInPlace"]}
{"id": "C28", "title": "Circular mean of angles", "statement": "weightedMeanAngle throws exactly when sizes differ, a weight is not positive, or the weighted resultant is shorter than the threshold; otherwise the returned direction is that of the weighted resultant; it is invariant under permutation, under 2*pi shifts of any angle and under scaling that keeps the resultant above threshold; meanAngle is the case of unit weights, and the mean of identical angles is that angle modulo 2*pi.", "quantifier": "all finite lists of angles and weights", "why_tests_cant": "Lists of unbounded length.", "anchors": ["src/tools/almath.cpp:weightedMeanAngle", "src/tools/almath.cpp:meanAngle"]}
{"id": "C29", "title": "Clipping clamps and reports", "statement": "clipData leaves every element inside [min,max], does not change elements already inside, returns true exactly when some element was changed, and is idempotent (second call returns false); same for vectors and matrices of any shape.", "quantifier": "all bounds min<=max, all scalars, vectors and matrices of any size", "why_tests_cant": "Unbounded sizes; the flag must accumulate over all elements.", "anchors": ["src/tools/almath.cpp:clipData"]}
{"id": "C30", "title": "Point-mass inertia is symmetric positive semidefinite", "statement": "pointMassRotationalInertia(m, p) is symmetric, and for m >= 0 positive semidefinite with the position vector in its kernel; rotating the position conjugates the inertia.", "quantifier": "all masses and positions", "why_tests_cant": "Quadratic-form positivity over all vectors.", "anchors": ["src/tools/almath.cpp:pointMassRotationalInertia"]}
{"id": "C31", "title": "Axis mask validity", "statement": "isAxisMask(m) is true exactly when m encodes a non-empty subset of the six axis bits, i.e. 1 <= m <= 63.", "quantifier": "all integers", "why_tests_cant": "All ints including negatives.", "anchors": ["src/types/alaxismask.cpp:isAxisMask"]}
{"id": "C32", "title": "Occupancy-map pixel/metric conversions are inverse", "statement": "Converting a pixel to world coordinates and back gives the same pixel; converting a world point to a pixel and back moves it by at most half a pixel per axis; the origin offset is consistent.", "quantifier": "all maps with positive resolution, all pixels and points", "why_tests_cant": "Continuum of points and resolutions.", "anchors": ["src/types/occupancymapparams.cpp:getPixelFromPosition", "src/types/occupancymapparams.cpp:getPositionFromPixel", "src/types/occupancymapparams.cpp:getPixelFromPose", "almath/types/occupancymapparams.h"]}
{"id": "C33", "title": "Reported segment intersections are real", "statement": "When intersectionSegment2D reports true, the returned point lies on both segments; when two non-degenerate segments cross at an interior point and are not nearly parallel it reports true.", "quantifier": "all segment pairs", "why_tests_cant": "Soundness over all real segment pairs.", "anchors": ["src/tools/avoidfootcollision.cpp:intersectionSegment2D"]}
{"id": "C34", "title": "Box collision test", "statement": "areTwoBoxesInCollision reports true only if the boxes share a point, is symmetric in its arguments, and never reports a collision when one of the boxes has no vertices.", "quantifier": "all lists of box vertices", "why_tests_cant": "All polygon pairs.", "anchors": ["src/tools/avoidfootcollision.cpp:areTwoBoxesInCollision", "src/tools/avoidfootcollision.cpp:xPointsInsideBox"]}
{"id": "C35", "title": "Foot collision avoidance never leaves a collision unless no rotation is left", "statement": "avoidFootCollision returns true exactly when the requested move collides, keeps x and y, leaves the move unchanged when there is no collision, reduces only the magnitude of theta, and a non-zero returned theta is collision free.", "quantifier": "all foot boxes and moves", "why_tests_cant": "The bisection path depends on continuous geometry.", "anchors": ["src/tools/avoidfootcollision.cpp:avoidFootCollision", "src/tools/avoidfootcollision.cpp:dichotomie"]}
{"id": "C36", "title": "Ellipse clipping of foot moves", "statement": "clipFootWithEllipse leaves moves inside the ellipse untouched and returns false; otherwise the result is on the ellipse, in the same direction, theta unchanged, and a second call changes nothing.", "quantifier": "all positive ellipse axes and all moves", "why_tests_cant": "Continuum.", "anchors": ["src/tools/avoidfootcollision.cpp:clipFootWithEllipse"]}
{"id": "C37", "title": "Dubins solutions are real tangent paths", "statement": "getDubinsSolutions throws exactly when the target is closer than four radii; otherwise it returns three poses, the last of which is the target, the first two lie on the start and end circles, and the straight segment is tangent to both circles.", "quantifier": "all targets and radii", "why_tests_cant": "Continuum of geometry with four cases and selection of the shortest.", "anchors": ["src/tools/aldubinscurve.cpp:getDubinsSolutions"]}
{"id": "C38", "title": "PID configuration is always valid", "statement": "Constructing or configuring a PID controller with a negative gain/dead-band or a non-positive period throws; a rejected reconfiguration leaves the controller unchanged; after any sequence of accepted calls the configuration is valid.", "quantifier": "all parameter values and all call histories", "why_tests_cant": "Exception-safety over all histories.", "anchors": ["src/dsp/pidcontroller.cpp:PIDController", "src/dsp/pidcontroller.cpp:initialize", "src/dsp/pidcontroller.cpp:setGains"]}
{"id": "C39", "title": "PID output follows the PID law over every history", "statement": "After initialisation, for every sequence of measurements the returned feedback is kp*e + kd*de/dt + ki*sum(e*dt), with derivative zero on the first sample, zero inside the dead band, using the period passed to the call.", "quantifier": "all gains, all sequences of targets, measurements and periods", "why_tests_cant": "Unbounded histories; the integral accumulates.", "anchors": ["src/dsp/pidcontroller.cpp:computeFeedback", "src/dsp/pidcontroller.cpp:computeFeedbackAbsolute"]}
{"id": "C40", "title": "Digital filter implements its difference equation", "statement": "For every configuration and every input sequence the filter output is the raw input until both delay lines are full and afterwards the weighted sum of the last inputs (scaled by the gain) and outputs; the delay lines never exceed their configured length; reset makes the filter behave like a fresh one; processing never reads outside the delay lines.", "quantifier": "all weights, gains, input sequences", "why_tests_cant": "Unbounded histories; circular-buffer behaviour.", "anchors": ["src/dsp/digitalfilter.cpp:processFilter", "src/dsp/digitalfilter.cpp:configureFilter", "src/dsp/digitalfilter.cpp:resetFilter", "almath/dsp/digitalfilter.h"]}
{"id": "C41", "title": "Mesh buffers are always consistent", "statement": "After every sequence of mesh-building calls, accepted or rejected, each vertex record refers to existing positions, normals and texture coordinates, and whenever no primitive is open the polygon vertex counts add up to exactly the number of vertices.", "quantifier": "all call sequences", "why_tests_cant": "Unbounded sequences of calls, including failing ones.", "anchors": ["src/scenegraph/mesh.cpp:vertex", "src/scenegraph/mesh.cpp:end", "src/scenegraph/mesh.cpp:begin", "src/scenegraph/mesh.cpp:normal", "src/scenegraph/mesh.cpp:texCoord"]}
{"id": "C42", "title": "Rejected mesh calls have no effect", "statement": "A mesh-building call that throws leaves the mesh exactly as it was.", "quantifier": "all mesh states and all calls", "why_tests_cant": "All reachable states.", "anchors": ["src/scenegraph/mesh.cpp:vertex(float,float,float)", "src/scenegraph/mesh.cpp:end"]}
{"id": "C43", "title": "Box mesh is a closed, outward-oriented surface", "statement": "addBoxMesh on a mesh that is not inside begin/end never throws, keeps existing content, adds six quads whose vertices are the eight corners, each face's winding is counter-clockwise seen along its stated normal, and every edge is shared by exactly two faces in opposite directions.", "quantifier": "all half-extents and all prior mesh contents", "why_tests_cant": "All extents and prior contents.", "anchors": ["src/scenegraph/meshfactory.cpp:addBoxMesh", "src/scenegraph/meshfactory.cpp:createBoxMesh"]}
{"id": "C44", "title": "Rounded-box mesh vertices lie on the rounded box", "statement": "createRoundedBoxMesh never throws for non-negative extents, positive radius and any arc subdivision; all vertex references are valid; every vertex is at distance exactly the radius from a corner of the inner box; normals are unit and point from that corner to the vertex; every directed edge of the polygons occurs as often as its reverse, so the surface is closed.", "quantifier": "all extents, radii and subdivision counts", "why_tests_cant": "Unbounded subdivision count.", "anchors": ["src/scenegraph/meshfactory.cpp:addRoundedBoxMesh", "src/scenegraph/meshfactory.cpp:xAddSector", "src/scenegraph/meshfactory.cpp:xAddMeridian"]}
{"id": "C45", "title": "Accepted URDF documents describe a single kinematic tree", "statement": "If loading a robot description succeeds then link and joint names are unique, every joint's links exist, every link except the root is the child of exactly one joint, and every link is reachable from the root (no kinematic loop); an inconsistent description is rejected.", "quantifier": "all robot descriptions", "why_tests_cant": "Graph property over unbounded documents.", "anchors": ["src/scenegraph/urdf.cpp:RobotTreeP::RobotTreeP"]}
{"id": "C46", "title": "Mimic relations are acyclic and valid documents are not rejected", "statement": "If loading succeeds, following mimic references from any joint terminates and every mimicked joint exists; a description whose mimic relation is acyclic is not rejected for a mimic loop, whatever the order of its joints.", "quantifier": "all robot descriptions and all joint orders", "why_tests_cant": "All graphs and all orders of declaration.", "anchors": ["src/scenegraph/urdf.cpp:transitively_mimics", "src/scenegraph/urdf.cpp:RobotTreeP::RobotTreeP", "src/scenegraph/urdf.cpp:is_mimic_tree_flat"]}
{"id": "C47", "title": "Joint traversal is depth first, complete and duplicate free", "statement": "traverse_joints on a tree visits every joint below the root exactly once, parents before children, siblings in document order, calls finish after all descendants, and skips exactly the descendants of joints for which discover returned false.", "quantifier": "all kinematic trees and all visitors", "why_tests_cant": "All trees.", "anchors": ["src/scenegraph/urdf.cpp:walk_joint", "src/scenegraph/urdf.cpp:traverse_joints"]}
{"id": "C48", "title": "Changing the root link preserves the mechanism", "statement": "define_as_root_link(l) either throws leaving the tree unchanged, or terminates with l as root, the same joints, names and links, only the joints on the path flipped, and the relative pose of every pair of links for every joint configuration is unchanged up to the documented frame moves.", "quantifier": "all trees, all target links, all joint configurations", "why_tests_cant": "All trees and all configurations.", "anchors": ["src/scenegraph/urdf.cpp:define_as_root_link", "src/scenegraph/urdf.cpp:flip_root_link_joint", "src/scenegraph/urdf.cpp:transport_root_link_frame", "src/scenegraph/urdf.cpp:flip_joint_axis"]}
{"id": "C49", "title": "Removing joints keeps the tree consistent", "statement": "rm_leaf_joint / rm_root_joint throw exactly when the joint is not a leaf / there is not a single root joint, leaving everything unchanged; otherwise they remove exactly that joint and its link and the result is still a consistent tree; removeSubTreeIfJoint removes exactly the joints at or below a matching joint and never throws.", "quantifier": "all trees and predicates", "why_tests_cant": "All trees, all predicates.", "anchors": ["src/scenegraph/urdf.cpp:rm_leaf_joint", "src/scenegraph/urdf.cpp:rm_root_joint", "src/scenegraph/urdf.cpp:removeSubTreeIfJoint"]}
{"id": "C50", "title": "Squashing inertials preserves the rigid-body dynamics", "statement": "Merging two inertials keeps total mass, first moment of mass and the total rotational inertia about any point, for arbitrary relative orientation; merging into a massless link keeps them too.", "quantifier": "all masses, poses and inertia matrices with non-zero total mass", "why_tests_cant": "Continuum of relative orientations.", "anchors": ["almath/scenegraph/urdfeigen.h:squashInertial", "almath/scenegraph/urdfeigen.h:addPointMassInertia", "almath/scenegraph/urdfeigen.h:urdfInertialToEigen", "src/scenegraph/urdf.cpp:squashJointMass"]}
{"id": "C51", "title": "Massless mobile joints are eliminated", "statement": "After makeMasslessJointsFixed every joint that is not fixed has a child link with an inertial, no fixed joint has one, the returned names are exactly the joints whose type changed, and total mass is preserved.", "quantifier": "all kinematic trees", "why_tests_cant": "All trees; post-order interaction of squashing and fixing.", "anchors": ["src/scenegraph/urdf.cpp:makeMasslessJointsFixed", "src/scenegraph/urdf.cpp:MakeMasslessJointsFixedVisitor", "src/scenegraph/urdf.cpp:squashFixedJointsMass", "src/scenegraph/urdf.cpp:makeContinuousJointsFixed"]}
{"id": "C52", "title": "Animation keys stay sorted and unique", "statement": "On a curve whose keys are strictly increasing, require_key returns the existing key for the frame or inserts exactly one new key keeping the order strict and everything else unchanged; get_key_optional finds a key exactly when one exists; add_label keeps labels sorted with new labels after equal frames.", "quantifier": "all conforming curves and all frames", "why_tests_cant": "Unbounded number of keys; binary search.", "anchors": ["src/scenegraph/qianim.cpp:require_key", "src/scenegraph/qianim.cpp:get_key_optional", "src/scenegraph/qianim.cpp:add_label", "src/scenegraph/qianim.cpp:key_comp"]}
{"id": "C53", "title": "Rejected animation edits have no effect", "statement": "require_key and add_label called with a negative frame throw and leave the document unchanged.", "quantifier": "all documents", "why_tests_cant": "Exception safety over all documents.", "anchors": ["src/scenegraph/qianim.cpp:require_key", "src/scenegraph/qianim.cpp:add_label", "src/scenegraph/qianim.cpp:put_frame"]}
{"id": "C54", "title": "A curve that passes validation is the graph of a function", "statement": "If check_cubic_bezier accepts a curve then key frames strictly increase and for every pair of adjacent keys the Bezier abscissa is strictly increasing in the parameter, so each time has exactly one value, between the first and the last key.", "quantifier": "all curves and all curve parameters", "why_tests_cant": "Monotonicity over a continuum for all tangent choices.", "anchors": ["almath/scenegraph/qianim.h:check_cubic_bezier", "almath/scenegraph/qianim.h:apply_cubic_bezier", "almath/scenegraph/qianim.h:adjacent_for_each"]}
{"id": "C55", "title": "Tangent edits", "statement": "put_tangent then get_tangent returns the stored values and does not disturb the other side; erase_tangent removes exactly the tangents of that side and returns their number; require_tangent never creates a second tangent for a side.", "quantifier": "all keys", "why_tests_cant": "All documents.", "anchors": ["src/scenegraph/qianim.cpp:erase_tangent", "src/scenegraph/qianim.cpp:get_tangent_optional", "src/scenegraph/qianim.cpp:require_tangent", "almath/scenegraph/qianim.h:put_tangent"]}
{"id": "C56", "title": "Time conversion clips and round-trips", "statement": "toValidRosTime returns a valid time in [TIME_MIN, TIME_MAX] for every duration, is monotone, converts back to the same duration when it was in range and to the nearest valid bound otherwise; no integer overflow occurs.", "quantifier": "all 64-bit durations", "why_tests_cant": "2^64 inputs.", "anchors": ["almath/scenegraph/qirostime.h:toValidRosTime", "almath/scenegraph/qirostime.h:toQiDuration"]}
{"id": "C57", "title": "Names checker only lets well-formed systems through", "statement": "For every sequence of add calls (some rejected, by the checker or by the wrapped builder), the calls accepted so far have pairwise distinct frame names and transform names, every parent was known before its child, and a rejected call leaves the checker unchanged.", "quantifier": "all call sequences, all wrapped builders", "why_tests_cant": "Unbounded call sequences.", "anchors": ["almath/scenegraph/rigidbodysystembuilder.h:NamesChecker"]}
{"id": "C58", "title": "Average of transforms is a rigid transform", "statement": "averageTransforms throws exactly on an empty range; for rigid inputs the result is rigid, its translation is the arithmetic mean, and averaging copies of one transform returns it.", "quantifier": "all finite non-empty ranges of rigid transforms", "why_tests_cant": "Unbounded lists; normalisation must never divide by zero.", "anchors": ["almath/scenegraph/almatheigen.h:averageTransforms"]}
{"id": "C59", "title": "URDF poses compose like rigid transforms", "statement": "The transform of a product of URDF poses is the product of their transforms, the transform of the inverse is the inverse transform, including the special cases for zero rotation or translation; conversion to XML omits exactly the identity and reading it back gives the same pose.", "quantifier": "all poses", "why_tests_cant": "Continuum plus special cases on exact zeros.", "anchors": ["src/scenegraph/urdf.cpp:Pose::inverse", "src/scenegraph/urdf.cpp:operator*", "src/scenegraph/urdf.cpp:Pose::to_ptree"]}
{"id": "C60", "title": "Displacements mirror transforms", "statement": "transformFromDisplacement is a homomorphism from displacements with unit quaternion to rigid transforms and displacementFromTransform inverts it.", "quantifier": "all displacements with unit quaternion; all rigid transforms", "why_tests_cant": "Continuum.", "anchors": ["src/types/aldisplacement.cpp:operator*=", "src/tools/altransformhelpers.cpp:transformFromDisplacement", "src/tools/altransformhelpers.cpp:displacementFromTransform"]}
{"id": "C61", "title": "Twist of a transform difference is consistent", "statement": "position6DFromTransformDiff(current, target) is zero when both are equal, its linear part is the translation difference, and its angular part has the norm of the sine of the relative angle and the direction of the relative rotation axis.", "quantifier": "all pairs of rigid transforms", "why_tests_cant": "Continuum of inputs.", "anchors": ["src/tools/altransformhelpers.cpp:position6DFromTransformDiff", "src/tools/altransformhelpers.cpp:position6DFromTransformDiffInPlace"]}
{"id": "C62", "title": "Bases built from two axes are proper rotations", "statement": "rotationFromAxesXY/XZ/YZ return a proper rotation whose stated columns are the given orthonormal axes; rotationFromAxesXYZ returns the matrix with those columns.", "quantifier": "all orthonormal axis pairs", "why_tests_cant": "Continuum of inputs.", "anchors": ["src/tools/altransformhelpers.cpp:rotationFromAxesXY", "src/tools/altransformhelpers.cpp:rotationFromAxesXZ", "src/tools/altransformhelpers.cpp:rotationFromAxesYZ"]}
{"id": "C63", "title": "Animation documents: validation, search and edition", "statement": "check_all accepts exactly the version 2.0 animations all of whose curves have an actuator, a positive fps, a known unit and valid arcs, and throws on the others; require_actuatorcurve returns the first curve of the actuator or appends exactly one, and a second call returns the same; require_animation returns the existing animation or appends exactly one that get_animation accepts; attributes written by put_* are read back by get_* and the others are not disturbed.", "quantifier": "all documents, actuators and attribute values", "why_tests_cant": "Unbounded documents.", "anchors": ["src/scenegraph/qianim.cpp:check_all", "src/scenegraph/qianim.cpp:require_actuatorcurve", "src/scenegraph/qianim.cpp:require_animation", "src/scenegraph/qianim.cpp:put_fps"]}
{"id": "C64", "title": "Averages follow changes of frame", "statement": "For every non-empty range of rigid transforms none of which is a half turn away from the first one, moving all of them by a rigid motion moves their average by this motion. The order of the transforms after the first one never matters; which one is first can matter.", "quantifier": "all rigid motions, all finite non-empty ranges of rigid transforms", "why_tests_cant": "Relates two runs on unbounded lists, through a conversion with four branches and sign choices.", "anchors": ["almath/scenegraph/almatheigen.h:averageTransforms"]}
{"id": "C65", "title": "Rigid body systems are built in order, and only when well formed", "statement": "For every robot description that loads, can be read and has only supported joints, every builder is given the free root body if the root link has a mass, then exactly one call per joint below the root, parents before children and siblings in document order: a static frame for each joint that is fixed or carries no mass, a body otherwise. With the names checker around an accepting builder, the construction succeeds exactly when the galilean frame is unnamed, no joint takes the name of the root joint and no moving joint is carried by a fixed one; a description whose root is massless is rejected as soon as it has a joint to report. Unsupported joints always make it fail.", "quantifier": "all descriptions, all builders, all options", "why_tests_cant": "All trees and all builders, including builders that fail in the middle; combines loading, edition of the tree, traversal and name checking.", "anchors": ["src/scenegraph/urdfrigidbodysystemtraverser.cpp:buildRigidBodySystemFromUrdf", "src/scenegraph/urdfrigidbodysystemtraverser.cpp:discover", "src/scenegraph/urdfrigidbodysystemtraverser.cpp:_discover"]}
{"id": "C66", "title": "A Collada reader finds in the document the meshes that were added", "statement": "For every configuration and every sequence of additions of finished, consistent meshes to a new scene (indices and polygon sizes below a million), meshes with texture coordinates given with an affine transform are refused and all others are accepted; an independent reader that resolves the references of the document finds exactly the accepted meshes, in order, each with all its polygons (positions and normals), its placement and the colour of the configuration, up to the six digits that are written. Copying the scene gives the same scene.", "quantifier": "all configurations, all finite sequences of additions, all consistent meshes", "why_tests_cant": "All documents built by any number of calls; correctness depends on the agreement of identifiers, offsets, strides and counts spread over a document.", "anchors": ["src/scenegraph/colladabuilder.cpp:addGeometryMesh", "src/scenegraph/colladabuilder.cpp:addSourceXYZ", "src/scenegraph/colladabuilder.cpp:createNode", "src/scenegraph/colladascenebuilder.cpp:xAddMesh", "src/scenegraph/scenebuilder.cpp:add"]}
{"id": "C67", "title": "Shapes are shown as closed surfaces on these shapes", "statement": "For every sequence of additions of spheres, pills and rounded rectangles of positive radius to a new scene with at most 80 vertices per arc, all are accepted and a Collada reader finds, in order, one object per shape: a closed surface whose vertices are on the spheres of which the shape is the hull, with unit normals away from their centres, placed with the given transform. Planes, half spaces, rectangles and half lines are refused, leaving the scene unchanged.", "quantifier": "all configurations, all finite sequences of shapes and transforms", "why_tests_cant": "Continuous dimensions, any number of shapes, any tessellation; composes the mesh factory with the document.", "anchors": ["src/scenegraph/scenebuilder.cpp:add", "src/scenegraph/scenebuilder.cpp:SceneBuilderShape3DVisitor", "src/scenegraph/meshfactory.cpp:addRoundedBoxMesh", "src/scenegraph/colladascenebuilder.cpp:xAddMesh"]}
{"id": "C68", "title": "qi transforms are rigid motions", "statement": "For transforms with unit quaternions: the product stands for the composed motion, the inverse for the inverse motion, the conversions to and from AL transforms and planar poses keep the motion and undo each other (up to the sign of the quaternion and whole turns), turns about any axis other than zero and normalisation give unit quaternions, and isNear is reflexive, symmetric and compares the Frobenius distance with a tolerance relative to the norms. A quaternion further than 1e-5 from unit norm violates an assertion.", "quantifier": "all transforms, poses, axes, angles and tolerances", "why_tests_cant": "Continuous space of quaternions and translations; every product and inverse.", "anchors": ["almath/scenegraph/qigeometry.h:operator*", "almath/scenegraph/qigeometry.h:inverse", "almath/scenegraph/qigeometry.h:isNear", "almath/scenegraph/qigeometry.h:makeQuaternionFromAngleAxis", "almath/scenegraph/qigeometry.h:normalized", "almath/scenegraph/almathqigeometry.hpp:transformFromQiTransform", "almath/scenegraph/almathqigeometry.hpp:qiTransformFromALMath", "almath/scenegraph/almathqigeometry.hpp:qiTransformFromPose2D"]}
{"id": "C69", "title": "Replacing the file names of a robot description", "statement": "For every XML document and every function on names, if every visual has a geometry and the function accepts every name, transform_filenames replaces exactly the file names of the textures of the robot's materials and of the meshes and textures of visuals by the function's results, and keeps every other text and the structure of the document; the identity changes nothing and two replacements compose. Otherwise it throws, keeps the structure, and no text other than these file names has changed.", "quantifier": "all documents, all positions in them, all functions", "why_tests_cant": "Unbounded documents and arbitrary functions; says of every other text that it is kept.", "anchors": ["src/scenegraph/urdf.cpp:transform_filenames"]}
{"id": "C70", "title": "Editions of a robot description leave the rest of the document alone", "statement": "For every XML document, unknown elements and attributes included, each edition of RobotTree changes only the elements its description names: making joints fixed or floating changes the type and axis of these joints; squashing masses changes inertials (and the type and axis of the joints it reports); moving the frame of the root link or re-rooting changes origins attached to the moved frames and the links and axis of the flipped joints; removals delete exactly the joints and links concerned. All other elements, texts, attributes and their order are kept, also when an exception is thrown.", "quantifier": "all documents, all outcomes of the editions", "why_tests_cant": "Unbounded documents with arbitrary foreign content; says of everything else that it is kept.", "anchors": ["src/scenegraph/urdf.cpp:transport_root_link_frame", "src/scenegraph/urdf.cpp:flip_root_link_joint", "src/scenegraph/urdf.cpp:define_as_root_link", "src/scenegraph/urdf.cpp:rm_root_joint", "src/scenegraph/urdf.cpp:rm_leaf_joint", "src/scenegraph/urdf.cpp:makeJointFixed", "src/scenegraph/urdf.cpp:squashJointMass", "src/scenegraph/urdf.cpp:removeSubTreeIfJoint"]}
{"id": "C71", "title": "The index stays in step with the document, and an edited document reloads", "statement": "For every document that is accepted and every sequence of calls of the editions of RobotTree (removals, changes of root link, of frame, of types, of masses), exceptions included: the index has exactly the joints of the document, names are unique, joints have existing links and every link except the root is the child of exactly one joint. Loading the edited document again gives the same root, links and joints, and is refused exactly if a joint mimics one that was removed. As long as the root link is not changed, the joints attached to each link are in the order of the document. Each edition of the document does to the indexed tree what the model of the tree says.", "quantifier": "all documents, all finite sequences of calls", "why_tests_cant": "Unbounded documents and sequences of calls.", "anchors": ["almath/scenegraph/urdf.h:RobotTree", "src/scenegraph/urdf.cpp:RobotTreeP", "src/scenegraph/urdf.cpp:rm_root_joint", "src/scenegraph/urdf.cpp:rm_leaf_joint", "src/scenegraph/urdf.cpp:define_as_root_link", "src/scenegraph/urdf.cpp:flip_root_link_joint", "src/scenegraph/urdf.cpp:walk_joint", "src/scenegraph/urdf.cpp:squashJointMass", "src/scenegraph/urdf.cpp:removeSubTreeIfJoint"]}
{"id": "C72", "title": "Arrays of three numbers are read exactly when the attribute holds three numbers", "statement": "The translator of attributes such as xyz, rpy, size and scale gives an array exactly if the text is made of three words separated by blanks (space, tab, line feed, vertical tab, form feed, carriage return), maybe with blanks around, each of which reads as a number, and the array is these numbers in that order; any other text, with fewer or more words or a word which is not a number, gives nothing. What is written for an array is read back as that array whenever the text of each number is read back as that number.", "quantifier": "all texts, all arrays, all number readers and printers", "why_tests_cant": "Unbounded texts.", "anchors": ["src/scenegraph/urdf.cpp:Array3dTranslator::get_value", "src/scenegraph/urdf.cpp:Array3dTranslator::put_value"]}
{"id": "C73", "title": "What the wrappers around the elements of a robot description read", "statement": "For every element: limit_lower_upper gives nothing exactly if neither limit can be read, otherwise both, the one that cannot be read being 0; axis and scale are what is read, or (1,0,0) and (1,1,1) when nothing can be read; multiplier and offset are 1 and 0 when the attribute is missing and an exception when it is there and is not a number; names, types, links, sizes, radii, lengths and file names are what the attribute says and an exception when it is missing or unreadable; the type of a joint is one of the six names of the format. geometry is the first box of the first geometry element, failing that the first cylinder, sphere, mesh, whatever their order, and an exception without any. visuals gives all visual elements in the order of the document. is_zero and is_ones tell the arrays (0,0,0) and (1,1,1).", "quantifier": "all XML elements", "why_tests_cant": "Unbounded elements, with any mixture of missing, repeated and unreadable children.", "anchors": ["src/scenegraph/urdf.cpp:Joint::limit_lower_upper", "src/scenegraph/urdf.cpp:Joint::axis", "src/scenegraph/urdf.cpp:Mimic::multiplier", "src/scenegraph/urdf.cpp:Mimic::offset", "src/scenegraph/urdf.cpp:Joint::type", "src/scenegraph/urdf.cpp:Mesh::scale", "src/scenegraph/urdf.cpp:Visual::geometry", "almath/scenegraph/urdf.h:visuals", "almath/scenegraph/urdf.h:is_ones"]}
{"id": "C74", "title": "What is printed for positions, velocities, rotations and transforms", "statement": "For every stream and every value, operator<< appends one text and nothing else: for poses, positions, velocities, quaternions and rotation vectors a record with the names of the fields and their numbers in order, for rotations and transforms the rows of the matrix, with the last row for transforms, for a transform with velocity the one after the other. These formats are not ambiguous: what was printed determines the printed numbers. (The flags showpos, showpoint and left stay set on the stream, and toSpaceSeparated does not print numbers separated by spaces.)", "quantifier": "all streams, all values, all ways of printing one number", "why_tests_cant": "Unbounded values and number formats.", "anchors": ["src/tools/almathio.cpp:operator<<", "src/tools/almathio.cpp:toSpaceSeparated"]}
{"id": "C75", "title": "NaN and infinities in clipping, comparisons, checks and means", "statement": "In single precision: clipData puts every value that is not NaN between the bounds, keeps values already there and its flag tells whether the value was outside. A position equals itself exactly if it has no NaN. The test of nearness accepts every pair of finite numbers within the tolerance, accepts nothing that exceeds it by more than the rounding of one subtraction, and accepts nothing with a NaN. (The code does not do the like elsewhere: NaN is left in place by clipData, whose flag then says that it was clipped; isRotation and isTransform accept matrices with NaN; a NaN weight is not refused by weightedMeanAngle and makes the mean NaN; infinities are not near themselves.)", "quantifier": "all floats including NaN and infinities, all tolerances, all matrices of NaN, all lists of angles and weights", "why_tests_cant": "2^96 positions; special values are combined in unboundedly many ways in lists.", "anchors": ["src/tools/almath.cpp:clipData", "src/tools/almath.cpp:weightedMeanAngle", "src/types/alposition3d.cpp:isNear", "src/types/alposition3d.cpp:operator==", "src/types/alrotation.cpp:isRotation", "src/types/altransform.cpp:isTransform"]}
{"id": "C76", "title": "modulo2PI makes no rounding error, but drifts from multiples of 2 pi", "statement": "In single precision: for every finite float, modulo2PI returns exactly the float that its formula gives in exact arithmetic, so the result is in [-PI, PI] for the single-precision PI and differs from the input by a whole number of single-precision turns; NaN and infinities give NaN. With respect to angles modulo the true 2 pi, the error is proportional to the input, between 2.7e-8 and 3e-8 times its magnitude up to an offset, and results may be beyond pi.", "quantifier": "all floats", "why_tests_cant": "Exactness for all 2^32 inputs rests on a number-theoretic argument; the drift is stated for all inputs.", "anchors": ["src/tools/almath.cpp:modulo2PI", "src/tools/almath.cpp:modulo2PIInPlace"]}
{"id": "C77", "title": "Accuracy of products, norm and normalisation of positions, and where it ends", "statement": "In single precision: dot and cross products that do not overflow have an error of at most 2^-22 times the sum of the magnitudes of their terms (plus 2^-148). For vectors of length between 2^-60 and 2^62, norm has a relative error of at most 2^-20, normalize returns the unit vector of the same direction with a relative error of 2^-19 in each component, and the result passes isUnitVector for every tolerance from 2^-17 on. (Outside this range the code fails: a non-zero vector with all components at most 2^-75 has norm 0 and is refused; a finite vector with a component of 2^64 or more is normalised to the zero vector without exception.)", "quantifier": "all vectors of floats in the stated ranges", "why_tests_cant": "2^96 vectors; error bounds are statements about all of them.", "anchors": ["src/types/alposition3d.cpp:dotProduct", "src/types/alposition3d.cpp:crossProduct", "src/types/alposition3d.cpp:norm", "src/types/alposition3d.cpp:normalize", "src/types/alposition3d.cpp:isUnitVector"]}
{"id": "C78", "title": "Products of many rotations stay accurate", "statement": "In single precision: multiply N matrices, bracketed in any way, each within k (at least 2^-19, in Frobenius norm) of an exact rotation. If (1+k)^(2N-1) is at most 2, the computed product has only finite numbers and is within (1+k)^(2N-1) - 1 of the product of the exact rotations; in particular every entry is within 4Nk if that is at most 1.", "quantifier": "all numbers of factors, all ways of bracketing, all matrices near rotations", "why_tests_cant": "Unbounded numbers of factors and values.", "anchors": ["src/types/alrotation.cpp:operator*", "src/types/alrotation.cpp:operator*="]}
{"id": "C79", "title": "Compositions of many transforms stay accurate", "statement": "In single precision: compose N transforms, bracketed in any way, whose rotations are within k (at least 2^-19) of exact rotations and whose translations have length at most L and are known up to kL. If (1+k)^(3N-2) is at most 2, the computed transform has only finite numbers, its rotation is within (1+k)^(2N-1) - 1 and its translation within NL((1+k)^(3N-2) - 1) of the exact composition. The image of a point has a corresponding bound.", "quantifier": "all numbers of factors, all ways of bracketing, all transforms near rigid motions, all L between 2^-100 and 2^98", "why_tests_cant": "Unbounded numbers of factors and values.", "anchors": ["src/types/altransform.cpp:operator*", "src/tools/altransformhelpers.cpp:operator*"]}
{"id": "C80", "title": "The check of rotations is right up to rounding", "statement": "In single precision: isRotation accepts every finite matrix within e of a rotation (Frobenius norm, e at most 1/16) if the tolerance is at least 4e + 2^-18, in particular products of not too many rotations. A finite matrix accepted with a tolerance of at most 1 has columns orthogonal, rows of length 1 and determinant 1 in exact arithmetic, up to the tolerance plus 2^-14; matrices with huge entries are not accepted by overflow.", "quantifier": "all finite matrices, all tolerances in the stated ranges", "why_tests_cant": "2^288 matrices.", "anchors": ["src/types/alrotation.cpp:isRotation", "src/types/alrotation.cpp:determinant"]}
{"id": "C81", "title": "Matrix to quaternion for matrices that are not exactly rotations", "statement": "For every matrix, quaternionFromTransform either gives NaN or a unit quaternion with non-negative scalar part; it gives numbers whenever the diagonal adds up to at most 3, as that of a rotation does. When it adds up to more, all it can give besides NaN is the identity: the identity scaled by 1 + d, for every positive d up to 1e-5, is accepted by isTransform and gives NaN. Near the identity half of the digits are lost: the matrix of a rotation about z with sine s and its cosine rounded to 1 gives the identity, whatever s.", "quantifier": "all matrices", "why_tests_cant": "The matrices that give NaN differ from rotations by rounding errors; a test with an exact rotation does not meet them.", "anchors": ["src/tools/altransformhelpers.cpp:quaternionFromTransform", "src/types/altransform.cpp:isTransform"]}
{"id": "C82", "title": "Distances, images of vectors, inverses and differences in single precision", "statement": "In single precision: the distance of two points between 2^-59 and 2^61 apart has a relative error of at most 2^-19, does not depend on their order, whatever they are, and is 0 between a finite point and itself; the distance of transforms is the one of their origins. Multiplying a vector by a matrix within e of a rotation gives a finite vector off by at most e plus 2^-20 of its length, so that its length is kept up to that. isOrthogonal decides correctly unless the scalar product is within 2^-22 times the product of the lengths of the tolerance, and accepts the computed cross product of two vectors of moderate length. The inverse of a transform known up to e has the transposed matrix, without further error, and a translation off by at most e plus 2^-20 of its length; transformDiff of transforms known up to e and e' is within e + e' + ee' + 2^-19 of the rotation between them, and from a transform to itself it is the identity up to that.", "quantifier": "all finite vectors and matrices of the stated sizes", "why_tests_cant": "Errors depend on all the digits of up to 24 floats.", "anchors": ["src/types/alposition3d.cpp:distance", "src/types/alposition3d.cpp:isOrthogonal", "src/types/altransform.cpp:transformInverse", "src/types/altransform.cpp:transformDiff", "src/types/altransform.cpp:transformDistance"]}
{"id": "C83", "title": "Quaternions in single precision", "statement": "In single precision, where norms and the diagonal of the matrix are computed in double precision because of std::pow: the norm of a finite quaternion of length up to 2^126 has a relative error of at most 2^-23 (plus 2^-150) and is 0 only for the null quaternion, the only one that normalize refuses. A quaternion of length between 2^-126 and 2^125 is normalised with an error of at most 2^-20; a tiny one becomes infinities and NaN without any exception. The product of two quaternions is off by at most 2^-20 of the product of the lengths; a product of n quaternions, bracketed in any way, each within k >= 2^-19 of a unit quaternion, is within 4nk of the exact product if 10nk <= 1. The matrix of a quaternion within e of a unit quaternion p is within 12e + 6e^2 + 2^-19 of the rotation v -> p v p*, so that the matrix of a normalised quaternion is accepted by isRotation with the default tolerance, and the matrix of a product is near the product of the rotations.", "quantifier": "all finite quaternions of the stated sizes, all numbers of factors and bracketings", "why_tests_cant": "2^128 quaternions; products of any length.", "anchors": ["src/types/alquaternion.cpp:norm", "src/types/alquaternion.cpp:normalize", "src/types/alquaternion.cpp:quaternionInverse", "src/tools/almath.cpp:rotationFromQuaternion", "src/tools/altransformhelpers.cpp:transformFromQuaternion", "almath/types/alquaternion.h:operator*"]}
{"id": "C84", "title": "Normalisation of matrices in single precision", "statement": "In single precision, where lengths are computed in double precision because of std::pow: normalizeRotation reads only the last two columns. If the third column is a > 0 times the third column of a rotation Q and the second one lies in the half plane of the second column of Q, at the distance b from the third axis, with a and b between 2^-12 and 2^60 and a second column at most K <= 2^16 times b long, then the result is finite and within 6K 2^-20 of Q. So a matrix within e <= 1/8 of a rotation P becomes a matrix within 2^-16 of a rotation which is within 11e of P, and the result is accepted by isRotation with the default tolerance. A third column shorter than 9.9e-5, or one parallel to the second one, gives the identity. normalizeTransform does the same and keeps the translation. Without the bound on K the result need not be a rotation: for a long second column nearly parallel to the third one, isRotation refuses it even with a tolerance of 1/50.", "quantifier": "all finite last two columns of the stated sizes, any first column, all tolerances from 9.9e-5", "why_tests_cant": "2^192 pairs of columns; the loss depends on their angle.", "anchors": ["src/types/alrotation.cpp:normalizeRotation", "src/types/altransform.cpp:normalizeTransform"]}
{"id": "C85", "title": "Matrices and transforms from angles in single precision", "statement": "In single precision, with a cosine and a sine that are off by at most 2^-23: the rotation about an axis of coordinates by a finite angle is finite and within 2^-22 of the exact one, rotationFrom3DRotation is within 2^-17 of Rz Ry Rx and is accepted by isRotation with the default tolerance, transformFromPosition, transformFrom3DRotation, transformFromRotVec and transformFromPose2D have that rotation part and exactly the given translation (a mask that is not one of the three axes gives the identity rotation). So a product, in any association, of up to 21845 transforms built by transformFromPosition with translations of at most L has entries within n 2^-15 of those of the exact product of the exact transforms, and a translation within 6 n^2 L 2^-17.", "quantifier": "all finite angles and all implementations of the trigonometric functions of the stated accuracy; all products", "why_tests_cant": "2^96 triples of angles, and chains of any shape.", "anchors": ["src/types/alrotation.cpp:rotationFromRotX", "src/types/alrotation.cpp:rotationFrom3DRotation", "src/types/altransform.cpp:transformFromPosition", "src/types/altransform.cpp:transformFrom3DRotation", "src/tools/altransformhelpers.cpp:transformFromRotVec", "src/tools/altransformhelpers.cpp:transformFromPose2D"]}
{"id": "C86", "title": "Angles of a matrix in single precision", "statement": "In single precision, with trigonometric functions of the accuracy of C85 and an atan2 whose direction is off by at most 2^-21: if a matrix is within e <= 1/32 of a rotation P, then rotation3DFromRotation (and rotation3DFromTransform and position6DFromTransform) gives three finite angles of at most 4 in absolute value, whose exact rotation Rz Ry Rx is within 12 e + 2^-15 of P, near the gimbal lock as well. So rotationFrom3DRotation of these angles is within 13 e + 2^-14 of the matrix, and the angles of rotationFrom3DRotation(a) give a rotation within 2^-13 of that of a.", "quantifier": "all matrices of finite floats within 1/32 of a rotation, all implementations of the trigonometric functions of the stated accuracy", "why_tests_cant": "The errors of the angles themselves are unbounded near the gimbal lock; only the rotation they stand for is near.", "anchors": ["src/tools/altransformhelpers.cpp:rotation3DFromRotation", "src/tools/altransformhelpers.cpp:rotation3DFromTransform", "src/tools/altransformhelpers.cpp:position6DFromTransform"]}
{"id": "C87", "title": "Matrix from an angle and an axis in single precision", "statement": "In single precision, with trigonometric functions of the accuracy of C85: rotationFromAngleDirection accepts an axis whose squared length is within 9.6e-6 of 1 and refuses one of length at most 2^62 whose squared length is 1.04e-5 or more away from 1. If an accepted axis is within d <= 1/8 of a unit vector n, then the matrix is finite and within 6 d + 2^-18 of the rotation about n. An axis computed by Position3D::normalize from a vector of length between 2^-60 and 2^62 is accepted, and the matrix is within 17/2^20 of the rotation about the direction of the vector and accepted by isRotation with the default tolerance. An axis with a NaN is not refused and gives a NaN on the diagonal.", "quantifier": "all finite angles and axes, all implementations of the trigonometric functions of the stated accuracy", "why_tests_cant": "2^128 angles and axes; the boundary of the check depends on roundings.", "anchors": ["src/types/alrotation.cpp:rotationFromAngleDirection"]}
{"id": "C88", "title": "Quaternions from and to an angle and an axis in single precision", "statement": "In single precision, with a cosine and a sine off by at most 2^-23 and an arc cosine off by at most 2^-21: quaternionFromAngleAndAxisRotation of an axis within d <= 1/8 of a unit vector n is finite, within d + 2^-20 of the exact quaternion of the rotation about n, and rotationFromQuaternion of it is within 14 d + 2^-16 of that rotation. If a quaternion with a real part of at most 1 in absolute value is within e <= 1/8 of a unit quaternion p, then angleAndAxisRotationFromQuaternion gives a finite angle and a finite nonzero axis whose rotation (about the direction of the axis) is within 3 (e + sqrt(2 e + e^2) + 0.00021) of that of p; for a quaternion computed by normalize this is at most 1/200. With a real part beyond 1 the angle and the axis are NaN, and this happens for the product q * q.inverse() of a quaternion q that normalize keeps. The axis need not be a unit vector: there is a quaternion that normalize keeps whose axis has a squared length above 1.3, so that rotationFromAngleDirection refuses it.", "quantifier": "all finite angles, axes and quaternions in the stated ranges, all implementations of the functions of <cmath> of the stated accuracy", "why_tests_cant": "2^128 quaternions; the errors are largest in a small neighbourhood of the identity.", "anchors": ["src/types/alquaternion.cpp:quaternionFromAngleAndAxisRotation", "src/types/alquaternion.cpp:angleAndAxisRotationFromQuaternion"]}
{"id": "C89", "title": "Circular means in single precision", "statement": "In single precision, with trigonometric functions of the accuracy of C85 and C86: weightedMeanAngle throws if the lists have different lengths or some weight is not strictly positive (whatever the other numbers are, NaN weights aside). For n <= 2^18 finite angles with finite positive weights of sum W <= 2^60, with the error E = (n + 2) W / 2^21 + 2^-70: it throws if the length of the exact resultant is less than the threshold minus E, and if the length is at least the threshold plus E then it gives a finite angle of at most pi (as a float) in absolute value whose direction is that of the exact resultant R up to 2 E / |R|.", "quantifier": "all lists of angles and weights in the stated ranges, all implementations of the trigonometric functions of the stated accuracy", "why_tests_cant": "Lists of any length up to 2^18; errors accumulate with the length.", "anchors": ["src/tools/almath.cpp:weightedMeanAngle"]}
{"id": "C90", "title": "Numbers written in documents are read again exactly", "statement": "With the precision that the library sets for double (17 significant digits), every finite double is written as a word without blanks, and reading that word gives the same double; so the arrays of three finite doubles written by Array3dTranslator::put_value are read again exactly by get_value. For float, 9 significant digits are enough. One digit less than 17 (what boost does, according to the comment in the library) is not enough for double: 1 and the next double are both written \"1\"; with 7 digits, 1 and the next float are both written \"1\". A text made of blanks, a sign or none, digits, a point and digits or none, an exponent or none, and blanks stands for that decimal number rounded once; it is refused if the rounded number is infinite, as for 10^n with n >= 309. Infinities and NaN are written as words that are refused when read.", "quantifier": "all finite values of type double and float, all arrays of three of them", "why_tests_cant": "2^64 doubles; the hard cases are those whose decimal expansions are close to the middle of two doubles.", "anchors": ["almath/scenegraph/urdf.h:insert", "almath/scenegraph/urdf.h:extract", "src/scenegraph/urdf.cpp:Array3dTranslator::put_value"]}
{"id": "C91", "title": "The printed graph has one edge for each joint", "statement": "Traversing the joints of a tree with UrdfDotPrinterVisitor never throws and appends to the stream exactly one statement 'parent -> child [label=name];' per joint below the root, each joint once, parents before children and siblings in the order of the index; afterwards the counter of the visitor is what it was. If all names are made of letters, digits and underscores, the text determines the edges in order, so that two trees printed alike have the same edges below their roots. Names are not quoted: with other names a tree with one joint may be printed like a tree with two.", "quantifier": "all kinematic trees, all texts already in the stream", "why_tests_cant": "Trees of any size and shape; that no two different trees are printed alike is a statement about all pairs.", "anchors": ["src/scenegraph/urdf.cpp:UrdfDotPrinterVisitor::discover", "src/scenegraph/urdf.cpp:UrdfDotPrinterVisitor::finish", "almath/scenegraph/urdf.h:UrdfDotPrinterVisitor"]}
{"id": "C92", "title": "Conversions to and from matrices of Eigen keep the meaning", "statement": "toEigenMatrix34, toEigenMatrix3 and toEigenAffineCompact3 give the linear part and the translation of a transform, entry by entry; toALMathTransform is their inverse, and drops the last row, and only it, of transforms with four rows. Products, the identity and the images of points of transforms are those of the affine maps of Eigen. Positions come back unchanged, and both conversions of velocities agree and keep the order of the six numbers.", "quantifier": "all transforms, matrices, positions and velocities", "why_tests_cant": "All values; a wrong storage order is invisible on symmetric matrices.", "anchors": ["almath/scenegraph/almatheigen.h:toEigenMatrix34", "almath/scenegraph/almatheigen.h:toEigenMatrix3", "almath/scenegraph/almatheigen.h:toEigenAffineCompact3", "almath/scenegraph/almatheigen.h:toALMathTransform", "almath/scenegraph/almatheigen.h:toALMathPosition3D", "almath/scenegraph/almatheigen.h:toALMathVelocity6D"]}
{"id": "C93", "title": "Pixels of occupancy maps in single precision", "statement": "In single precision roundToInt rounds every float to nearest, halves away from zero, except the float before 1/2, the odd numbers from 2^23 to 2^24 and their opposites; it is undefined exactly if the result is not an int, and for NaN and infinities. Converting a pixel to a position and back gives the same pixel if five times its coordinate plus the offset of the map, in pixels, is at most 2^22; farther away the pixel can be lost. A position converted to a pixel and back moves by at most half a pixel plus a rounding error that is bounded in terms of its distance to the origin and to the offset. Pixels never decrease when positions increase. The offset set by the constructor puts the middle of the map on the given centre, up to rounding.", "quantifier": "all floats, all resolutions between 2^-100 and 2^95, all pixels and positions in the stated ranges", "why_tests_cant": "Two exceptional floats below 1, and errors that depend on the rounding of five operations: neither shows in samples.", "anchors": ["almath/types/occupancymapparams.h:roundToInt", "almath/types/occupancymapparams.h:getPixelFromOffsetAndScale", "src/types/occupancymapparams.cpp:OccupancyMapParams::getPositionFromPixel", "src/types/occupancymapparams.cpp:OccupancyMapParams::initOriginOffset"]}
{"id": "C94", "title": "Digital filter in single precision", "statement": "In single precision, the outputs of a configured filter whose feedback has an absolutely summable impulse response stay within a fixed distance of the exact solution of its difference equation, for inputs of any length; if the sum of the magnitudes of the feedback weights is below 1 the distance is given by the weights, the gain and the range of the inputs. No call of a configured filter reads outside its buffers, whatever the weights, the gain and the inputs, NaN included. A filter without feedback forgets every input after as many samples as it has weights; a filter with feedback that has given an output that is not finite gives no finite output again until it is reset, and a reset filter is as after its configuration. Without summability no such bound holds: the filter that adds up its inputs stops at 2^24.", "quantifier": "all weights, gains and input sequences in the stated ranges", "why_tests_cant": "Rounding errors are fed back, so their sum over arbitrarily long inputs has to be bounded; tests see only prefixes.", "anchors": ["src/dsp/digitalfilter.cpp:DigitalFilter::processFilter", "src/dsp/digitalfilter.cpp:DigitalFilter::configureFilter", "src/dsp/digitalfilter.cpp:DigitalFilter::resetFilter"]}
{"id": "C95", "title": "PID controller in single precision", "statement": "In single precision, after any history of at most 2^20 calls of both feedback functions of a controller with a valid configuration, the next feedback is finite and within a stated distance of the PID law of C39. Samples within the dead band leave the integral exactly as it was. Without dead band the integral of a constant error never exceeds 2^26 times its increment. The constructor and setGains reject negative values and -infinity only, so that NaN is accepted. A command or a measure that is NaN counts as no error. After one infinite sample no feedback is finite until initialize is called; after initialize the controller answers like a new one.", "quantifier": "all configurations, histories and samples in the stated ranges", "why_tests_cant": "The error of the integral grows with the history, and histories are unbounded.", "anchors": ["src/dsp/pidcontroller.cpp:PIDController::computeFeedback", "src/dsp/pidcontroller.cpp:PIDController::computeFeedbackAbsolute", "src/dsp/pidcontroller.cpp:PIDController::setGains", "src/dsp/pidcontroller.cpp:PIDController::xCheckPositif"]}
{"id": "C96", "title": "Texts of objects in Python", "statement": "The texts that __repr__ and __str__ write for objects in Python always fit in their array of 1024 characters, whatever the values of the members, NaN and infinities included. The texts of poses, positions, quaternions, 3D rotations, 3D velocities, map parameters and points are calls with all members by name. Objects whose texts are equal have equal members up to five millionths, and equal integers. The text of a vector lists the texts of its elements in order. The texts of 6D velocities lack their closing parenthesis, those of displacements the comma between their arguments, and those of rotations and transforms the comma between rows, so they are not expressions in Python.", "quantifier": "all values of the members, vectors of any length", "why_tests_cant": "The longest text has to be bounded over all floats, and a missing member shows only for pairs of objects that differ in it.", "anchors": ["almath.i:AL::Math::Velocity6D", "almath.i:AL::Math::Displacement", "almath.i:AL::Math::TransformAndVelocity6D", "almath.i:AL::Math::OccupancyMapParams"]}
{"id": "C97", "title": "Planar poses in single precision", "statement": "In single precision, composing planar poses by * or *= and applying a pose to a position give coordinates within 2^-22 of the first pose's coordinates plus 2^-20 of the second's, and a heading with the error of one sum. After a path of up to 2^20 compositions in any mix of the two forms, the heading is off by at most n*B*2^-23 where B bounds the exact headings, and the coordinates by at most n times 2^-21 of the distance covered plus its share of the heading error. The computed inverse has the opposite heading and cancels the pose from both sides up to 2^-18 of its coordinates, and diff leads from one pose to the other up to 2^-17. The heading is never brought back into one turn: after 2^24 turns of one radian it does not change any more. For some poses *= and * give different results.", "quantifier": "all finite coordinates up to 2^118, all headings, all paths up to 2^20 poses, all accurate cosines and sines", "why_tests_cant": "Errors accumulate over long paths in ways that depend on every value, and the two forms of composition differ only for particular magnitudes.", "anchors": ["src/types/alpose2d.cpp:operator*=", "almath/types/alpose2d.h:operator*", "src/types/alpose2d.cpp:pose2dInvertInPlace", "src/types/alpose2d.cpp:pose2dDiff"]}
{"id": "C98", "title": "Intersection of segments and boxes in single precision", "statement": "In single precision, for coordinates up to L (between 2^-10 and 2^50), two segments said to intersect come close to a common point, which is the one returned: within 2^-21*L of the first and within 2^-19*L + 2^-17*L^2/g of the second, where g is the extent of the first segment along the axis the code divides by. Segments that cross clearly, at a clear angle, are said to intersect. A point is said to be inside a box only if it is right of all its sides up to 2^-18*L^2, and always if it is right of them by that much. The test of two boxes always returns; what it says has the same margins. The bound by g is needed: a nearly vertical first segment is said to intersect another one that is 8 mm away, on a scale of one metre, although the exact formulas say no.", "quantifier": "all segments, points and boxes of any number of vertices with finite coordinates up to 2^50", "why_tests_cant": "The error depends on the angle between the segments and on the extent along one axis; the bad cases are a thin set of nearly vertical segments.", "anchors": ["src/tools/avoidfootcollision.cpp:xIntersectionSegment2D", "src/tools/avoidfootcollision.cpp:xPointsInsideBox", "src/tools/avoidfootcollision.cpp:areTwoBoxesInCollision"]}
{"id": "C99", "title": "Avoiding foot collisions in single precision", "statement": "In single precision, for all boxes and moves including infinities and NaN, avoidFootCollision returns, reports a collision exactly if the computed boxes collide, keeps x and y of the move, changes nothing if there is no collision, and otherwise gives an angle that is zero or free of collision. For a finite angle t the new angle lies between 0 and t and is k*t/32 for some k < 32 up to 2^-20*|t|, and the next of these angles collides. A NaN in the position of the move, in its angle or in the fixed box is reported as a collision and sets the angle to zero.", "quantifier": "all boxes, all moves with any single precision values, all cosines and sines", "why_tests_cant": "It is a statement about the loop for all boxes and about values such as NaN that tests of feet do not use.", "anchors": ["src/tools/avoidfootcollision.cpp:avoidFootCollision", "src/tools/avoidfootcollision.cpp:dichotomie", "src/tools/avoidfootcollision.cpp:computeBox"]}
{"id": "C100", "title": "Clipping a move to an ellipse in single precision", "statement": "In single precision, with half axes between 2^-10 and 2^10 of either sign and coordinates up to 2^40, clipFootWithEllipse keeps a move for which (x/a)^2 + (y/b)^2 is at most 1.000009 and reports one for which it is at least 1.000011. A clipped move keeps the angle, has the value 1 up to 2^-19 and the direction of the move up to 2^-19, and is longer than the move at most by the factor 1/(1 - 2^-19*r), where r is the ratio of the half axes. A second call therefore changes nothing, and after any call the value is at most 1.000011. A NaN in the move or in an axis, and an axis of length zero, are always reported as clipped.", "quantifier": "all half axes between 2^-10 and 2^10, all moves with coordinates up to 2^40, all accurate cosines, sines and arc tangents", "why_tests_cant": "That a clipped move passes the comparison of a second call depends on the roundings of a dozen operations for every direction and every ellipse.", "anchors": ["src/tools/avoidfootcollision.cpp:clipFootWithEllipse"]}
{"id": "C101", "title": "Exponential of a velocity in single precision", "statement": "In single precision, velocityExponential of a velocity with angular speed t up to 65536 and linear speeds up to V in each coordinate differs from the matrix exponential by at most 2^-20 + 2^-19*t in each entry of the rotation, and by at most (2^-16 + 2^-19/t)*V + 2^-70 in the translation, below an angular speed of 0.00099 by at most 2^-18*V + 2^-70. For angles up to 3.5 radians isTransform accepts the result with its default tolerance. Without rotation the result is the translation exactly. A NaN in the angular velocity makes every entry off the diagonal NaN. The loss of accuracy of the translation just above the threshold of the series is real: for the angular speed 33/32768 and the linear speed 1 it is more than 2^-16, with correctly rounded functions.", "quantifier": "all angular velocities up to 65536 in length, all linear velocities, all accurate cosines, sines and cubes", "why_tests_cant": "The cancellation in 1 - cos(t) and t - sin(t) depends on the roundings of the cosine and the sine for every angle; the bound covers all of them, tests only a few.", "anchors": ["src/tools/altransformhelpers.cpp:velocityExponentialInPlace", "src/tools/altransformhelpers.cpp:velocityExponential"]}
{"id": "C102", "title": "Logarithm of a transform in single precision", "statement": "In single precision, let the rotation be within e <= 2^-17, entry by entry, of the rotation of the exponential of a velocity whose angle t is at most pi with sin(t) >= 0.0011, and the translation within d of its translation, with coordinates up to V. Then transformLogarithm gives finite components, the angular ones within 2^4*t/sin(t)*(e + 2^-22) and the linear ones within 2^8*t/sin(t)*(e + 2^-22)*V + 8*d + 2^-70 of those of the velocity. In particular the logarithm of velocityExponential returns the angular velocity up to 2^-15*(1+t)*t/sin(t) and the linear velocity up to (2^-10*(1+t)*t/sin(t) + 2^-16/t)*V + 2^-66. Without rotation the result is the translation exactly. A NaN off the diagonal makes every component NaN.", "quantifier": "all velocities with an angle whose sine is at least 0.0011, all matrices near their exponentials, all accurate functions atan2 and pow", "why_tests_cant": "The error grows with t/sin(t) towards a half turn and depends on every rounding of the differences of entries; the bound holds for all angles and axes, tests see only a few.", "anchors": ["src/tools/altransformhelpers.cpp:transformLogarithmInPlace", "src/tools/altransformhelpers.cpp:transformLogarithm"]}
{"id": "C103", "title": "Exponential of the logarithm and mean of transforms in single precision", "statement": "In single precision, for a matrix within e <= 2^-17 (rotation) and d (translation) of the exponential of a velocity of angle t <= pi with sin(t) >= 0.0011, whose translation has coordinates up to V >= 100*d, velocityExponential of transformLogarithm returns the rotation up to 2^7*t/sin(t)*(e + 2^-22) and the translation up to 2^11*(t/sin(t) + 1/t)*(e + 2^-22)*V + 16*d + 2^-66. Let two transforms be within e <= 2^-19 (Frobenius norm) of rotations and within e*L of translations, with translations up to L, and let the motion from the first to the second be the exponential of a velocity of angle t <= pi with sin(t) >= 0.0025. For a factor in [0, 1], transformMean does not throw and is within 2^7*t/sin(t)*(2*e + 2^-18) (rotation) and 2^11*(t/sin(t) + 1/t)*(2*e + 2^-18)*L (translation) of the first motion times the exponential of the factor times that velocity. A factor above 1 or below 0, infinities included, throws. A NaN factor does not throw: all elements of the result are NaN.", "quantifier": "all pairs of transforms near rigid motions whose relative angle has a sine of at least 0.0025, all factors, all accurate functions of <cmath>", "why_tests_cant": "The errors of the inverse, the product, the logarithm, the scaling and the exponential add up and are amplified near a half turn; tests of a few poses do not bound the error over all of them.", "anchors": ["src/tools/altransformhelpers.cpp:transformMeanInPlace", "src/tools/altransformhelpers.cpp:transformMean", "src/types/alvelocity6d.cpp:operator*"]}
{"id": "C104", "title": "Logarithm of half turns and of small rotations in single precision", "statement": "In single precision, transformLogarithm of a half turn about the x, y or z axis gives the rounded number pi times that axis as angular velocity, the coordinate of the translation along the axis exactly, and the other two linear components within 2^-18*V + 2^-80 of pi/2 times the translation turned by a quarter turn, for coordinates up to V. For any other symmetric matrix whose computed cosine is at most -0.9992 and whose diagonal is nowhere above 0.998, transformLogarithmInPlace leaves the angular velocity of its output unchanged and makes the linear velocity equal to the translation, so that the half turn is lost. For a rotation about the z axis by an angle between 0.00098 and 0.00099, the angular velocity is between 0.65 and 0.67 times the angle.", "quantifier": "all translations, all symmetric matrices near half turns, all angles just below the threshold, all accurate functions of <cmath>", "why_tests_cant": "Half turns are a set of measure zero and the band below the threshold is a thousandth of a radian wide; random tests do not meet either.", "anchors": ["src/tools/altransformhelpers.cpp:transformLogarithmInPlace", "src/tools/altransformhelpers.cpp:transformLogarithm"]}
{"id": "C105", "title": "Dubins solutions in single precision", "statement": "In single precision, for float radii between 1/1024 and 1024 and float targets with coordinates up to 2^20, getDubinsSolutions throws only if the target is closer than 4*r*(1 + 2.2*2^-24) and always if it is closer than 4*r*(1 - 2.2*2^-24). Otherwise, for headings of the target up to 8 rad, it returns three finite poses, the third being the target: with D the distance of the target, the first two are within 12*2^-24*r and 9*2^-24*D per coordinate of the ends of the segment of an exact arc, segment, arc path of radius r to a pose with the heading of the target and within 7*2^-24*D of it per coordinate; their headings are, within 14*2^-24 and 52*2^-24, the direction of the returned segment, plus a full turn in the cases of the sides that the code tests. The squared length of the returned segment exceeds by at most 2^-17*D^2 that of any exact path with arcs on the same side or with a squared segment longer than 2^-17*D^2. At four radii exactly, rounding can lose the shortest path.", "quantifier": "all float targets and radii in the ranges, all accurate functions of <cmath>", "why_tests_cant": "The candidate that becomes NaN depends on the last bits of the radius and of the target; sampled inputs seldom have circles that touch each other.", "anchors": ["src/tools/aldubinscurve.cpp:getDubinsSolutions", "src/tools/aldubinscurve.cpp:xComputeTangent", "src/tools/aldubinscurve.cpp:xGetTangents", "src/tools/aldubinscurve.cpp:xGetCircles", "src/tools/aldubinscurve.cpp:xComputeBestTangent"]}
{"id": "C106", "title": "Polygons of the rounded box mesh face outwards", "statement": "On any mesh outside begin/end (with a current texture coordinate if it uses them), for a positive radius, a non-negative half-extent along z, half-extents along x and y that are zero or at least a millionth of the radius, and at most a million arc vertices, every polygon that addRoundedBoxMesh adds has a positive area and is counter-clockwise seen from the side to which the normal of each of its vertices points.", "quantifier": "all half-extents, radii and numbers of arc vertices in the ranges, all prior mesh contents", "why_tests_cant": "The winding of a polygon depends on the order of the vertices in each of the triangles, quads and polygons of four layouts; a face culled by the renderer is not seen by unit tests that count vertices.", "anchors": ["src/scenegraph/meshfactory.cpp:addRoundedBoxMesh", "src/scenegraph/meshfactory.cpp:xAddSector", "src/scenegraph/meshfactory.cpp:xAddMeridian", "src/scenegraph/meshfactory.cpp:createRoundedBoxMesh"]}
{"id": "C107", "title": "Adapters and decorators of builders can be stacked in any order", "statement": "For every wrapped builder, every conversion of scalars and every sequence of calls, an adapter gives the wrapped builder one call for each, with the same names and type of joint and with the numbers converted one by one, and returns its outcome; names left out and dropped static frames follow the configuration of the innermost builder. Checking names before or after converting or erasing inertias is the same, erasing before or after converting too, and checking twice is checking once. Building from a robot description through an adapter gives the converted calls. From double to float the numbers change by at most one part in 2^24 (inertias stay symmetric, but a physical one can become indefinite), and floats that go through a builder of double are not changed.", "quantifier": "all wrapped builders, all conversions, all call sequences, all descriptions", "why_tests_cant": "Equivalence of stacks of decorators is about every builder and every history of calls, including builders that throw.", "anchors": ["almath/scenegraph/rigidbodysystembuilder.h:Adapter", "almath/scenegraph/rigidbodysystembuilder.h:Decorator", "almath/scenegraph/rigidbodysystembuilder.h:NamesChecker", "almath/scenegraph/rigidbodysystembuilder.h:InertiaEraser", "almath/scenegraph/bodymass.h:BodyMass"]}
{"id": "C108", "title": "Bases from axes, orthogonalSpace and pills in single precision", "statement": "With rounding, overflow, NaN and infinities modelled: the assertions of rotationFromAxesXYZ accept all triples orthonormal within 98e-6 (lengths) and 999e-6 (dot products) and none that is not within 102e-6 and 1001e-6, and the returned columns are the arguments unchanged; the two-axis versions return, for axes of unit length within 45e-6 with a dot product of at most 990e-6, the two axes and their cross product within 1e-6, and whatever they return is within 1/400 of a rotation. orthogonalSpace of a vector of length between 2^-60 and 2^62 keeps the translation, has the direction of the vector as third axis within 2e-6 and is within 340e-6 of a rotation, within 24e-6 if the vector is not nearly along the third axis or has no first coordinate; it throws when the norm underflows or overflows. The sphere centres of the pill computed from two points are the second and the first point within 7e-6 of the half extent and 2e-7 of the distance of the middle from the origin.", "quantifier": "all finite single precision axes, vectors and points in the stated ranges", "why_tests_cant": "The bounds hold for every float in a range of 2^120; the tolerances of the assertions interact only for particular lengths.", "anchors": ["src/tools/altransformhelpers.cpp:rotationFromAxesXYZ", "src/tools/altransformhelpers.cpp:rotationFromAxesXY", "src/tools/altransformhelpers.cpp:rotationFromAxesXZ", "src/tools/altransformhelpers.cpp:rotationFromAxesYZ", "src/tools/altransformhelpers.cpp:orthogonalSpace", "src/geometrics/shapes3d_utils.cpp:computePillParameters", "src/geometrics/shapes3d_utils.cpp:getSphereCentersFromPill"]}
{"id": "C109", "title": "Conversions between angles, matrices and quaternions in single precision", "statement": "With rounding, NaN and infinities modelled: quaternionFromRotation3D of any finite angles is within 2^-18 of the product of the exact quaternions of the three rotations, rotationFromQuaternion of it is within 2^-14 of the rotation and rotation3DFromQuaternion of it gives finite angles of a rotation within 2^-10. quaternionFromTransform of a matrix whose elements are within e of a rotation that is not too small is a quaternion of unit length within 2^-20, within 4 sqrt(e + 2^-21) of one of the two quaternions of the rotation, and transformFromDisplacement of displacementFromTransform keeps the translation and is within 50 sqrt(e + 2^-21) of the rotation. When the diagonal adds up to more than 3 + 2^-18 the result is the identity or its vector part is NaN, also for matrices that isTransform accepts; a matrix with 1 on the diagonal and opposite elements beside it, such as that of a rotation by at most 2^-13 rad, gives the identity.", "quantifier": "all finite single precision angles and matrices in the stated ranges", "why_tests_cant": "The branch taken, the cancellation in the square root and the sign of the axis near half turns depend on the last bits of the elements.", "anchors": ["src/tools/almath.cpp:quaternionFromRotation3D", "src/tools/almath.cpp:rotation3DFromQuaternion", "src/tools/altransformhelpers.cpp:quaternionFromTransform", "src/tools/altransformhelpers.cpp:transformFromDisplacement", "src/tools/altransformhelpers.cpp:displacementFromTransform"]}
{"id": "C110", "title": "Rotational inertia of a point mass in single precision", "statement": "With rounding, overflow, NaN and infinities modelled: pointMassRotationalInertia always returns nine elements of a symmetric matrix; for a mass and coordinates of at most 2^40 each element is finite and within 2^-22 of its exact value, up to 2^-107, and the diagonal is not negative if the mass is not; the quadratic form of the matrix differs from the exact one by at most 2^-20 m |p|^2 + 2^-105 times the squared length of the argument. It is not positive semidefinite in general, unlike the exact one: for the mass 1 at (1 + 2^-14, 1, 0) it takes a negative value.", "quantifier": "all single precision masses and positions, bounded by 2^40 where stated", "why_tests_cant": "A lost definiteness shows only for positions whose squares are rounded down while the mixed products are exact.", "anchors": ["src/tools/almath.cpp:pointMassRotationalInertia"]}
{"id": "C111", "title": "Changes of reference frame in single precision", "statement": "With rounding, overflow, NaN and infinities modelled, for a transform whose rotation part is within e (Frobenius norm, at most 1) of a rotation P: changeReferenceVelocity6D, changeReferencePosition6D and changeReferencePosition3D return finite vectors within (e + 2^-20) times the length of the given vector, plus 2^-147, of its image by P, for the linear and the angular part alike and whatever the translation of the transform; the transposed functions do the same with the transpose of P; one after the other they return the position up to (4e + 2^-18) times its length plus 2^-145; changeReferenceTransform and its transposed version return the product of the rotations within e + f + ef + 2^-19, f being the error of the second rotation, and the rotated translation of the second. position6DFromTransformDiff returns the rounded difference of the translations and, if the second rotation is the first one followed by the rotation of angle a about n, an angular part within 3(e + f + ef) + 2^-19 of sin(a) n in each component, e and f being the largest errors of the elements; it is exactly zero for a transform and itself.", "quantifier": "all single precision transforms near rotations, all vectors of length at most 2^119 (2^117 for the round trip) and translations of at most 2^126", "why_tests_cant": "The bounds hold for every rotation and vector; a swapped index in one of the forty rows shows only for rotations with distinct elements.", "anchors": ["src/tools/altransformhelpers.cpp:changeReferenceVelocity6D", "src/tools/altransformhelpers.cpp:changeReferencePosition6D", "src/tools/altransformhelpers.cpp:changeReferencePosition3D", "src/tools/altransformhelpers.cpp:changeReferenceTransposePosition3D", "src/tools/altransformhelpers.cpp:changeReferenceTransform", "src/tools/altransformhelpers.cpp:changeReferenceTransposeTransform", "src/tools/altransformhelpers.cpp:changeReferenceTransposeVelocity6D", "src/tools/altransformhelpers.cpp:changeReferenceTransposePosition6D", "src/tools/altransformhelpers.cpp:position6DFromTransformDiffInPlace"]}
{"id": "C112", "title": "Elements of a robot tree looked up by name and written through the references", "statement": "After any sequence of calls of the editions of RobotTree and of writings through the references returned by link and joint that keep the name (and, for a joint, its links and the joint it mimics): link(name) and joint(name) return the element of the document with this name, the only one, and throw exactly if there is none; root_link, the parent and the child of each joint can be looked up, each link except the root is the child of exactly one joint and the root of none; writing to a name which is not in the document throws and changes nothing; what is written is found again and changes neither the other elements nor the joints attached to each link; a removed leaf joint and its child link are not found any more and all others are found as before; loading the document again is accepted exactly if every mimicked joint is still there and gives the same robot. Nothing checks what is written: a change of the links of a joint is accepted and can give a document which is refused.", "quantifier": "all documents, all finite sequences of calls and writings", "why_tests_cant": "The index must agree with the document after every interleaving of calls and writings.", "anchors": ["almath/scenegraph/urdf.h:RobotTree", "src/scenegraph/urdf.cpp:checked_find", "src/scenegraph/urdf.cpp:root_link", "src/scenegraph/urdf.cpp:rm_leaf_joint"]}
{"id": "C113", "title": "Norms, distances and normalisation of six components in single precision", "statement": "For six finite components whose Euclidean norm is between 2^-60 and 2^62, the norms of Position6D and Velocity6D are finite floats within 2^-20 of the exact norm, relatively, and normalize throws no exception and gives the six components of the unit vector of the same direction, each within 2^-19 relatively (and 2^-150 absolutely). If all six components are at most 2^-75 in magnitude, zero or not, normalize throws; if one of six finite components is at least 2^64 in magnitude, normalize returns 0 without an exception. The distance of two Position6D is that of their translations, within 2^-19 relatively if it is between 2^-59 and 2^61, whatever the angles are, and it is 0 when only the angles differ.", "quantifier": "all components", "why_tests_cant": "The bounds hold for all values of the format, with the roundings of each operation.", "anchors": ["src/types/alposition6d.cpp:distanceSquared", "src/types/alposition6d.cpp:norm", "src/types/alposition6d.cpp:normalize", "src/types/alvelocity6d.cpp:norm", "src/types/alvelocity6d.cpp:normalize"]}
{"id": "C114", "title": "Products, norms, distances and normalisation in the plane in single precision", "statement": "The norms of Position2D and Pose2D are within 2^-20 relatively of the exact norm if it is between 2^-60 and 2^62, and normalize of a Position2D is then the unit vector of the same direction, each coordinate within 2^-19 relatively; it throws if both coordinates are at most 2^-75 in magnitude, zero or not, and returns 0 if a finite coordinate is at least 2^64. Dot and cross products are within 2^-22 of the sum of the magnitudes of their terms. The distances of two Position2D and of two Pose2D are within 2^-19 relatively if the exact one is between 2^-59 and 2^61, and do not depend on the angles. normalize of a Pose2D keeps the angle and is as accurate if the norm is at least 1.0001e-4 (and at most 2^62), and throws if it is at most 0.9999e-4.", "quantifier": "all coordinates", "why_tests_cant": "The bounds hold for all values of the format, with the roundings of each operation.", "anchors": ["src/types/alposition2d.cpp:normalize", "src/types/alposition2d.cpp:crossProduct", "src/types/alposition2d.cpp:distanceSquared", "src/types/alpose2d.cpp:normalize", "src/types/alpose2d.cpp:distanceSquared", "almath/types/alpose2d.h:norm"]}
{"id": "C115", "title": "Polar coordinates in single precision", "statement": "With a cosine and a sine accurate to 2^-23 and an accurate arc tangent, fromPolarCoordinates of Position2D and of Pose2D gives coordinates within 2^-22 of the radius (and 2^-150) of the exact ones, if the radius is at most 2^120 in magnitude; the pose keeps the angle exactly. The norm of the result is the magnitude of the radius within 2^-19 relatively, if it is between 2^-59 and 2^61. getAngle of the result is the direction of the given angle within 2^-19 for a positive radius of at least 2^-100, and the opposite direction for a negative one.", "quantifier": "all radii and angles, all libraries with these accuracies", "why_tests_cant": "The bounds hold for all values of the format, with the roundings of each operation.", "anchors": ["src/types/alposition2d.cpp:fromPolarCoordinates", "src/types/alposition2d.cpp:getAngle", "src/types/alpose2d.cpp:fromPolarCoordinates", "almath/types/alpose2d.h:getAngle"]}
{"id": "C116", "title": "Comparisons with a tolerance of planar, six-component, transform and quaternion types in single precision", "statement": "For finite components and a finite tolerance of the format, isNear of Position2D, Pose2D, Position6D, Velocity6D and Transform accepts whenever all components differ by at most the tolerance, and what it accepts does so up to the factor 1 - 2^-24 of one rounding; angles are compared as numbers. isNear of Quaternion accepts only quaternions all of whose components differ by less than the tolerance, exactly, from those of the other or of its opposite, and accepts all that do so with a margin of 1 + 2^-24; no quaternion is near any other, nor itself, for the tolerance 0. isNear of Displacement is the conjunction of both.", "quantifier": "all components and tolerances", "why_tests_cant": "The bounds hold for all values of the format, with the rounding of each difference.", "anchors": ["src/types/alposition2d.cpp:isNear", "src/types/alpose2d.cpp:isNear", "src/types/alposition6d.cpp:isNear", "src/types/alvelocity6d.cpp:isNear", "src/types/altransform.cpp:isNear", "src/types/alquaternion.cpp:isNear", "src/types/aldisplacement.cpp:isNear"]}
