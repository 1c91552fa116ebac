# Formal model of libalmath: design

## Subject

`aldebaran/libalmath` at the pinned commit, read as text in `/repo`. Nothing is
compiled or executed; the Lean model in `lean/Verif` was written by reading the
C++ and every definition cites the file and lines it models.

## Layout

| Directory | Content |
|---|---|
| `lean/Verif/Model/*.lean` | Model of the code, function by function, with citations. |
| `lean/Verif/Spec/*.lean`  | Small independent specifications (matrices, rotations, graphs, ...). |
| `lean/Verif/Lemmas/*.lean`| Helper lemmas. |
| `lean/Verif/Props/*.lean` | Property theorems, each with a non-vacuity `example`. |

## Modelling conventions

* `float` / `double` are modelled as real numbers `ℝ` (Mathlib). Rounding,
  overflow, NaN and infinities are *not* modelled: theorems say what the
  formulas compute in exact arithmetic. Decimal literals are their decimal
  value, except for `PI`/`_2_PI_` where the exact value of the float matters.
  The exceptions are the functions of `Model/FloatTypes.lean`,
  `Model/FloatQuat.lean`, `Model/FloatNormalize.lean`, `Model/FloatAngles.lean`, `Model/FloatAxis.lean`, `Model/FloatMap.lean`, `Model/FloatDsp.lean`, `Model/FloatPose.lean`, `Model/FloatFoot.lean`, `Model/FloatInertia.lean`, `Model/FloatFrame.lean`, `Model/FloatSix.lean`, `Model/FloatPlane.lean`, `Model/FloatPolar.lean`, `Model/FloatNearTypes.lean`, `Model/FloatConvert.lean`, `Model/FloatBasis.lean`, `Model/FloatExp.lean`, `Model/FloatLog.lean`, `Model/FloatMean.lean` and `Model/FloatDubins.lean`, for which rounding,
  overflow and special values are modelled as well, by `Model/Float32.lean`:
  IEEE binary32, round to nearest even after each operation (no fused or
  wider intermediate results), subnormals, overflow to infinity, NaN. There,
  zeros have no sign and all NaN are the same. `std::pow(x, 2)` of a `float` is
  a `double`: expressions that contain it are evaluated in binary64
  (`Model/Float64.lean`) and converted when they are stored. Properties from C75 on which say
  "in single precision" are about that model; functions of the mathematical
  library other than `sqrt`, `fabs` and `fmod` are parameters of it.
* `std::sqrt/sin/cos/acos` are `Real.sqrt/sin/cos/arccos`, guarded where the
  C++ function would return NaN (the model then has a separate outcome).
  `std::atan2 y x` is `Complex.arg (x + y i)`, which agrees with C `atan2` in
  exact arithmetic including `atan2(0,0) = 0` (signed zeros are not modelled).
* A function that throws returns `Res α` with outcomes `ok v`, `throws`, and
  `ub` (undefined behaviour, or NaN produced by a division `0/0` where the code
  has no guard). Nothing relies on Lean's `x / 0 = 0`: divisions that the code
  does not guard are guarded in the model and yield `ub`.
* `assert` and `BOOST_ASSERT` are preconditions: whether they are compiled is
  a build option, so a violated assertion is modelled as `ub` and theorems show
  that it cannot happen, or show when it does.
* A method that can throw after it has modified its object returns
  `Res α × State`, so that theorems can say what state a rejected call leaves.
* A loop that may not terminate takes a fuel argument and returns `Option`;
  theorems give a bound that is enough, or show that no amount of fuel is.
* Mutation through a reference becomes returning the new value. Where aliasing
  of arguments matters the statement-by-statement version is modelled as well.
* `std::vector` is `List`; `std::string` names are an arbitrary type with
  decidable equality or `String`; `std::map/set/multi_index` are lists with the
  relevant lookup semantics.
* Boost.PropertyTree documents are trees of (key, subtree) pairs or, where only
  the decoded attributes matter, records of the decoded attributes.
* URDF editions are modelled twice: on the decoded attributes (`Model/Urdf.lean`)
  and on the XML document itself (`Model/UrdfXml.lean`). In the latter, a number
  or vector printed into the document is an unspecified text that is read back
  exactly (class `Printer`), and an iterator of the index is the name of the
  element it points to.
* Numbers written to a stream with the default precision are modelled as the
  number rounded to six significant digits (`sig6`); the text of an XML element
  made of numbers is the list of these numbers.
* Eigen operations are modelled by their mathematical definition
  (matrix product, quaternion product, `toRotationMatrix`), which is part of the
  trusted base.

## Trusted base

* The Lean 4.33.0 kernel and the axioms `propext`, `Classical.choice`,
  `Quot.sound` (checked with `#print axioms`; no other axiom is used, no
  `sorry`, `native_decide` or `bv_decide`).
* The reading of the C++ code: that each model definition computes what the
  cited lines compute, under the conventions above.
* In `Model/FloatAngles.lean`, `Model/FloatAxis.lean`, `Model/FloatMap.lean`, `Model/FloatDsp.lean`, `Model/FloatPose.lean`, `Model/FloatFoot.lean`, `Model/FloatInertia.lean`, `Model/FloatFrame.lean`, `Model/FloatSix.lean`, `Model/FloatPlane.lean`, `Model/FloatPolar.lean`, `Model/FloatNearTypes.lean`, `Model/FloatConvert.lean`, `Model/FloatBasis.lean`, `Model/FloatExp.lean`, `Model/FloatLog.lean`, `Model/FloatMean.lean` and `Model/FloatDubins.lean` the functions of `<cmath>` are parameters. What is
  assumed of them is a hypothesis of the theorems (`Libm.Accurate` in
  `Spec/Libm.lean`): finite arguments give finite results, cos and sin are off by
  at most 2^-23, and the direction of atan2 by at most 2^-21. `acos` (`AcosAccurate`) is off by
  at most 2^-21 and NaN outside its domain. `std::pow(x, 2)` and `std::pow(x, 3)` (`Pow2Accurate`, `Pow3Accurate`) are off by
  at most 2^-50 of the value, and where the angle itself matters atan2 is off by at most 2^-22 of it (`Atan2Accurate`).
  Functions that are
  off by one unit in the last place satisfy this. Zeros have no sign in the model
  of binary32, so atan2 there has one value at (0, -1), within the hypothesis
  whichever sign of pi it is.
* Exact real arithmetic instead of IEEE arithmetic, except in `Model/FloatTypes.lean`,
  `Model/FloatQuat.lean`, `Model/FloatNormalize.lean`, `Model/FloatAngles.lean`, `Model/FloatAxis.lean`, `Model/FloatMap.lean`, `Model/FloatDsp.lean`, `Model/FloatPose.lean`, `Model/FloatFoot.lean`, `Model/FloatInertia.lean`, `Model/FloatFrame.lean`, `Model/FloatSix.lean`, `Model/FloatPlane.lean`, `Model/FloatPolar.lean`, `Model/FloatNearTypes.lean`, `Model/FloatConvert.lean`, `Model/FloatBasis.lean`, `Model/FloatExp.lean`, `Model/FloatLog.lean`, `Model/FloatMean.lean` and `Model/FloatDubins.lean`; there, that the compiler evaluates `float` expressions in binary32 and `double`
  expressions in binary64, operation by operation, and that `std::pow(x, 2)` is exact for a `float`
  (`std::pow(t, 3)` is a parameter with a relative error of at most 2^-50, `Pow3Accurate`).
* The behaviour of Boost, Eigen and the C++ standard library as described in
  the comments of the model definitions.
* Not modelled: XML text parsing and printing,
  the Python/SWIG wrapper (except the texts that `almath.i` writes, C96), `geometry_module` registration. Boost.PropertyTree,
  Boost.Multi-Index, ROS time and qi time types are modelled by the functions
  that the code calls on them.

## Per property plan

* **C01 Flat-vector conversion round-trips and rejects wrong sizes.** Model each constructor/toVector pair on `List`; theorem per type: `ofVec (toVec v) = v`, length, fallback on any other length.
* **C02 Division and normalisation fail exactly on zero.** Model operator/ and normalize as `Res`; prove throw-iff-zero, unit norm, parallel.
* **C03 Distances are metrics and isNear is a tolerance relation.** Prove metric laws through the Euclidean norm; `isNear` by interval arithmetic on components.
* **C04 Planar poses form a group.** Group laws by ring identities and angle addition.
* **C05 A planar pose acts on points as a rigid motion.** Action, isometry and agreement with the 3-D transform by ring identities.
* **C06 Every rotation factory yields a proper rotation about the stated axis.** Abstraction map to Mathlib `Matrix (Fin 3) (Fin 3) ℝ`; spec `IsRot R := Rᵀ R = 1 ∧ det R = 1`; one theorem per factory.
* **C07 Rotation validity check is sound and complete.** Characterise the check at tolerance 0 by AM-GM/Cauchy-Schwarz argument on row norms and column dot products.
* **C08 Normalisation always produces a proper rotation.** Gram-Schmidt style code: prove result `IsRot` for all inputs incl. degenerate branch, idempotence, fixed points.
* **C09 Homogeneous transforms form a group.** Ring identities; spec is 4x4 matrix multiplication.
* **C10 All inverse entry points agree and diff recovers the second pose.** Equality of models of each entry point; rigid inverse laws.
* **C11 In-place and aliased operator forms agree with the functional forms.** Statement-level models with aliasing made explicit; hazards proved as negations with witnesses.
* **C12 Rigid transforms act on points as isometries.** Action and isometry via `IsRot`.
* **C13 Euler-angle extraction inverts Euler-angle construction on every rotation.** Case split on gimbal lock using polar form of `Complex.arg`; prove reconstruction equals T.
* **C14 Extracted Euler angles are in canonical range.** Range lemmas of `Complex.arg`; uniqueness in the open range.
* **C15 Quaternion multiplication is Hamilton's.** Ring identities.
* **C16 Quaternions and rotation matrices describe the same rotations.** Ring identities; kernel of the map is {±1}.
* **C17 Rotation-matrix to quaternion conversion is exact for every rotation.** Case analysis on the largest diagonal entry, using quaternion parametrisation of rotations.
* **C18 Angle-axis quaternions are unit quaternions rotating about the axis.** Unit axis: proved. Non-unit axis: the code discards the result of normalize(), negation proved with a witness.
* **C19 Angle/direction rotation accepts only near-unit directions.** Throw condition and Rodrigues formula.
* **C20 Velocity exponential is a rigid motion.** Rodrigues formula, one-parameter group above the threshold.
* **C21 Logarithm inverts the exponential.** Regular range proved; half turns about general axes and very small rotations: negation with witnesses.
* **C22 Transform interpolation hits its end points and stays rigid.** Uses C20, C21.
* **C23 Changing reference and changing back is the identity.** Linear identities with RᵀR = 1.
* **C24 Projecting a rotation on an axis yields the best rotation about that axis.** Result is a rotation about the axis: proved. Optimality: broken by a typo in a coefficient, negation with witness.
* **C25 orthogonalSpace completes an axis to a right-handed orthonormal frame.** Branches 1 and 2 exact; branch 3 (axis within 1e-4 of z) only approximately orthogonal: negation with witness.
* **C26 Pill parameters round-trip.** Round trip holds with A and B exchanged: proved as is, documented order disproved.
* **C27 modulo2PI normalises angles.** fmod model on reals with the exact float constant; induction not needed, floor arithmetic.
* **C28 Circular mean of angles.** Lists; permutation invariance by `List.Perm`; identities of resultant.
* **C29 Clipping clamps and reports.** Generic linear order; induction on lists.
* **C30 Point-mass inertia is symmetric positive semidefinite.** Quadratic form identity.
* **C31 Axis mask validity.** omega.
* **C32 Occupancy-map pixel/metric conversions are inverse.** Floor/round arithmetic.
* **C33 Reported segment intersections are real.** Algebra of the two parametrisations.
* **C34 Box collision test.** Soundness for convex clockwise boxes; degenerate empty box: negation with witness.
* **C35 Foot collision avoidance never leaves a collision unless no rotation is left.** Model of the five-step bisection; invariant over iterations.
* **C36 Ellipse clipping of foot moves.** Real algebra.
* **C37 Dubins solutions are real tangent paths.** Complex-number geometry of tangents.
* **C38 PID configuration is always valid.** State machine; strong guarantee for setGains; negation for initialize.
* **C39 PID output follows the PID law over every history.** Induction over histories; the per-call period is ignored by the code: negation with witness.
* **C40 Digital filter implements its difference equation.** Bounded-queue model of boost::circular_buffer; induction over histories; refinement to a difference equation; UB of a default-constructed filter proved.
* **C41 Mesh buffers are always consistent.** State machine invariant over all op sequences.
* **C42 Rejected mesh calls have no effect.** Per-op theorem; negation with witness for vertex(x,y,z).
* **C43 Box mesh is a closed, outward-oriented surface.** Symbolic execution of the builder; edge pairing over the fixed face list.
* **C44 Rounded-box mesh vertices lie on the rounded box.** Induction over meridians and sectors; the vertices are at the radius from the inner box within a millionth, and include the points above and below its corners.
* **C45 Accepted URDF documents describe a single kinematic tree.** Constructor modelled as a fold over elements; consequences by induction; undetected detached loop: negation with witness.
* **C46 Mimic relations are acyclic and valid documents are not rejected.** Same model; acyclicity proved for accepted documents; spurious rejection proved with a witness.
* **C47 Joint traversal is depth first, complete and duplicate free.** Fuelled/inductive traversal on trees.
* **C48 Changing the root link preserves the mechanism.** Kinematics of joints as rigid motions; flipping proved to preserve relative poses.
* **C49 Removing joints keeps the tree consistent.** Model on the joint/link tables.
* **C50 Squashing inertials preserves the rigid-body dynamics.** Matrix identities; the inertia term is conjugated the wrong way round: negation with witness, partial theorem for commuting case.
* **C51 Massless mobile joints are eliminated.** Post-order traversal model.
* **C52 Animation keys stay sorted and unique.** Binary search model of std::lower_bound/upper_bound on sorted lists.
* **C53 Rejected animation edits have no effect.** Negation with witness (a frameless key stays behind).
* **C54 A curve that passes validation is the graph of a function.** Derivative/difference argument for the Bezier abscissa.
* **C55 Tangent edits.** List edits.
* **C56 Time conversion clips and round-trips.** Integer arithmetic with explicit 64-bit bounds.
* **C57 Names checker only lets well-formed systems through.** State machine with arbitrary inner builder outcome.
* **C58 Average of transforms is a rigid transform.** Sum of quaternions on one half space is non-zero.
* **C59 URDF poses compose like rigid transforms.** Rigid motions of roll-pitch-yaw poses; Eigen Euler angles as any right inverse.
* **C60 Displacements mirror transforms.** Uses C16, C17.
* **C61 Twist of a transform difference is consistent.** Axial vector of a rotation.
* **C62 Bases built from two axes are proper rotations.** Cross product identities.
* **C63 Whole animation documents.** Fold over the curves of a document; round trip through the property tree.
* **C64 Averages follow changes of frame.** Uses C58; the relative quaternions are unchanged by a common motion.
* **C65 Rigid body systems from robot descriptions.** Composes the loader (C45), the editions (C49, C51), the traversal (C47) and the names checker (C57) into the list of calls an arbitrary builder gets.
* **C66 A Collada reader finds the meshes.** `Spec/Collada.lean` is a reader written from the Collada format (libraries, `url`/`source` references, inputs with offsets, accessors with strides, polylists). The document after any sequence of additions is computed in closed form (`docTree`), then every reference of the reader is resolved in it.
* **C67 Shapes in scenes.** Uses C44 for the surface, a bound on the size of the mesh (`Lemmas/MeshSize.lean`) for the indices, and C66.
* **C68 qi transforms.** Each accessor is related to the pair (rotation matrix, translation) it stands for (`QiMotion`), with the quaternion algebra of C64.
* **C69 File names.** Positions are lists of child indices. Each construct of the code (loop over `equal_range`, `get_child`, `get_child_optional`, sequence) gets one lemma saying which positions it edits (`Does`, `Lemmas/Filenames.lean`).
* **C70 Editions and the rest of the document.** `Edited P doc doc'` compares two documents element by element; every edition of the model on XML (`Model/UrdfXml.lean`) is shown to relate the document before and after by such a relation, by induction over its loops and traversals (`Lemmas/UrdfXmlFrame.lean`).
* **C71 Index and document.** `view` reads the tree of `Model/Urdf.lean` in the document through the index; one simulation lemma for each edition (`Lemmas/UrdfXml{Sim,Edit,Flip,Mass}.lean`), which transfers C47 to C51 to documents. An invariant of all sequences of calls (`Lemmas/UrdfXmlSession.lean`) gives the index, consistency and reloading.
* **C72 Arrays of numbers.** `Model/UrdfText.lean` models the tokenizer and the translator on lists of characters; the reader and the printer of one number are parameters. Spec: the text is a concatenation of blanks and three words.
* **C73 Wrappers.** `Model/UrdfAccess.lean` models the wrappers on the XML nodes of `Model/UrdfXml.lean`. Spec: `At`, which goes to the first child with each key, on decompositions of the list of children.
* **C74 Printing.** `Model/Io.lean`: a stream is its flags and its text, printing one number is a parameter. Spec: a grammar of records and of rows, proved unambiguous.
* **C75 NaN and infinities.** Model of binary32 as reals with infinities and NaN; comparisons are specified by an embedding into `EReal`.
* **C76 modulo2PI in single precision.** The remainder of two floats is a float (case split on the exponents), the subtraction of a turn is exact (Sterbenz); bounds of pi from Mathlib for the drift.
* **C77 Accuracy of position functions.** Error of a sum of three products, of a square root, of a division; Cauchy-Schwarz for the length of the result.
* **C78 Products of rotations.** Spec: trees of products over exact matrices of Mathlib, Frobenius norm; induction on the tree.
* **C79 Compositions of transforms.** The same with the translations.
* **C80 The check of rotations.** Both directions, with the error of the determinant; for soundness a row that passes has no huge component.
* **C81 Matrix to quaternion, any matrix.** The last lines of the function for an arbitrary vector and trace.
* **C82 Distances, inverses and differences, rounded.** Error of a scalar product relative to the product of the lengths (Cauchy-Schwarz), then as in C78.
* **C83 Quaternions, rounded.** Norm in double precision, then as in C78 with the norm of Mathlib's quaternions; the matrix is compared with `v ↦ p v p*`.
* **C84 Normalisation, rounded.** Direction of a perturbed vector, then of a perturbed cross product, relative to its length; a witness when that length is small.
* **C85 Matrices from angles, rounded.** Errors of cos and sin, then C78 and C79.
* **C86 Angles of a matrix, rounded.** Each arc tangent turns one vector of the matrix onto an axis with a small error, whatever its length; the three turns take P near the identity. No case distinction at the gimbal lock.
* **C87 Matrix from an angle and an axis, rounded.** Calculus of absolute errors (`Lemmas/FloatNear.lean`), then the difference of the two matrices for the axis and the unit vector.
* **C88 Quaternions from and to an angle and an axis, rounded.** The exact quaternion of the computed angle and of the normalised axis is near p: the divisor of the code cancels in the direction, so only its lower bound matters. Witnesses near the identity.
* **C89 Circular means, rounded.** Induction on the lists with the error of the sum so far; `sqrt`, `atan2` and `modulo2PI` (C76) at the end.
* **C90 Numbers in documents.** `Model/DecimalText.lean` models `<<` and `>>` for floating-point numbers. A number with 53 bits is the only one within half a unit of the 17th digit (10^16 > 2^53), so the rounding of the reader gives it back; the text itself is followed digit by digit. Used by C72 for its parameters `parse` and `print`.
* **C91 Printed graph.** `Model/UrdfDot.lean` is one more visitor; C47 gives the calls it gets. A statement can be cut at the first blank or bracket when names have none, hence the text determines the edges.
* **C92 Matrices of Eigen.** `Model/EigenMap.lean` models the structures as cells of memory read and written by rows.
* **C93 Pixels in single precision.** `Model/FloatMap.lean` is the code of C32 on floats. For `roundToInt` the sum with 1/2 is studied binade by binade; the conversions are an error analysis in units of pixels.
* **C94 Digital filter in single precision.** `Model/FloatDsp.lean` is the code of C40 on floats, with the same model of the circular buffers. The rounding error of each output is fed back through the recursion, so the error is the convolution of the local errors with the impulse response of the feedback part, which a sum bound turns into a bound for all times.
* **C95 PID controller in single precision.** `Model/FloatDsp.lean` is the code of C38 and C39 on floats. The invariant compares the stored error and integral with the exact ones; the bound on the integral grows with the number of calls. Where it is attained is shown by a constant error, whose integral stops growing.
* **C96 Texts of objects in Python.** `Model/PyText.lean` gives each format of `almath.i` as a list of texts and numbers; numbers are written by the model of `%g` of C90 with six digits. A float takes at most 12 characters, an integer 11, so all formats fit. The characters after a number are in no number, so a text determines the texts of its numbers.
* **C97 Planar poses in single precision.** `Model/FloatPose.lean`. One composition is two products and two sums per coordinate, in two orders; its error is bounded for both. The path is an induction on its length: the error of the heading enters the next cosine and sine (which are 1-Lipschitz), the error of the coordinates is carried along. Without a bound on the exact headings there is no bound on the path, which is `C97_heading_stops`.
* **C98 Intersection of segments and boxes in single precision.** `Model/FloatFoot.lean`. The code divides twice: by the determinant, which it requires to be at least 1e-5, and by the extent of the first segment along x, or along y if that along x is below 1e-5. The second division loses accuracy for nearly vertical segments; the bounds contain this extent (`Spec.Lead`). "Clear" crossings (`Spec.ClearCrossing`) are those whose parameters stay away from 0 and 1 by the accuracy so computed.
* **C99 Avoiding foot collisions in single precision.** `Model/FloatFoot.lean`. The loop keeps the invariant that the lower angle is 0 or free and the upper one collides, for arbitrary values. With a finite angle both are multiples of t/32 up to rounding. All comparisons with NaN are false, which the code takes as intersecting segments (`C99_nan_move`, `C99_nan_angle`, `C99_nan_box`).
* **C100 Clipping a move to an ellipse in single precision.** `Model/FloatFoot.lean`. The clipped point is computed from the polar form of the ellipse, so that it is on the ellipse whatever the errors of the direction are: the twelve roundings give at most 18 units of 2^-24, well below the margin of 1e-5 with which the code compares. The direction has the error of the arc tangent. For a thin ellipse this error changes the length (`C100_clip`, last part).
* **C101 Exponential of a velocity in single precision.** `Model/FloatExp.lean`. The three coefficients have errors of the order of 2^-24 divided by t^2, t and t^3, from the cancellation in `1 - cos(t)` and `t - sin(t)`. In the rotation they are multiplied by as many components of the angular velocity, so that these errors stay of the order of 2^-24 (`core` in Props/C101.lean takes the errors of the coefficients in this scaled form). In the translation one component is missing, hence the summand with 1/t. Below the threshold the series has no such loss.
* **C102 Logarithm of a transform in single precision.** `Model/FloatLog.lean`. The differences of entries are 2 sin(t) times the axis, with absolute errors of the order of e + 2^-22; dividing by them gives the factor t/sin(t). The angle from `atan2` is within 1.6 times the error of the point (co, si) of the exact angle (`arg_near`). The coefficient `lambda` times the square of the angle is the function `logL`, whose derivative is at most 2 on (0, pi) (`logL_sub`); this avoids a loss for small angles. `LogCoef` in Lemmas/FloatLogEntry.lean collects the errors of the coefficients, relative to t/sin(t). The hypothesis 0.0011 leaves a margin above the threshold 0.001, where a rounding decides which case is taken.
* **C103 Exponential of the logarithm and mean of transforms in single precision.** `Model/FloatMean.lean`. `Lemmas/ExpLip.lean` proves that the matrix exponential of twists is Lipschitz (by differentiating exp(s a) exp((1-s) b)): the rotation moves by at most the distance of the angular velocities, the translation by at most that distance times the linear speed, plus the distance of the linear velocities. With C101, C102, C82 and C79 this bounds the whole computation. `lin_le` bounds the linear velocity by pi/2 times the translation.
* **C104 Logarithm of half turns and of small rotations in single precision.** `Model/FloatLog.lean`, the cases below the threshold on the sine, which C102 excludes. The half turns about the axes are accurate; the other half turns and the small rotations are the single precision form of the departures under C21.
* **C105 Dubins solutions in single precision.** `Model/FloatDubins.lean`. The tangents of the rounded circles are within rounding of exact tangents of circles within rounding of the exact ones, so the poses belong to a path to a nearby target. Candidates with arcs on different sides become NaN when their circles touch each other up to rounding; the comparison with NaN is false, so they are skipped. The calls of `sin`, `cos` and `sqrt` without `std::` are taken to be those on `float`; with the functions on `double`, the products of `xGetCircles` would be rounded once instead of twice.
* **C106 Polygons of the rounded box mesh face outwards.** `Lemmas/MeshWinding.lean` has the geometry of the quads between two meridians. The polygons that close the mesh join a meridian at twice the single-precision pi to one at zero; for half-extents under a ten-millionth of the radius, or more than ten million arc vertices, they would be folded over, hence the hypotheses.
* **C107 Adapters and decorators of builders can be stacked in any order.** `Model/Builder.lean` is parametrised by the scalar type, exact numbers by default. `C107_inertia` has the inertia of a thin rod whose conversion to `float` has a negative moment of inertia.
* **C108 Bases from axes, orthogonalSpace and pills in single precision.** `Model/FloatBasis.lean`. Almost orthonormal pairs have an orthonormal pair nearby (Gram-Schmidt), whose cross product completes it to a rotation. Between lengths of 2^62 and 2^64 nothing is proved about overflow.
* **C109 Conversions between angles, matrices and quaternions in single precision.** `Model/FloatConvert.lean`, `Lemmas/FloatConvert.lean`. The angles are taken through the product of three exact quaternions; the matrix through the unit quaternion of the nearby rotation, case by case of the largest diagonal element. The bound of `quaternionFromTransform` is a square root of the error because the scalar part is a square root that vanishes at half turns.
* **C110 Rotational inertia of a point mass in single precision.** `Model/FloatInertia.lean`. The elements one by one; the quadratic form through the bound of the elements.
* **C111 Changes of reference frame in single precision.** `Model/FloatFrame.lean`. The rows by the scalar products of C82, the products of rotations by C78; the angular difference through the antisymmetric part of the product of the second rotation and the transpose of the first.
* **C112 Elements looked up by name and written through the references.** `Model/UrdfLookup.lean`. The invariant of C71, which the writings keep as they keep the bones of the tree; uniqueness of the names gives that the element found is the only one.
* **C113 Six components in single precision.** `Model/FloatSix.lean`. One lemma adds one more square to a sum of squares with a known error; the first three are those of C77. The division by the norm is that of C77.
* **C114 The plane in single precision.** `Model/FloatPlane.lean`. The norm in the plane is the norm of C77 with 0 as third component, for all finite coordinates, overflow included.
* **C115 Polar coordinates in single precision.** `Model/FloatPolar.lean`. The point is compared with the exact one as a complex number; its norm is that of C114 and its angle that of the assumption on `std::atan2`.
* **C116 Comparisons with a tolerance in single precision.** `Model/FloatNearTypes.lean`. Component by component, by C75; the strict comparisons of quaternions are exact in one direction because rounding is monotone and the tolerance is a float.

## Where the code does not do what the property says

Each entry is a theorem with a concrete witness unless noted. The property as
first stated is then kept in view and a `_partial` theorem proves the part that
does hold.

| Code | What happens | Theorem |
|---|---|---|
| `Quaternion(std::vector)` | a vector of the wrong size gives four zeros, not the default value | `C01_Quaternion_fallback_not_default` |
| `Transform(std::vector)` | a value that is not a transform is normalised: twice the identity is read back as the identity | `C01_Transform_changed` |
| `Pose2D::normalize` | rejects small poses that are not zero | `C02_Pose2D_rejects_nonzero` |
| `Quaternion::isNear` | compares strictly: with tolerance zero a quaternion is not near itself | `C03_Quaternion_isNear_zero` |
| `distance(Pose2D)` | ignores the angle, so it is not a metric on poses | `C03_pose_distance_not_metric` |
| `transformInverse`, `transformPreMultiply`, `crossProduct` and others | writing to an argument that aliases the output changes the result | `C11_alias_hazards`, `C22_in_place_alias`, `C23_pose2d_alias` |
| `quaternionFromAngleAndAxisRotation` | result of `normalize()` discarded | `C18_axis_not_normalised`, `C18_axis_not_unit` |
| `rotationFromAngleDirection` | directions that are nearly unit give a matrix that is not a rotation | `C19_band_not_rotation` |
| `velocityExponential` | the series used for small angles is not a rotation; its error is bounded | `C20_series_not_rigid`, `C20_series_error` |
| `transformLogarithm` | wrong for small angles and for half turns about slanted axes | `C21_small_angle_wrong`, `C21_half_turn_wrong`, `C22_end_wrong` |
| `axisRotationProjection` | wrong coefficient: not idempotent, not closest, may divide by zero or throw for valid input | `C24_not_idempotent`, `C24_not_closest`, `C24_undefined`, `C24_spurious_throw` |
| `orthogonalSpace` | not a rotation when the axis is close to z | `C25_not_rotation` |
| pill helpers | end points come back in the other order | `C26_order` |
| `modulo2PI` | two angles may be kept for one direction | `C27_not_canonical` |
| `getPositionFromPixel` | the row -2^31 is negated, which overflows | `C32_pixel_undefined` |
| segment intersection | crossings closer than the tolerance missed, result depends on the order | `C33_short_missed`, `C33_not_symmetric` |
| box collision | an empty box collides; tiny sides make it order dependent; counter-clockwise nesting missed | `C34_empty_collides`, `C34_not_symmetric`, `C34_counterclockwise_missed` |
| foot avoidance | the angle may be reduced to zero and still collide | `C35_zero_can_collide` |
| ellipse clipping | zero axis divides by zero | `C36_zero_axis` |
| Dubins curves | straight path of length zero gets heading 0; turns are measured the long way round | `C37_zero_length_heading`, `C37_turn_side` |
| Dubins curves | a target at the origin with a radius that is not positive divides by zero; a target 1e20 away gets the origin as its two intermediate poses | `C37_degenerate`, `C37_far` |
| `PIDController::initialize` | rejected values are kept, next step may divide by zero | `C38_initialize_rejected_changes`, `C38_rejected_then_zero_division` |
| `PIDController::computeFeedback` | the period argument is ignored | `C39_period_ignored` |
| `DigitalFilter` | a filter never configured reads out of bounds; reconfiguring keeps old samples; a zero gain divides by zero | `C40_unconfigured_ub`, `C40_zero_gain`, `C40_reconfigure_keeps_samples` |
| `Mesh::vertex(x, y, z)` | a rejected vertex leaves its position behind | `C42_vertex_rejected_keeps_position` |
| `addBoxMesh` | throws on a mesh with an open primitive or with texture coordinates | `C43_open_throws`, `C43_texture_throws` |
| URDF loader | a kinematic loop apart from the root is accepted; a valid mimic may be rejected because of the order of joints | `C45_cycle_accepted`, `C46_valid_rejected` |
| `define_as_root_link` | not atomic on unreadable origins, undefined on duplicated origins, never returns for links of a loop | `C48_not_atomic`, `C48_ambiguous_undefined`, `C48_diverges_loaded` |
| `rm_leaf_joint` and others | a mimicking joint may be left referring to a joint that is gone | `C49_mimic_dangling` |
| squashing inertials, `urdfInertialToEigen` | inertia rotated the wrong way; stale origin kept when merging into a massless link | `C50_orientation_wrong`, `C50_toEigen_wrong`, `C50_massless_wrong` |
| animation keys | a comment between keys hides a key, duplicates it, or breaks the order | `C52_comment_hides_key`, `C52_comment_duplicates_key`, `C52_comment_breaks_order` |
| animation edits | a refused frame leaves an element without frame behind and later lookups throw | `C53_key_inserted`, `C53_label_inserted`, `C53_curve_broken` |
| `erase_tangent` | may throw after it erased some tangents | `C55_erase_not_atomic` |
| `averageTransforms` | the result depends on which transform comes first | `C64_first_matters` |
| URDF traverser | a massless root is skipped but its children are not; moving joints on fixed ones are always rejected | `C65_massless_root`, `C65_moving_on_fixed` |
| URDF traverser | masses written as zero and joined by a fixed joint are divided by their sum, zero, before the builder is called | `C65_zero_masses` |
| `SceneBuilder::add` | a mesh with texture coordinates is refused with an `Affine3f` but not with a `Math::Transform`, where an assertion is violated | `C66_textured` |
| `SceneBuilder::add` | a mesh whose last primitive is not ended is accepted; the document cannot be read | `C66_open_mesh` |
| `toString` in `colladabuilder.cpp` | indices are written through `ostream_iterator<float>`: from a million on they are rounded to six digits and other vertices are shown | `C66_large_index` |
| `SceneBuilder::add` | a sphere with a negative radius can be constructed; adding it violates an assertion | `C67_negative_radius` |
| `qi::geometry::isNear` | the tolerance is relative to the norms: translations any distance apart are near if they are far from the origin | `C68_isNear_relative` |
| `qi::geometry::operator*` | the product of two accepted transforms may be too far from unit norm to be multiplied again | `C68_drift` |
| `transform_filenames` | the meshes of collisions keep their names, though the header says each mesh file name is replaced | `C69_collision_kept` |
| `transform_filenames` | a visual without geometry throws after earlier names were replaced | `C69_not_atomic` |
| `rm_leaf_joint` and others | after removing a joint that another one mimics, the document cannot be loaded any more | `C71_dangling_mimic` |
| `define_as_root_link` | afterwards siblings may be visited in another order than the one of the file, which `traverse_joints` promises | `C71_sibling_order` |
| `Joint::axis`, `Mesh::scale`, `Joint::limit_lower_upper` | an attribute that is there but is malformed is taken for a missing one: a misspelt axis silently becomes (1,0,0), a misspelt lower limit 0. A misspelt multiplier, offset or origin throws | `C73_unreadable` |
| `operator<<` (almathio) | leaves `showpos`, `showpoint` and `left` set on the stream, so that numbers printed afterwards by others look different | `C74_sticky` |
| `toSpaceSeparated` | prints braces, keys and commas (or lines), not numbers separated by spaces | `C74_not_space_separated` |
| `clipData` | leaves NaN in place and returns that it was clipped | `C75_clip_nan` |
| `isRotation`, `isTransform` | accept matrices with NaN, and everything for a tolerance which is NaN | `C75_isRotation_nan`, `C75_isRotation_one_nan` |
| `weightedMeanAngle` | a weight which is NaN is not refused and makes the mean NaN | `C75_mean_nan` |
| `isNear` | an infinite value is not near itself, whatever the tolerance | `C75_near_special` |
| `modulo2PI` | its turn is 1.7e-7 too long: large angles are off in proportion, and results may be beyond pi | `C76_drift`, `C76_beyond_pi` |
| `Position3D::normalize` | refuses tiny non-zero vectors (norm underflows) and returns the zero vector for huge finite ones (norm overflows) | `C77_underflow`, `C77_overflow` |
| `quaternionFromTransform` | gives NaN for matrices that `isTransform` accepts, when rounding made the diagonal add up to more than 3 (only negative traces are clipped); forgets small rotations whose cosine rounds to 1 | `C81_nan`, `C81_small_angle` |
| `addRoundedBoxMesh` | the polar step is computed with 3.14: the lower equator is above the lower corners and inside the rounded box | `C44_not_on_surface` |
| `Quaternion::normalize` | a tiny non-null quaternion becomes infinities and NaN: the norm is not zero but its inverse overflows | `C83_tiny` |
| `normalizeRotation` | a long second column nearly parallel to the third one: the cross product is rounding noise longer than `lEpsilon`, and the result is not a rotation | `C84_not_normalised` |
| `rotationFromAngleDirection` | an axis with a NaN passes the check of its length (both comparisons are false) and gives a matrix with NaN | `C87_nan` |
| `angleAndAxisRotationFromQuaternion` | a real part beyond 1 gives a NaN angle and axis; q * q.inverse() of a normalised q has one | `C88_nan`, `C88_product_nan` |
| `angleAndAxisRotationFromQuaternion` | the axis of a normalised quaternion near the identity can be longer than 1.14, and `rotationFromAngleDirection` then throws | `C88_axis_not_unit` |
| `displacementFromTransform` | a quaternion with a negative scalar part comes back with the opposite sign | `C60_sign` |
| `customize_stream` (urdf.h) | infinities and NaN are written but refused when read | `C90_not_finite` |
| `put_value`, `put_abscissa`, `put_ordinate` (qianim.h) | the workaround for the precision of numbers is in urdf.h, for `double` only, and qianim.h does not include it; with the precision that its comment reports for boost, neighbouring values of `double` or `float` are written alike | `C90_too_few` |
| `UrdfDotPrinterVisitor` | names are not quoted: a name with other characters than letters, digits and underscores gives a text that is no graph, or the graph of another tree | `C91_not_quoted` |
| `roundToInt` in single precision | 0.49999997 is rounded to 1, and the odd numbers from 2^23 to 2^24 to the next number, because the sum with 0.5 is rounded first | `C93_round_wrong` |
| `getPositionFromPixel` in single precision | neighbouring pixels get the same position when the offset of the map is beyond 2^24 pixels | `C93_far` |
| `DigitalFilter::processFilter` in single precision | the filter that adds up its inputs stops at 2^24 while the exact solution grows | `C94_not_stable` |
| `DigitalFilter::processFilter` with an input that overflows or is NaN | if the filter has feedback no later output is finite, until the filter is reset | `C94_poison` |
| `PIDController` constructor, `setGains` | NaN is accepted for all parameters, the period included, because only `x < 0` is rejected | `C95_accepts`, `C95_setGains` |
| `PIDController::computeFeedback` | a command or measure that is NaN counts as an error of 0: a controller whose sensor fails stops correcting, silently | `C95_nan_sample` |
| `PIDController::computeFeedback` | one infinite measure makes all later feedbacks NaN or infinite, even with integral gain 0 | `C95_inf_sample`, `C95_poison` |
| `PIDController::computeFeedback` in single precision | the integral of a constant error stops growing | `C95_integral_stops` |
| `Velocity6D.__repr__` (almath.i) | the closing parenthesis is missing | `C96_velocity6D` |
| `Displacement.__repr__` (almath.i) | there is no comma between the two arguments | `C96_displacement` |
| `Rotation` and `Transform`, `__repr__` and `__str__` (almath.i) | there is no comma between rows, so that the texts are not lists in Python | `C96_commas` |
| `Pose2D`, headings of compositions | the heading is not brought back into one turn: in single precision it stops changing after 2^24 turns of one radian | `C97_heading_stops` |
| `Pose2D::operator*=` and `operator*` | they add in another order: in single precision `p *= q` and `p = p * q` differ for p = (2^24, 0, 1), q = (1, 1, 0) | `C97_forms_differ` |
| `intersectionSegment2D`, nearly vertical first segment | in single precision two segments that are 8 mm apart, in a square of two metres, are said to intersect; the exact formulas say no | `C98_false_crossing` |
| `avoidFootCollision`, NaN in the move or in the fixed box | reported as a collision, the angle becomes zero and the NaN in x or y stays | `C99_nan_move`, `C99_nan_angle`, `C99_nan_box` |
| `clipFootWithEllipse`, NaN or an axis of length zero | every move is reported as clipped, also the zero move (0/0 is NaN, which is not below the limit) | `C100_nan`, `C100_zero_axis` |
| `velocityExponential` in single precision, just above the threshold 0.001 | `1 - cos(t)` has one significant digit; the translation can be off by more than 2^-16 times the speed, while the series used below the threshold stays within 2^-18 | `C101_loss` |
| `transformMean`, NaN factor | the tests of the range let it pass: no exception, all elements of the result are NaN | `C103_nan` |
| Dubins curves in single precision, target at four radii exactly | the two circles of the shortest path overlap after rounding, its tangent is NaN and a segment of almost four radii is returned instead of one of length zero | `C105_lost` |
| `transformLogarithm` in single precision, half turn about another axis | the angular velocity is not written: zero from `transformLogarithm`, the previous content from `transformLogarithmInPlace` | `C104_half_turn_lost` |
| `transformLogarithm` in single precision, angle just below 0.001 | a third of the angular velocity is lost | `C104_small` |
| `rotationFromAxesXY`, `XZ`, `YZ` | the third axis is not normalised before it is checked: axes that satisfy the assertions of the function can fail those of `rotationFromAxesXYZ` | `C108_aborts` |
| `rotationFromAxesXYZ` | the handedness is not checked: a left-handed triple gives a reflection | `C108_reflection` |
| `quaternionFromTransform` | rotations by up to 2^-13 rad about an axis give the identity: the scalar part rounds to 1 and the vector part is computed from it | `C109_small_turn` |
| `quaternionFromTransform` | gives NaN for matrices that `isTransform` accepts: the scalar part can exceed 1 | `C109_nan_accepted` |
| `pointMassRotationalInertia` | the matrix is not positive semidefinite for some positions, because of rounding | `C110_indefinite` |
| `RobotTree::joint` (not const) | the links of a joint can be changed through the reference without any check; the tree is then inconsistent and its document refused | `C112_unchecked` |
| `normalize` of `Position6D` and `Velocity6D` | a non-zero vector all of whose components are at most 2^-75 is refused as a division by zero: the norm underflows | `C113_underflow` |
| `normalize` of `Position6D` and `Velocity6D` | finite components of which one is at least 2^64 are normalised to 0 without an exception: the norm overflows | `C113_overflow` |
| `distance` of two `Position6D` | the angles are ignored, unlike in `norm`: two positions that differ only in their angles are at distance 0 | `C113_distance_angles` |
| `normalize` of `Position2D` | tiny non-zero vectors are refused and huge finite ones are normalised to 0 | `C114_range` |
| `Pose2D::normalize` | refuses poses of norm up to 0.9999e-4 as a division by zero, although `normalize` of a `Position2D` with the same coordinates is accurate | `C114_pose_normalize` |
| `Quaternion::isNear` | strict, unlike all other types: a quaternion is not near itself for the tolerance 0 | `C116_quaternion_zero` |

## Tests of the theorems against wrong programs

`seeded/LOG.jsonl` has one line per edit of the model tried in a scratch copy:
the definition edited, the edit, the claim it breaks, the theorems that stopped
proving and the theorems that were tightened because of it. An edit that leaves
the observable behaviour the same is logged with `"claim_broken": "none: ..."`
and the reason.
