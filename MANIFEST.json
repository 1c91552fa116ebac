{
 "claims": [
  {
   "property": "C01",
   "status": "partial",
   "theorems": [
    "AlMath.C01_Position2D",
    "AlMath.C01_Position3D",
    "AlMath.C01_Position6D",
    "AlMath.C01_Velocity3D",
    "AlMath.C01_Velocity6D",
    "AlMath.C01_Rotation3D",
    "AlMath.C01_Pose2D",
    "AlMath.C01_Quaternion",
    "AlMath.C01_Quaternion_fallback_not_default",
    "AlMath.C01_PositionAndVelocity",
    "AlMath.C01_Rotation_roundtrip",
    "AlMath.C01_Rotation_ofVector",
    "AlMath.C01_Transform_roundtrip_partial",
    "AlMath.C01_Transform_ofVector",
    "AlMath.C01_Position2D_write",
    "AlMath.C01_Position3D_write",
    "AlMath.C01_Position6D_write",
    "AlMath.C01_Velocity3D_write",
    "AlMath.C01_Velocity6D_write",
    "AlMath.C01_Pose2D_write",
    "AlMath.C01_Transform_write",
    "AlMath.C01_Transform_exact",
    "AlMath.C01_Transform_changed"
   ],
   "note": "Round trips, sizes, iterator writes. Partial: Transform(vector) gives back only what isTransform accepts and otherwise normalises the rotation part (C01_Transform_exact), so 2I is read back as I (C01_Transform_changed). The Quaternion constructor from a vector of the wrong size gives four zeros, not the default value."
  },
  {
   "property": "C02",
   "status": "partial",
   "theorems": [
    "AlMath.C02_Position2D_div",
    "AlMath.C02_Position3D_div",
    "AlMath.C02_Position6D_div",
    "AlMath.C02_Velocity3D_div",
    "AlMath.C02_Velocity6D_div",
    "AlMath.C02_Quaternion_div",
    "AlMath.C02_Rotation3D_div",
    "AlMath.C02_Pose2D_div",
    "AlMath.C02_Position2D_normalize",
    "AlMath.C02_Position3D_normalize",
    "AlMath.C02_Position6D_normalize",
    "AlMath.C02_Velocity3D_normalize",
    "AlMath.C02_Velocity6D_normalize",
    "AlMath.C02_Quaternion_normalize",
    "AlMath.C02_Pose2D_normalize_partial",
    "AlMath.C02_Pose2D_rejects_nonzero"
   ],
   "note": "Division by zero throws, otherwise inverts scaling; normalise gives unit norm or throws. Partial: Pose2D::normalize also rejects small nonzero poses (C02_Pose2D_rejects_nonzero)."
  },
  {
   "property": "C03",
   "status": "partial",
   "theorems": [
    "AlMath.C03_Position3D_distance",
    "AlMath.C03_Position2D_distance",
    "AlMath.C03_translation_only",
    "AlMath.C03_pose_distance_not_metric",
    "AlMath.C03_Position2D_isNear",
    "AlMath.C03_Position2D_eq",
    "AlMath.C03_Position3D_isNear",
    "AlMath.C03_Position3D_eq",
    "AlMath.C03_Position6D_isNear",
    "AlMath.C03_Position6D_eq",
    "AlMath.C03_Velocity3D_isNear",
    "AlMath.C03_Velocity3D_eq",
    "AlMath.C03_Velocity6D_isNear",
    "AlMath.C03_Velocity6D_eq",
    "AlMath.C03_Rotation3D_isNear",
    "AlMath.C03_Rotation3D_eq",
    "AlMath.C03_Pose2D_isNear",
    "AlMath.C03_Pose2D_eq",
    "AlMath.C03_Rotation_isNear",
    "AlMath.C03_Rotation_eq",
    "AlMath.C03_Transform_isNear",
    "AlMath.C03_Transform_eq",
    "AlMath.C03_Quaternion_eq",
    "AlMath.C03_PositionAndVelocity_isNear",
    "AlMath.C03_TransformAndVelocity6D_isNear",
    "AlMath.C03_Position3D_isNear_distance",
    "AlMath.C03_Quaternion_isNear_partial",
    "AlMath.C03_Quaternion_isNear_zero",
    "AlMath.C03_Displacement_isNear"
   ],
   "note": "isNear is reflexive, symmetric, monotone; distances are metrics on translations. Partial: Quaternion::isNear compares strictly, so it is reflexive only for positive tolerances (C03_Quaternion_isNear_zero). Distance on poses ignores angles (C03_pose_distance_not_metric)."
  },
  {
   "property": "C04",
   "status": "proved",
   "theorems": [
    "AlMath.C04_mul_motion",
    "AlMath.C04_assoc",
    "AlMath.C04_one_mul",
    "AlMath.C04_mul_one",
    "AlMath.C04_mul_inverse",
    "AlMath.C04_inverse_mul",
    "AlMath.C04_inplace",
    "AlMath.C04_diff",
    "AlMath.C04_inverse_laws"
   ],
   "note": ""
  },
  {
   "property": "C05",
   "status": "proved",
   "theorems": [
    "AlMath.C05_act_motion",
    "AlMath.C05_act_mul",
    "AlMath.C05_isometry",
    "AlMath.C05_orientation",
    "AlMath.C05_transform"
   ],
   "note": ""
  },
  {
   "property": "C06",
   "status": "proved",
   "theorems": [
    "AlMath.C06_rotX",
    "AlMath.C06_rotY",
    "AlMath.C06_rotZ",
    "AlMath.C06_rotXYZ",
    "AlMath.C06_constants",
    "AlMath.C06_from3DRotation",
    "AlMath.C06_fromAngleDirection",
    "AlMath.C06_fromQuaternion",
    "AlMath.C06_transform",
    "AlMath.C06_transform_rigid",
    "AlMath.C06_fromRotVec"
   ],
   "note": ""
  },
  {
   "property": "C07",
   "status": "proved",
   "theorems": [
    "AlMath.C07_isRotation_zero",
    "AlMath.C07_isRotation_complete",
    "AlMath.C07_reflection_rejected",
    "AlMath.C07_isTransform"
   ],
   "note": ""
  },
  {
   "property": "C08",
   "status": "proved",
   "theorems": [
    "AlMath.C08_normalizeRotation",
    "AlMath.C08_direction",
    "AlMath.C08_normalizeTransform",
    "AlMath.C08_ofVector_valid"
   ],
   "note": ""
  },
  {
   "property": "C09",
   "status": "proved",
   "theorems": [
    "AlMath.C09_mul_mat",
    "AlMath.C09_assoc",
    "AlMath.C09_one",
    "AlMath.C09_closed",
    "AlMath.C09_inverse",
    "AlMath.C09_inverse_needs_orthogonal",
    "AlMath.C09_inverse_mul"
   ],
   "note": ""
  },
  {
   "property": "C10",
   "status": "proved",
   "theorems": [
    "AlMath.C10_inverse_agree",
    "AlMath.C10_diff"
   ],
   "note": ""
  },
  {
   "property": "C11",
   "status": "proved",
   "theorems": [
    "AlMath.C11_mulAssign",
    "AlMath.C11_output_functions",
    "AlMath.C11_alias_hazards"
   ],
   "note": ""
  },
  {
   "property": "C12",
   "status": "proved",
   "theorems": [
    "AlMath.C12_action",
    "AlMath.C12_rotation_action",
    "AlMath.C12_isometry",
    "AlMath.C12_rotation_isometry"
   ],
   "note": ""
  },
  {
   "property": "C13",
   "status": "proved",
   "theorems": [
    "AlMath.C13_rotation",
    "AlMath.C13_transform",
    "AlMath.C13_rotation3D"
   ],
   "note": ""
  },
  {
   "property": "C14",
   "status": "proved",
   "theorems": [
    "AlMath.C14_range",
    "AlMath.C14_extract_build",
    "AlMath.C14_gimbal_lock"
   ],
   "note": ""
  },
  {
   "property": "C15",
   "status": "proved",
   "theorems": [
    "AlMath.C15_hamilton",
    "AlMath.C15_algebra",
    "AlMath.C15_inverse"
   ],
   "note": ""
  },
  {
   "property": "C16",
   "status": "proved",
   "theorems": [
    "AlMath.C16_homomorphism",
    "AlMath.C16_double_cover",
    "AlMath.C16_act",
    "AlMath.C16_fromRotation3D"
   ],
   "note": ""
  },
  {
   "property": "C17",
   "status": "proved",
   "theorems": [
    "AlMath.C17_fromTransform",
    "AlMath.C17_roundtrip",
    "AlMath.C17_sign"
   ],
   "note": ""
  },
  {
   "property": "C18",
   "status": "partial",
   "theorems": [
    "AlMath.C18_fromAngleAndAxis_partial",
    "AlMath.C18_axis_not_normalised",
    "AlMath.C18_throws",
    "AlMath.C18_toAngleAndAxis_partial",
    "AlMath.C18_axis_not_unit"
   ],
   "note": "fromAngleAndAxis gives the unit quaternion only when the axis is a unit vector, and toAngleAndAxis returns the axis only away from the small angles; witnesses show both restrictions are needed."
  },
  {
   "property": "C19",
   "status": "proved",
   "theorems": [
    "AlMath.C19_fromAngleDirection",
    "AlMath.C19_band_not_rotation"
   ],
   "note": ""
  },
  {
   "property": "C20",
   "status": "proved",
   "theorems": [
    "AlMath.C20_exp",
    "AlMath.C20_axis",
    "AlMath.C20_rigid",
    "AlMath.C20_group",
    "AlMath.C20_inverse",
    "AlMath.C20_series_not_rigid",
    "AlMath.C20_series_error"
   ],
   "note": ""
  },
  {
   "property": "C21",
   "status": "partial",
   "theorems": [
    "AlMath.C21_exp_log_partial",
    "AlMath.C21_log_exp",
    "AlMath.C21_small_angle_wrong",
    "AlMath.C21_half_turn_wrong"
   ],
   "note": "exp after log is the identity for rotation angles above the threshold and below pi; witnesses show the failure for small angles and for half turns about an axis that is not a coordinate axis."
  },
  {
   "property": "C22",
   "status": "partial",
   "theorems": [
    "AlMath.C22_throws",
    "AlMath.C22_start",
    "AlMath.C22_end_partial",
    "AlMath.C22_end_wrong",
    "AlMath.C22_rigid_partial",
    "AlMath.C22_self",
    "AlMath.C22_left_invariant",
    "AlMath.C22_symmetric",
    "AlMath.C22_in_place_alias"
   ],
   "note": "The end point and rigidity hold where the logarithm is exact; C22_end_wrong is a witness of the failure outside that domain."
  },
  {
   "property": "C23",
   "status": "proved",
   "theorems": [
    "AlMath.C23_rotates",
    "AlMath.C23_rotates_transpose",
    "AlMath.C23_undo",
    "AlMath.C23_norm",
    "AlMath.C23_pose2d",
    "AlMath.C23_pose2d_alias"
   ],
   "note": ""
  },
  {
   "property": "C24",
   "status": "partial",
   "theorems": [
    "AlMath.C24_about_axis",
    "AlMath.C24_zero_axis",
    "AlMath.C24_idempotent_partial",
    "AlMath.C24_transform",
    "AlMath.C24_not_idempotent",
    "AlMath.C24_undefined",
    "AlMath.C24_spurious_throw",
    "AlMath.C24_not_closest",
    "AlMath.C24_coordinate_partial"
   ],
   "note": "A rotation about an axis in a coordinate plane comes back unchanged (C24_idempotent_partial); for coordinate axes C24_coordinate_partial says what the result is for every matrix. Witnesses show that in general the projection is not idempotent, not the closest rotation, can throw on a valid rotation and can divide by zero."
  },
  {
   "property": "C25",
   "status": "partial",
   "theorems": [
    "AlMath.C25_orthogonalSpace_partial",
    "AlMath.C25_not_rotation"
   ],
   "note": "The frame is a rotation when the axis is not close to the z axis; C25_not_rotation is a witness of the failure."
  },
  {
   "property": "C26",
   "status": "proved",
   "theorems": [
    "AlMath.C26_pill",
    "AlMath.C26_order",
    "AlMath.C26_back"
   ],
   "note": ""
  },
  {
   "property": "C27",
   "status": "proved",
   "theorems": [
    "AlMath.C27_modulo2PI",
    "AlMath.C27_idempotent",
    "AlMath.C27_not_canonical",
    "AlMath.C27_canonical"
   ],
   "note": ""
  },
  {
   "property": "C28",
   "status": "proved",
   "theorems": [
    "AlMath.C28_outcome",
    "AlMath.C28_permutation",
    "AlMath.C28_shift",
    "AlMath.C28_scaling",
    "AlMath.C28_mean",
    "AlMath.C28_identical",
    "AlMath.C28_empty"
   ],
   "note": ""
  },
  {
   "property": "C29",
   "status": "proved",
   "theorems": [
    "AlMath.C29_scalar",
    "AlMath.C29_vector",
    "AlMath.C29_idempotent",
    "AlMath.C29_matrix"
   ],
   "note": ""
  },
  {
   "property": "C30",
   "status": "proved",
   "theorems": [
    "AlMath.C30_form",
    "AlMath.C30_kernel",
    "AlMath.C30_rotate"
   ],
   "note": ""
  },
  {
   "property": "C31",
   "status": "proved",
   "theorems": [
    "AlMath.C31_axisMask"
   ],
   "note": ""
  },
  {
   "property": "C32",
   "status": "partial",
   "theorems": [
    "AlMath.C32_round",
    "AlMath.C32_pixel",
    "AlMath.C32_pixel_back_partial",
    "AlMath.C32_pixel_undefined",
    "AlMath.C32_position_back",
    "AlMath.C32_origin",
    "AlMath.C32_pose",
    "AlMath.C32_delta",
    "AlMath.C32_monotone"
   ],
   "note": "Partial: the round trip from a pixel is proved except for the row -2^31, whose negation overflows (C32_pixel_undefined)."
  },
  {
   "property": "C33",
   "status": "proved",
   "theorems": [
    "AlMath.C33_sound",
    "AlMath.C33_exact",
    "AlMath.C33_short_missed",
    "AlMath.C33_parallel",
    "AlMath.C33_symmetric",
    "AlMath.C33_not_symmetric"
   ],
   "note": ""
  },
  {
   "property": "C34",
   "status": "partial",
   "theorems": [
    "AlMath.C34_sound_partial",
    "AlMath.C34_total",
    "AlMath.C34_empty_collides",
    "AlMath.C34_symmetric_partial",
    "AlMath.C34_not_symmetric",
    "AlMath.C34_exact_partial",
    "AlMath.C34_counterclockwise_missed"
   ],
   "note": "Soundness, symmetry and exactness are proved under conditions on the boxes; witnesses show the empty box, the order dependence and the missed counter-clockwise nesting."
  },
  {
   "property": "C35",
   "status": "proved",
   "theorems": [
    "AlMath.C35_avoid",
    "AlMath.C35_reduced",
    "AlMath.C35_zero_can_collide"
   ],
   "note": ""
  },
  {
   "property": "C36",
   "status": "proved",
   "theorems": [
    "AlMath.C36_clip",
    "AlMath.C36_idempotent",
    "AlMath.C36_zero_axis"
   ],
   "note": ""
  },
  {
   "property": "C37",
   "status": "partial",
   "theorems": [
    "AlMath.C37_path_partial",
    "AlMath.C37_throws",
    "AlMath.C37_zero_length_heading",
    "AlMath.C37_degenerate",
    "AlMath.C37_far",
    "AlMath.C37_turn_side"
   ],
   "note": "Partial: the path is correct and shortest for targets at least 4r away, not at the origin and not beyond 1e19. Outside, C37_degenerate and C37_far show what is returned; the headings are as the code computes them, which is not always the direction travelled (C37_zero_length_heading, C37_turn_side)."
  },
  {
   "property": "C38",
   "status": "partial",
   "theorems": [
    "AlMath.C38_accepts",
    "AlMath.C38_setGains_rejected_partial",
    "AlMath.C38_initialize_rejected_changes",
    "AlMath.C38_history",
    "AlMath.C38_constructed",
    "AlMath.C38_default",
    "AlMath.C38_rejected_then_zero_division"
   ],
   "note": "A rejected setGains changes nothing; a rejected initialize keeps the invalid values (witness), and a later call then divides by zero."
  },
  {
   "property": "C39",
   "status": "partial",
   "theorems": [
    "AlMath.C39_law_partial",
    "AlMath.C39_law_absolute",
    "AlMath.C39_start",
    "AlMath.C39_period_ignored"
   ],
   "note": "The control law holds with the period given at initialisation; C39_period_ignored shows that the period argument is not used."
  },
  {
   "property": "C40",
   "status": "partial",
   "theorems": [
    "AlMath.C40_response_partial",
    "AlMath.C40_response_unique",
    "AlMath.C40_reset",
    "AlMath.C40_delays_partial",
    "AlMath.C40_zero_gain",
    "AlMath.C40_unconfigured_ub",
    "AlMath.C40_reconfigure_keeps_samples"
   ],
   "note": "Partial: for a gain other than zero. A zero gain divides by zero at the first sample (C40_zero_gain); a filter never configured reads out of bounds (C40_unconfigured_ub)."
  },
  {
   "property": "C41",
   "status": "proved",
   "theorems": [
    "AlMath.C41_consistent",
    "AlMath.C41_append_only",
    "AlMath.C41_release",
    "AlMath.C41_assertion",
    "AlMath.C41_accessors",
    "AlMath.C41_primitive"
   ],
   "note": "Proved both for builds with assertions (a normal off the unit sphere stops the program) and without (C41_release); C41_assertion shows where they differ."
  },
  {
   "property": "C42",
   "status": "partial",
   "theorems": [
    "AlMath.C42_rejected_partial",
    "AlMath.C42_vertex_rejected",
    "AlMath.C42_vertex_rejected_keeps_position"
   ],
   "note": "Every rejected call except vertex(x,y,z) leaves the mesh unchanged; that one keeps the position it added (witness)."
  },
  {
   "property": "C43",
   "status": "partial",
   "theorems": [
    "AlMath.C43_box_partial",
    "AlMath.C43_create",
    "AlMath.C43_open_throws",
    "AlMath.C43_texture_throws"
   ],
   "note": "Partial: for meshes with no open primitive and, when textured, with a current texture coordinate; otherwise the box throws (C43_open_throws, C43_texture_throws)."
  },
  {
   "property": "C44",
   "status": "proved",
   "theorems": [
    "AlMath.C44_rounded_box",
    "AlMath.C44_create",
    "AlMath.C44_not_on_surface"
   ],
   "note": "C44_not_on_surface records that with a non-zero half-extent along z some vertices are inside the rounded box, by less than a millionth of the radius, because the polar step is computed with 3.14."
  },
  {
   "property": "C45",
   "status": "partial",
   "theorems": [
    "AlMath.C45_accepts_iff",
    "AlMath.C45_consistent",
    "AlMath.C45_reachable_partial",
    "AlMath.C45_cycle_accepted"
   ],
   "note": "Reachability from the root fails for documents with a kinematic cycle apart from the root, which are accepted (C45_cycle_accepted); it is proved without such cycles. The rest, including the exact set of accepted documents, is proved in full."
  },
  {
   "property": "C46",
   "status": "partial",
   "theorems": [
    "AlMath.C46_acyclic",
    "AlMath.C46_not_rejected_partial",
    "AlMath.C46_valid_rejected",
    "AlMath.C46_flat"
   ],
   "note": "Acyclicity and existence are proved for every accepted document. Valid documents may be rejected depending on the order of the joints (C46_valid_rejected); the loader's exact criterion is MimicOrder in C45_accepts_iff, and two sufficient conditions are proved."
  },
  {
   "property": "C47",
   "status": "proved",
   "theorems": [
    "AlMath.C47_traverse",
    "AlMath.C47_bound",
    "AlMath.C47_parent_first",
    "AlMath.C47_pruned",
    "AlMath.C47_all_visited",
    "AlMath.C47_document_order"
   ],
   "note": ""
  },
  {
   "property": "C48",
   "status": "partial",
   "theorems": [
    "AlMath.C48_reroot_partial",
    "AlMath.C48_path",
    "AlMath.C48_refused",
    "AlMath.C48_unknown",
    "AlMath.C48_diverges",
    "AlMath.C48_diverges_loaded",
    "AlMath.C48_not_atomic",
    "AlMath.C48_ambiguous_undefined"
   ],
   "note": "Proved for trees whose origins attached to the links of the path are well formed and unambiguous. Otherwise an exception leaves the tree modified (C48_not_atomic) or the behaviour is undefined (C48_ambiguous_undefined), and for links of a loop apart from the root the call does not return (C48_diverges, C48_diverges_loaded)."
  },
  {
   "property": "C49",
   "status": "proved",
   "theorems": [
    "AlMath.C49_leaf",
    "AlMath.C49_root",
    "AlMath.C49_subtree",
    "AlMath.C49_mimic_dangling"
   ],
   "note": "Mimic references are not part of the consistency kept: C49_mimic_dangling."
  },
  {
   "property": "C50",
   "status": "partial",
   "theorems": [
    "AlMath.C50_addPointMassInertia",
    "AlMath.C50_mass_and_moment",
    "AlMath.C50_inertia_iff",
    "AlMath.C50_same_orientation_partial",
    "AlMath.C50_orientation_wrong",
    "AlMath.C50_toEigen_iff",
    "AlMath.C50_toEigen_wrong",
    "AlMath.C50_massless_iff",
    "AlMath.C50_massless_wrong"
   ],
   "note": "The rotated inertia is transformed the wrong way (C50_orientation_wrong, C50_toEigen_wrong): the exact condition under which the result is right is proved (C50_inertia_iff, C50_toEigen_iff), as is the case of equal orientations. Merging into a massless link keeps a stale pose in one case (C50_massless_iff, C50_massless_wrong)."
  },
  {
   "property": "C51",
   "status": "proved",
   "theorems": [
    "AlMath.C51_massless",
    "AlMath.C51_massless_completes",
    "AlMath.C51_squashFixed",
    "AlMath.C51_continuous"
   ],
   "note": ""
  },
  {
   "property": "C52",
   "status": "partial",
   "theorems": [
    "AlMath.C52_get_partial",
    "AlMath.C52_require_partial",
    "AlMath.C52_label_partial",
    "AlMath.C52_comment_hides_key",
    "AlMath.C52_comment_duplicates_key",
    "AlMath.C52_comment_breaks_order"
   ],
   "note": "Proved for documents whose non-key children come before the keys (attributes do). A comment between two keys is a conforming document on which the search misses an existing key and require_key duplicates it (C52_comment_hides_key, C52_comment_duplicates_key); the same for labels (C52_comment_breaks_order)."
  },
  {
   "property": "C53",
   "status": "partial",
   "theorems": [
    "AlMath.C53_throws_partial",
    "AlMath.C53_key_inserted",
    "AlMath.C53_label_inserted",
    "AlMath.C53_curve_broken"
   ],
   "note": "The throw is proved for all documents. The second half is false: on every curve the refused call leaves a key (label) without frame in the document (C53_key_inserted, C53_label_inserted), which then makes lookups throw (C53_curve_broken)."
  },
  {
   "property": "C54",
   "status": "proved",
   "theorems": [
    "AlMath.C54_check",
    "AlMath.C54_frames",
    "AlMath.C54_monotone",
    "AlMath.C54_function"
   ],
   "note": ""
  },
  {
   "property": "C55",
   "status": "partial",
   "theorems": [
    "AlMath.C55_require",
    "AlMath.C55_no_second",
    "AlMath.C55_put",
    "AlMath.C55_erase_partial",
    "AlMath.C55_erase_malformed",
    "AlMath.C55_erase_not_atomic"
   ],
   "note": "All parts hold for all keys except erase_tangent on a key with a malformed tangent side, which throws after erasing the tangents before it (C55_erase_malformed, C55_erase_not_atomic)."
  },
  {
   "property": "C56",
   "status": "proved",
   "theorems": [
    "AlMath.C56_clip",
    "AlMath.C56_monotone",
    "AlMath.C56_roundtrip",
    "AlMath.C56_back"
   ],
   "note": ""
  },
  {
   "property": "C57",
   "status": "proved",
   "theorems": [
    "AlMath.C57_well_formed",
    "AlMath.C57_distinct",
    "AlMath.C57_exact",
    "AlMath.C57_eraser"
   ],
   "note": ""
  },
  {
   "property": "C58",
   "status": "proved",
   "theorems": [
    "AlMath.C58_average",
    "AlMath.C58_throws",
    "AlMath.C58_copies"
   ],
   "note": ""
  },
  {
   "property": "C59",
   "status": "proved",
   "theorems": [
    "AlMath.C59_mul",
    "AlMath.C59_inverse",
    "AlMath.C59_toEigen",
    "AlMath.C59_rpy",
    "AlMath.C59_xml",
    "AlMath.C59_read",
    "AlMath.C59_full_turn_written"
   ],
   "note": ""
  },
  {
   "property": "C60",
   "status": "partial",
   "theorems": [
    "AlMath.C60_displacement_partial",
    "AlMath.C60_sign",
    "AlMath.C60_fromTransform"
   ],
   "note": "Partial: displacementFromTransform gives back the displacement if the scalar part of its quaternion is positive; if it is negative the quaternion comes back with the opposite sign (C60_sign)."
  },
  {
   "property": "C61",
   "status": "proved",
   "theorems": [
    "AlMath.C61_diff",
    "AlMath.C61_zero"
   ],
   "note": ""
  },
  {
   "property": "C62",
   "status": "proved",
   "theorems": [
    "AlMath.C62_axes",
    "AlMath.C62_unique"
   ],
   "note": ""
  },
  {
   "property": "C63",
   "status": "proved",
   "theorems": [
    "AlMath.C63_check_all",
    "AlMath.C63_require_curve",
    "AlMath.C63_require_curve_twice",
    "AlMath.C63_require_curve_throws",
    "AlMath.C63_require_animation",
    "AlMath.C63_round_trip",
    "AlMath.C63_refused",
    "AlMath.C63_mute"
   ],
   "note": ""
  },
  {
   "property": "C64",
   "status": "proved",
   "theorems": [
    "AlMath.C64_frame",
    "AlMath.C64_order",
    "AlMath.C64_first_matters"
   ],
   "note": ""
  },
  {
   "property": "C65",
   "status": "proved",
   "theorems": [
    "AlMath.C65_build",
    "AlMath.C65_accepted_iff",
    "AlMath.C65_massless_root",
    "AlMath.C65_unsupported",
    "AlMath.C65_moving_on_fixed",
    "AlMath.C65_traversal",
    "AlMath.C65_refused_document",
    "AlMath.C65_refused_root",
    "AlMath.C65_refused_joint",
    "AlMath.C65_zero_masses"
   ],
   "note": "The calls to any builder, exactly when the names checker lets a description be built, and what becomes of all the others: C65_traversal gives the outcome for every consistent tree, with the exceptions at unsupported joints and unreadable poses. C65_massless_root and C65_moving_on_fixed record that massless roots and moving joints on fixed ones are rejected rather than pruned as the header says; C65_zero_masses that masses adding up to zero are divided by their sum."
  },
  {
   "property": "C66",
   "status": "proved",
   "theorems": [
    "AlMath.Collada.C66_read",
    "AlMath.Collada.C66_textured",
    "AlMath.Collada.C66_open_mesh",
    "AlMath.Collada.C66_large_index"
   ],
   "note": "Reading is specified by an independent Collada reader (Spec/Collada.lean) over the XML tree; the text written by write_xml is not modelled. C66_textured, C66_open_mesh and C66_large_index record where the claim stops."
  },
  {
   "property": "C67",
   "status": "proved",
   "theorems": [
    "AlMath.Collada.C67_shapes",
    "AlMath.Collada.C67_unsupported",
    "AlMath.Collada.C67_negative_radius"
   ],
   "note": "At most 80 vertices per arc, so that indices stay below a million; C67_negative_radius records that a sphere with a negative radius violates an assertion."
  },
  {
   "property": "C68",
   "status": "proved",
   "theorems": [
    "AlMath.Qi.C68_mul",
    "AlMath.Qi.C68_inverse",
    "AlMath.Qi.C68_isNear",
    "AlMath.Qi.C68_isNear_refl_symm",
    "AlMath.Qi.C68_isNear_relative",
    "AlMath.Qi.C68_toALMath",
    "AlMath.Qi.C68_ofALMath",
    "AlMath.Qi.C68_roundtrip",
    "AlMath.Qi.C68_pose2D",
    "AlMath.Qi.C68_angleAxis",
    "AlMath.Qi.C68_normalized",
    "AlMath.Qi.C68_unnormalised",
    "AlMath.Qi.C68_drift"
   ],
   "note": "Over the reals, with Eigen's quaternion product, rotation and polar decomposition modelled. C68_isNear_relative and C68_drift record two surprises: the tolerance is relative, and a product of accepted transforms may be rejected."
  },
  {
   "property": "C69",
   "status": "proved",
   "theorems": [
    "AlMath.Filenames.C69_replaced",
    "AlMath.Filenames.C69_rejected",
    "AlMath.Filenames.C69_identity",
    "AlMath.Filenames.C69_compose",
    "AlMath.Filenames.C69_collision_kept",
    "AlMath.Filenames.C69_not_atomic"
   ],
   "note": "XML documents as trees with named children; the function may throw. C69_not_atomic and C69_collision_kept record that names replaced before an exception stay replaced and that collision meshes are not renamed though the header says each mesh."
  },
  {
   "property": "C70",
   "status": "proved",
   "theorems": [
    "AlMath.UrdfXml.C70_load",
    "AlMath.UrdfXml.C70_make_joint",
    "AlMath.UrdfXml.C70_continuous",
    "AlMath.UrdfXml.C70_squash_joint",
    "AlMath.UrdfXml.C70_squash",
    "AlMath.UrdfXml.C70_transport",
    "AlMath.UrdfXml.C70_reroot",
    "AlMath.UrdfXml.C70_remove_root",
    "AlMath.UrdfXml.C70_remove_leaf",
    "AlMath.UrdfXml.C70_remove_rejected",
    "AlMath.UrdfXml.C70_remove_subtree_rejected",
    "AlMath.UrdfXml.C70_remove_subtree"
   ],
   "note": "Editions as functions on XML trees (Model/UrdfXml.lean). The theorems on types, masses, frames and re-rooting hold for every outcome; those on removals when the function returns. Inside a moved origin nothing is claimed: the code replaces the whole element."
  },
  {
   "property": "C71",
   "status": "proved",
   "theorems": [
    "AlMath.UrdfXml.C71_load",
    "AlMath.UrdfXml.C71_removals",
    "AlMath.UrdfXml.C71_frames",
    "AlMath.UrdfXml.C71_types",
    "AlMath.UrdfXml.C71_masses",
    "AlMath.UrdfXml.C71_session",
    "AlMath.UrdfXml.C71_reload",
    "AlMath.UrdfXml.C71_reload_edited",
    "AlMath.UrdfXml.C71_new_root",
    "AlMath.UrdfXml.C71_order",
    "AlMath.UrdfXml.C71_dangling_mimic",
    "AlMath.UrdfXml.C71_sibling_order"
   ],
   "note": "Proved for sequences of calls none of which has undefined behaviour (see C48 for when re-rooting does). C71_masses assumes that the numbers of inertials can be read. C71_dangling_mimic and C71_sibling_order record that a removal may make the document unloadable and that re-rooting breaks the promised order of siblings until the document is loaded again."
  },
  {
   "property": "C72",
   "status": "proved",
   "theorems": [
    "AlMath.UrdfText.C72_read",
    "AlMath.UrdfText.C72_written"
   ],
   "note": "Reading and printing one number (boost::property_tree) are parameters of the model. C72_written asks that the three numbers of the array, not all reals, survive printing."
  },
  {
   "property": "C73",
   "status": "proved",
   "theorems": [
    "AlMath.UrdfXml.C73_limits",
    "AlMath.UrdfXml.C73_effort_velocity",
    "AlMath.UrdfXml.C73_axis",
    "AlMath.UrdfXml.C73_scale",
    "AlMath.UrdfXml.C73_multiplier",
    "AlMath.UrdfXml.C73_offset",
    "AlMath.UrdfXml.C73_unreadable",
    "AlMath.UrdfXml.C73_type",
    "AlMath.UrdfXml.C73_mandatory",
    "AlMath.UrdfXml.C73_children",
    "AlMath.UrdfXml.C73_geometry",
    "AlMath.UrdfXml.C73_ones"
   ],
   "note": "C73_unreadable records that a limit, axis or scale that is there but unreadable silently takes its default value, whereas a multiplier or offset throws."
  },
  {
   "property": "C74",
   "status": "proved",
   "theorems": [
    "AlMath.Io.C74_record_unique",
    "AlMath.Io.C74_rows_unique",
    "AlMath.Io.C74_records",
    "AlMath.Io.C74_matrices",
    "AlMath.Io.C74_determines",
    "AlMath.Io.C74_sticky",
    "AlMath.Io.C74_not_space_separated"
   ],
   "note": "How one number is printed is a parameter of the model; the width of the stream is taken to be 0. C74_sticky and C74_not_space_separated record what the names and the usual conventions of streams would not let expect."
  },
  {
   "property": "C75",
   "status": "proved",
   "theorems": [
    "AlMath.F32.C75_clip",
    "AlMath.F32.C75_clip_nan",
    "AlMath.F32.C75_eq",
    "AlMath.F32.C75_near_special",
    "AlMath.F32.C75_near",
    "AlMath.F32.C75_isNear",
    "AlMath.F32.C75_isNear_all",
    "AlMath.F32.C75_isRotation_nan",
    "AlMath.F32.C75_isRotation_one_nan",
    "AlMath.F32.C75_mean_nan"
   ],
   "note": "On the binary32 model (Model/Float32.lean, Model/FloatTypes.lean). C75_clip_nan, C75_isRotation_nan, C75_isRotation_one_nan and C75_mean_nan are the parts where the code accepts NaN."
  },
  {
   "property": "C76",
   "status": "proved",
   "theorems": [
    "AlMath.F32.C76_exact",
    "AlMath.F32.C76_special",
    "AlMath.F32.C76_drift",
    "AlMath.F32.C76_beyond_pi"
   ],
   "note": "On the binary32 model. fmod is exact as C requires; the lemma fmod_grid shows that the exact remainder is a float."
  },
  {
   "property": "C77",
   "status": "proved",
   "theorems": [
    "AlMath.F32.C77_dotProduct",
    "AlMath.F32.C77_crossProduct",
    "AlMath.F32.C77_norm",
    "AlMath.F32.C77_normalize",
    "AlMath.F32.C77_unit",
    "AlMath.F32.C77_underflow",
    "AlMath.F32.C77_overflow"
   ],
   "note": "On the binary32 model. C77_underflow and C77_overflow show that normalize fails outside the range of C77_normalize, tiny vectors by an exception and huge ones silently."
  },
  {
   "property": "C78",
   "status": "proved",
   "theorems": [
    "AlMath.F32.C78_product",
    "AlMath.F32.C78_linear"
   ],
   "note": "On the binary32 model; induction on the bracketing, with the Frobenius norm, which exact rotations preserve."
  },
  {
   "property": "C79",
   "status": "proved",
   "theorems": [
    "AlMath.F32.C79_product",
    "AlMath.F32.C79_linear",
    "AlMath.F32.C79_apply"
   ],
   "note": "On the binary32 model; the error of the translation is relative to N L, the largest possible length of the exact translation."
  },
  {
   "property": "C80",
   "status": "proved",
   "theorems": [
    "AlMath.F32.C80_accepts",
    "AlMath.F32.C80_sound",
    "AlMath.F32.C80_product"
   ],
   "note": "On the binary32 model, for finite matrices; matrices with NaN are accepted (C75_isRotation_nan)."
  },
  {
   "property": "C81",
   "status": "proved",
   "theorems": [
    "AlMath.C81_unit",
    "AlMath.C81_defined",
    "AlMath.C81_nan",
    "AlMath.C81_small_angle"
   ],
   "note": "On the real-number model, where the square root of a negative number is an undefined outcome; C17 is the case of exact rotations."
  },
  {
   "property": "C82",
   "status": "proved",
   "theorems": [
    "AlMath.F32.C82_distance",
    "AlMath.F32.C82_symm",
    "AlMath.F32.C82_self",
    "AlMath.F32.C82_transform_distance",
    "AlMath.F32.C82_rotate",
    "AlMath.F32.C82_length",
    "AlMath.F32.C82_isOrthogonal",
    "AlMath.F32.C82_cross_orthogonal",
    "AlMath.F32.C82_inverse",
    "AlMath.F32.C82_diff",
    "AlMath.F32.C82_diff_self"
   ],
   "note": "On the binary32 model. Errors of matrices are measured in the Frobenius norm."
  },
  {
   "property": "C83",
   "status": "proved",
   "theorems": [
    "AlMath.F32.C83_norm",
    "AlMath.F32.C83_normalize",
    "AlMath.F32.C83_throws",
    "AlMath.F32.C83_tiny",
    "AlMath.F32.C83_mul",
    "AlMath.F32.C83_product",
    "AlMath.F32.C83_linear",
    "AlMath.F32.C83_rotation",
    "AlMath.F32.C83_accepted",
    "AlMath.F32.C83_chain",
    "AlMath.F32.C83_inverse"
   ],
   "note": "On the binary32 and binary64 models; std::pow(x, 2) is taken to be correctly rounded in double precision."
  },
  {
   "property": "C84",
   "status": "proved",
   "theorems": [
    "AlMath.F32.C84_normalize",
    "AlMath.F32.C84_near",
    "AlMath.F32.C84_null",
    "AlMath.F32.C84_parallel",
    "AlMath.F32.C84_not_normalised",
    "AlMath.F32.C84_transform"
   ],
   "note": "On the binary32 and binary64 models; the failing case is a concrete matrix computed through the model."
  },
  {
   "property": "C85",
   "status": "proved",
   "theorems": [
    "AlMath.F32.C85_turn",
    "AlMath.F32.C85_from3D",
    "AlMath.F32.C85_accepted",
    "AlMath.F32.C85_position",
    "AlMath.F32.C85_rotVec",
    "AlMath.F32.C85_pose2D",
    "AlMath.F32.C85_chain"
   ],
   "note": "On the binary32 model; the accuracy of cos and sin is a hypothesis (Libm.Accurate), met by correctly rounded functions (rounded_accurate)."
  },
  {
   "property": "C86",
   "status": "proved",
   "theorems": [
    "AlMath.F32.C86_euler",
    "AlMath.F32.C86_back",
    "AlMath.F32.C86_roundtrip"
   ],
   "note": "On the binary32 model; the accuracy of cos, sin and atan2 is a hypothesis (Libm.Accurate)."
  },
  {
   "property": "C87",
   "status": "proved",
   "theorems": [
    "AlMath.F32.C87_direction",
    "AlMath.F32.C87_throws",
    "AlMath.F32.C87_nan",
    "AlMath.F32.C87_normalised"
   ],
   "note": "On the binary32 model; the accuracy of cos and sin is a hypothesis (Libm.Accurate)."
  },
  {
   "property": "C88",
   "status": "proved",
   "theorems": [
    "AlMath.F32.C88_from",
    "AlMath.F32.C88_matrix",
    "AlMath.F32.C88_to",
    "AlMath.F32.C88_normalised",
    "AlMath.F32.C88_nan",
    "AlMath.F32.C88_product_nan",
    "AlMath.F32.C88_axis_not_unit"
   ],
   "note": "On the binary32 and binary64 models; the accuracy of cos, sin and acos is a hypothesis (Libm.Accurate, AcosAccurate), met by correctly rounded functions."
  },
  {
   "property": "C89",
   "status": "proved",
   "theorems": [
    "AlMath.F32.C89_refuses",
    "AlMath.F32.C89_mean"
   ],
   "note": "On the binary32 model; the accuracy of cos, sin and atan2 is a hypothesis (Libm.Accurate)."
  },
  {
   "property": "C90",
   "status": "proved",
   "theorems": [
    "AlMath.Decimal.C90_double",
    "AlMath.Decimal.C90_array",
    "AlMath.Decimal.C90_float",
    "AlMath.Decimal.C90_too_few",
    "AlMath.Decimal.C90_not_finite",
    "AlMath.Decimal.C90_read",
    "AlMath.Decimal.C90_too_large"
   ],
   "note": "The stream operators are modelled (conversion %.17g, correctly rounded reading, \"C\" locale); the sign of zero is not."
  },
  {
   "property": "C91",
   "status": "proved",
   "theorems": [
    "AlMath.C91_printed",
    "AlMath.C91_read",
    "AlMath.C91_same_tree",
    "AlMath.C91_not_quoted"
   ],
   "note": "On the tree of C47; writing to the stream never fails in the model, and the counter does not overflow."
  },
  {
   "property": "C92",
   "status": "proved",
   "theorems": [
    "AlMath.EigenMap.C92_entries",
    "AlMath.EigenMap.C92_round_trip",
    "AlMath.EigenMap.C92_affine",
    "AlMath.EigenMap.C92_compose",
    "AlMath.EigenMap.C92_vectors"
   ],
   "note": "The layout of the structures in memory is part of the model; values are only copied, so the statements hold for float too, except the one on products and images, which is in real arithmetic."
  },
  {
   "property": "C93",
   "status": "proved",
   "theorems": [
    "AlMath.F32.C93_round",
    "AlMath.F32.C93_round_wrong",
    "AlMath.F32.C93_not_finite",
    "AlMath.F32.C93_pixel_back",
    "AlMath.F32.C93_far",
    "AlMath.F32.C93_position_back",
    "AlMath.F32.C93_monotone",
    "AlMath.F32.C93_origin"
   ],
   "note": "The bounds on the pixel and the offset are sufficient, not exact; C93_far shows a pixel lost beyond them."
  },
  {
   "property": "C94",
   "status": "proved",
   "theorems": [
    "AlMath.F32.C94_response",
    "AlMath.F32.C94_contraction",
    "AlMath.F32.C94_defined",
    "AlMath.F32.C94_poison",
    "AlMath.F32.C94_reset",
    "AlMath.F32.C94_forgets",
    "AlMath.F32.C94_not_stable"
   ],
   "note": "The bound needs a bound on the partial sums of the impulse response of the feedback part; C94_contraction gives it for feedback weights whose magnitudes sum to less than 1."
  },
  {
   "property": "C95",
   "status": "proved",
   "theorems": [
    "AlMath.F32.C95_feedback",
    "AlMath.F32.C95_accepts",
    "AlMath.F32.C95_nan_sample",
    "AlMath.F32.C95_poison",
    "AlMath.F32.C95_inf_sample",
    "AlMath.F32.C95_integral_stops",
    "AlMath.F32.C95_no_drift",
    "AlMath.F32.C95_setGains",
    "AlMath.F32.C95_initialize",
    "AlMath.F32.C95_initializeWith"
   ],
   "note": "The ranges of gains and samples keep all intermediate results below 2^120; histories are bounded by 2^20 calls because the error of the integral grows with them (C95_integral_stops)."
  },
  {
   "property": "C96",
   "status": "proved",
   "theorems": [
    "AlMath.PyText.C96_number",
    "AlMath.PyText.C96_value",
    "AlMath.PyText.C96_calls",
    "AlMath.PyText.C96_matrices",
    "AlMath.PyText.C96_velocity6D",
    "AlMath.PyText.C96_displacement",
    "AlMath.PyText.C96_commas",
    "AlMath.PyText.C96_same",
    "AlMath.PyText.C96_vectors",
    "AlMath.PyText.C96_same_vector"
   ],
   "note": "Signs of zeros and of NaN are not in the model of numbers; with them a number takes at most one character more, which also fits. What SWIG does with the texts is not modelled."
  },
  {
   "property": "C97",
   "status": "proved",
   "theorems": [
    "AlMath.F32.Pose2D.C97_compose",
    "AlMath.F32.Pose2D.C97_path",
    "AlMath.F32.Pose2D.C97_turn",
    "AlMath.F32.Pose2D.C97_act",
    "AlMath.F32.Pose2D.C97_inverse",
    "AlMath.F32.Pose2D.C97_cancel",
    "AlMath.F32.Pose2D.C97_diff",
    "AlMath.F32.Pose2D.C97_heading_stops",
    "AlMath.F32.Pose2D.C97_forms_differ"
   ],
   "note": "Cosine and sine are parameters that are off by at most 2^-23 (Libm.Accurate)."
  },
  {
   "property": "C98",
   "status": "proved",
   "theorems": [
    "AlMath.F32.C98_meet",
    "AlMath.F32.C98_cross",
    "AlMath.F32.C98_inside",
    "AlMath.F32.C98_total",
    "AlMath.F32.C98_boxes_true",
    "AlMath.F32.C98_boxes_found",
    "AlMath.F32.C98_false_crossing"
   ],
   "note": "C98_false_crossing is the witness that the bound needs the extent of the first segment."
  },
  {
   "property": "C99",
   "status": "proved",
   "theorems": [
    "AlMath.F32.C99_avoid",
    "AlMath.F32.C99_nan_move",
    "AlMath.F32.C99_nan_angle",
    "AlMath.F32.C99_nan_box",
    "AlMath.F32.C99_angle"
   ],
   "note": "Cosine and sine are parameters; only C99_nan_angle needs that they give NaN for NaN."
  },
  {
   "property": "C100",
   "status": "proved",
   "theorems": [
    "AlMath.F32.C100_inside",
    "AlMath.F32.C100_outside",
    "AlMath.F32.C100_clip",
    "AlMath.F32.C100_twice",
    "AlMath.F32.C100_nan",
    "AlMath.F32.C100_zero_axis"
   ],
   "note": "The functions of <cmath> are parameters with the accuracy of Libm.Accurate."
  },
  {
   "property": "C101",
   "status": "proved",
   "theorems": [
    "AlMath.F32.C101_exp",
    "AlMath.F32.C101_translation",
    "AlMath.F32.C101_nan",
    "AlMath.F32.C101_loss",
    "AlMath.F32.C101_accepted"
   ],
   "note": "The functions of <cmath> are parameters with the accuracy of Libm.Accurate; std::pow(t, 3) has the accuracy of Pow3Accurate."
  },
  {
   "property": "C102",
   "status": "proved",
   "theorems": [
    "AlMath.F32.C102_log",
    "AlMath.F32.C102_log_exp",
    "AlMath.F32.C102_translation",
    "AlMath.F32.C102_nan"
   ],
   "note": "std::atan2 has the accuracy of Atan2Accurate and std::pow(x, 2) that of Pow2Accurate; both hold of correctly rounded functions (atan2Rounded_accurate, pow2Rounded_accurate). Below the threshold on the sine the code departs from the logarithm, see C21."
  },
  {
   "property": "C103",
   "status": "proved",
   "theorems": [
    "AlMath.F32.C103_exp_log",
    "AlMath.F32.C103_mean",
    "AlMath.F32.C103_throws",
    "AlMath.F32.C103_nan"
   ],
   "note": "Functions of <cmath> as in C101 and C102. The bounds are not claimed when the sine of the relative angle is below 0.0025: near the threshold of transformLogarithm, and near a half turn, the code departs from the mean, see C21 and C22."
  },
  {
   "property": "C104",
   "status": "proved",
   "theorems": [
    "AlMath.F32.C104_half_turn",
    "AlMath.F32.C104_half_turn_lost",
    "AlMath.F32.C104_small"
   ],
   "note": "atan2(0, -1) is assumed to be the float nearest to pi (round_pi shows that correct rounding gives it). The last two claims are departures from the exact logarithm, see C21; they are proved as the code behaves."
  },
  {
   "property": "C105",
   "status": "proved",
   "theorems": [
    "AlMath.F32.C105_throws",
    "AlMath.F32.C105_path",
    "AlMath.F32.C105_shortest",
    "AlMath.F32.C105_lost"
   ],
   "note": "Backward error for the target, forward error for the poses. C105_lost is a witness that the last hypothesis of C105_shortest is needed: a departure of the code, recorded in DESIGN.md. Unqualified sin and cos are taken to be the functions on float."
  },
  {
   "property": "C106",
   "status": "proved",
   "theorems": [
    "AlMath.C106_winding",
    "AlMath.C106_create"
   ],
   "note": "The winding is stated with the shoelace formula, for each vertex normal. Exact real arithmetic with the single-precision pi of the code; the lower bounds on the half-extents come from the closing join, whose meridians differ by 2*(pi as float - pi)."
  },
  {
   "property": "C107",
   "status": "proved",
   "theorems": [
    "AlMath.C107_adapter",
    "AlMath.C107_adapter_total",
    "AlMath.C107_add",
    "AlMath.C107_order",
    "AlMath.C107_same",
    "AlMath.C107_checked_twice",
    "AlMath.C107_build",
    "AlMath.C107_toFloat",
    "AlMath.C107_round_trip",
    "AlMath.C107_inertia"
   ],
   "note": "Builders are parametrised by their scalar type; the conversion is an arbitrary function, then that of double to float of the binary32 model."
  },
  {
   "property": "C108",
   "status": "proved",
   "theorems": [
    "AlMath.F32.C108_xyz",
    "AlMath.F32.C108_reflection",
    "AlMath.F32.C108_two",
    "AlMath.F32.C108_near",
    "AlMath.F32.C108_short",
    "AlMath.F32.C108_aborts",
    "AlMath.F32.C108_orthogonalSpace",
    "AlMath.F32.C108_orthogonalSpace_throws",
    "AlMath.F32.C108_pill",
    "AlMath.F32.C108_pill_throws"
   ],
   "note": "Model/FloatBasis.lean. A violated assert is undefined behaviour in the model. C108_aborts and C108_reflection are departures recorded in DESIGN.md."
  },
  {
   "property": "C109",
   "status": "proved",
   "theorems": [
    "AlMath.F32.C109_matrix",
    "AlMath.F32.C109_back",
    "AlMath.F32.C109_nan",
    "AlMath.F32.C109_nan_accepted",
    "AlMath.F32.C109_small",
    "AlMath.F32.C109_small_turn",
    "AlMath.F32.C109_angles",
    "AlMath.F32.C109_roundtrip"
   ],
   "note": "Model/FloatConvert.lean. std::pow(qs, 2) and what depends on it up to the conversion to float is in double precision. C109_small_turn and C109_nan_accepted are departures recorded in DESIGN.md."
  },
  {
   "property": "C110",
   "status": "proved",
   "theorems": [
    "AlMath.F32.C110_inertia",
    "AlMath.F32.C110_energy",
    "AlMath.F32.C110_symmetric",
    "AlMath.F32.C110_indefinite"
   ],
   "note": "Model/FloatInertia.lean. boost::math::pow<2> of a float is a product in single precision. C110_indefinite is a departure recorded in DESIGN.md."
  },
  {
   "property": "C111",
   "status": "proved",
   "theorems": [
    "AlMath.F32.C111_forward",
    "AlMath.F32.C111_transposed",
    "AlMath.F32.C111_back",
    "AlMath.F32.C111_transform",
    "AlMath.F32.C111_diff",
    "AlMath.F32.C111_diff_self"
   ],
   "note": "Model/FloatFrame.lean. Input and output are distinct objects, as in C23: the functions which take both by reference are not modelled on aliased arguments."
  },
  {
   "property": "C112",
   "status": "proved",
   "theorems": [
    "AlMath.UrdfXml.C112_used",
    "AlMath.UrdfXml.C112_reload",
    "AlMath.UrdfXml.C112_lookup",
    "AlMath.UrdfXml.C112_tree",
    "AlMath.UrdfXml.C112_write",
    "AlMath.UrdfXml.C112_write_missing",
    "AlMath.UrdfXml.C112_removed",
    "AlMath.UrdfXml.C112_unchecked"
   ],
   "note": "Model/UrdfLookup.lean on Model/UrdfXml.lean. Writings that change a key of the index are outside the claim except for the witness C112_unchecked: boost::multi_index leaves the order of its indexes undefined then."
  },
  {
   "property": "C113",
   "status": "proved",
   "theorems": [
    "AlMath.F32.C113_norm",
    "AlMath.F32.C113_normalize",
    "AlMath.F32.C113_underflow",
    "AlMath.F32.C113_overflow",
    "AlMath.F32.C113_distance",
    "AlMath.F32.C113_distance_angles"
   ],
   "note": "Model/FloatSix.lean, same simplifications as Model/Float32.lean."
  },
  {
   "property": "C114",
   "status": "proved",
   "theorems": [
    "AlMath.F32.C114_norm",
    "AlMath.F32.C114_normalize",
    "AlMath.F32.C114_range",
    "AlMath.F32.C114_products",
    "AlMath.F32.C114_distance",
    "AlMath.F32.C114_pose_normalize"
   ],
   "note": "Model/FloatPlane.lean, same simplifications as Model/Float32.lean. Between 0.9999e-4 and 1.0001e-4 the test of Pose2D::normalize depends on rounding and nothing is claimed."
  },
  {
   "property": "C115",
   "status": "proved",
   "theorems": [
    "AlMath.F32.C115_polar",
    "AlMath.F32.C115_norm",
    "AlMath.F32.C115_angle"
   ],
   "note": "Model/FloatPolar.lean; the functions of <cmath> are parameters with the assumptions of Spec/Libm.lean. The angle is compared as a direction: near the half turn it can differ by a whole turn."
  },
  {
   "property": "C116",
   "status": "proved",
   "theorems": [
    "AlMath.F32.C116_position2D",
    "AlMath.F32.C116_pose2D",
    "AlMath.F32.C116_position6D",
    "AlMath.F32.C116_velocity6D",
    "AlMath.F32.C116_transform",
    "AlMath.F32.C116_quaternion",
    "AlMath.F32.C116_quaternion_zero",
    "AlMath.F32.C116_displacement"
   ],
   "note": "Model/FloatNearTypes.lean, same simplifications as Model/Float32.lean. Position3D and Rotation are in C75, as are NaN and infinities."
  }
 ]
}