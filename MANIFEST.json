{
 "claims": [
  {
   "property": "C01",
   "status": "proved",
   "theorems": [
    "LNLib.Props.C01_span_correct",
    "LNLib.Props.C01_span_unique",
    "LNLib.Props.C01_terminates"
   ],
   "note": "Hypothesis EndsSeparated: first and last span longer than the comparison tolerance (otherwise the tolerant end tests can return a span that does not contain t). Termination is proved for every input whatsoever."
  },
  {
   "property": "C02",
   "status": "proved",
   "theorems": [
    "LNLib.Props.C02_basis_is_coxDeBoor",
    "LNLib.Props.C02_other_basis_vanish"
   ],
   "note": ""
  },
  {
   "property": "C03",
   "status": "proved",
   "theorems": [
    "LNLib.Props.C03_partition_of_unity",
    "LNLib.Props.C03_runs"
   ],
   "note": ""
  },
  {
   "property": "C04",
   "status": "proved",
   "theorems": [
    "LNLib.Props.C04_nonneg"
   ],
   "note": ""
  },
  {
   "property": "C05",
   "status": "proved",
   "theorems": [
    "LNLib.Props.C05_eval",
    "LNLib.Props.C05_eval_rational"
   ],
   "note": "The rational version needs a weight function value outside the zero tolerance; below it ToXYZ(true) does not divide (see C07_tiny_weights_violated)."
  },
  {
   "property": "C06",
   "status": "proved",
   "theorems": [
    "LNLib.Props.C06_out_of_range",
    "LNLib.Props.C06_degree_too_large",
    "LNLib.Props.C06_empty_knots_ub"
   ],
   "note": "For curves that pass Check. C06_empty_knots_ub records that an empty knot vector is read before validation."
  },
  {
   "property": "C07",
   "status": "proved",
   "theorems": [
    "LNLib.Props.C07_convex_combination",
    "LNLib.Props.C07_bounding_box",
    "LNLib.Props.C07_bounding_box_rational",
    "LNLib.Props.C07_tiny_weights_violated"
   ],
   "note": "Rational version for weights above the zero tolerance; C07_tiny_weights_violated shows that this is needed."
  },
  {
   "property": "C08",
   "status": "proved",
   "theorems": [
    "LNLib.Props.C08_affine_invariance",
    "LNLib.Props.C08_projective_violated"
   ],
   "note": "For affine matrices and weights beyond the zero tolerance at the parameter; C08_projective_violated records that matrices with a perspective part are applied wrongly."
  },
  {
   "property": "C09",
   "status": "proved",
   "theorems": [
    "LNLib.Props.C09_start",
    "LNLib.Props.C09_end"
   ],
   "note": ""
  },
  {
   "property": "C10",
   "status": "proved",
   "theorems": [
    "LNLib.Props.C10_local_modification"
   ],
   "note": ""
  },
  {
   "property": "C11",
   "status": "proved",
   "theorems": [
    "LNLib.Props.C11_insert_preserves",
    "LNLib.Props.C11_insert_preserves_rational",
    "LNLib.Props.C11_unclamped_end_violated"
   ],
   "note": "For parameters inside the domain: knot values are equal to or clearly separated from u. C11_unclamped_end_violated records that insertion at the closed right end of an unclamped curve changes the curve."
  },
  {
   "property": "C12",
   "status": "proved",
   "theorems": [
    "LNLib.Props.C12_insert_valid",
    "LNLib.Props.C12_times_rejected",
    "LNLib.Props.C12_clamped_ends",
    "LNLib.Props.C12_unclamped_start_violated"
   ],
   "note": "C12_unclamped_start_violated records that insertion at the left end of an unclamped curve leaves the domain."
  },
  {
   "property": "C13",
   "status": "proved",
   "theorems": [
    "LNLib.Props.C13_horner",
    "LNLib.Props.C13_horner_rejects",
    "LNLib.Props.C13_horner_bivariate"
   ],
   "note": ""
  },
  {
   "property": "C14",
   "status": "proved",
   "theorems": [
    "LNLib.Props.C14_all_bernstein",
    "LNLib.Props.C14_bernstein_sum_nonneg",
    "LNLib.Props.C14_rejects"
   ],
   "note": ""
  },
  {
   "property": "C15",
   "status": "partial",
   "theorems": [
    "LNLib.Props.C15_bernstein_partial",
    "LNLib.Props.C15_bernstein_actual_partial",
    "LNLib.Props.C15_bernstein_violated"
   ],
   "note": "Violated by the code for 2 <= i < n (C15_bernstein_violated); the indices 0, 1 and n are right, and C15_bernstein_actual_partial states what is returned for every other index."
  },
  {
   "property": "C16",
   "status": "proved",
   "theorems": [
    "LNLib.Props.C16_deCasteljau",
    "LNLib.Props.C16_checked"
   ],
   "note": ""
  },
  {
   "property": "C17",
   "status": "proved",
   "theorems": [
    "LNLib.Props.C17_multiplicity",
    "LNLib.Props.C17_multiplicity_exact",
    "LNLib.Props.C17_rejects"
   ],
   "note": ""
  },
  {
   "property": "C18",
   "status": "partial",
   "theorems": [
    "LNLib.Props.C18_error_partial",
    "LNLib.Props.C18_exact_partial",
    "LNLib.Props.C18_small_value_violated",
    "LNLib.Props.C18_unclamped_violated",
    "LNLib.Props.C18_index_ub"
   ],
   "note": "Equality is violated because values within 1e-6 of zero are dropped (C18_small_value_violated); proved: an error bound 4e-6(2^p-1) for every clamped input, equality when no lower-degree value is that small, and the out-of-bounds read for indices without a basis function."
  },
  {
   "property": "C19",
   "status": "proved",
   "theorems": [
    "LNLib.Props.C19_derivatives",
    "LNLib.Props.C19_order_rejected",
    "LNLib.Props.C19_first_order",
    "LNLib.Props.C19_true_derivative"
   ],
   "note": "EndsSeparated hypotheses as in C01 where the span is searched."
  },
  {
   "property": "C20",
   "status": "proved",
   "theorems": [
    "LNLib.Props.C20_leibniz",
    "LNLib.Props.C20_true_derivative"
   ],
   "note": "Curve version: Leibniz triangular system for every order and, over the reals, the iterated derivatives of A/w. The surface version is C67."
  },
  {
   "property": "C21",
   "status": "proved",
   "theorems": [
    "LNLib.Props.C21_reverse",
    "LNLib.Props.C21_involution",
    "LNLib.Props.C21_empty_ub"
   ],
   "note": "At parameters where the curve is continuous (interior knots of multiplicity at most the degree); end spans of both curves longer than the tolerance."
  },
  {
   "property": "C22",
   "status": "proved",
   "theorems": [
    "LNLib.Props.C22_reparametrize",
    "LNLib.Props.C22_inverted_range_accepted"
   ],
   "note": "End spans of both curves longer than the tolerance. C22_inverted_range_accepted: min > max is not rejected and yields a curve that fails Check."
  },
  {
   "property": "C23",
   "status": "proved",
   "theorems": [
    "LNLib.Props.C23_split",
    "LNLib.Props.C23_refuses"
   ],
   "note": "Split parameters of multiplicity at most degree+1; the left curve's end value at the split parameter is stated for multiplicity at most degree (beyond it the curve is discontinuous there)."
  },
  {
   "property": "C24",
   "status": "proved",
   "theorems": [
    "LNLib.Props.C24_factorial",
    "LNLib.Props.C24_binomial"
   ],
   "note": ""
  },
  {
   "property": "C25",
   "status": "proved",
   "theorems": [
    "LNLib.Props.C25_trichotomy",
    "LNLib.Props.C25_weak",
    "LNLib.Props.C25_refl_symm",
    "LNLib.Props.C25_sound",
    "LNLib.Props.C25_not_transitive"
   ],
   "note": "Trichotomy, duality, reflexivity, symmetry; C25_not_transitive records that approximate equality is not an equivalence."
  },
  {
   "property": "C26",
   "status": "proved",
   "theorems": [
    "LNLib.Props.C26_point_to_ray",
    "LNLib.Props.C26_zero_direction",
    "LNLib.Props.C26_point_to_line"
   ],
   "note": ""
  },
  {
   "property": "C27",
   "status": "partial",
   "theorems": [
    "LNLib.Props.C27_rays_sound_partial",
    "LNLib.Props.C27_rays_complete",
    "LNLib.Props.C27_zero_rejected",
    "LNLib.Props.C27_perpendicular_reported_parallel_violated",
    "LNLib.Props.C27_identical_rays_intersecting"
   ],
   "note": "Soundness of the Intersecting, Skew and Coincident answers and completeness are proved; the Parallel answer is unsound for short direction vectors (C27_perpendicular_reported_parallel_violated) because an absolute tolerance is used, and identical rays are reported as Intersecting."
  },
  {
   "property": "C28",
   "status": "proved",
   "theorems": [
    "LNLib.Props.C28_line_plane"
   ],
   "note": ""
  },
  {
   "property": "C29",
   "status": "proved",
   "theorems": [
    "LNLib.Props.C29_cross_orthogonal",
    "LNLib.Props.C29_cross_algebra",
    "LNLib.Props.C29_cross_right_handed",
    "LNLib.Props.C29_lagrange",
    "LNLib.Props.C29_dot",
    "LNLib.Props.C29_normalize",
    "LNLib.Props.C29_distance",
    "LNLib.Props.C29_angle"
   ],
   "note": ""
  },
  {
   "property": "C30",
   "status": "partial",
   "theorems": [
    "LNLib.Props.C30_multiply_composes",
    "LNLib.Props.C30_affine_defined",
    "LNLib.Props.C30_algebra",
    "LNLib.Props.C30_ofVector",
    "LNLib.Props.C30_constructors",
    "LNLib.Props.C30_inverse_singular_violated",
    "LNLib.Props.C30_inverse_partial",
    "LNLib.Props.C30_isIdentity_violated",
    "LNLib.Props.C30_isIdentity_partial",
    "LNLib.Props.C30_isTranslation_partial",
    "LNLib.Props.C30_recognised",
    "LNLib.Props.C30_hasReflection",
    "LNLib.Props.C30_rotation",
    "LNLib.Props.C30_rotation_at_point",
    "LNLib.Props.C30_rotation_zero_axis_violated",
    "LNLib.Props.C30_reflection"
   ],
   "note": "GetInverse answers true for singular matrices whatever Eigen returns (C30_inverse_singular_violated) and IsIdentity/IsTranslation accept shears (C30_isIdentity_violated); C30_inverse_partial takes Eigen's correctness on invertible matrices as a hypothesis. Everything else is proved."
  },
  {
   "property": "C31",
   "status": "proved",
   "theorems": [
    "LNLib.Props.C31_transpose",
    "LNLib.Props.C31_transpose_involution",
    "LNLib.Props.C31_transpose_empty_ub",
    "LNLib.Props.C31_multiply",
    "LNLib.Props.C31_multiply_assoc",
    "LNLib.Props.C31_identity"
   ],
   "note": "For matrices with at least one row (C31_transpose_empty_ub: the empty matrix is read out of bounds)."
  },
  {
   "property": "C32",
   "status": "proved",
   "theorems": [
    "LNLib.Props.C32_swap",
    "LNLib.Props.C32_empty_ub"
   ],
   "note": "Control net non-empty (part of a valid surface); C32_empty_ub covers the empty one."
  },
  {
   "property": "C33",
   "status": "proved",
   "theorems": [
    "LNLib.Props.C33_eval",
    "LNLib.Props.C33_eval_rational",
    "LNLib.Props.C33_out_of_range"
   ],
   "note": "Degrees at most 7 (the fixed array size) and end spans longer than the tolerance; the rational version needs a weight function beyond the zero tolerance. Out-of-range parameters throw."
  },
  {
   "property": "C34",
   "status": "proved",
   "theorems": [
    "LNLib.Props.C34_iso_u",
    "LNLib.Props.C34_iso_v",
    "LNLib.Props.C34_iso_clamped"
   ],
   "note": "Fixed parameters outside the domain are clamped (C34_iso_clamped)."
  },
  {
   "property": "C35",
   "status": "partial",
   "theorems": [
    "LNLib.Props.C35_reverse_u_partial",
    "LNLib.Props.C35_u_fresh_violated",
    "LNLib.Props.C35_v_violated",
    "LNLib.Props.C35_all_violated"
   ],
   "note": "Only the U direction into an output object that already holds the V knots is right (C35_reverse_u_partial); a fresh output object (C35_u_fresh_violated), the V direction (C35_v_violated, for every surface) and All (C35_all_violated) are wrong."
  },
  {
   "property": "C36",
   "status": "partial",
   "theorems": [
    "LNLib.Props.C36_reparametrize_partial",
    "LNLib.Props.C36_one_direction_violated"
   ],
   "note": "Proved when neither requested range equals the current one; when one does, the surface is returned unchanged (C36_one_direction_violated, for every surface)."
  },
  {
   "property": "C37",
   "status": "partial",
   "theorems": [
    "LNLib.Props.C37_box_violated",
    "LNLib.Props.C37_box_ub",
    "LNLib.Props.C37_samples_partial"
   ],
   "note": "Violated: C37_box_violated (box misses the surface) and C37_box_ub (out-of-bounds read). Proved: the box lies in the control hull box and contains the diagonal samples."
  },
  {
   "property": "C38",
   "status": "proved",
   "theorems": [
    "LNLib.Props.C38_ruled",
    "LNLib.Props.C38_boundary"
   ],
   "note": "S(u,v) = (1-v) C0(u) + v C1(u) in homogeneous coordinates for every u in the domain and v in [0,1]; the two boundary curves follow for rational curves without a condition on the weights. End spans longer than the comparison tolerance are assumed."
  },
  {
   "property": "C39",
   "status": "proved",
   "theorems": [
    "LNLib.Props.C39_bilinear"
   ],
   "note": ""
  },
  {
   "property": "C40",
   "status": "partial",
   "theorems": [
    "LNLib.Props.C40_decompose_partial",
    "LNLib.Props.C40_linear_diverges",
    "LNLib.Props.C40_decompose_rational_partial",
    "LNLib.Props.C40_full_multiplicity_violated"
   ],
   "note": "Proved for every well-formed clamped curve whose knots are equal or clearly apart and whose interior knots have multiplicity below the degree: the call terminates, returns one valid Bezier piece per non-empty span and every piece traces the curve on its span (also for rational curves). Refuted: for degree 1 with an interior knot the loop never ends, and at an interior knot of multiplicity equal to the degree a piece is wrong."
  },
  {
   "property": "C41",
   "status": "partial",
   "theorems": [
    "LNLib.Props.C41_remove_valid_partial",
    "LNLib.Props.C41_accepts_anything_violated",
    "LNLib.Props.C41_first_span_undefined",
    "LNLib.Props.C41_count_rejected",
    "LNLib.Props.C41_range_rejected",
    "LNLib.Props.C41_undo_insert_partial",
    "LNLib.Props.C41_undo_violated",
    "LNLib.Props.C41_not_close_violated",
    "LNLib.Props.C41_undo_points_violated",
    "LNLib.Props.C41_count_violated"
   ],
   "note": "Proved for one copy of an interior knot of multiplicity at most the degree: the answer is `false` or a valid curve of the same degree and domain with one copy of the knot less; removal undoes an insertion that raised the multiplicity to the degree; a bad count or parameter is rejected. Refuted: when degree minus multiplicity is even every removal is accepted whatever the control points are (a cubic moved by 50 units against a tolerance of 1e-4, over the reals with the library's own distance test); inserting a knot into a parabola and removing it returns a different parabola (`true`); asking for two copies when one can be removed returns 6 knots and 4 control points for degree 2; a parameter in the first span reads control point -1."
  },
  {
   "property": "C42",
   "status": "partial",
   "theorems": [
    "LNLib.Props.C42_elevate_result",
    "LNLib.Props.C42_elevate_partial",
    "LNLib.Props.C42_elevate_rational_partial",
    "LNLib.Props.C42_repeated_invalid",
    "LNLib.Props.C42_elevate_rejects",
    "LNLib.Props.C42_repeated_violated"
   ],
   "note": "Proved for every clamped curve with clearly separated knots: the result is exactly the elevated curve (every distinct knot repeated t times more, the same point for every parameter), followed by k zero knots and k zero control points, where k = 0 exactly when the interior knots are simple; so the property holds for simple interior knots (also for rational curves). Refuted for every clamped curve with a repeated interior knot and positive last knot: the result's knots are not sorted; concretely the elevated curve cannot be evaluated inside its domain."
  },
  {
   "property": "C43",
   "status": "partial",
   "theorems": [
    "LNLib.Props.C43_extract_never_valid",
    "LNLib.Props.C43_rejects_partial"
   ],
   "note": "Violated for every input: C43_extract_never_valid proves that no curve returned by Extract (degree at least one) passes Check, because the copied knot and control point ranges have incompatible lengths."
  },
  {
   "property": "C44",
   "status": "proved",
   "theorems": [
    "LNLib.Props.C44_rescale",
    "LNLib.Props.C44_degenerate"
   ],
   "note": "C44_degenerate: constant knot vectors divide by zero, an empty one is read out of bounds."
  },
  {
   "property": "C45",
   "status": "proved",
   "theorems": [
    "LNLib.Props.C45_merge_all_sorted",
    "LNLib.Props.C45_internal_map",
    "LNLib.Props.C45_merge",
    "LNLib.Props.C45_same_multiset",
    "LNLib.Props.C45_merge_all",
    "LNLib.Props.C45_internal_map_ub"
   ],
   "note": "Proved for all lists, and for the variant with any number of knot vectors; GetInternalKnotMultiplicityMap of a single distinct knot is undefined behaviour (C45_internal_map_ub)."
  },
  {
   "property": "C46",
   "status": "partial",
   "theorems": [
    "LNLib.Props.C46_chord",
    "LNLib.Props.C46_centripetal",
    "LNLib.Props.C46_average_partial",
    "LNLib.Props.C46_degree_zero_nonfinite"
   ],
   "note": "Chord and centripetal parameters proved for all sequences of at least two points (including coincident points); averaged knots proved for degrees 1..n; degree 0, which GlobalInterpolation accepts, divides by zero (C46_degree_zero_nonfinite)."
  },
  {
   "property": "C47",
   "status": "partial",
   "theorems": [
    "LNLib.Props.C47_knn_partial",
    "LNLib.Props.C47_radius",
    "LNLib.Props.C47_order_violated",
    "LNLib.Props.C47_drift_violated",
    "LNLib.Props.C47_far_violated",
    "LNLib.Props.C47_capacity_zero_violated"
   ],
   "note": "C47_radius in full (comparison tolerance spelled out). C47_knn_partial for k > 0, distances up to 1e10 and distances that are equal or apart by more than the comparison tolerance; the disagreements C47_order_violated, C47_drift_violated, C47_far_violated, C47_capacity_zero_violated show that each restriction is needed."
  },
  {
   "property": "C48",
   "status": "proved",
   "theorems": [
    "LNLib.Props.C48_exact",
    "LNLib.Props.C48_linear",
    "LNLib.Props.C48_exact2"
   ],
   "note": "Exactness is stated against Mathlib's interval integral; the two-dimensional rule is covered too."
  },
  {
   "property": "C49",
   "status": "proved",
   "theorems": [
    "LNLib.Props.C49_bezier_to_power",
    "LNLib.Props.C49_power_to_bezier",
    "LNLib.Props.C49_inverse",
    "LNLib.Props.C49_negative_degree_ub"
   ],
   "note": "For every degree >= 0 (C49_negative_degree_ub)."
  },
  {
   "property": "C50",
   "status": "proved",
   "theorems": [
    "LNLib.Props.C50_eval",
    "LNLib.Props.C50_eval_rational",
    "LNLib.Props.C50_out_of_range"
   ],
   "note": ""
  },
  {
   "property": "C51",
   "status": "partial",
   "theorems": [
    "LNLib.Props.C51_derivatives_violated",
    "LNLib.Props.C51_order_rejected",
    "LNLib.Props.C51_rational_partial"
   ],
   "note": "Refuted for every volume: `C51_derivatives_violated` shows division by zero or an out-of-bounds read for every well-formed volume, parameter in the domain and order up to the degrees (line 249 reads temp2 where temp1 was computed). Proved instead: orders above a degree are rejected; the rational half of the routine satisfies the Leibniz identities for any homogeneous table with non-zero weight."
  },
  {
   "property": "C52",
   "status": "partial",
   "theorems": [
    "LNLib.Props.C52_swap_uv",
    "LNLib.Props.C52_swap_uw",
    "LNLib.Props.C52_swap_vw",
    "LNLib.Props.C52_swap_order_ignored",
    "LNLib.Props.C52_reverse_u_partial",
    "LNLib.Props.C52_reverse_v_violated",
    "LNLib.Props.C52_reverse_w_violated",
    "LNLib.Props.C52_refine_u_violated",
    "LNLib.Props.C52_refine_v_violated",
    "LNLib.Props.C52_refine_w_violated",
    "LNLib.Props.C52_extract_violated",
    "LNLib.Props.C52_extract_end_violated"
   ],
   "note": "Swap: proved for the three pairs in the supported argument order, the opposite order is silently ignored (`C52_swap_order_ignored`). Reverse: proved for U; V and W end in undefined behaviour for every well-formed volume. RefineKnotVector: undefined behaviour in every direction. Extract never changes the caller's surface (passed by value)."
  },
  {
   "property": "C53",
   "status": "partial",
   "theorems": [
    "LNLib.Props.C53_merge_partial",
    "LNLib.Props.C53_merge_points_partial",
    "LNLib.Props.C53_rejects",
    "LNLib.Props.C53_unclamped_rejected",
    "LNLib.Props.C53_merge_degrees_partial",
    "LNLib.Props.C53_repeated_violated"
   ],
   "note": "C53_merge_degrees_partial covers curves of any two degrees (the lower one elevated by the modelled ElevateDegree), and states that evaluating the merged curve gives the points of the two originals; C53_merge_partial and C53_merge_points_partial need no clamping at the far ends for equal degrees; C53_rejects covers curves whose end points do not meet. Missing: interior knots of the lower-degree curve must be simple (C53_repeated_violated: otherwise Merge throws), and knots must be separated by more than the tolerances."
  },
  {
   "property": "C54",
   "status": "partial",
   "theorems": [
    "LNLib.Props.C54_grid_partial",
    "LNLib.Props.C54_small_domain_violated",
    "LNLib.Props.C54_large_domain_violated",
    "LNLib.Props.C54_resolution_one"
   ],
   "note": "C54_grid_partial proves the whole statement for surfaces whose domain contains the unit square (coverage is then of [0,1]^2, i.e. of the whole domain exactly when the domain is [0,1]^2). For other domains the property is false: C54_small_domain_violated (throws), C54_large_domain_violated (mesh stops half way). C54_resolution_one: resolution 1 divides 0 by 0."
  },
  {
   "property": "C55",
   "status": "partial",
   "theorems": [
    "LNLib.Props.C55_equal_weights_partial",
    "LNLib.Props.C55_weights_violated"
   ],
   "note": "Equal weights are proved; with different weights the code divides every point by the first weight (C55_weights_violated)."
  },
  {
   "property": "C56",
   "status": "partial",
   "theorems": [
    "LNLib.Props.C56_roundtrip_partial",
    "LNLib.Props.C56_componentwise",
    "LNLib.Props.C56_weighted_mean",
    "LNLib.Props.C56_small_weight_violated"
   ],
   "note": "For every weight beyond the zero tolerance; violated for non-zero weights below it (C56_small_weight_violated)."
  },
  {
   "property": "C57",
   "status": "proved",
   "theorems": [
    "LNLib.Props.C57_refine",
    "LNLib.Props.C57_empty_rejected",
    "LNLib.Props.C57_refine_rational"
   ],
   "note": "For inserted knots that are equal or clearly separated from each other and from the existing knots (WellSeparated)."
  },
  {
   "property": "C58",
   "status": "proved",
   "theorems": [
    "LNLib.Props.C58_reduce",
    "LNLib.Props.C58_degree_one_ub",
    "LNLib.Props.C58_reduce_points"
   ],
   "note": "Degree one is undefined behaviour (C58_degree_one_ub)."
  },
  {
   "property": "C59",
   "status": "partial",
   "theorems": [
    "LNLib.Props.C59_corner_cut_partial",
    "LNLib.Props.C59_corner_cut_rational_partial",
    "LNLib.Props.C59_full_multiplicity_ub",
    "LNLib.Props.C59_unclamped_end_violated"
   ],
   "note": "Proved where the multiplicity at t is at most the degree; violated at interior knots of full multiplicity (C59_full_multiplicity_ub) and at unclamped ends (C59_unclamped_end_violated)."
  },
  {
   "property": "C60",
   "status": "partial",
   "theorems": [
    "LNLib.Props.C60_curvature_partial",
    "LNLib.Props.C60_stationary_nonfinite",
    "LNLib.Props.C60_speed_one_violated"
   ],
   "note": "The formula is proved wherever the speed is not within tolerance of one (or is exactly one with C' orthogonal to C''); the arc-length shortcut taken when |C'| happens to be near one is wrong: witness C60_speed_one_violated."
  },
  {
   "property": "C61",
   "status": "partial",
   "theorems": [
    "LNLib.Props.C61_check_iff",
    "LNLib.Props.C61_check_insufficient",
    "LNLib.Props.C61_check_accepts_constant",
    "LNLib.Props.C61_check_evaluates_partial"
   ],
   "note": "Violated by the code (C61_check_insufficient, C61_check_accepts_constant); C61_check_evaluates_partial is the part that holds."
  },
  {
   "property": "C62",
   "status": "proved",
   "theorems": [
    "LNLib.Props.C62_rational_reparametrize",
    "LNLib.Props.C62_rejects"
   ],
   "note": "For weights above the zero tolerance of ToXYZ and a weight function of the result beyond that tolerance at the parameter."
  },
  {
   "property": "C63",
   "status": "proved",
   "theorems": [
    "LNLib.Props.C63_stereographic",
    "LNLib.Props.C63_injective",
    "LNLib.Props.C63_pole"
   ],
   "note": ""
  },
  {
   "property": "C64",
   "status": "partial",
   "theorems": [
    "LNLib.Props.C64_random_orthogonal_partial",
    "LNLib.Props.C64_random_orthogonal_violated"
   ],
   "note": "Orthogonality always; unit length except on multiples of (1,-1,1), where the code returns the zero vector (C64_random_orthogonal_violated)."
  },
  {
   "property": "C65",
   "status": "proved",
   "theorems": [
    "LNLib.Props.C65_derivatives",
    "LNLib.Props.C65_zeroth",
    "LNLib.Props.C65_by_control_points",
    "LNLib.Props.C65_order_rejected"
   ],
   "note": ""
  },
  {
   "property": "C66",
   "status": "partial",
   "theorems": [
    "LNLib.Props.C66_derivatives_partial",
    "LNLib.Props.C66_order_rejected",
    "LNLib.Props.C66_right_end_violated"
   ],
   "note": "Violated at the right end of the domain (C66_right_end_violated) and where lower-degree derivative values are below the tolerance; equality is proved for all other parameters."
  },
  {
   "property": "C68",
   "status": "proved",
   "theorems": [
    "LNLib.Props.C68_convex_hull"
   ],
   "note": ""
  },
  {
   "property": "C67",
   "status": "proved",
   "theorems": [
    "LNLib.Props.C67_derivatives",
    "LNLib.Props.C67_zeroth",
    "LNLib.Props.C67_order_rejected",
    "LNLib.Props.C67_leibniz",
    "LNLib.Props.C67_true_derivative"
   ],
   "note": "For orders up to the smaller degree; larger orders throw (C67_order_rejected), unlike for curves. The rational table is only filled for k + l <= d, as documented."
  },
  {
   "property": "C69",
   "status": "partial",
   "theorems": [
    "LNLib.Props.C69_surface_normal",
    "LNLib.Props.C69_curve_normal_partial",
    "LNLib.Props.C69_curve_normal_violated"
   ],
   "note": "Surface normals proved in full; curve normals proved away from unit speed, and violated by the shortcut at speed one: witness C69_curve_normal_violated."
  },
  {
   "property": "C70",
   "status": "partial",
   "theorems": [
    "LNLib.Props.C70_curvature_partial",
    "LNLib.Props.C70_linear_violated",
    "LNLib.Props.C70_small_determinant",
    "LNLib.Props.C70_small_patch_violated"
   ],
   "note": "Proved for degrees at least two where EG-F^2 exceeds the tolerance; below it 0 is returned (C70_small_patch_violated) and degree one throws (C70_linear_violated)."
  },
  {
   "property": "C71",
   "status": "partial",
   "theorems": [
    "LNLib.Props.C71_uniform_partial",
    "LNLib.Props.C71_single_ub"
   ],
   "note": "Proved for at least two distinct knots; with one distinct knot the code reads past the end (C71_single_ub)."
  },
  {
   "property": "C72",
   "status": "partial",
   "theorems": [
    "LNLib.Props.C72_insert_mid_partial",
    "LNLib.Props.C72_no_span_ub"
   ],
   "note": "Proved when the range over the final number of knots exceeds the tolerance; otherwise the code may read index -1 (C72_no_span_ub)."
  },
  {
   "property": "C73",
   "status": "proved",
   "theorems": [
    "LNLib.Props.C73_interpolates"
   ],
   "note": "The linear solver (Eigen) is a parameter of the model, assumed to return only solutions of the system it is given; solvability of the system is not proved."
  },
  {
   "property": "C74",
   "status": "proved",
   "theorems": [
    "LNLib.Props.C74_compute_knots"
   ],
   "note": ""
  },
  {
   "property": "C75",
   "status": "proved",
   "theorems": [
    "LNLib.Props.C75_line",
    "LNLib.Props.C75_rejects"
   ],
   "note": ""
  },
  {
   "property": "C76",
   "status": "proved",
   "theorems": [
    "LNLib.Props.C76_hermite",
    "LNLib.Props.C76_hermite_eval",
    "LNLib.Props.C76_create",
    "LNLib.Props.C76_rejects"
   ],
   "note": "Evaluation corollaries assume the first and last parameter intervals are wider than the comparison tolerance."
  },
  {
   "property": "C77",
   "status": "proved",
   "theorems": [
    "LNLib.Props.C77_insert_u",
    "LNLib.Props.C77_insert_v",
    "LNLib.Props.C77_insert_w",
    "LNLib.Props.C77_refused_insertion_corrupts"
   ],
   "note": "The behaviour for a refused insertion is `C77_refused_insertion_corrupts`."
  },
  {
   "property": "C78",
   "status": "proved",
   "theorems": [
    "LNLib.Props.C78_split_u",
    "LNLib.Props.C78_split_v",
    "LNLib.Props.C78_split_w",
    "LNLib.Props.C78_split_end_copies",
    "LNLib.Props.C78_full_multiplicity_violated"
   ],
   "note": "Proved for knot values whose multiplicity does not exceed the degree (hypothesis of the theorems); with full multiplicity the split is wrong, `C78_full_multiplicity_violated`."
  },
  {
   "property": "C79",
   "status": "proved",
   "theorems": [
    "LNLib.Props.C79_iso_u",
    "LNLib.Props.C79_iso_v",
    "LNLib.Props.C79_iso_w",
    "LNLib.Props.C79_no_marker"
   ],
   "note": ""
  },
  {
   "property": "C80",
   "status": "proved",
   "theorems": [
    "LNLib.Props.C80_construction",
    "LNLib.Props.C80_negative_extent_diverges"
   ],
   "note": "C80_construction; the sign restriction on the minimal extent is needed: C80_negative_extent_diverges."
  },
  {
   "property": "C81",
   "status": "partial",
   "theorems": [
    "LNLib.Props.C81_radius_search_partial",
    "LNLib.Props.C81_radius_search_fast_partial",
    "LNLib.Props.C81_small_radius_violated"
   ],
   "note": "C81_radius_search_partial, C81_radius_search_fast_partial: reported points are right, completeness with a margin that the comparisons resolve. C81_small_radius_violated: exact completeness fails for small radii."
  },
  {
   "property": "C82",
   "status": "partial",
   "theorems": [
    "LNLib.Props.C82_knn_search_partial",
    "LNLib.Props.C82_knn_exact_partial"
   ],
   "note": "C82_knn_search_partial, C82_knn_exact_partial: exact when distances are separated by the margin of the comparisons, coordinates up to 1e15, distances up to 1e9."
  },
  {
   "property": "C83",
   "status": "proved",
   "theorems": [
    "LNLib.Props.C83_insert_u",
    "LNLib.Props.C83_insert_v",
    "LNLib.Props.C83_insert_rational_u",
    "LNLib.Props.C83_insert_rational_v",
    "LNLib.Props.C83_times_zero_violated",
    "LNLib.Props.C83_end_knot_ub"
   ],
   "note": "C83_insert_u, C83_insert_v and the rational forms. Zero insertions, which the code does not reject, corrupt the surface: C83_times_zero_violated."
  },
  {
   "property": "C84",
   "status": "proved",
   "theorems": [
    "LNLib.Props.C84_refine_u",
    "LNLib.Props.C84_refine_v",
    "LNLib.Props.C84_empty_rejected"
   ],
   "note": "C84_refine_u, C84_refine_v, C84_empty_rejected; the new knots and old knots are equal or clearly apart."
  },
  {
   "property": "C85",
   "status": "partial",
   "theorems": [
    "LNLib.Props.C85_ruled_partial",
    "LNLib.Props.C85_interval_rejected",
    "LNLib.Props.C85_repeated_violated"
   ],
   "note": "Proved when the curve of lower degree has simple interior knots (or the degrees agree), knots separated by more than the tolerance. C85_repeated_violated: with a repeated interior knot in the curve of lower degree the result has an unsorted knot vector and cannot be evaluated."
  },
  {
   "property": "C86",
   "status": "partial",
   "theorems": [
    "LNLib.Props.C86_arc_partial",
    "LNLib.Props.C86_ellipse_violated",
    "LNLib.Props.C86_small_violated"
   ],
   "note": "Proved for circles (equal radii) and angles from 1/100 to a full turn: valid curve over [0,1], exact end points, every point on the arc, every arc point reached. Refuted for ellipses: the code keeps the circle tangents when the radii differ, so the curve of radii 2 and 1 leaves the ellipse. Refuted for small angles: an angle of 1/2000 makes the code return false."
  },
  {
   "property": "C87",
   "status": "partial",
   "theorems": [
    "LNLib.Props.C87_cylinder_partial"
   ],
   "note": "Proved for perpendicular axes and angles from 1/100 to a full turn, for every parameter pair. Missing: smaller angles, where CreateArc itself fails (C86_small_violated)."
  },
  {
   "property": "C88",
   "status": "partial",
   "theorems": [
    "LNLib.Props.C88_revolved_partial",
    "LNLib.Props.C88_axis_violated",
    "LNLib.Props.C88_near_violated"
   ],
   "note": "Proved for a unit axis direction, angles from 1/100 to a full turn, and profiles whose control points are on the axis or at least 1/2 away from it: the surface is exactly the rotated profile (Rodrigues' formula). Refuted for an axis that is not of unit length (accepted, but the surface is an elliptic one: C88_axis_violated) and for profiles close to the axis (the call fails: C88_near_violated)."
  },
  {
   "property": "C89",
   "status": "partial",
   "theorems": [
    "LNLib.Props.C89_conic_partial",
    "LNLib.Props.C89_flat_violated"
   ],
   "note": "Proved for hyperbolas and parabolas (weight at least 1) and for elliptic arcs that turn by more than 60 degrees. Refuted for flat elliptic arcs (C89_flat_violated): SplitArc takes its output weight by value and uses the tangent point as a vector, so the arc cut into two pieces is a broken line that misses the given point."
  },
  {
   "property": "C90",
   "status": "proved",
   "theorems": [
    "LNLib.Props.C90_tessellate"
   ],
   "note": "For all valid clamped curves with separated end knots."
  },
  {
   "property": "C91",
   "status": "partial",
   "theorems": [
    "LNLib.Props.C91_tessellate_partial",
    "LNLib.Props.C91_edges_violated"
   ],
   "note": "C91_tessellate_partial: all samples are exact, every parameter pair is near a sample, and the last corner is sampled. Missing because false: C91_edges_violated proves that of the two boundary lines u = max and v = max only the corner (max, max) is ever sampled, for every valid clamped surface."
  },
  {
   "property": "C92",
   "status": "partial",
   "theorems": [
    "LNLib.Props.C92_tangent_partial",
    "LNLib.Props.C92_small_violated"
   ],
   "note": "C92_tangent_partial: exact projection on the tangent plane whenever the determinant test passes. Missing because false: C92_small_violated, a flat square of side 1/50 has independent tangents and the function answers false (absolute tolerance on a quantity of dimension length^4)."
  },
  {
   "property": "C93",
   "status": "partial",
   "theorems": [
    "LNLib.Props.C93_scaling_partial",
    "LNLib.Props.C93_rational_violated"
   ],
   "note": "C93_scaling_partial: all weights one and the reference point zero or distinguishable from zero. Missing because false: C93_rational_violated, for weights other than one even scaling by (1,1,1) changes the surface."
  },
  {
   "property": "C94",
   "status": "partial",
   "theorems": [
    "LNLib.Props.C94_closed_partial",
    "LNLib.Props.C94_violated"
   ],
   "note": "C94_closed_partial: closed curves are recognised; true implies coincident ends when no inner control point is at the position of the last one. Missing because false: C94_violated, the polyline A B C A B is reported closed."
  },
  {
   "property": "C95",
   "status": "partial",
   "theorems": [
    "LNLib.Props.C95_closed_u_partial",
    "LNLib.Props.C95_closed_v_partial",
    "LNLib.Props.C95_weights_violated"
   ],
   "note": "C95_closed_u_partial, C95_closed_v_partial: recognised when boundary control points agree; true implies agreement up to 2e-6(1+M) for non-rational surfaces without inner coincidences. Missing because false: C95_weights_violated, equal positions with different weights are reported closed."
  },
  {
   "property": "C96",
   "status": "partial",
   "theorems": [
    "LNLib.Props.C96_elevate_u_partial",
    "LNLib.Props.C96_elevate_v_partial",
    "LNLib.Props.C96_repeated_violated",
    "LNLib.Props.C96_rejects"
   ],
   "note": "C96_elevate_u_partial, C96_elevate_v_partial: valid clamped surfaces with simple, clearly separated interior knots in the elevated direction. Missing because false: C96_repeated_violated, every surface with a repeated interior knot gets an unsorted knot vector (trailing zeros of C42)."
  },
  {
   "property": "C97",
   "status": "proved",
   "theorems": [
    "LNLib.Props.C97_refuses_v",
    "LNLib.Props.C97_refuses_u",
    "LNLib.Props.C97_refuses_spans",
    "LNLib.Props.C97_reduce_v",
    "LNLib.Props.C97_reduce_u"
   ],
   "note": "For all Bezier segments in either direction."
  },
  {
   "property": "C98",
   "status": "partial",
   "theorems": [
    "LNLib.Props.C98_elevate_u_partial",
    "LNLib.Props.C98_elevate_v_partial",
    "LNLib.Props.C98_elevate_w_partial",
    "LNLib.Props.C98_rejects",
    "LNLib.Props.C98_repeated_violated"
   ],
   "note": "Proved in each direction for volumes that are clamped in that direction with well-separated simple interior knots (points via the specification for every count; evaluation by the library as long as the new degree is at most seven, its limit). Refuted for repeated interior knots (C98_repeated_violated): trailing zero knots make the result unevaluable."
  },
  {
   "property": "C99",
   "status": "partial",
   "theorems": [
    "LNLib.Props.C99_fill_partial",
    "LNLib.Props.C99_interior_violated",
    "LNLib.Props.C99_rejects"
   ],
   "note": "C99_fill_partial: when each parameter is an end knot of the vector or no knot at all. Missing because false: C99_interior_violated, only the leading (trailing) knots are counted, so a parameter that is an interior knot ends up with too large a multiplicity."
  },
  {
   "property": "C100",
   "status": "proved",
   "theorems": [
    "LNLib.Props.C100_unclamp",
    "LNLib.Props.C100_unclamp_eval",
    "LNLib.Props.C100_unclamp_rational",
    "LNLib.Props.C100_not_clamped"
   ],
   "note": "Exact arithmetic over any ordered field; weights of the result may become zero or negative, the rational statement is equality of the outcomes of evaluation."
  },
  {
   "property": "C101",
   "status": "proved",
   "theorems": [
    "LNLib.Props.C101_sweep",
    "LNLib.Props.C101_sweep_positive",
    "LNLib.Props.C101_small_weights_violated"
   ],
   "note": "C101_small_weights_violated shows that the restriction on the weights is needed: with all weights 1/2000 the product weight is treated as zero and the evaluated surface point is wrong."
  },
  {
   "property": "C102",
   "status": "proved",
   "theorems": [
    "LNLib.Props.C102_isClamp",
    "LNLib.Props.C102_close_knots_violated"
   ],
   "note": "C102_isClamp gives the answer for every valid curve with separated end knots; C102_close_knots_violated shows the separation is needed."
  },
  {
   "property": "C103",
   "status": "partial",
   "theorems": [
    "LNLib.Props.C103_clamped_violated",
    "LNLib.Props.C103_end_violated"
   ],
   "note": "The property is false of the code. C103_clamped_violated: every clamped curve (separated end knots) is rejected with an exception, since zero insertions are requested. C103_end_violated: for an unclamped cubic the last control point is wrong and the end of the curve moves. The closedness repair after the copying loop (lines 3585-3591) is not modelled."
  },
  {
   "property": "C104",
   "status": "proved",
   "theorems": [
    "LNLib.Props.C104_total",
    "LNLib.Props.C104_centripetal"
   ],
   "note": "C104_total and C104_centripetal, for all lists."
  },
  {
   "property": "C105",
   "status": "proved",
   "theorems": [
    "LNLib.Props.C105_mesh",
    "LNLib.Props.C105_reuse_violated"
   ],
   "note": "C105_mesh for every mesh and empty output vectors. C105_reuse_violated: with output vectors that hold an earlier result, every interior parameter is wrong by the old value divided by the number of columns averaged."
  },
  {
   "property": "C106",
   "status": "partial",
   "theorems": [
    "LNLib.Props.C106_tangents_partial",
    "LNLib.Props.C106_too_few",
    "LNLib.Props.C106_straight_violated",
    "LNLib.Props.C106_line_violated"
   ],
   "note": "C106_tangents_partial under the hypothesis that no weight is 0/0; C106_too_few. C106_straight_violated and C106_line_violated: for every list whose first five points are on a line (in particular every straight list) the code divides 0 by 0, so the property is false there."
  },
  {
   "property": "C107",
   "status": "partial",
   "theorems": [
    "LNLib.Props.C107_inner_partial",
    "LNLib.Props.C107_line",
    "LNLib.Props.C107_parabola_violated",
    "LNLib.Props.C107_repeated_violated"
   ],
   "note": "C107_inner_partial gives the exact value: the parabola's derivative plus (difference of the neighbouring parameter steps) times its second coefficient, so the claim holds for equal neighbouring steps or collinear neighbours and fails otherwise (C107_parabola_violated); C107_line proves the straight case at all points. C107_repeated_violated: a repeated interior point gives 0/0."
  },
  {
   "property": "C108",
   "status": "partial",
   "theorems": [
    "LNLib.Props.C108_moves_partial",
    "LNLib.Props.C108_exact_partial",
    "LNLib.Props.C108_end_violated",
    "LNLib.Props.C108_distance_violated"
   ],
   "note": "C108_moves_partial gives the exact displacement the code produces for every curve, index and parameter below the end: d N_k w_k / (w N_(s-p)); C108_exact_partial derives the claimed distance when all weights are equal and the control point is the first acting one. The claim is false of the code otherwise: C108_distance_violated (a straight segment moves by a third of the distance) and C108_end_violated (at the end of the domain the code always divides by zero), because the code uses the first basis function of the span instead of the rational basis function of the moved control point."
  },
  {
   "property": "C109",
   "status": "partial",
   "theorems": [
    "LNLib.Props.C109_moves_partial",
    "LNLib.Props.C109_exact_partial",
    "LNLib.Props.C109_distance_violated",
    "LNLib.Props.C109_end_violated",
    "LNLib.Props.C109_index_rejected"
   ],
   "note": "C109_moves_partial: only the one weight changes, and every curve point moves on the line to the control point, by an explicit part of the distance; C109_exact_partial: exactly the requested distance when all weights are equal and the control point is the first acting one; C109_index_rejected. The distance claim is false of the code otherwise: C109_distance_violated (5/14 instead of 1/2) and C109_end_violated (at the end of the domain the code always divides by zero)."
  },
  {
   "property": "C110",
   "status": "proved",
   "theorems": [
    "LNLib.Props.C110_collinear",
    "LNLib.Props.C110_sound",
    "LNLib.Props.C110_curve"
   ],
   "note": "C110_collinear (completeness), C110_sound (soundness for control points), C110_curve (soundness for the points of the curve, weights at least 2e-6)."
  },
  {
   "property": "C111",
   "status": "partial",
   "theorems": [
    "LNLib.Props.C111_straight_partial",
    "LNLib.Props.C111_turning_violated",
    "LNLib.Props.C111_polyline_violated"
   ],
   "note": "C111_straight_partial: exact for clamped curves with control points in order along a line (uses that such a curve is monotone, proved by knot insertion). False otherwise: C111_turning_violated (a straight curve that turns back gets length 0), C111_polyline_violated (every path with a polyline of degree one that is not straight is rejected). Missing: the numeric quadrature of curved curves is not modelled."
  },
  {
   "property": "C112",
   "status": "partial",
   "theorems": [
    "LNLib.Props.C112_custom_partial",
    "LNLib.Props.C112_default_partial",
    "LNLib.Props.C112_two_sections_violated",
    "LNLib.Props.C112_pole_violated",
    "LNLib.Props.C112_weights_violated",
    "LNLib.Props.C112_knots_violated"
   ],
   "note": "Proved for sections of one degree over one knot vector with column-wise equal weights, default and given parameters, the solver being assumed sound. Refuted otherwise: two sections of degree 2 or more are always rejected; three or more sections with a shared control point give NaN; unequal weights or different knots give a surface that misses sections."
  },
  {
   "property": "C113",
   "status": "partial",
   "theorems": [
    "LNLib.Props.C113_symmetric_partial",
    "LNLib.Props.C113_rectangular_violated",
    "LNLib.Props.C113_swapped_violated"
   ],
   "note": "Proved: for square grids whose parameters agree in the two directions and equal degrees, every returned surface is valid and interpolates all points (C113_symmetric_partial). False in general: the code evaluates the row parameters with column numbers and the column parameters with row numbers. A grid with different numbers of rows and columns (at least three each) is never interpolated because one of the vectors is read beyond its end (C113_rectangular_violated), and for a square grid with different spacings the surface misses the points whatever sound solver is used (C113_swapped_violated). The linear solver (Eigen) is not modelled; it is assumed to return only solutions."
  },
  {
   "property": "C114",
   "status": "partial",
   "theorems": [
    "LNLib.Props.C114_domain_partial",
    "LNLib.Props.C114_segment",
    "LNLib.Props.C114_outside_violated",
    "LNLib.Props.C114_start"
   ],
   "note": "C114_domain_partial: for every valid clamped curve with positive weights the search ends without an error, and the parameter is in the domain or one unclamped Newton step of less than 1e-4 outside it. C114_segment: for segments the returned parameter minimises the distance over the segment, and is in the domain or less than 1e-4 outside it. C114_outside_violated: the claim that the parameter is in the domain is false: the last Newton step is taken before the clamping, so for a point that projects just before the start of a segment a negative parameter is returned, at which the curve cannot be evaluated. Missing: global optimality for general curves (a local method cannot give it). C114_start: the search starts at the parameter of a point of the tessellation polygon that is nearest to the given point, for every polygon whose segments are null or longer than the tolerance."
  },
  {
   "property": "C115",
   "status": "proved",
   "theorems": [
    "LNLib.Props.C115_warp",
    "LNLib.Props.C115_bounded",
    "LNLib.Props.C115_rejects"
   ],
   "note": "Warping modelled over the reals; displacement of every curve point, bound, and rejected arguments."
  },
  {
   "property": "C116",
   "status": "partial",
   "theorems": [
    "LNLib.Props.C116_flatten",
    "LNLib.Props.C116_outside_partial",
    "LNLib.Props.C116_straight_partial",
    "LNLib.Props.C116_answer_violated",
    "LNLib.Props.C116_before_violated"
   ],
   "note": "C116_flatten says which control points move and what the answer counts; refuted: true although no part is straight (C116_answer_violated), and points before the start parameter move (C116_before_violated)."
  },
  {
   "property": "C117",
   "status": "partial",
   "theorems": [
    "LNLib.Props.C117_bend",
    "LNLib.Props.C117_outside_partial",
    "LNLib.Props.C117_rejects",
    "LNLib.Props.C117_before_violated",
    "LNLib.Props.C117_centre_violated"
   ],
   "note": "C117_bend gives the cross ratio law for every selected control point when no denominator is zero; refuted: points before the start parameter move (C117_before_violated), a control point at the centre gives 0/0 (C117_centre_violated)."
  },
  {
   "property": "C118",
   "status": "partial",
   "theorems": [
    "LNLib.Props.C118_displacements",
    "LNLib.Props.C118_constraints_partial",
    "LNLib.Props.C118_rejects",
    "LNLib.Props.C118_all_fixed_ub",
    "LNLib.Props.C118_weights_violated"
   ],
   "note": "C118_displacements (all weights): the displacements satisfy the linear constraints and are the shortest; C118_constraints_partial: the library's derivatives change by exactly the prescribed vectors when all weights are equal; Eigen's inverse is assumed sound (SoundInverse). Refuted: different weights (C118_weights_violated); all acting control points fixed reads an empty matrix (C118_all_fixed_ub)."
  },
  {
   "property": "C119",
   "status": "partial",
   "theorems": [
    "LNLib.Props.C119_complete_partial",
    "LNLib.Props.C119_sound_partial",
    "LNLib.Props.C119_samples_partial",
    "LNLib.Props.C119_sphere_violated"
   ],
   "note": "Proved: an arc of a circle whose three probe points are not collinear is recognised with the exact centre and radius (C119_complete_partial); a reported centre is equidistant from the three probe points and in their plane, and the samples agree with the radius up to the tolerance (C119_sound_partial); if the samples are exactly at one distance from a point then the whole curve is (C119_samples_partial). Refuted: a non-planar curve on a sphere is reported to be an arc, because the plane is not tested (C119_sphere_violated). Missing: a bound between the samples that uses only the tolerance."
  },
  {
   "property": "C120",
   "status": "partial",
   "theorems": [
    "LNLib.Props.C120_formula_partial",
    "LNLib.Props.C120_unconnected_rejected",
    "LNLib.Props.C120_corners_partial",
    "LNLib.Props.C120_side_partial",
    "LNLib.Props.C120_boundary_violated"
   ],
   "note": "Proved: what the function computes, for all connected quadruples within the hypotheses (C120_formula_partial), the corners (C120_corners_partial), the side v = 0 (C120_side_partial), and that unconnected curves are rejected. Refuted: the sides are not the given curves (C120_boundary_violated, with the curves of the library's own test): bottom and top are blended in the order opposite to the one of the subtracted corners. Missing: pairs of curves that need degree elevation and have repeated interior knots."
  },
  {
   "property": "C121",
   "status": "partial",
   "theorems": [
    "LNLib.Props.C121_torsion_partial",
    "LNLib.Props.C121_undefined_nonfinite",
    "LNLib.Props.C121_speed_one_violated"
   ],
   "note": "proved when the speed is not one up to tolerance, or exactly one with C'' orthogonal to C'; refuted where the speed merely happens to be one (a torsion of 1 is reported as 1/2)"
  },
  {
   "property": "C122",
   "status": "proved",
   "theorems": [
    "LNLib.Props.C122_control_points",
    "LNLib.Props.C122_contains_surface",
    "LNLib.Props.C122_principal_axes"
   ],
   "note": "over the reals; the external Eigen::SelfAdjointEigenSolver is a parameter assumed to return orthonormal eigenvectors (such a solver exists: soundEigen_exists); no projection exceeds the largest double"
  },
  {
   "property": "C123",
   "status": "partial",
   "theorems": [
    "LNLib.Props.C123_points_partial",
    "LNLib.Props.C123_polyline",
    "LNLib.Props.C123_s_curve_violated",
    "LNLib.Props.C123_end_missing_violated"
   ],
   "note": "points, order, start, end up to the parameter tolerance and the degree-one case are proved; refuted: an S-shaped cubic is replaced by its chord, and on a narrow domain the end point is missing"
  },
  {
   "property": "C124",
   "status": "partial",
   "theorems": [
    "LNLib.Props.C124_terminates_partial",
    "LNLib.Props.C124_corner_violated"
   ],
   "note": "termination, validity, domain, knot multiset and the final state are proved for every comparison test; refuted: the shape is kept (a corner of any height is flattened)"
  },
  {
   "property": "C125",
   "status": "proved",
   "theorems": [
    "LNLib.Props.C125_continuity"
   ],
   "note": "for every curve whose knots are separated from the parameter by the comparison tolerance and whose weight function does not vanish there"
  },
  {
   "property": "C126",
   "status": "partial",
   "theorems": [
    "LNLib.Props.C126_clamped",
    "LNLib.Props.C126_wrapped_partial",
    "LNLib.Props.C126_weights_violated",
    "LNLib.Props.C126_segment_violated"
   ],
   "note": "Proved: false for clamped curves; for an unclamped curve with equally spaced knots and wrapped control points (with their weights) the answer is true, start and end point coincide and all rational derivatives up to order degree - 1 agree. Refuted: the control points are compared after projection, so different weights give true for an open curve; and otherwise the curve is compared at the first and last knot, outside the domain, so a straight segment is reported periodic."
  },
  {
   "property": "C127",
   "status": "partial",
   "theorems": [
    "LNLib.Props.C127_no_length",
    "LNLib.Props.C127_periodic",
    "LNLib.Props.C127_natural_end_partial",
    "LNLib.Props.C127_natural_start_partial",
    "LNLib.Props.C127_equation_end_partial",
    "LNLib.Props.C127_equation_start_partial",
    "LNLib.Props.C127_tangent_end_partial",
    "LNLib.Props.C127_tangent_start_partial",
    "LNLib.Props.C127_tangent_rejected",
    "LNLib.Props.C127_natural_rational_violated",
    "LNLib.Props.C127_natural_length_violated",
    "LNLib.Props.C127_tangent_violated",
    "LNLib.Props.C127_polygon_length_partial"
   ],
   "note": "Proved: unchanged for non-positive length and periodic curves; natural extension at either end keeps all points of the curve and continues it by the Taylor polynomial of the rational curve, which for constant weights is exactly the last (first) polynomial piece continued beyond the domain; for degree one the Newton iteration reaches the requested length up to 2/1000000 for every speed of the last edge that is not tiny; tangent extension at either end has the given curve as one half and the segment along the unit tangent as the other. Refuted: for a rational curve the natural extension is a polynomial and leaves the curve (quarter circle); a curve that stands still at its end gains no length; a tangent extension shorter than the coordinate tolerance throws. Not proved: that the Newton iteration reaches the requested length for higher degrees; the arc extension is modelled, without theorem."
  },
  {
   "property": "C128",
   "status": "partial",
   "theorems": [
    "LNLib.Props.C128_remove_v_partial",
    "LNLib.Props.C128_refused_v_violated",
    "LNLib.Props.C128_remove_u_partial",
    "LNLib.Props.C128_refused_u_violated",
    "LNLib.Props.C128_undo_v_partial",
    "LNLib.Props.C128_undo_u_partial",
    "LNLib.Props.C128_rejects",
    "LNLib.Props.C128_undo_library_v_partial",
    "LNLib.Props.C128_undo_library_u_partial",
    "LNLib.Props.C128_library_violated"
   ],
   "note": "Proved for one removal, both directions: if the removal is accepted for every fibre the result is a valid surface, its knots are the old ones less one copy, the other direction is untouched and every fibre is the result of the curve removal; removing the knot after one insertion that raised the multiplicity to the degree gives back the original surface exactly, also with the library's tolerance; wrong arguments are rejected. Refuted: the answer of the curve function is ignored; a refused row comes back empty, a refused first column gives a surface without control points (concrete surface with the library's tolerance). Missing: several removals in one call, and the size of the change of the surface when a removal is accepted within the tolerance."
  },
  {
   "property": "C129",
   "status": "partial",
   "theorems": [
    "LNLib.Props.C129_normals",
    "LNLib.Props.C129_stuck_violated",
    "LNLib.Props.C129_closed_violated",
    "LNLib.Props.C129_straight_partial",
    "LNLib.Props.C129_closed_ub_violated",
    "LNLib.Props.C129_open_partial",
    "LNLib.Props.C129_concrete"
   ],
   "note": "Proved: for every sequence of angles, whatever the function returns consists of unit vectors orthogonal to non-zero first derivatives, one per knot; open clamped curves with non-vanishing weight function either get such vectors or the loop goes on; straight open curves get them at the first attempt. Refuted: on a closed curve nothing is ever returned, Baver is written one past its end; when the curve starts in a direction parallel to (1,-1,1), or stands still at a later knot, the loop never ends, for every sequence of angles (concrete segments). Missing: termination for general regular open curves."
  },
  {
   "property": "C130",
   "status": "partial",
   "theorems": [
    "LNLib.Props.C130_patches_partial",
    "LNLib.Props.C130_concrete",
    "LNLib.Props.C130_unclamped_violated",
    "LNLib.Props.C130_torn_violated"
   ],
   "note": "Proved for clamped surfaces with well separated knots and interior multiplicities up to the degree (the curve version C40 needs less than the degree). Refuted by concrete surfaces without these conditions: unclamped ends and an interior knot of multiplicity degree + 1 are both undefined behaviour although the surface can be evaluated."
  },
  {
   "property": "C131",
   "status": "partial",
   "theorems": [
    "LNLib.Props.C131_interpolates_partial",
    "LNLib.Props.C131_high_degree_partial",
    "LNLib.Props.C131_cubic_four_partial",
    "LNLib.Props.C131_quadratic_violated",
    "LNLib.Props.C131_linear_violated",
    "LNLib.Props.C131_cubic_violated",
    "LNLib.Props.C131_rejects"
   ],
   "note": "Proved for degree at least four, and for degree three with four points: every curve returned is valid and meets all points and tangents (the solver, Eigen, is assumed to return only solutions; the end spans must exceed the tolerance). Refuted for degrees one and two: for all points, tangents and solvers the last knot span is empty, a basis function divides zero by zero and nothing is returned. Refuted for degree three with five points of a line: the second inner knot is overwritten by the loop, the system has no solution. The documented rejections are proved for all arguments."
  },
  {
   "property": "C132",
   "status": "partial",
   "theorems": [
    "LNLib.Props.C132_minimises_partial",
    "LNLib.Props.C132_answers_partial",
    "LNLib.Props.C132_two_control_points_violated",
    "LNLib.Props.C132_too_many_violated",
    "LNLib.Props.C132_chord_partial",
    "LNLib.Props.C132_rejects"
   ],
   "note": "Proved for degrees 1 to 7, at least three and at most m+p+1 control points for m+1 data points: validity, end points, optimality, and that no array is left. Assumed: the band solver (Eigen) returns only solutions; parameters and knots are not confused by the tolerances and no basis function takes a non-zero value of at most 2e-6 at a parameter (OneBasisFunction takes those for zero). Refuted: with two control points the function always writes to an empty array (C132_two_control_points_violated); with more than m+p+1 it always reads before the first parameter (C132_too_many_violated)."
  },
  {
   "property": "C133",
   "status": "partial",
   "theorems": [
    "LNLib.Props.C133_concrete",
    "LNLib.Props.C133_congruent_partial",
    "LNLib.Props.C133_first_section_partial",
    "LNLib.Props.C133_closed_violated",
    "LNLib.Props.C133_normal_plane_violated",
    "LNLib.Props.C133_trajectory_partial",
    "LNLib.Props.C133_sections_partial"
   ],
   "note": "Proved for every run that returns a surface: validity, one section at each Greville abscissa of the refined trajectory, the frame of each section, congruence of each section whose x axis is not parallel to the tangent, congruence and normality of the first section, the refinement keeps the trajectory. Assumed: weights of the profile at least 2e-6, at least three sections and at least degree + 1, a sound solver, clear ends of the v knots. Refuted: later sections are not normal to the trajectory, since the x axis is the one computed for the last knot, not for the section (C133_normal_plane_violated, C133_concrete); a closed trajectory is never swept (C133_closed_violated)."
  },
  {
   "property": "C134",
   "status": "partial",
   "theorems": [
    "LNLib.Props.C134_scale_violated",
    "LNLib.Props.C134_placed_partial",
    "LNLib.Props.C134_profile_violated",
    "LNLib.Props.C134_zero_scale_violated",
    "LNLib.Props.C134_concrete"
   ],
   "note": "Proved for every run that returns a surface: validity, and the exact edge curves (for a trajectory of one Bezier segment every placed position): the profile without its weights in the frame z x x, x, z at the trajectory point moved by (0, 0, 1). Assumed: sound solver, clear ends of the averaged knots. Refuted: the factor has no effect, since it also multiplies the weights (C134_scale_violated); the factor 0 never gives a surface (C134_zero_scale_violated); the origin is one above the trajectory and the weights of the profile are lost (C134_profile_violated, C134_concrete). Not covered: inner positions of trajectories with inner knots, where the code combines control points with knots they do not belong to."
  },
  {
   "property": "C135",
   "status": "partial",
   "theorems": [
    "LNLib.Props.C135_curve_partial",
    "LNLib.Props.C135_equal_chords_partial",
    "LNLib.Props.C135_empty",
    "LNLib.Props.C135_too_few",
    "LNLib.Props.C135_single_violated",
    "LNLib.Props.C135_straight_violated",
    "LNLib.Props.C135_misses_violated"
   ],
   "note": "Proved for 5 to 166667 points, consecutive ones apart, with no division by zero in the tangent formula (C106): a valid clamped curve on [0, 1] that starts and ends at the end points with their tangents' directions; at (3k - 1)/(3m - 2) it has the direction of the tangent of point k and is off the point by exactly (h_k - h_{k-1})/18 times that tangent. So with equal chords all points are met, in order. Two to four points: false; no points: invalid argument. Refuted: with unequal chords a point is missed at every parameter (C135_misses_violated), since the inner knots are simple and uniform; a straight stretch gives NaN (C135_straight_violated); one point gives a curve that Check rejects (C135_single_violated)."
  },
  {
   "property": "C136",
   "status": "partial",
   "theorems": [
    "LNLib.Props.C136_shape_partial",
    "LNLib.Props.C136_unequal_violated",
    "LNLib.Props.C136_square_partial",
    "LNLib.Props.C136_rejects",
    "LNLib.Props.C136_empty",
    "LNLib.Props.C136_chord_unequal_violated",
    "LNLib.Props.C136_chord_square_partial",
    "LNLib.Props.C136_exchanged_violated"
   ],
   "note": "Proved for every run that returns true, whatever the linear solver does, for rising parameters and in particular the chord parameters: degrees, size of the net, unit weights, corner control points, clamped sorted knots, first and last row of control points are those of the least squares curves of the outer data rows (C136_shape_partial). With as many rows as columns the surface is valid and meets the four corners; its sides u = 0 and u = 1 are those curves if the knot vectors agree (C136_square_partial). Refuted: the knot vector of U has the length for the columns and that of V for the rows, so with different numbers Check always rejects the surface and evaluating at (1, 1) reads out of bounds (C136_unequal_violated); even with equal numbers the degrees and knots of the two directions are exchanged, and data points that the curve of their row meets are not on the surface (C136_exchanged_violated)."
  },
  {
   "property": "C137",
   "status": "partial",
   "theorems": [
    "LNLib.Props.C137_inner_violated",
    "LNLib.Props.C137_square_partial",
    "LNLib.Props.C137_nonsquare_violated",
    "LNLib.Props.C137_rejects",
    "LNLib.Props.C137_library_partial",
    "LNLib.Props.C137_library_violated",
    "LNLib.Props.C137_library_nonsquare_violated",
    "LNLib.Props.C137_small_violated"
   ],
   "note": "Proved: on every square grid of at least 4 x 4 points whose lines have tangents (in particular, with the library's tangents, all grids with steps of comparable length) the call returns a valid bicubic surface with weights 1, clamped knots whose inner values are the shares of the step lengths, and it meets the four corners (C137_square_partial, C137_library_partial); empty and ragged grids are rejected (C137_rejects). Refuted: the control points kept are exactly the data points, so an inner point off the plane of the others is never on the surface (C137_inner_violated, C137_library_violated); for different numbers of rows and columns no surface is ever returned, the parameters are read out of bounds (C137_nonsquare_violated, C137_library_nonsquare_violated); for 3 x 3 points the result has too few control points, passes Check and cannot be evaluated (C137_small_violated)."
  },
  {
   "property": "C138",
   "status": "partial",
   "theorems": [
    "LNLib.Props.C138_weight_partial",
    "LNLib.Props.C138_isosceles_partial",
    "LNLib.Props.C138_circle_partial",
    "LNLib.Props.C138_line",
    "LNLib.Props.C138_tiny_violated",
    "LNLib.Props.C138_thin_violated"
   ],
   "note": "Proved: for triangles that are not thin (twice the area against the sum of the squared sides) the closed form of the weight and its sign (C138_weight_partial), for equal legs the cosine, equal to the closed form, between 0 and 1, and that the curve with this weight is an arc of a circle that touches both legs (C138_isosceles_partial, C138_circle_partial); weight 1 on a line (C138_line). Refuted: for tiny triangles the legs count as equal and the weight is a negative cosine (C138_tiny_violated); for thin triangles the intersection is refused and no weight is found (C138_thin_violated). Missing: the exact limits of the tolerances between these cases."
  },
  {
   "property": "C139",
   "status": "partial",
   "theorems": [
    "LNLib.Props.C139_shape",
    "LNLib.Props.C139_single_partial",
    "LNLib.Props.C139_half_circle_partial",
    "LNLib.Props.C139_ignored_violated"
   ],
   "note": "Proved: whatever the tangents, a result has one of three forms: the middle of the chord, the point in which the tangent lines meet ahead of the start and behind the end, or three control points R1, Q, R2 with R1 ahead of the start on its tangent, R2 behind the end on its tangent and Q of weight 1 between them, so that the arcs join smoothly (C139_shape); tangent lines that meet properly give that one control point with the weight of C138 (C139_single_partial); opposite unit tangents perpendicular to the chord give the control points of a half circle (C139_half_circle_partial). Refuted: an end tangent along the chord makes the function answer the straight segment whatever the start tangent (C139_ignored_violated). Missing: when exactly the weights of the three point form exist."
  },
  {
   "property": "C140",
   "status": "partial",
   "theorems": [
    "LNLib.Props.C140_weight_violated",
    "LNLib.Props.C140_divides_violated",
    "LNLib.Props.C140_rejects",
    "LNLib.Props.C140_pair_partial"
   ],
   "note": "Proved: wrong arguments are rejected (C140_rejects); neighbouring points are joined as in C139 (C140_pair_partial). Refuted: the weight is computed from the chord and the line from the tangents' meeting point instead of the tangents, so with an inner point in regular position the computation divides by zero (C140_divides_violated, instantiated with three points of a quarter circle), and for points in a plane no weight other than 0 is ever found (C140_weight_violated). In floating point the division is by a number of the order of the rounding error. Missing: points that are not exactly in a plane."
  },
  {
   "property": "C141",
   "status": "partial",
   "theorems": [
    "LNLib.Props.C141_last_step",
    "LNLib.Props.C141_linear",
    "LNLib.Props.C141_cycle_violated",
    "LNLib.Props.C141_flat_violated",
    "LNLib.Props.C141_wrong_root_violated"
   ],
   "note": "Proved: if the search stops, the answer was reached by a Newton step of at most 0.000003 (C141_last_step); linear equations are solved exactly (C141_linear). Refuted: on an equation with a root the search goes on forever in a cycle (C141_cycle_violated, for every number of rounds); it divides by zero where the slope vanishes at the start (C141_flat_violated); on 2x³-3x²+d=0 with d from 0.01 to 1, the equation of FitWithCubic, it stops at a value above 1 although a root is between 0 and 1 (C141_wrong_root_violated). Missing: a bound of the distance to a root, which does not exist in general (double roots)."
  },
  {
   "property": "C142",
   "status": "partial",
   "theorems": [
    "LNLib.Props.C142_chord_violated",
    "LNLib.Props.C142_line_test_violated",
    "LNLib.Props.C142_plane_violated",
    "LNLib.Props.C142_line_partial",
    "LNLib.Props.C142_rejects",
    "LNLib.Props.C142_pair_partial"
   ],
   "note": "Proved: wrong arguments are rejected (C142_rejects); neighbouring points get two control points on the tangents (C142_pair_partial); points on a ray from the first point get the chord in thirds (C142_line_partial). Refuted: when the end tangent is out of the plane of the chord and the start tangent, every sequence of points is accepted with every error bound and the answer is the chord (C142_chord_violated: the line along the start tangent is always parallel to a plane that contains it); when the run does not begin at the first point the test for a line sees the wrong indices and accepts the chord (C142_line_test_violated); in the plane the parameters are all zero and the computation is 0/0, in C++ the answer false (C142_plane_violated). Missing: the mixed case, inner points in the plane after others out of it, and later inner points of runs that start beyond the first point."
  },
  {
   "property": "C143",
   "status": "partial",
   "theorems": [
    "LNLib.Props.C143_moves_partial",
    "LNLib.Props.C143_beyond_violated",
    "LNLib.Props.C143_last_violated",
    "LNLib.Props.C143_rejects",
    "LNLib.Props.C143_scale_violated"
   ],
   "note": "Proved: the exact movement, for positive shares, a leg not parallel to the line and a target neither behind the point without the leg nor on the leg (C143_moves_partial); rejection of indices out of range, zero distance and zero scale (C143_rejects). Refuted: a larger negative distance moves the point to the mirror image of the target (C143_beyond_violated); the last index is accepted and reads behind the control points (C143_last_violated); the scale has no effect (C143_scale_violated)."
  },
  {
   "property": "C144",
   "status": "partial",
   "theorems": [
    "LNLib.Props.C144_bound_partial",
    "LNLib.Props.C144_zero_iff_partial",
    "LNLib.Props.C144_start_violated",
    "LNLib.Props.C144_rejects"
   ],
   "note": "Proved, at the last occurrence of an interior knot of multiplicity at most the degree that is apart from the other knots: a curve without the knot exists within the bound (C144_bound_partial); zero exactly for inserted knots (C144_zero_iff_partial); indices outside the knot vector are rejected (C144_rejects). Refuted: indices up to the degree are accepted and read in front of the control points (C144_start_violated)."
  },
  {
   "property": "C145",
   "status": "partial",
   "theorems": [
    "LNLib.Props.C145_sound",
    "LNLib.Props.C145_too_long",
    "LNLib.Props.C145_returns_partial",
    "LNLib.Props.C145_segment",
    "LNLib.Props.C145_params",
    "LNLib.Props.C145_params_violated",
    "LNLib.Props.C145_segment_violated"
   ],
   "note": "Proved for every measure of length: a returned parameter is in the domain and has the wanted length up to 1e-4, or is the end of a curve that is too short, or starts a bracket of width 2e-6 in which the length is passed (C145_sound, C145_too_long); the search ends if the measured length in front of t is a monotone Lipschitz function of t (C145_returns_partial), in particular on every segment (C145_segment); the parameters of GetParamsOnCurve are linked by these searches (C145_params). Refuted: GetParamsOnCurve loops for ever for negative lengths and for the length zero on long curves (C145_params_violated, C145_segment_violated). Missing: that measured lengths are monotone and Lipschitz for curved curves (the quadrature is not modelled)."
  },
  {
   "property": "C146",
   "status": "partial",
   "theorems": [
    "LNLib.Props.C146_smooth_partial",
    "LNLib.Props.C146_corner",
    "LNLib.Props.C146_ends",
    "LNLib.Props.C146_parabola_violated"
   ],
   "note": "Proved: where two straight pieces meet the answer is right (C146_corner); true where the derivative varies by at most 1e-6 over the neighbourhood of width 1e-8 (C146_smooth_partial), by the mean value theorem; true at the ends (C146_ends). Refuted: false at the apex of the parabola y = 100 (x - 1/2)^2, a smooth curve (C146_parabola_violated)."
  },
  {
   "property": "C147",
   "status": "partial",
   "theorems": [
    "LNLib.Props.C147_points",
    "LNLib.Props.C147_zero",
    "LNLib.Props.C147_polyline_violated",
    "LNLib.Props.C147_samples"
   ],
   "note": "Proved: whenever the method of Tiller and Hanson returns a curve, degree and knots are kept, all weights are 1 (those of a rational curve are dropped) and every control point is the given one moved by the offset along the normal at its nearest parameter, or takes the place of its coinciding neighbours (C147_points); a zero offset returns the curve (C147_zero). Refuted: no line and no polyline can be offset by either method: the normal divides by the length of a vanishing second derivative (C147_polyline_violated). The method of Piegl and Tiller interpolates the points at equal steps, each moved by the offset along the normal (C147_samples). Missing: the distance of the offset curve between the control points, and what the interpolation of Piegl and Tiller returns."
  },
  {
   "property": "C148",
   "status": "proved",
   "theorems": [
    "LNLib.Props.C148_adds",
    "LNLib.Props.C148_first_order",
    "LNLib.Props.C148_true_derivative",
    "LNLib.Props.C148_zero_weight"
   ],
   "note": "The B-spline routine adds the derivatives to whatever the array held (C148_adds): a caller who does not clear it gets a wrong sum, as the example shows. C148_first_order equates the rational routine with the general one, C148_true_derivative with the partial derivatives, C148_zero_weight covers the vanishing weight."
  },
  {
   "property": "C149",
   "status": "partial",
   "theorems": [
    "LNLib.Props.C149_start",
    "LNLib.Props.C149_domain_partial",
    "LNLib.Props.C149_linear_violated",
    "LNLib.Props.C149_plane",
    "LNLib.Props.C149_nearest_violated"
   ],
   "note": "Proved: for degrees at least two the search always ends with a pair of parameters of the domain, or with one that a last Newton step of at most 1e-6 carried outside (C149_domain_partial); on every parallelogram the foot of the perpendicular is found if it is inside (C149_plane). Refuted: on every surface of degree one in a direction, so on bilinear patches, cylinders and ruled surfaces, the search throws whatever the point, because it asks for second derivatives (C149_linear_violated); on a sheared square the returned corner is not the nearest point, because the iterates are clamped in each parameter separately (C149_nearest_violated). C149_start: the search starts at the parameter of a point of the tessellation polygon that is nearest to the given point, for every polygon whose segments are null or longer than the tolerance."
  },
  {
   "property": "C150",
   "status": "partial",
   "theorems": [
    "LNLib.Props.C150_distinct_partial",
    "LNLib.Props.C150_linear_violated",
    "LNLib.Props.C150_all_violated"
   ],
   "note": "Proved: for degrees at least two and a surface not closed in U, the result is never empty, no two results coincide up to the tolerance and each is in the domain or one last Newton step of at most 1e-6 from it (C150_distinct_partial). Refuted: that all parameters are found: a strip of degree two passes through a point at two corners of its parameter domain and one pair is returned only, because the search looks at inner samples and at the last corner (C150_all_violated); on every surface of degree one in a direction the search throws (C150_linear_violated). Missing: surfaces closed in U."
  },
  {
   "property": "C151",
   "status": "partial",
   "theorems": [
    "LNLib.Props.C151_closed_u_partial",
    "LNLib.Props.C151_closed_v_partial",
    "LNLib.Props.C151_closed_w_partial",
    "LNLib.Props.C151_overlap_violated"
   ],
   "note": "Proved for each direction: the query always answers; if the first and last layers of control points agree the answer is true and the faces agree; for non-rational volumes without an inner control point at the position of the last one of its curve, true means that the faces agree up to 2e-6(1+M) (C151_closed_u_partial, _v_partial, _w_partial). Refuted without the last assumption: a clamped volume whose curves are the polyline A B C A B is reported closed though its faces are different (C151_overlap_violated). Missing: rational volumes."
  },
  {
   "property": "C152",
   "status": "partial",
   "theorems": [
    "LNLib.Props.C152_param_violated",
    "LNLib.Props.C152_check_violated"
   ],
   "note": "Refuted for every valid clamped volume: GetParamOnVolume never returns parameters computed from the volume (it divides by zero, reads past an array or throws, C152_param_violated), and Check divides by zero or reads past an array at its first sample (C152_check_violated); in the program the quotient is not a number, the comparison with zero is false, and Check accepts every volume. The cause is the defect of the volume derivatives (C51)."
  },
  {
   "property": "C153",
   "status": "partial",
   "theorems": [
    "LNLib.Props.C153_distinct_partial",
    "LNLib.Props.C153_spurious_violated",
    "LNLib.Props.C153_centre",
    "LNLib.Props.C153_all_violated",
    "LNLib.Props.C153_closed_distinct_partial"
   ],
   "note": "Proved for every open curve with positive weights: the search ends without an error, the list is not empty, its parameters differ pairwise by more than the tolerance and each is in the domain up to a last Newton step of about 1e-6 (C153_distinct_partial); the centre of a closed curve recognised as a circle is rejected (C153_centre). Refuted: for points that are not on the curve a parameter is returned all the same (C153_spurious_violated), and a loop through a point between two samples is found once instead of twice (C153_all_violated). On a closed curve the returned parameters differ pairwise by more than the tolerance also across the seam (C153_closed_distinct_partial). Missing: that the search returns on closed curves, whose parameters are brought back into the domain up to a tolerance only."
  },
  {
   "property": "C154",
   "status": "partial",
   "theorems": [
    "LNLib.Props.C154_domain_violated",
    "LNLib.Props.C154_linear_violated",
    "LNLib.Props.C154_foot_violated",
    "LNLib.Props.C154_flat_violated",
    "LNLib.Props.C154_plane_violated",
    "LNLib.Props.C154_degenerate_violated"
   ],
   "note": "Refuted for whole classes of surfaces: domains that do not contain half of their own length in the first direction (exception for every point, C154_domain_violated); degree one in a direction (exception, C154_linear_violated); surfaces without curvature at the start, in particular every plane patch (division by zero for every point, C154_flat_violated, C154_plane_violated); every surface and point for which the search starts at a foot point (0/0, C154_foot_violated). On every patch flattened to a line the search returns the pair 1e-6, 1e-6 for every point (C154_degenerate_violated). Missing: convergence on the remaining surfaces."
  },
  {
   "property": "C155",
   "status": "partial",
   "theorems": [
    "LNLib.Props.C155_removals_partial",
    "LNLib.Props.C155_single_violated",
    "LNLib.Props.C155_rounds",
    "LNLib.Props.C155_shape_violated"
   ],
   "note": "Proved: whenever the call returns, the result comes from the curve given by successful removals of one copy of a knot each, and no reported error exceeds the bound (C155_removals_partial); the loop needs at most (number of knots + 1)^2 rounds (C155_rounds). Refuted: the last removable knot is never removed, so a curve with one interior knot comes back unchanged for every bound (C155_single_violated); on a straight line with two redundant knots the result is away from the curve by 7/12 with bound 1/100 and reported error 0 (C155_shape_violated)."
  },
  {
   "property": "C156",
   "status": "partial",
   "theorems": [
    "LNLib.Props.C156_linear_violated",
    "LNLib.Props.C156_shape_violated",
    "LNLib.Props.C156_removals_partial"
   ],
   "note": "Proved: whenever the approximation of degree 2 to 7 returns, for all points with separated chord length parameters, the result comes from the polyline through the points raised to the degree by successful removals of one copy of a knot each, and at least one interior knot is left whatever the bound (C156_removals_partial). Refuted: degree one never succeeds (C156_linear_violated); for four equally spaced points on a line and the bound 1/100 the curve misses the second point by 1/4 (C156_shape_violated, in rational arithmetic with the parameters and distances of the library for these points). Missing: that the call always returns."
  },
  {
   "property": "C157",
   "status": "partial",
   "theorems": [
    "LNLib.Props.C157_sum_partial",
    "LNLib.Props.C157_curve_partial",
    "LNLib.Props.C157_few_violated",
    "LNLib.Props.C157_rectangular_violated"
   ],
   "note": "Proved: the combination of any three surfaces over the unit square (two lofts, interpolation) always returns, and its homogeneous point is the sum of the lofts minus the interpolation (C157_sum_partial); where one loft agrees with the interpolation the other loft, and so the curve it contains, is reproduced (C157_curve_partial). Refuted: networks with no more curves in one direction than their degree are always rejected (C157_few_violated); networks of k by l curves, both at least three and different, are never made (C157_rectangular_violated). Missing: that loft and interpolation agree for square networks (they use different parameters); surfaces that need degree elevation with repeated knots."
  },
  {
   "property": "C158",
   "status": "partial",
   "theorems": [
    "LNLib.Props.C158_sections_partial",
    "LNLib.Props.C158_end_violated",
    "LNLib.Props.C158_rejects",
    "LNLib.Props.C158_concrete"
   ],
   "note": "Proved: whenever a surface is returned it is the loft through the profile placed at the start, at the parameters that GetParamsOnCurve finds for the step, and at the start again for every section without a parameter (C158_sections_partial); fewer than two sections are never made (C158_rejects). Refuted: no section ever stands at the end of the trajectory, not even up to the tolerance of the comparison (C158_end_violated); in a concrete sweep with three sections the last one stands at the start again (C158_concrete). Missing: for which trajectories and lengths a surface is returned."
  },
  {
   "property": "C159",
   "status": "partial",
   "theorems": [
    "LNLib.Props.C159_sublength_violated",
    "LNLib.Props.C159_tail_partial",
    "LNLib.Props.C159_rejects"
   ],
   "note": "Proved: on every segment, for a range up to the end, the length is right (C159_tail_partial); ranges outside of the knots and empty ranges are rejected for every curve (C159_rejects). Refuted: on every segment, for every range that ends before the end (and starts behind the start, both by more than the tolerance), the length returned is that from the start of the range to the end of the whole segment (C159_sublength_violated). Missing: curves that are not straight, whose integration is not modelled."
  },
  {
   "property": "C160",
   "status": "proved",
   "theorems": [
    "LNLib.Props.C160_product",
    "LNLib.Props.C160_sides",
    "LNLib.Props.C160_assoc",
    "LNLib.Props.C160_empty",
    "LNLib.Props.C160_weights",
    "LNLib.Props.C160_weights_back"
   ],
   "note": "C160_product: the entries of both products. C160_sides, C160_assoc: the two rules. C160_empty: an empty matrix on either side reads out of bounds. C160_weights: ToXYZ undoes ToXYZW for all nets; C160_weights_back: ToXYZW undoes ToXYZ exactly for the nets with all weights one."
  },
  {
   "property": "C161",
   "status": "partial",
   "theorems": [
    "LNLib.Props.C161_knots_violated",
    "LNLib.Props.C161_corner_violated",
    "LNLib.Props.C161_sample"
   ],
   "note": "Both halves fail. C161_knots_violated: the degrees are set, the knots never are, so a surface passed without knots never passes Check. C161_corner_violated: for every arc that starts on the sphere away from the origin the corner of the net over its start is another point, whatever inverse routine is used as long as it inverts. C161_sample: a concrete arc with all hypotheses."
  },
  {
   "property": "C162",
   "status": "partial",
   "theorems": [
    "LNLib.Props.C162_zero",
    "LNLib.Props.C162_unit",
    "LNLib.Props.C162_unit_violated",
    "LNLib.Props.C162_normalize",
    "LNLib.Props.C162_distance",
    "LNLib.Props.C162_almost",
    "LNLib.Props.C162_angles"
   ],
   "note": "Everything but the completeness of IsUnit is proved: C162_zero, C162_unit (soundness, with the square of the tolerance), C162_normalize, C162_distance, C162_almost (also: not transitive), C162_angles. C162_unit_violated: for every tolerance below 1 there are vectors within the tolerance of length 1 that IsUnit rejects, namely all that are off by at least the square of the tolerance, since the squared tolerance is compared with the error of the squared length."
  },
  {
   "property": "C163",
   "status": "partial",
   "theorems": [
    "LNLib.Props.C163_size_partial",
    "LNLib.Props.C163_side",
    "LNLib.Props.C163_linear_violated",
    "LNLib.Props.C163_plane",
    "LNLib.Props.C163_sign_violated"
   ],
   "note": "C163_plane: over every parallelogram (degree two) the value at height h is h, on both sides, from 2e-6 on. C163_side: for every surface the sign is decided by the normal at the parameters found. C163_size_partial: for every surface the size of a returned value is the distance from the point of the surface at the parameters found; that this is not always the nearest point is C149_nearest_violated. C163_linear_violated: on every surface of degree one in a direction an exception is thrown for every point. C163_sign_violated: at most 1e-6 below every parallelogram the value is positive, since the sign test uses the tolerance."
  },
  {
   "property": "C164",
   "status": "partial",
   "theorems": [
    "LNLib.Props.C164_vertices_partial",
    "LNLib.Props.C164_linear_violated",
    "LNLib.Props.C164_edges_violated",
    "LNLib.Props.C164_range_violated"
   ],
   "note": "C164_vertices_partial: for every surface and all random numbers of the half-open unit interval the vertices are points of the surface at parameters strictly below the far ends of the domain, and the lower corner of every cell is a vertex. C164_edges_violated: for every parallelogram of degree two and all resolutions from two on, the mesh has exactly four vertices per cell and none on the two far edges. C164_linear_violated: on every surface of degree one in a direction an exception is thrown. C164_range_violated: the range the density is scaled with is not the range of the curvatures, because rows are compared lexicographically. Missing: the planar triangulation (Algorithm/Voronoi.cpp), which is a parameter of the model."
  },
  {
   "property": "C165",
   "status": "partial",
   "theorems": [
    "LNLib.Props.C165_return",
    "LNLib.Props.C165_chain",
    "LNLib.Props.C165_caller",
    "LNLib.Props.C165_earlier_violated",
    "LNLib.Props.C165_replaced_violated",
    "LNLib.Props.C165_dangling_violated",
    "LNLib.Props.C165_threads",
    "LNLib.Props.C165_history_violated",
    "LNLib.Props.C165_split_violated",
    "LNLib.Props.C165_decompose_violated",
    "LNLib.Props.C165_surface_return",
    "LNLib.Props.C165_surface_replaced_violated"
   ],
   "note": "C165_return, C165_surface_return: what has just been returned stands for what the library made, whatever the buffers held. C165_chain: any list of functions, each on the result of the one before, gives what the library gives. C165_caller: handles to memory of the caller never change. C165_threads: after any interleaving of other threads a handle is intact. C165_history_violated: after any history, an earlier handle of the same thread stands for the latest curve of that thread (same sizes). C165_earlier_violated, C165_replaced_violated, C165_dangling_violated, C165_surface_replaced_violated: after the next curve or surface has been returned in the same thread an earlier handle stands for the new one or reading it is undefined, unless the new one begins with the same data. C165_split_violated: for every curve that can be split the left part is lost. C165_decompose_violated: all handles of a decomposition stand for the same piece. Missing: the other structures of the interface (meshes, flat arrays of points)."
  },
  {
   "property": "C166",
   "status": "partial",
   "theorems": [
    "LNLib.Props.C166_read",
    "LNLib.Props.C166_horner",
    "LNLib.Props.C166_bezier_to_power",
    "LNLib.Props.C166_power_to_bezier_violated",
    "LNLib.Props.C166_power_stale_violated"
   ],
   "note": "C166_read: every table written row by row is read back. C166_horner: values of polynomials in two variables are those of the library. C166_bezier_to_power: for every degree the matrix arrives with its sizes. C166_power_to_bezier_violated: for every degree from one on the matrix from power to Bézier form does not arrive; the function reads behind its own output argument, whatever that points at. C166_power_stale_violated: if the caller has a whole table there, that table comes back instead. Missing: the other functions with arrays."
  },
  {
   "property": "C167",
   "status": "partial",
   "theorems": [
    "LNLib.Props.C167_equations",
    "LNLib.Props.C167_minimises_violated",
    "LNLib.Props.C167_unit_partial",
    "LNLib.Props.C167_exact",
    "LNLib.Props.C167_same_point_violated"
   ],
   "note": "C167_equations: with positive weights and no tangents the curve returned satisfies the equations of the weighted approximation of the points multiplied by their weights, since the right-hand side takes each weight twice. C167_minimises_violated: hence, unless the sum of w(w-1)Q over the points vanishes, moving the whole curve makes the weighted sum of squares smaller; with all weights two, points of a line give the line twice as far from the origin (example). C167_unit_partial: with all weights one the curve does minimise. C167_exact: whatever the weights and tangents, the curve passes through every point with a negative weight. C167_same_point_violated: two tangents at one point are never accepted, whatever the solver, since the loop takes one tangent per point. The linear solver is a parameter. Missing: the derivative at tangents with negative weights, which are modelled."
  }
 ]
}