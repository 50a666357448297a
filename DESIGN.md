# Formal model of LNLib in Lean 4 — design

## 1. What is trusted

* Lean 4.33.0's kernel, and Mathlib as a library of kernel-checked facts.
* Axioms: every theorem depends at most on `propext`, `Classical.choice`, `Quot.sound`
  (the standard Lean axioms; `vcheck` audits this). No axiom is added, there is no `sorry`,
  `native_decide` or `bv_decide`.
* The transcription from C++ to Lean, done by hand, function by function; each definition cites
  the file and lines it models. What the transcription abstracts is listed in section 2.

## 2. Modelling decisions

* **Numbers.** `double` is replaced by an arbitrary linearly ordered field `K`
  (`[Field K] [LinearOrder K] [IsStrictOrderedRing K]`), so theorems hold over `ℚ` and `ℝ`.
  Rounding, overflow, NaN and infinities are not modelled. Division by zero *is* modelled:
  it is the separate outcome `nonfinite`, never Lean's `x / 0 = 0`. Where `sqrt`, `sin`, `cos` are needed
  `K = ℝ`. The library tolerances (1e-6 etc.) are kept as exact rationals.
* **Integers.** `int` is `ℤ` (or `ℕ` where a loop index is non-negative by construction); 32-bit overflow is not modelled.
* **Outcomes.** `Res α` = `ok a | invalidArg | outOfRange | ub | nonfinite | diverge`.
  `VALIDATE_ARGUMENT` → `invalidArg`, `VALIDATE_ARGUMENT_RANGE` → `outOfRange` (with its 1e-6 tolerance),
  any `std::vector`/array access outside its bounds → `ub` (C++ `operator[]` is unchecked), a floating
  division by zero → `nonfinite`, running out of loop fuel → `diverge`.
* **Containers.** `std::vector` is `List`; reads and writes are checked (`vget`, `vset`) and yield `ub`
  when out of bounds. Fixed C arrays (`double N[NURBSMaxDegree+1]`) are lists of that length with
  *arbitrary* initial contents (theorems quantify over the contents, so no uninitialised value matters).
* **Points.** The C++ templates over `T = XYZ | XYZW` are modelled over an arbitrary vector space
  `[AddCommGroup T] [Module K T]`; concrete `XYZ`/`XYZW` structures are instances.
* **Aliasing/ownership, allocation failure, exceptions from allocation, threads**: not modelled (the library is
  single threaded and passes values).
* Eigen (linear solvers), FFT, Voronoi/Delaunay, random sampling, I/O, the C API, .NET and Python bindings: not modelled,
  except where a property below says so.

## 3. Layout

* `Verif/Core/*` outcome monad, checked vectors, loops and their Hoare rules.
* `Verif/Model/*` the transcription (one file per C++ unit), no theorems about behaviour.
* `Verif/Spec/*` independent specifications (Cox–de Boor recursion, Bernstein polynomials, affine maps, …).
* `Verif/Lemmas/*` proof engineering.
* `Verif/Props/*` the property theorems, each with an `example` showing that its hypotheses are met, and negations
  with concrete witnesses where the shipped code violates the property.


## 4. Per-property plan

* **C01 Span search terminates and is correct** — line-by-line model with fuel for the `while`; prove termination (fuel bound) and span correctness by a loop invariant. *Status: proved.*
* **C02 Basis functions are the Cox-de Boor basis** — model of the triangular loop with checked arrays; invariant: after round j the array holds the degree-j Cox–de Boor values. Spec: recursive `coxDeBoor`. *Status: proved.*
* **C03 Partition of unity** — algebraic induction on the recursion, transported through C02. *Status: proved.*
* **C04 Non-negativity of the basis** — induction on the recursion, transported through C02. *Status: proved.*
* **C05 Curve evaluation is the B-spline sum** — C01 + C02 + support of Cox–de Boor (all other terms vanish). *Status: proved.*
* **C06 Bad arguments are rejected, not undefined** — decision logic: evaluate the guards of the model on bad inputs. Also the negation: `Check` accepts curves with fewer control points than degree+1, whose evaluation is undefined behaviour. *Status: proved.*
* **C07 Convex hull / bounding box property** — C03 + C04; convex combination, stated coordinatewise and with `convexHull`-style weights. *Status: proved.*
* **C08 Affine invariance** — linearity of the evaluation sum; homogeneous → affine transport. *Status: proved.*
* **C09 End point interpolation** — Cox–de Boor at a clamped end. *Status: proved.*
* **C10 Local modification** — relational: two evaluations agree when the changed index is outside the active span. *Status: proved.*
* **C11 Knot insertion preserves the curve** — blossom / Boehm identity: N_i = a_i N'_i + (1-a_{i+1}) N'_{i+1} by induction on degree; then induction on `times`. *Status: proved.*
* **C12 Knot insertion keeps the curve valid** — list-level structural proof. *Status: proved.*
* **C13 Horner evaluation** — loop invariant. *Status: proved.*
* **C14 AllBernstein is the Bernstein basis** — loop invariant (Bernstein recursion), closed form by induction. *Status: proved.*
* **C15 Bernstein(index,degree,t) is the Bernstein polynomial** — negation with a concrete witness; positive theorem for index 0, 1, degree (`_partial`). *Status: partial.*
* **C16 de Casteljau agrees with Bernstein evaluation** — loop invariants for both, common spec. *Status: proved.*
* **C17 Knot multiplicity** — count over the list. *Status: proved.*
* **C18 OneBasisFunction agrees with Cox-de Boor** — loop invariant against Cox–de Boor; uses separated knots. *Status: partial.*
* **C19 Basis derivatives** — first derivative in full; higher orders by the A2.3 table invariant if feasible. *Status: proved.*
* **C20 Rational derivatives satisfy Leibniz** — the recursion solves the triangular Leibniz system; plus calculus link over polynomials. *Status: proved.*
* **C21 Curve reversal** — list reversal, symmetry of Cox–de Boor. *Status: proved.*
* **C22 Linear reparametrisation** — affine covariance of Cox–de Boor. *Status: proved.*
* **C23 Curve splitting** — on top of C11. *Status: proved.*
* **C24 Binomial and factorial** — induction; table and product path. *Status: proved.*
* **C25 Tolerance comparisons form a trichotomy** — order reasoning. *Status: proved.*
* **C26 Point projection** — field algebra. *Status: proved.*
* **C27 Ray intersection** — field algebra on the branch conditions. *Status: partial.*
* **C28 Line/plane intersection** — field algebra. *Status: proved.*
* **C29 Vector algebra** — ring identities; `ℝ` for lengths. *Status: proved.*
* **C30 Matrix algebra** — 4x4 algebra. *Status: partial.*
* **C31 Dense matrix helpers** — list-of-list model, entrywise characterisation. *Status: proved.*
* **C32 Surface Swap** — on top of C33. *Status: proved.*
* **C33 Surface evaluation is the tensor product sum** — double loop, as C05. *Status: proved.*
* **C34 Iso curves lie on the surface** — C33 rearranged. *Status: proved.*
* **C35 Surface reversal** — negations with witnesses; positive part where the code is right. *Status: partial.*
* **C36 Surface reparametrisation** — negation with witness; positive part. *Status: partial.*
* **C37 Surface bounding box contains the surface** — negation with witness; the control-point box (first half of the function) does contain the surface. *Status: partial.*
* **C38 Ruled surface boundary** — Model/SurfaceCreate.createRuledSurface; evaluate the surface with C33 and the two degree-one basis functions. *Status: proved.*
* **C39 Bilinear surface** — Bernstein linear precision at degree 3. *Status: proved.*
* **C40 Bezier decomposition** — `decomposeToBeziers` follows the C++ loop with a fuel argument; a run lemma shows every start row is the polar form (blossom) of the span and that the splitting passes turn it into the Bezier points; the polar form's uniqueness gives the evaluation. Divergence for degree 1 is proved for every amount of fuel. *Status: partial.*
* **C41 Knot removal yields a valid curve** — Model RemoveKnot (sweep, test, save, compaction) with the tolerance test as a parameter, instantiated over the reals with XYZW::Distance and ComputeCurveModifyTolerance. Closed form of a single removal by invariants of the two-sided sweep; validity from it; general and concrete refutations of the tolerance claim. *Status: partial.*
* **C42 Degree elevation yields a valid curve tracing the same points** — `elevateDegree` follows the C++ loop, split into the coefficient table, elevated piece, knot removal and emission. The invariant says that every control point left of the junction is the elevated polar form (symmetrised blossom) at its own knots; knot removal passes exchange one argument at a time; uniqueness of the polar form gives equal points for all parameters. *Status: partial.*
* **C43 Sub-curve extraction yields a valid curve** — Model Extract with InsertKnot; prove that a returned curve never passes Check (universally quantified violation). *Status: partial.*
* **C44 Knot vector rescale** — list map. *Status: proved.*
* **C45 Knot merge is a multiset union** — model of the map-based merge; multiset counts. *Status: proved.*
* **C46 Interpolation parameters and averaged knots** — prefix-sum monotonicity. *Status: partial.*
* **C47 Nearest neighbour result set** — induction over insertion history. *Status: partial.*
* **C48 Simpson quadrature** — field algebra. *Status: proved.*
* **C49 Power basis conversion** — entrywise binomial identity. *Status: proved.*
* **C50 Volume evaluation is the triple tensor product** — Model GetPointOnVolume with its temporaries; specification `volumePoint` (triple sum of Cox-de Boor functions). Invariants of the nested accumulations, window lemma per direction. *Status: proved.*
* **C51 Volume derivatives** — Model both halves of ComputeVolumeRationalDerivatives as written. The homogeneous half is shown to compute zeros or to leave an array, for all volumes; the rational half is proved to solve the Leibniz equations by an invariant over the triple loop. *Status: partial.*
* **C52 Volume operations return their result** — Model Swap, Reverse, RefineKnotVector, Extract. Swap by symmetry of the triple sum; Reverse(U) through the curve theorem C21 on all fibres; the failures by running the loops up to the first bad access, for every well-formed volume. *Status: partial.*
* **C53 Curve merging** — Model Merge with ElevateDegree as a parameter; prove that the result is well formed and coincides with the two inputs on the two halves of [0,1], by affine invariance and the window lemma for basis functions. *Status: partial.*
* **C54 Grid triangulation** — Model/Mesh.lean models the grid branch. Proof: invariants for the three loop nests (row-major order of vertices and of cells), then each face is one of two half cells, whose signed parameter area is computed, and a point of [0,1]^2 is located in its cell and half cell with explicit barycentric coordinates. *Status: partial.*
* **C55 Quadratic arc evaluation** — Model GetPointOnQuadraticArc; prove the Bezier formula for equal weights and refute it in general. *Status: partial.*
* **C56 Weighted points** — field algebra. *Status: partial.*
* **C57 Knot refinement preserves the curve** — on top of the Boehm identity. *Status: proved.*
* **C58 Degree reduction inverts elevation** — Model ReduceDegree over the reals; prove that it inverts degree elevation exactly (loop invariants: every computed control point is the original one). *Status: proved.*
* **C59 Corner cutting evaluation** — corner cutting = blossom recursion. *Status: partial.*
* **C60 Curvature is parametrisation independent** — negation with witness; positive when |C'| is not near 1. *Status: partial.*
* **C61 Accepted curves can be evaluated** — decision logic; negation witnesses; positive part with the extra hypotheses. *Status: partial.*
* **C62 Rational reparametrisation** — Möbius covariance of Cox–de Boor; homogeneous points scale by a common positive factor. *Status: proved.*
* **C63 Stereographic projection** — field algebra. *Status: proved.*
* **C64 Random orthogonal vector** — vector algebra over ℝ with the angle as a parameter; negation on multiples of (1,-1,1). *Status: partial.*
* **C65 Curve derivatives** — polynomial pieces of Cox–de Boor as `Polynomial K`; loop invariants relate the ndu/ders tables to iterated formal derivatives; over ℝ related to `iteratedDeriv`. *Status: proved.*
* **C66 Derivatives of a single basis function** — loop invariants: the N table holds the truncated recursion, the ND rows hold iterated derivatives of the polynomial pieces. *Status: partial.*
* **C68 Surface convex hull** — Tensor product basis functions are non-negative and sum to one (from C02/C03), so the homogeneous point is a convex combination; the projected point stays between the bounds. `C68_convex_hull`. *Status: proved.*
* **C67 Surface derivatives** — Loop invariants for the tensor product accumulation give `∑∑ dN·dN·P` (`C67_derivatives`); the rational table satisfies the two-index Leibniz system (`C67_leibniz`), whose solution over the reals is unique and equal to the iterated partial derivatives of the quotient (`C67_true_derivative`). *Status: proved.*
* **C69 Normals** — Model Normal of curves and surfaces over ℝ; reduce to the true derivatives of C20/C67 and vector algebra. *Status: partial.*
* **C70 Surface curvature** — Model Curvature over ℝ; principal curvatures specified as roots of det(II - k I), discriminant shown nonnegative. *Status: partial.*
* **C71 Uniformity of knot vectors** — Model the multiplicity map as a sorted association list; loop invariant over the distinct knots. *Status: partial.*
* **C72 Midpoint knots for refinement** — Model the recursion; invariant: strictly sorted knots with fixed ends, the longest span at least the average. *Status: partial.*
* **C73 Global interpolation passes through the points** — Matrix loop invariant: A[i][j] = N_{j,p}(u_i); then the evaluation theorem C05. *Status: proved.*
* **C74 Knots for least squares approximation** — Loop invariants and monotonicity of piecewise linear interpolation. *Status: proved.*
* **C75 Line segments as curves** — Model CreateLine; evaluate the basis of degree one. *Status: proved.*
* **C76 CreateCubicHermite interpolates points and tangents** — CreateCubicHermite modelled on top of the chord parameterisation; control points and knots computed in closed form; at a double knot of a cubic spline only two basis functions survive, giving point and derivative. *Status: proved.*
* **C77 Volume InsertKnot keeps the volume** — Model InsertKnot as a loop of curve insertions over the fibres of a direction; each fibre is C11/C12, the tensor product is the curve of fibre values. *Status: proved.*
* **C78 Volume SplitAt** — Model SplitAt as insertion up to full multiplicity followed by slicing; locality of the basis functions on either side of a full knot. *Status: proved.*
* **C79 Volume GetIsoCurve** — Model GetIsoCurve; the control points are the window sums of the two fixed directions; evaluation is C50 with the sums exchanged. *Status: proved.*
* **C80 Octree construction** — Model: Octant tree as an inductive type, Morton code, distribution loop, recursive build with fuel. Proof: the tree invariant TreeOK by induction on the build; termination from the halved extent. For a negative minimal extent and coincident points the recursion never ends (C80_negative_extent_diverges). *Status: proved.*
* **C81 Octree radius search** — Search functions by recursion on the tree; a subtree is skipped only when the ball does not reach its cube. Proof: SearchPost by induction on the tree. The pruning test compares squared lengths with the absolute and relative tolerance 1e-6, so completeness holds with a margin (RadiusAnswer); C81_small_radius_violated shows that without the margin it fails. *Status: partial.*
* **C82 Octree nearest neighbour search** — As C81, with the worst kept distance as shrinking radius; its monotonicity comes from C47. Exact answer when different distances are separated by the margin of the comparisons (C82_knn_exact_partial); in general every missed point is not nearer than the last kept one by that margin (C82_knn_search_partial). *Status: partial.*
* **C83 Surface InsertKnot keeps the surface** — Model of the whole function; one definition insertFibre for the two loop bodies, which differ in the index order. Proof: every fibre satisfies Boehm's specification InsPoints, then insert_curve (as for C11) in one variable of the tensor product. C83_times_zero_violated: zero insertions corrupt the surface; C83_end_knot_ub: values of multiplicity above the degree. *Status: proved.*
* **C84 Surface RefineKnotVector keeps the surface** — The loop over the fibres calls the curve model of RefineKnotVector (C57); the knot vectors of all fibres agree because they are sorted permutations of the same list. *Status: proved.*
* **C85 Ruled surface of arbitrary curves** — compose C42 (elevation), C45 (missing knots) and C57 (refinement): both curves end with the same sorted knot vector. Disagreement found: repeated interior knots of the curve to be elevated give an invalid surface. *Status: partial.*
* **C86 Arcs lie on the circle or ellipse** — Model CreateArc (Model/Arc.lean) over the reals with the real cosine and sine. The control polygon is shown to be a chain of tangent triangles (Lemmas/ArcRun), one quadratic rational Bezier segment of such a triangle is shown to be the arc (Lemmas/ArcGeom), and the knot vector with doubled interior knots is shown to cut the curve into these segments (Lemmas/ArcCurve). *Status: partial.*
* **C87 Cylindrical surfaces** — Model CreateCylindricalSurface (Model/SurfaceArc.lean); every row of control points is a translated arc polygon, the other direction is a straight quadratic. *Status: partial.*
* **C88 Surfaces of revolution** — Model CreateRevolvedSurface (Model/SurfaceArc.lean) over the reals. Every column of control points is shown to be an arc polygon around the foot point on the axis (Lemmas/RevolveRun, invariant of the two nested loops); the rotation is a linear map of weighted points, so it commutes with evaluation. The rotation itself is specified in Spec/Rotation.lean. *Status: partial.*
* **C89 Conic arcs through a point** — Model CreateOneConicArc, SplitArc and CreateOpenConic (Model/Conic.lean) over the reals. The conic arc is specified by its rational parametrisation (Spec/Conic.lean); the theorem starts from a point of a given arc and shows that the code recovers the weight and so the whole arc. *Status: partial.*
* **C90 Equal tessellation of a curve samples the curve** — Model EquallyTessellate loop by loop; prove the unique-knot list is sorted and starts/ends at the domain ends, then the invariant that the samples collected so far are the 100 equidistant parameters of the finished intervals. *Status: proved.*
* **C91 Equal tessellation of a surface samples the surface** — As C90 for both directions; the nested loop collects the product of the two sample lists (without the last sample) and then the corner. *Status: partial.*
* **C92 The parameter-space tangent reproduces the given tangent** — Model GetUVTangent over the proved derivative evaluation (C67); the 2x2 system is solved exactly by Cramer's rule, so the remainder is orthogonal to both tangents. *Status: partial.*
* **C93 Scaling the control net scales the surface** — Model NonUniformScaling; the scaling is affine and the basis functions sum to one. *Status: partial.*
* **C94 IsClosed recognises closed curves** — Model IsClosed over the reals (square root in Distance); characterise the two loops and use end point interpolation (C09). *Status: partial.*
* **C95 IsClosed recognises closed surfaces** — Model IsClosed for surfaces over C94; the boundary lines are curves of the first and last rows, and the basis functions are convex weights. *Status: partial.*
* **C96 Degree elevation of a surface keeps the surface** — Per-fibre reduction to the curve theorem C42; all fibres get the same knots because the sorted multiset is determined. *Status: partial.*
* **C97 Degree reduction of a surface inverts elevation** — Per-fibre reduction to C58; a B-spline over a Bezier knot vector is the Bezier curve (Lemmas/BezierKnots), so evaluation agrees. *Status: proved.*
* **C98 Degree elevation of a volume keeps every point** — model the fibre loops with the curve elevation of C42 as the fibre operation; the sizes computed from the knot count agree with the curve result for every knot vector; repeated interior knots inherit the defect of C42 *Status: partial.*
* **C99 Knots that make both ends of a range full** — the two counting loops are recursion over the list; equal to the multiplicity exactly when the parameter is extreme or absent *Status: partial.*
* **C100 Unclamping keeps the curve and gives periodic knots** — Model: Model/Clamp.lean (both nested loops, array reads and divisions explicit). Proof: Lemmas/Unclamp.lean gives loop invariants in terms of the polar form of the first and the last span; a crossing lemma (`pol_span`) moves polar form values between spans; Props/Clamp.lean assembles it. *Status: proved.*
* **C101 Translational sweep is the sum of its two curves** — Model: Model/Sweep.lean. The control net is computed by induction over the two loops; the double sum factors into the two weight functions. *Status: proved.*
* **C102 The clamp test recognises clamped curves** — Model: Model/Clamp.isClamp. Proof: C17 gives the count of the first and last knot; in a sorted vector with a gap after index p the count is p+1 exactly when knots 0..p agree. *Status: proved.*
* **C103 Clamping keeps the curve** — Model: Model/Clamp.toClampCurve (without the closedness repair of lines 3585-3591). The code violates the property in both halves; the violations are proved, the first for every clamped curve. *Status: partial.*
* **C104 Polyline lengths** — Model: Model/Interp.getTotalChordLength, Model/Tangent.getCentripetalLength. Loop invariants. *Status: proved.*
* **C105 Parameters of a mesh of points** — Model: Model/Tangent.meshLine, meshDirection, getSurfaceMeshParameterization (with the entry contents of the output vectors as arguments). Invariants of the nested loops, generic over the field for one direction. *Status: proved.*
* **C106 Tangents from five points** — Model: Model/Tangent.getqk, getak, getTk, computeTangentFive. Loop invariant; the first inner round for the violation. *Status: partial.*
* **C107 Tangents from three points** — Model: Model/Tangent.tangentInner, tangentEnd, computeTangent. Loop invariants, C46 for the chord parameters, a field identity for the error term. *Status: partial.*
* **C108 Control point repositioning moves the curve point by the requested distance** — Model ControlPointReposition on top of the evaluation model; compute the exact displacement from the linearity of the curve point in one control point; derive the claim for the first control point and equal weights; refute it for the other cases. *Status: partial.*
* **C109 Weight modification moves the curve point by the requested distance towards the control point** — Model WeightModification; express the new rational point as a convex combination of the old one and the control point; derive the claimed distance when the basis function used by the code is the right one; refute it otherwise. *Status: partial.*
* **C110 The straightness test recognises straight curves** — Model IsLinear with lists; case analysis on the choice of the direction; the cross product length is the distance from the line; convex combinations stay near the line. *Status: proved.*
* **C111 The approximate length of a curve is its length** — Model the decision part of ApproximateLength; specification of length by inscribed polygons; monotonicity of curves with ordered collinear control points by repeated insertion of the parameter as a knot; refute the other straight cases. *Status: partial.*
* **C112 A lofted surface contains its sections** — Model the whole function (degree raising, parameters, per-column interpolation, weights). Positive theorem via the interpolation theorem C73 applied per column and the rational surface evaluation theorem C33; refutations as universal theorems (two sections, poles) and as kernel-checked rational witnesses (weights, knots). *Status: partial.*
* **C113 Surface interpolation passes through every point of the grid** — Model the system, the right-hand side and the control points of GlobalInterpolation over an arbitrary solver (Model/SurfaceInterp). Prove what the matrix is with the basis-function lemmas, then the interpolation property in the symmetric case; refute it for rectangular grids and for a square grid with different spacings. *Status: partial.*
* **C114 Finding the parameter of a point on a curve** — Model of GetParamOnCurve (tessellated start, 20 Newton rounds, clamping or wrapping). Loop invariants for the domain; for segments the derivatives are computed exactly (C20) and the search along the samples is followed by induction. The unclamped last step refutes the domain claim. *Status: partial.*
* **C115 Warping displaces every curve point along one direction by the averaged warp shape** — Model `warping` (Model/Warp.lean); every control point moves by f_i*d along one direction, so by linearity (moved_eval) each curve point moves by the ratBasis average; the bound is convexity of ratBasis. *Status: proved.*
* **C116 Flattening makes a part of the curve straight and leaves the rest** — Model `flattening`; loop with counter; FootOf is the independent description of a foot on the segment; locality of the basis functions gives the outside part; refutations on a polyline with six vertices. *Status: partial.*
* **C117 Bending moves control points on their rays to the bend centre with the given cross ratio** — Model `bending`; index loop lemma rangeLoop; algebra of the cross ratio; locality for the outside part; refutations on the polyline and, for all curves, for a selected control point at the centre. *Status: partial.*
* **C118 Constraint-based modification meets every derivative constraint with the shortest displacement** — Model the routine loop by loop (Model/Constrain.lean), with Eigen's inverse as a parameter; show that the matrix entries are the derivatives of the basis functions; prove the pseudo-inverse solution and its minimality (least_norm); transfer to the evaluated derivatives with the Leibniz relation of C20. *Status: partial.*
* **C119 Arcs are recognised, and only arcs** — Model `IsArc` over the real numbers (Model/IsArc.lean). Completeness by the uniqueness of the circumcentre in the plane; soundness by reading the run; the samples theorem by counting zeros of a polynomial of degree at most 14 on each span; the refutation by a quartic curve on the unit sphere. *Status: partial.*
* **C120 The Coons patch is bounded by its four curves** — Model the function as it stands (reverse, reparametrise, corner test, common degree, common knots, sum of control points). Prove the closed formula for the point at (u, v) through C21, C22, C38, C32, C39, C96, C84 and C45; the test's curves refute that the boundary is right. *Status: partial.*
* **C121 Torsion of a curve** — Model/Torsion.lean over the reals; the derivatives are the true ones by C20_true_derivative, the spec torsionOf uses iteratedDeriv *Status: partial.*
* **C122 Oriented bounding box** — Model/OrientedBox.lean; the solver is a parameter with hypothesis SoundEigen; minima and maxima by induction over the flattened net, containment of the surface by convexity of the basis functions *Status: proved.*
* **C123 Adaptive tessellation** — Model/AdaptiveTessellate.lean over the reals; recursion on the levels left, invariant: strictly increasing parameters; counterexamples evaluated in closed form *Status: partial.*
* **C124 Removal of excessive knots** — Model/ExcessiveKnots.lean on top of the knot removal model; induction on the number of control points, each accepted removal keeps the class of tidy curves; the counterexample is a quadratic with a double knot *Status: partial.*
* **C125 Continuity at a parameter** — Lemmas/Continuity.lean: neighbouring polynomial pieces of the basis agree at a knot up to order degree minus multiplicity (induction on degree, then on the order through the derivative recursion); two pieces with equal derivatives make a ContDiff function; quotient rule for the rational curve *Status: proved.*
* **C126 Periodicity query** — Model/Periodic.lean, Props/Periodic.lean: translation invariance of the basis functions over equally spaced knots; equality of all derivatives of the homogeneous curve at the two ends; Leibniz recursion carries it over to the rational derivatives; two concrete counterexamples to the converse *Status: partial.*
* **C127 Extension of a curve** — Model/Extend.lean, Lemmas/Extend.lean, Props/Extend.lean: the control points of the extension are the Bezier form of the Taylor polynomial; local support splits the new curve at the old end; for constant weights Taylor's formula for the span polynomial; tangent extension reduced to the merge theorem of C53; three concrete counterexamples *Status: partial.*
* **C128 Removal of a knot of a surface** — Model/SurfaceRemove.lean, Props/SurfaceRemove.lean: run of the loop over fibres from the run of the curve removal (C41); knots of all fibres agree because they are the sorted remainder of the same list; the undo theorem identifies every fibre of the surface insertion (C83) with the curve insertion and uses C41 *Status: partial.*
* **C129 Normal vectors along a curve** — Model/ProjectNormal.lean, Props/ProjectNormal.lean: the random angles are a parameter; invariant of the for loop (every entry written so far is a unit normal) and of the while loop; divergence by an invariant that keeps the flag set; concrete segments *Status: partial.*
* **C130 A surface decomposes into one Bézier patch per knot rectangle** — Model/SurfaceDecompose.lean writes the algorithm once, for rows or columns as vectors, so that the curve lemmas (polar forms, knot blocks) apply in the module of vectors. Lemmas/PatchRun.lean: loop invariant (finished pieces, current piece, unused pieces). Props/SurfaceDecompose.lean: both phases, then the evaluation of a patch as a curve of curves. *Status: partial.*
* **C131 Interpolation with tangents meets every point and every tangent** — Model/InterpTangents.lean: the three knot rules, the matrix, the right-hand side. Props/InterpTangents.lean: loop invariant for the matrix (basis functions in the even rows, their derivatives in the odd rows), then the rows of the solved system are the point and derivative conditions. The refutations for degrees one and two are by inversion of the run for arbitrary data; the one for degree three uses a vector in the left kernel of the matrix. *Status: partial.*
* **C132 Least squares approximation is optimal** — Model/LeastSquares.lean: knots, the arrays start, end, index and B, the band matrix, the residuals, the right-hand side, the answer false. Props/BandRun.lean: loop invariant for the arrays (which rows meet the support of which basis function). Props/BandSystem.lean: the band matrix and the right-hand side are the normal equations; a solution of the normal equations minimises. Props/LsqKnots.lean: the knots are those of ComputeKnotVector (C74). Props/LeastSquares.lean: the property. *Status: partial.*
* **C133 Sweep along a trajectory places the profile** — Model/SweepSections.lean: the choice of the trajectory, the parameters, the sections; the loft (C112) and the normals (C129) are those already modelled. Props/SweepSections.lean: parameters are Greville abscissae; each section is an affine image of the profile (C08); the loft contains its sections (C112). Props/SweepFrames.lean: congruence, normality, refutations. Props/SweepExample.lean: a run. *Status: partial.*
* **C134 Swung surface places the scaled profile along the trajectory** — Model/Swung.lean: the parameters, the carried normals, the matrices, the placed net, the interpolated rows. Spec/Swung.lean: the profile without weights, the axes. Props/Swung.lean: two runs side by side for the scale; the rows interpolate the placed points (C73), the edges and Bezier rows evaluate to them. Props/SwungExample.lean: a run. *Status: partial.*
* **C135 Local cubic interpolation passes through the points** — Model/CubicLocal.lean: chords, control points, knots, the function. Spec/CubicLocal.lean: the chord. Lemmas/UniformKnot.lean: cubic basis values and derivatives at a knot with equally spaced neighbours and at clamped ends; positivity of the outer basis functions of a span. Props/CubicLocal.lean: the theorems; the missed point by the sign of the control points' second coordinate. *Status: partial.*
* **C136 Approximating a grid of points gives a valid surface of the requested shape** — Model/SurfaceApprox.lean: the two loops over the rows, the net, the function over a given curve fit; the least squares fit with a given parametrisation. Props/SurfaceApprox.lean: shape of every least squares result by inversion of the run (no assumption on the solver), then of the surface; the out of bounds read through a loop lemma for rounds that run or are undefined. *Status: partial.*
* **C137 Local bicubic interpolation passes through the grid** — Model/Bicubic.lean: each loop of the function over given tangents and distances; the real instance uses ComputeTangent and the chord length. Props/Bicubic.lean: every loop runs on a square grid and the multiples of three of the big net stay the data; simple inner knots make every inner basis function smaller than one, hence the missed point; inversion of the run for the non square case. *Status: partial.*
* **C138 The weight of a conic arc from its triangle** — Model/ConicFit.lean: bisectorPoint and rationalQuadraticWeight. Props/ConicFit.lean: a lower bound on the sine makes the rays meet (from C27), the meeting point of bisector and median is computed in closed form; the circle by expressing the arc in the orthogonal vectors half chord and median. *Status: partial.*
* **C139 Control points between two points with given tangents** — Model/ConicFit.lean: middleControlPoints. Props/MiddlePoints.lean: inversion of the run for the shape, cosines are at least -1 so the amounts are positive; forward runs for meeting tangents and the half circle from C138 and C27. *Status: partial.*
* **C140 Fitting a conic to a run of points** — Model/FitConic.lean: the two loops over the inner points, the real CreateOneConicArc, GetParamOnCurve and evaluation. Props/FitConic.lean: in a plane the meeting points are exact, the second pair of lines meets at the parameter 1, hence the division by 1 - 1; loop invariant that the sum of weights stays 0. *Status: partial.*
* **C141 Solving cubic equations** — Model/FitCubic.lean: cubicEquation, a while loop with fuel. Props/CubicEquation.lean: loop invariant that the state is a point and its Newton image; exact two-cycle by induction over the fuel; for the equation of FitWithCubic monotone convergence from the right with a bound for the number of rounds. *Status: partial.*
* **C142 Fitting a cubic to a run of points** — Model/FitCubic.lean: the whole of FitWithCubic with its real list of points (zeros in front). Props/FitCubic.lean: the branch for points out of the plane is idle because the start tangent is orthogonal to the normal; the arrays stay zero, the error test compares 0; the chord parameters of the zero points are zero. *Status: partial.*
* **C143 Modifying two neighbouring weights moves the curve point by the requested distance** — Model/NeighborWeights.lean: the whole function with the real evaluation and ComputeRays. Props/NeighborWeights.lean: barycentric coordinates of the curve point with respect to the point without the leg and the two control points; both factors are equal; evaluation by C05. *Status: partial.*
* **C144 The error bound of a knot removal bounds the error and is zero exactly for removable knots** — Model/KnotErrorBound.lean: the two-sided sweep, shared with RemoveKnot. Props/KnotErrorBound.lean: invariant of the sweep; the curve made of the swept points; inserting the knot again changes one control point by at most the difference of the two compared points; evaluation by C11 and the convexity of the basis functions. *Status: partial.*
* **C145 Parameters at a given length** — Model/LengthParam.lean: the bisection and the outer loop with fuel; the length is a parameter of the model. Props/LengthParam.lean: the bracket is an invariant of the bisection; it halves, so with a Lipschitz length it ends; the outer loop as an inductive relation between the parameters; SplitAt on a segment by computation. *Status: partial.*
* **C146 The differentiability test recognises corners and nothing else** — Model/CanDerive.lean: the two difference quotients. Props/CanDerive.lean: mean value theorem on both sides; exact quotients for straight pieces; the parabola in rational arithmetic. *Status: partial.*
* **C147 An offset curve is the curve moved along its normals** — Model/Offset.lean: both methods over the models of the nearest parameter, the normal, the ray intersection, the interpolation and the knot removal. Props/Offset.lean: loop invariants; the legs of neighbouring control points end in the same point, so that the intersection returns it; second derivative of a degree-1 curve by the Leibniz rule; a parabola followed through the search as a witness. *Status: partial.*
* **C148 The first order routine of a surface returns the point and the two tangents** — Model/SurfaceFirst.lean: both routines. Props/SurfaceFirst.lean: loop invariants over the accumulation; the Leibniz rule of C67 at order 1. *Status: proved.*
* **C149 The parameters of the nearest point of a surface are found** — Model/SurfaceNearest.lean: the search along the tessellation and the Newton loop over the models of the tessellation, the closedness test and the rational derivatives. Props/SurfaceNearest.lean: loop invariants; Cramer's rule; the derivatives of a parallelogram by the Leibniz rule of C67, so that one Newton step from any start reaches the foot. *Status: partial.*
* **C150 All parameters of a point on a surface are found, each once** — Model/SurfaceNearest.lean: the choice of the starting points, the loop over them and the comparison with the results found before. Props/SurfaceAllParams.lean: invariant of the loop (pairwise different results); the exact samples of a folded strip and that none of the inner ones is a strict minimum. *Status: partial.*
* **C151 A volume is reported closed exactly when its two opposite faces coincide** — Model/VolumeQuery.lean: the nested loops over the curves of one direction, over the model of the curve query. Props/VolumeClosed.lean: the loops answer true exactly when all curves do; the volume as a curve of faces (exchange of sums); closeness of control points carries over to the faces (convex combinations). *Status: partial.*
* **C152 The parameters of a point of a volume are found, and the validity check is right** — Model/VolumeQuery.lean: the search over the samples, the Newton round and the check. Props/VolumeParam.lean: the search over the samples stays in the domain (loop invariant); then C51. *Status: partial.*
* **C153 All parameters of a point on a curve are found** — Model/AllParamsCurve.lean: the check for the centre, the starting points (local minima among the samples), the Newton rounds and the comparison with the parameters found before. Props/AllParamsCurve.lean: the starting points are characterised exactly (filter of the samples); the sample nearest to the point is one of them; loop invariants for the rounds and for the list. *Status: partial.*
* **C154 The second search for the nearest point of a surface finds it** — Model/Gsa.lean: one round (step along the normal circle of curvature) and the loop of at most 1000 rounds. Props/Gsa.lean: the first round is computed from the true derivatives (C67, C69) and fails in the stated cases. *Status: partial.*
* **C155 Removing knots within a bound stays within the bound** — Model/KnotsByBound.lean: the bounds of the single knots, the choice, the error update and the rounds. Props/KnotsByBound.lean: invariants of the rounds against the inductive specification Removals; Props/FastLine.lean and Props/KnotsByBoundShape.lean: the curve on which the shape is lost. *Status: partial.*
* **C156 Approximation within an error bound keeps the bound** — Model/ErrorBound.lean: the polyline, ElevateDegree (C42) and RemoveKnotsByGivenBound (C155). Props/ErrorBound.lean: composition of C46, C42 and C155. *Status: partial.*
* **C157 A Gordon surface contains the curves of its network** — Model/Gordon.lean: preparation of the curves, lofts (C112), interpolation (C113), common degrees and knots (as in C120) and the sum. Props/Gordon.lean: composition of the lemmas of C120 for the sum; invariants of the preparation and C113 for the refutations. *Status: partial.*
* **C158 A sweep at equal lengths places the profile from the start of the trajectory to its end** — Model/SweepByLength.lean: the list of parameters and the composition of GetParamsOnCurve (C145), ProjectNormal and the sections (C133) and the loft (C112). Props/SweepByLength.lean: invariant of the list; the parameters of C145 are never close to the end. *Status: partial.*
* **C159 The length of a part of a curve is the length between its two parameters** — Model/SubLength.lean: Extract (C43) followed by ApproximateLength (C110). Props/SubLength.lean: symbolic evaluation of Extract on a segment with two inner parameters. *Status: partial.*
* **C160 Products of matrices and control nets obey the rules of matrices** — Model/PointMatrix.lean: the loops of Multiply and ToXYZ. Props/PointMatrix.lean: one loop invariant for products with any bilinear operation, then rules of finite sums. *Status: proved.*
* **C161 A corner fillet is a valid surface that begins at its boundary arc** — Model/CornerFillet.lean: the whole function, with the matrix inverse as a parameter. Props/CornerFillet.lean: the first rows of the two inverse matrices are forced by the product with the basis matrices, which gives the corner in closed form; a polynomial identity on the sphere then shows that its weight is off by one. *Status: partial.*
* **C162 Tests for vectors, distances of parameters and conversions of angles mean what they say** — Model/VectorTests.lean: the tests over the reals. Props/VectorTests.lean: lengths are square roots of non-negative sums; the error of the squared length factors; the distance is the norm of a complex number. IsInfinite and IsNaN are not modelled since reals have no such values. *Status: partial.*
* **C163 The signed distance is the distance from the surface, with the sign of the side** — Model/SignedDistance.lean: the whole function on top of the modelled search, evaluation and normal. Props/SignedDistance.lean: C149_plane gives the foot or a point within the tolerance; the vector to the point splits into a part in the plane and the height along the unit normal. *Status: partial.*
* **C164 Triangulating by Delaunay covers the surface** — Model/Delaunay.lean: grids of curvatures and areas, factors, samples, vertices; the random numbers and the planar triangulation are parameters. Props/Delaunay.lean: loop invariants over the samples; on plane patches the curvature is zero, so all factors are zero. *Status: partial.*
* **C165 Handles of the C interface keep standing for the curve or surface they were returned for** — Model/CApi.lean: buffers of a thread with contents, capacity and a count of reallocations; pointers remember which storage they lead to; FromCAPI and ToCAPI for curves and surfaces, split and decomposition. Props/CApi.lean: reading after assigning, induction over chains of calls and over the pieces. *Status: partial.*
* **C166 Tables cross the C interface unchanged** — Model/CApiArrays.lean: reading a flat array, and the three functions, with what the output argument leads to as a parameter. Props/CApiArrays.lean: the index of a flattened table, with C49 for the matrices of the library. *Status: partial.*
* **C167 Weighted least squares approximation minimises the weighted sum of squares** — Model/WeightedFit.lean: the whole function, with the parameters and the order of the tangents as arguments. Props/WeightedFit.lean: the rows hold the basis functions, the products of matrices are sums, and the sum of the equations over the control points uses that the basis functions sum to one. *Status: partial.*

## 5. Disagreements between the code and the properties

Each entry is a theorem of the model: a concrete witness, or a general statement, showing that the code as written does not do what the property says, or what happens outside a precondition the code relies on silently.

* `C123_s_curve_violated`: C123 (violated): the S-shaped cubic is replaced by its chord: only three points, all on the x-axis, are returned, while the curve reaches the height 9/32 at parameter 1/4, far more than the library's tolerance away from the returned polyline.
* `C123_end_missing_violated`: C123 (violated): the end of the curve may be missing. On a domain of width 1/800000 the last parameter kept is at 7/8 of the domain, the end of the domain counts as equal to it, and the polyline stops at `x = 875` although the curve ends at `x = 1000`.
* `C153_spurious_violated`: C153 is violated for every point that is not on the curve: the search is to return the parameters with `C(u) = P`, but the list is never empty.
* `C153_all_violated`: C153 is violated: the loop passes through `(1, 0, 0)` at the parameters `1/2` and `101/198`, but the search returns a single parameter.
* `C86_ellipse_violated`: C86 is violated for different radii: asked for the arc from `0` to `π/3` of the ellipse with the radii 2 and 1, `CreateArc` succeeds with a curve that leaves the ellipse `(x/2)² + y² = 1`. The tangent directions ignore the radii.
* `C86_small_violated`: C86 is violated for small angles: the arc of the unit circle from `0` to `1/2000` is not created, although the angle is 500 times the comparison tolerance.
* `C137_inner_violated`: C137 (violated): if one inner point of the grid lies off the plane of all the others, the returned surface does not pass through it, whatever parameters are tried.
* `C137_nonsquare_violated`: C137 (violated): for a grid with different numbers of rows and columns the call never returns a surface: the loop over the rows reads the parameters of the rows, the loop over the columns those of the columns, past their end.
* `C137_library_violated`: C137 (violated): for such a grid in which one inner point lies off the plane of all the others, the library's call returns a surface that misses this point.
* `C137_library_nonsquare_violated`: C137 (violated): the library's call returns no surface for a grid with different numbers of rows and columns.
* `C137_small_violated`: C137 (violated): 3 x 3 points: the returned surface has fewer control points than its degree requires, the library's own check accepts it, evaluating it at the start divides by zero and evaluating it at the end reads out of bounds.
* `C165_earlier_violated`: C165 (violated): what the handle of a curve `a` stands for after the next function of the same thread has returned a curve `b`: if it still is `a`, then only because `b` begins with the same knots and the same control points.
* `C165_replaced_violated`: C165 (violated): if `b` has as many knots and control points as `a`, the handle of `a` stands for `b` (with the degree of `a`).
* `C165_dangling_violated`: C165 (violated): if `b` has fewer knots or fewer control points than `a`, reading the handle of `a` is undefined behaviour, and the same if `b` does not fit into the buffers.
* `C165_history_violated`: C165 (violated): histories. After any interleaving of returned curves in which all those of the thread `t` have as many knots and control points as `a`, and its degree, the handle of `a` stands for the latest one of them.
* `C165_split_violated`: C165 (violated): splitting a curve. For every well-formed curve and every value strictly inside its domain, under the hypotheses of `C23_split`: the library gives a left and a right part, the function of the C interface answers 1, the handle of the right part stands for the right part, and the handle of the left part does not stand for the left part.
* `C165_decompose_violated`: C165 (violated): decomposing a curve. For every well-formed clamped curve without interior knots of full multiplicity (the hypotheses of `C40_decompose_partial`): the library gives the pieces `bs`, one per span; the function of the C interface returns as many handles as there are pieces and places, and all of them stand for one and the same piece, the last one that was returned.
* `C165_surface_replaced_violated`: C165 (violated): once a second surface with as many knots and control points has been returned in the same thread (for example the next patch of a decomposition), the handle of the first one stands for the second one.
* `C166_power_to_bezier_violated`: C166 (violated): for every degree from one on, the matrix from power to Bézier form never arrives. The library makes it, but the function of the C interface copies from its own output argument instead, a single pointer of the caller's: it reads behind it, whatever it points at.
* `C166_power_stale_violated`: C166 (violated): even if the caller has a whole table there, what comes back is that table, not the matrix.
* `C146_parabola_violated`: C146 fails: on the parabola `y = 100 (x - 1/2)²`, `0 ≤ x ≤ 1`, a quadratic Bézier curve, the test says at the apex that no derivative can be computed: it takes the change of the slope over `2e-8`, which is `2e-6`, for a corner.
* `C102_close_knots_violated`: C102: the separation is needed: a clamped curve with an interior knot closer than the tolerance to its start is reported as not clamped.
* `C103_clamped_violated`: C103 is false: `ToClampCurve` rejects every clamped curve (with separated end knots), because it asks `InsertKnot` for zero insertions.
* `C103_end_violated`: C103 is false also for unclamped curves: clamping the periodic form of the cubic `exClamped` gives back its knots, but not its last control point, so the end point moves from 7 to 4.
* `C94_violated`: C94 is violated: the clamped polyline `A B C A B` starts at `A`, ends at `B ≠ A`, and `IsClosed` answers `true`, because its first two control points agree with its last two.
* `C95_weights_violated`: C95 is violated for rational surfaces: the control points of the lines `u = 0` and `u = 2` of this surface have the same positions and different weights. `IsClosed` answers `true`, but the lines differ: their middle points are `(1, 1/2, 0)` and `(1, 2/3, 0)`.
* `C89_flat_violated`: C89 is violated for flat elliptic arcs: the arc from `(-1, 0)` to `(1, 0)` with the tangents meeting in `(0, 1/2)`, through `(0, 1/6)`, is created, but it is a broken line through `(0, 1/2)` that does not contain the given point.
* `C138_tiny_violated`: C138 is violated for tiny triangles: the legs of a triangle with a base of a millionth count as equal up to the tolerance, so the cosine of the obtuse angle at the start is taken as the weight, which is `-3/5`; the triangle itself is not thin.
* `C138_thin_violated`: C138 is violated for thin triangles: with the legs 1 and 3 (nearly) over the base 4 and a height of two parts in ten thousand no weight is found, although the three points are not on a line and are not treated as such.
* `C118_all_fixed_ub`: C118 is violated: when all control points that act on the constraints are fixed the code reads from an empty matrix.
* `C118_weights_violated`: C118 is violated for different weights: the segment with weights 1 and 2 is asked to move by (1, 0, 0) at 1/2 with its second end fixed, and moves by (2/3, 0, 0).
* `C120_boundary_violated`: C120 is violated, for the four curves of the library's own test, which checks only the corners: the point of the surface at `(1/3, 0)`, on a side of the surface, lies on none of the four curves.
* `C161_knots_violated`: C161 (violated): whatever arc it is called with, the knots of the surface are those it had before. A surface without knots, as both bindings pass it, never becomes valid.
* `C161_corner_violated`: C161 (violated): the corner of the patch where the arc starts is not the start of the arc, for every arc that starts on the sphere of the fillet (radius `r`, touching the origin from above) somewhere else than at the origin.
* `C141_cycle_violated`: C141 is violated by cycles: on `(x - 1/1000)³ - 2 (x - 1/1000) + 2 = 0`, which has a root, the search goes on forever.
* `C141_flat_violated`: C141 is violated where the slope vanishes at the start: on `x³ = 0.000003 x` the search divides by zero.
* `C141_wrong_root_violated`: C141 is violated on the equation that `FitWithCubic` poses, `2 x³ - 3 x² + d = 0` for `d` between 0.01 and 1: it has a root between 0 and 1, which is the one that is meant, but the search stops and answers a value above 1, at or beyond the largest root.
* `C135_empty`: C135: no points is an invalid argument.
* `C135_single_violated`: C135 is false for one point: the function returns true with a curve of degree zero, which is not a valid curve: `NurbsCurve::Check` rejects it.
* `C135_straight_violated`: C135 is false for points with a straight stretch: whenever the first three points are on a line and the third to fifth are on a line, the tangents, and with them all the control points next to them, are not numbers.
* `C135_misses_violated`: C135 is false in general: for five points, no three on a line, that are far apart, the valid curve that `CubicLocalInterpolation` returns does not pass through the middle point, at any parameter.
* `C06_empty_knots_ub`: C06 does not extend to a curve without knots: evaluation reads `knotVector[0]` before any validation.
* `C61_check_insufficient`: C61 (violated): a curve can pass `Check` and still have undefined behaviour when evaluated: with fewer than `p+1` control points the basis function loop reads `U[-1]`.
* `C61_check_accepts_constant`: C61 (violated): a constant knot vector also passes `Check` and evaluation divides by zero.
* `C07_tiny_weights_violated`: C07 (boundary of the tolerance): positive weights below the tolerance are treated as zero and the evaluated point leaves the hull: all projected control points have `x ≥ 10` but the result has `x < 1`.
* `C43_extract_never_valid`: C43 (violated, for every curve and every range): whatever curve of degree at least one `Extract` is called with, a result it returns never passes `Check`: the knot range and the control point range it copies do not have matching lengths.
* `C55_weights_violated`: C55 (violated): with weights `1, 1/2, 1` the point returned is not the rational Bézier point.
* `C44_degenerate`: C44 (outside the precondition): a constant knot vector divides by zero, an empty one is read out of bounds.
* `C22_inverted_range_accepted`: C22: an inverted or empty target range is not rejected; the result then fails `Check`.
* `C21_empty_ub`: C21: an empty knot vector is read out of bounds.
* `C08_projective_violated`: C08 fails for matrices with a perspective part: the weights are not changed, so a projective transform of a curve does not trace the transformed points.
* `C40_linear_diverges`: C40 is violated: with degree one and at least one interior knot the main loop never ends, whatever the (valid, clamped) curve.
* `C40_full_multiplicity_violated`: C40 is violated: at an interior knot of full multiplicity (here a cubic with a triple knot, a valid clamped curve) the second piece does not trace the curve.
* `C164_linear_violated`: C164 is violated by every surface of degree one in a direction (planes, cylinders, ruled surfaces): an exception is thrown, for all resolutions from two on.
* `C164_edges_violated`: C164 is violated by every parallelogram (the square of its area is at least 1/1000): for all resolutions from two on the mesh has four vertices per cell, and none of them is on the far edges `u = 1` and `v = 1`, whatever the random numbers of the half-open unit interval are.
* `C164_range_violated`: C164 is violated: the range of the curvatures, and of the areas, that the density of the samples is scaled with is not their range. The rows of the grid are compared by their first entries, so whenever `x < y` the second row alone gives the largest value and the first row alone the smallest, however large `z` and however small `t` are.
* `C60_stationary_nonfinite`: C60: where the derivative vanishes the code divides zero by zero.
* `C60_speed_one_violated`: C60 (violated): a straight line whose speed at the parameter happens to be one is reported to have curvature 2.
* `C69_curve_normal_violated`: C69 (violated): when the speed happens to be one, `C''/|C''|` is returned as the normal although it need not be orthogonal to the curve: on a straight line the "normal" is the tangent.
* `C70_linear_violated`: C70 (violated): a surface that is linear in a direction makes `Curvature` throw (it asks for second derivatives in both directions), at every parameter.
* `C70_small_patch_violated`: C70 (violated): a saddle of the size of a thousandth of a unit has negative Gaussian curvature, namely `det II / det I`, but is reported to be flat.
* `C42_repeated_violated`: C42 is violated: the same curve can no longer be evaluated at a parameter of its domain after elevation.
* `C156_linear_violated`: C156 (violated): with degree one the approximation never succeeds, whatever the points and the bound.
* `C156_shape_violated`: C156 (violated), with the parameters and distances that the library computes for four equally spaced points of a line and a positive tolerance: the curve misses the second point by a quarter, 25 times the bound.
* `C124_corner_violated`: C124 (violated): a curve with a corner at `(1, h)`, however large `h` is, is replaced by one that passes through `(1, 0)` at the same parameter; the tolerance of the removal is at most 1/10000.
* `C127_natural_rational_violated`: C127 (violated): the natural extension is documented to keep the equation of the curve and to change only the range of the parameter. All points of this quarter circle are on the unit circle; the extended curve leaves it.
* `C127_natural_length_violated`: C127 (violated): the natural extension by length 1 of a curve that stands still at its end answers, but adds no length: all points of the extension are the end point.
* `C127_tangent_violated`: C127 (violated): the segment from the origin to `(10000, 0, 0)` cannot be extended by 1/200 along its tangent.
* `C140_weight_violated`: C140 is violated for points in a plane: with at least one point between the ends the fit never determines a weight: if it succeeds at all, then with the middle of the chord (tangents on the chord's line) or with a control point of weight 0, which gives the straight segment.
* `C140_divides_violated`: C140 is violated in the regular case: if the tangent lines meet properly in `R`, and the line from `R` through the first inner point meets the chord inside, all noticeably, then the fit divides by zero.
* `C142_chord_violated`: C142 is violated out of the plane: when the end tangent is not in the plane of the chord and the start tangent, `FitWithCubic` accepts every sequence of points whatever the permitted error is, and the cubic that it answers is the chord: both inner control points are on it.
* `C142_line_test_violated`: C142 is violated when the fit does not begin at the first point: the test for points on a line runs over the wrong indices. If the start index is at least the number of inner points, it sees at most one point besides the start, and the chord is accepted whatever the points, the tangents and the permitted error are.
* `C142_plane_violated`: C142 is violated in the plane: when the tangents, the chord and the first inner point are in one plane and the points are not on a line, the parameters of the points come from a list that begins with as many zero points as there are points. They are all zero, and the fit divides zero by zero (in the library: the answer is `false`), however well a cubic would fit.
* `C26_zero_direction`: C26: a zero direction divides by zero.
* `C63_pole`: C63: the pole has no image: the division by zero is not caught.
* `C30_inverse_singular_violated`: C30 is violated by `GetInverse`: whatever the underlying linear algebra library returns, it answers `true` for the singular zero matrix, together with something that is not an inverse.
* `C30_isIdentity_violated`: C30: `IsIdentity` accepts the identity but also a shear, because it adds the off-diagonal entries up; the same for `IsTranslation`.
* `C56_small_weight_violated`: C56 is violated for small non-zero weights: `ToXYZ(true)` leaves the coordinates multiplied.
* `C30_rotation_zero_axis_violated`: C30 fails for a zero axis: the "rotation" by 90° about the zero vector maps everything to the origin.
* `C64_random_orthogonal_violated`: C64 is violated on multiples of `(1,-1,1)`: the zero vector is returned, for every angle.
* `C27_perpendicular_reported_parallel_violated`: C27 is violated for short direction vectors: two perpendicular rays in a plane that meet are reported as `Parallel`.
* `C157_few_violated`: C157 (violated): a network with no more curves in one direction than the degree of these curves is always rejected, for example every network of two curves of degree two by any number of other curves.
* `C157_rectangular_violated`: C157 (violated): a network of at least three by at least three curves, not as many in one direction as in the other, is never made, whatever the curves are, provided that the grid of the crossings has a row and a column of positive length. (A grid that meets the hypotheses is shown beside `C113_rectangular_violated`.)
* `C154_domain_violated`: C154 is violated by every surface whose domain does not contain half of its own length in the first direction: the search starts at this number, and throws an exception whatever the point.
* `C154_linear_violated`: C154 is violated by every surface of degree one in a direction: the search throws an exception, whatever the point.
* `C154_foot_violated`: C154 is violated whenever the search starts at the answer: when the vector from the starting point of the surface to the given point is already orthogonal to the surface (in particular when the given point is this point of the surface), the search divides zero by zero.
* `C154_flat_violated`: C154 is violated by every surface without curvature at the start (in particular by every regular plane patch): the search divides by zero, whatever the point.
* `C154_plane_violated`: C154 is violated by every plane patch `a + u b + v c` (of degree two) that is not too small: the search divides by zero, whatever the point.
* `C46_degree_zero_nonfinite`: C46 (violated): `AverageKnotVector` divides by the degree, so degree 0 (which `GlobalInterpolation` accepts) with at least two parameters gives an invalid division.
* `C131_quadratic_violated`: C131 refuted for degree two: whatever the points, the tangents and the solver, nothing is ever returned
* `C131_linear_violated`: C131 refuted for degree one: whatever the points, the tangents and the solver, nothing is ever returned
* `C131_cubic_violated`: C131 refuted for degree three: for five evenly spaced points of a line with unit tangents the knots chosen make the system singular and without a solution, so no sound solver lets the function return
* `C119_sphere_violated`: C119 is false: only the distances to the centre are compared, so `IsArc` answers `true` for a curve on a sphere that is in no plane with its centre: it starts at `(1,0,0)`, passes through `(0,1,0)` and ends at `(-1,0,0)`, and the point at 1/4 is outside of the plane of these three.
* `C99_interior_violated`: C99 is violated when an end of the range is an interior knot: its multiplicity is taken to be zero, so the knot of multiplicity two gets multiplicity five instead of three.
* `C144_start_violated`: C144 (violated): every index of the knot vector is accepted, but at the start of the curve (an index up to the degree) the function reads in front of the control points.
* `C11_unclamped_end_violated`: C11 (violated at the closed end of an unclamped curve): inserting the right end of the domain of an unclamped curve is accepted but changes the curve.
* `C12_unclamped_start_violated`: C12 (violated at the start of an unclamped curve): inserting the left end of the domain produces a curve that cannot be evaluated at that end any more.
* `C59_full_multiplicity_ub`: C59 (violated): at an interior knot of multiplicity `p+1` the work array is empty and its first element is read.
* `C59_unclamped_end_violated`: C59 (violated): at the end of the domain of an unclamped curve the two evaluations differ.
* `C45_internal_map_ub`: C45 (violated): `GetInternalKnotMultiplicityMap` of a knot vector with one distinct knot runs into undefined behaviour.
* `C71_single_ub`: C71 (violated): a knot vector whose knots are all the same makes `IsUniform` read past the end of a vector.
* `C72_no_span_ub`: C72 (violated): when no span is longer than the tolerance (for instance a knot vector with one distinct knot), asking for a knot reads the element with index -1.
* `C155_single_violated`: C155 (violated): the last removable knot is never removed, whatever the bound: a curve with one interior knot comes back as it is.
* `C155_shape_violated`: C155 (violated): the curve returned can be much farther from the curve given than the bound, and the error reported is zero. The curve given is the line `t ↦ 2 t` with the interior knots 1 and 2, which are both redundant.
* `C132_two_control_points_violated`: C132, refuted for two control points: fitting a line to any data writes to an element of an empty array, although a line through the first and the last data point is the answer.
* `C132_too_many_violated`: C132, refuted for too many control points: with more than `m + p + 1` of them the function reads the parameter before the first one.
* `C145_params_violated`: C145 fails: `GetParamsOnCurve` never returns when every measurable part of the curve is longer than the wanted length: it asks for the parameter at that length, gets the start of the curve, at which the curve cannot be split, and tries again for ever.
* `C145_segment_violated`: C145 fails on segments: for a negative length, and for the length zero on a segment of length at least 1000, `GetParamsOnCurve` loops for ever.
* `C111_turning_violated`: C111 is false for straight curves that turn back: the returned length is 0 although the curve passes through (4/9,0,0) and (1/2,0,0).
* `C111_polyline_violated`: C111 is false for polylines: a valid curve of degree one that is not straight is rejected as an invalid argument instead of being measured.
* `C112_two_sections_violated`: C112 refuted: two sections of degree 2 or more, the most common loft, are always rejected with an exception when the defaults are used, because the degree across the sections is the degree of the sections.
* `C112_pole_violated`: C112 refuted: when at least three sections share a control point (arcs through common poles, for example), the default parameters divide by the length of a column of length zero, and the surface consists of NaN.
* `C112_weights_violated`: C112 refuted: when the weights of a column differ between the sections, the surface misses the inner sections: three parabolas with equal knots, the middle one with weight 2 on its second control point. The given parameters are 0, 1/2, 1; the curve `v = 1/2` is not the middle section.
* `C112_knots_violated`: C112 refuted: sections are not brought to a common knot vector. All of them are read with the knots of the first, so that two polylines of degree 1 with different middle knots give a surface whose edge `v = 1` is not the second section as a parametrised curve.
* `C31_transpose_empty_ub`: C31: `Transpose` of the empty matrix reads `matrix[0]` out of bounds.
* `C53_repeated_violated`: C53 is violated when the curve of lower degree has a repeated interior knot: `Merge` of a clamped quadratic curve with a double interior knot and a clamped cubic curve that starts where it ends throws `std::invalid_argument`, because the elevated curve has an invalid knot vector.
* `C54_small_domain_violated`: C54 disagreement: the parameters always run over the unit square, whatever the domain of the surface. On a domain `[0, 1/2]` in U the triangulation throws.
* `C54_large_domain_violated`: C54 disagreement: on a domain `[0, 2]` in U the mesh stops half way: every recorded parameter is at most one and the end of the surface is not among the vertices.
* `C139_ignored_violated`: C139 is violated when the end tangent runs along the chord: whatever the direction of the start tangent, as long as it differs noticeably from the chord, the answer is the straight segment, whose direction at the start is the chord and not the start tangent.
* `C114_outside_violated`: C114 is violated as stated: for every point that projects onto the line of the unit segment just before its start (by less than 1e-4), the search returns that negative parameter, and if it is more than 1e-6 before the start, the curve cannot be evaluated there.
* `C143_beyond_violated`: C143 is violated when the point is to move beyond the point without the leg (a negative distance larger than the distance to it): the code works with unsigned lengths, and the point ends on the wrong side, as far from it as the target but not at the target.
* `C143_last_violated`: C143 is violated for the last control point: the index passes the check, but its neighbour does not exist and is read all the same.
* `C143_scale_violated`: C143 is violated by the scale: it is checked, but otherwise it has no effect.
* `C80_negative_extent_diverges`: C80 disagreement: with a negative minimal extent the construction does not terminate when more than `leafSize` points coincide.
* `C81_small_radius_violated`: C81 disagreement: for small radii the pruning test compares squared lengths with an absolute tolerance of 1e-6, so a point five times closer than the radius is missed: the query `(0.49999, 0, 0)` with radius 1e-4 reports nothing although the point `(0.50001, 0, 0)` is at distance 2e-5.
* `C147_polyline_violated`: C147: no line and no polyline can be offset: whatever curve of degree 1 with weights 1 is given, both methods divide by the length of the vanishing second derivative and the result is not a number.
* `C18_small_value_violated`: C18 is violated: values below the tolerance are dropped, so on the cubic Bézier knot vector the last basis function at `t = 1/1000` comes out as `0` instead of `t³`.
* `C18_unclamped_violated`: C18: on an unclamped knot vector the shortcut for the first basis function answers `1` at the first knot, where the function is `0`.
* `C18_index_ub`: C18: an index for which there is no basis function (`i + p + 1` is not a knot index) is not rejected: for every knot vector some such call reads behind the end of it.
* `C66_right_end_violated`: C66 is violated at the right end of the domain of a clamped knot vector: all values of the last basis function are reported as zero, also the function value itself, which is one (and which `OneBasisFunction` gets right).
* `C154_degenerate_violated`: C154 is violated by every patch that is flattened to a line: whatever the given point is, the search returns the pair of numbers 1e-6, which depends neither on the point nor on the patch.
* `C126_weights_violated`: C126 (violated): the weights are not compared; `IsPeriodic` answers `true` for a curve that starts at `(1/2, 0, 0)` and ends at `(3/4, 0, 0)`.
* `C126_segment_violated`: C126 (violated): without wrapped control points the query compares the curve at the first and the last *knot*. These lie outside the domain of an unclamped curve, where the polynomials of the first and the last span are extrapolated. `IsPeriodic` answers `true` for a piece of a straight line that runs from `(1/2, 0, 0)` to `(9/2, 0, 0)`.
* `C160_empty`: C160: a product with an empty matrix on either side reads out of bounds.
* `C15_bernstein_actual_partial`: C15: what the code returns for `1 ≤ i < n`: the Bernstein polynomial of degree `n - i + 1`.
* `C15_bernstein_violated`: C15 is violated by the code: `Bernstein(2,3,1/2)` returns `1/4` instead of `3/8`.
* `C25_not_transitive`: C25: `IsAlmostEqualTo` is not transitive.
* `C49_negative_degree_ub`: C49: a negative degree is not rejected: the first write is behind the end of the empty matrix.
* `C129_stuck_violated`: C129 (violated): the function never returns, whatever angles are drawn, when the first derivative at the first knot is a multiple of `(1, -1, 1)`, or when the first derivative vanishes at a later knot.
* `C129_closed_violated`: C129 (violated): for a closed curve nothing is ever returned: the array of averaged vectors is one element too short and is written past its end, unless the search for the vectors does not end.
* `C129_closed_ub_violated`: C129 (violated): on a closed curve of that kind the write past the end does happen.
* `C58_degree_one_ub`: C58: for degree one the code reads an array element before the first one.
* `C57_empty_rejected`: C57: an empty list of knots is rejected.
* `C41_accepts_anything_violated`: C41 (violated): when the degree minus the multiplicity of the knot is even (for instance a simple knot of a cubic), the removal is accepted whatever the control points are, and the new curve does not depend on the middle one of the control points involved.
* `C41_undo_violated`: C41 (violated): for an insertion that raised the multiplicity to the degree minus one, the removal is accepted but returns a wrong control point: a combination of the right one and its neighbour, so the original curve is restored only if these two points are equal.
* `C41_not_close_violated`: C41 (violated): the library's `RemoveKnot` answers `true` for the simple knot of a cubic and the new curve is 50 units away from the old one (its tolerance is at most 1/10000).
* `C41_undo_points_violated`: C41 (violated): inserting a knot into a parabola and removing it again is answered with `true` and a different parabola.
* `C41_count_violated`: C41 (violated): when fewer copies can be removed than asked for, `true` is answered with the knots of the full count and the control points of the smaller one; the result is not a curve.
* `C108_end_violated`: C108 is false at the end of the domain: there the code divides by zero, for every curve, control point, direction and distance.
* `C108_distance_violated`: C108 is false in general: moving the point of a straight segment at 1/4 by the distance 3 through its second control point moves it by the distance 1.
* `C109_distance_violated`: C109 is false in general: asked to pull the point of a straight segment at 1/4 by 1/4 towards its second control point (that is to 1/2), the code produces a curve whose point there is 5/14.
* `C109_end_violated`: C109 is false at the end of the domain: there the code divides by zero, for every curve, control point and distance.
* `C47_order_violated`: C47 disagreement: distances closer than the tolerance are not sorted.
* `C47_drift_violated`: C47 disagreement: a distance slightly above the worst one replaces it, so a slowly growing sequence pushes the kept distance away from the minimum without limit: after `n + 1` additions of `1, 1 + 1e-6, 1 + 2e-6, …` to a set of capacity one the kept distance is the largest of all.
* `C47_far_violated`: C47 disagreement: entries farther than 1e10 are dropped although the set is empty.
* `C47_capacity_zero_violated`: C47 disagreement: with capacity zero the first addition writes outside the list.
* `C88_axis_violated`: C88 is violated for an axis that is not of unit length: turning the vertical line at the distance 1 about the axis `(0, 0, 2)` succeeds, but the surface contains points that are not at the distance 1 from the axis.
* `C88_near_violated`: C88 is violated close to the axis: a vertical line at the distance `1/100` from the axis is not turned by `π/3`.
* `C163_linear_violated`: C163 is violated by every surface of degree one in a direction (planes, cylinders, ruled surfaces): an exception is thrown, whatever the point.
* `C163_sign_violated`: C163 is violated near every parallelogram: for every point at most 1e-6 below it the value is positive.
* `C159_sublength_violated`: C159 (violated): on every segment, for every range of parameters that ends before the end of the segment, the length returned is the length from the start of the range to the end of the whole segment. It does not depend on the end of the range, and it is never the length of the range.
* `C32_empty_ub`: C32: a surface without control points is read out of bounds.
* `C35_u_fresh_violated`: C35 (violated): reversing in the U direction into a fresh output object does not set its V knot vector: the result does not even pass `Check`.
* `C35_v_violated`: C35 (violated): reversing in the V direction, whatever the output object held, yields twice as many control point rows, the first half of them empty: the result never passes `Check`.
* `C35_all_violated`: C35 (violated): `All` reverses the control points only in the U direction although both knot vectors are reversed; the result is not the surface traversed backwards in both directions.
* `C36_one_direction_violated`: C36 (violated): when one direction already has the requested range, the other direction is not reparametrised at all: for every well-formed surface the request `[U_0,U_end] × [minV,maxV]` returns the surface unchanged, whatever `minV`, `maxV` are.
* `C37_box_violated`: C37 (violated): the box returned by `GetBoundingBox` need not contain the surface. The control net has `z`-values 0, 1, 0 in the V direction, the samples are taken only at knot pairs (all with `z = 0`), and the intersection of the two boxes loses the bump: the box has `z ≤ 0`, the surface point at `v = 1/2` has `z = 1/2`.
* `C37_box_ub`: C37 (violated): a valid surface with more U knots than V knots makes `GetBoundingBox` read the V knot vector out of bounds.
* `C150_linear_violated`: C150 is violated by every surface of degree one in a direction: the search throws an exception, whatever the point.
* `C150_all_violated`: C150 is violated: the point `(1, 1, 0)` is on the folded strip at the parameters `(0, 1)` and `(1, 0)`, and the strip is not closed, but the search returns one pair of parameters only: it looks at the inner samples and at the last corner, so that the parameters on the border are not searched for.
* `C136_unequal_violated`: C136 (violated): whenever different numbers of rows and columns of control points are asked for, the returned surface is not a valid one: `Check` rejects it, and evaluating it at the end of its parameter range reads outside the control points.
* `C136_chord_unequal_violated`: C136 (violated): with the chord parameters that the library uses, a surface with different numbers of rows and columns of control points is never valid.
* `C136_exchanged_violated`: C136 (violated): even with as many control points as data points in both directions, the degrees and knots of the two directions are exchanged: a grid of three rows that turn at a right angle, approximated with degree 1 along the rows (whose least squares curves pass through all the points) and degree 2 across: the middle points of the rows are not on the surface.
* `C85_repeated_violated`: C85 (violated): a quadratic curve with a double interior knot and a cubic curve on the same interval. Both are valid; the ruled surface made of them has a knot vector that is not sorted, and evaluating it inside the domain throws `std::out_of_range`.
* `C130_unclamped_violated`: C130 is violated without clamped ends: the surface is well-formed and can be evaluated, but its decomposition writes past the end of the vector of strips (undefined behaviour) instead of returning its single patch.
* `C130_torn_violated`: C130 is violated where an interior knot is repeated `degree + 1` times: the row index `degree - multi` is negative.
* `C96_repeated_violated`: C96 is violated by every surface with a repeated interior U knot (and a positive last knot): the U knots of the result are not sorted.
* `C83_times_zero_violated`: C83 disagreement: with zero insertions, which are not rejected, the middle loop copies unset control points: the surface changes.
* `C83_end_knot_ub`: C83: a value of multiplicity above the degree (such as the end of a clamped range) makes the size of the ratio table negative.
* `C113_rectangular_violated`: C113 refuted: a grid with at least three rows and three columns, and not as many rows as columns, is never interpolated: the parameters of the rows are read with column numbers and those of the columns with row numbers, and one of these reads is outside its vector, whatever the degrees and the solver.
* `C113_swapped_violated`: C113 refuted for square grids too: nine points with different spacings in the two directions. Whatever sound solver is used, the surface returned for degrees 2 and 2 passes through `(0, 1/4, 0)` at the parameters `(u_0, v_1) = (0, 1/4)` of the point `(0, 1, 0)`.
* `C149_linear_violated`: C149 is violated by every surface that is of degree one in a direction (planes, cylinders, ruled surfaces): the search throws an exception, whatever the point.
* `C149_nearest_violated`: C149 is violated: on a sheared square, for the point `(1/2, -1, 0)`, the search returns the corner `(1, 0)`, at the distance `√5/2`, although the point of the surface at `(1/2, 0)` is at the distance 1: the Newton iterates are clamped in each parameter separately, whatever the start.
* `C92_small_violated`: C92 is violated for small surfaces: on a flat square patch with sides 1/50, which is regular with orthogonal partial derivatives, `GetUVTangent` answers `false` for every vector.
* `C93_rational_violated`: C93 is violated for rational surfaces: scaling a patch with corner weights `1, 1, 2, 2` by the factors `1, 1, 1` should leave it unchanged, but moves its corner from `(1, 0, 0)` to `(1/2, 0, 0)`, because the new control points keep the weights and lose the multiplication by them.
* `C84_empty_rejected`: C84: an empty list of knots is rejected.
* `C128_refused_v_violated`: C128 (violated): when the removal is refused for one row, the result is not a surface: that row is empty. Nothing tells the caller.
* `C128_refused_u_violated`: C128 (violated), U direction: the first column is refused; the result has no control points.
* `C128_library_violated`: C128 (violated) with the library's tolerance: a knot that one row of the surface needs. The call succeeds, and leaves that row without control points.
* `C101_small_weights_violated`: C101: with smaller weights the product weight can fall below the library's zero tolerance and the evaluated surface point is not the sum: both curves are straight lines from 0 to 1, all weights are 1/2000.
* `C158_end_violated`: C158 (violated): the profile is never placed at the end of the trajectory: whenever the sweep returns a surface, it is a loft through `K + 1` placed profiles, none of which stands at the end of the trajectory, not even up to the tolerance of the comparison.
* `C133_closed_violated`: C133 (violated): a closed trajectory is never swept: `ProjectNormal` writes past the end of an array or does not come back.
* `C133_normal_plane_violated`: C133 (violated): on a trajectory of one Bezier segment all sections get the same `x` axis, the vector drawn at random for the start. Unless this vector happens to be orthogonal to the tangent at the end, the last section does not lie in the normal plane of the trajectory: every point of it that comes from a point `a` of the profile off the `y` axis lies outside.
* `C134_scale_violated`: C134 (violated): the scale has no effect. Whatever the profile and the trajectory, the result for the scale `s` is the result for the scale 1, as long as no product of a weight with `s` is taken for zero.
* `C134_profile_violated`: C134 (violated): a point of the profile in the origin of its coordinates is not placed on the trajectory but one above it; and where the tangent and the axis do not vanish, the edge is congruent to the profile without its weights, so that a point of the profile that the weights move is not placed on the surface point at its parameter.
* `C134_zero_scale_violated`: C134 (violated): with the scale zero the result is never a surface, because every weight becomes zero and is divided by.
* `C105_reuse_violated`: C105: the output vectors must be empty (or zero) on entry: with the vectors of an earlier call for a mesh of the same size, every interior parameter is off by the old parameter divided by the number of columns averaged.
* `C106_straight_violated`: C106 is false for points with a straight stretch: whenever `q_1 ∥ q_2` and `q_3 ∥ q_4`, in particular when the first five points are on a line, the third tangent is `0 / 0`.
* `C106_line_violated`: C106: every list of at least five points on a line is in the scope of `C106_straight_violated`.
* `C107_parabola_violated`: C107 is false in general: for three points with segments of length 5 and 10 the parabola through them at their chord parameters has the derivative (6, 13, 0) at the middle point, `ComputeTangent` returns (3, 14, 0) (the two weights are exchanged).
* `C107_repeated_violated`: C107 is false for repeated points: if an interior point is followed by a copy of itself and the step before it is a noticeable part of the whole, `ComputeTangent` divides zero by zero (the two special branches are exchanged).
* `C91_edges_violated`: C91 is violated by every valid clamped surface: of its two edges at the far ends of the u and the v direction only the common corner is sampled (while the edges at the near ends are sampled as densely as the interior).
* `C121_undefined_nonfinite`: C121: where `C' × C''` vanishes (on a straight piece, at an inflection or a cusp) the torsion is undefined; unless the speed is (up to tolerance) one, the code divides zero by zero.
* `C121_speed_one_violated`: C121 (violated): a cubic whose speed at the parameter happens to be one, with torsion 1 there, is reported to have torsion 1/2.
* `C162_unit_violated`: C162 (violated): for every tolerance below 1, `IsUnit` rejects vectors whose length differs from 1 by less than the tolerance: all those for which the difference is at least the square of the tolerance. There are such vectors.
* `C52_reverse_v_violated`: C52 violated: `Reverse` in V writes into an array that was never sized, for every well-formed volume.
* `C52_reverse_w_violated`: C52 violated: the same in W.
* `C52_refine_u_violated`: C52 violated: `RefineKnotVector` in U writes past the end of its array for every well-formed volume and every list of knots that the curve operation accepts.
* `C52_refine_v_violated`: C52 violated: the same in V.
* `C52_refine_w_violated`: C52 violated: the same in W.
* `C151_overlap_violated`: C151 is violated: the face `u = 0` of this clamped volume contains the point `(0, 0, 0)` and the face `u = 4` has the point `(1, 0, 0)` at the same parameters, but `IsClosed` answers `true`, because on each curve the first two control points agree with the last two.
* `C51_derivatives_violated`: C51 disagreement: no volume whatsoever gets its derivatives from `ComputeVolumeRationalDerivatives`. For every well-formed volume, every parameter in its domain and every order up to the three degrees the routine divides by zero (all homogeneous derivatives are computed as zero), or, when the V degree exceeds the W degree, reads past the end of an array.
* `C98_repeated_violated`: C98 is violated for a repeated interior knot: the constant volume 1 is no longer evaluable after the elevation, since the new U knots end in zero.
* `C152_param_violated`: C152 is violated by every volume: the search for the parameters of a point never returns, whatever the volume and the point. If all degrees are at least two its first Newton step divides by zero, or, if the V degree exceeds the W degree, reads past the end of an array (the volume derivatives are defective, see `C51_derivatives_violated`); if one of the degrees is one an exception is thrown.
* `C152_check_violated`: C152 is violated by every volume: the validity check computes no Jacobian, whatever the volume: at its first sample it divides by zero, or reads past the end of an array if the V degree exceeds the W degree. In the first case the program goes on with values that are not numbers, which are never at most zero, and accepts the volume.
* `C78_full_multiplicity_violated`: C78 violated: at an interior knot of multiplicity degree plus one the halves have one knot too many.
* `C52_extract_violated`: C52 violated: whatever `Extract` computes, the caller's surface is the one that was passed in.
* `C52_extract_end_violated`: C52 violated: at the ends of the range `Extract` reads degrees that were never assigned.
* `C116_answer_violated`: C116 is violated: the answer `true` does not mean that a part of the curve is on the line. The flattened polyline is on the line at two isolated parameters only.
* `C116_before_violated`: C116 is violated: a point of the curve before the start parameter moves.
* `C117_before_violated`: C117 is violated: a point of the curve before the start parameter moves.
* `C117_centre_violated`: C117 is violated: for every valid curve, when the first selected control point is the centre the bend divides by zero and the new control point is not a number.
* `C167_minimises_violated`: C167 fails: unless `∑ w (w - 1) Q` vanishes, the curve returned does not minimise the weighted sum of squared distances: moving the whole curve makes it smaller.
* `C167_same_point_violated`: C167 fails: two tangents at one point (all tangents having weights other than zero) are never accepted, whatever the solver; `order` is any order of the tangents by their points.

## 6. What is modelled

Every definition of `Verif/Model` with the code it transcribes (paths relative to /repo/src/LNLib; those that begin with dotnet/ to /repo):

* `Verif/Model/AdaptiveTessellate.lean`
  * `tessellateCore` — `TessellateCore`, Geometry/Curve/NurbsCurve.cpp:93-117; returns the parameters it appends. The first argument is `MAX_DEPTH - depth`, the number of levels left.
  * `vback` — `parameters.back()`; undefined on an empty vector.
  * `keepIncreasing` — The loop that filters the parameters of one span, Geometry/Curve/NurbsCurve.cpp:4174-4179.
  * `tessellateParams` — The parameters, Geometry/Curve/NurbsCurve.cpp:4156-4188.
  * `tessellate` — `NurbsCurve::Tessellate`, Geometry/Curve/NurbsCurve.cpp:4141-4196, with `ControlPointsUtils::ToXYZ`, Algorithm/ControlPointsUtils.cpp:19-27.
* `Verif/Model/AllParamsCurve.lean`
  * `notCentre` — The check for the centre of a circle, Geometry/Curve/NurbsCurve.cpp:1333-1342. When the centre of the three points is not finite, `IsArc` answers `false` (all comparisons with NaN fail), so this outcome is not reported here.
  * `curveGuesses` — The starting points, Geometry/Curve/NurbsCurve.cpp:1357-1376: the samples that are not farther from the point than their neighbours.
  * `newtonRoundAll` — One Newton round, Geometry/Curve/NurbsCurve.cpp:1385-1423; the way back into the domain of lines 1414-1421 is that of `backIntoTol`. The boolean is true when the loop is left.
  * `newtonLoopAll` — The Newton loop, Geometry/Curve/NurbsCurve.cpp:1379-1424.
  * `sameParamC` — The comparison with one of the parameters found before, Geometry/Curve/NurbsCurve.cpp:1427-1441.
  * `getAllParamsOnCurve` — `NurbsCurve::GetAllParamsOnCurve`, Geometry/Curve/NurbsCurve.cpp:1331-1450.
* `Verif/Model/Arc.lean`
  * `constPi` — `Constants::Pi`, include/Constants.h:27: the decimal literal (not the real number π).
  * `arcCount` — The number of arc segments, Geometry/Curve/NurbsCurve.cpp:1798-1817.
  * `ArcState` — The variables of the loop Geometry/Curve/NurbsCurve.cpp:1830-1853.
  * `arcPoint` — The point of the ellipse, Geometry/Curve/NurbsCurve.cpp:1828 and 1837.
  * `arcTangent` — The tangent direction, Geometry/Curve/NurbsCurve.cpp:1829 and 1839.
  * `arcRound` — One pass of the loop Geometry/Curve/NurbsCurve.cpp:1834-1853; `none` is the early `return false`. `param0`, `param2` and `P1` are only outputs of `ComputeRays`, so the values they start with do not matter.
  * `arcStep` — The loop body after a possible early `return false` (`none`), Geometry/Curve/NurbsCurve.cpp:1834-1853.
  * `arcKnots` — The interior knots, Geometry/Curve/NurbsCurve.cpp:1863-1879.
  * `createArc` — `NurbsCurve::CreateArc`, Geometry/Curve/NurbsCurve.cpp:1788-1881. `none` is `return false`, which leaves the output curve as it was.
* `Verif/Model/BasisDers.lean`
  * `zeros2` — A `std::vector<std::vector<double>>(r, std::vector<double>(c))`: every cell is initialised to zero.
  * `nduTable` — The triangular table loop. The same text appears three times: Algorithm/Polynomials.cpp:209-233 (`BasisFunctionsDerivatives`), 308-332 (`BasisFunctionsFirstOrderDerivative`) and 553-571 (`AllBasisFunctions`); only the storage of `ndu`, `left` and `right` differs, so it is a parameter. The outer loop state is (`ndu`, `left`, `right`), the inner one (`ndu`, `saved`).
  * `dersRound` — One round `k` for basis function `r` of the coefficient recursion: the text Algorithm/Polynomials.cpp:249-281 (`BasisFunctionsDerivatives`) and 347-379 (`BasisFunctionsFirstOrderDerivative`, `k = 1`). Returns the two-row table `a` and the value `d`.
  * `basisFunctionsDerivatives` — `Polynomials::BasisFunctionsDerivatives`, Algorithm/Polynomials.cpp:195-298. The state of the loop over `k` is (`a`, `s1`, `s2`, `derivatives`). The factor `r *= degree - k` is an `int` (at most `7!`, no overflow) converted to `double`.
  * `basisFunctionsFirstOrderDerivative` — `Polynomials::BasisFunctionsFirstOrderDerivative`, Algorithm/Polynomials.cpp:300-394. `derivatives` is the caller's array `double[2][NURBSMaxDegree + 1]`.
  * `allBasisFunctions` — `Polynomials::AllBasisFunctions`, Algorithm/Polynomials.cpp:542-572. The entries strictly below the diagonal keep the knot differences.
  * `BsplineCurve.computeDerivatives` — `BsplineCurve::ComputeDerivatives`, include/BsplineCurve.h:73-98.
  * `BsplineCurve.controlPointsOfDerivatives` — `BsplineCurve::ComputeControlPointsOfDerivatives`, include/BsplineCurve.h:105-131. The two `VALIDATE_ARGUMENT_RANGE` arguments are `int`s converted to `double`.
  * `BsplineCurve.computeDerivativesByAll` — `BsplineCurve::ComputeDerivativesByAllBasisFunctions`, include/BsplineCurve.h:138-170.
  * `NurbsCurve.rationalDerivatives` — `NurbsCurve::ComputeRationalCurveDerivatives`, Geometry/Curve/NurbsCurve.cpp:260-286. `Aders` and `wders` are the two projections of `ders`.
* `Verif/Model/BezierPieces.lean`
  * `skipEqual` — `while (b < m && IsAlmostEqualTo(knotVector[b + 1], knotVector[b])) b++;` Geometry/Curve/NurbsCurve.cpp:687-690 and (arguments of the symmetric comparison exchanged) 960-963. The loop runs at most `m` times, so `m` is enough fuel.
  * `splitAlphas` — The table of interpolation factors, Geometry/Curve/NurbsCurve.cpp:694-699 and 977-982.
  * `splitPiece` — Inserting the right end knot until the current piece is a Bézier piece; the points saved on the way are the first points of the next piece. Geometry/Curve/NurbsCurve.cpp:701-717 (where the next piece is only written if `b < m`: `save`) and 983-993. `cur` is the row of the current piece, `nxt` the row of the next one.
  * `DecompState` — Loop state of `DecomposeToBeziers`: `a`, `b`, `nb` and the control points of the pieces.
  * `decompRound` — One round of the main loop of `DecomposeToBeziers`, Geometry/Curve/NurbsCurve.cpp:684-732. The row of the next piece is read up front when it is written later (`b < m`, and the loop over `j` runs at least once).
  * `decomposeToBeziers` — `NurbsCurve::DecomposeToBeziers`, Geometry/Curve/NurbsCurve.cpp:636-735. `fuel` bounds the number of rounds of the main loop: a run that needs more is reported as `diverge`.
  * `bezierElevation` — The coefficients of Bézier degree elevation, Geometry/Curve/NurbsCurve.cpp:905-929. `ph / 2` is an `int` division of a positive number.
  * `ElevateState` — Loop state of `ElevateDegree` (`mh` is computed but never used by the C++ and left out).
  * `elevatePiece` — The degree elevated Bézier points, Geometry/Curve/NurbsCurve.cpp:996-1005.
  * `elevateRemovePass` — One pass of knot removal at the left end of the piece (the `while` over `i` and `j`), Geometry/Curve/NurbsCurve.cpp:1016-1050. State: (`i`, `j`, `Q`, `ebpts`); `kj = j - kind + 1` throughout.
  * `elevateRemove` — The removal of the superfluous knots at the left end of the piece, Geometry/Curve/NurbsCurve.cpp:1007-1055. State: (`first`, `last`, `Q`, `ebpts`).
  * `elevateEmit` — The part of a round that appends the elevated piece to the result: elevated points, knot removal, the knots `ua` and the control points, Geometry/Curve/NurbsCurve.cpp:998-1065.
  * `elevateRound` — One round of the main loop of `ElevateDegree`, Geometry/Curve/NurbsCurve.cpp:957-1086. The `int` divisions have nonnegative numerators.
  * `elevateDegree` — `NurbsCurve::ElevateDegree`, Geometry/Curve/NurbsCurve.cpp:893-1093. The main loop advances `b` in every round that does not end it, so `m` is enough fuel. A negative `std::vector` size (degree 0) throws `std::length_error` in the C++; the model's `toNat` makes it an empty vector.
* `Verif/Model/Bicubic.lean`
  * `getColumn` — `MathUtils::GetColumn`, include/MathUtils.h:76-85.
  * `bicubicSums` — One of the two loops over columns or rows, Geometry/Surface/NurbsSurface.cpp:2266-2284 and 2294-2311: the lines are the columns (`read k l = [k][l]`) or the rows. Result: the tangents `td`, line by line, the sums of the distances and the total. `r` and `s` are only read in the round in which they are computed, and the tangents are stored by lines here, by grid position in the source.
  * `bicubicParams` — `ub` from the sums, Geometry/Surface/NurbsSurface.cpp:2285-2291 and 2312-2318; `n` is the last index.
  * `bicubicLine` — The control points along one row or column, Geometry/Surface/NurbsSurface.cpp:2340-2350 and 2363-2373: `points` and `T` are the points and tangents of the line, `u` the parameters, which in the source are those of the OTHER direction, `len` the length of the line.
  * `bicubicTwists` — The mixed derivatives, Geometry/Surface/NurbsSurface.cpp:2380-2394; `tu k l = td[k][l][0]`, `tv k l = td[k][l][1]`.
  * `bicubicInner` — The inner control points, Geometry/Surface/NurbsSurface.cpp:2396-2408.
  * `getIndex` — `GetIndex`, Geometry/Surface/NurbsSurface.cpp:78-87.
  * `bicubicFilter` — The rows and columns that are kept, Geometry/Surface/NurbsSurface.cpp:2410-2420.
  * `bicubicKnots` — A knot vector for `nu` control points, Geometry/Surface/NurbsSurface.cpp:2427-2432 and 2434-2439.
  * `bicubicBy` — `NurbsSurface::BicubicLocalInterpolation`, Geometry/Surface/NurbsSurface.cpp:2237-2447. It never returns `false`.
  * `bicubicLocalInterpolation` — The same over the real numbers, Geometry/Surface/NurbsSurface.cpp:2237-2447.
* `Verif/Model/CApi.lean`
  * `Buffer` — A `static thread_local std::vector`, dotnet/CAPI/include/NurbsCurve_CAPI.h:268-270 and dotnet/CAPI/src/NurbsSurface_CAPI.cpp:20-26: its contents, its capacity, and `gen`, which counts how often its storage has been given up for another one (so that a pointer into it remembers which storage it points into).
  * `Buffer.assign` — `buffer = list`, and `clear`, `reserve`, `push_back` …: dotnet/CAPI/include/NurbsCurve_CAPI.h:272, 274-278, dotnet/CAPI/src/NurbsSurface_CAPI.cpp:45-56. The storage is kept if the new contents fit into it (libstdc++ and the other libraries do this for a copy assignment; the standard promises it for `clear` and `reserve`), otherwise it is freed and another one is taken.
  * `Pointer` — What a handle points at: memory of the caller, or the storage number `gen` of the buffer of the thread.
  * `readN` — The elements `p[0] … p[count - 1]`, dotnet/CAPI/include/NurbsCurve_CAPI.h:258-263, dotnet/CAPI/src/NurbsSurface_CAPI.cpp:32-33. Reading storage that has been freed, or behind the end, is undefined.
  * `readAt` — `p[index]`, dotnet/CAPI/src/NurbsSurface_CAPI.cpp:37.
  * `CurveC` — `LN_NurbsCurve_C`, dotnet/CAPI/include/NurbsCurve_CAPI.h.
  * `CurveBuffers` — The buffers of a thread for curves, dotnet/CAPI/include/NurbsCurve_CAPI.h:268-270 (the second one is only an intermediate copy and left out).
  * `fromCapi` — `FromCAPI` for curves, dotnet/CAPI/include/NurbsCurve_CAPI.h:255-265.
  * `toCapi` — `ToCAPI` for curves, dotnet/CAPI/include/NurbsCurve_CAPI.h:267-287: the buffers afterwards, and the handle. The casts of sizes to `int` are exact here.
  * `capiCall` — The functions of dotnet/CAPI/src/NurbsCurve_CAPI.cpp that take a curve and return a curve: 372-376 (`reverse`), 378-386 (`reparametrize`), 439-446 (`elevate_degree`) and the like. `f` is the function of the library, with its other arguments.
  * `toCapiAll` — The loop of `LNLIB_NURBSCUR_decompose_to_beziers`, dotnet/CAPI/src/NurbsCurve_CAPI.cpp:340-342.
  * `threadReturn` — The buffers of all threads after the thread `e.1` has returned the curve `e.2`: they are `thread_local`, dotnet/CAPI/include/NurbsCurve_CAPI.h:268-270.
  * `capiSplitAt` — `LNLIB_NURBSCUR_split_at`, dotnet/CAPI/src/NurbsCurve_CAPI.cpp:295-307; `none` is the answer 0, which leaves `out_left` and `out_right` as they were.
  * `capiDecompose` — `LNLIB_NURBSCUR_decompose_to_beziers`, dotnet/CAPI/src/NurbsCurve_CAPI.cpp:334-344.
  * `SurfaceC` — `LN_NurbsSurface_C`, dotnet/CAPI/include/NurbsSurface_CAPI.h:23-33.
  * `SurfaceBuffers` — The buffers of a thread for surfaces, dotnet/CAPI/src/NurbsSurface_CAPI.cpp:20-23 (the third one is only an intermediate copy; those of the lines 24-26 are never used).
  * `fromCapiS` — `FromCAPI` for surfaces, dotnet/CAPI/src/NurbsSurface_CAPI.cpp:28-42. A negative count throws `std::length_error`; the model reports `ub`.
  * `toCapiS` — `ToCAPI` for surfaces, dotnet/CAPI/src/NurbsSurface_CAPI.cpp:44-70: the width is that of the first row; a shorter row is read behind its end, of a longer one the rest is dropped.
* `Verif/Model/CApiArrays.lean`
  * `unflatten` — The loops that read a flat array, row by row: dotnet/CAPI/src/Polynomials_CAPI.cpp:38-42 and 286-290; the same in dotnet/CAPI/src/BezierSurface_CAPI.cpp, Interpolation_CAPI.cpp and NurbsSurface_CAPI.cpp.
  * `capiHorner2` — `LNLIB_POLY_horner_uv`, dotnet/CAPI/src/Polynomials_CAPI.cpp:30-47. A negative degree below -1 throws `std::length_error`; the model reads an empty table, which the library refuses.
  * `capiBezierToPower` — `LNLIB_POLY_bezier_to_power_matrix`, dotnet/CAPI/src/Polynomials_CAPI.cpp:233-273: the new array and its sizes; `none` is an early `return`, after which the outputs are as they were.
  * `capiPowerToBezier` — `LNLIB_POLY_power_to_bezier_matrix`, dotnet/CAPI/src/Polynomials_CAPI.cpp:275-316. `before` is what `out_matrix` leads to when the function is called: the cells `out_matrix[0]`, `out_matrix[1]`, … of the caller, each with the numbers it points at; reading behind either is undefined. The loop of the lines 307-311 reads `out_matrix[i][j]`, not `result[i][j]`.
* `Verif/Model/CanDerive.lean`
  * `canComputeDerivative` — `NurbsCurve::CanComputeDerivative`, Geometry/Curve/NurbsCurve.cpp:288-304. `KnotVector.back()` of an empty vector is undefined.
* `Verif/Model/Clamp.lean`
  * `unclampStartInner` — The inner loop at the start of the curve, Geometry/Curve/NurbsCurve.cpp:3673-3679. State: (`controlPoints`, `k`).
  * `unclampStart` — The loop at the start of the curve, Geometry/Curve/NurbsCurve.cpp:3670-3680. State: (`knotVector`, `controlPoints`).
  * `unclampEndInner` — The inner loop at the end of the curve, Geometry/Curve/NurbsCurve.cpp:3685-3689.
  * `unclampEnd` — The loop at the end of the curve, Geometry/Curve/NurbsCurve.cpp:3682-3690.
  * `toUnclampCurve` — `NurbsCurve::ToUnclampCurve`, Geometry/Curve/NurbsCurve.cpp:3663-3696.
  * `isClamp` — `NurbsCurve::IsClamp`, Geometry/Curve/NurbsCurve.cpp:3698-3712.
  * `clampCopy` — The copying loop of `NurbsCurve::ToClampCurve`, Geometry/Curve/NurbsCurve.cpp:3572-3579. State: (`knotVector`, `controlPoints`).
  * `resizeTo` — `std::vector::resize(size, value)`; a negative size wraps around and throws `std::length_error`, reported as `ub`.
  * `toClampCurve` — `NurbsCurve::ToClampCurve` up to the closedness repair of lines 3585-3591, Geometry/Curve/NurbsCurve.cpp:3549-3583.
* `Verif/Model/Conic.lean`
  * `fsqrt` — `std::sqrt`; the square root of a negative number is not a number
  * `createOneConicArc` — `NurbsCurve::CreateOneConicArc`, Geometry/Curve/NurbsCurve.cpp:1885-1927: the point and the weight, or `none` for `return false`. The uninitialised `param0` and `alf0` (lines 1890, 1895) are only read after `ComputeRays` has set them.
  * `SplitArc` — The outputs of `NurbsCurve::SplitArc`.
  * `splitArc` — `NurbsCurve::SplitArc`, Geometry/Curve/NurbsCurve.cpp:1929-1935. Its parameter `insertWeight` is passed by value, so the assignment to it (line 1934) has no effect for the caller; it is only kept as a possible failure.
  * `conicSegments` — The choice of the number of segments in `CreateOpenConic`, Geometry/Curve/NurbsCurve.cpp:1947-1975 (for a weight above -1).
  * `createOpenConic` — `NurbsCurve::CreateOpenConic`, Geometry/Curve/NurbsCurve.cpp:1937-2045. `none` is `return false`. The knot vector and the control points of each of the three cases are written out; `wqr` is `0` throughout because `SplitArc` does not return it.
* `Verif/Model/ConicFit.lean`
  * `bisectorPoint` — The second half of `Interpolation::ComputerWeightForRationalQuadraticInterpolation`, Algorithm/Interpolation.cpp:230-244 (and 246-256 with the end points exchanged): the point in which the line from `s` to a point of the opposite side meets the line from the middle of the base to `r`; `none` if `ComputeRays` finds none.
  * `rationalQuadraticWeight` — `Interpolation::ComputerWeightForRationalQuadraticInterpolation`, Algorithm/Interpolation.cpp:211-263; `none` for the result `false` (the weight is then left alone). The parameters `alf1`, `alf2` and the points that are passed to `ComputeRays` are not read before they are set; they are 0 here.
  * `oneMiddlePoint` — The step `bool result = …; if (!result) return false; controlPoints.emplace_back(XYZW(R, weight)); return true;`, Geometry/Curve/BezierCurve.cpp:67-70, 75-78 and 86-89.
  * `middleControlPoints` — `BezierCurve::ComputerMiddleControlPointsOnQuadraticCurve`, Geometry/Curve/BezierCurve.cpp:39-132; the control points that are appended, `none` for `false`.
* `Verif/Model/Constrain.lean`
  * `constraintRows` — the rows of the constraint matrix, Geometry/Curve/NurbsCurve.cpp:3460-3470. `count` is the number of constraints.
  * `scanRows` — the inner loop with `break` over the rows of one column, Geometry/Curve/NurbsCurve.cpp:3477-3484
  * `removeFlags` — the flags of the control points that are left out, Geometry/Curve/NurbsCurve.cpp:3472-3490
  * `keptIndices` — the indices that are kept, Geometry/Curve/NurbsCurve.cpp:3473, 3492-3502. The code writes to an array of the full size that is cut afterwards; here the entries are appended.
  * `keptColumns` — the kept columns, Geometry/Curve/NurbsCurve.cpp:3504-3511
  * `moveKept` — the update of the control points, Geometry/Curve/NurbsCurve.cpp:3528-3542
  * `constraintBasedModification` — `NurbsCurve::ConstraintBasedModification`, Geometry/Curve/NurbsCurve.cpp:3442-3547. `inverse` stands for `MathUtils::MakeInverse` (Mathematics/Utils/MathUtils.cpp:200-229), which hands the matrix to Eigen; its answer is ignored by the code, so a matrix that has no inverse is a run of `inverse` that does not return.
* `Verif/Model/Coons.lean`
  * `coonsPair` — two opposite curves brought to one degree and one knot vector, Geometry/Surface/NurbsSurface.cpp:3166-3203 and 3205-3242 (the same text twice)
  * `raiseTo` — `if (degree > S.degree) ElevateDegree(S, …)`, Geometry/Surface/NurbsSurface.cpp:3274-3301 (U) and 3308-3335 (V)
  * `refineTo` — `if (insertElements[i].size() > 0) RefineKnotVector(S, …)`, Geometry/Surface/NurbsSurface.cpp:3341-3358 (U) and 3367-3384 (V)
  * `commonDegree` — three surfaces brought to one degree in one direction, Geometry/Surface/NurbsSurface.cpp:3269-3301 (U) and 3303-3335 (V)
  * `commonKnots` — three surfaces brought to one knot vector in one direction, Geometry/Surface/NurbsSurface.cpp:3338-3360 (U) and 3362-3384 (V)
  * `sumNet` — the control points `a + b - c`, Geometry/Surface/NurbsSurface.cpp:3386-3400. The sizes are those of `a`.
  * `coonsFrom` — everything after the preparation of the four curves, Geometry/Surface/NurbsSurface.cpp:3244-3401
  * `coonsCorners` — the test of the corners, Geometry/Surface/NurbsSurface.cpp:3152-3157. `isP00 & isP01 & isP10 & isP11` evaluates all four.
  * `createCoonsSurface` — `NurbsSurface::CreateCoonsSurface`, Geometry/Surface/NurbsSurface.cpp:3125-3401.
* `Verif/Model/CornerFillet.lean`
  * `filletRadius` — `radius` from the points of the arc at 0, 0.5 and 1, Geometry/Surface/NurbsSurface.cpp:2031-2035. When `PointToLine` fails, the projection stays the origin.
  * `filletMiddle` — `p11` and `w11` from the projections of the three points, Geometry/Surface/NurbsSurface.cpp:2042-2081.
  * `filletTable` — the table `b` from the tables `u`, `v` and `h` of the coordinates of `alphas`, Geometry/Surface/NurbsSurface.cpp:2115-2131.
  * `makeCornerFillet` — `NurbsSurface::MakeCornerFilletSurface`, Geometry/Surface/NurbsSurface.cpp:2025-2145. `inverse` stands for `MathUtils::MakeInverse` as in Model/Constrain.lean; `surface` is the value of the output argument before the call. The tables `u`, `v` and `h` of lines 2098-2113 are read off `alphas` when they are used.
* `Verif/Model/CubicLocal.lean`
  * `cubicChords` — `chordLengths`, Geometry/Curve/NurbsCurve.cpp:2234-2242. `totalLength` is not used by the C++ and left out.
  * `cubicLocalPoints` — `controlPoints`, Geometry/Curve/NurbsCurve.cpp:2244-2264.
  * `cubicLocalKnots` — `knotVector`, Geometry/Curve/NurbsCurve.cpp:2266-2280.
  * `cubicLocalInterpolation` — `NurbsCurve::CubicLocalInterpolation`, Geometry/Curve/NurbsCurve.cpp:2216-2285: `none` when it returns false.
* `Verif/Model/Curve.lean`
  * `BsplineCurve.check` — `BsplineCurve::Check` (include/BsplineCurve.h:28-40) and `NurbsCurve::Check` (Geometry/Curve/NurbsCurve.cpp:240-251), which perform the same tests.
  * `BsplineCurve.pointOnCurve` — `BsplineCurve::GetPointOnCurve`, include/BsplineCurve.h:47-66.
  * `NurbsCurve.pointOnCurve` — `NurbsCurve::GetPointOnCurve`, Geometry/Curve/NurbsCurve.cpp:254-258.
  * `BezierCurve.check` — `BezierCurve::Check`, include/BezierCurve.h:28-37.
  * `BezierCurve.pointByBernstein` — `BezierCurve::GetPointOnCurveByBernstein`, include/BezierCurve.h:46-61.
  * `BezierCurve.pointByDeCasteljau` — `BezierCurve::GetPointOnCurveByDeCasteljau`, include/BezierCurve.h:70-85.
  * `quadraticArc` — `BezierCurve::GetPointOnQuadraticArc`, Geometry/Curve/BezierCurve.cpp:25-37. All three points are divided by the weight `w0` of the first one, as in the source.
* `Verif/Model/CurveEdit.lean`
  * `sliceR` — `v.assign(w.begin() + a, w.begin() + b)`: undefined behaviour when the range is not inside `w`.
  * `KnotMap.at` — `kmap[key]` on a `std::map<double, int>`: an absent key is value-initialised to 0.
  * `extractCurve` — `NurbsCurve::Extract`, Geometry/Curve/NurbsCurve.cpp:1588-1620. The output argument of the two `InsertKnot` calls is their own input curve.
  * `mergeSide` — One side of `NurbsCurve::Merge`: reparametrise to [0,1], after degree elevation when the other curve has the larger degree; Geometry/Curve/NurbsCurve.cpp:1638-1656. `elevate` is `ElevateDegree`.
  * `mergeCurves` — `NurbsCurve::Merge`, Geometry/Curve/NurbsCurve.cpp:1622-1695; `none` is the answer `false`. Degree elevation is a parameter (it is not called for curves of equal degree).
  * `createLine` — `NurbsCurve::CreateLine`, Geometry/Curve/NurbsCurve.cpp:1713-1728.
  * `cubicHermite` — The knots and control points of `NurbsCurve::CreateCubicHermite` from the parameters on, Geometry/Curve/NurbsCurve.cpp:1741-1786.
  * `createCubicHermite` — `NurbsCurve::CreateCubicHermite`, Geometry/Curve/NurbsCurve.cpp:1730-1786.
  * `XYZW.distance` — `XYZW::Distance`, Mathematics/Math/XYZW.cpp:124-128.
  * `curveModifyTolerance` — `ValidationUtils::ComputeCurveModifyTolerance`, Algorithm/ValidationUtils.cpp:43-57.
  * `reduceDegree` — `NurbsCurve::ReduceDegree`, Geometry/Curve/NurbsCurve.cpp:1095-1166; `none` is the answer `false`.
* `Verif/Model/CurveOps.lean`
  * `sortKnots` — `std::sort` on a `std::vector<double>`.
  * `insertKnot` — `NurbsCurve::InsertKnot`, Geometry/Curve/NurbsCurve.cpp:448-525. `result` is the value of the output argument before the call; it is left untouched when nothing is inserted. Loop state of the main loop: (`updatedControlPoints`, `temp`, `L`).
  * `cornerCutRaw` — `NurbsCurve::GetPointOnCurveByCornerCut`, Geometry/Curve/NurbsCurve.cpp:527-563, up to the final projection `ToXYZ(true)` of the returned weighted point. (A multiplicity above `degree + 1` makes the size of `temp` negative, which throws `std::length_error`; the model reports `ub` there.)
  * `NurbsCurve.pointByCornerCut` — `NurbsCurve::GetPointOnCurveByCornerCut` with the projection.
  * `RefineState` — loop state of `RefineKnotVector`
  * `refineShift` — the `while` loop of `RefineKnotVector`, Geometry/Curve/NurbsCurve.cpp:604-610. It runs at most `i - a` times; the model gives it `knotVector.size()` rounds.
  * `refineInsert` — the rest of the body of the main loop of `RefineKnotVector`, NurbsCurve.cpp:612-631.
  * `refineKnotVector` — `NurbsCurve::RefineKnotVector`, Geometry/Curve/NurbsCurve.cpp:565-634.
  * `splitTail` — `NurbsCurve::SplitAt` from the span search on, Geometry/Curve/NurbsCurve.cpp:1563-1585: `left` is the refined curve. `resize` only ever shrinks here (a growing `resize` would append zeros; `take` models the shrinking case, and the indices are shown to be in range).
  * `splitAt` — `NurbsCurve::SplitAt`, Geometry/Curve/NurbsCurve.cpp:1542-1586; `none` is the answer `false` (the output curves are untouched), `some (left, right)` the answer `true`. A multiplicity above `degree + 1` makes the size of `insert` negative, which throws `std::length_error`; the model reports `ub`.
* `Verif/Model/CurveParam.lean`
  * `getContinuity` — `KnotVectorUtils::GetContinuity`, Algorithm/KnotVectorUtils.cpp:49-54.
  * `rescale` — `KnotVectorUtils::Rescale`, Algorithm/KnotVectorUtils.cpp:56-69.
  * `reparametrizeLinear` — `NurbsCurve::Reparametrize(curve, min, max, result)`, Geometry/Curve/NurbsCurve.cpp:1504-1517.
  * `reverseCurve` — `NurbsCurve::Reverse`, Geometry/Curve/NurbsCurve.cpp:1519-1540.
  * `createTransformed` — `NurbsCurve::CreateTransformed`, Geometry/Curve/NurbsCurve.cpp:1453-1470.
  * `reparametrizeRational` — `NurbsCurve::Reparametrize(curve, alpha, beta, gamma, delta, result)`, Geometry/Curve/NurbsCurve.cpp:1472-1502. `abs` is taken to be the floating point absolute value.
* `Verif/Model/Delaunay.lean`
  * `gridR` — The loops that fill a grid, Geometry/Surface/NurbsSurface.cpp:3605-3611 and others: row by row.
  * `rowLess` — `operator<` of `std::vector<double>`: lexicographic. Used by `max_element` and `min_element` on grids, Geometry/Surface/NurbsSurface.cpp:3657-3660.
  * `maxElement` — `*std::max_element`; of an empty range the end is read. Geometry/Surface/NurbsSurface.cpp:3657-3658.
  * `minElement` — `*std::min_element`, Geometry/Surface/NurbsSurface.cpp:3659-3660.
  * `gridExtremes` — The largest entry of the largest row and the smallest entry of the smallest row, Geometry/Surface/NurbsSurface.cpp:3657-3660 and 3741-3744.
  * `delaunayFactors` — The factors of the cells, Geometry/Surface/NurbsSurface.cpp:3588-3787. The four shifted copies of each grid are read from the grid itself. A division by zero is reported as `nonfinite`, although the program goes on with values that are not numbers.
  * `delaunaySamples` — The samples of all cells, Geometry/Surface/NurbsSurface.cpp:3788-3828. State: the parameters so far and the number of draws so far; `random` are the draws, as numbers of the unit interval.
  * `triangulateDelaunay` — `NurbsSurface::Triangulate` with `useDelaunay = true`, Geometry/Surface/NurbsSurface.cpp:3566-3888. The model leaves out resolutions below two, for which the steps are not numbers or the grids have no cells.
* `Verif/Model/DiffGeom.lean`
  * `CurveNormal` — `CurveNormal`, include/LNEnums.h:30-34.
  * `SurfaceCurvature` — `SurfaceCurvature`, include/LNEnums.h:43-51.
  * `NurbsCurve.curvature` — `NurbsCurve::Curvature`, Geometry/Curve/NurbsCurve.cpp:305-323.
  * `NurbsCurve.normal` — `NurbsCurve::Normal`, Geometry/Curve/NurbsCurve.cpp:325-360.
  * `NurbsSurface.normal` — `NurbsSurface::Normal`, Geometry/Surface/NurbsSurface.cpp:442-455.
  * `NurbsSurface.curvature` — `NurbsSurface::Curvature`, Geometry/Surface/NurbsSurface.cpp:257-321. `abs` is the absolute value of a `double`.
* `Verif/Model/ErrorBound.lean`
  * `polylineCurve` — The polyline `tc` of `NurbsCurve::GlobalApproximationByErrorBound`, Geometry/Curve/NurbsCurve.cpp:2902-2923: degree 1, knots 0, the parameters, 1, all weights 1. The parameters are taken to be as many as the points, as they are (C46).
  * `approximateByErrorBound` — `NurbsCurve::GlobalApproximationByErrorBound`, Geometry/Curve/NurbsCurve.cpp:2892-2930. `fuel` bounds the rounds of the knot removal.
  * `NurbsCurve.globalApproximationByErrorBound` — `NurbsCurve::GlobalApproximationByErrorBound`, Geometry/Curve/NurbsCurve.cpp:2892-2930, with the functions of the library.
* `Verif/Model/ExcessiveKnots.lean`
  * `excessiveScan` — The inner loop of `NurbsCurve::RemoveExcessiveKnots`, Geometry/Curve/NurbsCurve.cpp:876-890: the first removal that is accepted (`some`), or `none` when `changed` stays `false`.
  * `excessiveRound` — The body of the outer loop, Geometry/Curve/NurbsCurve.cpp:874-890; the state is (`result`, `changed`).
  * `removeExcessiveKnots` — `NurbsCurve::RemoveExcessiveKnots`, Geometry/Curve/NurbsCurve.cpp:868-892, with fuel for the outer loop (`diverge` when it runs out).
  * `libraryTest` — The library's test, Geometry/Curve/NurbsCurve.cpp:746, 799 and 807.
  * `NurbsCurve.removeExcessiveKnots` — `NurbsCurve::RemoveExcessiveKnots` with the library's tolerance, Geometry/Curve/NurbsCurve.cpp:868-892.
* `Verif/Model/Extend.lean`
  * `ExtensionType` — `ExtensionType`, include/LNEnums.h:75-94.
  * `taylorCoeffs` — The coefficients of the Taylor polynomial, Geometry/Curve/NurbsCurve.cpp:3943-3950.
  * `taylorVelocity` — `evaluateFirstDerivative`, Geometry/Curve/NurbsCurve.cpp:3952-3959.
  * `extendNewton` — One round of the Newton iteration for the parameter length, Geometry/Curve/NurbsCurve.cpp:3963-3999; `true` = `break`.
  * `extendParam` — The parameter length `L` of the natural extension, Geometry/Curve/NurbsCurve.cpp:3961-4001.
  * `extendPoints` — The control points of the natural extension, Geometry/Curve/NurbsCurve.cpp:4013-4027 (and 4051-4066); `S` is the signed parameter length.
  * `extendEnd` — The natural extension at the end of the curve, Geometry/Curve/NurbsCurve.cpp:4003-4039.
  * `extendStart` — The natural extension at the start of the curve, Geometry/Curve/NurbsCurve.cpp:4040-4078.
  * `extendMerge` — The two ways the extension is joined, e.g. Geometry/Curve/NurbsCurve.cpp:3906-3907; when `Merge` answers `false` the result stays the curve.
  * `extendAt` — The parameter at which the curve is extended, Geometry/Curve/NurbsCurve.cpp:3895.
  * `tangentLine` — The line of the tangent extension, Geometry/Curve/NurbsCurve.cpp:3906.
  * `osculatingArc` — The arc of the arc extension, Geometry/Curve/NurbsCurve.cpp:3915-3935. When `CreateArc` answers `false` the extension stays an empty curve. `atan2(y, x)` is the argument of `x + iy`.
  * `naturalExtend` — The natural extension, Geometry/Curve/NurbsCurve.cpp:3939-4080.
  * `extendCurve` — `NurbsCurve::Extend`, Geometry/Curve/NurbsCurve.cpp:3884-4084. In the arc branch the curvature is tested before the normal is computed (the code computes a normal that may not be a number, and does not use it when the curvature vanishes).
* `Verif/Model/FitConic.lean`
  * `validateBetween` — `VALIDATE_ARGUMENT_RANGE(arg, min, max)`, include/LNLibExceptions.h:21-25, for indices (whole numbers differ by more than the tolerance or not at all).
  * `conicWeightRound` — One round of the loop over the inner points in `NurbsCurve::FitWithConic`, Geometry/Curve/NurbsCurve.cpp:2964-2981; `none` for `return false`. The parameters and the point that `ComputeRays` leaves alone when it finds parallel lines are not read in that case; they are 0 here.
  * `conicFitsPoint` — One round of the test of the inner points in `NurbsCurve::FitWithConic`, Geometry/Curve/NurbsCurve.cpp:2989-3003; `false` for `return false`.
  * `fitWithConic` — `NurbsCurve::FitWithConic`, Geometry/Curve/NurbsCurve.cpp:2928-3004; the control points that are appended, `none` for `false`.
* `Verif/Model/FitCubic.lean`
  * `cubicStep` — The Newton step of `MathUtils::ComputerCubicEquationsWithOneVariable`, Mathematics/Utils/MathUtils.cpp:128 and 132.
  * `cubicEquation` — `MathUtils::ComputerCubicEquationsWithOneVariable`, Mathematics/Utils/MathUtils.cpp:124-135. The loop has no bound of its own; it gets `fuel` rounds here.
  * `fitCubicPair` — The case of neighbouring points in `NurbsCurve::FitWithCubic`, Geometry/Curve/NurbsCurve.cpp:3020-3047.
  * `fitCubicLine` — The test whether the points are on a line in `NurbsCurve::FitWithCubic`, Geometry/Curve/NurbsCurve.cpp:3048-3067. State: (`isLine`, `tempStandard`); after the `break` nothing changes.
  * `CubicArrays` — The arrays of `NurbsCurve::FitWithCubic`.
  * `fitCubicOn` — The case of a point in the plane in the loop of `NurbsCurve::FitWithCubic`, Geometry/Curve/NurbsCurve.cpp:3089-3122; `none` for `return false`.
  * `fitCubicOff` — The case of a point out of the plane in the loop of `NurbsCurve::FitWithCubic`, Geometry/Curve/NurbsCurve.cpp:3123-3151; `none` for `return false`.
  * `fitCubicRounds` — The loop over the inner points in `NurbsCurve::FitWithCubic`, Geometry/Curve/NurbsCurve.cpp:3082-3152.
  * `fitCubicEnd` — The end of `NurbsCurve::FitWithCubic`, Geometry/Curve/NurbsCurve.cpp:3153-3190: the means, the two control points and the test of the error; the control points stay in the output when the test fails.
  * `fitWithCubic` — `NurbsCurve::FitWithCubic`, Geometry/Curve/NurbsCurve.cpp:3006-3190; the result and the control points that are appended. `newThroughPoints` starts with as many zero points as there are points, and the points are appended behind them.
* `Verif/Model/Geom.lean`
  * `XYZ` — `XYZ`, Mathematics/Math/XYZ.cpp:19-31 (`m_xyz[3]`).
  * `XYZW` — `XYZW`, Mathematics/Math/XYZW.cpp:19-41: homogeneous point (`wx`, `wy`, `wz`, `w`).
  * `:` — `XYZ::XYZ()`, Mathematics/Math/XYZ.cpp:19-24.
  * `:` — `operator+`, Mathematics/Math/XYZ.cpp:206-209 (and `+=`, 237-243).
  * `:` — `operator-`, Mathematics/Math/XYZ.cpp:211-214.
  * `:` — unary `operator-` and `Negative`, Mathematics/Math/XYZ.cpp:253-256, 151-154.
  * `:` — `operator*(double, XYZ)`, Mathematics/Math/XYZ.cpp:257-264.
  * `dot` — `XYZ::DotProduct`, Mathematics/Math/XYZ.cpp:156-159.
  * `cross` — `XYZ::CrossProduct`, Mathematics/Math/XYZ.cpp:161-166.
  * `sqrLength` — `XYZ::SqrLength`, Mathematics/Math/XYZ.cpp:107-110.
  * `almostEq` — `XYZ::IsAlmostEqualTo`, Mathematics/Math/XYZ.cpp:95-100.
  * `isZero` — `XYZ::IsZero`, Mathematics/Math/XYZ.cpp:85-88.
  * `:` — `XYZW::XYZW()`, Mathematics/Math/XYZW.cpp:19-25.
  * `:` — `operator+`, `+=`, Mathematics/Math/XYZW.cpp:140-143, 150-157.
  * `:` — `operator-`, Mathematics/Math/XYZW.cpp:145-148.
  * `:` — `operator*(double, XYZW)`, Mathematics/Math/XYZW.cpp:160-168.
  * `ofXYZ` — `XYZW::XYZW(XYZ xyz, double w)`, Mathematics/Math/XYZW.cpp:27-33.
  * `raw` — the three weighted coordinates, `ToXYZ(false)`, Mathematics/Math/XYZW.cpp:111-114.
  * `toXYZ` — `XYZW::ToXYZ(true)`, Mathematics/Math/XYZW.cpp:97-110: divides by the weight unless the weight is within tolerance of zero, in which case the weighted coordinates are returned unchanged. (The division is total here because a zero weight is within tolerance of zero.)
  * `BezierCurve` — `LN_BezierCurve<T>`, include/LNObject.h:20-25.
  * `BsplineCurve` — `LN_BsplineCurve<T>`, include/LNObject.h:35-41.
  * `NurbsCurve` — `LN_NurbsCurve`, include/LNObject.h:43.
* `Verif/Model/GeomReal.lean`
  * `XYZ.length` — `XYZ::Length`, Mathematics/Math/XYZ.cpp:102-105.
  * `XYZ.normalize` — `XYZ::Normalize`, Mathematics/Math/XYZ.cpp:127-139.
  * `XYZ.distance` — `XYZ::Distance`, Mathematics/Math/XYZ.cpp:168-172.
  * `XYZ.angleTo` — `XYZ::AngleTo`, Mathematics/Math/XYZ.cpp:112-125.
  * `createReflection` — `Matrix4d::CreateReflection`, Mathematics/Math/Matrix4d.cpp:76-104.
  * `createRotation` — `Matrix4d::CreateRotation`, Mathematics/Math/Matrix4d.cpp:111-142.
  * `createRotationAtPoint` — `Matrix4d::CreateRotationAtPoint`, Mathematics/Math/Matrix4d.cpp:144-154.
* `Verif/Model/Gordon.lean`
  * `gordonRaise` — every curve on the interval from 0 to 1 and raised to the degree, Geometry/Surface/NurbsSurface.cpp:2888-2905 and 2935-2951 (the same text twice)
  * `gordonRefine` — every curve refined by its list of missing knots, Geometry/Surface/NurbsSurface.cpp:2913-2922 and 2959-2968. Reading a list that is missing would be out of bounds.
  * `gordonCurves` — the curves of one direction brought to one interval, degree and knot vector, Geometry/Surface/NurbsSurface.cpp:2878-2922 (u) and 2924-2968 (v). `loftDegree` is the largest degree.
  * `gordonNet` — the control points `a + b - c`, Geometry/Surface/NurbsSurface.cpp:3109-3122. The sizes are those of `c`, the interpolated surface.
  * `gordonSum` — the three surfaces brought to common degrees and knots and combined, Geometry/Surface/NurbsSurface.cpp:2994-3122: `a` is `loftSurfaceU`, `b` is `loftSurfaceV`, `c` is `interpolatedSurface`. The steps are those of the Coons patch, `Model/Coons.lean`.
  * `createGordonSurface` — `NurbsSurface::CreateGordonSurface`, Geometry/Surface/NurbsSurface.cpp:2876-3123. The second transposition of the control points (2990), whose result is not used, is left out: it reads what `Swap` reads.
* `Verif/Model/Gsa.lean`
  * `gsaRound` — One round, Geometry/Surface/NurbsSurface.cpp:1569-1634. The boolean is true when the loop is left, by the `return` for a degenerate metric (lines 1591-1594) or by the `break` (line 1630). `c3`, which is not read, is left out.
  * `getParamOnSurfaceByGSA` — `NurbsSurface::GetParamOnSurfaceByGSA`, Geometry/Surface/NurbsSurface.cpp:1552-1637.
* `Verif/Model/Interp.lean`
  * `simpson` — `Integrator::Simpson` for functions of one variable, Algorithm/Integrator.cpp:19-26.
  * `simpson2` — `Integrator::Simpson` for functions of two variables, Algorithm/Integrator.cpp:28-63; the table `uvw` row by row.
  * `parameterization` — The part of `GetChordParameterization` and `GetCentripetalParameterization` after the segment lengths are known, Algorithm/Interpolation.cpp:51-93 and 108-152; `segs[i]` is the length of segment `i`, there is one point more than segments.
  * `averageKnotVector` — `Interpolation::AverageKnotVector`, Algorithm/Interpolation.cpp:154-182.
  * `computeKnotVector` — `Interpolation::ComputeKnotVector`, Algorithm/Interpolation.cpp:184-209.
  * `interpolationMatrix` — The matrix of `NurbsCurve::GlobalInterpolation`, Geometry/Curve/NurbsCurve.cpp:2069-2083.
  * `globalInterpolation` — `NurbsCurve::GlobalInterpolation(degree, throughPoints, curve, params)`, Geometry/Curve/NurbsCurve.cpp:2047-2111, with non-empty `params` or with the chord parameters as `params`. `solve` is `MathUtils::SolveLinearSystem` (Mathematics/Utils/MathUtils.cpp:258-289), which calls Eigen and is not modelled.
  * `segmentLengths` — segment lengths of a polyline
  * `getTotalChordLength` — `Interpolation::GetTotalChordLength`, Algorithm/Interpolation.cpp:40-49.
  * `getChordParameterization` — `Interpolation::GetChordParameterization`, Algorithm/Interpolation.cpp:51-93.
  * `getCentripetalParameterization` — `Interpolation::GetCentripetalParameterization`, Algorithm/Interpolation.cpp:108-152.
  * `globalInterpolationChord` — `GlobalInterpolation` with empty `params`: chord parameters are used.
* `Verif/Model/InterpTangents.lean`
  * `clampKnots` — `knotVector[i] = 0.0; knotVector[knotVector.size() - 1 - i] = 1.0;` for `i = 0 … degree`, Geometry/Curve/NurbsCurve.cpp:2126-2130 and 2139-2143.
  * `tangentKnots2` — The knots for degree 2, Geometry/Curve/NurbsCurve.cpp:2126-2135.
  * `tangentKnots3` — The knots for degree 3, Geometry/Curve/NurbsCurve.cpp:2139-2152.
  * `extendedParams` — `ukExtended`: the parameters, the midpoints between them, and the last parameter repeated up to the length `n`, Geometry/Curve/NurbsCurve.cpp:2156-2166.
  * `tangentKnots` — The knot vector, Geometry/Curve/NurbsCurve.cpp:2119-2168.
  * `tangentRows` — One round of the loop that fills the matrix (the right-hand side is `tangentRight`), Geometry/Curve/NurbsCurve.cpp:2175-2191.
  * `tangentMatrix` — The matrix of the linear system, Geometry/Curve/NurbsCurve.cpp:2170-2191.
  * `tangentRight` — The right-hand side: points in the even rows, scaled tangents in the odd ones, Geometry/Curve/NurbsCurve.cpp:2193-2201.
  * `globalInterpolationTangents` — `NurbsCurve::GlobalInterpolation(degree, throughPoints, tangents, tangentFactor, curve)`, Geometry/Curve/NurbsCurve.cpp:2107-2218, with the chord parameters as `params`. `solve` is `MathUtils::SolveLinearSystem` (Eigen, not modelled); the `std::runtime_error` thrown when its answer has the wrong size is reported as `invalidArg`.
  * `globalInterpolationTangentsChord` — The same with its parameters: the chord parameters of the points, Geometry/Curve/NurbsCurve.cpp:2107-2122.
* `Verif/Model/Intersection.lean`
  * `pointToRay` — `Projection::PointToRay`, Algorithm/Projection.cpp:15-23.
  * `pointToLine` — `Projection::PointToLine`, Algorithm/Projection.cpp:25-43. `old` is the value of `projectPoint` before the call.
  * `stereographic` — `Projection::Stereographic`, Algorithm/Projection.cpp:45-56.
  * `LinePlane` — `LinePlaneIntersectionType`, include/LNEnums.h.
  * `computeLineAndPlane` — `Intersection::ComputeLineAndPlane`, Algorithm/Intersection.cpp:74-100.
  * `CurveCurve` — `CurveCurveIntersectionType`, include/LNEnums.h.
  * `computeRays` — `Intersection::ComputeRays`, Algorithm/Intersection.cpp:18-72. `old` holds the values of `param0`, `param1`, `intersectPoint` before the call.
  * `createRandomOrthogonal` — `XYZ::CreateRandomOrthogonal`, Mathematics/Math/XYZ.cpp:174-186. The random angle is a parameter.
* `Verif/Model/IsArc.lean`
  * `ArcInfo` — the fields of `LN_ArcInfo`, include/LNObject.h:83-88
  * `isArc` — `NurbsCurve::IsArc`, Geometry/Curve/NurbsCurve.cpp:3743-3794. `none` is the answer `false` (the field `IsCircle`, which is then set all the same, is left out). A division by zero is the outcome `nonfinite`; with IEEE numbers all distances are then NaN and the code answers `false`.
* `Verif/Model/KnotErrorBound.lean`
  * `removeBoundPair` — The two points whose distance `ComputerRemoveKnotErrorBound` returns, Geometry/Curve/NurbsCurve.cpp:2644-2683. The body of its loop (2666-2676) is that of the sweep of `RemoveKnot` for `t = 0`.
  * `removeKnotErrorBound` — `NurbsCurve::ComputerRemoveKnotErrorBound`, Geometry/Curve/NurbsCurve.cpp:2638-2684.
* `Verif/Model/KnotVector.lean`
  * `KnotMap` — `std::map<double, int>`
  * `KnotMap.incr` — `++result[knot]`: the value-initialised entry is created at its place in the order.
  * `KnotMap.find` — `map.find(key)`; `none` is `end()`.
  * `KnotMap.put` — `map.insert({key, count})` for an absent key and `map[key] = count`.
  * `stdSort` — `std::sort` on numbers.
  * `getKnotMultiplicityMap` — `KnotVectorUtils::GetKnotMultiplicityMap`, Algorithm/KnotVectorUtils.cpp:119-130.
  * `getInternalKnotMultiplicityMap` — `KnotVectorUtils::GetInternalKnotMultiplicityMap`, Algorithm/KnotVectorUtils.cpp:132-142. With a single key the map is empty after the first `erase`, and `prev(end())` is undefined behaviour.
  * `insertedStep0` — The body of the first loop of `KnotVectorUtils::GetInsertedKnotElement`, Algorithm/KnotVectorUtils.cpp:149-183.
  * `insertedStep1` — The body of the second loop, Algorithm/KnotVectorUtils.cpp:185-197.
  * `getInsertedKnotElement2` — `KnotVectorUtils::GetInsertedKnotElement(knotVector0, knotVector1, insertElements0, insertElements1)`, Algorithm/KnotVectorUtils.cpp:144-201; `ins0`, `ins1` are the contents of the caller's output vectors.
  * `finalStep` — One entry of the loop that builds `finalMap`, Algorithm/KnotVectorUtils.cpp:210-227.
  * `missingStep` — One entry of the second loop, Algorithm/KnotVectorUtils.cpp:237-260.
  * `getInsertedKnotElementsAll` — `KnotVectorUtils::GetInsertedKnotElements(knotVectors)`, Algorithm/KnotVectorUtils.cpp:203-265.
  * `leadingMulti` — leading elements that `IsAlmostEqualTo` the parameter, Algorithm/KnotVectorUtils.cpp:86-93 and 103-110
  * `getInsertedKnotElementEnds` — `KnotVectorUtils::GetInsertedKnotElement(degree, knotVector, startParam, endParam)`, Algorithm/KnotVectorUtils.cpp:72-118.
  * `stdUnique` — `std::unique` followed by `erase`: drop every element equal to its predecessor.
  * `longestSpan` — The scan for the longest span, Algorithm/KnotVectorUtils.cpp:29-39; returns `(standard, index)`.
  * `insertMidKnotCore` — `InsertMidKnotCore`, Algorithm/KnotVectorUtils.cpp:21-47. The C++ recursion stops when `insert.size() == limitNumber`; `rounds` is the number of recursive calls left, so it is `limitNumber - insert.size()`. An empty `unqiueKnotVector` makes `size() - 1` wrap around and the scan reads out of bounds.
  * `getInsertedKnotElementsMid` — `KnotVectorUtils::GetInsertedKnotElements(insertKnotsNumber, knotVector)`, Algorithm/KnotVectorUtils.cpp:267-276. With a negative number the recursion never meets its limit: it goes on until a read out of bounds.
  * `isUniformLoop` — The loop of `KnotVectorUtils::IsUniform`, Algorithm/KnotVectorUtils.cpp:298-324; the state is `false` after `return false`.
  * `isUniform` — `KnotVectorUtils::IsUniform`, Algorithm/KnotVectorUtils.cpp:278-326. `map[knots[i]]` is the count stored with the `i`-th key.
* `Verif/Model/KnotsByBound.lean`
  * `maxDistance` — `Constants::MaxDistance`, include/Constants.h:26.
  * `BoundState` — The local variables of `RemoveKnotsByGivenBound` that live from one round to the next, Geometry/Curve/NurbsCurve.cpp:2696-2741: `best` is `BrMinIndex`, `U` and `P` are `tempU` and `tempCP`, `updU` and `updP` are `updatedKnotVector` and `updatedControlPoints`; `stop` tells whether the loop has been left. `NewError` is only read right after it is written and is left out.
  * `knotBound` — `ComputerRemoveKnotErrorBound`, Geometry/Curve/NurbsCurve.cpp:2638-2684, with the distance as a parameter.
  * `shiftFrom` — `for (k = start; k < size - 1; k++) l[k] = l[k + 1]`, e.g. Geometry/Curve/NurbsCurve.cpp:2847-2850 and 2871-2875. The bound is unsigned: a negative start would be a huge number.
  * `initialBounds` — The bounds and multiplicities before the loop, Geometry/Curve/NurbsCurve.cpp:2712-2726.
  * `initialRanges` — The ranges of parameters before the loop, Geometry/Curve/NurbsCurve.cpp:2728-2740.
  * `leastBound` — The index of the least bound, Geometry/Curve/NurbsCurve.cpp:2750-2758; without one the old index is kept.
  * `removalError` — The error at one parameter, Geometry/Curve/NurbsCurve.cpp:2779-2795.
  * `errorsStay` — The test of the accumulated errors, Geometry/Curve/NurbsCurve.cpp:2775-2805. State: (`temp`, `removable`).
  * `updateRanges` — The ranges of parameters after a removal, Geometry/Curve/NurbsCurve.cpp:2829-2846. State: (`Nl`, `Nr`, `oldspanIndex`).
  * `updateBounds` — The bounds after a removal, Geometry/Curve/NurbsCurve.cpp:2854-2870. State: (`Br`, `S`, `s`).
  * `acceptErrors` — The copy of `temp` into `errors`, Geometry/Curve/NurbsCurve.cpp:2820-2823.
  * `removeChosen` — The removal, Geometry/Curve/NurbsCurve.cpp:2807-2881. When `RemoveKnot` refuses, `newtc` stays empty, so the number of its control points is 0 and the loop ends with the old curve.
  * `boundRound` — One round of the loop, Geometry/Curve/NurbsCurve.cpp:2748-2886; `n` is the number of control points of the curve given, less one.
  * `removeKnotsByBound` — `NurbsCurve::RemoveKnotsByGivenBound`, Geometry/Curve/NurbsCurve.cpp:2686-2890: the curve and the new contents of `errors`. The number of rounds of `while (1)` is bounded by `fuel`.
  * `NurbsCurve.removeKnotsByGivenBound` — `NurbsCurve::RemoveKnotsByGivenBound`, Geometry/Curve/NurbsCurve.cpp:2686-2890, with the distance and the tolerance of the library.
* `Verif/Model/LeastSquares.lean`
  * `leastSquaresKnots` — The knot vector, Geometry/Curve/NurbsCurve.cpp:2292-2305. The C++ divides by `n - degree + 1` also when that is zero and does not use the infinite quotient; the model stops with `nonfinite`.
  * `BandState` — The arrays `start`, `end`, `index` and `B` and the counters `rj`, `sj` and `ej`, Geometry/Curve/NurbsCurve.cpp:2307-2322.
  * `setIf` — `if (c) l[i] = x;`, Geometry/Curve/NurbsCurve.cpp:2353-2356.
  * `bandShift` — `for (int k = 1; k <= j - rj; k++)`, Geometry/Curve/NurbsCurve.cpp:2350-2357. State: (`start`, `end`, `sj`, `ej`).
  * `bandRound` — One round of the loop over the inner points, Geometry/Curve/NurbsCurve.cpp:2324-2360.
  * `bandArrays` — The arrays after the loop over the inner points, Geometry/Curve/NurbsCurve.cpp:2307-2360.
  * `bandMatrix` — The band matrix `NTN`, Geometry/Curve/NurbsCurve.cpp:2370-2384.
  * `residualPoints` — `Rk`, Geometry/Curve/NurbsCurve.cpp:2386-2392.
  * `bandRight` — `R`, Geometry/Curve/NurbsCurve.cpp:2394-2404.
  * `leastSquaresPoints` — The control points, Geometry/Curve/NurbsCurve.cpp:2419-2426.
  * `leastSquares` — `NurbsCurve::LeastSquaresApproximation`, Geometry/Curve/NurbsCurve.cpp:2284-2432, with the chord parameters as `uk`; `none` is the answer `false`. `solve` is `MathUtils::SolveLinearSystemBanded` (Mathematics/Utils/MathUtils.cpp:290-342), which calls Eigen and is not modelled; its arguments are the matrix, the bandwidth and the right-hand side.
  * `leastSquaresChord` — The same with its parameters, Geometry/Curve/NurbsCurve.cpp:2284-2292.
* `Verif/Model/LengthParam.lean`
  * `distanceEps` — `Constants::DistanceEpsilon`, include/Constants.h:24.
  * `getParamByLength` — `GetParamByLength`, Geometry/Curve/NurbsCurve.cpp:67-91. The recursion has fuel; running out of it is `diverge`.
  * `KnotScan` — How the loop over the knots in `NurbsCurve::GetParamOnCurve` ends: the function returns a knot, or the loop is left with the value of `end`.
  * `knotScan` — The loop over the knots in `NurbsCurve::GetParamOnCurve`, Geometry/Curve/NurbsCurve.cpp:4098-4115, run over the knots that are left.
  * `getParamAtLength` — `NurbsCurve::GetParamOnCurve(curve, givenLength, type)`, Geometry/Curve/NurbsCurve.cpp:4086-4118.
  * `paramsLoop` — The loop of `NurbsCurve::GetParamsOnCurve`, Geometry/Curve/NurbsCurve.cpp:4127-4139; the state is `result`, `param`. The loop has fuel.
  * `getParamsAtLength` — `NurbsCurve::GetParamsOnCurve(curve, givenLength, type)`, Geometry/Curve/NurbsCurve.cpp:4120-4140.
* `Verif/Model/Linear.lean`
  * `linearDirection` — The choice of `v0` in `NurbsCurve::IsLinear`, Geometry/Curve/NurbsCurve.cpp:3725-3732: the first of the vectors from the first control point to the others that is not almost zero; `none` when there is no such vector (`return true`).
  * `isLinear` — `NurbsCurve::IsLinear`, Geometry/Curve/NurbsCurve.cpp:3714-3744.
  * `approximateLength` — `NurbsCurve::ApproximateLength(curve, type)`, Geometry/Curve/NurbsCurve.cpp:3796-3874. `quadrature` stands for the numeric integration of the speed of the reparametrised curve (lines 3817-3873, the three cases of the switch), which is not modelled.
* `Verif/Model/Loft.lean`
  * `loftDegree` — the largest degree, Geometry/Surface/NurbsSurface.cpp:2613-2621
  * `loftRaise` — the sections with the lower degrees raised, Geometry/Surface/NurbsSurface.cpp:2625-2642
  * `loftColumn` — one column of the control net: interpolate the unweighted control points of the sections and put the weights of the sections on the result, Geometry/Surface/NurbsSurface.cpp:2687-2704.
  * `loftSurface` — the rest of `NurbsSurface::CreateLoftSurface` once the parameters `vl` are known, Geometry/Surface/NurbsSurface.cpp:2683-2713.
  * `createLoftCustom` — `NurbsSurface::CreateLoftSurface` with a non-empty `customTrajectoryKnotVector`, Geometry/Surface/NurbsSurface.cpp:2611-2713; the branch of lines 2678-2682. The list is used as the parameters of the sections.
  * `loftParams` — the default parameters of the sections, Geometry/Surface/NurbsSurface.cpp:2647-2677
  * `createLoft` — `NurbsSurface::CreateLoftSurface`, Geometry/Surface/NurbsSurface.cpp:2611-2713.
* `Verif/Model/MathUtils.lean`
  * `doubleEps` — `Constants::DoubleEpsilon`, include/Constants.h:23.
  * `distEps` — `Constants::DistanceEpsilon`, include/Constants.h:24.
  * `angleEps` — `Constants::AngleEpsilon`, include/Constants.h:25.
  * `nurbsMaxDegree` — `Constants::NURBSMaxDegree`, include/Constants.h:28.
  * `validateRange` — `VALIDATE_ARGUMENT_RANGE(arg, min, max)`, include/LNLibExceptions.h:21-25.
  * `tolOf` — the tolerance `tolerance * (1.0 + std::max(std::abs(a), std::abs(b)))`, Mathematics/Utils/MathUtils.cpp:50,56,62,69,75.
  * `isAlmostEqualTo` — `MathUtils::IsAlmostEqualTo`, Mathematics/Utils/MathUtils.cpp:43-51 (the NaN and infinity branches do not arise in exact arithmetic).
  * `isGreaterThan` — `MathUtils::IsGreaterThan`, Mathematics/Utils/MathUtils.cpp:53-57.
  * `isGreaterThanOrEqual` — `MathUtils::IsGreaterThanOrEqual`, Mathematics/Utils/MathUtils.cpp:59-64.
  * `isLessThan` — `MathUtils::IsLessThan`, Mathematics/Utils/MathUtils.cpp:66-70.
  * `isLessThanOrEqual` — `MathUtils::IsLessThanOrEqual`, Mathematics/Utils/MathUtils.cpp:72-77.
  * `factorial` — `MathUtils::Factorial`, Mathematics/Utils/MathUtils.cpp:99-110. `long long` is `ℤ`; the guard `n > 20` keeps the value below 2^63 (proved in Props/C24).
  * `pascalTable` — the static `pascal` table, Mathematics/Utils/MathUtils.cpp:31-40, with its size 21 as a parameter (`size = 20` is the last row).
  * `binomial` — `MathUtils::Binomial`, Mathematics/Utils/MathUtils.cpp:112-122.
  * `matrixMultiply` — `MathUtils::MatrixMultiply`, Mathematics/Utils/MathUtils.cpp:137-155.
  * `makeDiagonal` — `MathUtils::MakeDiagonal`, Mathematics/Utils/MathUtils.cpp:157-177.
  * `transposeM` — `MathUtils::Transpose`, include/MathUtils.h:59-73. The rows are appended to the output argument `transposed`.
* `Verif/Model/Matrix4d.lean`
  * `Matrix4d` — `Matrix4d`: `m_matrix4d[4][4]`, include/Matrix4d.h; `aij` is `m_matrix4d[i][j]`.
  * `identity` — `Matrix4d::Matrix4d()`, Mathematics/Math/Matrix4d.cpp:22-29: the identity.
  * `ofBasis` — `Matrix4d(basisX, basisY, basisZ, origin)`, Mathematics/Math/Matrix4d.cpp:31-52.
  * `createTranslation` — `Matrix4d::CreateTranslation`, Mathematics/Math/Matrix4d.cpp:156-163.
  * `createScale` — `Matrix4d::CreateScale`, Mathematics/Math/Matrix4d.cpp:165-172.
  * `setBasisW` — `SetBasisW`, Mathematics/Math/Matrix4d.cpp:210-215.
  * `basisX` — `GetBasisX`, Mathematics/Math/Matrix4d.cpp:181-184.
  * `basisY` — `GetBasisY`, Mathematics/Math/Matrix4d.cpp:193-196.
  * `basisZ` — `GetBasisZ`, Mathematics/Math/Matrix4d.cpp:205-208.
  * `basisW` — `GetBasisW`, Mathematics/Math/Matrix4d.cpp:217-220.
  * `multiply` — `Matrix4d::Multiply`, Mathematics/Math/Matrix4d.cpp:232-257.
  * `ofPoint` — `Matrix4d::OfPoint`, Mathematics/Math/Matrix4d.cpp:259-268.
  * `ofWeightedPoint` — `Matrix4d::OfWeightedPoint`, Mathematics/Math/Matrix4d.cpp:270-282.
  * `ofVector` — `Matrix4d::OfVector`, Mathematics/Math/Matrix4d.cpp:284-291.
  * `getTranspose` — `Matrix4d::GetTranspose`, Mathematics/Math/Matrix4d.cpp:319-325.
  * `getInverse` — `Matrix4d::GetInverse` (Mathematics/Math/Matrix4d.cpp:293-317) with `MathUtils::MakeInverse` (Mathematics/Utils/MathUtils.cpp:199-229). A `4 × 4` matrix is always square, so `MakeInverse` never returns `false`; the entries come from Eigen's `inverse()`, which is the parameter `eigenInverse`.
  * `isIdentity` — `Matrix4d::IsIdentity`, Mathematics/Math/Matrix4d.cpp:344-371.
  * `hasReflection` — `Matrix4d::HasReflection`, Mathematics/Math/Matrix4d.cpp:373-378.
  * `isTranslation` — `Matrix4d::IsTranslation`, Mathematics/Math/Matrix4d.cpp:380-393.
* `Verif/Model/Mesh.lean`
  * `UV` — `UV`, include/UV.h
  * `Mesh` — `LN_Mesh`, include/LNObject.h:73-81. (`Normals` and `NormalIndices` stay empty in `Triangulate`.)
  * `triangulateGrid` — `NurbsSurface::Triangulate` with `useDelaunay = false`, Geometry/Surface/NurbsSurface.cpp:3889-3938. `int` products do not overflow in the model. A negative resolution makes the vector constructor throw `std::length_error`; the model gives `ub` there.
* `Verif/Model/Nearest.lean`
  * `nearestRound` — One round of the search along the tessellation, Geometry/Curve/NurbsCurve.cpp:1257-1281. State: (`minDistSq`, `bestT`); `none` is the largest `double`, the initial value, which every squared distance is taken to be below.
  * `nearestStart` — The search along the tessellation, Geometry/Curve/NurbsCurve.cpp:1247-1282. The number of points is unsigned: without points the loop bound wraps around and the first access is out of bounds.
  * `wrapParam` — The wrapping into the domain of a closed curve, Geometry/Curve/NurbsCurve.cpp:1318-1320. The first loop ends after at most `⌈(minParam - newT) / range⌉` rounds, the second after `⌈(newT - maxParam) / range⌉`, if the range is positive; otherwise the loops are reported as divergent as soon as they do not end by themselves.
  * `newtonRound` — One Newton round, Geometry/Curve/NurbsCurve.cpp:1289-1324. The boolean is true when the loop is left.
  * `newtonLoop` — The Newton loop, Geometry/Curve/NurbsCurve.cpp:1284-1327.
  * `getParamOnCurve` — `NurbsCurve::GetParamOnCurve`, Geometry/Curve/NurbsCurve.cpp:1237-1328.
* `Verif/Model/NeighborWeights.lean`
  * `neighborWeightsModification` — `NurbsCurve::NeighborWeightsModification`, Geometry/Curve/NurbsCurve.cpp:3249-3324; `none` is the answer `false`. The parameters and the point that `ComputeRays` leaves alone when it finds parallel lines are not read in that case; they are 0 here.
* `Verif/Model/Octree.lean`
  * `DistIndex` — `DistIndex`, include/OctreeCollector.h:17-27
  * `KnnResultSet` — `KnnResultSet`, include/OctreeCollector.h:29-44
  * `RadiusNnResultSet` — `RadiusNnResultSet`, include/OctreeCollector.h:46-60
  * `KnnResultSet.new` — `KnnResultSet::KnnResultSet`, Algorithm/Octree/OctreeCollector.cpp:14-20. A negative capacity makes `resize` throw `std::length_error`; the model gives `ub` there.
  * `KnnResultSet.full` — `KnnResultSet::Full`, Algorithm/Octree/OctreeCollector.cpp:23
  * `KnnResultSet.shiftCond` — the loop condition of `KnnResultSet::AddPoint`, Algorithm/Octree/OctreeCollector.cpp:40-41,45-47 (`i > 0` and no `break`)
  * `KnnResultSet.shiftBody` — the loop body of `KnnResultSet::AddPoint`, Algorithm/Octree/OctreeCollector.cpp:42-43
  * `KnnResultSet.addPoint` — `KnnResultSet::AddPoint`, Algorithm/Octree/OctreeCollector.cpp:26-53. The `while` loop is given as many steps as `i` allows.
  * `RadiusNnResultSet.new` — `RadiusNnResultSet::RadiusNnResultSet`, Algorithm/Octree/OctreeCollector.cpp:55-57
  * `RadiusNnResultSet.addPoint` — `RadiusNnResultSet::AddPoint`, Algorithm/Octree/OctreeCollector.cpp:62-68
  * `Octant` — `Octant`, include/Octree.h:19-30; the eight `Children` are a function on `Fin 8`
  * `Octant.isNull` — `child == nullptr`
  * `octInside` — `Inside`, Algorithm/Octree/Octree.cpp:32-38
  * `octOverlapsBox` — `Overlaps`, Algorithm/Octree/Octree.cpp:40-61, on a non-null octant given by its centre and extent
  * `octOverlaps` — `Overlaps` on a child pointer already known not to be null
  * `octContains` — `Contains`, Algorithm/Octree/Octree.cpp:63-70
  * `mortonCode` — the Morton code of a point with respect to a centre, Algorithm/Octree/Octree.cpp:91-94, 191-194, 220-223
  * `childCenter` — `childCenter`, Algorithm/Octree/Octree.cpp:98-105
  * `distribute` — the loop distributing the indices over the children, Algorithm/Octree/Octree.cpp:87-96
  * `octreeBuild` — `OctreeRecursiveBuild`, Algorithm/Octree/Octree.cpp:72-113, always called with a null `root`. The first argument bounds the depth of the recursion; exceeding it is `diverge`.
  * `dblMax` — `std::numeric_limits<double>::max()`
  * `octreeBounds` — the loop computing the bounds, Algorithm/Octree/Octree.cpp:119-135
  * `octreeConstruction` — `OctreeConstruction`, Algorithm/Octree/Octree.cpp:115-149
  * `addAll` — the loops over the indices of an octant, Algorithm/Octree/Octree.cpp:156-159, 164-167, 184-187, 213-216
  * `octreeSearch` — `OctreeRadiusSearch`, Algorithm/Octree/Octree.cpp:179-206, and `OctreeKnnSearch`, lines 208-235: the two C++ functions differ only in the type of the result set, which the model abstracts by `add` (`AddPoint`) and `worst` (`WorstDist`).
  * `octreeSearchFast` — `OctreeRadiusSearchFast`, Algorithm/Octree/Octree.cpp:151-177
  * `octreeRadiusSearch` — `OctreeRadiusSearch` on a fresh result set
  * `octreeRadiusSearchFast` — `OctreeRadiusSearchFast` on a fresh result set
  * `octreeKnnSearch` — `OctreeKnnSearch` on a fresh result set
* `Verif/Model/Offset.lean`
  * `offsetPoint` — One control point moved along the normal, Geometry/Curve/NurbsCurve.cpp:136-144 (and again 146-154): the normal at the parameter nearest to the control point, turned to the side of the first normal. `Constants::AngleEpsilon` is 1e-2 (include/Constants.h:25).
  * `offsetCorner` — The round of the second loop for the points `tempPoints[2k] … tempPoints[2k+3]`, Geometry/Curve/NurbsCurve.cpp:166-180; `none` is the early `return`, after which `result` is untouched. The values that `ComputeRays` leaves alone are not read.
  * `offsetTillerHanson` — `OffsetByTillerAndHanson`, Geometry/Curve/NurbsCurve.cpp:119-186; `none` is the early `return` that leaves `result` untouched.
  * `offsetSamples` — The number of samples of `OffsetByPieglAndTiller`, Geometry/Curve/NurbsCurve.cpp:203-222; the conversion to `int` is the floor of a non-negative number.
  * `offsetPieglTiller` — `OffsetByPieglAndTiller`, Geometry/Curve/NurbsCurve.cpp:188-237. `solve` is the linear solver of the interpolation (Eigen, not modelled), `test` the comparison of `RemoveExcessiveKnots` (Model/ExcessiveKnots.lean), which has fuel.
* `Verif/Model/OneBasis.lean`
  * `inSpan` — The test of Algorithm/Polynomials.cpp:423-424 and 474-475: `t` lies in the knot span `j` (a tolerant comparison; `&&` does not read the second knot when the first test fails).
  * `obfStep` — One inner loop step, Algorithm/Polynomials.cpp:438-451 and 487-501: from the value `x` of the next basis function of the lower degree and `saved`, the new value and the new `saved`.
  * `obfSaved` — the first `saved` of a round, Algorithm/Polynomials.cpp:432-436 and 482-486
  * `oneBasisFunction` — `Polynomials::OneBasisFunction`, Algorithm/Polynomials.cpp:399-455.
  * `oneBasisFunctionDerivative` — `Polynomials::OneBasisFunctionDerivative`, Algorithm/Polynomials.cpp:457-540.
* `Verif/Model/OrientedBox.lean`
  * `OrientedBox` — `LN_OrientedBoundingBox3d`, include/LNObject.h:103-108.
  * `XYZ.coord` — coordinate `k` of a point, as in the `std::array<double, 3>` and `Eigen::Vector3d` copies, Geometry/Surface/NurbsSurface.cpp:408, Mathematics/Utils/MathUtils.cpp:245.
  * `covariance` — The covariance matrix, Mathematics/Utils/MathUtils.cpp:239-248 (`covariance += p * p.transpose()`, then `covariance /= count`).
  * `obbAxes` — `MathUtils::ComputeOBBAxes`, Mathematics/Utils/MathUtils.cpp:231-256. The external `Eigen::SelfAdjointEigenSolver` is the parameter `eigen`: it maps the symmetric matrix to the matrix whose columns are the eigenvectors.
  * `NurbsSurface.orientedBox` — `NurbsSurface::GetOrientedBoundingBox`, Geometry/Surface/NurbsSurface.cpp:381-440. `big` is `std::numeric_limits<double>::max()`. For an empty net the axes are default constructed (zero).
* `Verif/Model/Periodic.lean`
  * `wrappedTest` — The loop over the first `degree` control points, Geometry/Curve/NurbsCurve.cpp:3616-3624; `XYZW::IsAlmostEqualTo` (Mathematics/Math/XYZW.cpp:117-122) compares the projected points.
  * `sameDerivatives` — The loop over the derivatives, Geometry/Curve/NurbsCurve.cpp:3650-3660.
  * `isPeriodic` — `NurbsCurve::IsPeriodic`, Geometry/Curve/NurbsCurve.cpp:3594-3661.
* `Verif/Model/PointMatrix.lean`
  * `listToXYZ` — `ControlPointsUtils::ToXYZ(weightedControlPoints)` for a list, Algorithm/ControlPointsUtils.cpp:19-27.
  * `netToXYZ` — `ControlPointsUtils::ToXYZ(points)` for a net, Algorithm/ControlPointsUtils.cpp:29-44.
  * `pointsMultiply` — `ControlPointsUtils::Multiply(points, coefficient)`, Algorithm/ControlPointsUtils.cpp:61-79.
  * `multiplyPoints` — `ControlPointsUtils::Multiply(coefficient, points)`, Algorithm/ControlPointsUtils.cpp:81-99.
* `Verif/Model/Polynomials.lean`
  * `isValidBezier` — `ValidationUtils::IsValidBezier`, Algorithm/ValidationUtils.cpp:18-21.
  * `isValidKnotVector` — `std::is_sorted` as used by `ValidationUtils::IsValidKnotVector`, Algorithm/ValidationUtils.cpp:23-26: no element is smaller than its predecessor.
  * `isValidBspline` — `ValidationUtils::IsValidBspline` / `IsValidNurbs`, Algorithm/ValidationUtils.cpp:28-36.
  * `horner` — `Polynomials::Horner` (univariate), Algorithm/Polynomials.cpp:22-32.
  * `bernstein` — `Polynomials::Bernstein`, Algorithm/Polynomials.cpp:34-60. `std::pow(x, degree)` with the nonnegative integer `degree` is the integer power.
  * `allBernstein` — `Polynomials::AllBernstein`, Algorithm/Polynomials.cpp:62-87. The loop state is (`bernsteinArray`, `saved`).
  * `horner2` — `Polynomials::Horner` (bivariate), Algorithm/Polynomials.cpp:89-105.
  * `getKnotMultiplicity` — `Polynomials::GetKnotMultiplicity`, Algorithm/Polynomials.cpp:107-125.
  * `getKnotSpanIndex` — `Polynomials::GetKnotSpanIndex`, Algorithm/Polynomials.cpp:127-162. The state of the binary search loop is (`low`, `high`, `mid`). The model gives the `while` loop `knotVector.size()` rounds; Props/C01 proves that it never needs more. `(low + high) / 2` is `int` division; the operands are nonnegative there.
  * `basisFunctions` — `Polynomials::BasisFunctions`, Algorithm/Polynomials.cpp:164-193. `out` is the caller's array; `left` and `right` are the uninitialised local arrays of length `NURBSMaxDegree + 1`. The outer loop state is (`basisFunctions`, `left`, `right`), the inner one (`basisFunctions`, `saved`).
* `Verif/Model/PowerBasis.lean`
  * `bezierToPowerMatrix` — `Polynomials::BezierToPowerMatrix`, Algorithm/Polynomials.cpp:578-620.
  * `powerToBezierMatrix` — `Polynomials::PowerToBezierMatrix`, Algorithm/Polynomials.cpp:622-657.
* `Verif/Model/ProjectNormal.lean`
  * `tangentAt` — The unit tangent at a knot, Geometry/Curve/NurbsCurve.cpp:372, 382 and 409.
  * `projectStep` — One round of the `for` loop, Geometry/Curve/NurbsCurve.cpp:380-392. State: (`Blist`, `needReCal`); a set flag stands for the `break`.
  * `projectTry` — One round of the `while` loop, Geometry/Curve/NurbsCurve.cpp:375-397. State: (`Blist`, `flag`, number of rounds so far).
  * `projectClosed` — The part for closed curves, Geometry/Curve/NurbsCurve.cpp:402-418.
  * `projectNormal` — `NurbsCurve::ProjectNormal`, Geometry/Curve/NurbsCurve.cpp:362-420. `fuel` bounds the rounds of the `while` loop; a longer run is `diverge`.
* `Verif/Model/Query.lean`
  * `equallyTessellate` — `NurbsCurve::EquallyTessellate`, Geometry/Curve/NurbsCurve.cpp:1168-1191; returns (`tessellatedPoints`, `correspondingKnots`). The model starts from empty output vectors.
  * `tessellateDirection` — The parameters in one direction, Geometry/Surface/NurbsSurface.cpp:1164-1184 and 1185-1196.
  * `equallyTessellateSurface` — `NurbsSurface::EquallyTessellate`, Geometry/Surface/NurbsSurface.cpp:1156-1210; returns (`tessellatedPoints`, `correspondingKnots`). The model starts from empty output vectors.
  * `getUVTangent` — `NurbsSurface::GetUVTangent`, Geometry/Surface/NurbsSurface.cpp:1659-1690; `none` is the answer `false`.
  * `scalePoint` — One control point of `NurbsSurface::NonUniformScaling`, Geometry/Surface/NurbsSurface.cpp:1989-1995 (reference point near the origin) and 2007-2017. The constructor `XYZW(double, double, double, double)` stores its arguments as they are (Mathematics/Math/XYZW.cpp:20-26).
  * `nonUniformScaling` — `NurbsSurface::NonUniformScaling`, Geometry/Surface/NurbsSurface.cpp:1976-2023.
  * `closedIndex` — The first loop of `NurbsCurve::IsClosed`, Geometry/Curve/NurbsCurve.cpp:1209-1220: the first control point that coincides with the last one.
  * `closedOverlap` — The second loop of `NurbsCurve::IsClosed`, Geometry/Curve/NurbsCurve.cpp:1224-1233.
  * `isClosedCurve` — `NurbsCurve::IsClosed`, Geometry/Curve/NurbsCurve.cpp:1193-1235 (over `ℝ`: `XYZ::Distance` takes a square root).
  * `isClosedSurface` — `NurbsSurface::IsClosed`, Geometry/Surface/NurbsSurface.cpp:1212-1262.
* `Verif/Model/RemoveKnot.lean`
  * `SweepState` — State of the two-sided sweep of `RemoveKnot`, Geometry/Curve/NurbsCurve.cpp:775-779.
  * `removeSweepRound` — One round of the sweep, Geometry/Curve/NurbsCurve.cpp:784-794.
  * `removeSweep` — The sweep with its initialisation, Geometry/Curve/NurbsCurve.cpp:773-795.
  * `removeTest` — The test whether the knot can be removed, Geometry/Curve/NurbsCurve.cpp:797-811.
  * `removeSave` — The new control points of a successful pass, Geometry/Curve/NurbsCurve.cpp:818-827. State: (`i`, `j`, `updatedControlPoints`).
  * `RemoveState` — State of the loop over the removals: `t`, `first`, `last`, `temp`, `updatedControlPoints`, and whether the loop has been left by `break`.
  * `removeRound` — One removal, Geometry/Curve/NurbsCurve.cpp:771-831.
  * `removeKnots` — The remaining knots, Geometry/Curve/NurbsCurve.cpp:756-765.
  * `removeCompact` — The compacted control points, Geometry/Curve/NurbsCurve.cpp:838-861. `/ 2` is an `int` division.
  * `removeKnot` — `NurbsCurve::RemoveKnot`, Geometry/Curve/NurbsCurve.cpp:737-866; `none` is the answer `false`.
  * `NurbsCurve.removeKnot` — `NurbsCurve::RemoveKnot`, Geometry/Curve/NurbsCurve.cpp:737-866, with its tolerance test (lines 746, 799 and 807).
* `Verif/Model/Reshape.lean`
  * `validateIndex` — `VALIDATE_ARGUMENT_RANGE(moveIndex, 0, controlPoints.size() - 1)`, include/LNLibExceptions.h:21-25 with integers (for a non-empty list of control points).
  * `firstBasis` — The value `basis[0]` used by `ControlPointReposition` and `WeightModification`, Geometry/Curve/NurbsCurve.cpp:3203-3206 and 3236-3239.
  * `controlPointReposition` — `NurbsCurve::ControlPointReposition`, Geometry/Curve/NurbsCurve.cpp:3192-3221; `none` is the answer `false`.
  * `weightModification` — `NurbsCurve::WeightModification`, Geometry/Curve/NurbsCurve.cpp:3223-3250.
* `Verif/Model/SignedDistance.lean`
  * `signedDistance` — `NurbsSurface::ComputeSignedDistanceFunction`, Geometry/Surface/NurbsSurface.cpp:3940-3950.
* `Verif/Model/SubLength.lean`
  * `approximateSubLength` — `NurbsCurve::ApproximateLength(curve, startParameter, endParameter, type)`, Geometry/Curve/NurbsCurve.cpp:3877-3882.
* `Verif/Model/Surface.lean`
  * `sizePred` — `v.size() - 1` in the unsigned 64 bit arithmetic of `size_t`: the predecessor of zero is `2^64 - 1`.
  * `BsplineSurface.check` — `BsplineSurface::Check` (include/BsplineSurface.h:29-48) and `NurbsSurface::Check` (Geometry/Surface/NurbsSurface.cpp:90-107), which perform the same tests.
  * `BsplineSurface.validateUV` — The two `VALIDATE_ARGUMENT_RANGE` lines that start most surface functions, e.g. include/BsplineSurface.h:64-65.
  * `BsplineSurface.pointOnSurface` — `BsplineSurface::GetPointOnSurface`, include/BsplineSurface.h:55-88.
  * `NurbsSurface.pointOnSurface` — `NurbsSurface::GetPointOnSurface`, Geometry/Surface/NurbsSurface.cpp:172-176.
  * `BsplineSurface.computeDerivatives` — `BsplineSurface::ComputeDerivatives`, include/BsplineSurface.h:95-141. As in the source the requested order, not its minimum with the degree, is passed to `BasisFunctionsDerivatives`.
  * `NurbsSurface.rationalDerivatives` — `NurbsSurface::ComputeRationalSurfaceDerivatives`, Geometry/Surface/NurbsSurface.cpp:178-223. `Aders` and `wders` are the two projections of `ders`.
  * `clampR` — `std::clamp(x, lo, hi)`: undefined behaviour when `hi < lo`.
  * `BsplineSurface.isoCurve` — `NurbsSurface::GetIsoCurve`, Geometry/Surface/NurbsSurface.cpp:109-170. The default constructed curve has degree 1 (include/LNObject.h:38).
  * `swapSurface` — `NurbsSurface::Swap`, Geometry/Surface/NurbsSurface.cpp:457-472.
  * `reverseKnots` — The knot vector loop of `NurbsSurface::Reverse`, Geometry/Surface/NurbsSurface.cpp:487-496 and 502-511 (the same text for U and V).
  * `reverseSurface` — `NurbsSurface::Reverse`, Geometry/Surface/NurbsSurface.cpp:474-546. `result` is the caller's output object: the knot vector of the direction that is not reversed is not assigned and keeps the caller's value. State of the swap loop: (`controlPoints`, `start`, `end`).
  * `reparametrizeSurface` — `NurbsSurface::Reparametrize`, Geometry/Surface/NurbsSurface.cpp:1639-1657.
  * `BoundingBox.extend` — Six `std::min`/`std::max` assignments that extend a box by a point, Geometry/Surface/NurbsSurface.cpp:341-347.
  * `NurbsSurface.boundingBox` — `NurbsSurface::GetBoundingBox`, Geometry/Surface/NurbsSurface.cpp:323-379. As in the source the second box starts at the origin (default constructed points), its samples use the knot pair `(KnotVectorU[i], KnotVectorV[i])`, and the result is the intersection of the two boxes.
  * `createBilinearSurface` — `NurbsSurface::CreateBilinearSurface`, Geometry/Surface/NurbsSurface.cpp:1692-1724. `degree` is the constant 3; the loop state is (`knotVector`, `controlPoints`), the two knot vectors being equal throughout.
* `Verif/Model/SurfaceApprox.lean`
  * `approximateRows` — One of the two loops over the rows, Geometry/Surface/NurbsSurface.cpp:2468-2480 and 2487-2499: the control points of the curves and the knot vector of the first one; `none` for `return false`.
  * `netToXYZW` — `ControlPointsUtils::ToXYZW(points)`, Algorithm/ControlPointsUtils.cpp:46-60.
  * `globalApproximationBy` — `NurbsSurface::GlobalApproximation`, Geometry/Surface/NurbsSurface.cpp:2447-2509.
  * `leastSquaresBy` — The least squares approximation with a given parametrisation, Geometry/Curve/NurbsCurve.cpp:2284-2432.
  * `surfaceApproximation` — The same with the chord parameters, Geometry/Surface/NurbsSurface.cpp:2447-2509.
* `Verif/Model/SurfaceArc.lean`
  * `createCylindricalSurface` — `NurbsSurface::CreateCylindricalSurface`, Geometry/Surface/NurbsSurface.cpp:1726-1763. `none` is `return false`.
  * `RevState` — The variables of the inner loop of `CreateRevolvedSurface`, Geometry/Surface/NurbsSurface.cpp:1936-1965.
  * `revRound` — One pass of the inner loop, Geometry/Surface/NurbsSurface.cpp:1936-1965, for the column `j` of the weight `w`; `none` is the early `return false`.
  * `revStep` — The inner loop body after a possible early `return false` (`none`), Geometry/Surface/NurbsSurface.cpp:1936-1965.
  * `revColumn` — One pass of the outer loop: the column of one profile control point, Geometry/Surface/NurbsSurface.cpp:1911-1966.
  * `revColumnStep` — The outer loop body after a possible early `return false` (`none`), Geometry/Surface/NurbsSurface.cpp:1911-1966.
  * `AngleState` — The variables of the loop Geometry/Surface/NurbsSurface.cpp:1897-1902.
  * `createRevolvedSurface` — `NurbsSurface::CreateRevolvedSurface`, Geometry/Surface/NurbsSurface.cpp:1848-1974. `none` is `return false`.
* `Verif/Model/SurfaceCreate.lean`
  * `ruledElevate` — The curve brought to the degree of the surface, Geometry/Surface/NurbsSurface.cpp:1783-1792 and 1794-1803. Only the knot vector and the control points of the elevated curve are kept; its degree is the degree of the surface.
  * `ruledRefine` — The refinement of one of the two curves, Geometry/Surface/NurbsSurface.cpp:1812-1822 and 1823-1833.
  * `createRuledSurface` — `NurbsSurface::CreateRuledSurface`, Geometry/Surface/NurbsSurface.cpp:1765-1846.
* `Verif/Model/SurfaceData.lean`
  * `BsplineSurface` — `LN_BsplineSurface<T>`, include/LNObject.h:45-53. `controlPoints[i][j]`: `i` is the U index.
  * `NurbsSurface` — `LN_NurbsSurface`, include/LNObject.h:55.
  * `SurfaceDirection` — `SurfaceDirection`, include/LNEnums.h.
  * `BoundingBox` — `LN_BoundingBox3d`, include/LNObject.h:91-99.
* `Verif/Model/SurfaceDecompose.lean`
  * `skipLessEqual` — `while (b < m && IsLessThanOrEqual(knotVector[b + 1], knotVector[b])) b++;` Geometry/Surface/NurbsSurface.cpp:816-819 and 893-896.
  * `patchSplit` — The knot insertions of one round, Geometry/Surface/NurbsSurface.cpp:821-851 and 898-927. `asize` is the size of `alphaVector`, which the C++ allocates once; every entry is written before it is read.
  * `patchRound` — One round of the main loop, Geometry/Surface/NurbsSurface.cpp:813-864 and 890-940. `rd k` reads the `k`-th row (column).
  * `patchPhase` — The algorithm in one direction: the first `degree + 1` rows (columns) start the piece `nb`, then the main loop, whose rounds increase `b < m`. Geometry/Surface/NurbsSurface.cpp:800-864 and 876-941.
  * `netRow` — The row `k` of the net as a vector of `columns` entries: reading an entry past the end of a shorter row is undefined.
  * `stripColumn` — The column `k` of a strip whose rows are vectors of `columns` entries.
  * `decomposeToPatches` — `NurbsSurface::DecomposeToBeziers`, Geometry/Surface/NurbsSurface.cpp:757-955. A negative size of one of the vectors throws `std::length_error` in the C++; the model's `toNat` makes it an empty vector and the first access `ub`.
* `Verif/Model/SurfaceElevate.lean`
  * `elevateFibres` — The loop of `NurbsSurface::ElevateDegree` over the fibres, Geometry/Surface/NurbsSurface.cpp:1042-1054 and 1066-1078. State: (`tempControlPoints`, `tempKnotVector`).
  * `elevateSurface` — `NurbsSurface::ElevateDegree`, Geometry/Surface/NurbsSurface.cpp:1024-1085.
  * `reduceFibre` — One round of the loop of `NurbsSurface::ReduceDegree`, Geometry/Surface/NurbsSurface.cpp:1103-1120 and 1134-1151. State: `none` after `return false`, else (`tempControlPoints`, `tempKnotVector`).
  * `reduceSurface` — `NurbsSurface::ReduceDegree`, Geometry/Surface/NurbsSurface.cpp:1086-1154; `none` is the answer `false`.
* `Verif/Model/SurfaceFirst.lean`
  * `BsplineSurface.firstOrder` — `BsplineSurface::ComputeFirstOrderDerivative`, include/BsplineSurface.h:143-191. `derivatives` is the caller's array `T[2][2]`, to which the function adds; `temp` is an array of `NURBSMaxDegree + 1 = 8` points, of which every entry is assigned before it is read.
  * `NurbsSurface.rationalFirstOrder` — `NurbsSurface::ComputeRationalSurfaceFirstOrderDerivative`, Geometry/Surface/NurbsSurface.cpp:225-254; returns (`S`, `Su`, `Sv`). The array `ders` is default constructed, that is zero (Mathematics/Math/XYZW.cpp, default constructor).
* `Verif/Model/SurfaceInsert.lean`
  * `insertAlpha` — The table `alpha` of `NurbsSurface::InsertKnot`, Geometry/Surface/NurbsSurface.cpp:597-605. A negative number of rows or columns makes the constructor throw `std::length_error`; the model reports `ub`.
  * `insertFibre` — The body of the loop over columns (Geometry/Surface/NurbsSurface.cpp:618-652) and of the loop over rows (659-693) of `NurbsSurface::InsertKnot`; the two are the same text with the index pair swapped, so `read` and `write` access one column or one row. State: (`updatedControlPoints`, `temp`).
  * `insertedKnots` — The knot vector loops of `NurbsSurface::InsertKnot`, Geometry/Surface/NurbsSurface.cpp:581-595.
  * `insertKnotSurface` — `NurbsSurface::InsertKnot`, Geometry/Surface/NurbsSurface.cpp:548-697. The number of insertions is not validated. The model is generic in the point type; `temp` has `degree + 1` default constructed points and is shared by all fibres. A negative size of `updatedControlPoints` throws in the source and is `ub` in the model.
  * `refineFibres` — The loop of `NurbsSurface::RefineKnotVector` over the fibres, Geometry/Surface/NurbsSurface.cpp:719-730 and 739-750. State: (`tempControlPoints`, `tempKnotVector`).
  * `refineKnotSurface` — `NurbsSurface::RefineKnotVector`, Geometry/Surface/NurbsSurface.cpp:699-755.
* `Verif/Model/SurfaceInterp.lean`
  * `surfaceSystem` — The matrix of `NurbsSurface::GlobalInterpolation`, Geometry/Surface/NurbsSurface.cpp:2171-2212.
  * `surfaceInterpolationWith` — The rest of `NurbsSurface::GlobalInterpolation` once the parameters are known, Geometry/Surface/NurbsSurface.cpp:2167-2235. `solve` is `MathUtils::SolveLinearSystem` (Eigen), which is not modelled. The right-hand side is built row by row.
  * `surfaceInterpolation` — `NurbsSurface::GlobalInterpolation`, Geometry/Surface/NurbsSurface.cpp:2147-2235. The boolean result of `GetSurfaceMeshParameterization` is not looked at.
* `Verif/Model/SurfaceNearest.lean`
  * `nearestRoundS` — One round of the search along the tessellation, Geometry/Surface/NurbsSurface.cpp:1289-1315. State: (`minDistanceSquared`, `bestParam`); `none` is the largest `double`, the initial value, which every squared distance is taken to be below.
  * `nearestStartS` — The search along the tessellation, Geometry/Surface/NurbsSurface.cpp:1286-1315. The number of points is unsigned: without points the loop bound wraps around and the first access is out of bounds.
  * `newtonRoundS` — One Newton round, Geometry/Surface/NurbsSurface.cpp:1322-1384 and 1463-1524. `wrapU` and `wrapV` bring a parameter back into the domain: for a closed direction by adding the period, for an open one by clamping; the order of these four steps does not matter, as each of them reads and writes its own parameter only. The boolean is true when the loop is left.
  * `newtonLoopS` — The Newton loop, Geometry/Surface/NurbsSurface.cpp:1318-1385 and 1455-1525.
  * `backInto` — The way back into the domain, Geometry/Surface/NurbsSurface.cpp:1366-1382 (both directions) and 1514-1521 (the second direction).
  * `getParamOnSurface` — `NurbsSurface::GetParamOnSurface`, Geometry/Surface/NurbsSurface.cpp:1266-1388.
  * `backIntoTol` — The first direction in `GetAllParamsOnSurface`, Geometry/Surface/NurbsSurface.cpp:1505-1512: the loops compare with the tolerance; the numbers of rounds are bounded as in `wrapParam`.
  * `sameParam` — The comparison with one of the parameters found before, Geometry/Surface/NurbsSurface.cpp:1526-1541.
  * `initialGuesses` — The starting points, Geometry/Surface/NurbsSurface.cpp:1422-1452: the inner samples of the tessellation that are nearer than their four neighbours, and the last corner.
  * `getAllParamsOnSurface` — `NurbsSurface::GetAllParamsOnSurface`, Geometry/Surface/NurbsSurface.cpp:1390-1550.
* `Verif/Model/SurfaceRemove.lean`
  * `removeFibres` — The loop over the fibres, Geometry/Surface/NurbsSurface.cpp:985-998 and 1008-1019. The answer of `NurbsCurve::RemoveKnot` is ignored; when it is `false`, `newtc` stays default constructed, with neither knots nor control points. State: (`tempControlPoints`, `tempKnotVector`).
  * `removeKnotSurface` — `NurbsSurface::RemoveKnot`, Geometry/Surface/NurbsSurface.cpp:957-1022.
  * `NurbsSurface.removeKnot` — `NurbsSurface::RemoveKnot` with the library's tolerance, Geometry/Surface/NurbsSurface.cpp:957-1022.
* `Verif/Model/Sweep.lean`
  * `createTranslationalSweep` — `NurbsSurface::CreateGeneralizedTranslationalSweepSurface`, Geometry/Surface/NurbsSurface.cpp:2712-2740.
* `Verif/Model/SweepByLength.lean`
  * `lengthSegments` — `segments`, the parameters of the sections, Geometry/Surface/NurbsSurface.cpp:2835-2841. A vector of negative size, for which the library throws, is treated as an empty one, whose first element cannot be written.
  * `createSweepByLength` — `NurbsSurface::CreateSweepSurface(profile, trajectory, minimumProfiles, customTrajectoryDegree, surface)`, Geometry/Surface/NurbsSurface.cpp:2826-2874. `len` is `NurbsCurve::ApproximateLength`; `fuel` and `rounds` bound the loops of `GetParamsOnCurve`, `fuelN` those of `ProjectNormal`, whose random angles are `angle`; `solve` is the linear solver. The first element of `segments`, which the code writes before it looks for the parameters, is written after that.
* `Verif/Model/SweepSections.lean`
  * `sweepTrajectory` — The number of sections and the curve they are placed on, Geometry/Surface/NurbsSurface.cpp:2744-2767.
  * `minmaxElement` — The smallest and the largest element, `std::minmax_element`, Geometry/Surface/NurbsSurface.cpp:2771; reading through the iterators of an empty range is undefined.
  * `sweepParams` — The parameters of the sections, Geometry/Surface/NurbsSurface.cpp:2769-2785.
  * `sweepSection` — The section at the parameter `v`, Geometry/Surface/NurbsSurface.cpp:2796-2818.
  * `sweepSections` — The sections, Geometry/Surface/NurbsSurface.cpp:2792-2819.
  * `createSweep` — `NurbsSurface::CreateSweepSurface` with interpolated trajectory, Geometry/Surface/NurbsSurface.cpp:2742-2823. `angle` are the random angles drawn by `ProjectNormal`, `fuel` bounds its rounds, `solve` is the linear solver used by the interpolation in `CreateLoftSurface`.
* `Verif/Model/Swung.lean`
  * `swungParams` — The parameters of the placed profiles, Geometry/Surface/NurbsSurface.cpp:2528-2539.
  * `swungFirst` — The first of the vectors that turn the profile, Geometry/Surface/NurbsSurface.cpp:2544-2553.
  * `swungNormals` — The vectors that turn the profile, Geometry/Surface/NurbsSurface.cpp:2541-2561.
  * `swungMatrix` — The matrix of one position, Geometry/Surface/NurbsSurface.cpp:2573-2580.
  * `swungPlace` — The placed control points, row by row of the final net: entry `i`, `k` is the `i`-th control point at the `k`-th position, Geometry/Surface/NurbsSurface.cpp:2526, 2566-2585.
  * `swungRows` — The rows are replaced by the control points of the interpolating curves, Geometry/Surface/NurbsSurface.cpp:2587-2600.
  * `createSwung` — `NurbsSurface::CreateSwungSurface`, Geometry/Surface/NurbsSurface.cpp:2511-2609. `solve` is the linear solver of `GlobalInterpolation`.
* `Verif/Model/Tangent.lean`
  * `meshLine` — One row or column of `Interpolation::GetSurfaceMeshParameterization`, Algorithm/Interpolation.cpp:278-300 and 313-334: `dist k` is the distance between the points `k` and `k - 1` of that line, `len` the number of its points. State: (`cds`, `params`, `num`).
  * `meshDirection` — One direction of `Interpolation::GetSurfaceMeshParameterization`, Algorithm/Interpolation.cpp:274-310 and 312-344: `lines` rows or columns of `len` points each. The boolean is false when the function returns false at the end of this direction.
  * `resizeZero` — `v.resize(size, 0.0)`
  * `getCentripetalLength` — `Interpolation::GetCentripetalLength`, Algorithm/Interpolation.cpp:95-106.
  * `getSurfaceMeshParameterization` — `Interpolation::GetSurfaceMeshParameterization`, Algorithm/Interpolation.cpp:265-346: the returned boolean and the final contents of the reference arguments `paramsU` and `paramsV`, whose contents on entry are `paramsU0` and `paramsV0`.
  * `getqk` — `Getqk`, Algorithm/Interpolation.cpp:22-25.
  * `getak` — `Getak`, Algorithm/Interpolation.cpp:27-30.
  * `getTk` — `GetTk`, Algorithm/Interpolation.cpp:32-36.
  * `computeTangentFive` — `Interpolation::ComputeTangent(throughPoints, tangents)`, Algorithm/Interpolation.cpp:348-376: the boolean and, when it is true, the tangents (every entry of the output is written then).
  * `tangentInner` — The body of the loop of `Interpolation::ComputeTangent(throughPoints)`, Algorithm/Interpolation.cpp:400-419.
  * `tangentEnd` — The end tangents of `Interpolation::ComputeTangent(throughPoints)`, Algorithm/Interpolation.cpp:421-435: `i` is the end, `j` its neighbour and `s` the segment between them.
  * `computeTangent` — `Interpolation::ComputeTangent(throughPoints)`, Algorithm/Interpolation.cpp:378-437.
* `Verif/Model/Torsion.lean`
  * `NurbsCurve.torsion` — `NurbsCurve::Torsion`, Geometry/Curve/NurbsCurve.cpp:422-447.
* `Verif/Model/VectorTests.lean`
  * `XYZ.isUnit` — `XYZ::IsUnit`, Mathematics/Math/XYZ.cpp:90-93.
  * `sqrLength` — `UV::SqrLength`, Mathematics/Math/UV.cpp:90-93.
  * `length` — `UV::Length`, Mathematics/Math/UV.cpp:85-88.
  * `isZero` — `UV::IsZero`, Mathematics/Math/UV.cpp:69-72.
  * `isUnit` — `UV::IsUnit`, Mathematics/Math/UV.cpp:74-77.
  * `almostEq` — `UV::IsAlmostEqualTo`, Mathematics/Math/UV.cpp:79-83.
  * `normalize` — `UV::Normalize`, Mathematics/Math/UV.cpp:95-106.
  * `distance` — `UV::Distance`, Mathematics/Math/UV.cpp:133-137.
  * `radiansToAngle` — `MathUtils::RadiansToAngle`, Mathematics/Utils/MathUtils.cpp:89-92. The constant for pi is the real number.
  * `angleToRadians` — `MathUtils::AngleToRadians`, Mathematics/Utils/MathUtils.cpp:94-97.
* `Verif/Model/Volume.lean`
  * `BsplineVolume.pointOnVolume` — The homogeneous point computed by `NurbsVolume::GetPointOnVolume`, Geometry/Volume/NurbsVolume.cpp:137-190, before the final `ToXYZ(true)`. There is no range check besides the one inside `GetKnotSpanIndex`.
  * `NurbsVolume.pointOnVolume` — `NurbsVolume::GetPointOnVolume`, Geometry/Volume/NurbsVolume.cpp:137-192.
  * `BsplineVolume.homogeneousDerivatives` — The homogeneous derivatives of `NurbsVolume::ComputeVolumeRationalDerivatives`, Geometry/Volume/NurbsVolume.cpp:194-262. As in the source the inner accumulation reads `temp2[y]` where `temp1[y]` was computed (line 249). Loop state: (`ders`, `temp1`, `temp2`).
  * `volumeRational` — The rational part of `NurbsVolume::ComputeVolumeRationalDerivatives`, Geometry/Volume/NurbsVolume.cpp:264-336: `Aders` and `wders` are the projections of `ders`.
  * `NurbsVolume.rationalDerivatives` — `NurbsVolume::ComputeVolumeRationalDerivatives`, Geometry/Volume/NurbsVolume.cpp:194-336.
  * `fibreLoop` — the two nested loops over all fibres of one direction that `InsertKnot` (Geometry/Volume/NurbsVolume.cpp:376-409, 419-452, 461-494), `RefineKnotVector` (865-898, 907-940, 949-982) and `Reverse` (1426-1459, 1474-1504, 1517-1547) share: gather the control points of a fibre, apply a curve operation, scatter the resulting control points into `newControlPoints`, remember the resulting knot vector. `outer`, `inner`: loop bounds (exclusive); `len`: number of control points of a fibre.
  * `BsplineVolume.sizes` — `n`, `m`, `l`: the last control point indices, e.g. Geometry/Volume/NurbsVolume.cpp:350-352.
  * `newNet` — `newControlPoints.resize(a, vector(b, vector(d)))`
  * `alongFibres` — the U, V and W branches of the operations that work fibre by fibre; `net` is the freshly sized `newControlPoints`.
  * `grownNet` — the size of `newControlPoints` when `t` control points are added in one direction, Geometry/Volume/NurbsVolume.cpp:359-370 and 847-858.
  * `insertKnotVolume` — `NurbsVolume::InsertKnot`, Geometry/Volume/NurbsVolume.cpp:338-484. Each fibre is inserted into a default constructed curve (degree 1, no knots, no control points; include/LNObject.h:37-42).
  * `refineVolume` — `NurbsVolume::RefineKnotVector`, Geometry/Volume/NurbsVolume.cpp:826-985. As in the source `times` is one less than the number of new knots.
  * `reverseVolume` — `NurbsVolume::Reverse`, Geometry/Volume/NurbsVolume.cpp:1400-1557. As in the source `newControlPoints` is sized in the U branch only.
  * `takeR` — `std::vector(l.begin(), l.begin() + e)`: undefined outside `[0, size]`.
  * `dropR` — `std::vector(l.begin() + e, l.end())`: undefined outside `[0, size]`.
  * `mapR` — `for (i …) out[i] = f(in[i]);` with `out` resized to the size of `in`.
  * `raiseKnot` — The preparation shared by the three branches of `SplitAt` and `Extract`, e.g. Geometry/Volume/NurbsVolume.cpp:511-527: span and multiplicity of the parameter after the knot has been raised to multiplicity `degree`.
  * `splitKnots` — the two knot vectors of `SplitAt`, e.g. Geometry/Volume/NurbsVolume.cpp:529-535
  * `splitVolume` — `NurbsVolume::SplitAt`, Geometry/Volume/NurbsVolume.cpp:486-671; the answer is always `true`.
  * `extractLocal` — The surface that `NurbsVolume::Extract` (Geometry/Volume/NurbsVolume.cpp:673-824) assembles in its local variables. At the two ends of the parameter range `newDegreeU` and `newDegreeV` are read without having been assigned: undefined behaviour.
  * `extractVolume` — `NurbsVolume::Extract`, Geometry/Volume/NurbsVolume.cpp:673-824. The parameter `surface` is passed by value: the second component of the answer, the caller's object, is the one that was passed in.
  * `tabulate` — the loops of `NurbsVolume::Swap`: `newControlPoints` of size `a × b × d` filled from `read`.
  * `swapVolume` — `NurbsVolume::Swap`, Geometry/Volume/NurbsVolume.cpp:1559-1649. `result` is the caller's output object, unchanged for the combinations that the source does not mention.
  * `clampParam` — the lambda `clampParam` of `GetIsoCurve`, Geometry/Volume/NurbsVolume.cpp:31-35
  * `isoLoop` — the loop nest of one branch of `GetIsoCurve`, e.g. Geometry/Volume/NurbsVolume.cpp:53-66
  * `isoCurveVolume` — `NurbsVolume::GetIsoCurve`, Geometry/Volume/NurbsVolume.cpp:19-135.
* `Verif/Model/VolumeElevate.lean`
  * `interiorKnots` — `uniqueCount`, the number of interior knots counted with multiplicity, Geometry/Volume/NurbsVolume.cpp:1018-1020, 1067-1069, 1116-1118.
  * `BsplineVolume.raiseDegree` — The degree of the direction after the elevation, Geometry/Volume/NurbsVolume.cpp:1051-1053, 1100-1102, 1149-1151.
  * `BsplineVolume.elevateGrowth` — `(uniqueCount + 1) * times` of the direction, Geometry/Volume/NurbsVolume.cpp:1018-1021, 1067-1070, 1116-1119.
  * `elevateVolume` — `NurbsVolume::ElevateDegree`, Geometry/Volume/NurbsVolume.cpp:995-1163. The fibre loops are those of `alongFibres`; the fibre curves carry the degree of the argument. Simplification: a negative size passed to `resize` (negative `times`) is treated as an empty net; the first fibre then throws because of `times`.
* `Verif/Model/VolumeQuery.lean`
  * `closedFibres` — The loops of one branch of `NurbsVolume::IsClosed`, e.g. Geometry/Volume/NurbsVolume.cpp:1177-1196: the control points `read a b 0`, …, `read a b (len - 1)` of each curve of one direction are collected and the curve is tested; the first curve that is not closed ends the loops.
  * `isClosedVolume` — `NurbsVolume::IsClosed`, Geometry/Volume/NurbsVolume.cpp:1165-1259.
  * `nearestRoundV` — One sample of the search for the starting point, Geometry/Volume/NurbsVolume.cpp:1293-1305. State: (`minDistSq`, `bestParam`); `none` is the largest `double`, the initial value, which every squared distance is taken to be below.
  * `newtonRoundV` — One Newton round, Geometry/Volume/NurbsVolume.cpp:1317-1394. The boolean is true when the loop is left.
  * `getParamOnVolume` — `NurbsVolume::GetParamOnVolume`, Geometry/Volume/NurbsVolume.cpp:1261-1398.
  * `positiveAt` — The test at one sample of `NurbsVolume::Check`, Geometry/Volume/NurbsVolume.cpp:1671-1690.
  * `checkVolume` — `NurbsVolume::Check`, Geometry/Volume/NurbsVolume.cpp:1650-1694.
* `Verif/Model/Warp.lean`
  * `warping` — `NurbsCurve::Warping`, Geometry/Curve/NurbsCurve.cpp:3328-3358.
  * `flattening` — `NurbsCurve::Flattening`, Geometry/Curve/NurbsCurve.cpp:3360-3403. The two loops are one: the map of lines 3374-3379 is walked by ascending index (lines 3385-3396) and each entry changes only its own control point. The unused `lineVector` and `lineLength` are left out.
  * `bending` — `NurbsCurve::Bending`, Geometry/Curve/NurbsCurve.cpp:3405-3440. The two loops are one, as in `flattening`.
* `Verif/Model/WeightedFit.lean`
  * `FitRows` — `N`, `W_vec`, `S`, `M` and `T`, Geometry/Curve/NurbsCurve.cpp:2484-2488.
  * `fitRow` — `for (int k = 0; k <= degree; ++k) { int col = start + k; if (...) row[col] = value[k]; }` on a row of zeros, Geometry/Curve/NurbsCurve.cpp:2504-2509, 2518-2523, 2538-2543 and 2549-2554.
  * `fitAdd` — One row: to `N`, `W_vec` and `S` if the weight is positive, to `M` and `T` if it is negative, else nothing, Geometry/Curve/NurbsCurve.cpp:2500-2526 and 2537-2557.
  * `fitHasTangent` — `hasTangent`, Geometry/Curve/NurbsCurve.cpp:2494-2495.
  * `fitLoop` — The loop over the points, Geometry/Curve/NurbsCurve.cpp:2493-2560. The second component of the state is `tan_order_idx`.
  * `fitDiagonal` — The matrix `W`, Geometry/Curve/NurbsCurve.cpp:2564-2567.
  * `fitTranspose` — The matrices `tN` and `tM`, Geometry/Curve/NurbsCurve.cpp:2569-2572 and 2593-2596.
  * `fitPoints` — `S_mat`, Geometry/Curve/NurbsCurve.cpp:2577-2582.
  * `fitBlocks` — The blocks of `A`, Geometry/Curve/NurbsCurve.cpp:2598-2612.
  * `fitSystem` — The system handed to the solver, without and with constraints, Geometry/Curve/NurbsCurve.cpp:2585-2586 and 2598-2624.
  * `fitControl` — `controlPoints[i] = XYZW(XYZ(result[i][0], result[i][1], result[i][2]), 1.0)`, Geometry/Curve/NurbsCurve.cpp:2589-2591 and 2628-2630.
  * `fitSized` — The size test of the answer of the solver, Geometry/Curve/NurbsCurve.cpp:2587 and 2625.
  * `weightedFit` — `NurbsCurve::WeightedAndContrainedLeastSquaresApproximation`, Geometry/Curve/NurbsCurve.cpp:2432-2636, with the chord parameters as `uk`. `none` is the answer `false`. `solve` is `MathUtils::SolveLinearSystem` (Eigen, not modelled). `derivatives.size() < 2` never holds.
  * `weightedFitChord` — The same with the chord parameters, Geometry/Curve/NurbsCurve.cpp:2480; here they are computed before the arguments are tested.

## 7. What is not modelled

Everything not listed in section 6. In particular: floating point rounding and overflow; 32-bit integer overflow; the
Eigen-based linear solvers (`SolveLinearSystem`, `MakeInverse`) and everything that calls them except where the solver is a
parameter; FFT/Gauss–Legendre/Chebyshev tables; the planar Delaunay/Voronoi construction (a parameter in C164); random number generation (random
outcomes are parameters); file I/O; the C API, C# and Python wrappers, except how the C interface stores the curves, surfaces and tables it
returns (C165, C166).

## 8. Mutation tests

`seeded/LOG.jsonl` has one line per wrong program tried: the definition edited in a scratch copy, the edit, the claim it
breaks, the theorems that stopped proving, and any theorem that had to be tightened.
