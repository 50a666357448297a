{"id": "C01", "title": "Span search terminates and is correct", "statement": "For a knot vector accepted by the library and a parameter in the curve domain [U[degree], U[m-degree]], GetKnotSpanIndex terminates without reading outside the knot vector and returns an index s with degree <= s <= n, U[s] < U[s+1] and U[s] <= t < U[s+1] (or t at the right end of the domain and s the last non-empty span).", "quantifier": "every degree, every non-decreasing knot vector with n >= degree and non-degenerate domain whose distinct knots are further apart than the library tolerance, every parameter in the domain", "why_tests_cant": "the binary search loop has no iteration bound and no range check; termination and in-bounds access must hold for all knot vectors and parameters", "anchors": ["src/LNLib/Algorithm/Polynomials.cpp:Polynomials::GetKnotSpanIndex"]}
{"id": "C02", "title": "Basis functions are the Cox-de Boor basis", "statement": "The degree+1 numbers computed by BasisFunctions for the span returned by GetKnotSpanIndex are exactly the values N_{s-p,p}(t)..N_{s,p}(t) of the Cox-de Boor recursion; all other basis functions vanish at t; no zero denominator is met and nothing outside the arrays is read or written.", "quantifier": "every degree <= 7, knot vector, span and parameter in the span", "why_tests_cant": "recursion depth, knot multiplicities and parameters range over infinite sets", "anchors": ["src/LNLib/Algorithm/Polynomials.cpp:Polynomials::BasisFunctions"]}
{"id": "C03", "title": "Partition of unity", "statement": "The basis function values returned by BasisFunctions sum to 1.", "quantifier": "every degree <= 7, knot vector, span with U[s]<U[s+1], parameter", "why_tests_cant": "identity over all knot vectors and parameters", "anchors": ["src/LNLib/Algorithm/Polynomials.cpp:Polynomials::BasisFunctions"]}
{"id": "C04", "title": "Non-negativity of the basis", "statement": "The basis function values returned by BasisFunctions are all >= 0 when the parameter lies in the span.", "quantifier": "every degree <= 7, knot vector, span, parameter in the closed span", "why_tests_cant": "inequality over all inputs", "anchors": ["src/LNLib/Algorithm/Polynomials.cpp:Polynomials::BasisFunctions"]}
{"id": "C05", "title": "Curve evaluation is the B-spline sum", "statement": "BsplineCurve::GetPointOnCurve returns sum_i N_{i,p}(t) P_i over all control points, for every valid curve and parameter in the domain, and never exhibits undefined behaviour there.", "quantifier": "every valid curve of degree 1..7, every parameter in the domain", "why_tests_cant": "quantifies over all curves and parameters", "anchors": ["src/LNLib/include/BsplineCurve.h:BsplineCurve::GetPointOnCurve"]}
{"id": "C06", "title": "Bad arguments are rejected, not undefined", "statement": "Evaluating a curve of degree greater than 7, or at a parameter outside the knot range by more than the tolerance, throws instead of overrunning the fixed size work arrays or extrapolating.", "quantifier": "every curve and parameter violating the precondition", "why_tests_cant": "the error branch must be taken for every bad input", "anchors": ["src/LNLib/include/BsplineCurve.h:BsplineCurve::GetPointOnCurve", "src/LNLib/Algorithm/Polynomials.cpp:BasisFunctions", "src/LNLib/include/LNLibExceptions.h"]}
{"id": "C07", "title": "Convex hull / bounding box property", "statement": "Every point returned by evaluating a curve is a convex combination of the degree+1 control points of the active span, so each coordinate lies between the minimum and maximum of that coordinate over the control points (for rational curves with positive weights: of the projected control points).", "quantifier": "every valid curve with positive weights, every parameter in the domain", "why_tests_cant": "inequality over all curves and parameters", "anchors": ["src/LNLib/include/BsplineCurve.h:GetPointOnCurve", "src/LNLib/Geometry/Curve/NurbsCurve.cpp:NurbsCurve::GetPointOnCurve"]}
{"id": "C08", "title": "Affine invariance", "statement": "Transforming a curve with CreateTransformed and evaluating gives the transform of the evaluated point of the original curve.", "quantifier": "every affine matrix, every valid curve with non-zero weight function, every parameter", "why_tests_cant": "universally quantified equation between two API paths", "anchors": ["src/LNLib/Geometry/Curve/NurbsCurve.cpp:NurbsCurve::CreateTransformed", "src/LNLib/Mathematics/Math/Matrix4d.cpp:OfPoint"]}
{"id": "C09", "title": "End point interpolation", "statement": "A clamped curve evaluated at its first and last knot returns exactly its first and last control point.", "quantifier": "every valid clamped curve", "why_tests_cant": "all degrees, knots, control points", "anchors": ["src/LNLib/include/BsplineCurve.h:GetPointOnCurve", "src/LNLib/Geometry/Curve/NurbsCurve.cpp:NurbsCurve::IsClamp"]}
{"id": "C10", "title": "Local modification", "statement": "Changing control point i changes the evaluated curve only for parameters in [U[i], U[i+p+1]].", "quantifier": "every valid pair of curves that differ in one control point, every parameter outside the support", "why_tests_cant": "two-run (relational) property over all inputs", "anchors": ["src/LNLib/include/BsplineCurve.h:GetPointOnCurve"]}
{"id": "C11", "title": "Knot insertion preserves the curve", "statement": "NurbsCurve::InsertKnot returns a curve that evaluates to the same point as the input curve at every parameter of the domain.", "quantifier": "every valid curve, every knot value inside the domain, every admissible number of insertions, every parameter", "why_tests_cant": "equality of two functions on a continuum, for all knot insertions", "anchors": ["src/LNLib/Geometry/Curve/NurbsCurve.cpp:NurbsCurve::InsertKnot"]}
{"id": "C12", "title": "Knot insertion keeps the curve valid", "statement": "The result of InsertKnot has knot vector = input knots with the new knot added `times` times, still sorted, and control point count satisfying m = n + p + 1; other inputs return 0 and leave the result untouched.", "quantifier": "every valid curve, insertion value and count", "why_tests_cant": "structural invariant over all inputs", "anchors": ["src/LNLib/Geometry/Curve/NurbsCurve.cpp:NurbsCurve::InsertKnot", "src/LNLib/Algorithm/ValidationUtils.cpp:IsValidNurbs"]}
{"id": "C13", "title": "Horner evaluation", "statement": "Horner returns sum_i coefficients[i] * t^i (and the bivariate version the double sum), and rejects mismatched sizes.", "quantifier": "every degree, coefficient vector and parameter", "why_tests_cant": "all sizes", "anchors": ["src/LNLib/Algorithm/Polynomials.cpp:Polynomials::Horner"]}
{"id": "C14", "title": "AllBernstein is the Bernstein basis", "statement": "AllBernstein(n,t) returns C(n,i) t^i (1-t)^(n-i) for i=0..n; entries sum to 1, are non-negative on [0,1].", "quantifier": "every degree, every parameter in [0,1]", "why_tests_cant": "all degrees and parameters", "anchors": ["src/LNLib/Algorithm/Polynomials.cpp:Polynomials::AllBernstein"]}
{"id": "C15", "title": "Bernstein(index,degree,t) is the Bernstein polynomial", "statement": "Bernstein(i,n,t) equals C(n,i) t^i (1-t)^(n-i).", "quantifier": "every degree, index and parameter", "why_tests_cant": "all degrees, indices and parameters (the shipped code violates it for 2 <= index <= degree-1)", "anchors": ["src/LNLib/Algorithm/Polynomials.cpp:Polynomials::Bernstein"]}
{"id": "C16", "title": "de Casteljau agrees with Bernstein evaluation", "statement": "GetPointOnCurveByDeCasteljau and GetPointOnCurveByBernstein return the same point, sum_k B_{k,n}(t) P_k.", "quantifier": "every Bezier curve and parameter in [0,1]", "why_tests_cant": "equivalence of two algorithms on all inputs", "anchors": ["src/LNLib/include/BezierCurve.h:GetPointOnCurveByDeCasteljau", "src/LNLib/include/BezierCurve.h:GetPointOnCurveByBernstein"]}
{"id": "C17", "title": "Knot multiplicity", "statement": "GetKnotMultiplicity returns the number of knots equal to the argument up to the library tolerance, and the exact count when distinct knots are separated.", "quantifier": "every knot vector and knot", "why_tests_cant": "all vectors", "anchors": ["src/LNLib/Algorithm/Polynomials.cpp:Polynomials::GetKnotMultiplicity"]}
{"id": "C18", "title": "OneBasisFunction agrees with Cox-de Boor", "statement": "OneBasisFunction(i,p,U,t) equals N_{i,p}(t).", "quantifier": "every clamped knot vector with separated knots, every index, degree, parameter in range", "why_tests_cant": "all knot vectors and parameters", "anchors": ["src/LNLib/Algorithm/Polynomials.cpp:Polynomials::OneBasisFunction"]}
{"id": "C19", "title": "Basis derivatives", "statement": "BasisFunctionsDerivatives row 0 equals BasisFunctions, row k holds the k-th derivatives of the basis polynomials of the span and each row k>=1 sums to zero; a derivative order above the degree is rejected.", "quantifier": "every degree <= 7, order, knot vector, span and parameter", "why_tests_cant": "all inputs; the algorithm uses ring-buffer indices and triangular tables", "anchors": ["src/LNLib/Algorithm/Polynomials.cpp:Polynomials::BasisFunctionsDerivatives", "src/LNLib/Algorithm/Polynomials.cpp:Polynomials::BasisFunctionsFirstOrderDerivative"]}
{"id": "C20", "title": "Rational derivatives satisfy Leibniz", "statement": "ComputeRationalCurveDerivatives returns C^(k) with A^(k) = sum_i binom(k,i) w^(i) C^(k-i), i.e. the derivatives of A/w.", "quantifier": "every order, every curve with non-vanishing weight", "why_tests_cant": "all orders and inputs", "anchors": ["src/LNLib/Geometry/Curve/NurbsCurve.cpp:NurbsCurve::ComputeRationalCurveDerivatives", "src/LNLib/Geometry/Surface/NurbsSurface.cpp:ComputeRationalSurfaceDerivatives"]}
{"id": "C21", "title": "Curve reversal", "statement": "Reverse produces a valid curve with R(a+b-t) = C(t) and reversing twice gives the original.", "quantifier": "every valid curve and parameter", "why_tests_cant": "equality on a continuum, for all curves", "anchors": ["src/LNLib/Geometry/Curve/NurbsCurve.cpp:NurbsCurve::Reverse"]}
{"id": "C22", "title": "Linear reparametrisation", "statement": "Reparametrize(curve,min,max) gives a valid curve with knots from min to max whose point at the affinely mapped parameter is the original point.", "quantifier": "every valid curve, min < max and parameter", "why_tests_cant": "all inputs", "anchors": ["src/LNLib/Geometry/Curve/NurbsCurve.cpp:NurbsCurve::Reparametrize", "src/LNLib/Algorithm/KnotVectorUtils.cpp:KnotVectorUtils::Rescale"]}
{"id": "C23", "title": "Curve splitting", "statement": "SplitAt at an interior parameter returns two valid curves that coincide with the original on the two halves of the domain, and refuses parameters outside the open domain.", "quantifier": "every valid curve, interior parameter and evaluation parameter", "why_tests_cant": "all inputs", "anchors": ["src/LNLib/Geometry/Curve/NurbsCurve.cpp:NurbsCurve::SplitAt"]}
{"id": "C24", "title": "Binomial and factorial", "statement": "Binomial(n,i) is n!/(i!(n-i)!) (0 outside 0<=i<=n) and Factorial(n) is n! for 0<=n<=20, an exception above.", "quantifier": "every n and i", "why_tests_cant": "all n; two code paths (table and product)", "anchors": ["src/LNLib/Mathematics/Utils/MathUtils.cpp:MathUtils::Binomial", "src/LNLib/Mathematics/Utils/MathUtils.cpp:MathUtils::Factorial"]}
{"id": "C25", "title": "Tolerance comparisons form a trichotomy", "statement": "For finite numbers exactly one of IsLessThan, IsAlmostEqualTo, IsGreaterThan holds; IsLessThanOrEqual is the negation of IsGreaterThan; IsAlmostEqualTo is reflexive and symmetric (but not transitive).", "quantifier": "all pairs of numbers and positive tolerances", "why_tests_cant": "all pairs", "anchors": ["src/LNLib/Mathematics/Utils/MathUtils.cpp:MathUtils::IsAlmostEqualTo", "src/LNLib/Mathematics/Utils/MathUtils.cpp:IsLessThan"]}
{"id": "C26", "title": "Point projection", "statement": "PointToLine / PointToRay return the foot of the perpendicular: a point of the line such that the difference is orthogonal to it, hence the closest point.", "quantifier": "all lines with distinct end points and all points", "why_tests_cant": "all inputs", "anchors": ["src/LNLib/Algorithm/Projection.cpp"]}
{"id": "C27", "title": "Ray intersection", "statement": "When ComputeRays answers Intersecting the returned parameters and point lie on both rays (up to tolerance); parallel/coincident/skew classification is sound.", "quantifier": "all pairs of rays with non-zero direction", "why_tests_cant": "all inputs", "anchors": ["src/LNLib/Algorithm/Intersection.cpp:ComputeRays"]}
{"id": "C28", "title": "Line/plane intersection", "statement": "When ComputeLineAndPlane answers Intersecting the returned point lies on the plane and on the line.", "quantifier": "all planes and lines", "why_tests_cant": "all inputs", "anchors": ["src/LNLib/Algorithm/Intersection.cpp:ComputeLineAndPlane"]}
{"id": "C29", "title": "Vector algebra", "statement": "Cross product is orthogonal to both factors, anti-commutative, satisfies Lagrange's identity; Normalize yields a unit vector for non-zero input and never divides by zero; Distance is symmetric and satisfies the triangle inequality.", "quantifier": "all vectors", "why_tests_cant": "all inputs", "anchors": ["src/LNLib/Mathematics/Math/XYZ.cpp"]}
{"id": "C30", "title": "Matrix algebra", "statement": "Multiply composes transforms: (A*B).OfPoint(p) = A.OfPoint(B.OfPoint(p)) for affine matrices, OfVector ignores translation, GetTranspose is an involution, GetInverse returning true yields an inverse.", "quantifier": "all affine matrices and points", "why_tests_cant": "all inputs", "anchors": ["src/LNLib/Mathematics/Math/Matrix4d.cpp"]}
{"id": "C31", "title": "Dense matrix helpers", "statement": "Transpose is the matrix transpose and an involution on rectangular matrices; MatrixMultiply is the matrix product, associative with identity MakeDiagonal.", "quantifier": "all rectangular matrices", "why_tests_cant": "all sizes", "anchors": ["src/LNLib/include/MathUtils.h:Transpose", "src/LNLib/Mathematics/Utils/MathUtils.cpp:MatrixMultiply"]}
{"id": "C32", "title": "Surface Swap", "statement": "Swap exchanges the parameter directions: S'(v,u) = S(u,v), and is an involution.", "quantifier": "every valid surface and parameter pair", "why_tests_cant": "all inputs", "anchors": ["src/LNLib/Geometry/Surface/NurbsSurface.cpp:NurbsSurface::Swap"]}
{"id": "C33", "title": "Surface evaluation is the tensor product sum", "statement": "BsplineSurface::GetPointOnSurface returns sum_ij N_i(u) N_j(v) P_ij without undefined behaviour.", "quantifier": "every valid surface of degrees 1..7 and parameter pair", "why_tests_cant": "all inputs", "anchors": ["src/LNLib/include/BsplineSurface.h:GetPointOnSurface"]}
{"id": "C34", "title": "Iso curves lie on the surface", "statement": "GetIsoCurve(surface, v0) evaluated at u equals the (homogeneous) surface point at (u,v0), and symmetrically.", "quantifier": "every valid surface and parameter pair", "why_tests_cant": "all inputs", "anchors": ["src/LNLib/Geometry/Surface/NurbsSurface.cpp:NurbsSurface::GetIsoCurve"]}
{"id": "C35", "title": "Surface reversal", "statement": "Reverse in a direction gives a valid surface with S'(u,v) = S(a+b-u,v) (resp. v, resp. both).", "quantifier": "every valid surface, direction and parameter", "why_tests_cant": "all inputs; the shipped code violates it for every surface in the V and All directions and drops a knot vector in single directions", "anchors": ["src/LNLib/Geometry/Surface/NurbsSurface.cpp:NurbsSurface::Reverse"]}
{"id": "C36", "title": "Surface reparametrisation", "statement": "Reparametrize maps the surface onto the requested ranges in both directions.", "quantifier": "every valid surface and target ranges", "why_tests_cant": "all inputs; the shipped code returns the input unchanged when only one range already matches", "anchors": ["src/LNLib/Geometry/Surface/NurbsSurface.cpp:NurbsSurface::Reparametrize"]}
{"id": "C37", "title": "Surface bounding box contains the surface", "statement": "GetBoundingBox returns a box containing every point of the surface.", "quantifier": "every valid surface with positive weights, every parameter pair", "why_tests_cant": "for all parameters; violated by the shipped code", "anchors": ["src/LNLib/Geometry/Surface/NurbsSurface.cpp:NurbsSurface::GetBoundingBox"]}
{"id": "C38", "title": "Ruled surface boundary", "statement": "CreateRuledSurface of two compatible curves gives S(u,0) = C0(u) and S(u,1) = C1(u).", "quantifier": "every pair of valid curves with equal degree and knot vector, every parameter", "why_tests_cant": "all inputs", "anchors": ["src/LNLib/Geometry/Surface/NurbsSurface.cpp:NurbsSurface::CreateRuledSurface"]}
{"id": "C39", "title": "Bilinear surface", "statement": "CreateBilinearSurface returns a valid surface equal to the bilinear interpolant of its four corners at all (u,v).", "quantifier": "all corner points, all (u,v) in the unit square", "why_tests_cant": "all inputs", "anchors": ["src/LNLib/Geometry/Surface/NurbsSurface.cpp:NurbsSurface::CreateBilinearSurface"]}
{"id": "C40", "title": "Bezier decomposition", "statement": "DecomposeToBeziers terminates and returns Bezier pieces that coincide with the curve on each non-empty knot span.", "quantifier": "every valid clamped curve and parameter", "why_tests_cant": "all inputs; violated: diverges for degree 1 with interior knots, wrong control points at full-multiplicity knots", "anchors": ["src/LNLib/Geometry/Curve/NurbsCurve.cpp:NurbsCurve::DecomposeToBeziers"]}
{"id": "C41", "title": "Knot removal yields a valid curve", "statement": "RemoveKnot returns true only with a valid curve, within tolerance of the original.", "quantifier": "every valid curve, knot and count", "why_tests_cant": "all inputs; violated", "anchors": ["src/LNLib/Geometry/Curve/NurbsCurve.cpp:NurbsCurve::RemoveKnot"]}
{"id": "C42", "title": "Degree elevation yields a valid curve tracing the same points", "statement": "ElevateDegree(curve,t) returns a valid curve of degree p+t with the same points.", "quantifier": "every valid curve and t", "why_tests_cant": "all inputs; violated for repeated interior knots", "anchors": ["src/LNLib/Geometry/Curve/NurbsCurve.cpp:NurbsCurve::ElevateDegree"]}
{"id": "C43", "title": "Sub-curve extraction yields a valid curve", "statement": "Extract returns a curve that passes Check.", "quantifier": "every valid curve and sub range", "why_tests_cant": "all inputs; violated for every curve", "anchors": ["src/LNLib/Geometry/Curve/NurbsCurve.cpp:NurbsCurve::Extract"]}
{"id": "C44", "title": "Knot vector rescale", "statement": "Rescale maps a sorted knot vector to a sorted knot vector of the same length with first/last entries min/max, affinely (multiplicities kept).", "quantifier": "every sorted non-constant knot vector, min < max", "why_tests_cant": "all inputs", "anchors": ["src/LNLib/Algorithm/KnotVectorUtils.cpp:KnotVectorUtils::Rescale"]}
{"id": "C45", "title": "Knot merge is a multiset union", "statement": "GetInsertedKnotElement(k0,k1) returns what must be added to each so that both become the union (maximum of multiplicities) of the two knot vectors.", "quantifier": "all pairs of sorted knot vectors with separated knots", "why_tests_cant": "all inputs", "anchors": ["src/LNLib/Algorithm/KnotVectorUtils.cpp:KnotVectorUtils::GetInsertedKnotElement"]}
{"id": "C46", "title": "Interpolation parameters and averaged knots", "statement": "GetChordParameterization returns a non-decreasing sequence from 0 to 1 of the same length; AverageKnotVector(p, params) returns a sorted clamped knot vector of size n+p+2.", "quantifier": "all point sequences with positive total chord length, all degrees", "why_tests_cant": "all inputs", "anchors": ["src/LNLib/Algorithm/Interpolation.cpp:GetChordParameterization", "src/LNLib/Algorithm/Interpolation.cpp:AverageKnotVector"]}
{"id": "C47", "title": "Nearest neighbour result set", "statement": "The KNN result set keeps the k smallest distances seen in ascending order; the radius result set keeps exactly the points within the radius.", "quantifier": "all insertion sequences, all k", "why_tests_cant": "all histories", "anchors": ["src/LNLib/Algorithm/Octree"]}
{"id": "C48", "title": "Simpson quadrature", "statement": "Integrator::Simpson is exact for polynomials of degree <= 3 and is linear in the integrand.", "quantifier": "all cubics and intervals", "why_tests_cant": "all inputs", "anchors": ["src/LNLib/Algorithm/Integrator.cpp:Simpson"]}
{"id": "C49", "title": "Power basis conversion", "statement": "BezierToPowerMatrix(n) maps Bernstein coefficients to power coefficients.", "quantifier": "all degrees", "why_tests_cant": "all degrees", "anchors": ["src/LNLib/Algorithm/Polynomials.cpp:BezierToPowerMatrix", "src/LNLib/Algorithm/Polynomials.cpp:PowerToBezierMatrix"]}
{"id": "C50", "title": "Volume evaluation is the triple tensor product", "statement": "GetPointOnVolume returns the homogeneous triple sum divided by its weight.", "quantifier": "every valid volume and parameter triple", "why_tests_cant": "all inputs", "anchors": ["src/LNLib/Geometry/Volume/NurbsVolume.cpp:GetPointOnVolume"]}
{"id": "C51", "title": "Volume derivatives", "statement": "ComputeVolumeRationalDerivatives(…)[0][0][0] is the point on the volume.", "quantifier": "every valid volume and parameter", "why_tests_cant": "all inputs; violated for every volume", "anchors": ["src/LNLib/Geometry/Volume/NurbsVolume.cpp:ComputeVolumeRationalDerivatives"]}
{"id": "C52", "title": "Volume operations return their result", "statement": "Volume Extract returns the iso-surface to the caller, RefineKnotVector and Reverse return valid volumes, Swap exchanges two directions.", "quantifier": "every valid volume", "why_tests_cant": "all inputs; violated by Extract, RefineKnotVector, Reverse(V), Reverse(W)", "anchors": ["src/LNLib/Geometry/Volume/NurbsVolume.cpp:Extract", "src/LNLib/Geometry/Volume/NurbsVolume.cpp:RefineKnotVector", "src/LNLib/Geometry/Volume/NurbsVolume.cpp:Reverse", "src/LNLib/Geometry/Volume/NurbsVolume.cpp:Swap"]}
{"id": "C53", "title": "Curve merging", "statement": "Merge of two curves of the same degree that share an end point yields a valid curve containing both.", "quantifier": "every pair of valid clamped curves of equal degree meeting end to start", "why_tests_cant": "all inputs", "anchors": ["src/LNLib/Geometry/Curve/NurbsCurve.cpp:NurbsCurve::Merge"]}
{"id": "C54", "title": "Grid triangulation", "statement": "Triangulate without Delaunay returns resolutionU*resolutionV vertices, each the surface point at its recorded parameter pair, and 2(resolutionU-1)(resolutionV-1) triangles all of whose indices are in range. In parameter space all triangles have the same orientation and equal area, and together they cover the surface's parameter rectangle.", "quantifier": "every surface and resolution >= 2", "why_tests_cant": "all surfaces and all resolutions", "anchors": ["src/LNLib/Geometry/Surface/NurbsSurface.cpp:NurbsSurface::Triangulate"]}
{"id": "C55", "title": "Quadratic arc evaluation", "statement": "GetPointOnQuadraticArc(P0w,P1w,P2w,t) is the rational quadratic Bezier point of the three weighted control points.", "quantifier": "all weighted points with non-zero denominators, all t", "why_tests_cant": "all inputs; violated unless the three weights agree", "anchors": ["src/LNLib/Geometry/Curve/BezierCurve.cpp:GetPointOnQuadraticArc"]}
{"id": "C56", "title": "Weighted points", "statement": "XYZW(p,w).ToXYZ(true) = p for w != 0, and homogeneous addition/scaling is componentwise.", "quantifier": "all points and weights", "why_tests_cant": "all inputs", "anchors": ["src/LNLib/Mathematics/Math/XYZW.cpp"]}
{"id": "C57", "title": "Knot refinement preserves the curve", "statement": "RefineKnotVector returns a curve that evaluates to the same point as the input at every parameter of the domain.", "quantifier": "every valid curve, every sorted list of knots strictly inside the domain with admissible multiplicities, every parameter", "why_tests_cant": "equality on a continuum", "anchors": ["src/LNLib/Geometry/Curve/NurbsCurve.cpp:NurbsCurve::RefineKnotVector"]}
{"id": "C58", "title": "Degree reduction inverts elevation", "statement": "ReduceDegree of a Bezier curve that is the degree elevation of another returns that curve.", "quantifier": "all Bezier curves", "why_tests_cant": "all inputs", "anchors": ["src/LNLib/Geometry/Curve/NurbsCurve.cpp:NurbsCurve::ReduceDegree"]}
{"id": "C59", "title": "Corner cutting evaluation", "statement": "GetPointOnCurveByCornerCut returns the same point as GetPointOnCurve.", "quantifier": "every valid curve, every parameter in the domain", "why_tests_cant": "equivalence of two algorithms", "anchors": ["src/LNLib/Geometry/Curve/NurbsCurve.cpp:NurbsCurve::GetPointOnCurveByCornerCut"]}
{"id": "C60", "title": "Curvature is parametrisation independent", "statement": "Curvature returns |C' x C''| / |C'|^3.", "quantifier": "every valid curve and parameter with non-zero derivative", "why_tests_cant": "all inputs; violated where the derivative happens to have unit length", "anchors": ["src/LNLib/Geometry/Curve/NurbsCurve.cpp:NurbsCurve::Curvature"]}
{"id": "C61", "title": "Accepted curves can be evaluated", "statement": "A curve accepted by Check can be evaluated at every parameter of its knot range without undefined behaviour or non-finite results.", "quantifier": "every curve accepted by Check, every parameter in its knot range", "why_tests_cant": "The gap between what Check accepts and what evaluation needs shows only for particular combinations of degree, control point count and knot multiplicities.", "anchors": ["src/LNLib/include/BsplineCurve.h:BsplineCurve::Check", "src/LNLib/include/BsplineCurve.h:BsplineCurve::GetPointOnCurve", "src/LNLib/Geometry/Curve/NurbsCurve.cpp:NurbsCurve::Check"]}
{"id": "C62", "title": "Rational reparametrisation", "statement": "Reparametrize(curve,alpha,beta,gamma,delta) with alpha*delta-gamma*beta > 0 gives a valid curve with mapped knots and positive weights whose point at (alpha t+beta)/(gamma t+delta) is the original point at t.", "quantifier": "all curves with positive weights, all coefficients whose denominator does not vanish on the knot range, all parameters of the domain", "why_tests_cant": "The identity must hold for every real parameter, degree, knot vector and coefficient choice.", "anchors": ["src/LNLib/Geometry/Curve/NurbsCurve.cpp:NurbsCurve::Reparametrize"]}
{"id": "C63", "title": "Stereographic projection", "statement": "Stereographic(p,r) is the point where the line through the pole (0,0,2r) and p meets the plane z=0, and is injective on the sphere without the pole.", "quantifier": "all points and radii", "why_tests_cant": "The claim is about all points of a continuum.", "anchors": ["src/LNLib/Algorithm/Projection.cpp:Projection::Stereographic"]}
{"id": "C64", "title": "Random orthogonal vector", "statement": "CreateRandomOrthogonal(v) returns a unit vector orthogonal to v for every non-zero v, whatever the random angle.", "quantifier": "all non-zero vectors and all random outcomes", "why_tests_cant": "The random outcome differs at every run and the exceptional directions form a set of measure zero that sampling does not meet.", "anchors": ["src/LNLib/Mathematics/Math/XYZ.cpp:XYZ::CreateRandomOrthogonal"]}
{"id": "C65", "title": "Curve derivatives", "statement": "ComputeDerivatives(curve, d, t) returns the vector of the 0-th to d-th derivatives of C at t (zero above the degree); the 0-th is the point; ComputeDerivativesByAllBasisFunctions agrees with it; order < 1 is rejected.", "quantifier": "every valid curve of degree 1..7, every order, every parameter of the domain", "why_tests_cant": "The derivatives must be right for every knot multiplicity, degree and order; tests sample a few curves and usually compare only the first derivative.", "anchors": ["src/LNLib/include/BsplineCurve.h:ComputeDerivatives", "src/LNLib/include/BsplineCurve.h:ComputeDerivativesByAllBasisFunctions", "src/LNLib/include/BsplineCurve.h:ComputeControlPointsOfDerivatives"]}
{"id": "C66", "title": "Derivatives of a single basis function", "statement": "OneBasisFunctionDerivative(i,p,d,U,t) returns the list of the derivatives of orders 0..d of N_{i,p} at t; d > p is rejected.", "quantifier": "every clamped knot vector, index, order and parameter of the domain", "why_tests_cant": "The result must be right for every knot vector, order and parameter, including the ends of the domain and parameters where lower-degree values are tiny.", "anchors": ["src/LNLib/Algorithm/Polynomials.cpp:Polynomials::OneBasisFunctionDerivative"]}
{"id": "C68", "title": "Surface convex hull", "statement": "Every evaluated point of a surface with positive weights lies in every axis-parallel box that contains its (projected) control points.", "quantifier": "every valid rational surface with weights above the zero tolerance, every parameter pair of the domain, every box", "why_tests_cant": "quantifies over all parameters and all control nets", "anchors": ["src/LNLib/Geometry/Surface/NurbsSurface.cpp:GetPointOnSurface"]}
{"id": "C67", "title": "Surface derivatives", "statement": "ComputeDerivatives and ComputeRationalSurfaceDerivatives return the mixed partial derivatives of the (rational) surface: entry [k][l] is the derivative k times in u and l times in v.", "quantifier": "every valid surface, every order from 1 to the smaller degree, every parameter pair of the domain (for the analytic statement: inside a pair of knot spans)", "why_tests_cant": "mixed partial derivatives at all parameters of all surfaces cannot be sampled, and finite differences only approximate them", "anchors": ["src/LNLib/include/BsplineSurface.h:ComputeDerivatives", "src/LNLib/Geometry/Surface/NurbsSurface.cpp:ComputeRationalSurfaceDerivatives"]}
{"id": "C69", "title": "Normals", "statement": "Normal of a surface returns the unit vector (S_u x S_v)/|S_u x S_v|, orthogonal to both partial derivatives; Normal of a curve returns the binormal C'xC''/|C'xC''| and the principal normal, a unit vector orthogonal to tangent and binormal on the side of C''.", "quantifier": "every valid curve/surface and every parameter inside the knot spans where it is regular", "why_tests_cant": "orthogonality and unit length must hold at every regular parameter of every curve and surface", "anchors": ["src/LNLib/Geometry/Curve/NurbsCurve.cpp:Normal", "src/LNLib/Geometry/Surface/NurbsSurface.cpp:Normal"]}
{"id": "C70", "title": "Surface curvature", "statement": "Curvature of a surface returns the maximum, minimum, product, mean, sum of absolute values and root of sum of squares of the two principal curvatures, the roots of det(II - k I) = 0.", "quantifier": "every valid surface, every curvature type, every regular parameter pair inside the knot spans", "why_tests_cant": "the fundamental forms vary continuously; sampled tests cannot cover flat, small or nearly degenerate patches", "anchors": ["src/LNLib/Geometry/Surface/NurbsSurface.cpp:Curvature"]}
{"id": "C71", "title": "Uniformity of knot vectors", "statement": "IsUniform answers whether the distinct knots are equally spaced (to the comparison tolerance), all interior knots have the same multiplicity and the two end knots have the same multiplicity.", "quantifier": "every knot vector", "why_tests_cant": "must hold for every knot vector, including one with a single distinct knot", "anchors": ["src/LNLib/Algorithm/KnotVectorUtils.cpp:KnotVectorUtils::IsUniform"]}
{"id": "C72", "title": "Midpoint knots for refinement", "statement": "GetInsertedKnotElements(n, U) returns n different new knots in ascending order, strictly inside the knot range and not among the knots of U.", "quantifier": "every sorted knot vector and every number n", "why_tests_cant": "depends on which span is longest after every insertion; all histories of insertions matter", "anchors": ["src/LNLib/Algorithm/KnotVectorUtils.cpp:KnotVectorUtils::GetInsertedKnotElements"]}
{"id": "C73", "title": "Global interpolation passes through the points", "statement": "GlobalInterpolation(degree, points, params) returns a valid clamped curve of the given degree whose point at the i-th parameter is the i-th given point.", "quantifier": "all degrees 1..7, all point sequences longer than the degree, all nondecreasing parameters from 0 to 1 whose averaged end knots are separated from the ends, all linear solvers that return true solutions", "why_tests_cant": "infinitely many points and parameters", "anchors": ["src/LNLib/Geometry/Curve/NurbsCurve.cpp:GlobalInterpolation"]}
{"id": "C74", "title": "Knots for least squares approximation", "statement": "ComputeKnotVector(degree, controlPointsCount, params) returns a nondecreasing clamped knot vector of length controlPointsCount+degree+1.", "quantifier": "all degrees >= 1, all counts > degree and all nondecreasing parameters from 0 to 1 with at least as many parameters as inner knots plus one", "why_tests_cant": "infinitely many parameters and counts", "anchors": ["src/LNLib/Algorithm/Interpolation.cpp:ComputeKnotVector"]}
{"id": "C75", "title": "Line segments as curves", "statement": "CreateLine(A,B) rejects end points that agree up to tolerance and otherwise returns a valid degree-one curve whose point at every parameter t in [0,1] is (1-t)A + tB.", "quantifier": "all pairs of points, all parameters in [0,1]", "why_tests_cant": "Unit tests evaluate a few lines at a few parameters.", "anchors": ["src/LNLib/Geometry/Curve/NurbsCurve.cpp:NurbsCurve::CreateLine"]}
{"id": "C76", "title": "CreateCubicHermite interpolates points and tangents", "statement": "For at least four points with consecutive points different, and as many tangents, CreateCubicHermite yields a valid cubic curve on [0,1] with weights one whose point at the j-th chord length parameter is the j-th point and whose first derivative there is the j-th tangent. Fewer points or a different number of tangents are rejected.", "quantifier": "every list of at least four points and tangents, every index", "why_tests_cant": "the interpolation conditions couple the control points with a knot vector of double interior knots, for any number of points", "anchors": ["src/LNLib/Geometry/Curve/NurbsCurve.cpp:CreateCubicHermite", "src/LNLib/Algorithm/Interpolation.cpp:GetChordParameterization"]}
{"id": "C77", "title": "Volume InsertKnot keeps the volume", "statement": "Inserting a knot t times in the U, V or W direction of a valid volume yields a valid volume with the knot t times more often in that direction whose point at every parameter triple is the same.", "quantifier": "every valid volume, every direction, every interior knot value and admissible count, every parameter triple", "why_tests_cant": "all fibres of the net and all parameters", "anchors": ["src/LNLib/Geometry/Volume/NurbsVolume.cpp:InsertKnot"]}
{"id": "C78", "title": "Volume SplitAt", "statement": "Splitting a valid volume at an interior parameter of one direction, whose knot multiplicity is at most the degree, yields two valid volumes; at every parameter of its own range each of them has the point of the original.", "quantifier": "every valid volume, direction, interior split parameter, parameter triple; split knots of multiplicity up to the degree", "why_tests_cant": "the split must hold on both sides for all parameters and any knot multiplicities", "anchors": ["src/LNLib/Geometry/Volume/NurbsVolume.cpp:SplitAt"]}
{"id": "C79", "title": "Volume GetIsoCurve", "statement": "With exactly one of the three parameters being the marker -1, GetIsoCurve returns a valid curve in that direction that follows the volume at the two other parameters (moved into their ranges). Without a marker the result is an empty curve.", "quantifier": "every valid volume, every choice of direction, all parameters", "why_tests_cant": "all parameters along the curve", "anchors": ["src/LNLib/Geometry/Volume/NurbsVolume.cpp:GetIsoCurve"]}
{"id": "C80", "title": "Octree construction", "statement": "For a positive minimal extent OctreeConstruction terminates and returns a tree whose leaves hold every index of the point list exactly once, each point lying in the cube of its leaf up to the comparison tolerance; a node is split exactly when it holds more points than the leaf size and is larger than the minimal extent, and children have half its extent.", "quantifier": "every finite point list (coordinates up to 1e300), leaf size and positive minimal extent", "why_tests_cant": "termination and exact distribution for all clouds, also with coincident points", "anchors": ["src/LNLib/Algorithm/Octree/Octree.cpp:OctreeConstruction"]}
{"id": "C81", "title": "Octree radius search", "statement": "OctreeRadiusSearch and OctreeRadiusSearchFast on the tree of a point list report exactly the points whose distance from the query is at most the radius, each once, with its true distance.", "quantifier": "every point list, leaf size, minimal extent, query point and radius", "why_tests_cant": "a pruned subtree may hide a point; all clouds and queries", "anchors": ["src/LNLib/Algorithm/Octree/Octree.cpp:OctreeRadiusSearch", "src/LNLib/Algorithm/Octree/Octree.cpp:OctreeRadiusSearchFast"]}
{"id": "C82", "title": "Octree nearest neighbour search", "statement": "OctreeKnnSearch on the tree of a point list reports the k nearest points (all when there are fewer) in ascending order of distance.", "quantifier": "every point list, leaf size, minimal extent, query point and k > 0", "why_tests_cant": "a pruned subtree may hide a nearer point; all clouds and queries", "anchors": ["src/LNLib/Algorithm/Octree/Octree.cpp:OctreeKnnSearch"]}
{"id": "C83", "title": "Surface InsertKnot keeps the surface", "statement": "Inserting a value strictly inside the U or V range a positive number of times into a valid surface yields a valid surface with the value added min(times, degree - multiplicity) times to the knots of that direction; the other direction is unchanged and every parameter pair has the same point.", "quantifier": "every valid surface, both directions, every interior value of multiplicity up to the degree, every positive count, every parameter pair", "why_tests_cant": "all rows or columns, all parameters and any knot multiplicities", "anchors": ["src/LNLib/Geometry/Surface/NurbsSurface.cpp:InsertKnot"]}
{"id": "C84", "title": "Surface RefineKnotVector keeps the surface", "statement": "Refining one direction of a valid surface by a nonempty sorted list of knots inside the range yields a valid surface on the same domain whose knots in that direction are the old ones together with the new ones and which has the same point at every parameter pair; an empty list is rejected.", "quantifier": "every valid surface, both directions, every sorted list of interior knots, every parameter pair", "why_tests_cant": "all rows or columns, all parameters and any list of new knots", "anchors": ["src/LNLib/Geometry/Surface/NurbsSurface.cpp:RefineKnotVector"]}
{"id": "C85", "title": "Ruled surface of arbitrary curves", "statement": "CreateRuledSurface of two clamped curves on the same parameter interval, of any two degrees and any two knot vectors, gives a valid surface with S(u,0) = C0(u) and S(u,1) = C1(u); curves on different intervals are rejected.", "quantifier": "every pair of valid clamped curves of degree up to the maximum on the same interval, every parameter", "why_tests_cant": "degree elevation and knot merging take different paths for every pair of degrees and knot vectors", "anchors": ["src/LNLib/Geometry/Surface/NurbsSurface.cpp:NurbsSurface::CreateRuledSurface", "src/LNLib/Geometry/Curve/NurbsCurve.cpp:NurbsCurve::ElevateDegree", "src/LNLib/Geometry/Curve/NurbsCurve.cpp:NurbsCurve::RefineKnotVector"]}
{"id": "C86", "title": "Arcs lie on the circle or ellipse", "statement": "CreateArc with perpendicular axes, radii rx and ry and a start and end angle gives a clamped quadratic curve over [0,1] that starts at the start angle, ends at the end angle, lies on the arc centre + rx cos(t) X + ry sin(t) Y, and covers the whole arc.", "quantifier": "every centre, perpendicular axes of any length, every radii, every start angle and end angle up to a full turn, every parameter", "why_tests_cant": "the claim is about every point of the curve, not the sampled ones, and about every angle at which the number of segments changes", "anchors": ["src/LNLib/Geometry/Curve/NurbsCurve.cpp:NurbsCurve::CreateArc", "src/LNLib/Algorithm/Intersection.cpp:Intersection::ComputeRays"]}
{"id": "C87", "title": "Cylindrical surfaces", "statement": "CreateCylindricalSurface gives a valid surface over [0,1]x[0,1] whose points are exactly the points of the cylinder sheet of the given radius, height and angle range around the origin.", "quantifier": "every origin, perpendicular axes, radius, height, angle range up to a full turn, every parameter pair", "why_tests_cant": "the claim is about every surface point and every angle range", "anchors": ["src/LNLib/Geometry/Surface/NurbsSurface.cpp:NurbsSurface::CreateCylindricalSurface", "src/LNLib/Geometry/Curve/NurbsCurve.cpp:NurbsCurve::CreateArc"]}
{"id": "C88", "title": "Surfaces of revolution", "statement": "CreateRevolvedSurface of a profile curve, an axis and an angle gives a valid surface whose every profile line is the profile curve rotated about the axis by one angle, from 0 at the start to the given angle at the end, with every angle between reached.", "quantifier": "every valid profile with positive weights, every axis (origin and nonzero direction), every angle up to a full turn, every parameter pair", "why_tests_cant": "the claim is about every surface point, every profile position relative to the axis including points on it, and every angle", "anchors": ["src/LNLib/Geometry/Surface/NurbsSurface.cpp:NurbsSurface::CreateRevolvedSurface", "src/LNLib/Algorithm/Projection.cpp:Projection::PointToRay", "src/LNLib/Algorithm/Intersection.cpp:Intersection::ComputeRays"]}
{"id": "C89", "title": "Conic arcs through a point", "statement": "CreateOpenConic of two end points, the tangents there and a further point of a conic arc gives a valid curve over [0,1] that is exactly this conic arc; it starts and ends at the end points and passes through the given point.", "quantifier": "every conic arc (end points, tangents, weight above -1) and every point of its inside", "why_tests_cant": "the claim is about all points of the curve, for all three kinds of conics and all turning angles", "anchors": ["src/LNLib/Geometry/Curve/NurbsCurve.cpp:NurbsCurve::CreateOpenConic", "src/LNLib/Geometry/Curve/NurbsCurve.cpp:NurbsCurve::CreateOneConicArc", "src/LNLib/Geometry/Curve/NurbsCurve.cpp:NurbsCurve::SplitArc"]}
{"id": "C90", "title": "Equal tessellation of a curve samples the curve", "statement": "NurbsCurve::EquallyTessellate returns equally many points and parameters; every parameter is in the parameter domain, increasing, the i-th point is the point of the curve at the i-th parameter, every parameter value of the domain is within a hundredth of its knot interval of a sample, and both ends of the curve are sampled.", "quantifier": "every valid clamped curve of any degree up to 7, any number of control points and any knots", "why_tests_cant": "The number of samples and the location of the samples depend on the knot vector; a test can only look at a few of them.", "anchors": ["src/LNLib/Geometry/Curve/NurbsCurve.cpp: NurbsCurve::EquallyTessellate"]}
{"id": "C91", "title": "Equal tessellation of a surface samples the surface", "statement": "NurbsSurface::EquallyTessellate returns equally many points and parameter pairs; every pair is in the domain, the k-th point is the surface point at the k-th pair, every parameter pair of the domain is near a sample, and the corners and the boundary lines of the surface are sampled.", "quantifier": "every valid clamped surface", "why_tests_cant": "The number of samples and their location depend on the knot vectors.", "anchors": ["src/LNLib/Geometry/Surface/NurbsSurface.cpp: NurbsSurface::EquallyTessellate"]}
{"id": "C92", "title": "The parameter-space tangent reproduces the given tangent", "statement": "NurbsSurface::GetUVTangent returns (a,b) with a S_u + b S_v equal to the given tangent vector whenever that vector lies in the tangent plane, and to the closest vector of the tangent plane otherwise; it answers false exactly when S_u and S_v are dependent.", "quantifier": "every valid surface, every parameter pair inside a span pair, every vector", "why_tests_cant": "The decomposition involves partial derivatives of arbitrary rational surfaces.", "anchors": ["src/LNLib/Geometry/Surface/NurbsSurface.cpp: NurbsSurface::GetUVTangent"]}
{"id": "C93", "title": "Scaling the control net scales the surface", "statement": "NurbsSurface::NonUniformScaling applied to the control points of a surface gives the control points of the surface scaled by the three factors about the reference point: every surface point moves to its scaled image.", "quantifier": "every valid surface, every reference point, all scaling factors, all parameter pairs", "why_tests_cant": "Affine invariance must hold for all nets and all factors, and for all weights.", "anchors": ["src/LNLib/Geometry/Surface/NurbsSurface.cpp: NurbsSurface::NonUniformScaling"]}
{"id": "C94", "title": "IsClosed recognises closed curves", "statement": "NurbsCurve::IsClosed answers true exactly when the start point and the end point of the curve coincide up to tolerance.", "quantifier": "every valid clamped curve", "why_tests_cant": "The answer depends on all control points; counterexamples need particular coincidences.", "anchors": ["src/LNLib/Geometry/Curve/NurbsCurve.cpp: NurbsCurve::IsClosed"]}
{"id": "C95", "title": "IsClosed recognises closed surfaces", "statement": "NurbsSurface::IsClosed answers true in a direction exactly when the two boundary lines of the surface that are perpendicular to that direction coincide up to tolerance.", "quantifier": "every valid clamped surface and both directions", "why_tests_cant": "Closedness is a statement about all points of two boundary curves.", "anchors": ["src/LNLib/Geometry/Surface/NurbsSurface.cpp: NurbsSurface::IsClosed"]}
{"id": "C96", "title": "Degree elevation of a surface keeps the surface", "statement": "NurbsSurface::ElevateDegree by t in a direction returns a valid surface whose degree in that direction is t higher, whose knots in that direction are each repeated t times more, with the same domain and the same point at every parameter pair; a nonpositive t is rejected.", "quantifier": "every valid clamped surface, both directions, every t > 0, every parameter pair", "why_tests_cant": "Must hold for all nets, knot vectors, degrees and all parameters.", "anchors": ["src/LNLib/Geometry/Surface/NurbsSurface.cpp: NurbsSurface::ElevateDegree"]}
{"id": "C97", "title": "Degree reduction of a surface inverts elevation", "statement": "NurbsSurface::ReduceDegree, applied to a surface that is a single Bezier segment of degree at least two in the chosen direction and that results from raising the degree of another net, answers true and returns exactly that net on the Bezier knots of one degree less; the result is valid and has the same point at every parameter pair.", "quantifier": "every such surface with nonnegative weights, both directions, all nets and parameters", "why_tests_cant": "An exact inverse for arbitrary real control nets cannot be established by samples.", "anchors": ["src/LNLib/Geometry/Surface/NurbsSurface.cpp: NurbsSurface::ReduceDegree", "src/LNLib/Geometry/Curve/NurbsCurve.cpp: NurbsCurve::ReduceDegree"]}
{"id": "C98", "title": "Degree elevation of a volume keeps every point", "statement": "NurbsVolume::ElevateDegree(volume, times, direction) returns a volume whose degree in the chosen direction is larger by times, on the same parameter domain, in which every knot of that direction is repeated times times more, whose other directions are untouched, and whose point at every parameter triple is that of the argument; a nonpositive count is refused.", "quantifier": "every valid volume, every direction, every positive number of times, every parameter triple of the domain", "why_tests_cant": "the claim is an identity of piecewise polynomials of arbitrary degree over arbitrary knots in three directions; tests evaluate a few samples of one volume", "anchors": ["src/LNLib/Geometry/Volume/NurbsVolume.cpp: NurbsVolume::ElevateDegree", "src/LNLib/Geometry/Curve/NurbsCurve.cpp: NurbsCurve::ElevateDegree"]}
{"id": "C99", "title": "Knots that make both ends of a range full", "statement": "KnotVectorUtils::GetInsertedKnotElement(degree, knotVector, startParam, endParam) returns the elements whose insertion raises the multiplicity of startParam and of endParam to degree plus one (nothing where it is already that large) and of no other value; negative degrees, empty or unsorted knot vectors and reversed ranges are refused.", "quantifier": "every sorted knot vector, every degree, every pair of parameters", "why_tests_cant": "multiplicities depend on arbitrary knot patterns and on where the parameters fall among the knots", "anchors": ["src/LNLib/Algorithm/KnotVectorUtils.cpp: KnotVectorUtils::GetInsertedKnotElement"]}
{"id": "C100", "title": "Unclamping keeps the curve and gives periodic knots", "statement": "NurbsCurve::ToUnclampCurve, applied to a valid clamped curve, succeeds and returns a valid curve of the same degree with the same number of control points and the same domain: the knots inside the domain are unchanged, the knots outside it repeat the spacing of the domain periodically (so neither end is clamped any more), and every parameter of the domain gives the same point, for ordinary and rational curves.", "quantifier": "every valid clamped curve of every degree 1..7 with any number of control points, every sorted knot vector with nonempty first and last spans (any interior multiplicities), every control net, every parameter of the domain", "why_tests_cant": "The loops update knots and control points in place, reading values changed by earlier iterations, and divide by differences of those values; only an argument over every degree and every knot vector shows that no division by zero happens, that the periodic indices read are already final, and that no point of the curve moves.", "anchors": ["src/LNLib/Geometry/Curve/NurbsCurve.cpp: NurbsCurve::ToUnclampCurve"]}
{"id": "C101", "title": "Translational sweep is the sum of its two curves", "statement": "NurbsSurface::CreateGeneralizedTranslationalSweepSurface returns a valid surface whose degrees and knot vectors are those of the profile (u) and of the trajectory (v), and whose point at (u, v) is the point of the profile at u plus the point of the trajectory at v, also when both curves are rational.", "quantifier": "every pair of valid rational curves of degrees 1..7 with any number of control points whose weights (and the product of their weight functions) stay above the library's zero tolerance - in particular all weights at least 1/500 - and every parameter pair of the domain", "why_tests_cant": "The statement is an identity of rational functions in two variables for every control net; the control net is built from projected points and products of weights, so a test with unit weights cannot distinguish a wrong weighting.", "anchors": ["src/LNLib/Geometry/Surface/NurbsSurface.cpp: NurbsSurface::CreateGeneralizedTranslationalSweepSurface"]}
{"id": "C102", "title": "The clamp test recognises clamped curves", "statement": "For every valid curve whose end knots are further than the tolerance from the other knots, NurbsCurve::IsClamp returns true exactly when the first degree+1 knots are equal and the last degree+1 knots are equal.", "quantifier": "all valid curves with separated end knots", "why_tests_cant": "The answer depends on counting multiplicities in an arbitrary knot vector.", "anchors": ["src/LNLib/Geometry/Curve/NurbsCurve.cpp: NurbsCurve::IsClamp", "src/LNLib/Algorithm/Polynomials.cpp: Polynomials::GetKnotMultiplicity"]}
{"id": "C103", "title": "Clamping keeps the curve", "statement": "For every valid curve, NurbsCurve::ToClampCurve returns a clamped curve with the same points on the domain; a curve that is already clamped is returned unchanged.", "quantifier": "all valid curves", "why_tests_cant": "Must hold for every knot vector and every control polygon.", "anchors": ["src/LNLib/Geometry/Curve/NurbsCurve.cpp: NurbsCurve::ToClampCurve"]}
{"id": "C104", "title": "Polyline lengths", "statement": "For every list of points, Interpolation::GetTotalChordLength is the sum of the distances of consecutive points and GetCentripetalLength the sum of the square roots of these distances; lists of fewer than two points give 0.", "quantifier": "all lists of points", "why_tests_cant": "Must hold for every number of points.", "anchors": ["src/LNLib/Algorithm/Interpolation.cpp: Interpolation::GetTotalChordLength, GetCentripetalLength"]}
{"id": "C105", "title": "Parameters of a mesh of points", "statement": "For every non-empty rectangular mesh of points, Interpolation::GetSurfaceMeshParameterization with empty output vectors returns true exactly when some row and some column are longer than the tolerance; then the parameter of a row is the average over the long columns of (length up to that row)/(total length), likewise for columns; both parameter lists start at 0, end at 1 and are nondecreasing.", "quantifier": "all rectangular meshes of points, degenerate rows and columns included", "why_tests_cant": "Every mesh size and every pattern of degenerate rows and columns.", "anchors": ["src/LNLib/Algorithm/Interpolation.cpp: Interpolation::GetSurfaceMeshParameterization"]}
{"id": "C106", "title": "Tangents from five points", "statement": "For every list of at least five points, Interpolation::ComputeTangent(points, tangents) returns true and at every point the unit vector along (1-a) q_k + a q_{k+1} (The NURBS Book 9.29-9.33) where q_k are the differences of consecutive points, extended at the ends; for fewer points it returns false.", "quantifier": "all lists of points", "why_tests_cant": "All lengths and positions, straight stretches included.", "anchors": ["src/LNLib/Algorithm/Interpolation.cpp: Interpolation::ComputeTangent(throughPoints, tangents)"]}
{"id": "C107", "title": "Tangents from three points", "statement": "For every list of at least three points with chord-length parameters, Interpolation::ComputeTangent(points) returns at an inner point the derivative of the parabola through the point and its neighbours (The NURBS Book 9.28-9.30), finite also when points repeat; for points on a line all tangents are the chord from the first to the last point.", "quantifier": "all lists of at least three points", "why_tests_cant": "All lengths, spacings and positions.", "anchors": ["src/LNLib/Algorithm/Interpolation.cpp: Interpolation::ComputeTangent(throughPoints)"]}
{"id": "C108", "title": "Control point repositioning moves the curve point by the requested distance", "statement": "For every valid curve, parameter of its domain, control point that acts there, non-zero direction and non-zero distance, ControlPointReposition returns a curve with the same knots and weights whose point at that parameter is the old point moved by exactly the requested distance along the direction; a control point index that does not exist is rejected as out of range.", "quantifier": "all valid curves of degree 1..7, parameters, control point indices, directions and distances", "why_tests_cant": "Universal over curves, parameters and indices; unit tests use single samples, and the distance is only wrong for some indices or weights.", "anchors": ["src/LNLib/Geometry/Curve/NurbsCurve.cpp:ControlPointReposition"]}
{"id": "C109", "title": "Weight modification moves the curve point by the requested distance towards the control point", "statement": "For every valid curve, parameter of its domain, control point that acts there and distance smaller than the one between the curve point and the control point, WeightModification changes only that weight and moves the curve point at the parameter on the straight line towards the control point by exactly the requested distance; every other curve point also moves on the line to that control point; an index that does not exist is rejected as out of range.", "quantifier": "all valid curves of degree 1..7, parameters, control point indices and distances", "why_tests_cant": "Universal over curves, parameters and indices; unit tests use single samples, and the distance is only wrong for some indices or weights.", "anchors": ["src/LNLib/Geometry/Curve/NurbsCurve.cpp:WeightModification"]}
{"id": "C110", "title": "The straightness test recognises straight curves", "statement": "IsLinear answers true for every curve with at least two control points that lie on one straight line; when it answers true there is a line that no control point, and (for positive weights) no point of the curve, is further away from than 2e-6.", "quantifier": "all curves, any number of control points, coincident control points included", "why_tests_cant": "Quantifies over all control polygons, including those whose leading control points coincide, and over all points of the curve.", "anchors": ["src/LNLib/Geometry/Curve/NurbsCurve.cpp:IsLinear"]}
{"id": "C111", "title": "The approximate length of a curve is its length", "statement": "For every valid curve ApproximateLength returns its length (the least upper bound of the lengths of inscribed polygons) up to a small relative error; for straight curves it is exact.", "quantifier": "all valid curves", "why_tests_cant": "The length is a supremum over all inscribed polygons; tests compare a few curves with stored numbers.", "anchors": ["src/LNLib/Geometry/Curve/NurbsCurve.cpp:ApproximateLength"]}
{"id": "C112", "title": "A lofted surface contains its sections", "statement": "CreateLoftSurface returns a valid surface that has every given section as an iso-curve: at the parameter v_k assigned to section k (the averaged chord-length parameter, or the k-th given value), the surface point at (u, v_k) is the point of section k at u, for every u in the domain and every k. Two or more sections can be lofted.", "quantifier": "every list of valid sections, every choice of trajectory parameters, every u in the common domain and every section", "why_tests_cant": "A test lofts a few chosen profiles and samples points; the claim ranges over all section lists, weights, knots and parameters, and the failing lists (few sections, shared control points, unequal weights) are exactly those a sample does not contain.", "anchors": ["src/LNLib/Geometry/Surface/NurbsSurface.cpp: NurbsSurface::CreateLoftSurface (2611-2713)", "src/LNLib/Geometry/Curve/NurbsCurve.cpp: NurbsCurve::GlobalInterpolation (2047-2111)"]}
{"id": "C113", "title": "Surface interpolation passes through every point of the grid", "statement": "NurbsSurface::GlobalInterpolation with a grid of points Q_ij and degrees smaller than the numbers of rows and columns returns a valid surface of the requested degrees with unit weights that passes through Q_ij at the parameters (u_i, v_j) that GetSurfaceMeshParameterization assigns to row i and column j, for every i and j, rectangular grids included.", "quantifier": "every grid of points, every pair of degrees, every sound linear solver", "why_tests_cant": "A test interpolates one or two grids, usually equally spaced and square, for which exchanging the two directions cannot be seen; the claim is about all grids, shapes and spacings.", "anchors": ["src/LNLib/Geometry/Surface/NurbsSurface.cpp: NurbsSurface::GlobalInterpolation", "src/LNLib/Algorithm/Interpolation.cpp: Interpolation::GetSurfaceMeshParameterization, AverageKnotVector"]}
{"id": "C114", "title": "Finding the parameter of a point on a curve", "statement": "GetParamOnCurve always ends, and returns a parameter of the curve's domain; the point of the curve there is a point nearest to the given point. For a line segment this holds for every given point.", "quantifier": "every valid clamped curve with positive weights and every given point; every segment of length at least 1/10 and every given point for the distance", "why_tests_cant": "The search combines a sampled start and a Newton iteration; whether the last step leaves the domain depends on an interval of given points of width 1e-4 that samples do not hit.", "anchors": ["src/LNLib/Geometry/Curve/NurbsCurve.cpp: NurbsCurve::GetParamOnCurve", "src/LNLib/Geometry/Curve/NurbsCurve.cpp: NurbsCurve::EquallyTessellate"]}
{"id": "C115", "title": "Warping displaces every curve point along one direction by the averaged warp shape", "statement": "Warping a curve with a shape (one value per control point), a distance, a plane normal and a parameter interval keeps knots and weights and moves every point of the curve along one fixed direction, orthogonal to the plane normal and to the tangent at the middle of the interval, by the distance times the average of the shape with the curve's rational basis functions; no point moves further than the distance times the largest shape value; a wrong number of shape values, a zero distance and a zero normal are rejected.", "quantifier": "all valid curves with positive weights, all shapes, distances, normals and parameter intervals of the domain", "why_tests_cant": "The displacement of every one of infinitely many curve points is claimed, for every curve, shape and interval.", "anchors": ["src/LNLib/Geometry/Curve/NurbsCurve.cpp: NurbsCurve::Warping"]}
{"id": "C116", "title": "Flattening makes a part of the curve straight and leaves the rest", "statement": "Flattening a curve on a line segment over a parameter interval projects the selected control points whose foot lies on the segment; the points of the curve outside the interval do not move, and the answer true means that a part of the curve lies on the line.", "quantifier": "all valid curves with positive weights, all segments, all parameter intervals of the domain", "why_tests_cant": "The claim ranges over all curve points outside the interval and over all curves.", "anchors": ["src/LNLib/Geometry/Curve/NurbsCurve.cpp: NurbsCurve::Flattening"]}
{"id": "C117", "title": "Bending moves control points on their rays to the bend centre with the given cross ratio", "statement": "Bending a curve about a centre with a radius and a cross ratio over a parameter interval moves each selected control point on its ray from the centre so that the cross ratio holds (cross ratio one: on the circle; points on the circle stay), keeps knots and weights, does not move the curve outside the interval, and always gives finite control points; intervals outside the knots or with no positive length are rejected.", "quantifier": "all valid curves, centres, radii, cross ratios and parameter intervals of the domain", "why_tests_cant": "The claim ranges over all control points, all curve points outside the interval and all curves.", "anchors": ["src/LNLib/Geometry/Curve/NurbsCurve.cpp: NurbsCurve::Bending"]}
{"id": "C118", "title": "Constraint-based modification meets every derivative constraint with the shortest displacement", "statement": "Modifying a curve by constraints (the k-th derivative at a parameter changes by a given vector; some control points stay fixed) returns a curve with the same knots and weights in which the fixed control points are unchanged and every prescribed derivative, as the library evaluates it, changes by exactly the given vector; among all displacements of the control points that may move, the one chosen has the least sum of squares.", "quantifier": "all valid curves, all lists of constraints (any number, parameter in the domain, order up to the degree), all sets of fixed control points", "why_tests_cant": "Both the exact change of the derivative and the minimality over all other displacements quantify over all curves and all constraint systems.", "anchors": ["src/LNLib/Geometry/Curve/NurbsCurve.cpp: NurbsCurve::ConstraintBasedModification", "src/LNLib/Mathematics/Utils/MathUtils.cpp: MathUtils::MatrixMultiply, MathUtils::Transpose, MathUtils::MakeInverse"]}
{"id": "C119", "title": "Arcs are recognised, and only arcs", "statement": "A curve is reported to be an arc exactly when all its points lie on one circle; the reported centre and radius are those of that circle and the flag tells whether the curve is closed.", "quantifier": "all valid clamped curves, of every degree, number of control points, knots and weights", "why_tests_cant": "A test inspects a few arcs and a few other curves; that no curve other than an arc passes the test is a statement about all curves.", "anchors": ["src/LNLib/Geometry/Curve/NurbsCurve.cpp: NurbsCurve::IsArc", "include/LNLib: LN_ArcInfo"]}
{"id": "C120", "title": "The Coons patch is bounded by its four curves", "statement": "From four curves that meet at their ends, the Coons patch is a valid surface on the unit square whose four sides are the four given curves; curves that do not meet are rejected.", "quantifier": "all quadruples of valid clamped curves of any degrees and knots, connected or not", "why_tests_cant": "A test compares the corners, which also come out when the sides are wrong; that every point of every side is on a given curve is a statement about all curves and parameters.", "anchors": ["src/LNLib/Geometry/Surface/NurbsSurface.cpp: NurbsSurface::CreateCoonsSurface", "tests/T_AdvancedSurface.cpp"]}
{"id": "C121", "title": "Torsion of a curve", "statement": "Torsion returns ((C' x C'') . C''') / |C' x C''|^2 at every parameter where C' x C'' does not vanish.", "quantifier": "every valid rational curve, every parameter strictly inside a non-empty span with non-vanishing weight function and C' x C'' not zero", "why_tests_cant": "Holds for all curves and parameters; the shortcut taken when the speed happens to be one is only wrong for parametrisations that are not by arc length, which example curves (circles, helices) never exercise.", "anchors": ["src/LNLib/Geometry/Curve/NurbsCurve.cpp:422-447 NurbsCurve::Torsion"]}
{"id": "C122", "title": "Oriented bounding box", "statement": "The oriented bounding box of a surface has orthonormal axes along the principal directions of the control points, contains every control point and every point of the surface, and each of its six faces touches a control point.", "quantifier": "every valid surface with positive weights (above the zero tolerance), every parameter of its domain, every sound eigenvector solver", "why_tests_cant": "Containment is a statement about the continuum of surface points of every surface; a test only samples a few.", "anchors": ["src/LNLib/Geometry/Surface/NurbsSurface.cpp:381-440 NurbsSurface::GetOrientedBoundingBox", "src/LNLib/Mathematics/Utils/MathUtils.cpp:231-256 MathUtils::ComputeOBBAxes"]}
{"id": "C123", "title": "Adaptive tessellation", "statement": "Tessellate returns points of the curve in the order of their parameters, from its start point to its end point, and the polyline through them stays within the library's distance tolerance of the curve; for a curve of degree one the polyline is exactly the curve.", "quantifier": "every valid clamped rational curve", "why_tests_cant": "The polyline must follow the curve between the samples for every curve; an example with a bad inflection or a narrow domain is easily missed.", "anchors": ["src/LNLib/Geometry/Curve/NurbsCurve.cpp: NurbsCurve::Tessellate, TessellateCore", "src/LNLib/Algorithm/ControlPointsUtils.cpp: ControlPointsUtils::ToXYZ"]}
{"id": "C124", "title": "Removal of excessive knots", "statement": "RemoveExcessiveKnots terminates and returns a valid curve of the same degree and domain that keeps at least one copy of every knot and the end multiplicities, adds no knot, leaves no repeated interior knot that RemoveKnot would still accept to remove, and does not change the shape of the curve beyond the removal tolerance.", "quantifier": "every valid clamped curve whose interior knots have multiplicity at most the degree", "why_tests_cant": "The loop runs until nothing changes; termination and the final knot multiset must hold for every knot vector and every pattern of accepted and refused removals.", "anchors": ["src/LNLib/Geometry/Curve/NurbsCurve.cpp: NurbsCurve::RemoveExcessiveKnots, NurbsCurve::RemoveKnot", "src/LNLib/Algorithm/KnotVectorUtils.cpp: KnotVectorUtils::GetInternalKnotMultiplicityMap"]}
{"id": "C125", "title": "Continuity at a parameter", "statement": "GetContinuity answers the degree minus the multiplicity of the parameter, the curve is that many times continuously differentiable there, and the derivatives ComputeRationalCurveDerivatives returns at the parameter are the true derivatives up to that order, also at a knot.", "quantifier": "every valid rational curve, every parameter inside the domain, every interior multiplicity up to the degree", "why_tests_cant": "Smoothness is a statement about limits at every knot for all control points and weights; sampling derivatives on both sides cannot establish it.", "anchors": ["src/LNLib/Algorithm/KnotVectorUtils.cpp: KnotVectorUtils::GetContinuity", "src/LNLib/Geometry/Curve/NurbsCurve.cpp: NurbsCurve::ComputeRationalCurveDerivatives"]}
{"id": "C126", "title": "Periodicity query", "statement": "IsPeriodic answers true exactly when the curve closes up smoothly: its start point and end point coincide and so do its derivatives there up to order degree minus one. It answers false for a clamped curve.", "quantifier": "every valid rational curve", "why_tests_cant": "Periodicity is a statement about every derivative at the two ends for all control points and weights; the counterexamples need weights or extrapolated ends that a test does not try.", "anchors": ["src/LNLib/Geometry/Curve/NurbsCurve.cpp: NurbsCurve::IsPeriodic", "src/LNLib/Mathematics/Math/XYZW.cpp: XYZW::IsAlmostEqualTo"]}
{"id": "C127", "title": "Extension of a curve", "statement": "Extend by a positive length at one end keeps every point of the given curve. Tangent extension adds the line segment of that length along the end tangent; natural extension keeps the equation of the curve and changes only the range of the parameter, and adds that length. A length that is not positive, or a periodic curve, leaves the curve unchanged.", "quantifier": "every clamped rational curve, either end, every length and every extension type", "why_tests_cant": "The result is a new curve whose points must agree with the old one at every parameter and continue it for every degree, knot vector and weight; tests sample a few points of polynomial curves.", "anchors": ["src/LNLib/Geometry/Curve/NurbsCurve.cpp: NurbsCurve::Extend", "src/LNLib/include/LNEnums.h: ExtensionType"]}
{"id": "C128", "title": "Removal of a knot of a surface", "statement": "RemoveKnot removes copies of an interior U or V knot of a surface when the surface does not need it and leaves the surface alone otherwise. The result is a valid surface with one copy of the knot less per removal, the other direction untouched; it undoes the insertion of a knot; a parameter outside the knots and a count that is not positive are rejected.", "quantifier": "every valid surface, direction, interior knot and tolerance", "why_tests_cant": "The result is assembled fibre by fibre from curve removals whose answers may differ from fibre to fibre; whether the assembled net is a surface must be known for all nets.", "anchors": ["src/LNLib/Geometry/Surface/NurbsSurface.cpp: NurbsSurface::RemoveKnot", "src/LNLib/Geometry/Curve/NurbsCurve.cpp: NurbsCurve::RemoveKnot"]}
{"id": "C129", "title": "Normal vectors along a curve", "statement": "ProjectNormal returns, whatever random angles it draws, one unit vector per knot, orthogonal to the curve at that knot, for every regular curve, open or closed.", "quantifier": "every valid curve and every sequence of random angles", "why_tests_cant": "The result is random and is found by a loop with an unbounded number of rounds; a test sees one draw on one curve.", "anchors": ["src/LNLib/Geometry/Curve/NurbsCurve.cpp: NurbsCurve::ProjectNormal", "src/LNLib/Mathematics/Math/XYZ.cpp: XYZ::CreateRandomOrthogonal"]}
{"id": "C130", "title": "A surface decomposes into one Bézier patch per knot rectangle", "statement": "DecomposeToBeziers of a surface returns exactly one Bézier patch for every nonempty knot rectangle of the surface, ordered by the span in u and then by the span in v. Every patch is a valid surface over the unit square, and evaluating it at (x, y) gives the point of the original surface at the affinely corresponding parameters of its rectangle.", "quantifier": "all valid surfaces (all degrees, net sizes, knot vectors and multiplicities) and all parameters of the unit square", "why_tests_cant": "the number of rectangles, the multiplicities and the degrees are unbounded, and the identity holds at every parameter pair; sampling points of a few patches cannot show it", "anchors": ["src/LNLib/Geometry/Surface/NurbsSurface.cpp: NurbsSurface::DecomposeToBeziers (757-955)"]}
{"id": "C131", "title": "Interpolation with tangents meets every point and every tangent", "statement": "GlobalInterpolation with tangents returns, for every degree and every list of more points than the degree, a valid curve that passes through the i-th point at the i-th parameter and whose first derivative there is tangentFactor times the i-th tangent. Wrong arguments are rejected.", "quantifier": "all degrees, all lists of points and tangents of equal length above the degree, all positive tangent factors", "why_tests_cant": "the number of points, the degree and the data are unbounded; the result depends on a knot vector computed from the data", "anchors": ["src/LNLib/Geometry/Curve/NurbsCurve.cpp: NurbsCurve::GlobalInterpolation(degree, throughPoints, tangents, tangentFactor, curve) (2107-2218)", "src/LNLib/Algorithm/Interpolation.cpp: Interpolation::AverageKnotVector (154-182)"]}
{"id": "C132", "title": "Least squares approximation is optimal", "statement": "Whenever LeastSquaresApproximation answers true, the curve it returns is a valid clamped curve that starts at the first and ends at the last data point, and among all curves of the same degree and knots with weights one that start and end there it has the smallest sum of squared distances to the inner data points at their parameters. It answers for every admissible degree and number of control points; wrong arguments are rejected.", "quantifier": "all degrees, all lists of at least two points, all numbers of control points, all competing curves", "why_tests_cant": "optimality quantifies over all competing curves; the band storage of the normal equations depends on where every parameter falls among the knots", "anchors": ["src/LNLib/Geometry/Curve/NurbsCurve.cpp: NurbsCurve::LeastSquaresApproximation (2284-2432)", "src/LNLib/Mathematics/Utils/MathUtils.cpp: MathUtils::SolveLinearSystemBanded (290-342)"]}
{"id": "C133", "title": "Sweep along a trajectory places the profile", "statement": "CreateSweepSurface with an interpolated trajectory returns a valid surface that contains, for each of at least minimumProfiles + 1 values of v, rising from 0 to 1, a copy of the profile placed on the trajectory: congruent to the profile, its origin on the trajectory and its plane normal to it. The trajectory is only refined for this, not changed.", "quantifier": "all profiles, all trajectories, all numbers of sections, all random angles, all parameters u", "why_tests_cant": "the placement of every section depends on the curve, on the inserted knots and on random vectors; the surface must contain the whole section, not sample points", "anchors": ["src/LNLib/Geometry/Surface/NurbsSurface.cpp: NurbsSurface::CreateSweepSurface (2742-2823)", "src/LNLib/Geometry/Surface/NurbsSurface.cpp: NurbsSurface::CreateLoftSurface (2611-2713)", "src/LNLib/Geometry/Curve/NurbsCurve.cpp: NurbsCurve::ProjectNormal"]}
{"id": "C134", "title": "Swung surface places the scaled profile along the trajectory", "statement": "CreateSwungSurface returns a valid surface that contains, at each parameter the profile is placed at, a copy of the profile, scaled by the given factor, turned into the frame of the trajectory at that parameter, with its origin on the trajectory. Different factors give different surfaces, and the weights of the profile are respected.", "quantifier": "all profiles with weights clear of the tolerance, all clamped trajectories over [0, 1], all factors, all parameters u", "why_tests_cant": "the placement depends on the trajectory and the whole edge must be the placed profile, not sample points; the missing effect of the factor holds for every input", "anchors": ["src/LNLib/Geometry/Surface/NurbsSurface.cpp: NurbsSurface::CreateSwungSurface (2511-2609)"]}
{"id": "C135", "title": "Local cubic interpolation passes through the points", "statement": "CubicLocalInterpolation returns true and a valid cubic curve that passes through all the given points, in order, with the computed tangent directions, for every list of at least one point with consecutive points apart; it returns false or reports an invalid argument where it cannot.", "quantifier": "all lists of points in space", "why_tests_cant": "the curve must meet each of arbitrarily many points; that it misses one at every parameter is a statement about infinitely many parameters", "anchors": ["src/LNLib/Geometry/Curve/NurbsCurve.cpp: NurbsCurve::CubicLocalInterpolation (2216-2285)"]}
{"id": "C136", "title": "Approximating a grid of points gives a valid surface of the requested shape", "statement": "NurbsSurface::GlobalApproximation returns, when it returns true, a surface of the requested degrees with the requested numbers of rows and columns of control points that passes Check, meets the four corners of the grid, and whose sides are the least squares curves of the outer rows of data.", "quantifier": "all grids of points, degrees and numbers of control points", "why_tests_cant": "the knot vectors and the net are produced by two passes over the data in different directions; whether they fit each other has to be shown for every pair of sizes", "anchors": ["src/LNLib/Geometry/Surface/NurbsSurface.cpp: NurbsSurface::GlobalApproximation (2447-2509)", "src/LNLib/Algorithm/ControlPointsUtils.cpp: ControlPointsUtils::ToXYZW (46-60)"]}
{"id": "C137", "title": "Local bicubic interpolation passes through the grid", "statement": "NurbsSurface::BicubicLocalInterpolation returns, for every rectangular grid of points, a valid bicubic surface that passes through all the points of the grid.", "quantifier": "all grids of points, square or not", "why_tests_cant": "the control net is thinned out after it was computed and two directions share loops over each other's parameters; whether the result interpolates has to be shown for every grid", "anchors": ["src/LNLib/Geometry/Surface/NurbsSurface.cpp: NurbsSurface::BicubicLocalInterpolation (2237-2447)", "src/LNLib/Geometry/Surface/NurbsSurface.cpp: GetIndex (78-87)", "src/LNLib/include/MathUtils.h: MathUtils::GetColumn (76-85)", "src/LNLib/Algorithm/Interpolation.cpp: Interpolation::ComputeTangent (378-437)"]}
{"id": "C138", "title": "The weight of a conic arc from its triangle", "statement": "Interpolation::ComputerWeightForRationalQuadraticInterpolation gives, for three points S, R, E, a positive weight for the middle control point: 1 if the points are on a line, the cosine of the base angle (so that the arc is circular) if the legs are equal, and otherwise s / (1 - s), where s is the mean of the heights, as parts of the median from the middle of SE to R, at which the bisectors of the base angles meet the median.", "quantifier": "all triples of points", "why_tests_cant": "normalised directions, tolerances and two intersections of lines are involved; the value of the weight, its sign and the circularity of the resulting arc have to be shown for every triangle", "anchors": ["src/LNLib/Algorithm/Interpolation.cpp: Interpolation::ComputerWeightForRationalQuadraticInterpolation (211-263)", "src/LNLib/Algorithm/Intersection.cpp: Intersection::ComputeRays"]}
{"id": "C139", "title": "Control points between two points with given tangents", "statement": "BezierCurve::ComputerMiddleControlPointsOnQuadraticCurve gives control points such that the conic arcs from the start point to the end point start in the direction of the start tangent, end in the direction of the end tangent and join with a common tangent.", "quantifier": "all pairs of points and all pairs of tangents", "why_tests_cant": "the function distinguishes how the tangent lines meet, with tolerances; that every outcome respects the tangents has to be shown for all positions", "anchors": ["src/LNLib/Geometry/Curve/BezierCurve.cpp: BezierCurve::ComputerMiddleControlPointsOnQuadraticCurve (39-132)", "src/LNLib/Algorithm/Interpolation.cpp: Interpolation::ComputerWeightForRationalQuadraticInterpolation (211-263)"]}
{"id": "C140", "title": "Fitting a conic to a run of points", "statement": "NurbsCurve::FitWithConic finds the control point of a conic arc that starts and ends at the given points with the given tangents and stays within the given error of the points between them, when there is such an arc; two neighbouring points are joined without a test; wrong indices and zero tangents are rejected.", "quantifier": "all lists of points, index ranges, tangents and error bounds", "why_tests_cant": "a weight is averaged over all inner points from several intersections of lines; whether that weight is ever the right one has to be settled for all points", "anchors": ["src/LNLib/Geometry/Curve/NurbsCurve.cpp: NurbsCurve::FitWithConic (2928-3004)", "src/LNLib/Geometry/Curve/NurbsCurve.cpp: NurbsCurve::CreateOneConicArc (1885-1927)", "src/LNLib/Geometry/Curve/BezierCurve.cpp: BezierCurve::ComputerMiddleControlPointsOnQuadraticCurve (39-132)"]}
{"id": "C141", "title": "Solving cubic equations", "statement": "MathUtils::ComputerCubicEquationsWithOneVariable answers a real root of the cubic equation whose coefficients it is given, whenever the equation has one; of several roots it answers the one its callers mean (the one between 0 and 1).", "quantifier": "all coefficients of polynomials of degree at most three", "why_tests_cant": "Newton's method from a fixed start may converge anywhere, cycle, or divide by zero depending on the coefficients; a test sees the equations it tries", "anchors": ["src/LNLib/Mathematics/Utils/MathUtils.cpp: MathUtils::ComputerCubicEquationsWithOneVariable (124-135)"]}
{"id": "C142", "title": "Fitting a cubic to a run of points", "statement": "NurbsCurve::FitWithCubic answers true with two inner control points, on the given tangents, of a cubic that stays within the given error of the points between the end points, and false only when its construction gives none; wrong indices and zero tangents are rejected.", "quantifier": "all lists of points, index ranges, tangents and error bounds", "why_tests_cant": "the answer depends on the position of every inner point relative to a plane and on parameters computed from all points; tests try a few configurations", "anchors": ["src/LNLib/Geometry/Curve/NurbsCurve.cpp: NurbsCurve::FitWithCubic (3006-3190)", "src/LNLib/Mathematics/Utils/MathUtils.cpp: MathUtils::ComputerCubicEquationsWithOneVariable (124-135)", "src/LNLib/Algorithm/Intersection.cpp: Intersection::ComputeLineAndPlane"]}
{"id": "C143", "title": "Modifying two neighbouring weights moves the curve point by the requested distance", "statement": "For every valid curve, parameter of its domain and two neighbouring control points that act there, NeighborWeightsModification changes only the two weights and moves the curve point at the parameter by exactly the requested distance on the line through the point that the curve would have there without the two control points; the scale takes part in the result; an index without a neighbour or out of range is rejected.", "quantifier": "all valid curves of degree 1..7, parameters, indices, distances and scales", "why_tests_cant": "the new weights come from an intersection of lines and six ratios of lengths; that they always combine to the requested distance is an algebraic identity over all curves", "anchors": ["src/LNLib/Geometry/Curve/NurbsCurve.cpp: NurbsCurve::NeighborWeightsModification (3249-3324)", "src/LNLib/Algorithm/Intersection.cpp: Intersection::ComputeRays (18-72)"]}
{"id": "C144", "title": "The error bound of a knot removal bounds the error and is zero exactly for removable knots", "statement": "For every valid curve and every knot index, ComputerRemoveKnotErrorBound returns a number such that the knot can be removed with a change of the homogeneous curve points of at most that number at every parameter; the number is zero exactly if the curve is the result of inserting that knot into a curve without it; indices at which no knot can be removed are rejected.", "quantifier": "all valid curves of degree 1..7 and all indices", "why_tests_cant": "the bound is about every parameter of a curve that the function does not construct; the equivalence ranges over all coarser curves", "anchors": ["src/LNLib/Geometry/Curve/NurbsCurve.cpp: NurbsCurve::ComputerRemoveKnotErrorBound (2638-2684)"]}
{"id": "C145", "title": "Parameters at a given length", "statement": "For every valid curve and every length, GetParamOnCurve(curve, length) returns a parameter of the domain in front of which the curve has that length, up to the library's tolerance, or the end of the domain if the curve is shorter; GetParamsOnCurve(curve, length) returns the parameters that divide the curve into parts of that length; both return for every length.", "quantifier": "all valid clamped curves, all lengths, every way of measuring the length of a curve", "why_tests_cant": "the result is the limit of a bisection whose steps depend on the measured lengths of curves made on the way; that it ends cannot be seen from runs", "anchors": ["src/LNLib/Geometry/Curve/NurbsCurve.cpp: GetParamByLength (67-91), NurbsCurve::GetParamOnCurve(curve, length) (4086-4118), NurbsCurve::GetParamsOnCurve (4120-4140)"]}
{"id": "C146", "title": "The differentiability test recognises corners and nothing else", "statement": "For every valid curve and every parameter, CanComputeDerivative answers true exactly if the curve has a derivative at the parameter (a corner smaller than the library's tolerance counts as none).", "quantifier": "all valid curves and all parameters", "why_tests_cant": "the test compares two difference quotients; whether they differ because of a corner or because of curvature is a matter of all curves", "anchors": ["src/LNLib/Geometry/Curve/NurbsCurve.cpp: NurbsCurve::CanComputeDerivative (288-304)"]}
{"id": "C147", "title": "An offset curve is the curve moved along its normals", "statement": "For every valid curve and every offset, Offset returns a curve whose control points are those of the given curve moved by the offset along the normals of the curve, with the same degree, knots and number of control points; a zero offset gives the curve itself, and lines and polylines can be offset too.", "quantifier": "all curves, all offsets, both methods", "why_tests_cant": "the moved control points are obtained by intersecting moved legs whose directions depend on the nearest parameters of all control points", "anchors": ["src/LNLib/Geometry/Curve/NurbsCurve.cpp: OffsetByTillerAndHanson, OffsetByPieglAndTiller (119-237), NurbsCurve::Offset (1698-1711)"]}
{"id": "C148", "title": "The first order routine of a surface returns the point and the two tangents", "statement": "For every valid surface and every parameter pair of its domain, ComputeRationalSurfaceFirstOrderDerivative returns the point and the partial derivatives in u and in v, the same that ComputeRationalSurfaceDerivatives puts at [0][0], [1][0] and [0][1]; ComputeFirstOrderDerivative of a B-spline surface adds its four derivatives to the array it is given. A vanishing weight gives a value that is not finite.", "quantifier": "all valid surfaces of all degrees up to the supported maximum, all parameters of the domain, all contents of the array", "why_tests_cant": "the agreement of two routines over all knot vectors, weights and parameters", "anchors": ["src/LNLib/include/BsplineSurface.h: BsplineSurface::ComputeFirstOrderDerivative (143-191)", "src/LNLib/Geometry/Surface/NurbsSurface.cpp: NurbsSurface::ComputeRationalSurfaceFirstOrderDerivative (225-254)"]}
{"id": "C149", "title": "The parameters of the nearest point of a surface are found", "statement": "For every valid surface and every point, GetParamOnSurface returns a pair of parameters of the domain at which the surface is nearest to the point.", "quantifier": "all clamped surfaces of any degrees with positive weights, all points", "why_tests_cant": "a start from ten thousand samples followed by up to twenty Newton steps, for every surface and every point", "anchors": ["src/LNLib/Geometry/Surface/NurbsSurface.cpp: NurbsSurface::GetParamOnSurface (1266-1388)"]}
{"id": "C150", "title": "All parameters of a point on a surface are found, each once", "statement": "For every valid surface and every point, GetAllParamsOnSurface returns all the parameters at which the surface passes through the point (or is locally nearest to it); each is a pair of parameters of the domain and none is returned twice.", "quantifier": "all clamped surfaces of any degrees with positive weights, all points", "why_tests_cant": "the number of starting points, the twenty Newton steps from each and the comparisons of the results depend on the surface and on the point", "anchors": ["src/LNLib/Geometry/Surface/NurbsSurface.cpp: NurbsSurface::GetAllParamsOnSurface (1390-1550)"]}
{"id": "C151", "title": "A volume is reported closed exactly when its two opposite faces coincide", "statement": "For every valid clamped volume and each of the three directions, IsClosed is true exactly when the two boundary faces of that direction coincide (up to the tolerance).", "quantifier": "all clamped volumes of any degrees and sizes, the three directions", "why_tests_cant": "the answer depends on every curve of control points of the direction, for volumes of every size", "anchors": ["src/LNLib/Geometry/Volume/NurbsVolume.cpp: NurbsVolume::IsClosed (1165-1259)"]}
{"id": "C152", "title": "The parameters of a point of a volume are found, and the validity check is right", "statement": "For every valid volume, GetParamOnVolume returns parameters of the domain at which the volume is nearest to the given point, and Check answers whether the Jacobian of the volume is positive at all samples.", "quantifier": "all clamped volumes of any degrees and sizes, all points", "why_tests_cant": "both depend on the derivatives at 64000 (125000) samples of every volume", "anchors": ["src/LNLib/Geometry/Volume/NurbsVolume.cpp: NurbsVolume::GetParamOnVolume (1261-1398), NurbsVolume::Check (1650-1694)"]}
{"id": "C153", "title": "All parameters of a point on a curve are found", "statement": "For every valid curve and every point, GetAllParamsOnCurve returns exactly the parameters u of the domain with C(u) = P, each of them once; only the centre of a full circle is rejected.", "quantifier": "all clamped curves of any degree and size with positive weights, all points", "why_tests_cant": "the list depends on the local minima of the distance along the whole curve; a few sample curves cannot show that no parameter is missed, repeated or invented", "anchors": ["src/LNLib/Geometry/Curve/NurbsCurve.cpp: NurbsCurve::GetAllParamsOnCurve (1331-1448)"]}
{"id": "C154", "title": "The second search for the nearest point of a surface finds it", "statement": "For every valid surface and every point, GetParamOnSurfaceByGSA returns parameters of the domain at which the surface is nearest to the point (at least a stationary point of the distance).", "quantifier": "all clamped surfaces of any degrees and sizes with positive weights, all points", "why_tests_cant": "the search is a loop over derivatives and curvatures of the surface; it works on the sample surfaces of a test and fails on whole classes of others", "anchors": ["src/LNLib/Geometry/Surface/NurbsSurface.cpp: NurbsSurface::GetParamOnSurfaceByGSA (1552-1637)"]}
{"id": "C155", "title": "Removing knots within a bound stays within the bound", "statement": "For every valid curve, parameters, errors and bound, RemoveKnotsByGivenBound ends, returns a curve of the same degree that comes from the curve given by removing knots, deviates at the given parameters by no more than the bound and by no more than the errors it reports, and has no knot left that could be removed within the bound.", "quantifier": "all curves of any degree and size, all parameter lists, all bounds", "why_tests_cant": "the loop chooses a knot per round and adds up error estimates over all earlier rounds; whether the sums bound the true deviation cannot be seen from the result of a few runs", "anchors": ["src/LNLib/Geometry/Curve/NurbsCurve.cpp: NurbsCurve::RemoveKnotsByGivenBound, NurbsCurve::RemoveKnot"]}
{"id": "C156", "title": "Approximation within an error bound keeps the bound", "statement": "For every sequence of points, degree and bound, GlobalApproximationByErrorBound returns a curve of the degree that at the parameter of each point is no farther from it than the bound, with as few knots as the bound allows.", "quantifier": "all sequences of more points than the degree, all degrees, all bounds", "why_tests_cant": "the result comes from raising the degree of a polyline and a chain of knot removals with estimated errors; a test sees a curve near its own points only", "anchors": ["src/LNLib/Geometry/Curve/NurbsCurve.cpp: NurbsCurve::GlobalApproximationByErrorBound (2892-2930)"]}
{"id": "C157", "title": "A Gordon surface contains the curves of its network", "statement": "For every network of curves in two directions and their crossing points, CreateGordonSurface returns a surface that contains every curve of both directions.", "quantifier": "all networks of any number of curves of any degrees in each direction", "why_tests_cant": "a Gordon surface is the sum of two lofts minus an interpolation after several changes of degrees and knots; whether curves lie on it is a statement about all parameters, and most sizes of networks fail in a step that a test of one square network does not reach", "anchors": ["src/LNLib/Geometry/Surface/NurbsSurface.cpp: NurbsSurface::CreateGordonSurface (2876-3123)"]}
{"id": "C158", "title": "A sweep at equal lengths places the profile from the start of the trajectory to its end", "statement": "For every profile, trajectory and number of sections, CreateSweepSurface (the version that does not interpolate the trajectory) places the profile at the start of the trajectory, at the points that cut it into parts of equal length, and at its end, and lofts through these sections.", "quantifier": "all profiles, trajectories, numbers of sections and methods of measuring the length", "why_tests_cant": "where the sections stand depends on a search by halving with tolerances that may find more or fewer parameters than there are sections; one example in which the result looks right says nothing about the last section", "anchors": ["src/LNLib/Geometry/Surface/NurbsSurface.cpp: NurbsSurface::CreateSweepSurface (2826-2874)"]}
{"id": "C159", "title": "The length of a part of a curve is the length between its two parameters", "statement": "For every curve and every range of parameters, ApproximateLength(curve, start, end) is the length of the curve between the two parameters: on a segment it is the distance of the two points.", "quantifier": "all segments and all ranges of parameters, every method of integration", "why_tests_cant": "the wrong end is used for every range that does not end at the end of the curve; a test of the whole range or of a range up to the end passes", "anchors": ["src/LNLib/Geometry/Curve/NurbsCurve.cpp: NurbsCurve::ApproximateLength (3877-3882), NurbsCurve::Extract (1588-1620)"]}
{"id": "C160", "title": "Products of matrices and control nets obey the rules of matrices", "statement": "For all sizes, ControlPointsUtils::Multiply is the product of a matrix of numbers and a net of weighted points from either side: the order of a left and a right product does not matter, two left products are one product with the product of the matrices, and ToXYZ undoes ToXYZW.", "quantifier": "all nets and all matrices of matching sizes", "why_tests_cant": "the rules relate products of any sizes; a test multiplies one small matrix of fixed size", "anchors": ["src/LNLib/Algorithm/ControlPointsUtils.cpp: ControlPointsUtils::ToXYZ (19-44), ControlPointsUtils::ToXYZW (46-60), ControlPointsUtils::Multiply (61-99)"]}
{"id": "C161", "title": "A corner fillet is a valid surface that begins at its boundary arc", "statement": "MakeCornerFilletSurface called with a boundary arc on the sphere of the fillet returns a valid surface of degrees 4 and 2 whose corner over the start of the arc is the start of the arc.", "quantifier": "all arcs and all surfaces passed for the result", "why_tests_cant": "the patch is computed from the arc by a chain of projections and basis changes; a test sees one arc", "anchors": ["src/LNLib/Geometry/Surface/NurbsSurface.cpp: NurbsSurface::MakeCornerFilletSurface (2025-2145)"]}
{"id": "C162", "title": "Tests for vectors, distances of parameters and conversions of angles mean what they say", "statement": "IsZero(eps) is true exactly for vectors not longer than eps; IsUnit(eps) is true for vectors whose length is within eps of 1 and only for those; Normalize makes every non-zero vector a unit vector; the distance of two UV values is a metric; IsAlmostEqualTo is reflexive and symmetric; RadiansToAngle and AngleToRadians undo each other.", "quantifier": "all vectors, all pairs of parameters, all tolerances and all angles", "why_tests_cant": "the laws quantify over all vectors and tolerances; the tolerance is squared in the code, which tests with exact unit vectors cannot see", "anchors": ["src/LNLib/Mathematics/Math/UV.cpp: UV::IsZero, IsUnit, IsAlmostEqualTo, Length, SqrLength, Normalize, Distance (69-137)", "src/LNLib/Mathematics/Math/XYZ.cpp: XYZ::IsZero, XYZ::IsUnit (90-93), Normalize", "src/LNLib/Mathematics/Utils/MathUtils.cpp: RadiansToAngle, AngleToRadians (89-97)"]}
{"id": "C163", "title": "The signed distance is the distance from the surface, with the sign of the side", "statement": "ComputeSignedDistanceFunction returns a value whose size is the distance of the point from the surface; it is positive on the side of the normal and negative on the other side.", "quantifier": "all surfaces and all points", "why_tests_cant": "the value depends on a search, an evaluation and a normal at the parameters found; a test sees single points", "anchors": ["src/LNLib/Geometry/Surface/NurbsSurface.cpp: NurbsSurface::ComputeSignedDistanceFunction (3940-3950)", "src/LNLib/Geometry/Surface/NurbsSurface.cpp: NurbsSurface::GetParamOnSurface (1266-1388)", "src/LNLib/Geometry/Surface/NurbsSurface.cpp: NurbsSurface::Normal (442-455)"]}
{"id": "C164", "title": "Triangulating by Delaunay covers the surface", "statement": "Triangulate with useDelaunay returns a mesh for every valid surface; all vertices are points of the surface, and the mesh reaches all edges of the surface. The samples are denser where the curvature is larger, on a scale from the smallest to the largest curvature.", "quantifier": "all surfaces, all resolutions from two on, all sequences of random numbers", "why_tests_cant": "the samples are random, so tests see one sequence; whether a vertex can ever lie on an edge is a statement about all of them", "anchors": ["src/LNLib/Geometry/Surface/NurbsSurface.cpp: NurbsSurface::Triangulate (3566-3888)"]}
{"id": "C165", "title": "Handles of the C interface keep standing for the curve or surface they were returned for", "statement": "Through the C interface (used by the .NET binding) a returned curve or surface is the one the library made; functions can be chained; and a handle keeps standing for the same curve or surface while other functions are called, in particular the two parts of a split and the pieces of a decomposition are all usable.", "quantifier": "all curves and surfaces, all chains of functions, all previous states of the buffers of the thread", "why_tests_cant": "what a handle stands for depends on the history of calls in the thread and on the sizes of what they returned; a test sees one history", "anchors": ["dotnet/CAPI/include/NurbsCurve_CAPI.h: FromCAPI, ToCAPI (255-287)", "dotnet/CAPI/src/NurbsCurve_CAPI.cpp: LNLIB_NURBSCUR_split_at (295-307), LNLIB_NURBSCUR_decompose_to_beziers (334-344)", "dotnet/CAPI/src/NurbsSurface_CAPI.cpp: FromCAPI, ToCAPI (28-70)"]}
{"id": "C166", "title": "Tables cross the C interface unchanged", "statement": "Through the C interface a table given or returned as a flat array (row by row, with its numbers of rows and columns) is the table the library gets or makes: values of polynomials in two variables, and the conversion matrices between Bézier and power form for every degree.", "quantifier": "all tables, all degrees, all contents of the memory of the caller", "why_tests_cant": "a stride or a source mixed up shows only for tables that are not square or memory that happens to hold something else", "anchors": ["dotnet/CAPI/src/Polynomials_CAPI.cpp: LNLIB_POLY_horner_uv (30-47), LNLIB_POLY_bezier_to_power_matrix (233-273), LNLIB_POLY_power_to_bezier_matrix (275-316)"]}
{"id": "C167", "title": "Weighted least squares approximation minimises the weighted sum of squares", "statement": "The curve returned by the weighted and constrained least squares approximation minimises the sum of the squared distances to the points, each multiplied by its weight, among all curves of the same degree and knots; points with negative weights are met exactly and tangents likewise.", "quantifier": "all points, all weights, all degrees up to seven, all numbers of control points", "why_tests_cant": "examples with all weights one cannot show how weights enter", "anchors": ["src/LNLib/Geometry/Curve/NurbsCurve.cpp: WeightedAndContrainedLeastSquaresApproximation (2432-2636)"]}
