import Verif.Spec.Curve
import Verif.Spec.Derivative
import Verif.Model.SurfaceData

/-!
# Specification: tensor product surfaces

Independent of the model except for the data types (points and surface records).
-/

namespace LNLib.Spec
open Finset

variable {K : Type} [Field K] [LinearOrder K]
variable {T : Type} [AddCommGroup T] [Module K T]

/-- `S(u,v) = ∑ᵢ ∑ⱼ N_{i,p}(u) N_{j,q}(v) P_{i,j}` (The NURBS Book, eq. 3.11); `n`, `m` are the last
control point indices in the two directions. -/
def surfacePoint (U V : ℕ → K) (p q n m : ℕ) (P : ℕ → ℕ → T) (u v : K) : T :=
  ∑ i ∈ range (n + 1), ∑ j ∈ range (m + 1), (N U (U (n + 1)) p i u * N V (V (m + 1)) q j v) • P i j

/-- A surface record that satisfies the documented requirements. -/
structure WellFormedS (c : BsplineSurface K T) (p q n m : ℕ) : Prop where
  degreeU : c.degreeU = p
  degreeV : c.degreeV = q
  posU : 0 < p
  posV : 0 < q
  le7U : p ≤ 7
  le7V : q ≤ 7
  cps : IsMat c.cps (n + 1) (m + 1)
  pn : p ≤ n
  qm : q ≤ m
  knotsU : c.knotsU.length = n + p + 2
  knotsV : c.knotsV.length = m + q + 2
  sortedU : ∀ i j, i ≤ j → j < c.knotsU.length → nth c.knotsU i ≤ nth c.knotsU j
  sortedV : ∀ i j, i ≤ j → j < c.knotsV.length → nth c.knotsV i ≤ nth c.knotsV j

/-- End spans of both directions longer than the library's comparison tolerance. -/
structure EndsSeparatedS (c : BsplineSurface K T) (p q n m : ℕ) : Prop where
  u : EndsSeparated (nth c.knotsU) p n
  v : EndsSeparated (nth c.knotsV) q m

/-- `(u, v)` is in the domain of the surface. -/
structure InDomain (c : BsplineSurface K T) (p q n m : ℕ) (u v : K) : Prop where
  u0 : nth c.knotsU p ≤ u
  u1 : u ≤ nth c.knotsU (n + 1)
  v0 : nth c.knotsV q ≤ v
  v1 : v ≤ nth c.knotsV (m + 1)

/-- the weight function `w(u,v) = ∑ᵢⱼ N_{i,p}(u) N_{j,q}(v) wᵢⱼ` -/
def surfaceWeight (U V : ℕ → K) (p q n m : ℕ) (P : ℕ → ℕ → XYZW K) (u v : K) : K :=
  ∑ i ∈ range (n + 1), ∑ j ∈ range (m + 1), (N U (U (n + 1)) p i u * N V (V (m + 1)) q j v) * (P i j).w

/-- the rational surface point (The NURBS Book, eq. 4.11) from weighted control points -/
def rationalSurfacePoint (U V : ℕ → K) (p q n m : ℕ) (P : ℕ → ℕ → XYZW K) (u v : K) : XYZ K :=
  (surfaceWeight U V p q n m P u v)⁻¹ • ∑ i ∈ range (n + 1), ∑ j ∈ range (m + 1),
    (N U (U (n + 1)) p i u * N V (V (m + 1)) q j v) • (⟨(P i j).wx, (P i j).wy, (P i j).wz⟩ : XYZ K)

/-- the closed axis-parallel box contains the point -/
def InBox (b : BoundingBox K) (p : XYZ K) : Prop :=
  b.lo.x ≤ p.x ∧ p.x ≤ b.hi.x ∧ b.lo.y ≤ p.y ∧ p.y ≤ b.hi.y ∧ b.lo.z ≤ p.z ∧ p.z ≤ b.hi.z

/-- the point with weighted coordinates `(wx, wy, wz, w)` -/
def proj (q : XYZW K) : XYZ K := ⟨q.wx / q.w, q.wy / q.w, q.wz / q.w⟩

/-- the bilinear interpolant of four points: `u` runs from top to bottom, `v` from left to right -/
def bilinear (topLeft topRight bottomLeft bottomRight : T) (u v : K) : T :=
  ((1 - u) * (1 - v)) • topLeft + ((1 - u) * v) • topRight + (u * (1 - v)) • bottomLeft + (u * v) • bottomRight

/-- The mixed partial derivative `∂ᵏ/∂uᵏ ∂ˡ/∂vˡ` at `(u, v)` of `∑ᵢⱼ N_{i,p}(u) N_{j,q}(v) Pᵢⱼ`, `u` in span `su` and `v`
in span `sv` (see `dN`). -/
noncomputable def surfaceDeriv (U V : ℕ → K) (su sv p q n m : ℕ) (P : ℕ → ℕ → T) (k l : ℕ) (u v : K) : T :=
  ∑ i ∈ Finset.range (n + 1), ∑ j ∈ Finset.range (m + 1), (dN U su p i k u * dN V sv q j l v) • P i j

end LNLib.Spec
