import Verif.Spec.Surface
import Verif.Core.Cube

/-!
# Specification: tensor product volumes

Independent of the model except for the data types.
-/

namespace LNLib

/-- `LN_BsplineVolume<T>`, include/LNObject.h:57-69.  `controlPoints[i][j][k]`: U, V, W index. -/
structure BsplineVolume (K T : Type) where
  degreeU : ℤ
  degreeV : ℤ
  degreeW : ℤ
  knotsU : List K
  knotsV : List K
  knotsW : List K
  cps : List (List (List T))
  deriving DecidableEq, Repr

/-- `LN_NurbsVolume`, include/LNObject.h:71. -/
abbrev NurbsVolume (K : Type) := BsplineVolume K (XYZW K)

/-- `VolumeDirection`, include/LNEnums.h. -/
inductive VolumeDirection where
  | u
  | v
  | w
  deriving DecidableEq, Repr

namespace Spec
open Finset

variable {K : Type} [Field K] [LinearOrder K]
variable {T : Type} [AddCommGroup T] [Module K T]

/-- `V(u,v,w) = ∑ᵢⱼₖ N_{i,p}(u) N_{j,q}(v) N_{k,r}(w) P_{i,j,k}`; `n`, `m`, `l` are the last control point indices. -/
def volumePoint (U V W : ℕ → K) (p q r n m l : ℕ) (P : ℕ → ℕ → ℕ → T) (u v w : K) : T :=
  ∑ i ∈ range (n + 1), ∑ j ∈ range (m + 1), ∑ k ∈ range (l + 1),
    (N U (U (n + 1)) p i u * N V (V (m + 1)) q j v * N W (W (l + 1)) r k w) • P i j k

/-- the weight function of a rational volume -/
def volumeWeight (U V W : ℕ → K) (p q r n m l : ℕ) (P : ℕ → ℕ → ℕ → XYZW K) (u v w : K) : K :=
  ∑ i ∈ range (n + 1), ∑ j ∈ range (m + 1), ∑ k ∈ range (l + 1),
    (N U (U (n + 1)) p i u * N V (V (m + 1)) q j v * N W (W (l + 1)) r k w) * (P i j k).w

/-- the rational volume point from weighted control points -/
def rationalVolumePoint (U V W : ℕ → K) (p q r n m l : ℕ) (P : ℕ → ℕ → ℕ → XYZW K) (u v w : K) : XYZ K :=
  (volumeWeight U V W p q r n m l P u v w)⁻¹ • ∑ i ∈ range (n + 1), ∑ j ∈ range (m + 1), ∑ k ∈ range (l + 1),
    (N U (U (n + 1)) p i u * N V (V (m + 1)) q j v * N W (W (l + 1)) r k w) • (⟨(P i j k).wx, (P i j k).wy, (P i j k).wz⟩ : XYZ K)

/-- One direction of a tensor product record: degree between one and seven, enough control points, matching sorted knots. -/
structure GoodDir (degree : ℤ) (U : List K) (p n : ℕ) : Prop where
  degree : degree = p
  pos : 0 < p
  le7 : p ≤ 7
  pn : p ≤ n
  knots : U.length = n + p + 2
  sorted : ∀ i j, i ≤ j → j < U.length → nth U i ≤ nth U j

/-- A volume record that satisfies the documented requirements. -/
structure WellFormedV (c : BsplineVolume K T) (p q r n m l : ℕ) : Prop where
  u : GoodDir c.degreeU c.knotsU p n
  v : GoodDir c.degreeV c.knotsV q m
  w : GoodDir c.degreeW c.knotsW r l
  cps : IsCube c.cps (n + 1) (m + 1) (l + 1)

/-- End spans of the three directions longer than the library's comparison tolerance. -/
structure EndsSeparatedV (c : BsplineVolume K T) (p q r n m l : ℕ) : Prop where
  u : EndsSeparated (nth c.knotsU) p n
  v : EndsSeparated (nth c.knotsV) q m
  w : EndsSeparated (nth c.knotsW) r l

/-- `(u, v, w)` is in the domain of the volume. -/
structure InDomainV (c : BsplineVolume K T) (p q r n m l : ℕ) (u v w : K) : Prop where
  u0 : nth c.knotsU p ≤ u
  u1 : u ≤ nth c.knotsU (n + 1)
  v0 : nth c.knotsV q ≤ v
  v1 : v ≤ nth c.knotsV (m + 1)
  w0 : nth c.knotsW r ≤ w
  w1 : w ≤ nth c.knotsW (l + 1)

end Spec
end LNLib
