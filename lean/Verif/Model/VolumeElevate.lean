import Verif.Model.BezierPieces
import Verif.Model.Volume

/-!
# Degree elevation of volumes

Models `NurbsVolume::ElevateDegree` from Geometry/Volume/NurbsVolume.cpp:995-1163.
-/

namespace LNLib
open Res

variable {K T : Type} [Field K] [LinearOrder K] [AddCommGroup T] [Module K T]

/-- `uniqueCount`, the number of interior knots counted with multiplicity, Geometry/Volume/NurbsVolume.cpp:1018-1020,
1067-1069, 1116-1118. -/
def interiorKnots (degree : ℤ) (knots : List K) : ℤ := ((knots.length : ℤ) - (degree + 1)) - (degree + 1)

/-- The degree of the direction after the elevation, Geometry/Volume/NurbsVolume.cpp:1051-1053, 1100-1102, 1149-1151. -/
def BsplineVolume.raiseDegree (c : BsplineVolume K T) (direction : VolumeDirection) (times : ℤ) : BsplineVolume K T :=
  match direction with
  | .u => { c with degreeU := c.degreeU + times }
  | .v => { c with degreeV := c.degreeV + times }
  | .w => { c with degreeW := c.degreeW + times }

/-- `(uniqueCount + 1) * times` of the direction, Geometry/Volume/NurbsVolume.cpp:1018-1021, 1067-1070, 1116-1119. -/
def BsplineVolume.elevateGrowth (c : BsplineVolume K T) (direction : VolumeDirection) (times : ℤ) : ℤ :=
  match direction with
  | .u => (interiorKnots c.degreeU c.knotsU + 1) * times
  | .v => (interiorKnots c.degreeV c.knotsV + 1) * times
  | .w => (interiorKnots c.degreeW c.knotsW + 1) * times

/-- `NurbsVolume::ElevateDegree`, Geometry/Volume/NurbsVolume.cpp:995-1163.  The fibre loops are those of `alongFibres`; the
fibre curves carry the degree of the argument.  Simplification: a negative size passed to `resize` (negative `times`) is treated as
an empty net; the first fibre then throws because of `times`. -/
def elevateVolume (c : BsplineVolume K T) (times : ℤ) (direction : VolumeDirection) : Res (BsplineVolume K T) := do
  let (n, m, l) ← c.sizes
  let r ← alongFibres c direction n m l (fun crv => elevateDegree crv times) (grownNet direction n m l (c.elevateGrowth direction times))
  ok (r.raiseDegree direction times)

end LNLib
