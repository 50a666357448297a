import Verif.Model.Geom

/-!
# Data types for surfaces (include/LNObject.h)
-/

namespace LNLib

/-- `LN_BsplineSurface<T>`, include/LNObject.h:45-53.  `controlPoints[i][j]`: `i` is the U index. -/
structure BsplineSurface (K T : Type) where
  degreeU : ℤ
  degreeV : ℤ
  knotsU : List K
  knotsV : List K
  cps : List (List T)
  deriving DecidableEq, Repr

/-- `LN_NurbsSurface`, include/LNObject.h:55. -/
abbrev NurbsSurface (K : Type) := BsplineSurface K (XYZW K)

/-- `SurfaceDirection`, include/LNEnums.h. -/
inductive SurfaceDirection where
  | all
  | uDirection
  | vDirection
  deriving DecidableEq, Repr

/-- `LN_BoundingBox3d`, include/LNObject.h:91-99. -/
structure BoundingBox (K : Type) where
  lo : XYZ K
  hi : XYZ K
  deriving DecidableEq, Repr

end LNLib
