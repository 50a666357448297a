import Verif.Model.PowerBasis
import Verif.Model.Polynomials
import Verif.Model.Delaunay

/-!
# Model of tables as flat arrays in the C interface, /repo/dotnet/CAPI

All paths are relative to /repo.
-/

namespace LNLib
open Res

noncomputable section

/-- The loops that read a flat array, row by row: dotnet/CAPI/src/Polynomials_CAPI.cpp:38-42 and 286-290; the same in dotnet/CAPI/src/BezierSurface_CAPI.cpp, Interpolation_CAPI.cpp and
NurbsSurface_CAPI.cpp. -/
def unflatten {α : Type} (rows cols : ℕ) (flat : List α) : Res (List (List α)) := gridR rows cols fun i j => vget flat (i * cols + j)

section
variable {K : Type} [Field K] [LinearOrder K]

/-- `LNLIB_POLY_horner_uv`, dotnet/CAPI/src/Polynomials_CAPI.cpp:30-47. A negative degree below -1 throws `std::length_error`; the model reads an empty table, which the library refuses. -/
def capiHorner2 (degreeU degreeV : ℤ) (coefficients : List K) (u v : K) : Res K := do
  let coeffs ← unflatten (degreeU + 1).toNat (degreeV + 1).toNat coefficients
  horner2 degreeU degreeV coeffs u v

/-- `LNLIB_POLY_bezier_to_power_matrix`, dotnet/CAPI/src/Polynomials_CAPI.cpp:233-273: the new array and its sizes; `none` is an early `return`, after which the outputs are as they were. -/
def capiBezierToPower (degree : ℤ) : Res (Option (List K × ℤ × ℤ)) := do
  let matrix ← (bezierToPowerMatrix degree : Res (List (List K)))
  let n := matrix.length
  if n = 0 then ok (some ([], 0, 0))
  else if (n : ℤ) ≠ degree + 1 then ok none
  else if matrix.all fun r => decide (r.length = n) then do
    let grid ← gridR n n fun i j => mget matrix i j
    ok (some (grid.flatten, n, n))
  else ok none

/-- `LNLIB_POLY_power_to_bezier_matrix`, dotnet/CAPI/src/Polynomials_CAPI.cpp:275-316. `before` is what `out_matrix` leads to when the function is called: the cells `out_matrix[0]`, `out_matrix[1]`, …
of the caller, each with the numbers it points at; reading behind either is undefined. The loop of the lines 307-311 reads `out_matrix[i][j]`, not `result[i][j]`. -/
def capiPowerToBezier (degree : ℤ) (matrix : List K) (before : List (List K)) : Res (Option (List K × ℤ × ℤ)) := do
  let n := (degree + 1).toNat
  let input ← unflatten n n matrix
  let result ← powerToBezierMatrix degree input
  if result.length ≠ n then ok none
  else if result.all fun r => decide (r.length = n) then do
    let grid ← gridR n n fun i j => mget before i j
    ok (some (grid.flatten, n, n))
  else ok none

end
end
end LNLib
