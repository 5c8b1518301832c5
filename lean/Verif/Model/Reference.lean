import Verif.Model.Py
import Mathlib.Analysis.SpecialFunctions.Sqrt
import Mathlib.Analysis.SpecialFunctions.Pow.Real
import Mathlib.Analysis.SpecialFunctions.Trigonometric.Arctan
import Mathlib.Analysis.SpecialFunctions.Trigonometric.Inverse
import Mathlib.Analysis.SpecialFunctions.Arcosh
/-!
# `ReferenceSolutions/Hertz.py`, `Westergaard.py`, `Cone.py`

Simplifications that apply to the whole file
* floating point numbers are real numbers;
* outside the domain of `sqrt`, `arcsin`, `**` and at a division by zero NumPy returns `nan` or `inf` and the definitions below return some real
  number: nothing is claimed there, except where a definition returns an `Option`, and `none` stands for `nan` or `inf`;
* a function that works entry by entry on a vector is modelled by the function of one entry; the vector is a list in `elementwise` and in the
  functions that mix entries.
-/
namespace CM.Ref

/-- The result of entry-by-entry functions that assign into `np.zeros_like(x)`: for a vector of integers the assignment keeps the integer part.
(`Hertz.py:182-184`, `261`, `411-416`, `484-489`; `Cone.py:103`, `140`) -/
noncomputable def stored (ints : Bool) (x : ℝ) : ℝ := if ints then (if 0 ≤ x then ((⌊x⌋ : ℤ) : ℝ) else ((⌈x⌉ : ℤ) : ℝ)) else x

/-- A vector function computed entry by entry into `np.zeros_like(x)`. -/
noncomputable def elementwise (ints : Bool) (f : ℝ → ℝ) (l : List ℝ) : List ℝ := l.map fun x => stored ints (f x)

namespace Hertz

/-- `penetration` (`Hertz.py:35-57`). -/
noncomputable def penetration (N R Es : ℝ) : ℝ := (9 * N ^ 2 / (16 * R * Es ^ 2)) ^ (1 / 3 : ℝ)

/-- `normal_load` (`Hertz.py:60-81`). -/
noncomputable def normalLoad (d R Es : ℝ) : ℝ := 4 / 3 * Es * √(d ^ 3 * R)

/-- `elastic_energy` (`Hertz.py:84-101`). -/
noncomputable def elasticEnergy (d R Es : ℝ) : ℝ := 8 / 15 * √R * Es * d ^ (5 / 2 : ℝ)

/-- `radius_and_pressure`, first result (`Hertz.py:127`). -/
noncomputable def radius (N R Es : ℝ) : ℝ := R * (3 / 4 * (N / (Es * R ^ 2))) ^ (1 / 3 : ℝ)

/-- `radius_and_pressure`, second result (`Hertz.py:128`). -/
noncomputable def peak (N R Es : ℝ) : ℝ := 3 * N / (2 * Real.pi * radius N R Es * radius N R Es)

/-- `radius_and_pressure` (`Hertz.py:104-130`). -/
noncomputable def radiusAndPressure (N R Es : ℝ) : ℝ × ℝ := (radius N R Es, peak N R Es)

/-- `max_pressure__penetration` (`Hertz.py:133-148`). -/
noncomputable def maxPressure (delta R Es : ℝ) : ℝ := 2 * Es / Real.pi * √(delta / R)

/-- What `surface_stress` returns. -/
structure Surface where
  pz : ℝ
  sr : ℝ
  st : ℝ

/-- `surface_stress` at one distance (`Hertz.py:151-206`). -/
noncomputable def surfaceStress (nu r : ℝ) : Surface :=
  if |r| < 1e-6 then ⟨1, -(1 + 2 * nu) / 2, -(1 + 2 * nu) / 2⟩
  else if r < 1 then
    ⟨√(1 - r ^ 2), (1 - 2 * nu) / (3 * r ^ 2) * (1 - (1 - r ^ 2) ^ (3 / 2 : ℝ)) - √(1 - r ^ 2),
      -(1 - 2 * nu) / (3 * r ^ 2) * (1 - (1 - r ^ 2) ^ (3 / 2 : ℝ)) - 2 * nu * √(1 - r ^ 2)⟩
  else ⟨0, (1 - 2 * nu) / (3 * r ^ 2), -((1 - 2 * nu) / (3 * r ^ 2))⟩

/-- `centerline_stress` (`Hertz.py:209-234`): radial and normal stress. -/
noncomputable def centerline (nu z : ℝ) : ℝ × ℝ :=
  (-(1 + nu) * (1 - z * Real.arctan (1 / z)) + 1 / (2 * (1 + z ^ 2)), -1 / (1 + z ^ 2))

/-- `surface_displacements` at one distance (`Hertz.py:237-272`). -/
noncomputable def surfaceDisp (r : ℝ) : ℝ :=
  if r < 1 then -Real.pi * (2 - r ^ 2) / 4
  else (-(2 - r ^ 2) * Real.arcsin (1 / r) - r * √(1 - (1 / r) ^ 2)) / 2

/-- Stress components in cylindrical coordinates. -/
structure Cyl where
  tt : ℝ
  rr : ℝ
  zz : ℝ
  rz : ℝ

/-- `u` of `stress` (`Hertz.py:315-316`). -/
noncomputable def huberU (r z : ℝ) : ℝ := (r ^ 2 + z ^ 2 - 1) / 2 + √((r ^ 2 + z ^ 2 - 1) ^ 2 / 4 + z ^ 2)

/-- The substituted `r` (`Hertz.py:324`). -/
noncomputable def huberR (r z : ℝ) : ℝ := r / √(1 + huberU r z)

/-- The substituted `z` (`Hertz.py:325`). -/
noncomputable def huberZ (r z : ℝ) : ℝ := √(1 - huberR r z ^ 2)

/-- `sqrtu_arctan_inv_sqrtu` (`Hertz.py:317`, `328`); for `u = 0` NumPy computes `0 * arctan(inf) = 0`. -/
noncomputable def huberAt (r z : ℝ) : ℝ := √(huberU r z) * Real.arctan (1 / √(huberU r z))

/-- `one_minus_z3_div_r2` (`Hertz.py:334-336`). -/
noncomputable def huberOne (r z : ℝ) : ℝ := if 0 < huberR r z then (1 - huberZ r z ^ 3) / huberR r z ^ 2 else 3 / 2

/-- `z2_div_u_plus_z2` (`Hertz.py:339-341`). -/
noncomputable def huberQ (r z : ℝ) : ℝ := if 0 < huberU r z + huberZ r z ^ 2 then huberZ r z ^ 2 / (huberU r z + huberZ r z ^ 2) else 1

/-- `stress` at one point (`Hertz.py:275-356`). -/
noncomputable def stress (nu r z : ℝ) : Cyl where
  tt := -((1 - 2 * nu) / 3 * 1 / (1 + huberU r z) * huberOne r z +
    huberZ r z * (2 * nu + (1 - nu) * huberU r z / (1 + huberU r z) - (1 + nu) * huberAt r z))
  rr := - -((1 - 2 * nu) / 3 * 1 / (1 + huberU r z) * huberOne r z + huberZ r z * huberQ r z +
    huberZ r z * ((1 - nu) * huberU r z / (1 + huberU r z) + (1 + nu) * huberAt r z - 2))
  zz := -(huberZ r z * huberQ r z)
  rz := -(huberR r z * huberQ r z * √(huberU r z) / √(1 + huberU r z))

/-- Stress components in Cartesian coordinates, in the order of the results. -/
structure Cart where
  xx : ℝ
  yy : ℝ
  zz : ℝ
  yz : ℝ
  xz : ℝ
  xy : ℝ

/-- `np.arctan2(1, m)` for `m ≥ 0`. -/
noncomputable def arctan2one (m : ℝ) : ℝ := if m = 0 then Real.pi / 2 else Real.arctan (1 / m)

/-- `A` (`Hertz.py:382`). -/
def hamA (r2 z : ℝ) : ℝ := r2 + z ^ 2 - 1

/-- `S` (`Hertz.py:383`). -/
noncomputable def hamS (r2 z : ℝ) : ℝ := √(hamA r2 z ^ 2 + 4 * z ^ 2)

/-- `M` (`Hertz.py:385`). -/
noncomputable def hamM (r2 z : ℝ) : ℝ := √((hamS r2 z + hamA r2 z) / 2)

/-- `N` (`Hertz.py:386`). -/
noncomputable def hamN (r2 z : ℝ) : ℝ := √((hamS r2 z - hamA r2 z) / 2)

/-- `G` (`Hertz.py:389`). -/
def hamG (z M N : ℝ) : ℝ := M ^ 2 - N ^ 2 + z * M - N

/-- `H` (`Hertz.py:390`). -/
def hamH (z M N : ℝ) : ℝ := 2 * M * N + M + z * N

/-- `stress_offcenter` of `stress_Cartesian` (`Hertz.py:381-405`), with the intermediate quantities as arguments. -/
noncomputable def offcenter (nu x y z r2 A S M N phi : ℝ) : Cart where
  xx := (1 + nu) * z * phi + 1 / r2 * ((y ^ 2 - x ^ 2) / r2 * ((1 - nu) * N * z ^ 2 - (1 - 2 * nu) / 3 * (N * S + 2 * A * N + 1) - nu * M * z) -
    N * (x ^ 2 + 2 * nu * y ^ 2) - M * x ^ 2 * z / S)
  yy := (1 + nu) * z * phi + 1 / r2 * ((x ^ 2 - y ^ 2) / r2 * ((1 - nu) * N * z ^ 2 - (1 - 2 * nu) / 3 * (N * S + 2 * A * N + 1) - nu * M * z) -
    N * (y ^ 2 + 2 * nu * x ^ 2) - M * y ^ 2 * z / S)
  zz := -N + z * M / S
  yz := -z * (y * N / S - y * z * hamH z M N / (hamG z M N ^ 2 + hamH z M N ^ 2))
  xz := -z * (x * N / S - x * z * hamH z M N / (hamG z M N ^ 2 + hamH z M N ^ 2))
  xy := x * y * (1 - 2 * nu) / r2 ^ 2 * (-N * r2 + 2 / 3 * N * (S + 2 * A) - z * (z * N + M) + 2 / 3) +
    x * y * z / r2 ^ 2 * (-M * r2 / S - z * N + M)

/-- The branch on the axis (`Hertz.py:430-436`). -/
noncomputable def oncenter (nu z : ℝ) : Cart where
  xx := (1 + nu) * (z * arctan2one z - 1) + 1 / (2 * (1 + z ^ 2))
  yy := (1 + nu) * (z * arctan2one z - 1) + 1 / (2 * (1 + z ^ 2))
  zz := -1 / (1 + z ^ 2)
  yz := 0
  xz := 0
  xy := 0

/-- `stress_Cartesian` at one point (`Hertz.py:359-438`). -/
noncomputable def cartesian (nu x y z : ℝ) : Cart :=
  if 0 < x ^ 2 + y ^ 2 then
    offcenter nu x y z (x ^ 2 + y ^ 2) (hamA (x ^ 2 + y ^ 2) z) (hamS (x ^ 2 + y ^ 2) z) (hamM (x ^ 2 + y ^ 2) z) (hamN (x ^ 2 + y ^ 2) z)
      (arctan2one (hamM (x ^ 2 + y ^ 2) z))
  else oncenter nu z

/-- `stress_offcenter` of `stress_for_tangential_loading` (`Hertz.py:463-478`), with the intermediate quantities as arguments. -/
noncomputable def toffcenter (nu x y z r2 A S M N phi : ℝ) : Cart where
  xx := -x*(nu/4+1)*phi+x*M/r2^2*((3/2-2*x^2/r2)*(S*nu-2*A*nu+z^2)+x^2*z^2/S+7*nu*r2/4-2*nu*x^2+r2)+x*z*N/r2^2*((3/2-2*x^2/r2)*(-S/6*(1-2*nu)-A/3*(1-2*nu)-1/2*(z^2+3))+x^2/S-nu*r2/4-7*r2/4)+4*x*z/(3*r2^2)*(3/2-2*x^2/r2)*(1-2*nu)
  yy := -3*nu*x*phi/4+x*M/r2^2*((1/2-2*y^2/r2)*(nu*(S-2*A+r2)+z^2)+y^2*z^2/S+3/4*nu*r2)+z*x*N/r2^2*((1/2-2*y^2/r2)*(-S/6*(1-2*nu)-A/3*(1-2*nu)-z^2/2-3/2)+y^2/S-3/4*nu*r2-r2/4)+4/3*z*x/r2^2*(1/2-2*y^2/r2)*(1-2*nu)
  zz := z*x*N/(2*r2)*(1-(r2+z^2+1)/S)
  yz := x*y*z/(2*r2^2)*(M*(1/2+1/S*(z^2/2-3/2-r2/2))+z*N/2*(-3+1/S*(5+z^2+r2)))
  xz := 3*z*phi/2+z*M/r2*(1+x^2/r2-x^2/S)+N/r2*(-3/4*(S+2*A)+z^2-3/4-1/4*r2+z^2/2*(1/2-2*x^2/r2))
  xy := y/2*(nu/2-1)*phi+y*M/r2^2*(x^2*z^2/S+nu*((S-2*A)*(1/2-2*x^2/r2)-2*x^2+r2/4)+r2/2+z^2*(1/2-2*x^2/r2))+y*z*N/r2^2*((1/2-2*x^2/r2)*((2*nu-1)*(S/6+A/3)-z^2/2-3/2-r2/2)+r2*nu/4+x^2/S-y^2/2-3*x^2/2)+4*y*z/(3*r2^2)*(1/2-2*x^2/r2)*(1-2*nu)

/-- The branch on the axis (`Hertz.py:503-507`). -/
noncomputable def toncenter (z : ℝ) : Cart where
  xx := 0
  yy := 0
  zz := 0
  yz := 0
  xz := -1 + 3 / 2 * z * arctan2one z - z ^ 2 / (2 * (1 + z ^ 2))
  xy := 0

/-- `stress_for_tangential_loading` at one point (`Hertz.py:441-509`). -/
noncomputable def tangential (nu x y z : ℝ) : Cart :=
  if 0 < x ^ 2 + y ^ 2 then
    toffcenter nu x y z (x ^ 2 + y ^ 2) (hamA (x ^ 2 + y ^ 2) z) (hamS (x ^ 2 + y ^ 2) z) (hamM (x ^ 2 + y ^ 2) z) (hamN (x ^ 2 + y ^ 2) z)
      (arctan2one (hamM (x ^ 2 + y ^ 2) z))
  else toncenter z

end Hertz

namespace Westergaard

/-- `_map_x_on_0_05` (`Westergaard.py:52-53`). -/
noncomputable def fold (x : ℝ) : ℝ := |Int.fract (x + 1 / 2) - 1 / 2|

/-- The last lines of `_pressure`, for a folded position (`Westergaard.py:92-97`). -/
noncomputable def pressureAt (x psia : ℝ) : ℝ :=
  if Real.cos psia < Real.cos (Real.pi * x) then 2 * Real.cos (Real.pi * x) / Real.sin psia ^ 2 * √(Real.sin psia ^ 2 - Real.sin (Real.pi * x) ^ 2)
  else 0

/-- `_pressure` at one position (`Westergaard.py:56-97`). -/
noncomputable def pressure (x : ℝ) (contactRadius meanPressure : Option ℝ) : Except PyErr ℝ :=
  match contactRadius, meanPressure with
  | some a, _ => .ok (pressureAt (fold x) (Real.pi * a))
  | none, some p => .ok (pressureAt (fold x) (Real.arcsin √(p / Real.pi)))
  | none, none => .error .unboundLocal

/-- `chi1` (`Westergaard.py:136-141`). -/
noncomputable def chi1 (x a : ℝ) : ℝ := if a < x ∧ x < 1 - a then √(Real.sin (Real.pi * x) ^ 2 - Real.sin (Real.pi * a) ^ 2) else 0

/-- `chi2` (`Westergaard.py:136-142`). -/
noncomputable def chi2 (x a : ℝ) : ℝ :=
  if a < x ∧ x < 1 - a then Real.log ((Real.sin (Real.pi * x) + chi1 x a) / Real.sin (Real.pi * a)) else 0

/-- `displacements` at one position (`Westergaard.py:100-149`). -/
noncomputable def displacements (x a : ℝ) : ℝ :=
  -Real.sin (Real.pi * fold x) ^ 2 + chi1 (fold x) a * Real.sin (Real.pi * fold x) - Real.sin (Real.pi * a) ^ 2 * chi2 (fold x) a

/-- `gap` at one position (`Westergaard.py:152-167`). -/
noncomputable def gap (x a : ℝ) : ℝ := Real.sin (Real.pi * x) ^ 2 + displacements x a

/-- `np.log`: `none` stands for `-inf` and `nan`. -/
noncomputable def nlog (x : ℝ) : Option ℝ := if 0 < x then some (Real.log x) else none

/-- `mean_displacement` (`Westergaard.py:170-191`): `0 * log(0)` is `nan`. -/
noncomputable def meanDisplacement (a : ℝ) : Option ℝ := do
  let l ← nlog (Real.sin (Real.pi * a))
  pure (-1 / 2 + 1 / 2 * Real.cos (Real.pi * a) ^ 2 + Real.sin (Real.pi * a) ^ 2 * l)

/-- `elastic_energy` (`Westergaard.py:194-214`). -/
noncomputable def elasticEnergy (p : ℝ) : Except PyErr (Option ℝ) :=
  if p ≤ 1 then .ok (do
    let l ← nlog p
    pure ((1 / 4 - l / 2) * p ^ 2))
  else .error .assertionError

/-- `elastic_energy_a` (`Westergaard.py:217-234`). -/
noncomputable def elasticEnergyA (a : ℝ) : Option ℝ := do
  let l ← nlog (Real.sin (Real.pi * a) ^ 2)
  pure ((1 / 4 - l / 2) * Real.sin (Real.pi * a) ^ 4)

/-- `contact_radius` (`Westergaard.py:237-254`). -/
noncomputable def contactRadius (p : ℝ) : ℝ := 1 / Real.pi * Real.arcsin √p

/-- `mean_pressure` (`Westergaard.py:257-278`). -/
noncomputable def meanPressure (a : ℝ) : ℝ := Real.sin (Real.pi * a) ^ 2

end Westergaard

namespace Cone

/-- `beta` (`Cone.py:54`, `78`, `101`, `141`). -/
noncomputable def beta (alpha : ℝ) : ℝ := Real.pi / 2 - alpha

/-- `load_and_mean_pressure` (`Cone.py:36-57`). -/
noncomputable def loadAndMeanPressure (alpha : ℝ) : ℝ × ℝ := (Real.tan (beta alpha) / 2, Real.tan (beta alpha) / 2)

/-- `Ratio_contact_radius` (`Cone.py:79`, `102`, `142-143`). -/
noncomputable def radius (alpha : ℝ) : ℝ := 2 / (Real.pi * Real.tan (beta alpha))

/-- `contact_radius_and_area` (`Cone.py:60-81`). -/
noncomputable def radiusAndArea (alpha : ℝ) : ℝ × ℝ := (radius alpha, Real.pi * radius alpha)

/-- `np.max`: `ValueError` for an empty vector. -/
noncomputable def npmax : List ℝ → Except PyErr ℝ
  | [] => .error .valueError
  | x :: l => .ok (l.foldl max x)

/-- The value assigned last to one entry of `Ratio_Deformation` (`Cone.py:105-118`); `top` is the largest distance inside the contact. -/
noncomputable def deformationAt (alpha top r : ℝ) : ℝ :=
  if radius alpha ≤ r then 2 * (Real.arcsin (radius alpha / r) - r / radius alpha + √((r / radius alpha) ^ 2 - 1)) / Real.pi
  else (top - r) * Real.tan (beta alpha) + (1 - 2 / Real.pi)

/-- `deformation` (`Cone.py:84-120`). -/
noncomputable def deformation (ints : Bool) (l : List ℝ) (alpha : ℝ) : Except PyErr (List ℝ) := do
  let top ← npmax (l.filter fun r => decide (r ≤ radius alpha))
  pure (elementwise ints (deformationAt alpha top) l)

/-- `pressure` at one distance (`Cone.py:123-147`); `none` for `r = 0`, where the value is `inf`. -/
noncomputable def pressureAt (alpha r : ℝ) : Option ℝ :=
  if r ≤ radius alpha then (if r = 0 then none else some (Real.arcosh (radius alpha / r))) else some 0

end Cone

end CM.Ref
