import Verif.Model.Interpolant
import Verif.Model.PhotonCross

/-!
# The table of Rhode's parametrization

`PhotoproductionRhode` with its interpolant. The table is the vectors in the constructor.
-/

namespace Proposal

/-- `x` in `PhotoproductionRhode::PhotoproductionRhode` (Photoproduction.cxx 175-182). -/
noncomputable def rhodeX : List ℝ :=
  [0, 0.1, 0.144544, 0.20893, 0.301995, 0.436516,
   0.630957, 0.912011, 1.31826, 1.90546, 2.75423, 3.98107, 5.7544, 8.31764,
   12.0226, 17.378, 25.1189, 36.3078, 52.4807, 75.8577, 109.648, 158.489,
   229.087, 331.131, 478.63, 691.831, 1000, 1445.44, 2089.3, 3019.95,
   4365.16, 6309.58, 9120.12, 13182.6, 19054.6, 27542.3, 39810.8, 57544,
   83176.4, 120226, 173780, 251188, 363078, 524807, 758576, 1.09648e6,
   1.58489e6, 2.29086e6, 3.3113e6, 4.78628e6, 6.91828e6,
   9.99996e6]

/-- `y` in `PhotoproductionRhode::PhotoproductionRhode` (Photoproduction.cxx 184-190). -/
noncomputable def rhodeY : List ℝ :=
  [0, 0.0666667, 0.0963626, 159.74, 508.103, 215.77,
   236.403, 201.919, 151.381, 145.407, 132.096, 128.546, 125.046, 121.863,
   119.16, 117.022, 115.496, 114.607, 114.368, 114.786, 115.864, 117.606,
   120.011, 123.08, 126.815, 131.214, 136.278, 142.007, 148.401, 155.46,
   163.185, 171.574, 180.628, 190.348, 200.732, 211.782, 223.497, 235.876,
   248.921, 262.631, 277.006, 292.046, 307.751, 324.121, 341.157, 358.857,
   377.222, 396.253, 415.948, 436.309, 457.334, 479.025]

/-- `interpolant_` after the constructor (Photoproduction.cxx 192). -/
noncomputable def rhodeInterp : Except ItpErr Interp := interpOfArrays rhodeX rhodeY 4 false

open Classical in
/-- `PhotoproductionRhode::PhotonNucleonCrossSection` (Photoproduction.cxx 201-212) with the interpolant before and after the call. -/
noncomputable def rhodeCall (I : Interp) (E : ℝ) (c : Component) : Except ItpErr (ℝ × Interp) :=
  if E < pionThreshold c then .ok (0, I)
  else
    let ν := E * 1e-3
    if ν ≤ 0.1 then .ok (0, I)
    else if ν ≤ 200 then do
      let r ← I.interpolateArray ν
      return (max r.1 0, r.2)
    else .ok (caldwell E c, I)

end Proposal
