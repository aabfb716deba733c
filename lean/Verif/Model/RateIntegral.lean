import Verif.Model.Integral
import Verif.Model.CrossSection
import Verif.Model.LossAxis
import Verif.Model.RootFinding

/-!
# Rates by integration and from tables

`/repo/src/PROPOSAL/detail/PROPOSAL/crosssection/CrossSectionDNDX/CrossSectionDNDXIntegral.cxx` and
`/repo/src/PROPOSAL/detail/PROPOSAL/crosssection/CrossSectionDNDX/CrossSectionDNDXInterpolant.cxx` with the integrations of
Integral.cxx. The integrand is the differential cross section at the energy. The bicubic spline and the search of
CubicInterpolation are parameters.
-/

namespace Proposal

/-- A new `Integral` object (Integral.cxx 319-373). The members without an initial value are arbitrary; they are set before use. -/
noncomputable def freshIntegral (junk : IState) : IState := { junk with done := false }

/-- The overloads of `define_dndx_integral` and `define_dndx_upper_lim`. -/
inductive RateKind where
  | general
  | ionization
  | photoPair
  | compton
  deriving DecidableEq

/-- The integrand over `t = log(1 - v)` (CrossSectionDNDXIntegral.cxx 54-57, 129-132). -/
noncomputable def overLog (σ : ℝ → ℝ) (t : ℝ) : ℝ := Real.exp t * σ (1 - Real.exp t)

/-- `define_dndx_integral` (CrossSectionDNDXIntegral.cxx 18-88). -/
noncomputable def RateKind.integral (Q : Quadrature) (junk : IState) (σ : ℝ → ℝ) (vMin vMax : ℝ) : RateKind → ℝ
  | .general => (Integrate Q (freshIntegral junk) vMin vMax σ 4 0).1
  | .ionization => (Integrate Q (freshIntegral junk) vMin vMax σ 3 1).1
  | .photoPair => (Integrate Q (freshIntegral junk) vMin vMax σ 3 0).1
  | .compton => (Integrate Q (freshIntegral junk) (Real.log (1 - vMax)) (Real.log (1 - vMin)) (overLog σ) 2 0).1

/-- What the search for a loss can do. -/
inductive LossOut where
  | loss (v : ℝ)
  | invalidArgument
  | mathError
  | notANumber

/-- `GetUpperLimit` after `IntegrateWithRandomRatio`; without an integral 0 is returned. -/
noncomputable def upperAfter (search : IState → Option ℝ) : Option (ℝ × IState) → LossOut
  | none => .invalidArgument
  | some r =>
    match getUpperLimit search r.2 with
    | .value x _ => .loss x
    | .noIntegral => .loss 0
    | .nan => .notANumber

/-- `define_dndx_upper_lim` (CrossSectionDNDXIntegral.cxx 89-137). -/
noncomputable def RateKind.upperLimit (Q : Quadrature) (search : IState → Option ℝ) (junk : IState) (σ : ℝ → ℝ)
    (vMin vMax rnd : ℝ) : RateKind → LossOut
  | .compton =>
    match upperAfter search (integrateRandom Q (freshIntegral junk) (Real.log (1 - vMin)) (Real.log (1 - vMax)) (overLog σ) 3
        rnd 0) with
    | .loss t => .loss (1 - Real.exp t)
    | o => o
  | _ => upperAfter search (integrateRandom Q (freshIntegral junk) vMin vMax σ 4 rnd 0)

/-- A `CrossSectionDNDXIntegral` (CrossSectionDNDX.h 13-29, CrossSectionDNDXIntegral.h 59-73): `diff E` is the differential cross
section at the energy. -/
structure RateCalc where
  kind : RateKind
  lim : ℝ → KinLim
  cut : Option Cut
  diff : ℝ → ℝ → ℝ

/-- `Calculate(energy, v)` (CrossSectionDNDXIntegral.cxx 146-152); `none`: the limit is not a number. -/
noncomputable def RateCalc.calculateTo (R : RateCalc) (Q : Quadrature) (junk : IState) (E v : ℝ) : Option ℝ :=
  match (integrationLimits R.cut (R.lim E) E).1 with
  | .fin a => some (if a < v then R.kind.integral Q junk (R.diff E) a v else 0)
  | _ => none

/-- `Calculate(energy)` (CrossSectionDNDXIntegral.cxx 140-144). -/
noncomputable def RateCalc.calculate (R : RateCalc) (Q : Quadrature) (junk : IState) (E : ℝ) : Option ℝ :=
  R.calculateTo Q junk E (R.lim E).vMax

/-- `GetUpperLimit(energy, rate)` (CrossSectionDNDXIntegral.cxx 154-159). -/
noncomputable def RateCalc.upperLimit (R : RateCalc) (Q : Quadrature) (search : IState → Option ℝ) (junk : IState) (E rate : ℝ) :
    LossOut :=
  match (integrationLimits R.cut (R.lim E) E).1 with
  | .fin a => R.kind.upperLimit Q search junk (R.diff E) a (R.lim E).vMax (-rate)
  | _ => .notANumber

/-! ## Tables -/

/-- A `CrossSectionDNDXInterpolant` (CrossSectionDNDXInterpolant.h 86-119). `table` is the spline, `find E rate` the search of
`cubic_splines::find_parameter` (`none` for `std::runtime_error`). -/
structure RateTable where
  axis : LossAxis
  lim : ℝ → KinLim
  cut : Option Cut
  lower : ℝ
  table : ℝ → ℝ → ℝ
  find : ℝ → ℝ → Option ℝ

open Classical in
/-- `evaluate_interpolant` (CrossSectionDNDXInterpolant.cxx 63-76), for a coordinate that is a number. -/
noncomputable def RateTable.evaluate (T : RateTable) (E x : ℝ) : ℝ :=
  if E < T.lower then 0 else if T.table E x < 0 then 0 else T.table E x

/-- `Calculate(energy)` (CrossSectionDNDXInterpolant.cxx 78-82). -/
noncomputable def RateTable.calculate (T : RateTable) (E : ℝ) : ℝ := T.evaluate E 1

open Classical in
/-- `Calculate(energy, v)` (CrossSectionDNDXInterpolant.cxx 84-89); `none`: the coordinate is not a number. -/
noncomputable def RateTable.calculateTo (T : RateTable) (E v : ℝ) : Option ℝ :=
  if E < T.lower then some 0
  else match (integrationLimits T.cut (T.lim E) E).1 with
    | .fin a => (T.axis.retransform a (T.lim E).vMax v).map (T.evaluate E)
    | _ => none

open Classical in
/-- `GetUpperLimit(energy, rate)` (CrossSectionDNDXInterpolant.cxx 91-120). -/
noncomputable def RateTable.upperLimit (T : RateTable) (E rate : ℝ) : LossOut :=
  if E < T.lower then .invalidArgument
  else match (integrationLimits T.cut (T.lim E) E).1 with
    | .fin a =>
      let b := (T.lim E).vMax
      let out (x : ℝ) : LossOut :=
        match T.axis.transform a b x with
        | some v => .loss v
        | none => .notANumber
      match T.find E rate with
      | some x => out x
      | none =>
        match T.axis.retransform a b a, T.axis.retransform a b b with
        | some x1, some x2 =>
          match bisection (fun x => T.table E x - rate) x1 x2 (1 / 10 ^ 6) 100 with
          | .ok p => out ((p.1 + p.2) / 2)
          | .error _ => .mathError
        | _, _ => .notANumber
    | _ => .notANumber

/-- The function a table is made of (`build_dndx_def`, CrossSectionDNDXInterpolant.h 77-81). -/
noncomputable def RateCalc.tabulated (R : RateCalc) (axis : LossAxis) (Q : Quadrature) (junk : IState) (E x : ℝ) : Option ℝ :=
  match (integrationLimits R.cut (R.lim E) E).1 with
  | .fin a => (axis.transform a (R.lim E).vMax x).bind (R.calculateTo Q junk E)
  | _ => none

end Proposal
