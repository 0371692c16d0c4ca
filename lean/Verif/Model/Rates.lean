import Mathlib.Analysis.SpecialFunctions.Log.Basic
import Mathlib.MeasureTheory.Measure.Lebesgue.Basic
/-!
# Random events of a particle in the course of a run

The loop bodies of `update_tau_e` and `update_tau_gamma` (core/qed/optical_depth.py 38-130) for one particle, step after
step, as programs that draw random numbers. A program that ends in a number `K` is given by the mean of `K`: every
`random.rand()` is an integral over [0, 1). With `K` = 1 on some outcomes and 0 on the others it is the probability of
these outcomes.
-/
namespace Verif.Rates
open MeasureTheory
open scoped ENNReal

/-- `random.rand()` (optical_depth.py 71, 76 and optical_depth_tables.py 71): a number from [0, 1), all equally likely,
independent of everything before. `K u` is what comes of it. -/
noncomputable def draw (K : ℝ → ℝ≥0∞) : ℝ≥0∞ := ∫⁻ u in Set.Ico (0 : ℝ) 1, K u

/-- `-log(1 - random.rand())` (optical_depth.py 71, 76, 120, 125) -/
noncomputable def drawDepth (K : ℝ → ℝ≥0∞) : ℝ≥0∞ := draw fun u => K (-Real.log (1 - u))

/-- A particle with everything around it. `active` says that it is alive with `chi` at or above the threshold
(optical_depth.py 63, 112), `lam` is `integ_prob_rate * dtau` (67-68, 73), `sample` the fraction the table gives for a
random number (78). `quiet` and `hit` are all that happens until the next call, without and with an event and its
fraction; both may depend on anything, for example recoil on the fraction. -/
structure Env (Ω : Type) where
  active : Ω → Bool
  lam : Ω → ℝ
  sample : Ω → ℝ → ℝ
  quiet : Ω → Ω
  hit : Ω → ℝ → Ω

variable {Ω : Type} (E : Env Ω)

/-- lines 73-81 of optical_depth.py (122-130 for photons) with the depth `t0`: `fires t` is `t < 0` for electrons and
`t <= 0` for photons; `next w t` is the rest of the run -/
noncomputable def afterSet (fires : ℝ → Bool) (next : Ω → ℝ → ℝ≥0∞) (w : Ω) (t0 : ℝ) : ℝ≥0∞ :=
  let t := t0 - E.lam w
  if fires t then drawDepth fun t' => draw fun v => next (E.hit w (E.sample w v)) t'
  else next (E.quiet w) t

/-- one call for one particle (optical_depth.py 62-81, 111-130). Simplification: a depth that is NaN is written as 0;
the code takes both for "not set". -/
noncomputable def oneStep (fires : ℝ → Bool) (next : Ω → ℝ → ℝ≥0∞) (w : Ω) (tau : ℝ) : ℝ≥0∞ :=
  if E.active w then
    if tau = 0 then drawDepth fun t0 => afterSet E fires next w t0
    else afterSet E fires next w tau
  else next (E.quiet w) tau

/-- `n` steps of a run (optical_depth.py 38-130 called from simulation/simulation.py 1008-1016): the mean of `K` at the
end, from the depth `tau` -/
noncomputable def run (fires : ℝ → Bool) (K : Ω → ℝ≥0∞) : Nat → Ω → ℝ → ℝ≥0∞
  | 0, w, _ => K w
  | n + 1, w, tau => oneStep E fires (run fires K n) w tau

/-- electrons: `tau_e[ip] < 0` (optical_depth.py 75) -/
noncomputable def firesE (t : ℝ) : Bool := decide (t < 0)
/-- photons: `tau_gamma[ip] <= 0` (optical_depth.py 124) -/
noncomputable def firesGamma (t : ℝ) : Bool := decide (t ≤ 0)

end Verif.Rates
