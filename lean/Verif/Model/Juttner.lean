import Mathlib.Probability.Distributions.Gamma
/-!
# Thermal energies: `SetTemperature.sample_maxwell_juttner` as a program that draws random numbers

callback/utils.py 973-1039. `Model/Momenta.lean` models the same function for every outcome of the generator; here the
numbers have their laws, and a program that ends in a number `K` is given by the mean of `K` (as in `Model/Rates.lean`).
-/
namespace Verif.Juttner
open MeasureTheory ProbabilityTheory
open scoped ENNReal

/-- the law of `rand_gen.uniform(lo, hi)` -/
noncomputable def uniformLaw (lo hi : ℝ) : Measure ℝ := (ENNReal.ofReal (hi - lo))⁻¹ • volume.restrict (Set.Ico lo hi)

/-- the law of `scipy.stats.gamma(a=a, scale=theta).rvs` (utils.py 1000, 1028): density proportional to
`x^(a-1) exp(-x/theta)` on the positive numbers -/
noncomputable def gammaLaw (a theta : ℝ) : Measure ℝ := gammaMeasure a (1 / theta)

/-- a way to propose and accept numbers: the law of the proposals, the law of the number `v` they are compared with, and the
condition to accept -/
structure Trial where
  prop : Measure ℝ
  vlaw : Measure ℝ
  ok : ℝ → ℝ → Prop

open Classical in
/-- one proposal: `K x` comes of the accepted number `x`, `Kn` of a rejected one -/
noncomputable def trial (T : Trial) (K : ℝ → ℝ≥0∞) (Kn : ℝ≥0∞) : ℝ≥0∞ :=
  ∫⁻ x, ∫⁻ v, (if T.ok x v then K x else Kn) ∂T.vlaw ∂T.prop

/-- `n` proposals; `K` comes of the list of the accepted ones, `gamma_prop[accept]` (utils.py 1018-1021, 1032-1035).
Simplification: the code draws all proposals of a round before it draws the numbers they are compared with; here they are
drawn in pairs. All are independent. -/
noncomputable def round (T : Trial) : Nat → (List ℝ → ℝ≥0∞) → ℝ≥0∞
  | 0, K => K []
  | n + 1, K => trial T (fun x => round T n fun l => K (x :: l)) (round T n K)

/-- `while count < size` (utils.py 1016-1025, 1030-1039) with at most `fuel` rounds, `m` numbers missing; 0 comes of a loop
that has not ended -/
noncomputable def loop (T : Trial) : (fuel : Nat) → (m : Nat) → (List ℝ → ℝ≥0∞) → ℝ≥0∞
  | 0, m, K => if m = 0 then K [] else 0
  | f + 1, m, K =>
    if m = 0 then K [] else round T m fun l => loop T f (m - l.length) fun l' => K (l ++ l')

/-- `m` numbers of one law, independent of each other: `rvs(size=m)` -/
noncomputable def iid (μ : Measure ℝ) : Nat → (List ℝ → ℝ≥0∞) → ℝ≥0∞
  | 0, K => K []
  | m + 1, K => ∫⁻ x, iid μ m (fun l => K (x :: l)) ∂μ

/-- `maxwell_juttner_pdf` (utils.py 973-984); `k2` is the Bessel function `kn(2, 1/theta)` -/
noncomputable def pdf (k2 theta g : ℝ) : ℝ := g ^ 2 * Real.sqrt (1 - 1 / g ^ 2) / (theta * k2) * Real.exp (-g / theta)

/-- the middle range (utils.py 1004-1021); `top` is `M` -/
noncomputable def mid (k2 top theta : ℝ) : Trial where
  prop := uniformLaw 1 (1 + 10 * theta)
  vlaw := uniformLaw 0 top
  ok x v := v < pdf k2 theta x

/-- the high range (utils.py 1027-1035) -/
noncomputable def high (theta : ℝ) : Trial where
  prop := gammaLaw 3 theta
  vlaw := uniformLaw 0 1
  ok x v := v < Real.sqrt (1 - 1 / x ^ 2) ∧ 1 ≤ x

/-- the `gamma` of `sample_maxwell_juttner` (utils.py 998-1039) -/
noncomputable def energies (k2 top theta : ℝ) (fuel size : Nat) (K : List ℝ → ℝ≥0∞) : ℝ≥0∞ :=
  if theta ≤ 1 / 100 then iid (gammaLaw (3 / 2) theta) size fun l => K (l.map (· + 1))
  else if theta ≤ 1 / 2 then loop (mid k2 top theta) fuel size K
  else loop (high theta) fuel size K

/-- `ux`, `uy`, `uz` of a particle with Lorentz factor `g` and the random numbers `phi`, `costheta` (utils.py 1041-1047) -/
noncomputable def momentum (g phi c : ℝ) : Fin 3 → ℝ
  | 0 => Real.sqrt (g ^ 2 - 1) * Real.sqrt (1 - c ^ 2) * Real.cos phi
  | 1 => Real.sqrt (g ^ 2 - 1) * Real.sqrt (1 - c ^ 2) * Real.sin phi
  | 2 => Real.sqrt (g ^ 2 - 1) * c

/-- the mean over `phi = rand_gen.uniform(0, 2*np.pi)` and `costheta = rand_gen.uniform(-1, 1)` (utils.py 1042, 1043) -/
noncomputable def dirMean (f : ℝ → ℝ → ℝ) : ℝ := ∫ phi, ∫ c, f phi c ∂uniformLaw (-1) 1 ∂uniformLaw 0 (2 * Real.pi)

end Verif.Juttner
