import Verif.Model.LaserRun
import Mathlib.Algebra.Group.ForwardDiff
import Mathlib.RingTheory.Polynomial.Pochhammer
import Mathlib.MeasureTheory.Integral.Gamma
import Mathlib.Analysis.SpecialFunctions.Gaussian.GaussianIntegral
import Mathlib.Analysis.SpecialFunctions.PolarCoord
import Mathlib.Analysis.SpecialFunctions.Integrals.Basic
import Mathlib.Tactic.LinearCombination
import Mathlib.Tactic.Linarith
import Mathlib.Tactic.FieldSimp
/-!
# Integrals over a laser beam

Norm of the Laguerre polynomials, integral over the transverse plane, mean over the phase.
-/
open MeasureTheory Set Real
namespace Verif.Laser

/-! ### the norm of the Laguerre polynomials -/

/-- alternating binomial sum of a rising product -/
theorem alt_sum (a p i : Nat) (hi : i ≤ p) :
    ∑ j ∈ Finset.range (p + 1), ((-1 : ℝ) ^ j * (p.choose j : ℝ)) * ((a + j + 1).ascFactorial i : ℝ) = if i = p then (-1) ^ p * (p.factorial : ℝ) else 0 := by
  set P : Polynomial ℝ := (ascPochhammer ℝ i).comp (Polynomial.X + Polynomial.C ((a : ℝ) + 1)) with hP
  have hd : P.natDegree = i := by
    rw [hP, Polynomial.natDegree_comp, ascPochhammer_natDegree, Polynomial.natDegree_X_add_C, mul_one]
  have hl : P.leadingCoeff = 1 := by
    rw [hP, Polynomial.leadingCoeff_comp (by rw [Polynomial.natDegree_X_add_C]; exact one_ne_zero), (monic_ascPochhammer ℝ i).leadingCoeff,
      (Polynomial.monic_X_add_C _).leadingCoeff, one_pow, one_mul]
  have he : ∀ j : Nat, P.eval (j : ℝ) = ((a + j + 1).ascFactorial i : ℝ) := by
    intro j
    rw [← ascPochhammer_nat_eq_natCast_ascFactorial, hP, Polynomial.eval_comp]
    simp only [Polynomial.eval_add, Polynomial.eval_X, Polynomial.eval_C]
    congr 1
    push_cast; ring
  have hs := fwdDiff_iter_eq_sum_shift (h := (1 : ℝ)) P.eval p (0 : ℝ)
  have hv : (fwdDiff (1 : ℝ))^[p] P.eval 0 = if i = p then (p.factorial : ℝ) else 0 := by
    split
    · rename_i h
      have := congrFun (Polynomial.fwdDiff_iter_degree_eq_factorial P) 0
      rw [hd, h] at this
      rw [this, hl]
      simp
    · rename_i h
      have := congrFun (Polynomial.fwdDiff_iter_eq_zero_of_degree_lt (P := P) (n := p) (by omega)) 0
      rw [this]; rfl
  rw [hv] at hs
  have e : ∀ j ∈ Finset.range (p + 1), ((-1 : ℝ) ^ j * (p.choose j : ℝ)) * ((a + j + 1).ascFactorial i : ℝ) =
      (-1) ^ p * (((-1 : ℤ) ^ (p - j) * (p.choose j : ℤ)) • P.eval (0 + j • (1 : ℝ))) := by
    intro j hj
    have hj' : j ≤ p := by have := Finset.mem_range.mp hj; omega
    rw [zero_add, nsmul_eq_mul, mul_one, he, zsmul_eq_mul]
    push_cast
    have : (-1 : ℝ) ^ p * (-1) ^ (p - j) = (-1) ^ j := by
      have h1 : (-1 : ℝ) ^ p = (-1) ^ (p - j) * (-1) ^ j := by rw [← pow_add]; congr 1; omega
      rw [h1]
      have h2 : ((-1 : ℝ) ^ (p - j)) * (-1) ^ (p - j) = 1 := by rw [← mul_pow]; norm_num
      linear_combination ((-1 : ℝ) ^ j) * h2
    linear_combination (-(p.choose j : ℝ) * ((a + j + 1).ascFactorial i : ℝ)) * this
  rw [Finset.sum_congr rfl e, ← Finset.mul_sum, ← hs]
  split <;> simp

/-- coefficient of `t ^ i` in the Laguerre polynomial -/
noncomputable def lc (p a i : Nat) : ℝ := (-1) ^ i * ((p + a).choose (p - i) : ℝ) / (i.factorial : ℝ)

theorem laguerre_eq (p a : Nat) (t : ℝ) : laguerre p a t = ∑ i ∈ Finset.range (p + 1), lc p a i * t ^ i := by
  unfold laguerre lc
  exact Finset.sum_congr rfl fun i _ => by ring

theorem lc_mul (p a i j : Nat) (hj : j ≤ p) :
    lc p a j * ((a + i + j).factorial : ℝ) =
      ((p + a).factorial : ℝ) / (p.factorial : ℝ) * (((-1 : ℝ) ^ j * (p.choose j : ℝ)) * ((a + j + 1).ascFactorial i : ℝ)) := by
  have h1 : ((a + j).factorial : ℝ) * ((a + j + 1).ascFactorial i : ℝ) = ((a + i + j).factorial : ℝ) := by
    rw [← Nat.cast_mul, Nat.factorial_mul_ascFactorial, show a + j + i = a + i + j by omega]
  have h2 : ((p + a).choose (p - j) : ℝ) * ((p - j).factorial : ℝ) * ((a + j).factorial : ℝ) = ((p + a).factorial : ℝ) := by
    have := Nat.choose_mul_factorial_mul_factorial (n := p + a) (k := p - j) (by omega)
    rw [show p + a - (p - j) = a + j by omega] at this
    exact_mod_cast this
  have h3 : (p.choose j : ℝ) * (j.factorial : ℝ) * ((p - j).factorial : ℝ) = (p.factorial : ℝ) := by
    exact_mod_cast Nat.choose_mul_factorial_mul_factorial hj
  have n1 : (j.factorial : ℝ) ≠ 0 := by exact_mod_cast j.factorial_ne_zero
  have n2 : (p.factorial : ℝ) ≠ 0 := by exact_mod_cast p.factorial_ne_zero
  have n3 : ((p - j).factorial : ℝ) ≠ 0 := by exact_mod_cast (p - j).factorial_ne_zero
  rw [← h1, ← h2]
  unfold lc
  have h4 : (p.choose j : ℝ) = (p.factorial : ℝ) / ((j.factorial : ℝ) * ((p - j).factorial : ℝ)) := by
    rw [← h3]; field_simp
  rw [h4]
  field_simp

/-- **norm of the Laguerre polynomials**, as a double sum of factorials -/
theorem laguerre_norm (p a : Nat) :
    ∑ i ∈ Finset.range (p + 1), ∑ j ∈ Finset.range (p + 1), lc p a i * lc p a j * ((a + i + j).factorial : ℝ) =
      ((p + a).factorial : ℝ) / (p.factorial : ℝ) := by
  have e : ∀ i ∈ Finset.range (p + 1), ∑ j ∈ Finset.range (p + 1), lc p a i * lc p a j * ((a + i + j).factorial : ℝ) =
      if i = p then ((p + a).factorial : ℝ) / (p.factorial : ℝ) else 0 := by
    intro i hi
    have hi' : i ≤ p := by have := Finset.mem_range.mp hi; omega
    have : ∀ j ∈ Finset.range (p + 1), lc p a i * lc p a j * ((a + i + j).factorial : ℝ) =
        lc p a i * (((p + a).factorial : ℝ) / (p.factorial : ℝ)) * (((-1 : ℝ) ^ j * (p.choose j : ℝ)) * ((a + j + 1).ascFactorial i : ℝ)) := by
      intro j hj
      rw [mul_assoc, lc_mul p a i j (by have := Finset.mem_range.mp hj; omega)]; ring
    rw [Finset.sum_congr rfl this, ← Finset.mul_sum, alt_sum a p i hi']
    split
    · rename_i h
      subst h
      unfold lc
      have n2 : (i.factorial : ℝ) ≠ 0 := by exact_mod_cast i.factorial_ne_zero
      have h2 : ((-1 : ℝ) ^ i) * (-1) ^ i = 1 := by rw [← mul_pow]; norm_num
      rw [Nat.sub_self, Nat.choose_zero_right, Nat.cast_one]
      field_simp
      linear_combination h2
    · simp
  rw [Finset.sum_congr rfl e, Finset.sum_ite_eq' (Finset.range (p + 1)) p]
  simp

/-! ### integrals over the plane -/

theorem radial_eq (b : ℝ) (n : Nat) (r : ℝ) (hr : 0 < r) :
    r * ((b * r ^ 2) ^ n * exp (-(b * r ^ 2))) = b ^ n * (r ^ ((2 * n + 1 : Nat) : ℝ) * exp (-b * r ^ (2 : ℝ))) := by
  rw [Real.rpow_natCast, show (2 : ℝ) = ((2 : Nat) : ℝ) by norm_num, Real.rpow_natCast, mul_pow, ← pow_mul, neg_mul]
  ring

theorem radial (b : ℝ) (hb : 0 < b) (n : Nat) :
    ∫ r in Ioi (0 : ℝ), r * ((b * r ^ 2) ^ n * exp (-(b * r ^ 2))) = (n.factorial : ℝ) / (2 * b) := by
  rw [setIntegral_congr_fun measurableSet_Ioi fun r hr => radial_eq b n r hr, integral_const_mul,
    integral_rpow_mul_exp_neg_mul_rpow (by norm_num) (by have : (0 : ℝ) ≤ ((2 * n + 1 : Nat) : ℝ) := Nat.cast_nonneg _; linarith) hb]
  have e1 : -(((2 * n + 1 : Nat) : ℝ) + 1) / 2 = -(((n + 1 : Nat)) : ℝ) := by push_cast; ring
  have e2 : (((2 * n + 1 : Nat) : ℝ) + 1) / 2 = (n : ℝ) + 1 := by push_cast; ring
  rw [e1, e2, Real.Gamma_nat_eq_factorial, Real.rpow_neg hb.le, Real.rpow_natCast, pow_succ]
  field_simp

theorem radial_int (b : ℝ) (hb : 0 < b) (n : Nat) : IntegrableOn (fun r : ℝ => r * ((b * r ^ 2) ^ n * exp (-(b * r ^ 2)))) (Ioi 0) := by
  have h := (integrableOn_rpow_mul_exp_neg_mul_rpow (p := 2) (s := ((2 * n + 1 : Nat) : ℝ)) (b := b)
    (by have : (0 : ℝ) ≤ ((2 * n + 1 : Nat) : ℝ) := Nat.cast_nonneg _; linarith) (by norm_num) hb).const_mul (b ^ n)
  exact IntegrableOn.congr_fun h (fun r hr => (radial_eq b n r hr).symm) measurableSet_Ioi

/-- radial integral of a Laguerre mode -/
theorem radial_mode (b : ℝ) (hb : 0 < b) (p a : Nat) :
    ∫ r in Ioi (0 : ℝ), r * ((b * r ^ 2) ^ a * laguerre p a (b * r ^ 2) ^ 2 * exp (-(b * r ^ 2))) =
      ((p + a).factorial : ℝ) / (p.factorial : ℝ) / (2 * b) := by
  have e : ∀ r : ℝ, r * ((b * r ^ 2) ^ a * laguerre p a (b * r ^ 2) ^ 2 * exp (-(b * r ^ 2))) =
      ∑ i ∈ Finset.range (p + 1), ∑ j ∈ Finset.range (p + 1),
        lc p a i * lc p a j * (r * ((b * r ^ 2) ^ (a + i + j) * exp (-(b * r ^ 2)))) := by
    intro r
    rw [laguerre_eq, sq (∑ i ∈ _, _), Finset.sum_mul_sum]
    simp only [Finset.mul_sum, Finset.sum_mul]
    refine Finset.sum_congr rfl fun i _ => Finset.sum_congr rfl fun j _ => ?_
    rw [pow_add, pow_add]; ring
  simp_rw [e]
  rw [integral_finsetSum _ fun i _ => integrable_finsetSum _ fun j _ => (radial_int b hb _).const_mul _]
  simp_rw [integral_finsetSum _ fun j _ => (radial_int b hb _).const_mul _, integral_const_mul, radial b hb]
  rw [← laguerre_norm p a, Finset.sum_div]
  refine Finset.sum_congr rfl fun i _ => ?_
  rw [Finset.sum_div]
  exact Finset.sum_congr rfl fun j _ => by ring

/-- integral over the plane of a function of the distance -/
theorem plane_integral (F : ℝ → ℝ) :
    ∫ q : ℝ × ℝ, F (sqrt (q.1 ^ 2 + q.2 ^ 2)) = 2 * π * ∫ r in Ioi (0 : ℝ), r * F r := by
  rw [← integral_comp_polarCoord_symm]
  have e : ∀ q ∈ polarCoord.target, q.1 • F (sqrt ((polarCoord.symm q).1 ^ 2 + (polarCoord.symm q).2 ^ 2)) = (q.1 * F q.1) * 1 := by
    intro q hq
    have h0 : 0 < q.1 := hq.1
    rw [polarCoord_symm_apply]
    have : (q.1 * cos q.2) ^ 2 + (q.1 * sin q.2) ^ 2 = q.1 ^ 2 := by linear_combination q.1 ^ 2 * Real.sin_sq_add_cos_sq q.2
    simp only [this, sqrt_sq h0.le, smul_eq_mul, mul_one]
  rw [setIntegral_congr_fun polarCoord.open_target.measurableSet e, polarCoord_target, Measure.volume_eq_prod,
    setIntegral_prod_mul (fun r => r * F r) (fun _ => (1 : ℝ))]
  simp only [integral_const, MeasurableSet.univ, measureReal_restrict_apply, univ_inter, Real.volume_real_Ioo, smul_eq_mul, mul_one]
  rw [max_eq_left (by linarith [pi_pos])]
  ring

/-- mean of a polarised field over its phase -/
theorem phase_mean (amp th pol ell : ℝ) :
    1 / (2 * π) * ∫ χ in (0 : ℝ)..(2 * π), ((polarise amp (th + χ) pol ell).1 ^ 2 + (polarise amp (th + χ) pol ell).2 ^ 2) = amp ^ 2 / 2 := by
  have hn : Real.sqrt (1 + ell ^ 2) ^ 2 = 1 + ell ^ 2 := Real.sq_sqrt (by positivity)
  have hp : 0 < Real.sqrt (1 + ell ^ 2) := Real.sqrt_pos.mpr (by positivity)
  have e : ∀ χ : ℝ, (polarise amp (th + χ) pol ell).1 ^ 2 + (polarise amp (th + χ) pol ell).2 ^ 2 =
      amp ^ 2 / (1 + ell ^ 2) * (sin (th + χ) ^ 2 + ell ^ 2 * cos (th + χ) ^ 2) := by
    intro χ
    rw [← hn]
    have h1 := Real.sin_sq_add_cos_sq pol
    unfold polarise
    field_simp
    linear_combination amp ^ 2 * (Real.sin (th + χ) ^ 2 + ell ^ 2 * Real.cos (th + χ) ^ 2) * h1
  simp_rw [e]
  rw [intervalIntegral.integral_const_mul, intervalIntegral.integral_add (by apply Continuous.intervalIntegrable; fun_prop)
    (by apply Continuous.intervalIntegrable; fun_prop), intervalIntegral.integral_const_mul,
    intervalIntegral.integral_comp_add_left (fun x => sin x ^ 2) th, intervalIntegral.integral_comp_add_left (fun x => cos x ^ 2) th,
    integral_sin_sq, integral_cos_sq]
  simp only [add_zero, Real.sin_add_two_pi, Real.cos_add_two_pi]
  have := pi_pos
  field_simp
  ring

end Verif.Laser
