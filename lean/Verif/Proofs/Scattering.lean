import Verif.Model.Coulomb
import Mathlib.Analysis.SpecialFunctions.Integrals.Basic
import Mathlib.Analysis.SpecialFunctions.Sqrt
import Mathlib.Analysis.SpecialFunctions.ExpDeriv
import Mathlib.Analysis.Complex.Exponential
/-!
# Mean cosine of the scattering angle
-/
namespace Verif.Scattering
open Verif.Coulomb

/-- `alpha` (utils.py 145) -/
noncomputable def alpha (s : ℝ) : ℝ := 37 / 100 * s - 5 / 1000 * s ^ 2 - 64 / 10000 * s ^ 3

theorem alpha_mono {s t : ℝ} (h0 : 0 ≤ s) (h : s ≤ t) (h4 : t ≤ 4) : alpha s ≤ alpha t := by
  unfold alpha
  have h1 : s + t ≤ 8 := by linarith
  have h2 : s ^ 2 + s * t + t ^ 2 ≤ 48 := by nlinarith
  have : 0 ≤ (t - s) * (37 / 100 - 5 / 1000 * (s + t) - 64 / 10000 * (s ^ 2 + s * t + t ^ 2)) :=
    mul_nonneg (by linarith) (by linarith)
  nlinarith

theorem alpha_strict {s t : ℝ} (h0 : 0 ≤ s) (h : s < t) (h4 : t ≤ 4) : alpha s < alpha t := by
  unfold alpha
  have h1 : s + t ≤ 8 := by linarith
  have h2 : s ^ 2 + s * t + t ^ 2 ≤ 48 := by nlinarith
  have : 0 < (t - s) * (37 / 100 - 5 / 1000 * (s + t) - 64 / 10000 * (s ^ 2 + s * t + t ^ 2)) :=
    mul_pos (by linarith) (by linarith)
  nlinarith

theorem alpha_range {s : ℝ} (h0 : 0 ≤ s) (h4 : s ≤ 4) : 0 ≤ alpha s ∧ alpha s < 1 := by
  have h1 := alpha_mono le_rfl h0 h4
  have h2 := alpha_mono h0 h4 le_rfl
  have e0 : alpha 0 = 0 := by norm_num [alpha]
  have e4 : alpha 4 < 1 := by norm_num [alpha]
  constructor <;> linarith

/-- the mean cosine as a function of `alpha` -/
noncomputable def meanOf (a : ℝ) : ℝ := 1 - 4 * a * (2 + a) / (3 * (1 + a) ^ 2)

theorem meanOf_strict {a b : ℝ} (h0 : 0 ≤ a) (h : a < b) : meanOf b < meanOf a := by
  unfold meanOf
  have h1 : 0 < 3 * (1 + a) ^ 2 := by positivity
  have h2 : 0 < 3 * (1 + b) ^ 2 := by have : 0 ≤ b := by linarith
                                      positivity
  have : 4 * a * (2 + a) / (3 * (1 + a) ^ 2) < 4 * b * (2 + b) / (3 * (1 + b) ^ 2) := by
    rw [div_lt_div_iff₀ h1 h2]
    nlinarith [mul_pos (sub_pos.mpr h) (by linarith : (0 : ℝ) < 2 + a + b)]
  linarith

theorem integral_root {a : ℝ} (h0 : 0 < a) (h1 : a < 1) :
    ∫ U in (0 : ℝ)..1, a * U / √((1 - U) + a * a * U) = 2 * a * (2 + a) / (3 * (1 + a) ^ 2) := by
  have hb : 0 < 1 - a ^ 2 := by nlinarith
  have pos : ∀ U ∈ Set.uIcc (0 : ℝ) 1, 0 < (1 - U) + a * a * U := by
    intro U hU
    rw [Set.uIcc_of_le zero_le_one] at hU
    have h := hU.1
    have h' := hU.2
    nlinarith [mul_pos h0 h0, mul_nonneg (by linarith : (0 : ℝ) ≤ 1 - U) hb.le]
  have hd : ∀ U ∈ Set.uIcc (0 : ℝ) 1,
      HasDerivAt (fun U => -(2 * a / (3 * (1 - a ^ 2) ^ 2)) * ((2 + (1 - a ^ 2) * U) * √((1 - U) + a * a * U)))
        (a * U / √((1 - U) + a * a * U)) U := by
    intro U hU
    have hp := pos U hU
    have hs := Real.sqrt_pos.mpr hp
    have d1 : HasDerivAt (fun U : ℝ => (1 - U) + a * a * U) (-1 + a * a) U := by
      have := ((hasDerivAt_id' U).const_sub 1).add ((hasDerivAt_id' U).const_mul (a * a))
      rw [mul_one] at this
      exact this
    have d2 := d1.sqrt hp.ne'
    have d3 : HasDerivAt (fun U : ℝ => 2 + (1 - a ^ 2) * U) (1 - a ^ 2) U := by
      simpa using ((hasDerivAt_id U).const_mul (1 - a ^ 2)).const_add 2
    refine ((d3.mul d2).const_mul (-(2 * a / (3 * (1 - a ^ 2) ^ 2)))).congr_deriv ?_
    have e : √((1 - U) + a * a * U) ^ 2 = (1 - U) + a * a * U := Real.sq_sqrt hp.le
    generalize √((1 - U) + a * a * U) = r at *
    field_simp
    rw [e]
    ring
  have hc : ContinuousOn (fun U : ℝ => a * U / √((1 - U) + a * a * U)) (Set.uIcc 0 1) := by
    refine ContinuousOn.div (by fun_prop) (by fun_prop) fun U hU => ?_
    exact (Real.sqrt_pos.mpr (pos U hU)).ne'
  rw [intervalIntegral.integral_eq_sub_of_hasDerivAt hd hc.intervalIntegrable]
  have e1 : √((1 - (1 : ℝ)) + a * a * 1) = a := by
    rw [show (1 - (1 : ℝ)) + a * a * 1 = a * a by ring, Real.sqrt_mul_self h0.le]
  have e0 : √((1 - (0 : ℝ)) + a * a * 0) = 1 := by simp
  simp only [e1, e0]
  have f : (1 - a ^ 2) = (1 - a) * (1 + a) := by ring
  have h2 : 1 - a ≠ 0 := by linarith
  have h3 : 1 + a ≠ 0 := by linarith
  rw [f]
  field_simp
  ring

theorem integral_cos {s : ℝ} (h0 : 0 ≤ s) : ∫ U in (0 : ℝ)..1, (angle s U).1 = if s < 4 then meanOf (alpha s) else 0 := by
  split
  next h4 =>
    obtain ⟨ha, ha1⟩ := alpha_range h0 h4.le
    have e : ∀ U, (angle s U).1 = 1 - 2 * (alpha s * U / √((1 - U) + alpha s * alpha s * U)) := by
      intro U
      unfold angle alpha
      rw [if_pos h4]
    simp only [e]
    rcases eq_or_lt_of_le ha with h | h
    · rw [← h]
      simp [meanOf]
    · have hint : IntervalIntegrable (fun U : ℝ => alpha s * U / √((1 - U) + alpha s * alpha s * U)) MeasureTheory.volume 0 1 := by
        refine ContinuousOn.intervalIntegrable (ContinuousOn.div (by fun_prop) (by fun_prop) fun U hU => ?_)
        rw [Set.uIcc_of_le zero_le_one] at hU
        have h1 := hU.1
        have h2 := hU.2
        refine (Real.sqrt_pos.mpr ?_).ne'
        nlinarith [mul_pos h h, mul_nonneg (by linarith : (0 : ℝ) ≤ 1 - U) (by nlinarith : 0 ≤ 1 - alpha s ^ 2)]
      rw [intervalIntegral.integral_sub (by simp) (hint.const_mul 2), intervalIntegral.integral_const_mul, integral_root h ha1]
      unfold meanOf
      simp
      ring
  next h4 =>
    have e : ∀ U, (angle s U).1 = 2 * U - 1 := by
      intro U
      unfold angle
      rw [if_neg h4]
    simp only [e]
    have hi : IntervalIntegrable (fun U : ℝ => 2 * U) MeasureTheory.volume 0 1 := Continuous.intervalIntegrable (by fun_prop) _ _
    rw [intervalIntegral.integral_sub hi (by simp),
      intervalIntegral.integral_const_mul, integral_id]
    norm_num

theorem angle_integrable {s : ℝ} (h0 : 0 ≤ s) : IntervalIntegrable (fun U => (angle s U).1) MeasureTheory.volume 0 1 := by
  by_cases h4 : s < 4
  · obtain ⟨ha, ha1⟩ := alpha_range h0 h4.le
    have e : ∀ U, (angle s U).1 = 1 - 2 * (alpha s * U / √((1 - U) + alpha s * alpha s * U)) := by
      intro U
      unfold angle alpha
      rw [if_pos h4]
    simp only [e]
    rcases eq_or_lt_of_le ha with h | h
    · rw [← h]
      simp
    · refine ContinuousOn.intervalIntegrable ?_
      refine ContinuousOn.sub continuousOn_const (ContinuousOn.mul continuousOn_const
        (ContinuousOn.div (by fun_prop) (by fun_prop) fun U hU => ?_))
      rw [Set.uIcc_of_le zero_le_one] at hU
      have h1 := hU.1
      have h2 := hU.2
      refine (Real.sqrt_pos.mpr ?_).ne'
      nlinarith [mul_pos h h, mul_nonneg (by linarith : (0 : ℝ) ≤ 1 - U) (by nlinarith : 0 ≤ 1 - alpha s ^ 2)]
  · have e : ∀ U, (angle s U).1 = 2 * U - 1 := by
      intro U
      unfold angle
      rw [if_neg h4]
    simp only [e]
    exact Continuous.intervalIntegrable (by fun_prop) _ _

/-! ## Distance to the exponential function -/

/-- rational bounds of `exp (-1/100)` -/
def up : ℚ := 20000 / 20201
def low : ℚ := 1 / (1 + 1 / 100 + 1 / 20000 + 1 / 1000000 * 4 / 18)

theorem up_bound : Real.exp (-(1 / 100)) ≤ (up : ℝ) := by
  have h := Real.quadratic_le_exp_of_nonneg (x := 1 / 100) (by norm_num)
  rw [Real.exp_neg]
  have : ((up : ℚ) : ℝ) = (1 + 1 / 100 + (1 / 100) ^ 2 / 2)⁻¹ := by norm_num [up]
  rw [this]
  exact inv_anti₀ (by norm_num) h

theorem low_bound : (low : ℝ) ≤ Real.exp (-(1 / 100)) := by
  have h := Real.exp_bound' (x := 1 / 100) (by norm_num) (by norm_num) (n := 3) (by norm_num)
  norm_num [Finset.sum_range_succ, Nat.factorial] at h
  rw [Real.exp_neg]
  have : ((low : ℚ) : ℝ) = (2272613 / 2250000)⁻¹ := by norm_num [low]
  rw [this]
  exact inv_anti₀ (Real.exp_pos _) h

/-- `meanOf (alpha (k / 100))` as a rational number -/
def meanQ (k : Nat) : ℚ :=
  let s : ℚ := (k : ℚ) / 100
  let a := 37 / 100 * s - 5 / 1000 * s ^ 2 - 64 / 10000 * s ^ 3
  1 - 4 * a * (2 + a) / (3 * (1 + a) ^ 2)

theorem meanQ_eq (k : Nat) : ((meanQ k : ℚ) : ℝ) = meanOf (alpha ((k : ℝ) / 100)) := by
  simp only [meanQ, meanOf, alpha]
  push_cast
  ring

def near (k : Nat) : Bool := decide (meanQ k ≤ low ^ (k + 1) + 1 / 40) && decide (up ^ k ≤ meanQ (k + 1) + 1 / 40)

theorem near_all : ∀ k < 400, near k = true := by decide +kernel

theorem near_exp {s : ℝ} (h0 : 0 ≤ s) (h4 : s < 4) : |meanOf (alpha s) - Real.exp (-s)| ≤ 1 / 40 := by
  have hk : (⌊s * 100⌋₊ : ℝ) ≤ s * 100 := Nat.floor_le (by positivity)
  have hk1 : s * 100 < (⌊s * 100⌋₊ : ℝ) + 1 := Nat.lt_floor_add_one _
  have hk4 : ⌊s * 100⌋₊ < 400 := (Nat.floor_lt (by positivity)).mpr (by push_cast; linarith)
  have hk4' : ((⌊s * 100⌋₊ : Nat) : ℝ) + 1 ≤ 400 := by exact_mod_cast hk4
  have hn := near_all _ hk4
  generalize ⌊s * 100⌋₊ = k at *
  simp only [near, Bool.and_eq_true, decide_eq_true_eq] at hn
  obtain ⟨n1, n2⟩ := hn
  have hk0 : (0 : ℝ) ≤ (k : ℝ) / 100 := by positivity
  have m1 : meanOf (alpha s) ≤ meanOf (alpha ((k : ℝ) / 100)) := by
    rcases eq_or_lt_of_le (show (k : ℝ) / 100 ≤ s by linarith) with h | h
    · rw [h]
    · exact (meanOf_strict (alpha_range hk0 (by linarith)).1 (alpha_strict hk0 h h4.le)).le
  have m2 : meanOf (alpha (((k + 1 : Nat) : ℝ) / 100)) ≤ meanOf (alpha s) :=
    (meanOf_strict (alpha_range h0 h4.le).1 (alpha_strict h0 (by push_cast; linarith) (by push_cast; linarith))).le
  have e1 : Real.exp (-s) ≤ (up : ℝ) ^ k := by
    have : Real.exp (-(1 / 100)) ^ k = Real.exp (-((k : ℝ) / 100)) := by rw [← Real.exp_nat_mul]; congr 1; ring
    refine le_trans ?_ (pow_le_pow_left₀ (Real.exp_nonneg _) up_bound k)
    rw [this]
    exact Real.exp_le_exp.mpr (by linarith)
  have e2 : (low : ℝ) ^ (k + 1) ≤ Real.exp (-s) := by
    have : Real.exp (-(1 / 100)) ^ (k + 1) = Real.exp (-(((k : ℝ) + 1) / 100)) := by
      rw [← Real.exp_nat_mul]; congr 1; push_cast; ring
    refine (pow_le_pow_left₀ (by norm_num [low]) low_bound (k + 1)).trans ?_
    rw [this]
    exact Real.exp_le_exp.mpr (by linarith)
  have n1' : ((meanQ k : ℚ) : ℝ) ≤ (low : ℝ) ^ (k + 1) + 1 / 40 := by
    have := (Rat.cast_le (K := ℝ)).mpr n1
    push_cast at this
    exact this
  have n2' : (up : ℝ) ^ k ≤ ((meanQ (k + 1) : ℚ) : ℝ) + 1 / 40 := by
    have := (Rat.cast_le (K := ℝ)).mpr n2
    push_cast at this
    exact this
  rw [meanQ_eq] at n1' n2'
  rw [abs_le]
  constructor <;> linarith

end Verif.Scattering
