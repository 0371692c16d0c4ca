import Verif.Proofs.Juttner
import Mathlib.Analysis.SpecialFunctions.Gaussian.GaussianIntegral
import Mathlib.MeasureTheory.Integral.IntegralEqImproper
import Mathlib.Analysis.SpecialFunctions.Pow.Asymptotics
import Mathlib.Analysis.SpecialFunctions.Sqrt
import Mathlib.Analysis.SpecialFunctions.Integrals.Basic
/-!
# C93: thermal particles have the Maxwell-Jüttner energies of their temperature
-/
namespace Verif.Juttner
open MeasureTheory ProbabilityTheory Filter Set
open scoped ENNReal Topology

/-! ## Specification -/

/-- the Maxwell-Jüttner distribution of the Lorentz factor, up to a constant -/
noncomputable def weight (theta g : ℝ) : ℝ := g * Real.sqrt (g ^ 2 - 1) * Real.exp (-g / theta)

/-- the measure with density `weight` on `s`, divided by its total -/
noncomputable def thermal (theta : ℝ) (s : Set ℝ) : Measure ℝ :=
  (∫⁻ g in s, ENNReal.ofReal (weight theta g))⁻¹ • (volume.restrict s).withDensity fun g => ENNReal.ofReal (weight theta g)

/-- the Maxwell-Jüttner distribution of temperature `theta` (in units of `mc²`) -/
noncomputable def juttner (theta : ℝ) : Measure ℝ := thermal theta (Ioi 1)

/-- momentum times velocity, in units of `mc²`, of a particle with Lorentz factor `g`; its mean is three times the temperature -/
noncomputable def virial (g : ℝ) : ℝ := (g ^ 2 - 1) / g

/-! ## Laws of the accepted numbers -/

theorem weight_measurable (theta : ℝ) : Measurable fun g => ENNReal.ofReal (weight theta g) := by
  unfold weight
  fun_prop

theorem uniform_threshold {top s : ℝ} (ht : 0 < top) (h0 : 0 ≤ s) (h1 : s ≤ top) (k kn : ℝ≥0∞) :
    (∫⁻ v, (if v < s then k else kn) ∂uniformLaw 0 top)
      = ENNReal.ofReal (s / top) * k + (1 - ENNReal.ofReal (s / top)) * kn := by
  have e : (fun v : ℝ => if v < s then k else kn) = fun v => (Iio s).indicator (fun _ => k) v + (Ici s).indicator (fun _ => kn) v := by
    funext v
    by_cases h : v < s
    · simp [h, not_le.mpr h]
    · simp [h, not_lt.mp h]
  have m1 : uniformLaw 0 top (Iio s) = ENNReal.ofReal (s / top) := by
    have : Iio s ∩ Ico 0 top = Ico 0 s := by
      ext v; simp only [mem_inter_iff, mem_Iio, mem_Ico]; constructor <;> intro h <;> constructor
      · linarith [h.2.1]
      · exact h.1
      · exact h.2
      · exact ⟨h.1, by linarith [h.2]⟩
    rw [uniformLaw, Measure.smul_apply, Measure.restrict_apply measurableSet_Iio, this, Real.volume_Ico, smul_eq_mul, sub_zero,
      sub_zero, ENNReal.ofReal_div_of_pos ht, ENNReal.div_eq_inv_mul]
  have m2 : uniformLaw 0 top (Ici s) = 1 - ENNReal.ofReal (s / top) := by
    have : Ici s ∩ Ico 0 top = Ico s top := by
      ext v; simp only [mem_inter_iff, mem_Ici, mem_Ico]; constructor <;> intro h <;> constructor
      · exact h.1
      · exact h.2.2
      · exact h.1
      · exact ⟨by linarith [h.1], h.2⟩
    rw [uniformLaw, Measure.smul_apply, Measure.restrict_apply measurableSet_Ici, this, Real.volume_Ico, smul_eq_mul, sub_zero,
      ← ENNReal.div_eq_inv_mul, ← ENNReal.ofReal_div_of_pos ht, ← ENNReal.ofReal_one, ← ENNReal.ofReal_sub _ (div_nonneg h0 ht.le)]
    congr 1
    field_simp
  rw [e, lintegral_add_left (measurable_const.indicator measurableSet_Iio), lintegral_indicator_const measurableSet_Iio,
    lintegral_indicator_const measurableSet_Ici, m1, m2, mul_comm, mul_comm kn]

theorem accepted_thermal {T : Trial} {a : ℝ → ℝ≥0∞} {theta : ℝ} {s : Set ℝ} {c : ℝ≥0∞} (hc0 : c ≠ 0) (hc : c ≠ ∞)
    (h : T.prop.withDensity a = c • (volume.restrict s).withDensity fun g => ENNReal.ofReal (weight theta g)) :
    accepted T a = thermal theta s ∧ yes T a = c * ∫⁻ g in s, ENNReal.ofReal (weight theta g) := by
  have hy : yes T a = c * ∫⁻ g in s, ENNReal.ofReal (weight theta g) := by
    have h1 : (T.prop.withDensity a) univ = yes T a := by rw [withDensity_apply _ MeasurableSet.univ, Measure.restrict_univ]; rfl
    rw [← h1, h, Measure.smul_apply, withDensity_apply _ MeasurableSet.univ, Measure.restrict_univ, smul_eq_mul]
  refine ⟨?_, hy⟩
  unfold accepted thermal
  rw [hy, h, smul_smul, ENNReal.mul_inv (.inl hc0) (.inl hc)]
  congr 1
  rw [mul_right_comm, ENNReal.inv_mul_cancel hc0 hc, one_mul]

theorem weight_pos {theta g : ℝ} (h : 1 < g) : 0 < weight theta g := by
  unfold weight
  have : 0 < g ^ 2 - 1 := by nlinarith
  have := Real.sqrt_pos.mpr this
  positivity

theorem total_pos (theta : ℝ) {s : Set ℝ} (hs : MeasurableSet s) (hpos : 0 < volume (s ∩ Ioi 1)) :
    (∫⁻ g in s, ENNReal.ofReal (weight theta g)) ≠ 0 := by
  intro h0
  have h := (setLIntegral_eq_zero_iff hs (weight_measurable theta)).mp h0
  have : volume (s ∩ Ioi 1) = 0 := by
    refine measure_mono_null ?_ h
    rintro g ⟨hg, hg1⟩
    show ¬ (g ∈ s → ENNReal.ofReal (weight theta g) = 0)
    intro hh
    have := ENNReal.ofReal_eq_zero.mp (hh hg)
    exact absurd (weight_pos (theta := theta) hg1) (not_lt.mpr this)
  exact hpos.ne' this

theorem root_split {g : ℝ} (h : 1 ≤ g) : g ^ 2 * Real.sqrt (1 - 1 / g ^ 2) = g * Real.sqrt (g ^ 2 - 1) := by
  have hg : 0 < g := by linarith
  have e : g ^ 2 - 1 = g ^ 2 * (1 - 1 / g ^ 2) := by field_simp
  rw [e, Real.sqrt_mul (by positivity), Real.sqrt_sq hg.le]
  ring

/-- the probability to accept `x` in the high range -/
noncomputable def highOdds (x : ℝ) : ℝ≥0∞ := if 1 ≤ x then ENNReal.ofReal (Real.sqrt (1 - 1 / x ^ 2)) else 0

theorem highOdds_measurable : Measurable highOdds := by
  unfold highOdds
  exact Measurable.ite measurableSet_Ici (by fun_prop) measurable_const

theorem root_le_one (x : ℝ) : Real.sqrt (1 - 1 / x ^ 2) ≤ 1 := by
  have : 0 ≤ 1 / x ^ 2 := by positivity
  exact Real.sqrt_le_one.mpr (by linarith)

theorem high_accepts {theta : ℝ} (ht : 0 < theta) : Accepts (high theta) highOdds where
  prob := (isProbabilityMeasure_gammaMeasure (by norm_num) (by positivity)).measure_univ
  meas := highOdds_measurable
  le x := by
    unfold highOdds
    split
    · exact ENNReal.ofReal_le_one.mpr (root_le_one x)
    · exact bot_le
  ok := by
    refine ae_of_all _ fun x k kn => ?_
    by_cases hx : 1 ≤ x
    · have e : (fun v => open Classical in if (high theta).ok x v then k else kn)
          = fun v => if v < Real.sqrt (1 - 1 / x ^ 2) then k else kn := by
        funext v
        simp [high, hx]
      have := uniform_threshold one_pos (Real.sqrt_nonneg _) (root_le_one x) k kn
      rw [div_one] at this
      simp only [highOdds, hx, if_true]
      rw [← this]
      exact congrArg (fun f : ℝ → ℝ≥0∞ => ∫⁻ v, f v ∂uniformLaw 0 1) e
    · have e : (fun v => open Classical in if (high theta).ok x v then k else kn) = fun _ => kn := by
        funext v
        simp [high, hx]
      have u : uniformLaw 0 1 univ = 1 := by simp [uniformLaw]
      simp only [highOdds, hx, if_false, zero_mul, zero_add, tsub_zero, one_mul]
      rw [show (∫⁻ v, (open Classical in if (high theta).ok x v then k else kn) ∂(high theta).vlaw)
        = ∫⁻ _, kn ∂uniformLaw 0 1 from congrArg (fun f : ℝ → ℝ≥0∞ => ∫⁻ v, f v ∂uniformLaw 0 1) e, lintegral_const, u, mul_one]

theorem high_density {theta : ℝ} (ht : 0 < theta) :
    (high theta).prop.withDensity highOdds
      = ENNReal.ofReal ((1 / theta) ^ (3 : ℝ) / Real.Gamma 3) • (volume.restrict (Ioi 1)).withDensity
          fun g => ENNReal.ofReal (weight theta g) := by
  have hG : 0 < Real.Gamma 3 := Real.Gamma_pos_of_pos (by norm_num)
  have hc : 0 ≤ (1 / theta) ^ (3 : ℝ) / Real.Gamma 3 := by positivity
  have hm : Measurable (gammaPDF 3 (1 / theta)) := (measurable_gammaPDFReal _ _).ennreal_ofReal
  show ((volume.withDensity (gammaPDF 3 (1 / theta))).withDensity highOdds) = _
  rw [← withDensity_mul _ hm highOdds_measurable, ← withDensity_smul _ (weight_measurable theta),
    ← withDensity_indicator measurableSet_Ioi]
  congr 1
  funext x
  show gammaPDF 3 (1 / theta) x * highOdds x = (Ioi 1).indicator (fun g => _ * ENNReal.ofReal (weight theta g)) x
  by_cases hx : 1 < x
  · rw [indicator_of_mem (mem_Ioi.mpr hx)]
    unfold highOdds
    rw [if_pos hx.le, gammaPDF_of_nonneg (by linarith), ← ENNReal.ofReal_mul (by positivity), ← ENNReal.ofReal_mul hc]
    congr 1
    have e : x ^ ((3 : ℝ) - 1) = x ^ 2 := by rw [show (3 : ℝ) - 1 = ((2 : ℕ) : ℝ) by norm_num, Real.rpow_natCast]
    have e2 : -(1 / theta * x) = -x / theta := by ring
    unfold weight
    rw [e, e2, ← root_split hx.le]
    ring
  · rw [indicator_of_notMem (by simpa using hx)]
    unfold highOdds
    by_cases h1 : 1 ≤ x
    · have : x = 1 := le_antisymm (not_lt.mp hx) h1
      subst this
      simp
    · simp [h1]

/-- the probability to accept `x` in the middle range -/
noncomputable def midOdds (k2 top theta x : ℝ) : ℝ≥0∞ :=
  (Ico 1 (1 + 10 * theta)).indicator (fun x => ENNReal.ofReal (pdf k2 theta x / top)) x

theorem midOdds_measurable (k2 top theta : ℝ) : Measurable (midOdds k2 top theta) := by
  unfold midOdds
  refine Measurable.indicator ?_ measurableSet_Ico
  unfold pdf
  fun_prop

theorem pdf_weight (k2 theta : ℝ) {x : ℝ} (h : 1 ≤ x) : pdf k2 theta x = weight theta x / (theta * k2) := by
  unfold pdf weight
  rw [root_split h]
  ring

theorem mid_accepts {k2 top theta : ℝ} (ht : 0 < theta) (hk : 0 < k2) (htop : 0 < top)
    (hmax : ∀ x, 1 ≤ x → x ≤ 1 + 10 * theta → pdf k2 theta x ≤ top) : Accepts (mid k2 top theta) (midOdds k2 top theta) where
  prob := by
    have h1 : (1 : ℝ) + 10 * theta - 1 = 10 * theta := by ring
    have h2 : ENNReal.ofReal (10 * theta) ≠ 0 := by simpa using ht
    show uniformLaw 1 (1 + 10 * theta) univ = 1
    rw [uniformLaw, Measure.smul_apply, Measure.restrict_apply MeasurableSet.univ, univ_inter, Real.volume_Ico, smul_eq_mul, h1,
      ENNReal.inv_mul_cancel h2 ENNReal.ofReal_ne_top]
  meas := midOdds_measurable _ _ _
  le x := by
    unfold midOdds
    by_cases hx : x ∈ Ico 1 (1 + 10 * theta)
    · rw [indicator_of_mem hx]
      exact ENNReal.ofReal_le_one.mpr ((div_le_one htop).mpr (hmax x hx.1 hx.2.le))
    · rw [indicator_of_notMem hx]
      exact bot_le
  ok := by
    have hmem : ∀ᵐ x ∂(mid k2 top theta).prop, x ∈ Ico 1 (1 + 10 * theta) := by
      show ∀ᵐ x ∂uniformLaw 1 (1 + 10 * theta), x ∈ Ico 1 (1 + 10 * theta)
      unfold uniformLaw
      exact Measure.ae_smul_measure (ae_restrict_mem measurableSet_Ico) _
    refine hmem.mono fun x hx k kn => ?_
    have hp : 0 ≤ pdf k2 theta x := by
      rw [pdf_weight k2 theta hx.1]
      have : 0 ≤ x := by linarith [hx.1]
      unfold weight
      positivity
    have := uniform_threshold htop hp (hmax x hx.1 hx.2.le) k kn
    unfold midOdds
    rw [indicator_of_mem hx, ← this]
    refine congrArg (fun f : ℝ → ℝ≥0∞ => ∫⁻ v, f v ∂uniformLaw 0 top) ?_
    funext v
    by_cases h : v < pdf k2 theta x <;> simp [mid, h]

theorem mid_density {k2 top theta : ℝ} (ht : 0 < theta) (hk : 0 < k2) (htop : 0 < top) :
    (mid k2 top theta).prop.withDensity (midOdds k2 top theta)
      = ((ENNReal.ofReal (10 * theta))⁻¹ * ENNReal.ofReal (1 / (theta * k2 * top))) •
          (volume.restrict (Ico 1 (1 + 10 * theta))).withDensity fun g => ENNReal.ofReal (weight theta g) := by
  have h1 : (1 : ℝ) + 10 * theta - 1 = 10 * theta := by ring
  show (uniformLaw 1 (1 + 10 * theta)).withDensity _ = _
  rw [uniformLaw, withDensity_smul_measure, h1, ← smul_smul, ← withDensity_smul _ (weight_measurable theta)]
  congr 1
  refine withDensity_congr_ae ((ae_restrict_mem measurableSet_Ico).mono fun x hx => ?_)
  show midOdds k2 top theta x = ENNReal.ofReal (1 / (theta * k2 * top)) * ENNReal.ofReal (weight theta x)
  unfold midOdds
  rw [indicator_of_mem hx, pdf_weight k2 theta hx.1, ← ENNReal.ofReal_mul (by positivity)]
  congr 1
  field_simp

/-! ## Theorems on the energies -/

/-- **C93**, temperatures above `mc²/2`: the loop ends with probability one, and the energies are independent and have the
Maxwell-Jüttner distribution of the temperature that was asked for -/
theorem hot_energies (k2 top : ℝ) {theta : ℝ} (ht : 1 / 2 < theta) (size : Nat) (K : List ℝ → ℝ≥0∞) (C : ℝ≥0∞) (hC : C ≠ ∞)
    (hK : ∀ l, K l ≤ C) :
    Tendsto (fun fuel => energies k2 top theta fuel size K) atTop (𝓝 (iid (juttner theta) size K)) := by
  have h0 : 0 < theta := by linarith
  have hG : 0 < Real.Gamma 3 := Real.Gamma_pos_of_pos (by norm_num)
  have hc : 0 < (1 / theta) ^ (3 : ℝ) / Real.Gamma 3 := by positivity
  have hc0 : ENNReal.ofReal ((1 / theta) ^ (3 : ℝ) / Real.Gamma 3) ≠ 0 := (ENNReal.ofReal_pos.mpr hc).ne'
  obtain ⟨e1, e2⟩ := accepted_thermal hc0 ENNReal.ofReal_ne_top (high_density h0)
  have hy : yes (high theta) highOdds ≠ 0 := by
    rw [e2]
    refine mul_ne_zero hc0 (total_pos theta measurableSet_Ioi ?_)
    simp
  have := loop_law (high_accepts h0) hy C hC size K hK
  rw [e1] at this
  have e : (fun fuel => energies k2 top theta fuel size K) = fun fuel => loop (high theta) fuel size K := by
    funext fuel
    unfold energies
    rw [if_neg (by linarith), if_neg (by linarith)]
  rw [e]
  exact this

/-- **C93, partial**, temperatures from `mc²/100` to `mc²/2`, if the maximum that was searched for is an upper bound: the loop
ends with probability one, and the energies are independent and have the Maxwell-Jüttner distribution cut off at
`1 + 10 theta`. Missing: the energies above, see `warm_energies_fails`. -/
theorem warm_energies_partial {k2 top theta : ℝ} (ht : 1 / 100 < theta) (ht' : theta ≤ 1 / 2) (hk : 0 < k2) (htop : 0 < top)
    (hmax : ∀ x, 1 ≤ x → x ≤ 1 + 10 * theta → pdf k2 theta x ≤ top) (size : Nat) (K : List ℝ → ℝ≥0∞) (C : ℝ≥0∞) (hC : C ≠ ∞)
    (hK : ∀ l, K l ≤ C) :
    Tendsto (fun fuel => energies k2 top theta fuel size K) atTop (𝓝 (iid (thermal theta (Ico 1 (1 + 10 * theta))) size K)) := by
  have h0 : 0 < theta := by linarith
  have hc0 : (ENNReal.ofReal (10 * theta))⁻¹ * ENNReal.ofReal (1 / (theta * k2 * top)) ≠ 0 :=
    mul_ne_zero (ENNReal.inv_ne_zero.mpr ENNReal.ofReal_ne_top) (ENNReal.ofReal_pos.mpr (by positivity)).ne'
  have hc : (ENNReal.ofReal (10 * theta))⁻¹ * ENNReal.ofReal (1 / (theta * k2 * top)) ≠ ∞ :=
    ENNReal.mul_ne_top (ENNReal.inv_ne_top.mpr (ENNReal.ofReal_pos.mpr (by positivity)).ne') ENNReal.ofReal_ne_top
  obtain ⟨e1, e2⟩ := accepted_thermal hc0 hc (mid_density h0 hk htop)
  have hy : yes (mid k2 top theta) (midOdds k2 top theta) ≠ 0 := by
    rw [e2]
    refine mul_ne_zero hc0 (total_pos theta measurableSet_Ico ?_)
    have : Ico 1 (1 + 10 * theta) ∩ Ioi 1 = Ioo 1 (1 + 10 * theta) := by
      ext x; simp only [mem_inter_iff, mem_Ico, mem_Ioi, mem_Ioo]; constructor <;> intro h
      · exact ⟨h.2, h.1.2⟩
      · exact ⟨⟨h.1.le, h.2⟩, h.1⟩
    rw [this, Real.volume_Ioo]
    simpa using h0
  have := loop_law (mid_accepts h0 hk htop hmax) hy C hC size K hK
  rw [e1] at this
  have e : (fun fuel => energies k2 top theta fuel size K) = fun fuel => loop (mid k2 top theta) fuel size K := by
    funext fuel
    unfold energies
    rw [if_neg (by linarith), if_pos ht']
  rw [e]
  exact this

/-! ## Temperature -/

theorem cube_integrable {theta : ℝ} (ht : 0 < theta) : IntegrableOn (fun g : ℝ => g ^ 3 * Real.exp (-g / theta)) (Ioi 1) := by
  have h := integrableOn_rpow_mul_exp_neg_mul_rpow (s := 3) (p := 1) (b := 1 / theta) (by norm_num) one_pos (by positivity)
  refine (h.mono_set (Ioi_subset_Ioi zero_le_one)).congr_fun (fun g _ => ?_) measurableSet_Ioi
  show g ^ (3 : ℝ) * Real.exp (-(1 / theta) * g ^ (1 : ℝ)) = _
  rw [Real.rpow_one, show (3 : ℝ) = ((3 : ℕ) : ℝ) by norm_num, Real.rpow_natCast]
  congr 2
  ring

theorem root_le {g : ℝ} (h : 1 ≤ g) : Real.sqrt (g ^ 2 - 1) ≤ g := by
  rw [Real.sqrt_le_left (by linarith)]
  linarith

theorem weight_nonneg (theta : ℝ) {g : ℝ} (h : 1 ≤ g) : 0 ≤ weight theta g := by
  unfold weight
  have : 0 ≤ g := by linarith
  positivity

theorem weight_integrable {theta : ℝ} (ht : 0 < theta) : IntegrableOn (weight theta) (Ioi 1) := by
  refine (cube_integrable ht).mono' ?_ ?_
  · unfold weight
    exact Measurable.aestronglyMeasurable (by fun_prop)
  · refine (ae_restrict_mem measurableSet_Ioi).mono fun g hg => ?_
    have hg1 : 1 ≤ g := le_of_lt hg
    rw [Real.norm_of_nonneg (weight_nonneg theta hg1)]
    unfold weight
    have h1 := root_le hg1
    have : g * Real.sqrt (g ^ 2 - 1) ≤ g ^ 3 := by nlinarith [mul_nonneg (by linarith : (0:ℝ) ≤ g) (by linarith : (0:ℝ) ≤ g - Real.sqrt (g ^ 2 - 1)), mul_nonneg (sq_nonneg g) (by linarith : (0:ℝ) ≤ g - 1)]
    exact mul_le_mul_of_nonneg_right this (Real.exp_nonneg _)

theorem virial_nonneg {g : ℝ} (h : 1 ≤ g) : 0 ≤ virial g := by
  unfold virial
  have : 0 ≤ g ^ 2 - 1 := by nlinarith
  positivity

theorem virial_weight (theta : ℝ) {g : ℝ} (h : 1 ≤ g) :
    virial g * weight theta g = (g ^ 2 - 1) * Real.sqrt (g ^ 2 - 1) * Real.exp (-g / theta) := by
  have : 0 < g := by linarith
  unfold virial weight
  field_simp

theorem virial_integrable {theta : ℝ} (ht : 0 < theta) : IntegrableOn (fun g => virial g * weight theta g) (Ioi 1) := by
  refine (cube_integrable ht).mono' ?_ ?_
  · unfold virial weight
    exact Measurable.aestronglyMeasurable (by fun_prop)
  · refine (ae_restrict_mem measurableSet_Ioi).mono fun g hg => ?_
    have hg1 : 1 ≤ g := le_of_lt hg
    rw [Real.norm_of_nonneg (mul_nonneg (virial_nonneg hg1) (weight_nonneg theta hg1)), virial_weight theta hg1]
    have h1 := root_le hg1
    have h2 : 0 ≤ g ^ 2 - 1 := by nlinarith
    have : (g ^ 2 - 1) * Real.sqrt (g ^ 2 - 1) ≤ g ^ 3 := by
      have := mul_le_mul_of_nonneg_left h1 h2
      nlinarith
    exact mul_le_mul_of_nonneg_right this (Real.exp_nonneg _)

/-- a primitive function -/
noncomputable def prim (theta g : ℝ) : ℝ := (g ^ 2 - 1) * Real.sqrt (g ^ 2 - 1) * Real.exp (-g / theta)

theorem prim_continuous (theta : ℝ) : Continuous (prim theta) := by
  unfold prim
  fun_prop

theorem prim_deriv (theta : ℝ) {g : ℝ} (h : 1 < g) :
    HasDerivAt (prim theta) (3 * weight theta g - 1 / theta * (virial g * weight theta g)) g := by
  have hp : 0 < g ^ 2 - 1 := by nlinarith
  have hs : 0 < Real.sqrt (g ^ 2 - 1) := Real.sqrt_pos.mpr hp
  have h1 : HasDerivAt (fun g : ℝ => g ^ 2 - 1) (2 * g) g := by
    simpa using (hasDerivAt_pow 2 g).sub_const (1 : ℝ)
  have h2 := h1.sqrt hp.ne'
  have h3 : HasDerivAt (fun g : ℝ => Real.exp (-g / theta)) (Real.exp (-g / theta) * (-1 / theta)) g :=
    ((hasDerivAt_neg g).div_const theta).exp
  have := (h1.mul h2).mul h3
  refine this.congr_deriv ?_
  rw [virial_weight theta h.le]
  unfold weight
  have e : Real.sqrt (g ^ 2 - 1) * Real.sqrt (g ^ 2 - 1) = g ^ 2 - 1 := Real.mul_self_sqrt hp.le
  have e2 : (g ^ 2 - 1) * (2 * g / (2 * Real.sqrt (g ^ 2 - 1))) = g * Real.sqrt (g ^ 2 - 1) := by
    field_simp
    nlinarith
  simp only [Pi.mul_apply]
  rw [e2]
  ring

theorem prim_limit {theta : ℝ} (ht : 0 < theta) : Tendsto (prim theta) atTop (𝓝 0) := by
  have h := tendsto_rpow_mul_exp_neg_mul_atTop_nhds_zero 3 (1 / theta) (by positivity)
  refine squeeze_zero' (eventually_atTop.mpr ⟨1, fun g hg => ?_⟩) (eventually_atTop.mpr ⟨1, fun g hg => ?_⟩) h
  · unfold prim
    have : 0 ≤ g ^ 2 - 1 := by nlinarith
    positivity
  · unfold prim
    have h1 := root_le hg
    have h2 : 0 ≤ g ^ 2 - 1 := by nlinarith
    have e : -(1 / theta) * g = -g / theta := by ring
    rw [show (3 : ℝ) = ((3 : ℕ) : ℝ) by norm_num, Real.rpow_natCast, e]
    have : (g ^ 2 - 1) * Real.sqrt (g ^ 2 - 1) ≤ g ^ 3 := by
      have := mul_le_mul_of_nonneg_left h1 h2
      nlinarith
    exact mul_le_mul_of_nonneg_right this (Real.exp_nonneg _)

theorem prim_one (theta : ℝ) : prim theta 1 = 0 := by simp [prim]

theorem parts_all {theta : ℝ} (ht : 0 < theta) :
    ∫ g in Ioi 1, virial g * weight theta g = 3 * theta * ∫ g in Ioi 1, weight theta g := by
  have h := integral_Ioi_of_hasDerivAt_of_tendsto (prim_continuous theta).continuousWithinAt (fun g hg => prim_deriv theta hg)
    (((weight_integrable ht).const_mul 3).sub ((virial_integrable ht).const_mul (1 / theta))) (prim_limit ht)
  rw [prim_one, integral_sub ((weight_integrable ht).const_mul 3) ((virial_integrable ht).const_mul (1 / theta)),
    integral_const_mul, integral_const_mul] at h
  field_simp at h
  linarith

theorem parts_upto {theta b : ℝ} (ht : 0 < theta) (hb : 1 ≤ b) :
    (∫ g in Ioc 1 b, virial g * weight theta g) = 3 * theta * (∫ g in Ioc 1 b, weight theta g) - theta * prim theta b := by
  have i1 := (weight_integrable ht).mono_set (Ioc_subset_Ioi_self : Ioc (1 : ℝ) b ⊆ Ioi 1)
  have i2 := (virial_integrable ht).mono_set (Ioc_subset_Ioi_self : Ioc (1 : ℝ) b ⊆ Ioi 1)
  have h := intervalIntegral.integral_eq_sub_of_hasDerivAt_of_le hb (prim_continuous theta).continuousOn
    (fun g hg => prim_deriv theta hg.1)
    ((intervalIntegrable_iff_integrableOn_Ioc_of_le hb).mpr ((i1.const_mul 3).sub (i2.const_mul (1 / theta))))
  rw [prim_one, intervalIntegral.integral_of_le hb, integral_sub (i1.const_mul 3) (i2.const_mul (1 / theta)),
    integral_const_mul, integral_const_mul] at h
  field_simp at h
  linarith

theorem thermal_mean {theta : ℝ} {s : Set ℝ} (ht : 0 < theta) (hs : MeasurableSet s) (hs1 : s ⊆ Ioi 1) (hpos : 0 < volume s) :
    0 < ∫ g in s, weight theta g ∧
    (∫⁻ g, ENNReal.ofReal (virial g) ∂thermal theta s)
      = ENNReal.ofReal ((∫ g in s, virial g * weight theta g) / ∫ g in s, weight theta g) := by
  have i1 := (weight_integrable ht).mono_set hs1
  have i2 := (virial_integrable ht).mono_set hs1
  have n1 : 0 ≤ᵐ[volume.restrict s] weight theta :=
    (ae_restrict_mem hs).mono fun g hg => weight_nonneg theta (le_of_lt (hs1 hg))
  have n2 : 0 ≤ᵐ[volume.restrict s] fun g => virial g * weight theta g :=
    (ae_restrict_mem hs).mono fun g hg => mul_nonneg (virial_nonneg (le_of_lt (hs1 hg))) (weight_nonneg theta (le_of_lt (hs1 hg)))
  have z := ofReal_integral_eq_lintegral_ofReal i1 n1
  have a := ofReal_integral_eq_lintegral_ofReal i2 n2
  have hz : 0 < ∫ g in s, weight theta g := by
    rw [← ENNReal.ofReal_pos, z]
    refine pos_iff_ne_zero.mpr (total_pos theta hs ?_)
    rwa [inter_eq_left.mpr hs1]
  refine ⟨hz, ?_⟩
  have hv : Measurable fun g => ENNReal.ofReal (virial g) := by unfold virial; fun_prop
  unfold thermal
  rw [lintegral_smul_measure, lintegral_withDensity_eq_lintegral_mul _ (weight_measurable theta) hv, smul_eq_mul,
    ENNReal.ofReal_div_of_pos hz, ENNReal.div_eq_inv_mul, z, a]
  congr 1
  refine lintegral_congr_ae ((ae_restrict_mem hs).mono fun g hg => ?_)
  show ENNReal.ofReal (weight theta g) * ENNReal.ofReal (virial g) = ENNReal.ofReal (virial g * weight theta g)
  rw [ENNReal.ofReal_mul (virial_nonneg (le_of_lt (hs1 hg))), mul_comm]

/-- **C93**: the mean of momentum times velocity in the Maxwell-Jüttner distribution is three times the temperature, so
`hot_energies` gives particles of the temperature that was asked for -/
theorem juttner_temperature {theta : ℝ} (ht : 0 < theta) :
    (∫⁻ g, ENNReal.ofReal (virial g) ∂juttner theta) = ENNReal.ofReal (3 * theta) := by
  obtain ⟨hz, h⟩ := thermal_mean ht measurableSet_Ioi subset_rfl (by simp : 0 < volume (Ioi (1 : ℝ)))
  unfold juttner
  rw [h, parts_all ht, mul_div_assoc, div_self hz.ne', mul_one]

theorem thermal_ae (theta : ℝ) {s t : Set ℝ} (h : s =ᵐ[volume] t) : thermal theta s = thermal theta t := by
  unfold thermal
  rw [Measure.restrict_congr_set h]

/-- **C93 fails** in the middle range: particles are too cold. The mean of momentum times velocity of the energies of
`warm_energies_partial` is below three times the temperature that was asked for. -/
theorem warm_temperature_fails {theta : ℝ} (ht : 0 < theta) :
    (∫⁻ g, ENNReal.ofReal (virial g) ∂thermal theta (Ico 1 (1 + 10 * theta))) < ENNReal.ofReal (3 * theta) := by
  have hb : (1 : ℝ) < 1 + 10 * theta := by linarith
  have hv : 0 < volume (Ioc 1 (1 + 10 * theta)) := by simpa using ht
  obtain ⟨hz, h⟩ := thermal_mean ht (s := Ioc 1 (1 + 10 * theta)) measurableSet_Ioc Ioc_subset_Ioi_self hv
  rw [thermal_ae theta Ico_ae_eq_Ioc, h, parts_upto ht hb.le]
  refine (ENNReal.ofReal_lt_ofReal_iff (by positivity)).mpr ?_
  rw [div_lt_iff₀ hz]
  have : 0 < prim theta (1 + 10 * theta) := by
    unfold prim
    have h1 : 0 < (1 + 10 * theta) ^ 2 - 1 := by nlinarith
    have := Real.sqrt_pos.mpr h1
    positivity
  nlinarith [mul_pos ht this]

/-- **C93 fails** in the middle range: the Maxwell-Jüttner distribution has particles above `1 + 10 theta`, the energies of
`warm_energies_partial` have none -/
theorem warm_energies_fails {theta : ℝ} (ht : 0 < theta) :
    juttner theta (Ici (1 + 10 * theta)) ≠ 0 ∧ thermal theta (Ico 1 (1 + 10 * theta)) (Ici (1 + 10 * theta)) = 0 := by
  have fin : (∫⁻ g in Ioi 1, ENNReal.ofReal (weight theta g)) ≠ ∞ := by
    rw [← ofReal_integral_eq_lintegral_ofReal (weight_integrable ht)
      ((ae_restrict_mem measurableSet_Ioi).mono fun g hg => weight_nonneg theta (le_of_lt hg))]
    exact ENNReal.ofReal_ne_top
  constructor
  · unfold juttner thermal
    rw [Measure.smul_apply, withDensity_apply _ measurableSet_Ici, smul_eq_mul, Measure.restrict_restrict measurableSet_Ici]
    refine mul_ne_zero (ENNReal.inv_ne_zero.mpr fin) (total_pos theta (measurableSet_Ici.inter measurableSet_Ioi) ?_)
    refine lt_of_lt_of_le (b := volume (Ioi (1 + 10 * theta))) (by simp) (measure_mono fun g hg => ?_)
    have hg' : 1 + 10 * theta < g := hg
    exact ⟨⟨hg'.le, mem_Ioi.mpr (by linarith)⟩, mem_Ioi.mpr (by linarith)⟩
  · unfold thermal
    have : Ici (1 + 10 * theta) ∩ Ico 1 (1 + 10 * theta) = ∅ := by
      ext g
      simp only [mem_inter_iff, mem_Ici, mem_Ico, mem_empty_iff_false, iff_false]
      rintro ⟨h1, _, h2⟩
      linarith
    rw [Measure.smul_apply, withDensity_apply _ measurableSet_Ici, Measure.restrict_restrict measurableSet_Ici, this]
    simp

/-! ## The low range -/

/-- the distribution of the energies in the low range -/
noncomputable def cold (theta : ℝ) : Measure ℝ := (gammaLaw (3 / 2) theta).map (MeasurableEquiv.addRight (1 : ℝ))

theorem cold_iid (theta : ℝ) (size : Nat) (K : List ℝ → ℝ≥0∞) :
    iid (gammaLaw (3 / 2) theta) size (fun l => K (l.map (· + 1))) = iid (cold theta) size K := by
  induction size generalizing K with
  | zero => rfl
  | succ n ih =>
    show (∫⁻ x, iid (gammaLaw (3 / 2) theta) n (fun l => K ((x :: l).map (· + 1))) ∂gammaLaw (3 / 2) theta)
      = ∫⁻ x, iid (cold theta) n (fun l => K (x :: l)) ∂cold theta
    rw [cold, lintegral_map_equiv]
    refine lintegral_congr fun x => ?_
    exact ih fun l => K ((x + 1) :: l)

theorem cold_density {theta : ℝ} (ht : 0 < theta) :
    cold theta = ENNReal.ofReal ((1 / theta) ^ (3 / 2 : ℝ) / Real.Gamma (3 / 2) * Real.exp (1 / theta)) •
      (volume.restrict (Ioi 1)).withDensity fun g => ENNReal.ofReal (weight theta g / (g * Real.sqrt (g + 1))) := by
  have hG : 0 < Real.Gamma (3 / 2) := Real.Gamma_pos_of_pos (by norm_num)
  have hm : Measurable (gammaPDF (3 / 2) (1 / theta)) := (measurable_gammaPDFReal _ _).ennreal_ofReal
  have hm2 : Measurable fun g => ENNReal.ofReal (weight theta g / (g * Real.sqrt (g + 1))) := by
    unfold weight
    fun_prop
  have key : ∀ g : ℝ, gammaPDF (3 / 2) (1 / theta) (g - 1) = (Ioi (1 : ℝ)).indicator (fun g =>
      ENNReal.ofReal ((1 / theta) ^ (3 / 2 : ℝ) / Real.Gamma (3 / 2) * Real.exp (1 / theta)) *
        ENNReal.ofReal (weight theta g / (g * Real.sqrt (g + 1)))) g := by
    intro g
    by_cases hg : 1 < g
    · rw [indicator_of_mem (mem_Ioi.mpr hg), gammaPDF_of_nonneg (by linarith), ← ENNReal.ofReal_mul (by positivity)]
      congr 1
      have e : (g - 1) ^ ((3 / 2 : ℝ) - 1) = Real.sqrt (g - 1) := by
        rw [Real.sqrt_eq_rpow]; norm_num
      have e2 : Real.sqrt (g ^ 2 - 1) = Real.sqrt (g - 1) * Real.sqrt (g + 1) := by
        rw [← Real.sqrt_mul (by linarith)]
        congr 1
        ring
      have e3 : Real.exp (-(1 / theta * (g - 1))) = Real.exp (1 / theta) * Real.exp (-g / theta) := by
        rw [← Real.exp_add]
        congr 1
        ring
      have hs : 0 < Real.sqrt (g + 1) := Real.sqrt_pos.mpr (by linarith)
      have hg0 : 0 < g := by linarith
      unfold weight
      rw [e, e2, e3]
      field_simp
    · rw [indicator_of_notMem (by simpa using hg)]
      rcases lt_or_eq_of_le (not_lt.mp hg) with h | h
      · exact gammaPDF_of_neg (by linarith)
      · subst h
        rw [gammaPDF_of_nonneg (by norm_num)]
        norm_num
  rw [← withDensity_smul _ hm2, ← withDensity_indicator measurableSet_Ioi]
  refine Measure.ext fun A hA => ?_
  unfold cold gammaLaw gammaMeasure
  rw [MeasurableEquiv.map_apply, withDensity_apply _ hA, withDensity_apply _ ((MeasurableEquiv.measurable _) hA)]
  have h := (measurePreserving_add_right (volume : Measure ℝ) 1).setLIntegral_comp_preimage hA
    (f := fun y : ℝ => gammaPDF (3 / 2) (1 / theta) (y - 1)) (hm.comp (measurable_id.sub_const 1))
  simp only [add_sub_cancel_right] at h
  refine h.trans ?_
  refine lintegral_congr fun g => ?_
  exact key g

/-- **C93, partial**, temperatures up to `mc²/100`: the energies are independent, and their distribution is the
Maxwell-Jüttner distribution with the factor `g √(g + 1)` left out, which is close to `√2` where the energies are small.
Missing: that factor, see `cold_temperature_fails`. -/
theorem cold_energies_partial (k2 top : ℝ) {theta : ℝ} (h0 : 0 < theta) (ht : theta ≤ 1 / 100) (fuel size : Nat)
    (K : List ℝ → ℝ≥0∞) :
    energies k2 top theta fuel size K = iid (cold theta) size K ∧
    ∃ c : ℝ≥0∞, c ≠ 0 ∧ c ≠ ∞ ∧ cold theta = c • (volume.restrict (Ioi 1)).withDensity
      fun g => ENNReal.ofReal (weight theta g / (g * Real.sqrt (g + 1))) := by
  have hG : 0 < Real.Gamma (3 / 2) := Real.Gamma_pos_of_pos (by norm_num)
  refine ⟨?_, _, ?_, ENNReal.ofReal_ne_top, cold_density h0⟩
  · unfold energies
    rw [if_pos ht, cold_iid]
  · exact (ENNReal.ofReal_pos.mpr (by positivity)).ne'

theorem gamma_step {a r : ℝ} (ha : 0 < a) (hr : 0 < r) (x : ℝ) :
    gammaPDF a r x * ENNReal.ofReal x = ENNReal.ofReal (a / r) * gammaPDF (a + 1) r x := by
  by_cases hx : 0 ≤ x
  · have hG : 0 < Real.Gamma a := Real.Gamma_pos_of_pos ha
    rw [gammaPDF_of_nonneg hx, gammaPDF_of_nonneg hx, ← ENNReal.ofReal_mul (by positivity), ← ENNReal.ofReal_mul (by positivity)]
    congr 1
    have e : x ^ (a - 1) * x = x ^ a := by
      rcases eq_or_lt_of_le hx with h | h
      · rw [← h, mul_zero, Real.zero_rpow ha.ne']
      · rw [Real.rpow_sub_one h.ne']
        field_simp
    have e2 : r ^ (a + 1) = r ^ a * r := Real.rpow_add_one hr.ne' a
    rw [Real.Gamma_add_one ha.ne', add_sub_cancel_right, ← e, e2]
    field_simp
  · rw [gammaPDF_of_neg (not_le.mp hx), gammaPDF_of_neg (not_le.mp hx), zero_mul, mul_zero]

theorem gamma_mean {a r : ℝ} (ha : 0 < a) (hr : 0 < r) : (∫⁻ x, gammaPDF a r x * ENNReal.ofReal x) = ENNReal.ofReal (a / r) := by
  have hm : Measurable (gammaPDF (a + 1) r) := (measurable_gammaPDFReal _ _).ennreal_ofReal
  rw [lintegral_congr (gamma_step ha hr), lintegral_const_mul _ hm, lintegral_gammaPDF_eq_one (by positivity) hr, mul_one]

theorem gamma_square {a r : ℝ} (ha : 0 < a) (hr : 0 < r) :
    (∫⁻ x, gammaPDF a r x * ENNReal.ofReal (x ^ 2)) = ENNReal.ofReal (a / r * ((a + 1) / r)) := by
  have hm : Measurable (gammaPDF (a + 1) r) := (measurable_gammaPDFReal _ _).ennreal_ofReal
  have e : ∀ x, gammaPDF a r x * ENNReal.ofReal (x ^ 2) = ENNReal.ofReal (a / r) * (gammaPDF (a + 1) r x * ENNReal.ofReal x) := by
    intro x
    by_cases hx : 0 ≤ x
    · rw [← mul_assoc, ← gamma_step ha hr, sq, ENNReal.ofReal_mul hx, mul_assoc]
    · rw [gammaPDF_of_neg (not_le.mp hx), gammaPDF_of_neg (not_le.mp hx), zero_mul, zero_mul, mul_zero]
  rw [lintegral_congr e, lintegral_const_mul' _ _ ENNReal.ofReal_ne_top, gamma_mean (by positivity) hr, ENNReal.ofReal_mul (by positivity)]

/-- **C93 fails** in the low range: particles are too cold. The mean of momentum times velocity is below three times the
temperature that was asked for, by at most `15/4 theta²`. -/
theorem cold_temperature_fails {theta : ℝ} (ht : 0 < theta) :
    (∫⁻ g, ENNReal.ofReal (virial g) ∂cold theta) < ENNReal.ofReal (3 * theta) ∧
    ENNReal.ofReal (3 * theta) ≤ (∫⁻ g, ENNReal.ofReal (virial g) ∂cold theta) + ENNReal.ofReal (15 / 4 * theta ^ 2) := by
  have hr : 0 < 1 / theta := by positivity
  have hm : Measurable (gammaPDF (3 / 2) (1 / theta)) := (measurable_gammaPDFReal _ _).ennreal_ofReal
  have hv : Measurable fun x : ℝ => ENNReal.ofReal (virial (x + 1)) := by unfold virial; fun_prop
  have hd : Measurable fun x : ℝ => gammaPDF (3 / 2) (1 / theta) x * ENNReal.ofReal (x ^ 2 / (x + 1)) := hm.mul (by fun_prop)
  have e1 : (∫⁻ g, ENNReal.ofReal (virial g) ∂cold theta)
      = ∫⁻ x, gammaPDF (3 / 2) (1 / theta) x * ENNReal.ofReal (virial (x + 1)) := by
    rw [cold, lintegral_map_equiv]
    exact lintegral_withDensity_eq_lintegral_mul _ hm hv
  have two : (∫⁻ x, gammaPDF (3 / 2) (1 / theta) x * ENNReal.ofReal (virial (x + 1)))
      + (∫⁻ x, gammaPDF (3 / 2) (1 / theta) x * ENNReal.ofReal (x ^ 2 / (x + 1))) = ENNReal.ofReal (3 * theta) := by
    rw [← lintegral_add_right _ hd]
    have : ∀ x, gammaPDF (3 / 2) (1 / theta) x * ENNReal.ofReal (virial (x + 1))
        + gammaPDF (3 / 2) (1 / theta) x * ENNReal.ofReal (x ^ 2 / (x + 1))
        = ENNReal.ofReal 2 * (gammaPDF (3 / 2) (1 / theta) x * ENNReal.ofReal x) := by
      intro x
      by_cases hx : 0 ≤ x
      · have h1 : 0 ≤ virial (x + 1) := virial_nonneg (by linarith)
        rw [← mul_add, ← ENNReal.ofReal_add h1 (by positivity), mul_left_comm, ← ENNReal.ofReal_mul (by norm_num)]
        congr 2
        unfold virial
        have : x + 1 ≠ 0 := by positivity
        field_simp
        ring
      · rw [gammaPDF_of_neg (not_le.mp hx)]
        simp
    rw [lintegral_congr this, lintegral_const_mul' _ _ ENNReal.ofReal_ne_top, gamma_mean (by norm_num) hr,
      ← ENNReal.ofReal_mul (by norm_num)]
    congr 1
    field_simp
  have small : (∫⁻ x, gammaPDF (3 / 2) (1 / theta) x * ENNReal.ofReal (x ^ 2 / (x + 1))) ≤ ENNReal.ofReal (15 / 4 * theta ^ 2) := by
    have : ENNReal.ofReal (15 / 4 * theta ^ 2) = ∫⁻ x, gammaPDF (3 / 2) (1 / theta) x * ENNReal.ofReal (x ^ 2) := by
      rw [gamma_square (by norm_num) hr]
      congr 1
      field_simp
      norm_num
    rw [this]
    refine lintegral_mono fun x => ?_
    show _ * _ ≤ _ * _
    by_cases hx : 0 ≤ x
    · gcongr
      exact div_le_self (by positivity) (by linarith)
    · rw [gammaPDF_of_neg (not_le.mp hx), zero_mul, zero_mul]
  have pos : (∫⁻ x, gammaPDF (3 / 2) (1 / theta) x * ENNReal.ofReal (x ^ 2 / (x + 1))) ≠ 0 := by
    intro h0
    have h := (lintegral_eq_zero_iff hd).mp h0
    have hv0 : volume (Ioi (0 : ℝ)) = 0 := by
      refine measure_mono_null (fun x hx => ?_) h
      have hx0 : 0 < x := hx
      have hG : 0 < Real.Gamma (3 / 2) := Real.Gamma_pos_of_pos (by norm_num)
      show ¬ (gammaPDF (3 / 2) (1 / theta) x * ENNReal.ofReal (x ^ 2 / (x + 1)) = 0)
      rw [gammaPDF_of_nonneg hx0.le, ← ENNReal.ofReal_mul (by positivity), ENNReal.ofReal_eq_zero, not_le]
      positivity
    simp at hv0
  rw [e1]
  constructor
  · rw [← two]
    refine ENNReal.lt_add_right ?_ pos
    exact ne_top_of_le_ne_top (b := ENNReal.ofReal (3 * theta)) ENNReal.ofReal_ne_top (by rw [← two]; exact le_self_add)
  · rw [← two]
    gcongr

/-! ## Directions -/

theorem uniform_integral {lo hi : ℝ} (h : lo < hi) (f : ℝ → ℝ) :
    ∫ x, f x ∂uniformLaw lo hi = (hi - lo)⁻¹ * ∫ x in lo..hi, f x := by
  have h0 : 0 < hi - lo := by linarith
  rw [uniformLaw, integral_smul_measure, ENNReal.toReal_inv, ENNReal.toReal_ofReal h0.le, intervalIntegral.integral_of_le h.le,
    Measure.restrict_congr_set Ico_ae_eq_Ioc, smul_eq_mul]

theorem dirMean_mul (k : ℝ) (f h : ℝ → ℝ) : dirMean (fun phi c => k * f phi * h c)
    = k * ((2 * Real.pi)⁻¹ * ∫ phi in (0 : ℝ)..2 * Real.pi, f phi) * (2⁻¹ * ∫ c in (-1 : ℝ)..1, h c) := by
  have hp := Real.pi_pos
  unfold dirMean
  simp only [integral_const_mul]
  rw [integral_mul_const, integral_const_mul, uniform_integral (by linarith), uniform_integral (by norm_num)]
  norm_num

theorem cos_whole : (∫ phi in (0 : ℝ)..2 * Real.pi, Real.cos phi) = 0 := by simp
theorem sin_whole : (∫ phi in (0 : ℝ)..2 * Real.pi, Real.sin phi) = 0 := by simp
theorem cos_sq_whole : (∫ phi in (0 : ℝ)..2 * Real.pi, Real.cos phi ^ 2) = Real.pi := by rw [integral_cos_sq]; simp
theorem sin_sq_whole : (∫ phi in (0 : ℝ)..2 * Real.pi, Real.sin phi ^ 2) = Real.pi := by rw [integral_sin_sq]; simp
theorem sin_cos_whole : (∫ phi in (0 : ℝ)..2 * Real.pi, Real.sin phi * Real.cos phi) = 0 := by
  rw [integral_sin_mul_cos₁]; simp
theorem sq_whole : (∫ c in (-1 : ℝ)..1, c ^ 2) = 2 / 3 := by rw [integral_pow]; norm_num
theorem rest_whole : (∫ c in (-1 : ℝ)..1, Real.sqrt (1 - c ^ 2) ^ 2) = 4 / 3 := by
  have : (∫ c in (-1 : ℝ)..1, Real.sqrt (1 - c ^ 2) ^ 2) = ∫ c in (-1 : ℝ)..1, (1 - c ^ 2) := by
    refine intervalIntegral.integral_congr fun c hc => ?_
    rw [uIcc_of_le (by norm_num)] at hc
    exact Real.sq_sqrt (by nlinarith [hc.1, hc.2])
  rw [this, intervalIntegral.integral_sub (by simp) (by exact (continuous_pow 2).intervalIntegrable _ _), sq_whole]
  norm_num

/-- **C93**: the directions favour none. The mean momentum is zero, the components are not correlated, and each of the three
has a third of the square. -/
theorem isotropic {g : ℝ} (hg : 1 ≤ g) (i j : Fin 3) :
    dirMean (fun phi c => momentum g phi c i) = 0 ∧
    dirMean (fun phi c => momentum g phi c i * momentum g phi c j) = if i = j then (g ^ 2 - 1) / 3 else 0 := by
  have hp := Real.pi_pos
  have hu : Real.sqrt (g ^ 2 - 1) * Real.sqrt (g ^ 2 - 1) = g ^ 2 - 1 := Real.mul_self_sqrt (by nlinarith)
  have m0 : dirMean (fun phi c => momentum g phi c 0) = 0 := by
    have := dirMean_mul (Real.sqrt (g ^ 2 - 1)) Real.cos fun c => Real.sqrt (1 - c ^ 2)
    rw [cos_whole] at this
    simp only [mul_zero, zero_mul] at this
    rw [← this]
    congr 1; funext phi c; simp only [momentum]; ring
  have m1 : dirMean (fun phi c => momentum g phi c 1) = 0 := by
    have := dirMean_mul (Real.sqrt (g ^ 2 - 1)) Real.sin fun c => Real.sqrt (1 - c ^ 2)
    rw [sin_whole] at this
    simp only [mul_zero, zero_mul] at this
    rw [← this]
    congr 1; funext phi c; simp only [momentum]; ring
  have m2 : dirMean (fun phi c => momentum g phi c 2) = 0 := by
    have := dirMean_mul (Real.sqrt (g ^ 2 - 1)) (fun _ => 1) fun c => c
    have e : (∫ c in (-1 : ℝ)..1, c) = 0 := by rw [integral_id]; norm_num
    rw [e] at this
    simp only [mul_zero] at this
    rw [← this]
    congr 1; funext phi c; simp only [momentum]; ring
  have s00 : dirMean (fun phi c => momentum g phi c 0 * momentum g phi c 0) = (g ^ 2 - 1) / 3 := by
    have := dirMean_mul (Real.sqrt (g ^ 2 - 1) * Real.sqrt (g ^ 2 - 1)) (fun phi => Real.cos phi ^ 2) fun c => Real.sqrt (1 - c ^ 2) ^ 2
    rw [cos_sq_whole, rest_whole, hu] at this
    refine Eq.trans ?_ (this.trans (by field_simp; norm_num))
    congr 1; funext phi c; simp only [momentum]; linear_combination (Real.sqrt (1 - c ^ 2) ^ 2 * Real.cos phi ^ 2) * hu
  have s11 : dirMean (fun phi c => momentum g phi c 1 * momentum g phi c 1) = (g ^ 2 - 1) / 3 := by
    have := dirMean_mul (Real.sqrt (g ^ 2 - 1) * Real.sqrt (g ^ 2 - 1)) (fun phi => Real.sin phi ^ 2) fun c => Real.sqrt (1 - c ^ 2) ^ 2
    rw [sin_sq_whole, rest_whole, hu] at this
    refine Eq.trans ?_ (this.trans (by field_simp; norm_num))
    congr 1; funext phi c; simp only [momentum]; linear_combination (Real.sqrt (1 - c ^ 2) ^ 2 * Real.sin phi ^ 2) * hu
  have s22 : dirMean (fun phi c => momentum g phi c 2 * momentum g phi c 2) = (g ^ 2 - 1) / 3 := by
    have := dirMean_mul (Real.sqrt (g ^ 2 - 1) * Real.sqrt (g ^ 2 - 1)) (fun _ => 1) fun c => c ^ 2
    rw [sq_whole, hu] at this
    refine Eq.trans ?_ (this.trans (by simp; field_simp))
    congr 1; funext phi c; simp only [momentum]; linear_combination (c ^ 2) * hu
  have s01 : dirMean (fun phi c => momentum g phi c 0 * momentum g phi c 1) = 0 := by
    have := dirMean_mul (Real.sqrt (g ^ 2 - 1) * Real.sqrt (g ^ 2 - 1)) (fun phi => Real.sin phi * Real.cos phi) fun c => Real.sqrt (1 - c ^ 2) ^ 2
    rw [sin_cos_whole] at this
    simp only [mul_zero, zero_mul] at this
    rw [← this]
    congr 1; funext phi c; simp only [momentum]; ring
  have s02 : dirMean (fun phi c => momentum g phi c 0 * momentum g phi c 2) = 0 := by
    have := dirMean_mul (Real.sqrt (g ^ 2 - 1) * Real.sqrt (g ^ 2 - 1)) Real.cos fun c => Real.sqrt (1 - c ^ 2) * c
    rw [cos_whole] at this
    simp only [mul_zero, zero_mul] at this
    rw [← this]
    congr 1; funext phi c; simp only [momentum]; ring
  have s12 : dirMean (fun phi c => momentum g phi c 1 * momentum g phi c 2) = 0 := by
    have := dirMean_mul (Real.sqrt (g ^ 2 - 1) * Real.sqrt (g ^ 2 - 1)) Real.sin fun c => Real.sqrt (1 - c ^ 2) * c
    rw [sin_whole] at this
    simp only [mul_zero, zero_mul] at this
    rw [← this]
    congr 1; funext phi c; simp only [momentum]; ring
  have comm : ∀ i j : Fin 3, dirMean (fun phi c => momentum g phi c i * momentum g phi c j)
      = dirMean (fun phi c => momentum g phi c j * momentum g phi c i) := by
    intro i j
    congr 1; funext phi c; ring
  constructor
  · fin_cases i
    · exact m0
    · exact m1
    · exact m2
  · fin_cases i <;> fin_cases j
    · exact s00
    · exact s01
    · exact s02
    · exact (comm 1 0).trans s01
    · exact s11
    · exact s12
    · exact (comm 2 0).trans s02
    · exact (comm 2 1).trans s12
    · exact s22

/-- **C93**: so along every axis the mean of momentum times velocity in the Maxwell-Jüttner distribution is the temperature -/
theorem axis_temperature {theta : ℝ} (ht : 0 < theta) (i : Fin 3) :
    (∫⁻ g, ENNReal.ofReal (dirMean (fun phi c => momentum g phi c i * (momentum g phi c i / g))) ∂juttner theta)
      = ENNReal.ofReal theta := by
  have hae : ∀ᵐ g ∂juttner theta, g ∈ Ioi (1 : ℝ) := by
    unfold juttner thermal
    refine Measure.ae_smul_measure ?_ _
    exact (withDensity_absolutelyContinuous _ _).ae_le (ae_restrict_mem measurableSet_Ioi)
  have e : (∫⁻ g, ENNReal.ofReal (dirMean (fun phi c => momentum g phi c i * (momentum g phi c i / g))) ∂juttner theta)
      = ∫⁻ g, ENNReal.ofReal (1 / 3) * ENNReal.ofReal (virial g) ∂juttner theta := by
    refine lintegral_congr_ae (hae.mono fun g hg => ?_)
    have hg1 : 1 < g := hg
    show ENNReal.ofReal _ = ENNReal.ofReal (1 / 3) * ENNReal.ofReal (virial g)
    rw [← ENNReal.ofReal_mul (by norm_num)]
    congr 1
    have h := (isotropic hg1.le i i).2
    rw [if_pos rfl] at h
    have h2 : dirMean (fun phi c => momentum g phi c i * (momentum g phi c i / g))
        = dirMean (fun phi c => momentum g phi c i * momentum g phi c i) * g⁻¹ := by
      unfold dirMean
      rw [← integral_mul_const]
      refine integral_congr_ae (ae_of_all _ fun phi => ?_)
      show _ = (∫ c, _ ∂_) * g⁻¹
      rw [← integral_mul_const]
      refine integral_congr_ae (ae_of_all _ fun c => ?_)
      show _ * (_ / g) = _ * _ * g⁻¹
      rw [div_eq_mul_inv, mul_assoc]
    rw [h2, h]
    unfold virial
    have : g ≠ 0 := by positivity
    field_simp
  rw [e, lintegral_const_mul' _ _ ENNReal.ofReal_ne_top, juttner_temperature ht, ← ENNReal.ofReal_mul (by norm_num)]
  congr 1
  ring

/-! ## Examples -/

/-- at twice `mc²` the loop for two particles ends with probability one, and the energies have the right distribution -/
example : Tendsto (fun fuel => energies 1 1 2 fuel 2 fun _ => 1) atTop (𝓝 (iid (juttner 2) 2 fun _ => 1)) :=
  hot_energies 1 1 (by norm_num) 2 (fun _ => 1) 1 ENNReal.one_ne_top fun _ => le_rfl

/-- at a tenth of `mc²`, with a bound on the density that holds -/
example : Tendsto (fun fuel => energies 1 40 (1 / 10) fuel 2 fun _ => 1) atTop
    (𝓝 (iid (thermal (1 / 10) (Ico 1 (1 + 10 * (1 / 10)))) 2 fun _ => 1)) := by
  refine warm_energies_partial (by norm_num) (by norm_num) one_pos (by norm_num) (fun x h1 h2 => ?_) 2 (fun _ => 1) 1
    ENNReal.one_ne_top fun _ => le_rfl
  unfold pdf
  have hx : x ^ 2 ≤ 4 := by nlinarith
  have hs := root_le_one x
  have hs0 := Real.sqrt_nonneg (1 - 1 / x ^ 2)
  have he : Real.exp (-x / (1 / 10)) ≤ 1 := Real.exp_le_one_iff.mpr (by linarith)
  have h3 : x ^ 2 * Real.sqrt (1 - 1 / x ^ 2) ≤ 4 := by nlinarith [sq_nonneg x]
  have h4 : 0 ≤ x ^ 2 * Real.sqrt (1 - 1 / x ^ 2) := by positivity
  have he0 := Real.exp_nonneg (-x / (1 / 10))
  have h5 : x ^ 2 * Real.sqrt (1 - 1 / x ^ 2) / (1 / 10 * 1) ≤ 40 := by
    rw [div_le_iff₀ (by norm_num)]
    linarith
  have h6 : 0 ≤ x ^ 2 * Real.sqrt (1 - 1 / x ^ 2) / (1 / 10 * 1) := by positivity
  nlinarith

/-- at `mc²/200` -/
example : energies 1 1 (1 / 200) 0 3 (fun _ => 1) = iid (cold (1 / 200)) 3 fun _ => 1 :=
  (cold_energies_partial 1 1 (by norm_num) (by norm_num) 0 3 _).1

end Verif.Juttner
