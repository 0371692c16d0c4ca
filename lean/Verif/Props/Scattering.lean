import Verif.Proofs.Scattering
import Verif.Props.Coulomb
import Mathlib.Analysis.Complex.ExponentialBounds
/-!
# C94: how far collisions turn particles in the mean
-/
namespace Verif.Scattering
open Verif.Coulomb Filter
open scoped Topology

/-! ## Specification -/

/-- the mean over a number that is uniform in `[0, 1)` and an angle that is uniform in `[0, 2π)` -/
noncomputable def mean (f : ℝ → ℝ → ℝ) : ℝ := (2 * Real.pi)⁻¹ * ∫ U in (0 : ℝ)..1, ∫ phi in (0 : ℝ)..2 * Real.pi, f U phi

/-- the mean of a vector -/
noncomputable def meanV (f : ℝ → ℝ → V3) : V3 :=
  ⟨mean fun U phi => (f U phi).x, mean fun U phi => (f U phi).y, mean fun U phi => (f U phi).z⟩

/-- the mean cosine of the scattering angle, for the collision parameter `s` -/
noncomputable def meanCos (s : ℝ) : ℝ := ∫ U in (0 : ℝ)..1, (angle s U).1

/-- the velocity of the frame in which the momenta of two particles are opposite -/
noncomputable def pairVelocity (K : Consts) (A B : Kind) (a b : Part) : V3 :=
  let pa := momentum K A a
  let pb := momentum K B b
  let m := mg A a + mg B b
  ⟨(pa.x + pb.x) / m, (pa.y + pb.y) / m, (pa.z + pb.z) / m⟩

/-- the momentum a particle would have if it was at rest in the pair's frame with its energy of that frame, as a multiple of
the velocity `v` of the frame: `γ² (γ_a m_a - p_a · v / c²)` -/
noncomputable def carried (K : Consts) (A : Kind) (a : Part) (v : V3) : ℝ :=
  K.c ^ 2 / (K.c ^ 2 - dot v v) * (mg A a - dot (momentum K A a) v / K.c ^ 2)

/-! ## The mean cosine -/

/-- **C94**: the mean cosine of the scattering angle in closed form -/
theorem mean_cosine {s : ℝ} (h : 0 ≤ s) : meanCos s = if s < 4 then
      1 - 4 * (37 / 100 * s - 5 / 1000 * s ^ 2 - 64 / 10000 * s ^ 3) * (2 + (37 / 100 * s - 5 / 1000 * s ^ 2 - 64 / 10000 * s ^ 3)) /
        (3 * (1 + (37 / 100 * s - 5 / 1000 * s ^ 2 - 64 / 10000 * s ^ 3)) ^ 2)
    else 0 := integral_cos h

/-- **C94, partial**: for every collision parameter the mean cosine is that of many Coulomb collisions, `exp (-s)`, up to 1/40.
Missing: equality, see `small_angle_fails`. -/
theorem mean_cosine_partial {s : ℝ} (h : 0 ≤ s) : |meanCos s - Real.exp (-s)| ≤ 1 / 40 := by
  rw [meanCos, integral_cos h]
  split
  next h4 => exact near_exp h h4
  next h4 =>
    have h4 := not_lt.mp h4
    have h0 := Real.exp_pos (-s)
    have h1 : Real.exp (-s) ≤ 1 / 40 := by
      have e2 : Real.exp (-s) ≤ Real.exp (-1) ^ 4 := by
        rw [← Real.exp_nat_mul]
        refine Real.exp_le_exp.mpr ?_
        norm_num
        linarith
      refine e2.trans ((pow_le_pow_left₀ (Real.exp_nonneg _) Real.exp_neg_one_lt_d9.le 4).trans ?_)
      norm_num
    rw [abs_le]
    constructor <;> linarith

/-- **C94**: the stronger the collisions, the smaller the mean cosine; without collisions it is 1 -/
theorem more_turning {s t : ℝ} (h : 0 ≤ s) (hst : s ≤ t) : meanCos t ≤ meanCos s ∧ meanCos 0 = 1 := by
  have pos : ∀ {s : ℝ}, 0 ≤ s → s < 4 → 0 ≤ meanOf (alpha s) := by
    intro s h0 h4
    obtain ⟨h1, h2⟩ := alpha_range h0 h4.le
    unfold meanOf
    rw [sub_nonneg, div_le_one (by positivity)]
    nlinarith
  refine ⟨?_, ?_⟩
  · rw [meanCos, meanCos, integral_cos h, integral_cos (h.trans hst)]
    by_cases ht : t < 4
    · rw [if_pos ht, if_pos (lt_of_le_of_lt hst ht)]
      rcases eq_or_lt_of_le hst with e | e
      · rw [e]
      · exact (meanOf_strict (alpha_range h (hst.trans ht.le)).1 (alpha_strict h e ht.le)).le
    · rw [if_neg ht]
      split
      next h4 => exact pos h h4
      next => exact le_rfl
  · rw [mean_cosine le_rfl]
    norm_num

/-- **C94 fails** exactly: for weak collisions (short time steps) the mean turning is 74/75 of what it should be, so friction
and diffusion are too small by more than a percent however short the time step -/
theorem small_angle_fails :
    Tendsto (fun s => (1 - meanCos s) / s) (𝓝[>] 0) (𝓝 (74 / 75)) ∧
    Tendsto (fun s => (1 - Real.exp (-s)) / s) (𝓝[>] 0) (𝓝 1) := by
  constructor
  · have hc : ContinuousAt (fun s : ℝ => 4 * (37 / 100 - 5 / 1000 * s - 64 / 10000 * s ^ 2) * (2 + alpha s) / (3 * (1 + alpha s) ^ 2)) 0 := by
      have ha : ContinuousAt alpha 0 := by unfold alpha; fun_prop
      refine ContinuousAt.div (by fun_prop) (by fun_prop) ?_
      norm_num [alpha]
    have h := (hc.tendsto).mono_left (nhdsWithin_le_nhds (s := Set.Ioi 0))
    have e : 4 * (37 / 100 - 5 / 1000 * (0 : ℝ) - 64 / 10000 * 0 ^ 2) * (2 + alpha 0) / (3 * (1 + alpha 0) ^ 2) = 74 / 75 := by
      norm_num [alpha]
    rw [e] at h
    refine h.congr' ?_
    have : Set.Ioo (0 : ℝ) 4 ∈ 𝓝[>] (0 : ℝ) := Ioo_mem_nhdsGT (by norm_num)
    filter_upwards [this] with s hs
    rw [meanCos, integral_cos hs.1.le, if_pos hs.2]
    obtain ⟨h1, _⟩ := alpha_range hs.1.le hs.2.le
    have hs0 : s ≠ 0 := hs.1.ne'
    unfold meanOf
    have e2 : alpha s = s * (37 / 100 - 5 / 1000 * s - 64 / 10000 * s ^ 2) := by unfold alpha; ring
    have h3 : 1 + alpha s ≠ 0 := by positivity
    rw [eq_div_iff hs0, sub_sub_cancel, div_mul_eq_mul_div]
    congr 1
    rw [e2]
    ring
  · have hd : HasDerivAt (fun s : ℝ => 1 - Real.exp (-s)) 1 0 := by
      have := ((hasDerivAt_neg (0 : ℝ)).exp).const_sub 1
      simpa using this
    have := hd.tendsto_slope
    refine (this.mono_left (nhdsWithin_mono _ fun x (hx : x ∈ Set.Ioi (0 : ℝ)) => ne_of_gt hx)).congr fun s => ?_
    simp [slope_def_field]

/-! ## The mean momentum -/

theorem mean_wave (f : ℝ → ℝ → ℝ) (A B C : ℝ → ℝ) (h : ∀ U phi, f U phi = A U * Real.cos phi + B U * Real.sin phi + C U) :
    mean f = ∫ U in (0 : ℝ)..1, C U := by
  have hp := Real.pi_pos
  have inner : ∀ U, (∫ phi in (0 : ℝ)..2 * Real.pi, f U phi) = 2 * Real.pi * C U := by
    intro U
    simp only [h]
    have i1 : IntervalIntegrable (fun phi => A U * Real.cos phi) MeasureTheory.volume 0 (2 * Real.pi) :=
      Continuous.intervalIntegrable (by fun_prop) _ _
    have i2 : IntervalIntegrable (fun phi => B U * Real.sin phi) MeasureTheory.volume 0 (2 * Real.pi) :=
      Continuous.intervalIntegrable (by fun_prop) _ _
    rw [intervalIntegral.integral_add (i1.add i2) (by simp), intervalIntegral.integral_add i1 i2,
      intervalIntegral.integral_const_mul, intervalIntegral.integral_const_mul]
    simp
  unfold mean
  simp only [inner]
  rw [intervalIntegral.integral_const_mul, ← mul_assoc, inv_mul_cancel₀ (by positivity), one_mul]

/-- **C94, partial**: in the frame of the pair the mean momentum after the collision is the old one times the mean cosine: no
direction is favoured. Missing: momenta along the z axis, see `mean_momentum_fails`. -/
theorem mean_momentum_partial (K : Consts) (A B : Kind) (d : Data) (cellVol dt lnL : ℝ) (h0 : d.pLen ≠ 0)
    (hz : d.pPerp > 1 / 10 ^ 10 * d.pLen) :
    let m := meanCos (sParam K A B d cellVol dt lnL)
    meanV (fun U phi => scatter K A B d cellVol dt lnL U phi) = ⟨m * d.p1.x, m * d.p1.y, m * d.p1.z⟩ := by
  intro m
  have e : ∀ U phi, scatter K A B d cellVol dt lnL U phi = rotate d.p1 d.pLen d.pPerp
      (angle (sParam K A B d cellVol dt lnL) U).1 (angle (sParam K A B d cellVol dt lnL) U).2 phi := by
    intro U phi
    unfold scatter
    rw [if_neg h0]
  have hm : m = ∫ U in (0 : ℝ)..1, (angle (sParam K A B d cellVol dt lnL) U).1 := rfl
  unfold meanV
  simp only [e]
  rw [V3.mk.injEq]
  generalize sParam K A B d cellVol dt lnL = s at *
  refine ⟨?_, ?_, ?_⟩
  · rw [mean_wave _ (fun U => d.p1.x * d.p1.z * (angle s U).2 / d.pPerp) (fun U => -(d.p1.y * d.pLen * (angle s U).2 / d.pPerp))
      (fun U => d.p1.x * (angle s U).1), intervalIntegral.integral_const_mul, hm, mul_comm]
    intro U phi
    unfold rotate
    rw [if_pos hz]
    dsimp only
    ring
  · rw [mean_wave _ (fun U => d.p1.y * d.p1.z * (angle s U).2 / d.pPerp) (fun U => d.p1.x * d.pLen * (angle s U).2 / d.pPerp)
      (fun U => d.p1.y * (angle s U).1), intervalIntegral.integral_const_mul, hm, mul_comm]
    intro U phi
    unfold rotate
    rw [if_pos hz]
    dsimp only
    ring
  · rw [mean_wave _ (fun U => -d.pPerp * (angle s U).2) (fun _ => 0)
      (fun U => d.p1.z * (angle s U).1), intervalIntegral.integral_const_mul, hm, mul_comm]
    intro U phi
    unfold rotate
    rw [if_pos hz]
    dsimp only
    ring

/-- **C94 fails** for a momentum against the z axis: the mean momentum after the collision points in the opposite direction -/
theorem mean_momentum_fails (K : Consts) (A B : Kind) (d : Data) (cellVol dt lnL q : ℝ) (hq : 0 < q) (hp : d.p1 = ⟨0, 0, -q⟩)
    (hl : d.pLen = q) (ht : d.pPerp = 0) :
    let m := meanCos (sParam K A B d cellVol dt lnL)
    meanV (fun U phi => scatter K A B d cellVol dt lnL U phi) = ⟨-m * d.p1.x, -m * d.p1.y, -m * d.p1.z⟩ := by
  intro m
  have e : ∀ U phi, scatter K A B d cellVol dt lnL U phi = rotate d.p1 d.pLen d.pPerp
      (angle (sParam K A B d cellVol dt lnL) U).1 (angle (sParam K A B d cellVol dt lnL) U).2 phi := by
    intro U phi
    unfold scatter
    rw [if_neg (by rw [hl]; exact hq.ne')]
  have hz : ¬ d.pPerp > 1 / 10 ^ 10 * d.pLen := by
    rw [hl, ht]
    have : 0 < 1 / 10 ^ 10 * q := by positivity
    linarith
  have hm : m = ∫ U in (0 : ℝ)..1, (angle (sParam K A B d cellVol dt lnL) U).1 := rfl
  unfold meanV
  simp only [e]
  rw [V3.mk.injEq]
  generalize sParam K A B d cellVol dt lnL = s at *
  refine ⟨?_, ?_, ?_⟩
  · rw [mean_wave _ (fun U => d.pLen * (angle s U).2) (fun _ => 0) (fun _ => 0)]
    · rw [hp]; simp
    · intro U phi
      unfold rotate
      rw [if_neg hz]
      dsimp only
      ring
  · rw [mean_wave _ (fun _ => 0) (fun U => d.pLen * (angle s U).2) (fun _ => 0)]
    · rw [hp]; simp
    · intro U phi
      unfold rotate
      rw [if_neg hz]
      dsimp only
      ring
  · rw [mean_wave _ (fun _ => 0) (fun _ => 0) (fun U => d.pLen * (angle s U).1)]
    · rw [intervalIntegral.integral_const_mul, ← hm, hp, hl]
      ring
    · intro U phi
      unfold rotate
      rw [if_neg hz]
      dsimp only
      ring

/-! ## In the laboratory -/

theorem mean_linear (K : Consts) (A B : Kind) (d : Data) (cellVol dt lnL : ℝ) (h0 : d.pLen ≠ 0)
    (hz : d.pPerp > 1 / 10 ^ 10 * d.pLen) (hs : 0 ≤ sParam K A B d cellVol dt lnL) (l0 l1 l2 l3 : ℝ) :
    mean (fun U phi => l0 + l1 * (scatter K A B d cellVol dt lnL U phi).x + l2 * (scatter K A B d cellVol dt lnL U phi).y
        + l3 * (scatter K A B d cellVol dt lnL U phi).z)
      = l0 + meanCos (sParam K A B d cellVol dt lnL) * (l1 * d.p1.x + l2 * d.p1.y + l3 * d.p1.z) := by
  have e : ∀ U phi, scatter K A B d cellVol dt lnL U phi = rotate d.p1 d.pLen d.pPerp
      (angle (sParam K A B d cellVol dt lnL) U).1 (angle (sParam K A B d cellVol dt lnL) U).2 phi := by
    intro U phi
    unfold scatter
    rw [if_neg h0]
  simp only [e]
  unfold meanCos
  generalize sParam K A B d cellVol dt lnL = s at hs ⊢
  have hw := mean_wave (fun U phi => l0 + l1 * (rotate d.p1 d.pLen d.pPerp (angle s U).1 (angle s U).2 phi).x
        + l2 * (rotate d.p1 d.pLen d.pPerp (angle s U).1 (angle s U).2 phi).y
        + l3 * (rotate d.p1 d.pLen d.pPerp (angle s U).1 (angle s U).2 phi).z)
    (fun U => (angle s U).2 * (l1 * (d.p1.x * d.p1.z / d.pPerp) + l2 * (d.p1.y * d.p1.z / d.pPerp) - l3 * d.pPerp))
    (fun U => (angle s U).2 * (-l1 * (d.p1.y * d.pLen / d.pPerp) + l2 * (d.p1.x * d.pLen / d.pPerp)))
    (fun U => l0 + (l1 * d.p1.x + l2 * d.p1.y + l3 * d.p1.z) * (angle s U).1) (by
      intro U phi
      unfold rotate
      rw [if_pos hz]
      dsimp only
      ring)
  rw [hw]
  have hint : IntervalIntegrable (fun U => (angle s U).1) MeasureTheory.volume 0 1 := angle_integrable hs
  rw [intervalIntegral.integral_add (by simp) (hint.const_mul _), intervalIntegral.integral_const_mul]
  simp only [intervalIntegral.integral_const, sub_zero, one_smul]
  ring

theorem momentum_set {K : Consts} {A : Kind} (hc : 0 < K.c) (hA : 0 < A.m) (a : Part) (p : V3) :
    momentum K A (setMomentum K A a p) = p := by
  unfold momentum setMomentum
  dsimp only
  have : p = ⟨p.x, p.y, p.z⟩ := rfl
  conv_rhs => rw [this]
  rw [V3.mk.injEq]
  refine ⟨?_, ?_, ?_⟩ <;> field_simp

theorem pair_velocity {K : Consts} {A B : Kind} {a b : Part} {d : Data} {f : ℝ} (hA : 0 < A.m) (hB : 0 < B.m)
    (hd : DataOk K A B a b d f) : pairVelocity K A B a b = d.v := by
  have h1 := mg_pos hA a
  have h2 := mg_pos hB b
  have h3 : mg A a + mg B b ≠ 0 := by positivity
  obtain ⟨tx, ty, tz⟩ := hd.total
  unfold pairVelocity
  dsimp only
  have : d.v = ⟨d.v.x, d.v.y, d.v.z⟩ := rfl
  rw [this, V3.mk.injEq, ← tx, ← ty, ← tz]
  refine ⟨?_, ?_, ?_⟩ <;> field_simp

theorem carried_eq {K : Consts} {A B : Kind} {a b : Part} {d : Data} {f : ℝ} (hd : DataOk K A B a b d f) :
    A.m * d.gamma1Com * d.gammaCom = carried K A a d.v := by
  have hF := hd.frame
  have hlt := hF.v_lt
  have hg := hF.g_eq
  have h1 : K.c ^ 2 - dot d.v d.v ≠ 0 := by linarith
  have : d.gammaCom ^ 2 = K.c ^ 2 / (K.c ^ 2 - dot d.v d.v) := by rw [eq_div_iff h1]; exact hg
  unfold carried
  rw [hd.e1, ← this]
  unfold bE
  ring

/-- the linear part of the boost takes the momentum in the pair's frame to the momentum relative to the frame -/
theorem lab_relative {K : Consts} {A B : Kind} {a b : Part} {d : Data} {f : ℝ} (hd : DataOk K A B a b d f) :
    d.p1.x + f * dot d.p1 d.v * d.v.x = (momentum K A a).x - carried K A a d.v * d.v.x ∧
    d.p1.y + f * dot d.p1 d.v * d.v.y = (momentum K A a).y - carried K A a d.v * d.v.y ∧
    d.p1.z + f * dot d.p1 d.v * d.v.z = (momentum K A a).z - carried K A a d.v * d.v.z := by
  have hF := hd.frame
  have hc := hF.c_pos
  have hfv := hF.f_v
  have hf := hF.f_eq
  have hdot : dot d.p1 d.v = d.gammaCom * dot (momentum K A a) d.v - d.gammaCom * mg A a * dot d.v d.v := by
    rw [hd.p1]
    unfold bp
    generalize momentum K A a = p at *
    have : dot (⟨p.x + (f * dot p d.v - d.gammaCom * mg A a) * d.v.x, p.y + (f * dot p d.v - d.gammaCom * mg A a) * d.v.y,
        p.z + (f * dot p d.v - d.gammaCom * mg A a) * d.v.z⟩ : V3) d.v
        = dot p d.v + (f * dot p d.v - d.gammaCom * mg A a) * dot d.v d.v := by
      unfold dot; dsimp only; ring
    rw [this]
    linear_combination dot p d.v * hfv
  have hcar : carried K A a d.v = d.gammaCom ^ 2 * mg A a - f * (d.gammaCom + 1) * dot (momentum K A a) d.v := by
    rw [← carried_eq hd, hd.e1]
    unfold bE
    have : f * (d.gammaCom + 1) = d.gammaCom ^ 2 / K.c ^ 2 := by rw [eq_div_iff (by positivity)]; exact hf
    rw [this]
    ring
  have key : f * dot (momentum K A a) d.v - d.gammaCom * mg A a + f * dot d.p1 d.v + carried K A a d.v = 0 := by
    rw [hdot, hcar]
    linear_combination (-d.gammaCom * mg A a) * hfv
  have e : d.p1.x = (momentum K A a).x + (f * dot (momentum K A a) d.v - d.gammaCom * mg A a) * d.v.x ∧
      d.p1.y = (momentum K A a).y + (f * dot (momentum K A a) d.v - d.gammaCom * mg A a) * d.v.y ∧
      d.p1.z = (momentum K A a).z + (f * dot (momentum K A a) d.v - d.gammaCom * mg A a) * d.v.z := by
    rw [hd.p1]
    exact ⟨rfl, rfl, rfl⟩
  obtain ⟨ex, ey, ez⟩ := e
  refine ⟨?_, ?_, ?_⟩
  · linear_combination ex + d.v.x * key
  · linear_combination ey + d.v.y * key
  · linear_combination ez + d.v.z * key

theorem select_mean {rho x y : ℝ} (h0 : 0 ≤ rho) (h1 : rho ≤ 1) :
    ∫ t in (0 : ℝ)..1, (if rho > t then x else y) = rho * x + (1 - rho) * y := by
  have i : ∀ u v : ℝ, IntervalIntegrable (fun t : ℝ => if rho > t then x else y) MeasureTheory.volume u v := by
    intro u v
    have hm : Measurable fun t : ℝ => if rho > t then x else y :=
      Measurable.ite measurableSet_Iio measurable_const measurable_const
    refine (intervalIntegrable_const (c := max |x| |y|)).mono_fun' hm.aestronglyMeasurable (MeasureTheory.ae_of_all _ fun t => ?_)
    dsimp only
    rw [Real.norm_eq_abs]
    split
    · exact le_max_left _ _
    · exact le_max_right _ _
  rw [← intervalIntegral.integral_add_adjacent_intervals (i 0 rho) (i rho 1)]
  have e1 : ∫ t in (0 : ℝ)..rho, (if rho > t then x else y) = ∫ _t in (0 : ℝ)..rho, x := by
    refine intervalIntegral.integral_congr_ae ?_
    have : ∀ᵐ t : ℝ, t ≠ rho := by simp [MeasureTheory.ae_iff]
    refine this.mono fun t ht hmem => ?_
    rw [Set.uIoc_of_le h0] at hmem
    exact if_pos (lt_of_le_of_ne hmem.2 ht)
  have e2 : ∫ t in rho..(1 : ℝ), (if rho > t then x else y) = ∫ _t in rho..(1 : ℝ), y := by
    refine intervalIntegral.integral_congr_ae (MeasureTheory.ae_of_all _ fun t hmem => ?_)
    rw [Set.uIoc_of_le h1] at hmem
    exact if_neg (not_lt.mpr hmem.1.le)
  rw [e1, e2]
  simp

/-- **C94, partial**: the mean momentum transfer of a collision in the laboratory, for all masses, momenta, weights, densities and
time steps. In the mean each particle loses the share `1 - (mean cosine)` of its momentum relative to the frame of the pair,
times the probability that it takes part, the weight of the other divided by the larger one. Missing: pairs that approach each
other along the z axis. -/
theorem mean_transfer_partial (K : Consts) (A B : Kind) (P : Params) (r : Draws) (h : Admissible K A B P r) (a b : Part)
    (ha : Consistent a) (hb : Consistent b) (hwa : 0 < a.w) (hwb : 0 < b.w) :
    let d := collisionData K ⟨a.u, a.invGamma, a.w * P.wCorr⟩ A ⟨b.u, b.invGamma, b.w * P.wCorr⟩ B
    d.pLen ≠ 0 → d.pPerp > 1 / 10 ^ 10 * d.pLen →
    let m := meanCos (sParam K A B d P.cellVol (P.dt * P.dtCorr)
      (if P.lnLambda > 0 then P.lnLambda else varyingLnLambda K A B d P.debyeInvSq))
    let v := pairVelocity K A B a b
    let old := momentum K A a
    let share := b.w / max a.w b.w * (1 - m)
    meanV (fun U phi => ⟨∫ t in (0 : ℝ)..1, (momentum K A (kernel K A B P ⟨U, phi, t⟩ a b).1).x,
        ∫ t in (0 : ℝ)..1, (momentum K A (kernel K A B P ⟨U, phi, t⟩ a b).1).y,
        ∫ t in (0 : ℝ)..1, (momentum K A (kernel K A B P ⟨U, phi, t⟩ a b).1).z⟩)
      = ⟨old.x - share * (old.x - carried K A a v * v.x), old.y - share * (old.y - carried K A a v * v.y),
          old.z - share * (old.z - carried K A a v * v.z)⟩ := by
  intro d h0 hz m v old share
  obtain ⟨f, hd⟩ := data_ok (K := K) h.c h.mA h.mB ha hb (a.w * P.wCorr) (b.w * P.wCorr)
  replace hd : DataOk K A B a b d f := hd
  have hv : v = d.v := pair_velocity h.mA h.mB hd
  have hw1 : 0 < a.w * P.wCorr := mul_pos hwa h.wCorr
  have hwc := h.wCorr
  have hmax : max (a.w * P.wCorr) (b.w * P.wCorr) = max a.w b.w * P.wCorr := (max_mul_of_nonneg _ _ hwc.le).symm
  have hm0 : 0 < max a.w b.w := lt_max_of_lt_left hwa
  have hrho : b.w * P.wCorr / max (a.w * P.wCorr) (b.w * P.wCorr) = b.w / max a.w b.w := by
    rw [hmax, mul_div_mul_right _ _ hwc.ne']
  set rho := b.w / max a.w b.w with hrd
  have r0 : 0 ≤ rho := by positivity
  have r1 : rho ≤ 1 := (div_le_one hm0).mpr (le_max_right _ _)
  set lnL := if P.lnLambda > 0 then P.lnLambda else varyingLnLambda K A B d P.debyeInvSq with hln
  have hs := sParam_nonneg h hd hw1.le lnL (lnLambda_nonneg h d)
  have hk : ∀ U phi t, momentum K A (kernel K A B P ⟨U, phi, t⟩ a b).1 = if rho > t then
      boostToLab (scatter K A B d P.cellVol (P.dt * P.dtCorr) lnL U phi) d.gamma1Com A.m d.v d.v2 d.gammaCom else old := by
    intro U phi t
    unfold kernel
    dsimp only
    rw [if_neg h0, hrho]
    split
    · rw [momentum_set h.c h.mA]
    · rfl
  have hkx : ∀ U phi, (∫ t in (0 : ℝ)..1, (momentum K A (kernel K A B P ⟨U, phi, t⟩ a b).1).x)
      = rho * (boostToLab (scatter K A B d P.cellVol (P.dt * P.dtCorr) lnL U phi) d.gamma1Com A.m d.v d.v2 d.gammaCom).x
        + (1 - rho) * old.x := by
    intro U phi
    rw [← select_mean r0 r1]
    refine intervalIntegral.integral_congr fun t _ => ?_
    rw [hk, apply_ite V3.x]
  have hky : ∀ U phi, (∫ t in (0 : ℝ)..1, (momentum K A (kernel K A B P ⟨U, phi, t⟩ a b).1).y)
      = rho * (boostToLab (scatter K A B d P.cellVol (P.dt * P.dtCorr) lnL U phi) d.gamma1Com A.m d.v d.v2 d.gammaCom).y
        + (1 - rho) * old.y := by
    intro U phi
    rw [← select_mean r0 r1]
    refine intervalIntegral.integral_congr fun t _ => ?_
    rw [hk, apply_ite V3.y]
  have hkz : ∀ U phi, (∫ t in (0 : ℝ)..1, (momentum K A (kernel K A B P ⟨U, phi, t⟩ a b).1).z)
      = rho * (boostToLab (scatter K A B d P.cellVol (P.dt * P.dtCorr) lnL U phi) d.gamma1Com A.m d.v d.v2 d.gammaCom).z
        + (1 - rho) * old.z := by
    intro U phi
    rw [← select_mean r0 r1]
    refine intervalIntegral.integral_congr fun t _ => ?_
    rw [hk, apply_ite V3.z]
  obtain ⟨lx, ly, lz⟩ := lab_relative hd
  have hcar := carried_eq hd
  unfold meanV
  simp only [hkx, hky, hkz, lab_eq hd]
  rw [V3.mk.injEq, hv]
  have lin := mean_linear K A B d P.cellVol (P.dt * P.dtCorr) lnL h0 hz hs
  have hm : meanCos (sParam K A B d P.cellVol (P.dt * P.dtCorr) lnL) = m := rfl
  rw [hm] at lin
  refine ⟨?_, ?_, ?_⟩
  · have := lin (rho * (carried K A a d.v * d.v.x) + (1 - rho) * old.x) (rho * (1 + f * d.v.x * d.v.x))
      (rho * (f * d.v.y * d.v.x)) (rho * (f * d.v.z * d.v.x))
    rw [show old.x - share * (old.x - carried K A a d.v * d.v.x) = rho * (carried K A a d.v * d.v.x) + (1 - rho) * old.x
        + m * (rho * (1 + f * d.v.x * d.v.x) * d.p1.x + rho * (f * d.v.y * d.v.x) * d.p1.y + rho * (f * d.v.z * d.v.x) * d.p1.z) by
      unfold dot at lx
      linear_combination (-rho * m) * lx, ← this]
    congr 1
    funext U phi
    rw [← hcar]
    unfold bp dot
    dsimp only
    ring
  · have := lin (rho * (carried K A a d.v * d.v.y) + (1 - rho) * old.y) (rho * (f * d.v.x * d.v.y))
      (rho * (1 + f * d.v.y * d.v.y)) (rho * (f * d.v.z * d.v.y))
    rw [show old.y - share * (old.y - carried K A a d.v * d.v.y) = rho * (carried K A a d.v * d.v.y) + (1 - rho) * old.y
        + m * (rho * (f * d.v.x * d.v.y) * d.p1.x + rho * (1 + f * d.v.y * d.v.y) * d.p1.y + rho * (f * d.v.z * d.v.y) * d.p1.z) by
      unfold dot at ly
      linear_combination (-rho * m) * ly, ← this]
    congr 1
    funext U phi
    rw [← hcar]
    unfold bp dot
    dsimp only
    ring
  · have := lin (rho * (carried K A a d.v * d.v.z) + (1 - rho) * old.z) (rho * (f * d.v.x * d.v.z))
      (rho * (f * d.v.y * d.v.z)) (rho * (1 + f * d.v.z * d.v.z))
    rw [show old.z - share * (old.z - carried K A a d.v * d.v.z) = rho * (carried K A a d.v * d.v.z) + (1 - rho) * old.z
        + m * (rho * (f * d.v.x * d.v.z) * d.p1.x + rho * (f * d.v.y * d.v.z) * d.p1.y + rho * (1 + f * d.v.z * d.v.z) * d.p1.z) by
      unfold dot at lz
      linear_combination (-rho * m) * lz, ← this]
    congr 1
    funext U phi
    rw [← hcar]
    unfold bp dot
    dsimp only
    ring

/-! ## Examples -/

example : |meanCos 1 - Real.exp (-1)| ≤ 1 / 40 := mean_cosine_partial zero_le_one

example : meanCos 2 ≤ meanCos 1 := (more_turning zero_le_one one_le_two).1

/-- two particles of different weight that approach each other along the x axis -/
example :
    let a : Part := ⟨⟨1, 0, 0⟩, 1 / √2, 1⟩
    let b : Part := ⟨⟨-1, 0, 0⟩, 1 / √2, 3⟩
    let d := collisionData ⟨1, 1, 1⟩ ⟨a.u, a.invGamma, a.w * 1⟩ ⟨1, 1⟩ ⟨b.u, b.invGamma, b.w * 1⟩ ⟨1, 1⟩
    Admissible ⟨1, 1, 1⟩ ⟨1, 1⟩ ⟨1, 1⟩ ⟨2, 0, 1, 1, 1, 1⟩ ⟨0, 0, 0⟩ ∧ Consistent a ∧ Consistent b ∧ 0 < a.w ∧ 0 < b.w ∧
      d.pLen ≠ 0 ∧ d.pPerp > 1 / 10 ^ 10 * d.pLen := by
  intro a b d
  have ha : Consistent a := by unfold Consistent; norm_num [a]
  have hb : Consistent b := by unfold Consistent; norm_num [b]
  obtain ⟨f, hd⟩ := data_ok (K := ⟨1, 1, 1⟩) (A := ⟨1, 1⟩) (B := ⟨1, 1⟩) one_pos one_pos one_pos ha hb (a.w * 1) (b.w * 1)
  replace hd : DataOk ⟨1, 1, 1⟩ ⟨1, 1⟩ ⟨1, 1⟩ a b d f := hd
  have hm : mg ⟨1, 1⟩ a + mg ⟨1, 1⟩ b ≠ 0 := by
    have h1 := mg_pos (A := ⟨1, 1⟩) one_pos a
    have h2 := mg_pos (A := ⟨1, 1⟩) one_pos b
    positivity
  obtain ⟨tx, ty, tz⟩ := hd.total
  have vx : d.v.x = 0 := by
    refine (mul_eq_zero.mp (tx.trans ?_)).resolve_left hm
    norm_num [momentum, a, b]
  have vy : d.v.y = 0 := by
    refine (mul_eq_zero.mp (ty.trans ?_)).resolve_left hm
    norm_num [momentum, a, b]
  have vz : d.v.z = 0 := by
    refine (mul_eq_zero.mp (tz.trans ?_)).resolve_left hm
    norm_num [momentum, a, b]
  have p1 : d.p1 = ⟨1, 0, 0⟩ := by
    rw [hd.p1]
    unfold bp
    rw [vx, vy, vz]
    norm_num [momentum, a]
  have l1 : d.pLen = 1 := by rw [hd.pLen, p1]; norm_num
  have l2 : d.pPerp = 1 := by rw [hd.pPerp, p1]; norm_num
  refine ⟨⟨by norm_num, by norm_num, by norm_num, by norm_num, by norm_num, by norm_num, by norm_num, by norm_num, by norm_num,
    by norm_num, by norm_num, by norm_num⟩, ha, hb, by norm_num [a], by norm_num [b], ?_, ?_⟩
  · rw [l1]; norm_num
  · rw [l1, l2]; norm_num

end Verif.Scattering
