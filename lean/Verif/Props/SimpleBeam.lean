import Verif.Props.Paraxial
import Verif.Props.LaserRun
/-!
# The beam of a simple laser
-/
namespace Verif.Laser
open Complex (exp I)

/-! ## specification -/

/-- envelope of the pulse of a simple laser: one arch of a squared sine of length `2 ctau`, nothing afterwards -/
noncomputable def arch (ctau ct : ℝ) : ℝ :=
  open Classical in
  if ct < 2 * ctau then Real.sin (Real.pi * ct / (2 * ctau)) ^ 2 else 0

/-- the simulation `t` later -/
def Sim.later (S : Sim) (t : ℝ) : Sim := { S with time := S.time + t }

/-! ## proofs -/

theorem mkSimple_ok {Φ : Nature} {a0 w0 ctau : ℝ} {y0 z0 : Option ℝ} {angleY angleZ : ℝ} {tstop : Option ℝ} {pol ell cep l0 : ℝ} {side : String}
    {b : Base} (h : mkSimple Φ a0 w0 ctau y0 z0 angleY angleZ tstop pol ell cep l0 side = .ok b) :
    (0 < a0 ∧ 0 < l0 ∧ 0 < w0 ∧ 0 < ctau) ∧ |angleY| < Real.pi / 2 ∧
      b.kind = .inl ⟨peak Φ a0 l0, w0, ctau, 2 * Real.pi * Φ.c / l0, 2 * Real.pi * Φ.c / l0 / Φ.c, angleY, pol, ell, cep⟩ := by
  unfold mkSimple at h
  split at h
  · cases h
  rename_i h1
  split at h
  · cases h
  split at h
  · cases h
  rename_i h3
  split at h
  · cases h
  split at h
  · cases h
  injection h with h
  subst h
  simp only [not_or, not_le] at h1
  exact ⟨h1, not_le.mp h3, rfl⟩

/-- the field of a simple laser at a point -/
theorem simple_source {Φ : Nature} {a0 w0 ctau : ℝ} {y0 z0 : Option ℝ} {angleY angleZ : ℝ} {tstop : Option ℝ} {pol ell cep l0 : ℝ} {side : String}
    {b : Base} (h : mkSimple Φ a0 w0 ctau y0 z0 angleY angleZ tstop pol ell cep l0 side = .ok b) (S : Sim) (pt : Pt) :
    b.source S pt =
      let P := polarise (peak Φ a0 l0 * Real.exp (-((pt.y / Real.cos angleY) ^ 2 + pt.z ^ 2) / w0 ^ 2) * arch ctau (S.K.c * S.time - pt.y * Real.sin angleY))
        (2 * Real.pi * Φ.c / l0 * S.time + cep - 2 * Real.pi * Φ.c / l0 / Φ.c * Real.sin angleY * pt.y) pol ell
      (P.1 * Real.cos angleY, P.2) := by
  obtain ⟨-, -, hb⟩ := mkSimple_ok h
  simp only [Base.source, hb, Simple.source, Simple.tprof, Real.cos_zero, mul_one, zero_mul, add_zero]
  rw [Real.sq_sqrt (by positivity)]
  have e : ∀ t : ℝ, (Real.sin (t / (2 * ctau) * Real.pi) ^ 2 * open Classical in if t < 2 * ctau then (1 : ℝ) else 0) = arch ctau t := by
    intro t
    unfold arch
    rw [show t / (2 * ctau) * Real.pi = Real.pi * t / (2 * ctau) by ring]
    split <;> simp
  rw [e, ← sub_eq_add_neg]

/-! ## theorems -/

/-- **C81, normal incidence, partial.** The field that a simple laser without angle brings in is, at every point and time, that of a wave with the asked
peak field, waist and pulse, in the asked polarisation. Missing: lasers with an angle, see `oblique_waist_fails` and `oblique_amplitude_fails`. -/
theorem simple_beam_partial (Φ : Nature) (a0 w0 ctau : ℝ) (y0 z0 : Option ℝ) (angleZ : ℝ) (tstop : Option ℝ) (pol ell cep l0 : ℝ) (side : String) (b : Base)
    (h : mkSimple Φ a0 w0 ctau y0 z0 0 angleZ tstop pol ell cep l0 side = .ok b) (S : Sim) (d e : ℝ) :
    b.source S (seen3 d e) = polarised pol ell ((peak Φ a0 l0 * Real.exp (-(d ^ 2 + e ^ 2) / w0 ^ 2) * arch ctau (S.K.c * S.time) : ℝ) *
        exp (I * ((2 * Real.pi * Φ.c / l0 * S.time + cep : ℝ) : ℂ))) ∧
    b.source S (seen2 d) = polarised pol ell ((peak Φ a0 l0 * Real.exp (-d ^ 2 / w0 ^ 2) * arch ctau (S.K.c * S.time) : ℝ) *
        exp (I * ((2 * Real.pi * Φ.c / l0 * S.time + cep : ℝ) : ℂ))) := by
  refine ⟨?_, ?_⟩ <;>
  · rw [simple_source h, polarised_exp]
    simp [seen2, seen3]

/-- **C81, direction.** The wave of a simple laser with an angle runs in the asked direction: the field at the point `y` of the plane is a field on the
line through the axis, later by `y sin(angle) / c` in phase and in envelope. -/
theorem oblique_direction (Φ : Nature) (hΦ : 0 < Φ.c) (a0 w0 ctau : ℝ) (y0 z0 : Option ℝ) (angleY angleZ : ℝ) (tstop : Option ℝ) (pol ell cep l0 : ℝ)
    (side : String) (b : Base) (h : mkSimple Φ a0 w0 ctau y0 z0 angleY angleZ tstop pol ell cep l0 side = .ok b) (S : Sim) (hS : S.K.c = Φ.c) (d e : ℝ) :
    b.source (S.later (d * Real.sin angleY / Φ.c)) (seen3 d e) =
      (Real.exp (-(d / Real.cos angleY) ^ 2 / w0 ^ 2) * (b.source S (seen3 0 e)).1, Real.exp (-(d / Real.cos angleY) ^ 2 / w0 ^ 2) * (b.source S (seen3 0 e)).2) := by
  rw [simple_source h, simple_source h]
  have e1 : Real.exp (-((d / Real.cos angleY) ^ 2 + e ^ 2) / w0 ^ 2) =
      Real.exp (-(d / Real.cos angleY) ^ 2 / w0 ^ 2) * Real.exp (-((0 / Real.cos angleY) ^ 2 + e ^ 2) / w0 ^ 2) := by
    rw [← Real.exp_add]; congr 1; ring
  have e2 : S.K.c * (S.time + d * Real.sin angleY / Φ.c) - d * Real.sin angleY = S.K.c * S.time - 0 * Real.sin angleY := by
    rw [hS]; field_simp; ring
  have e3 : 2 * Real.pi * Φ.c / l0 * (S.time + d * Real.sin angleY / Φ.c) + cep - 2 * Real.pi * Φ.c / l0 / Φ.c * Real.sin angleY * d =
      2 * Real.pi * Φ.c / l0 * S.time + cep - 2 * Real.pi * Φ.c / l0 / Φ.c * Real.sin angleY * 0 := by
    field_simp; ring
  simp only [seen3, Sim.later, e1, e2, e3, polarise]
  refine Prod.ext ?_ ?_ <;> (simp only; ring)

/-- **An oblique beam is too narrow.** Two points of the plane that are equally far from the axis of the beam, on the same wave front: `(d, 0)` and
`(0, d cos(angle))`, the first later by `d sin(angle) / c`. In a round beam both have the same field. With an angle the laser gives the first one less,
by a factor below 1: it divides the distance by the cosine where it should multiply. -/
theorem oblique_waist_fails (Φ : Nature) (hΦ : 0 < Φ.c) (a0 w0 ctau : ℝ) (y0 z0 : Option ℝ) (angleY angleZ : ℝ) (tstop : Option ℝ) (pol ell cep l0 : ℝ)
    (side : String) (b : Base) (h : mkSimple Φ a0 w0 ctau y0 z0 angleY angleZ tstop pol ell cep l0 side = .ok b) (h0 : angleY ≠ 0) (d : ℝ) (hd : d ≠ 0) :
    ∃ q : ℝ, 0 < q ∧ q < 1 ∧ ∀ S : Sim, S.K.c = Φ.c →
      b.source (S.later (d * Real.sin angleY / Φ.c)) (seen3 d 0) =
        (q * (b.source S (seen3 0 (d * Real.cos angleY))).1, q * (b.source S (seen3 0 (d * Real.cos angleY))).2) := by
  obtain ⟨⟨-, -, hw, -⟩, ha, -⟩ := mkSimple_ok h
  have hcos : 0 < Real.cos angleY := Real.cos_pos_of_mem_Ioo (by rw [abs_lt] at ha; exact ⟨by linarith [ha.1], ha.2⟩)
  have hcos1 : Real.cos angleY < 1 := by
    refine lt_of_le_of_ne (Real.cos_le_one _) fun e => h0 ?_
    have hpi := Real.pi_pos
    rw [abs_lt] at ha
    exact (Real.cos_eq_one_iff_of_lt_of_lt (by linarith [ha.1]) (by linarith [ha.2])).mp e
  refine ⟨Real.exp (-(d / Real.cos angleY) ^ 2 / w0 ^ 2 + (d * Real.cos angleY) ^ 2 / w0 ^ 2), Real.exp_pos _, ?_, ?_⟩
  · rw [Real.exp_lt_one_iff]
    have h1 : (d * Real.cos angleY) ^ 2 < d ^ 2 := by
      rw [mul_pow]
      have : 0 < d ^ 2 := by positivity
      nlinarith [mul_pos hcos (sub_pos.mpr hcos1)]
    have h2 : d ^ 2 < (d / Real.cos angleY) ^ 2 := by
      rw [div_pow, lt_div_iff₀ (by positivity)]
      have := h1
      rw [mul_pow] at this
      exact this
    rw [← add_div]
    exact div_neg_of_neg_of_pos (by linarith) (by positivity)
  · intro S hS
    rw [oblique_direction Φ hΦ a0 w0 ctau y0 z0 angleY angleZ tstop pol ell cep l0 side b h S hS d 0, simple_source h, simple_source h]
    have e1 : Real.exp (-(d / Real.cos angleY) ^ 2 / w0 ^ 2) * Real.exp (-((0 / Real.cos angleY) ^ 2 + (0 : ℝ) ^ 2) / w0 ^ 2) =
        Real.exp (-(d / Real.cos angleY) ^ 2 / w0 ^ 2 + (d * Real.cos angleY) ^ 2 / w0 ^ 2) *
          Real.exp (-((0 / Real.cos angleY) ^ 2 + (d * Real.cos angleY) ^ 2) / w0 ^ 2) := by
      rw [← Real.exp_add, ← Real.exp_add]; congr 1; ring
    simp only [seen3, polarise]
    refine Prod.ext ?_ ?_
    · simp only
      linear_combination (peak Φ a0 l0 * arch ctau (S.K.c * S.time - 0 * Real.sin angleY) *
        (1 / Real.sqrt (1 + ell ^ 2) * Real.cos pol * Real.sin (2 * Real.pi * Φ.c / l0 * S.time + cep - 2 * Real.pi * Φ.c / l0 / Φ.c * Real.sin angleY * 0) -
        ell / Real.sqrt (1 + ell ^ 2) * Real.sin pol * Real.cos (2 * Real.pi * Φ.c / l0 * S.time + cep - 2 * Real.pi * Φ.c / l0 / Φ.c * Real.sin angleY * 0)) *
        Real.cos angleY) * e1
    · simp only
      linear_combination (peak Φ a0 l0 * arch ctau (S.K.c * S.time - 0 * Real.sin angleY) *
        (1 / Real.sqrt (1 + ell ^ 2) * Real.sin pol * Real.sin (2 * Real.pi * Φ.c / l0 * S.time + cep - 2 * Real.pi * Φ.c / l0 / Φ.c * Real.sin angleY * 0) +
        ell / Real.sqrt (1 + ell ^ 2) * Real.cos pol * Real.cos (2 * Real.pi * Φ.c / l0 * S.time + cep - 2 * Real.pi * Φ.c / l0 / Φ.c * Real.sin angleY * 0))) * e1

/-- **An oblique beam has the wrong amplitude.** A plane wave of amplitude `A` that runs at the angle to the x axis has `Ey = A cos`, `c Bz = A` in the
plane of incidence and `Ez = A`, `c By = -A cos` across it. In both cases its part that runs into the box is `A (1 + cos)`. What a laser lets in is twice
its source (C78). For a pulse of amplitude `A` on the axis that is too little, by `2 cos / (1 + cos) < 1`, with the field in the plane of incidence, and
too much, by `2 / (1 + cos) > 1`, across it. -/
theorem oblique_amplitude_fails (Φ : Nature) (hΦ : 0 < Φ.c) (a0 w0 ctau : ℝ) (y0 z0 : Option ℝ) (angleY angleZ : ℝ) (tstop : Option ℝ) (cep l0 : ℝ)
    (side : String) (by_ bz : Base) (h : mkSimple Φ a0 w0 ctau y0 z0 angleY angleZ tstop 0 0 cep l0 side = .ok by_)
    (h' : mkSimple Φ a0 w0 ctau y0 z0 angleY angleZ tstop (Real.pi / 2) 0 cep l0 side = .ok bz) (h0 : angleY ≠ 0) (S : Sim) :
    let A := peak Φ a0 l0 * arch ctau (S.K.c * S.time) * Real.sin (2 * Real.pi * Φ.c / l0 * S.time + cep)
    let C := Real.cos angleY
    2 * (by_.source S (seen3 0 0)).1 = 2 * C / (1 + C) * forwardY Φ.c (A * C) (A / Φ.c) (A / Φ.c) ∧ 2 * C / (1 + C) < 1 ∧
    2 * (bz.source S (seen3 0 0)).2 = 2 / (1 + C) * forwardZ Φ.c A (-(A * C / Φ.c)) (-(A * C / Φ.c)) ∧ 1 < 2 / (1 + C) := by
  obtain ⟨-, ha, -⟩ := mkSimple_ok h
  have hcos : 0 < Real.cos angleY := Real.cos_pos_of_mem_Ioo (by rw [abs_lt] at ha; exact ⟨by linarith [ha.1], ha.2⟩)
  have hcos1 : Real.cos angleY < 1 := by
    refine lt_of_le_of_ne (Real.cos_le_one _) fun e => h0 ?_
    have hpi := Real.pi_pos
    rw [abs_lt] at ha
    exact (Real.cos_eq_one_iff_of_lt_of_lt (by linarith [ha.1]) (by linarith [ha.2])).mp e
  intro A C
  rw [simple_source h, simple_source h']
  have hC : (1 : ℝ) + C ≠ 0 := by positivity
  refine ⟨?_, ?_, ?_, ?_⟩
  · have e : forwardY Φ.c (A * C) (A / Φ.c) (A / Φ.c) = A * (1 + C) := by unfold forwardY; field_simp; ring
    rw [e, show 2 * C / (1 + C) * (A * (1 + C)) = 2 * (A * C) by field_simp]
    simp [seen3, polarise, A, C]
  · rw [div_lt_one (by positivity)]; simp only [C]; linarith
  · have e : forwardZ Φ.c A (-(A * C / Φ.c)) (-(A * C / Φ.c)) = A * (1 + C) := by unfold forwardZ; field_simp; ring
    rw [e, show 2 / (1 + C) * (A * (1 + C)) = 2 * A by field_simp]
    simp [seen3, polarise, A]
  · rw [lt_div_iff₀ (by positivity)]; simp only [C]; linarith

/-! ## the hypotheses are met -/

/-- units with light, mass and charge 1 -/
noncomputable def exNature : Nature := ⟨1, 1, 1⟩

example : ∃ b, mkSimple exNature 1 2 1 none none (1 / 2) 0 none 0 0 0 1 "xmin" = .ok b ∧ (1 / 2 : ℝ) ≠ 0 ∧ exSim.K.c = exNature.c := by
  have := Real.two_le_pi
  have h1 : ¬ (|(1 / 2 : ℝ)| ≥ Real.pi / 2) := by rw [abs_of_pos (by norm_num)]; push Not; linarith
  unfold mkSimple
  rw [if_neg (by norm_num), if_neg (by simp), if_neg h1, if_neg (by simp), if_neg (by norm_num)]
  exact ⟨_, rfl, by norm_num, rfl⟩

end Verif.Laser
