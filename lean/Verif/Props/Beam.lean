import Verif.Proofs.Beam
import Verif.Props.Laser
import Mathlib.Analysis.SpecialFunctions.ExpDeriv
import Mathlib.Analysis.SpecialFunctions.Trigonometric.ArctanDeriv
import Mathlib.Analysis.Complex.RealDeriv
/-!
# The beam of a laser: power and phase
-/
open MeasureTheory Set Real
namespace Verif.Laser

/-! ## specification -/

/-- the same laser with `χ` added to its carrier envelope phase -/
noncomputable def Base.shift (b : Base) (χ : ℝ) : Base :=
  { b with
    kind := match b.kind with
      | .inl s => .inl { s with cep := s.cep + χ }
      | .inr g => .inr { g with cep := g.cep + χ } }

/-- mean over one oscillation of `Ey² + Ez²` at a point of the plane of injection -/
noncomputable def meanSq (b : Base) (S : Sim) (pt : Pt) : ℝ :=
  1 / (2 * π) * ∫ χ in (0 : ℝ)..(2 * π), (((b.shift χ).source S pt).1 ^ 2 + ((b.shift χ).source S pt).2 ^ 2)

/-- power of the beam through the plane, up to a constant (3D): integral over all points of the plane -/
noncomputable def power3 (b : Base) (S : Sim) : ℝ := ∫ q : ℝ × ℝ, meanSq b S (seen3 q.1 q.2)

/-- power per unit length (2D) -/
noncomputable def power2 (b : Base) (S : Sim) : ℝ := ∫ y : ℝ, meanSq b S (seen2 y)

/-- the peak field that belongs to the normalised amplitude `a0` at the wavelength `l0` -/
noncomputable def peak (Φ : Nature) (a0 l0 : ℝ) : ℝ := a0 * Φ.me * Φ.c * (2 * π * Φ.c / l0) / Φ.e

/-- envelope of a Gaussian pulse of duration `ctau` whose centre is `x0` before the boundary at time 0 (default `3 ctau`) -/
noncomputable def envelope (ctau : ℝ) (x0 : Option ℝ) (ct : ℝ) : ℝ := exp (-(ct - x0.getD (3 * ctau)) ^ 2 / ctau ^ 2)

/-! ## power -/

/-- the attributes of a Gaussian laser that was built -/
noncomputable def gaussOf (Φ : Nature) (a0 l0 w0 ctau : ℝ) (x0 : Option ℝ) (pol ell cep focus : ℝ) (l : Int) (p : Nat) : Gauss where
  E0 := peak Φ a0 l0
  w0 := w0
  ctau := ctau
  omega0 := 2 * π * Φ.c / l0
  k0 := 2 * π * Φ.c / l0 / Φ.c
  zR := π * w0 ^ 2 / l0
  x0 := x0.getD (3 * ctau)
  focus := focus
  pol := pol
  ell := ell
  cep := cep
  l := l
  p := p
  lag := fun t => lgNorm l p * laguerre p l.natAbs t

theorem mkGauss_ok {Φ : Nature} {a0 l0 w0 ctau : ℝ} {x0 y0 z0 tstop : Option ℝ} {pol ell cep focus : ℝ} {side : String} {l : Int} {p : Nat} {b : Base}
    (h : mkGauss Φ a0 l0 w0 ctau x0 y0 z0 tstop pol ell cep focus side l p = .ok b) :
    (0 < a0 ∧ 0 < l0 ∧ 0 < w0 ∧ 0 < ctau) ∧ |ell| ≤ 1 ∧ b.y0 = y0 ∧ b.z0 = z0 ∧ b.kind = .inr (gaussOf Φ a0 l0 w0 ctau x0 pol ell cep focus l p) := by
  unfold mkGauss at h
  split at h
  · exact absurd h (by simp)
  rename_i h1
  split at h
  · exact absurd h (by simp)
  split at h
  · exact absurd h (by simp)
  rename_i h3
  simp only [not_or, not_le] at h1
  have e := Except.ok.inj h
  subst e
  refine ⟨⟨h1.1, h1.2.1, h1.2.2.1, h1.2.2.2⟩, not_lt.mp h3, rfl, rfl, ?_⟩
  cases x0 <;> rfl

theorem lgNorm_sq (l : Int) (p : Nat) : lgNorm l p ^ 2 = (p.factorial : ℝ) / ((p + l.natAbs).factorial : ℝ) := by
  unfold lgNorm
  have := pi_pos
  rw [div_pow, Real.sq_sqrt (by positivity), Real.sq_sqrt (by positivity)]
  field_simp

theorem lgNorm_zero : lgNorm 0 0 = 1 := by
  unfold lgNorm
  have := pi_pos
  simp only [Nat.factorial_zero, Nat.cast_one, mul_one, Int.natAbs_zero, add_zero]
  exact div_self (by positivity)

theorem laguerre_zero (a : Nat) (t : ℝ) : laguerre 0 a t = 1 := by simp [laguerre]

/-- the amplitude of a Gaussian laser with a Laguerre mode in one formula -/
theorem amplg_eq (g : Gauss) (hl : g.lag = fun t => lgNorm g.l g.p * laguerre g.p g.l.natAbs t) (x r : ℝ) :
    g.amplg x r = (Real.sqrt 2 * r / g.w x) ^ g.l.natAbs * (lgNorm g.l g.p * laguerre g.p g.l.natAbs ((Real.sqrt 2 * r / g.w x) ^ 2)) := by
  unfold Gauss.amplg
  split
  · rw [hl]
  · rename_i h
    simp only [not_or, not_lt, not_not] at h
    have hp : g.p = 0 := by omega
    rw [h.1, hp, laguerre_zero, lgNorm_zero]; simp

theorem gauss_mean {b : Base} {g : Gauss} (hb : b.kind = .inr g) (S : Sim) (pt : Pt) :
    meanSq b S pt = (g.E0 * (g.w0 / g.w (S.thick * S.K.dx)) * exp (-pt.r ^ 2 / g.w (S.thick * S.K.dx) ^ 2) * g.amplg (S.thick * S.K.dx) pt.r *
      exp (-(S.K.c * S.time - g.x0) ^ 2 / g.ctau ^ 2)) ^ 2 / 2 := by
  unfold meanSq
  rw [← phase_mean _ (g.omega0 * S.time + g.cep - g.k0 * (S.thick * S.K.dx) - g.curv (S.thick * S.K.dx) pt.r -
    (2 * g.p + g.l.natAbs + 1) * Real.arctan ((S.thick * S.K.dx - g.focus) / g.zR) - g.phaselg pt.phi) g.pol g.ell]
  congr 1
  refine intervalIntegral.integral_congr fun χ _ => ?_
  simp only [Base.shift, Base.source, hb, Gauss.source]
  rw [show g.omega0 * S.time + (g.cep + χ) - g.k0 * (S.thick * S.K.dx) - Gauss.curv { g with cep := g.cep + χ } (S.thick * S.K.dx) pt.r -
      (2 * g.p + g.l.natAbs + 1) * Real.arctan ((S.thick * S.K.dx - g.focus) / g.zR) - Gauss.phaselg { g with cep := g.cep + χ } pt.phi =
    g.omega0 * S.time + g.cep - g.k0 * (S.thick * S.K.dx) - g.curv (S.thick * S.K.dx) pt.r -
      (2 * g.p + g.l.natAbs + 1) * Real.arctan ((S.thick * S.K.dx - g.focus) / g.zR) - g.phaselg pt.phi + χ by
    simp only [Gauss.curv, Gauss.phaselg]; ring]
  rfl

theorem w_pos (g : Gauss) (x : ℝ) (h : 0 < g.w0) : 0 < g.w x := by
  unfold Gauss.w
  exact mul_pos h (Real.sqrt_pos.mpr (by positivity))

/-- **C79, power of a Gaussian laser (3D).** Wherever its focus lies — before, on or behind the boundary — and whatever its Laguerre mode, its
polarisation, ellipticity and phase, a Gaussian laser brings in, at every time, the power of a beam with the asked peak field and the asked waist:
`E² / 2 · π w0² / 2` with the field `E` of the envelope at that time. -/
theorem beam_power3 (Φ : Nature) (a0 l0 w0 ctau : ℝ) (x0 y0 z0 tstop : Option ℝ) (pol ell cep focus : ℝ) (side : String) (l : Int) (p : Nat) (b : Base)
    (h : mkGauss Φ a0 l0 w0 ctau x0 y0 z0 tstop pol ell cep focus side l p = .ok b) (S : Sim) :
    power3 b S = (peak Φ a0 l0 * envelope ctau x0 (S.K.c * S.time)) ^ 2 / 2 * (π * w0 ^ 2 / 2) := by
  obtain ⟨⟨-, -, hw0, -⟩, -, -, -, hb⟩ := mkGauss_ok h
  set g : Gauss := gaussOf Φ a0 l0 w0 ctau x0 pol ell cep focus l p with hg
  have hw : 0 < g.w (S.thick * S.K.dx) := w_pos g _ hw0
  unfold power3
  obtain ⟨F, hF⟩ : ∃ F : ℝ → ℝ, ∀ r, F r = (peak Φ a0 l0 * envelope ctau x0 (S.K.c * S.time)) ^ 2 / 2 * (w0 / g.w (S.thick * S.K.dx)) ^ 2 *
      lgNorm l p ^ 2 * ((2 / g.w (S.thick * S.K.dx) ^ 2 * r ^ 2) ^ l.natAbs * laguerre p l.natAbs (2 / g.w (S.thick * S.K.dx) ^ 2 * r ^ 2) ^ 2 *
        exp (-(2 / g.w (S.thick * S.K.dx) ^ 2 * r ^ 2))) := ⟨_, fun _ => rfl⟩
  have e : ∀ q : ℝ × ℝ, meanSq b S (seen3 q.1 q.2) = F (sqrt (q.1 ^ 2 + q.2 ^ 2)) := by
    intro q
    rw [hF]
    rw [gauss_mean hb, amplg_eq g rfl]
    simp only [seen3]
    generalize sqrt (q.1 ^ 2 + q.2 ^ 2) = r
    generalize g.w (S.thick * S.K.dx) = W at *
    have e1 : (Real.sqrt 2 * r / W) ^ 2 = 2 / W ^ 2 * r ^ 2 := by
      rw [div_pow, mul_pow, Real.sq_sqrt (by norm_num)]; ring
    have e2 : exp (-(2 / W ^ 2 * r ^ 2)) = exp (-r ^ 2 / W ^ 2) ^ 2 := by
      rw [← Real.exp_nat_mul]; congr 1; push_cast; ring
    rw [e1, e2, ← e1, ← pow_mul, mul_comm 2 l.natAbs, pow_mul]
    simp only [envelope, hg, gaussOf]
    ring
  refine (integral_congr_ae (Filter.Eventually.of_forall e)).trans ((plane_integral F).trans ?_)
  simp_rw [hF]
  set W := g.w (S.thick * S.K.dx) with hW
  have hb0 : 0 < 2 / W ^ 2 := by positivity
  have r1 := radial_mode (2 / W ^ 2) hb0 p l.natAbs
  have e3 : ∀ r : ℝ, r * ((peak Φ a0 l0 * envelope ctau x0 (S.K.c * S.time)) ^ 2 / 2 * (w0 / W) ^ 2 * lgNorm l p ^ 2 *
      ((2 / W ^ 2 * r ^ 2) ^ l.natAbs * laguerre p l.natAbs (2 / W ^ 2 * r ^ 2) ^ 2 * exp (-(2 / W ^ 2 * r ^ 2)))) =
    ((peak Φ a0 l0 * envelope ctau x0 (S.K.c * S.time)) ^ 2 / 2 * (w0 / W) ^ 2 * lgNorm l p ^ 2) *
      (r * ((2 / W ^ 2 * r ^ 2) ^ l.natAbs * laguerre p l.natAbs (2 / W ^ 2 * r ^ 2) ^ 2 * exp (-(2 / W ^ 2 * r ^ 2)))) := fun r => by ring
  simp_rw [e3]
  rw [integral_const_mul, r1, lgNorm_sq]
  have n1 : (p.factorial : ℝ) ≠ 0 := by exact_mod_cast p.factorial_ne_zero
  have n2 : ((p + l.natAbs).factorial : ℝ) ≠ 0 := by exact_mod_cast (p + l.natAbs).factorial_ne_zero
  field_simp

/-- the power of a Gaussian laser without Laguerre mode in 2D -/
theorem power2_eq (Φ : Nature) (a0 l0 w0 ctau : ℝ) (x0 y0 z0 tstop : Option ℝ) (pol ell cep focus : ℝ) (side : String) (b : Base)
    (h : mkGauss Φ a0 l0 w0 ctau x0 y0 z0 tstop pol ell cep focus side 0 0 = .ok b) (S : Sim) :
    power2 b S = (peak Φ a0 l0 * envelope ctau x0 (S.K.c * S.time)) ^ 2 / 2 * (w0 * sqrt (π / 2)) /
      sqrt (1 + ((S.thick * S.K.dx - focus) / (π * w0 ^ 2 / l0)) ^ 2) := by
  obtain ⟨⟨-, -, hw0, -⟩, -, -, -, hb⟩ := mkGauss_ok h
  set g : Gauss := gaussOf Φ a0 l0 w0 ctau x0 pol ell cep focus 0 0 with hg
  have hw : 0 < g.w (S.thick * S.K.dx) := w_pos g _ hw0
  unfold power2
  have e : ∀ y : ℝ, meanSq b S (seen2 y) = (peak Φ a0 l0 * envelope ctau x0 (S.K.c * S.time)) ^ 2 / 2 * (w0 / g.w (S.thick * S.K.dx)) ^ 2 *
      exp (-(2 / g.w (S.thick * S.K.dx) ^ 2) * y ^ 2) := by
    intro y
    have ha : g.amplg (S.thick * S.K.dx) (seen2 y).r = 1 := by unfold Gauss.amplg; rw [if_neg]; simp [hg, gaussOf]
    rw [gauss_mean hb, ha]
    simp only [seen2]
    generalize g.w (S.thick * S.K.dx) = W at *
    have e2 : exp (-(2 / W ^ 2) * y ^ 2) = exp (-|y| ^ 2 / W ^ 2) ^ 2 := by
      rw [← Real.exp_nat_mul, sq_abs]; congr 1; push_cast; ring
    rw [e2]
    simp only [envelope, hg, gaussOf]
    ring
  simp_rw [e]
  rw [integral_const_mul, integral_gaussian]
  have hW : g.w (S.thick * S.K.dx) = w0 * sqrt (1 + ((S.thick * S.K.dx - focus) / (π * w0 ^ 2 / l0)) ^ 2) := rfl
  have hs : 0 < sqrt (1 + ((S.thick * S.K.dx - focus) / (π * w0 ^ 2 / l0)) ^ 2) := Real.sqrt_pos.mpr (by positivity)
  have hr : sqrt (π / (2 / g.w (S.thick * S.K.dx) ^ 2)) = sqrt (π / 2) * g.w (S.thick * S.K.dx) := by
    rw [show π / (2 / g.w (S.thick * S.K.dx) ^ 2) = π / 2 * g.w (S.thick * S.K.dx) ^ 2 by field_simp,
      Real.sqrt_mul (by have := pi_pos; positivity), Real.sqrt_sq hw.le]
  rw [hr, hW]
  field_simp

/-- **C79, power of a Gaussian laser in 2D, partial.** With the focus on the plane where the laser is injected a 2D Gaussian laser brings in the power
of a 2D beam with the asked peak field and waist, `E² / 2 · w0 √(π/2)`. Missing: any other focus, see `beam_power2_fails`. -/
theorem beam_power2_partial (Φ : Nature) (a0 l0 w0 ctau : ℝ) (x0 y0 z0 tstop : Option ℝ) (pol ell cep focus : ℝ) (side : String) (b : Base)
    (h : mkGauss Φ a0 l0 w0 ctau x0 y0 z0 tstop pol ell cep focus side 0 0 = .ok b) (S : Sim) (hf : focus = S.thick * S.K.dx) :
    power2 b S = (peak Φ a0 l0 * envelope ctau x0 (S.K.c * S.time)) ^ 2 / 2 * (w0 * sqrt (π / 2)) := by
  rw [power2_eq Φ a0 l0 w0 ctau x0 y0 z0 tstop pol ell cep focus side b h S, hf]
  simp

/-- **A 2D Gaussian laser that is not focussed on the boundary is too weak.** In 2D a beam spreads along one axis only and its field falls like the
square root of `w0 / w`, but the laser is injected with the 3D factor `w0 / w`. For every such laser and every time the power is less than that of
the asked beam, so the asked peak field is not reached at the focus. -/
theorem beam_power2_fails (Φ : Nature) (hΦ : 0 < Φ.c ∧ 0 < Φ.me ∧ 0 < Φ.e) (a0 l0 w0 ctau : ℝ) (x0 y0 z0 tstop : Option ℝ) (pol ell cep focus : ℝ)
    (side : String) (b : Base) (h : mkGauss Φ a0 l0 w0 ctau x0 y0 z0 tstop pol ell cep focus side 0 0 = .ok b) (S : Sim) (hf : focus ≠ S.thick * S.K.dx) :
    power2 b S < (peak Φ a0 l0 * envelope ctau x0 (S.K.c * S.time)) ^ 2 / 2 * (w0 * sqrt (π / 2)) := by
  obtain ⟨⟨ha, hl, hw0, -⟩, -⟩ := mkGauss_ok h
  rw [power2_eq Φ a0 l0 w0 ctau x0 y0 z0 tstop pol ell cep focus side b h S]
  have hp := pi_pos
  have hE : 0 < peak Φ a0 l0 := by obtain ⟨h1, h2, h3⟩ := hΦ; unfold peak; positivity
  have hv : 0 < envelope ctau x0 (S.K.c * S.time) := exp_pos _
  have hq : 0 < sqrt (π / 2) := Real.sqrt_pos.mpr (by positivity)
  apply div_lt_self (by positivity)
  rw [Real.lt_sqrt (by norm_num)]
  have : (S.thick * S.K.dx - focus) / (π * w0 ^ 2 / l0) ≠ 0 := div_ne_zero (sub_ne_zero.mpr (Ne.symm hf)) (by positivity)
  have := sq_pos_of_ne_zero this
  linarith

/-! ## cases that meet the hypotheses -/

/-- a Laguerre mode with orbital number -2 and radial number 1, elliptic, focussed behind the boundary, centred at (1, 1), is built -/
example : ∃ b, mkGauss ⟨1, 1, 1⟩ 2 1 3 5 none (some 1) (some 1) none (1 / 3) (1 / 2) 0 7 "xmin" (-2) 1 = .ok b := by
  unfold mkGauss
  rw [if_neg (by norm_num), if_neg (by decide), if_neg (by rw [abs_of_pos] <;> norm_num)]
  exact ⟨_, rfl⟩

/-- a laser without Laguerre mode, with the focus on the plane of injection of `exSim` (six cells of 1/10) and with the focus behind it -/
example : (∃ b, mkGauss ⟨1, 1, 1⟩ 2 1 3 5 (some 4) none none none 0 0 0 (6 / 10) "xmin" 0 0 = .ok b) ∧ (6 / 10 : ℝ) = exSim.thick * exSim.K.dx ∧
    (∃ b, mkGauss ⟨1, 1, 1⟩ 2 1 3 5 (some 4) none none none 0 0 0 7 "xmin" 0 0 = .ok b) ∧ (7 : ℝ) ≠ exSim.thick * exSim.K.dx := by
  refine ⟨?_, ?_, ?_, ?_⟩
  · unfold mkGauss
    rw [if_neg (by norm_num), if_neg (by decide), if_neg (by norm_num)]
    exact ⟨_, rfl⟩
  · simp only [exSim]; norm_num
  · unfold mkGauss
    rw [if_neg (by norm_num), if_neg (by decide), if_neg (by norm_num)]
    exact ⟨_, rfl⟩
  · simp only [exSim]; norm_num

end Verif.Laser
