import Verif.Props.Beam
/-!
# The phase of a Gaussian laser

The injected field against the solution of the paraxial wave equation with the same waist, focus and vortex charge.
-/
open Complex
namespace Verif.Laser

/-! ## specification -/

/-- the slowly varying amplitude of a beam with wave number `k` and waist `w0` at distance `x` behind the focus, at `(y, z)` from the axis: the
Gaussian beam (`a = 0`) and the vortices of charge `±a`, `s = ±1` the sign. The field of the wave is this times `exp(i (ω t - k x))` -/
noncomputable def beam (k w0 : ℝ) (a : Nat) (s x y z : ℝ) : ℂ :=
  let q : ℂ := x + I * (k * w0 ^ 2 / 2)
  (I * (k * w0 ^ 2 / 2) / q) ^ (a + 1) * (Real.sqrt 2 / w0 * (y - s * I * z)) ^ a * exp (-(I * k * (y ^ 2 + z ^ 2) / (2 * q)))

/-- both components of the real field of a complex one, for a polarisation angle and an ellipticity -/
noncomputable def polarised (pol ell : ℝ) (E : ℂ) : ℝ × ℝ :=
  ((Real.cos pol * E.im - ell * Real.sin pol * E.re) / Real.sqrt (1 + ell ^ 2), (Real.sin pol * E.im + ell * Real.cos pol * E.re) / Real.sqrt (1 + ell ^ 2))

/-! ## the specification is a beam -/

theorem q_ne {x R : ℝ} (hR : R ≠ 0) : (x : ℂ) + I * R ≠ 0 := by
  intro h
  have := congrArg Complex.im h
  simp at this
  exact hR this

theorem deriv_pow_gauss (c q e : ℂ) (a : Nat) (h m : ℂ) (y : ℂ) :
    HasDerivAt (fun y : ℂ => (m * y + h) ^ a * exp (-(c * (y ^ 2 + e) / (2 * q))))
      ((a * (m * y + h) ^ (a - 1) * m) * exp (-(c * (y ^ 2 + e) / (2 * q))) +
        (m * y + h) ^ a * (exp (-(c * (y ^ 2 + e) / (2 * q))) * (-(c * (2 * y) / (2 * q))))) y := by
  have h1 : HasDerivAt (fun y : ℂ => m * y + h) m y := by simpa using ((hasDerivAt_id y).const_mul m).add_const h
  have h2 : HasDerivAt (fun y : ℂ => (m * y + h) ^ a) (a * (m * y + h) ^ (a - 1) * m) y := h1.pow a
  have h3 : HasDerivAt (fun y : ℂ => y ^ 2 + e) (2 * y) y := by simpa using (hasDerivAt_pow 2 y).add_const e
  have h4 : HasDerivAt (fun y : ℂ => -(c * (y ^ 2 + e) / (2 * q))) (-(c * (2 * y) / (2 * q))) y := ((h3.const_mul c).div_const (2 * q)).neg
  exact h2.mul h4.cexp

/-- second derivative along a transverse axis -/
theorem deriv2_pow_gauss (A c q e : ℂ) (a : Nat) (h m : ℂ) (y : ℝ) :
    deriv (fun y : ℝ => deriv (fun y : ℝ => A * ((m * y + h) ^ a * exp (-(c * ((y : ℂ) ^ 2 + e) / (2 * q))))) y) y =
      A * exp (-(c * ((y : ℂ) ^ 2 + e) / (2 * q))) * (a * (a - 1 : Nat) * m ^ 2 * (m * y + h) ^ (a - 1 - 1)
        + 2 * (a * (m * y + h) ^ (a - 1) * m) * (-(c * (2 * y) / (2 * q))) + (m * y + h) ^ a * ((c * (2 * y) / (2 * q)) ^ 2 - c * 2 / (2 * q))) := by
  have d1 : (fun y : ℝ => deriv (fun y : ℝ => A * ((m * y + h) ^ a * exp (-(c * ((y : ℂ) ^ 2 + e) / (2 * q))))) y) = fun y : ℝ =>
      A * (((a * m) * ((m * y + h) ^ (a - 1) * exp (-(c * ((y : ℂ) ^ 2 + e) / (2 * q))))) +
        (-(c * 2 / (2 * q))) * (y * ((m * y + h) ^ a * exp (-(c * ((y : ℂ) ^ 2 + e) / (2 * q)))))) := by
    funext y
    rw [((deriv_pow_gauss c q e a h m y).comp_ofReal.const_mul A).deriv]
    ring
  rw [d1]
  have e1 := (deriv_pow_gauss c q e (a - 1) h m y).comp_ofReal.const_mul (a * m)
  have e2 := (((hasDerivAt_id (y : ℂ)).mul (deriv_pow_gauss c q e a h m y)).comp_ofReal).const_mul (-(c * 2 / (2 * q)))
  have e3 := ((e1.add e2).const_mul A).deriv
  simp only [id] at e3
  refine Eq.trans ?_ (e3.trans ?_)
  · rfl
  · ring

/-- derivative along the axis -/
theorem deriv_axis (B C D E : ℂ) (a : Nat) (x : ℂ) (hq : x + C ≠ 0) :
    HasDerivAt (fun x : ℂ => (B / (x + C)) ^ (a + 1) * D * exp (-(E / (2 * (x + C)))))
      ((B / (x + C)) ^ (a + 1) * D * exp (-(E / (2 * (x + C)))) * (-(a + 1 : Nat) / (x + C) + E / (2 * (x + C) ^ 2))) x := by
  have h1 : HasDerivAt (fun x : ℂ => x + C) 1 x := (hasDerivAt_id x).add_const _
  have h2 : HasDerivAt (fun x : ℂ => B / (x + C)) (-B / (x + C) ^ 2) x :=
    ((hasDerivAt_const x B).div h1 hq).congr_deriv (by ring)
  have h3 : HasDerivAt (fun x : ℂ => (B / (x + C)) ^ (a + 1)) (((a + 1 : Nat) : ℂ) * (B / (x + C)) ^ (a + 1 - 1) * (-B / (x + C) ^ 2)) x := h2.pow (a + 1)
  have h4 : HasDerivAt (fun x : ℂ => -(E / (2 * (x + C)))) (E / (2 * (x + C) ^ 2)) x :=
    ((hasDerivAt_const x E).div (h1.const_mul 2) (mul_ne_zero two_ne_zero hq)).neg.congr_deriv (by field_simp; ring)
  refine ((h3.mul_const D).mul h4.cexp).congr_deriv ?_
  rw [Nat.add_sub_cancel]
  generalize x + C = Q at *
  rw [pow_succ (B / Q) a]
  generalize (B / Q) ^ a = Z
  generalize (((a + 1 : Nat)) : ℂ) = N
  field_simp

theorem paraxial_finish (P0 G q : ℂ) (hq : q ≠ 0) (m H k y z s a a' Ha Hb Hc : ℂ) (hs : s ^ 2 = 1) (hH : H = m * y + -(m * s * I * z))
    (ha : a * Hb * H = a * Ha) :
    P0 * G * (a * a' * m ^ 2 * Hc + 2 * (a * Hb * m) * (-(I * k * (2 * y) / (2 * q))) + Ha * ((I * k * (2 * y) / (2 * q)) ^ 2 - I * k * 2 / (2 * q))) +
      P0 * G * (a * a' * (-(m * s * I)) ^ 2 * Hc + 2 * (a * Hb * -(m * s * I)) * (-(I * k * (2 * z) / (2 * q))) +
        Ha * ((I * k * (2 * z) / (2 * q)) ^ 2 - I * k * 2 / (2 * q))) =
      2 * I * k * (P0 * (Ha * G) * (-(a + 1) / q + I * k * (y ^ 2 + z ^ 2) / (2 * q ^ 2))) := by
  have hI := I_sq
  have e : ∀ w : ℂ, I * k * (2 * w) / (2 * q) = I * k * w / q := fun w => by field_simp
  have e' : I * k * 2 / (2 * q) = I * k / q := by field_simp
  rw [e, e, e']
  linear_combination (P0 * G * (a * a' * m ^ 2 * Hc)) * (I ^ 2 * hs + hI) + (2 * P0 * G * (I * k / q) * (a * Hb)) * hH
    - (2 * P0 * G * (I * k / q)) * ha

/-- **The specification solves the paraxial wave equation** `∂²u/∂y² + ∂²u/∂z² = 2 i k ∂u/∂x` of waves `u exp(i (ω t - k x))`, for every wave number,
waist and vortex charge, at every point. -/
theorem beam_paraxial (k w0 : ℝ) (hk : k ≠ 0) (hw : w0 ≠ 0) (a : Nat) (s : ℝ) (hs : s ^ 2 = 1) (x y z : ℝ) :
    deriv (fun y : ℝ => deriv (fun y : ℝ => beam k w0 a s x y z) y) y + deriv (fun z : ℝ => deriv (fun z : ℝ => beam k w0 a s x y z) z) z =
      2 * I * k * deriv (fun x : ℝ => beam k w0 a s x y z) x := by
  set R : ℝ := k * w0 ^ 2 / 2 with hR
  have hR0 : R ≠ 0 := by rw [hR]; positivity
  have hRc : ((k : ℂ) * (w0 : ℂ) ^ 2 / 2) = (R : ℂ) := by rw [hR]; push_cast; ring
  set q : ℂ := x + I * R with hq
  have hq0 : q ≠ 0 := q_ne hR0
  set m : ℂ := (Real.sqrt 2 : ℂ) / w0 with hm
  have ey : (fun y : ℝ => beam k w0 a s x y z) = fun y : ℝ =>
      (I * R / q) ^ (a + 1) * ((m * y + -(m * s * I * z)) ^ a * exp (-(I * k * ((y : ℂ) ^ 2 + (z : ℂ) ^ 2) / (2 * q)))) := by
    funext y
    simp only [beam, hRc]
    rw [show (Real.sqrt 2 : ℂ) / w0 * (y - s * I * z) = m * y + -(m * s * I * z) by rw [hm]; ring]
    ring
  have ez : (fun z : ℝ => beam k w0 a s x y z) = fun z : ℝ =>
      (I * R / q) ^ (a + 1) * (((-(m * s * I)) * z + m * y) ^ a * exp (-(I * k * ((z : ℂ) ^ 2 + (y : ℂ) ^ 2) / (2 * q)))) := by
    funext z
    simp only [beam, hRc]
    rw [show (Real.sqrt 2 : ℂ) / w0 * (y - s * I * z) = (-(m * s * I)) * z + m * y by rw [hm]; ring, add_comm ((y : ℂ) ^ 2)]
    ring
  have ex : HasDerivAt (fun x : ℝ => beam k w0 a s x y z) (beam k w0 a s x y z * (-(a + 1 : Nat) / q + I * k * (y ^ 2 + z ^ 2) / (2 * q ^ 2))) x := by
    have h := (deriv_axis (I * R) (I * R) ((m * (y - s * I * z)) ^ a) (I * k * (y ^ 2 + z ^ 2)) a x hq0).comp_ofReal
    have e : ∀ x' : ℝ, beam k w0 a s x' y z =
        (I * R / (x' + I * R)) ^ (a + 1) * (m * (y - s * I * z)) ^ a * exp (-(I * k * (y ^ 2 + z ^ 2) / (2 * (x' + I * R)))) := by
      intro x'
      simp only [beam, hRc, hm]
    rw [e x, show (fun x : ℝ => beam k w0 a s x y z) = _ from funext e]
    exact h
  rw [ey, ez, ex.deriv, deriv2_pow_gauss, deriv2_pow_gauss]
  have eb : beam k w0 a s x y z = (I * R / q) ^ (a + 1) * ((m * y + -(m * s * I * z)) ^ a * exp (-(I * k * ((y : ℂ) ^ 2 + (z : ℂ) ^ 2) / (2 * q)))) :=
    congrFun ey y
  rw [eb, add_comm ((z : ℂ) ^ 2), show (-(m * s * I)) * z + m * y = m * y + -(m * s * I * z) by ring]
  set H : ℂ := m * y + -(m * s * I * z) with hH
  set G := exp (-(I * k * ((y : ℂ) ^ 2 + (z : ℂ) ^ 2) / (2 * q))) with hG
  have hs' : (s : ℂ) ^ 2 = 1 := by rw [← ofReal_pow, hs, ofReal_one]
  have ha : (a : ℂ) * H ^ (a - 1) * H = a * H ^ a := by
    cases a with
    | zero => simp
    | succ n => rw [Nat.add_sub_cancel, pow_succ]; ring
  have hI := I_sq
  rw [show ((a + 1 : Nat) : ℂ) = (a : ℂ) + 1 by push_cast; ring]
  exact paraxial_finish _ G q hq0 m H k y z s a (a - 1 : Nat) (H ^ a) (H ^ (a - 1)) (H ^ (a - 1 - 1)) hs' hH ha

/-! ## the injected field -/

theorem polarised_exp (pol ell amp phase : ℝ) : polarised pol ell ((amp : ℂ) * exp (I * phase)) = polarise amp phase pol ell := by
  have h1 : ((amp : ℂ) * exp (I * phase)).re = amp * Real.cos phase := by
    rw [mul_comm I, re_ofReal_mul, exp_ofReal_mul_I_re]
  have h2 : ((amp : ℂ) * exp (I * phase)).im = amp * Real.sin phase := by
    rw [mul_comm I, im_ofReal_mul, exp_ofReal_mul_I_im]
  unfold polarised polarise
  rw [h1, h2]
  ext
  · simp only; ring
  · simp only; ring

/-- the factor of width and Gouy phase -/
theorem gouy_factor (z R : ℝ) (hR : 0 < R) :
    I * R / (z + I * R) = ((1 / Real.sqrt (1 + (z / R) ^ 2) : ℝ) : ℂ) * exp (I * Real.arctan (z / R)) := by
  have hn : 0 < Real.sqrt (1 + (z / R) ^ 2) := Real.sqrt_pos.mpr (by positivity)
  have hn2 : Real.sqrt (1 + (z / R) ^ 2) ^ 2 = 1 + (z / R) ^ 2 := Real.sq_sqrt (by positivity)
  have hq : (z : ℂ) + I * R ≠ 0 := q_ne hR.ne'
  rw [mul_comm I (Real.arctan (z / R) : ℂ), exp_mul_I, ← ofReal_cos, ← ofReal_sin, Real.cos_arctan, Real.sin_arctan]
  set n := Real.sqrt (1 + (z / R) ^ 2) with hnd
  rw [div_eq_iff hq]
  have e : ((1 / n : ℝ) : ℂ) * (((1 / n : ℝ) : ℂ) + ((z / R / n : ℝ) : ℂ) * I) * (z + I * R) = ((1 / n ^ 2 * (1 + (z / R) ^ 2) : ℝ) : ℂ) * (I * R) := by
    have hRc : (R : ℂ) ≠ 0 := by exact_mod_cast hR.ne'
    have hnc : (n : ℂ) ≠ 0 := by exact_mod_cast hn.ne'
    push_cast
    field_simp
    linear_combination (R * (z : ℂ)) * I_sq
  rw [e, ← hn2, one_div, inv_mul_cancel₀ (by positivity)]
  simp

/-- the exponent: width and curvature -/
theorem exponent_split (k w0 z ρ2 : ℝ) (hk : 0 < k) (hw : 0 < w0) :
    -(I * k * (ρ2 : ℂ) / (2 * (z + I * (k * w0 ^ 2 / 2)))) =
      ((-ρ2 / (w0 ^ 2 * (1 + (z / (k * w0 ^ 2 / 2)) ^ 2)) : ℝ) : ℂ) + I * ((-(k * ρ2 * z / (2 * (z ^ 2 + (k * w0 ^ 2 / 2) ^ 2))) : ℝ) : ℂ) := by
  have hR : 0 < k * w0 ^ 2 / 2 := by positivity
  have hq : (z : ℂ) + I * (k * w0 ^ 2 / 2) ≠ 0 := by
    have := q_ne (x := z) hR.ne'
    push_cast at this
    exact this
  have hN : z ^ 2 + (k * w0 ^ 2 / 2) ^ 2 ≠ 0 := by positivity
  have hNc : (z : ℂ) ^ 2 + ((k : ℂ) * (w0 : ℂ) ^ 2 / 2) ^ 2 ≠ 0 := by exact_mod_cast hN
  have hkc : (k : ℂ) ≠ 0 := by exact_mod_cast hk.ne'
  have hwc : (w0 : ℂ) ≠ 0 := by exact_mod_cast hw.ne'
  have e1 : -ρ2 / (w0 ^ 2 * (1 + (z / (k * w0 ^ 2 / 2)) ^ 2)) = -(k * ρ2 * (k * w0 ^ 2 / 2) / (2 * (z ^ 2 + (k * w0 ^ 2 / 2) ^ 2))) := by
    have : 1 + (z / (k * w0 ^ 2 / 2)) ^ 2 = (z ^ 2 + (k * w0 ^ 2 / 2) ^ 2) / (k * w0 ^ 2 / 2) ^ 2 := by field_simp; ring
    rw [this]; field_simp
  rw [e1]
  push_cast
  generalize hQ : (k : ℂ) * (w0 : ℂ) ^ 2 / 2 = Q at *
  have hf : (z : ℂ) ^ 2 + Q ^ 2 = (z + I * Q) * (z - I * Q) := by linear_combination (Q ^ 2) * I_sq
  have hq' : (z : ℂ) - I * Q ≠ 0 := by intro h; rw [hf, h, mul_zero] at hNc; exact hNc rfl
  rw [hf]
  field_simp
  linear_combination ((ρ2 : ℂ) * Q) * I_sq

/-- a transverse position in polar form -/
theorem polar_point (s d e : ℝ) (hs : s ^ 2 = 1) :
    (d : ℂ) - s * I * e = (Real.sqrt (d ^ 2 + e ^ 2) : ℂ) * exp (-(I * s * arg ⟨d, e⟩)) := by
  have h1 := norm_mul_exp_arg_mul_I (⟨d, e⟩ : ℂ)
  have hn : ‖(⟨d, e⟩ : ℂ)‖ = Real.sqrt (d ^ 2 + e ^ 2) := by
    rw [Complex.norm_eq_sqrt_sq_add_sq]
  rw [hn] at h1
  generalize arg ⟨d, e⟩ = φ at *
  have hc : Real.sqrt (d ^ 2 + e ^ 2) * Real.cos φ = d := by
    have := congrArg Complex.re h1
    rwa [re_ofReal_mul, exp_ofReal_mul_I_re] at this
  have hi : Real.sqrt (d ^ 2 + e ^ 2) * Real.sin φ = e := by
    have := congrArg Complex.im h1
    rwa [im_ofReal_mul, exp_ofReal_mul_I_im] at this
  have hs' : s = 1 ∨ s = -1 := sq_eq_one_iff.mp hs
  rcases hs' with h | h <;> subst h
  · rw [show -(I * ((1 : ℝ) : ℂ) * (φ : ℂ)) = ((-φ : ℝ) : ℂ) * I by push_cast; ring]
    apply Complex.ext
    · rw [re_ofReal_mul, exp_ofReal_mul_I_re, Real.cos_neg, hc]; simp
    · rw [im_ofReal_mul, exp_ofReal_mul_I_im, Real.sin_neg, mul_neg, hi]; simp
  · rw [show -(I * ((-1 : ℝ) : ℂ) * (φ : ℂ)) = (φ : ℂ) * I by push_cast; ring]
    apply Complex.ext
    · rw [re_ofReal_mul, exp_ofReal_mul_I_re, hc]; simp
    · rw [im_ofReal_mul, exp_ofReal_mul_I_im, hi]; simp

theorem beam_finish (A N w0 n r s κ ψ φ θ E : ℝ) (a : Nat) (l : ℝ) (hw : w0 ≠ 0) (hn : n ≠ 0) (hl : s * a = l) :
    ((A / N : ℝ) : ℂ) * ((((1 / n : ℝ) : ℂ) * exp (I * ψ)) ^ (a + 1) * ((Real.sqrt 2 : ℂ) / w0 * ((r : ℂ) * exp (-(I * s * φ)))) ^ a *
        exp ((E : ℂ) + I * κ)) * exp (I * ((θ - 2 * (a + 1) * ψ : ℝ) : ℂ)) =
      ((A * (w0 / (w0 * n)) * Real.exp E * ((Real.sqrt 2 * r / (w0 * n)) ^ a / N) : ℝ) : ℂ) * exp (I * ((θ + κ - (a + 1) * ψ - l * φ : ℝ) : ℂ)) := by
  have h1 : exp (I * ((θ + κ - (a + 1) * ψ - l * φ : ℝ) : ℂ)) =
      exp (I * ψ) ^ (a + 1) * exp (-(I * s * φ)) ^ a * exp (I * κ) * exp (I * ((θ - 2 * (a + 1) * ψ : ℝ) : ℂ)) := by
    rw [← Complex.exp_nat_mul, ← Complex.exp_nat_mul, ← Complex.exp_add, ← Complex.exp_add, ← Complex.exp_add, ← hl]
    congr 1
    push_cast
    ring
  have h2 : ((w0 / (w0 * n) * (Real.sqrt 2 * r / (w0 * n)) ^ a : ℝ) : ℂ) = (((1 / n : ℝ) : ℂ)) ^ (a + 1) * ((Real.sqrt 2 : ℂ) / w0 * (r : ℂ)) ^ a := by
    have : w0 / (w0 * n) * (Real.sqrt 2 * r / (w0 * n)) ^ a = (1 / n) ^ (a + 1) * (Real.sqrt 2 / w0 * r) ^ a := by
      rw [pow_succ, show Real.sqrt 2 * r / (w0 * n) = 1 / n * (Real.sqrt 2 / w0 * r) by field_simp, mul_pow, show w0 / (w0 * n) = 1 / n by field_simp]
      ring
    rw [this]; push_cast; ring
  rw [h1, Complex.exp_add, ← ofReal_exp, show A * (w0 / (w0 * n)) * Real.exp E * ((Real.sqrt 2 * r / (w0 * n)) ^ a / N) =
    A / N * Real.exp E * (w0 / (w0 * n) * (Real.sqrt 2 * r / (w0 * n)) ^ a) by ring, ofReal_mul, h2]
  push_cast
  ring

/-- sign of the vortex charge -/
noncomputable def vortexSign (l : Int) : ℝ := if l < 0 then -1 else 1

theorem vortexSign_sq (l : Int) : vortexSign l ^ 2 = 1 := by unfold vortexSign; split <;> norm_num

theorem vortexSign_mul (l : Int) : vortexSign l * (l.natAbs : ℝ) = (l : ℝ) := by
  unfold vortexSign
  have h := Int.natAbs_eq l
  rw [Nat.cast_natAbs]
  split
  · rename_i h0; rw [abs_of_neg h0]; push_cast; ring
  · rename_i h0; rw [abs_of_nonneg (by omega)]; push_cast; ring

theorem lgNorm_p0 (l : Int) : lgNorm l 0 = 1 / Real.sqrt (l.natAbs.factorial : ℝ) := by
  unfold lgNorm
  have := Real.pi_pos
  have hf : (0 : ℝ) < (l.natAbs.factorial : ℝ) := by exact_mod_cast Nat.factorial_pos _
  rw [Nat.factorial_zero, Nat.cast_one, zero_add, mul_one, ← Real.sqrt_div (by positivity), ← Real.sqrt_one, ← Real.sqrt_div (by norm_num)]
  congr 1
  field_simp

/-- the phase of the wave `exp(i (ω t - k x))` at the plane of injection, for a carrier envelope phase -/
noncomputable def carrier (Φ : Nature) (l0 cep : ℝ) (S : Sim) : ℝ := 2 * Real.pi * Φ.c / l0 * S.time + cep - 2 * Real.pi / l0 * (S.thick * S.K.dx)

/-- distance of the plane of injection from the focus -/
noncomputable def behind (S : Sim) (focus : ℝ) : ℝ := S.thick * S.K.dx - focus

/-- **C80, partial.** The field that a Gaussian laser without radial nodes (any vortex charge) injects is that of the beam of the paraxial wave equation
with the asked peak field, waist, focus, polarisation and pulse — but with a carrier envelope phase that is off by
`2 (|l| + 1) arctan(distance from the focus / Rayleigh length)`. At a focus closer than 1e-10 to the plane but not on it the curvature is left out, so
that case is excluded. Missing: the right phase, see `gouy_fails`, and modes with radial nodes. -/
theorem gaussian_beam_partial (Φ : Nature) (hc : 0 < Φ.c) (a0 l0 w0 ctau : ℝ) (x0 y0 z0 tstop : Option ℝ) (pol ell cep focus : ℝ) (side : String)
    (l : Int) (b : Base) (h : mkGauss Φ a0 l0 w0 ctau x0 y0 z0 tstop pol ell cep focus side l 0 = .ok b) (S : Sim)
    (hx : behind S focus = 0 ∨ 1e-10 < |behind S focus|) (d e : ℝ) :
    let k := 2 * Real.pi / l0
    b.source S (seen3 d e) = polarised pol ell
      ((peak Φ a0 l0 * envelope ctau x0 (S.K.c * S.time) / Real.sqrt (l.natAbs.factorial : ℝ) : ℝ) *
        beam k w0 l.natAbs (vortexSign l) (behind S focus) d e *
        exp (I * ((carrier Φ l0 cep S - 2 * (l.natAbs + 1) * Real.arctan (behind S focus / (k * w0 ^ 2 / 2)) : ℝ) : ℂ))) := by
  obtain ⟨⟨-, hl0, hw0, -⟩, -, -, -, hb⟩ := mkGauss_ok h
  intro k
  have hpi := Real.pi_pos
  have hk : 0 < k := by positivity
  have hkw : Real.pi * w0 ^ 2 / l0 = k * w0 ^ 2 / 2 := by simp only [k]; ring
  have hkk : 2 * Real.pi * Φ.c / l0 / Φ.c = k := by simp only [k]; field_simp
  set g := gaussOf Φ a0 l0 w0 ctau x0 pol ell cep focus l 0 with hg
  set z := behind S focus with hz
  set a := l.natAbs with ha
  set r := Real.sqrt (d ^ 2 + e ^ 2) with hr
  set n := Real.sqrt (1 + (z / (k * w0 ^ 2 / 2)) ^ 2) with hn
  have hn0 : 0 < n := Real.sqrt_pos.mpr (by positivity)
  have hn2 : n ^ 2 = 1 + (z / (k * w0 ^ 2 / 2)) ^ 2 := Real.sq_sqrt (by positivity)
  have hr2 : r ^ 2 = d ^ 2 + e ^ 2 := Real.sq_sqrt (by positivity)
  have hW : g.w (S.thick * S.K.dx) = w0 * n := by
    simp only [Gauss.w, hg, gaussOf, hkw, hn, hz, behind]
  have hcurv : g.curv (S.thick * S.K.dx) r = k * r ^ 2 * z / (2 * (z ^ 2 + (k * w0 ^ 2 / 2) ^ 2)) := by
    have e1 : g.curv (S.thick * S.K.dx) r = if |z| > 1e-10 then k * r ^ 2 / (2 * (z * (1 + (k * w0 ^ 2 / 2 / z) ^ 2))) else 0 := by
      simp only [Gauss.curv, hg, gaussOf, hkw, hkk, hz, behind]
    rw [e1]
    rcases hx with h0 | h0
    · rw [h0]; simp
    · have hz0 : z ≠ 0 := by intro h'; rw [h'] at h0; norm_num at h0
      have : z ^ 2 + (k * w0 ^ 2 / 2) ^ 2 ≠ 0 := by positivity
      refine (if_pos h0).trans ?_
      rw [show z * (1 + (k * w0 ^ 2 / 2 / z) ^ 2) = (z ^ 2 + (k * w0 ^ 2 / 2) ^ 2) / z by field_simp]
      field_simp
  have hlg : g.phaselg (arg ⟨d, e⟩) = l * arg ⟨d, e⟩ := by
    unfold Gauss.phaselg
    split
    · rfl
    · rename_i h'
      have : l = 0 := by simpa [hg, gaussOf] using (not_or.mp h').1
      rw [this]; simp
  have hamp : g.amplg (S.thick * S.K.dx) r = (Real.sqrt 2 * r / (w0 * n)) ^ a / Real.sqrt (a.factorial : ℝ) := by
    rw [amplg_eq g rfl, hW]
    simp only [hg, gaussOf, laguerre_zero, lgNorm_p0, ← ha]
    ring
  -- the source of the model
  have hsrc : b.source S (seen3 d e) = polarise
      (peak Φ a0 l0 * (w0 / (w0 * n)) * Real.exp (-r ^ 2 / (w0 * n) ^ 2) * ((Real.sqrt 2 * r / (w0 * n)) ^ a / Real.sqrt (a.factorial : ℝ)) *
        envelope ctau x0 (S.K.c * S.time))
      (carrier Φ l0 cep S - k * r ^ 2 * z / (2 * (z ^ 2 + (k * w0 ^ 2 / 2) ^ 2)) - (a + 1) * Real.arctan (z / (k * w0 ^ 2 / 2)) - l * arg ⟨d, e⟩) pol ell := by
    have hS : b.source S (seen3 d e) = g.source S.K.c S.time (S.thick * S.K.dx) (seen3 d e) := by simp only [Base.source, hb]
    rw [hS]
    unfold Gauss.source
    simp only [seen3]
    rw [← hr, hcurv, hlg, hamp, hW]
    simp only [hg, gaussOf, hkk, hkw, carrier, envelope, ← ha]
    congr 1
    rw [show S.thick * S.K.dx - focus = z from rfl]
    push_cast
    ring
  rw [hsrc, ← polarised_exp]
  congr 1
  -- the beam of the specification
  have hq : I * ((k : ℂ) * (w0 : ℂ) ^ 2 / 2) / ((z : ℂ) + I * ((k : ℂ) * (w0 : ℂ) ^ 2 / 2)) = ((1 / n : ℝ) : ℂ) * exp (I * Real.arctan (z / (k * w0 ^ 2 / 2))) := by
    have := gouy_factor z (k * w0 ^ 2 / 2) (by positivity)
    push_cast at this ⊢
    rw [this]
  have hE : -(I * k * ((d : ℂ) ^ 2 + (e : ℂ) ^ 2) / (2 * (z + I * (k * w0 ^ 2 / 2)))) =
      ((-r ^ 2 / (w0 * n) ^ 2 : ℝ) : ℂ) + I * ((-(k * r ^ 2 * z / (2 * (z ^ 2 + (k * w0 ^ 2 / 2) ^ 2))) : ℝ) : ℂ) := by
    have := exponent_split k w0 z (r ^ 2) hk hw0
    have e1 : ((r ^ 2 : ℝ) : ℂ) = (d : ℂ) ^ 2 + (e : ℂ) ^ 2 := by rw [hr2]; push_cast; ring
    rw [e1] at this
    rw [this, mul_pow, hn2]
  simp only [beam]
  rw [hq, hE, polar_point _ _ _ (vortexSign_sq l), ← hr]
  generalize arg ⟨d, e⟩ = φ at *
  generalize Real.arctan (z / (k * w0 ^ 2 / 2)) = ψ at *
  generalize hκ : k * r ^ 2 * z / (2 * (z ^ 2 + (k * w0 ^ 2 / 2) ^ 2)) = κ at *
  have := beam_finish (peak Φ a0 l0 * envelope ctau x0 (S.K.c * S.time)) (Real.sqrt (a.factorial : ℝ)) w0 n r (vortexSign l) (-κ) ψ φ (carrier Φ l0 cep S)
    (-r ^ 2 / (w0 * n) ^ 2) a l hw0.ne' hn0.ne' (vortexSign_mul l)
  rw [this]
  congr 2
  · push_cast; ring

/-- **The phase of a Gaussian laser is wrong.** The Gouy phase enters with the wrong sign. For every wavelength, waist, pulse and focus that does not lie
on the plane of injection there is a carrier envelope phase with which the field injected on the axis is not that of the beam with this phase. -/
theorem gouy_fails (Φ : Nature) (hΦ : 0 < Φ.c ∧ 0 < Φ.me ∧ 0 < Φ.e) (a0 l0 w0 ctau : ℝ) (hp : 0 < a0 ∧ 0 < l0 ∧ 0 < w0 ∧ 0 < ctau)
    (x0 y0 z0 tstop : Option ℝ) (focus : ℝ) (S : Sim) (hx : 1e-10 < |behind S focus|) :
    ∃ cep b, mkGauss Φ a0 l0 w0 ctau x0 y0 z0 tstop 0 0 cep focus "xmin" 0 0 = .ok b ∧
      b.source S (seen3 0 0) ≠ polarised 0 0 ((peak Φ a0 l0 * envelope ctau x0 (S.K.c * S.time) : ℝ) *
        beam (2 * Real.pi / l0) w0 0 1 (behind S focus) 0 0 * exp (I * (carrier Φ l0 cep S : ℂ))) := by
  have hpi := Real.pi_pos
  obtain ⟨h1, h2, h3, h4⟩ := hp
  have hk : 0 < 2 * Real.pi / l0 := by positivity
  set z := behind S focus with hz
  have hz0 : z ≠ 0 := by intro h'; rw [h'] at hx; norm_num at hx
  set ψ := Real.arctan (z / (2 * Real.pi / l0 * w0 ^ 2 / 2)) with hψ
  set cep := -carrier Φ l0 0 S with hcep
  have hcar : carrier Φ l0 cep S = 0 := by rw [hcep]; unfold carrier; ring
  obtain ⟨b, hb⟩ : ∃ b, mkGauss Φ a0 l0 w0 ctau x0 y0 z0 tstop 0 0 cep focus "xmin" 0 0 = .ok b := by
    unfold mkGauss
    rw [if_neg (by simp only [not_or, not_le]; exact ⟨h1, h2, h3, h4⟩), if_neg (by simp), if_neg (by norm_num)]
    exact ⟨_, rfl⟩
  refine ⟨cep, b, hb, ?_⟩
  have key := gaussian_beam_partial Φ hΦ.1 a0 l0 w0 ctau x0 y0 z0 tstop 0 0 cep focus "xmin" 0 b hb S (Or.inr hx) 0 0
  simp only at key
  rw [key]
  have hA : 0 < peak Φ a0 l0 * envelope ctau x0 (S.K.c * S.time) := by
    obtain ⟨p1, p2, p3⟩ := hΦ
    have : 0 < envelope ctau x0 (S.K.c * S.time) := Real.exp_pos _
    have : 0 < peak Φ a0 l0 := by unfold peak; positivity
    positivity
  set n := Real.sqrt (1 + (z / (2 * Real.pi / l0 * w0 ^ 2 / 2)) ^ 2) with hn
  have hn0 : 0 < n := Real.sqrt_pos.mpr (by positivity)
  have hbeam : ∀ s : ℝ, beam (2 * Real.pi / l0) w0 0 s z 0 0 = ((1 / n : ℝ) : ℂ) * exp (I * ψ) := by
    intro s
    have := gouy_factor z (2 * Real.pi / l0 * w0 ^ 2 / 2) (by positivity)
    simp only [beam]
    push_cast at this ⊢
    rw [show ((0 : ℂ)) ^ 2 + (0 : ℂ) ^ 2 = 0 by norm_num]
    simp only [mul_zero, zero_div, neg_zero, Complex.exp_zero, mul_one, pow_zero, zero_add, pow_one]
    rw [this]
  rw [← hz, hcar, show (0 : Int).natAbs = 0 from rfl, hbeam, hbeam, Nat.factorial_zero, Nat.cast_one, Real.sqrt_one, div_one]
  intro hEq
  set A := peak Φ a0 l0 * envelope ctau x0 (S.K.c * S.time) with hAd
  have e1 : (A : ℂ) * (((1 / n : ℝ) : ℂ) * exp (I * ψ)) * exp (I * ((0 - 2 * ((0 : Nat) + 1) * ψ : ℝ) : ℂ)) = ((A / n : ℝ) : ℂ) * exp (I * ((-ψ : ℝ) : ℂ)) := by
    rw [show ((A / n : ℝ) : ℂ) = (A : ℂ) * ((1 / n : ℝ) : ℂ) by push_cast; ring,
      show exp (I * ((-ψ : ℝ) : ℂ)) = exp (I * ψ) * exp (I * ((0 - 2 * ((0 : Nat) + 1) * ψ : ℝ) : ℂ)) by
        rw [← Complex.exp_add]; congr 1; push_cast; ring]
    ring
  have e2 : (A : ℂ) * (((1 / n : ℝ) : ℂ) * exp (I * ψ)) * exp (I * ((0 : ℝ) : ℂ)) = ((A / n : ℝ) : ℂ) * exp (I * (ψ : ℂ)) := by
    rw [ofReal_zero, mul_zero, Complex.exp_zero, mul_one]
    push_cast; ring
  rw [e1, e2, polarised_exp, polarised_exp] at hEq
  have h5 := congrArg Prod.fst hEq
  unfold polarise at h5
  simp only [Real.sin_zero, Real.cos_zero, Real.sin_neg, Real.cos_neg, zero_mul, mul_zero, sub_zero] at h5
  have hs : Real.sin ψ = 0 := by
    have hAn : 0 < A / n := by positivity
    have : Real.sqrt (1 + (0 : ℝ) ^ 2) = 1 := by norm_num
    rw [this] at h5
    nlinarith
  have hψ0 : ψ ≠ 0 := by
    rw [hψ, Ne, Real.arctan_eq_zero_iff]
    exact div_ne_zero hz0 (by positivity)
  have b1 := Real.neg_pi_div_two_lt_arctan (z / (2 * Real.pi / l0 * w0 ^ 2 / 2))
  have b2 := Real.arctan_lt_pi_div_two (z / (2 * Real.pi / l0 * w0 ^ 2 / 2))
  exact hψ0 ((Real.sin_eq_zero_iff_of_lt_of_lt (by linarith) (by linarith)).mp hs)

/-- **C80, vortex.** A Gaussian laser with azimuthal index `l` and any number of radial nodes is a vortex of charge `l`: turning the point about the
axis by an angle changes the phase of the field by `-l` times the angle and nothing else. -/
theorem vortex (Φ : Nature) (a0 l0 w0 ctau : ℝ) (x0 y0 z0 tstop : Option ℝ) (pol ell cep focus : ℝ) (side : String) (l : Int) (p : Nat) (b : Base)
    (h : mkGauss Φ a0 l0 w0 ctau x0 y0 z0 tstop pol ell cep focus side l p = .ok b) (S : Sim) (d e α : ℝ) :
    b.source S (seen3 (d * Real.cos α - e * Real.sin α) (d * Real.sin α + e * Real.cos α)) = (b.shift (-(l * α))).source S (seen3 d e) := by
  obtain ⟨-, -, -, -, hb⟩ := mkGauss_ok h
  set g := gaussOf Φ a0 l0 w0 ctau x0 pol ell cep focus l p with hg
  have hr : Real.sqrt ((d * Real.cos α - e * Real.sin α) ^ 2 + (d * Real.sin α + e * Real.cos α) ^ 2) = Real.sqrt (d ^ 2 + e ^ 2) := by
    congr 1
    linear_combination (d ^ 2 + e ^ 2) * Real.sin_sq_add_cos_sq α
  have hlg : ∀ φ, g.phaselg φ = l * φ := by
    intro φ
    unfold Gauss.phaselg
    split
    · rfl
    · rename_i h'
      have : l = 0 := by simpa [hg, gaussOf] using (not_or.mp h').1
      rw [this]; simp
  have hlg' : ∀ φ χ, Gauss.phaselg { g with cep := g.cep + χ } φ = l * φ := fun φ χ => hlg φ
  have hcv : ∀ x r χ, Gauss.curv { g with cep := g.cep + χ } x r = g.curv x r := fun _ _ _ => rfl
  simp only [Base.source, Base.shift, hb, Gauss.source, seen3, hr, hlg, hlg', hcv]
  rw [show Gauss.amplg { g with cep := g.cep + -(l * α) } (S.thick * S.K.dx) (Real.sqrt (d ^ 2 + e ^ 2)) =
      g.amplg (S.thick * S.K.dx) (Real.sqrt (d ^ 2 + e ^ 2)) from rfl,
    show Gauss.w { g with cep := g.cep + -(l * α) } (S.thick * S.K.dx) = g.w (S.thick * S.K.dx) from rfl]
  by_cases h0 : (⟨d, e⟩ : ℂ) = 0
  · have hd : d = 0 := congrArg Complex.re h0
    have he : e = 0 := congrArg Complex.im h0
    subst hd; subst he
    by_cases hl : l = 0
    · subst hl; simp
    · have : g.amplg (S.thick * S.K.dx) (Real.sqrt ((0 : ℝ) ^ 2 + 0 ^ 2)) = 0 := by
        rw [amplg_eq g rfl]
        have hne : l.natAbs ≠ 0 := by omega
        simp [hg, gaussOf, hne]
      rw [this]
      simp [polarise]
  · have hz : (⟨d * Real.cos α - e * Real.sin α, d * Real.sin α + e * Real.cos α⟩ : ℂ) = ⟨d, e⟩ * exp (α * I) := by
      apply Complex.ext
      · rw [Complex.mul_re, exp_ofReal_mul_I_re, exp_ofReal_mul_I_im]
      · rw [Complex.mul_im, exp_ofReal_mul_I_re, exp_ofReal_mul_I_im]
    have ha : (arg (⟨d * Real.cos α - e * Real.sin α, d * Real.sin α + e * Real.cos α⟩ : ℂ) : Real.Angle) = ((arg ⟨d, e⟩ + α : ℝ) : Real.Angle) := by
      rw [hz, arg_mul_coe_angle h0 (Complex.exp_ne_zero _), Real.Angle.coe_add]
      congr 1
      rw [show (exp (α * I)) = (Real.cos α : ℂ) + Real.sin α * I by rw [exp_mul_I, ofReal_cos, ofReal_sin]]
      have := arg_cos_add_sin_mul_I_coe_angle (α : Real.Angle)
      simpa using this
    obtain ⟨m, hm⟩ := Real.Angle.angle_eq_iff_two_pi_dvd_sub.mp ha
    have hφ : arg (⟨d * Real.cos α - e * Real.sin α, d * Real.sin α + e * Real.cos α⟩ : ℂ) = arg ⟨d, e⟩ + α + 2 * Real.pi * m := by linarith
    rw [hφ]
    have hper : ∀ amp ph, polarise amp (ph - ((-(l * m) : Int) : ℝ) * (2 * Real.pi)) g.pol g.ell = polarise amp ph g.pol g.ell := by
      intro amp ph
      unfold polarise
      rw [Real.sin_sub_int_mul_two_pi, Real.cos_sub_int_mul_two_pi]
    rw [← hper]
    congr 1
    push_cast
    ring

/-! ## the hypotheses are met -/

/-- a Laguerre mode with two vortices and one radial node, its focus 5 behind the boundary -/
example : ∃ b, mkGauss ⟨1, 1, 1⟩ 1 1 2 1 none none none none 0 0 0 5 "xmin" 2 1 = .ok b := by
  unfold mkGauss
  rw [if_neg (by norm_num), if_neg (by simp), if_neg (by norm_num)]
  exact ⟨_, rfl⟩

example : 1e-10 < |behind exSim 5| := by
  rw [show behind exSim 5 = -(22 / 5) by simp only [behind, exSim]; norm_num, abs_neg, abs_of_pos (by norm_num)]
  norm_num

end Verif.Laser
