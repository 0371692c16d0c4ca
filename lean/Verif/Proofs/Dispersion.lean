import Verif.Proofs.Waves
import Mathlib.Analysis.SpecialFunctions.Trigonometric.Bounds
import Mathlib.Analysis.Calculus.Deriv.MeanValue

/-! # Fourier amplitudes on a periodic grid, and bounds of the mesh frequency -/

namespace Verif.Maxwell
open Complex (I)

variable {k : Nat}

/-- plane wave with `m a` periods along axis `a` of a grid of `N a` cells -/
noncomputable def phase (N : Fin k → Nat) (m : Fin k → Int) (v : Fin k → Int) : ℂ :=
  Complex.exp (∑ a, -(2 * Real.pi * (m a * v a / N a : ℂ)) * I)

/-- Fourier amplitude on the whole grid -/
noncomputable def ampl (N : Fin k → Nat) (m : Fin k → Int) (g : (Fin k → Int) → ℚ) : ℂ :=
  tot N fun v => (g v : ℂ) * phase N m v

/-- factor of the plane wave from one cell to the next -/
noncomputable def turn (N : Fin k → Nat) (m : Fin k → Int) (a : Fin k) : ℂ := Complex.exp (-(2 * Real.pi * (m a / N a : ℂ)) * I)

theorem phase_up (N : Fin k → Nat) (m : Fin k → Int) (a : Fin k) (v) : phase N m (up a v) = phase N m v * turn N m a := by
  unfold phase turn
  rw [← Complex.exp_add]
  congr 1
  rw [← Finset.add_sum_erase _ _ (Finset.mem_univ a), ← Finset.add_sum_erase _ (fun a => -(2 * Real.pi * (m a * v a / N a : ℂ)) * I) (Finset.mem_univ a)]
  have : ∑ x ∈ Finset.univ.erase a, -(2 * Real.pi * (m x * up a v x / N x : ℂ)) * I
      = ∑ x ∈ Finset.univ.erase a, -(2 * Real.pi * (m x * v x / N x : ℂ)) * I := by
    refine Finset.sum_congr rfl fun x hx => ?_
    have := Finset.ne_of_mem_erase hx
    simp [up, this]
  rw [this]
  have h : up a v a = v a + 1 := by simp [up]
  rw [h]
  push_cast
  ring

theorem turn_ne (N : Fin k → Nat) (m : Fin k → Int) (a : Fin k) : turn N m a ≠ 0 := Complex.exp_ne_zero _

theorem phase_dn (N : Fin k → Nat) (m : Fin k → Int) (a : Fin k) (v) : phase N m (dn a v) = phase N m v * (turn N m a)⁻¹ := by
  have := phase_up N m a (dn a v)
  rw [up_dn] at this
  rw [this, mul_inv_cancel_right₀ (turn_ne N m a)]

theorem phase_per {N : Fin k → Nat} (hN : ∀ a, 0 < N a) (m : Fin k → Int) : Per1 N (phase N m) := by
  intro v w h
  unfold phase
  rw [Complex.exp_eq_exp_iff_exists_int]
  choose z hz using fun a => (h a).symm.dvd
  refine ⟨∑ a, -(m a * z a), ?_⟩
  push_cast
  rw [Finset.sum_mul, ← Finset.sum_add_distrib]
  refine Finset.sum_congr rfl fun a _ => ?_
  have hn : (N a : ℂ) ≠ 0 := by exact_mod_cast (hN a).ne'
  have hv : (v a : ℂ) = w a + N a * z a := by
    have := hz a
    have : v a = w a + N a * z a := by linarith
    exact_mod_cast this
  rw [hv]
  field_simp
  ring

theorem turn_add (N : Fin k → Nat) (m : Fin k → Int) (a : Fin k) :
    (turn N m a)⁻¹ - 2 + turn N m a = ((-4 * Real.sin (Real.pi * m a / N a) ^ 2 : ℝ) : ℂ) := by
  unfold turn
  rw [← Complex.exp_neg]
  have h := Complex.two_cos (2 * Real.pi * (m a / N a : ℂ))
  have e : (2 * Real.pi * (m a / N a : ℂ)) = ((2 * (Real.pi * m a / N a) : ℝ) : ℂ) := by push_cast; ring
  have : (((2 * Real.cos (2 * (Real.pi * m a / N a)) : ℝ)) : ℂ) = Complex.exp (-(-(2 * Real.pi * (m a / N a : ℂ)) * I)) + Complex.exp (-(2 * Real.pi * (m a / N a : ℂ)) * I) := by
    rw [show -(-(2 * Real.pi * (m a / N a : ℂ)) * I) = 2 * Real.pi * (m a / N a : ℂ) * I by ring, ← h, e]
    push_cast
    rfl
  have c : Real.cos (2 * (Real.pi * m a / N a)) = 1 - 2 * Real.sin (Real.pi * m a / N a) ^ 2 := by
    rw [Real.cos_two_mul, Real.sin_sq]; ring
  rw [c] at this
  linear_combination (norm := skip) -this
  push_cast
  ring

theorem ampl_add (N : Fin k → Nat) (m : Fin k → Int) (f g : (Fin k → Int) → ℚ) :
    ampl N m (fun v => f v + g v) = ampl N m f + ampl N m g := by
  unfold ampl tot
  rw [← Finset.sum_add_distrib]
  exact Finset.sum_congr rfl fun _ _ => by push_cast; ring

theorem ampl_mul (N : Fin k → Nat) (m : Fin k → Int) (c : ℚ) (g : (Fin k → Int) → ℚ) :
    ampl N m (fun v => c * g v) = c * ampl N m g := by
  unfold ampl tot
  rw [Finset.mul_sum]
  exact Finset.sum_congr rfl fun _ _ => by push_cast; ring

theorem ampl_sum (N : Fin k → Nat) (m : Fin k → Int) {ι : Type} (s : Finset ι) (g : ι → (Fin k → Int) → ℚ) :
    ampl N m (fun v => ∑ i ∈ s, g i v) = ∑ i ∈ s, ampl N m (g i) := by
  unfold ampl tot
  rw [Finset.sum_comm]
  exact Finset.sum_congr rfl fun _ _ => by push_cast; rw [Finset.sum_mul]

theorem tot_smul (N : Fin k → Nat) (c : ℂ) (f : (Fin k → Int) → ℂ) : tot N (fun v => c * f v) = c * tot N f := (Finset.mul_sum ..).symm

theorem ampl_up {N : Fin k → Nat} (hN : ∀ a, 0 < N a) (m : Fin k → Int) {g : (Fin k → Int) → ℚ} (hg : Per1 N g) (a : Fin k) :
    ampl N m (fun v => g (up a v)) = (turn N m a)⁻¹ * ampl N m g := by
  have hp : Per1 N fun v => (g v : ℂ) * phase N m v := fun v w h => by
    show (g v : ℂ) * _ = (g w : ℂ) * _
    rw [hg v w h, phase_per hN m v w h]
  unfold ampl
  rw [← tot_up hp a, ← tot_smul]
  refine congrArg (tot N) (funext fun v => ?_)
  rw [phase_up]
  field_simp [turn_ne N m a]

theorem ampl_dn {N : Fin k → Nat} (hN : ∀ a, 0 < N a) (m : Fin k → Int) {g : (Fin k → Int) → ℚ} (hg : Per1 N g) (a : Fin k) :
    ampl N m (fun v => g (dn a v)) = turn N m a * ampl N m g := by
  have hp : Per1 N fun v => (g v : ℂ) * phase N m v := fun v w h => by
    show (g v : ℂ) * _ = (g w : ℂ) * _
    rw [hg v w h, phase_per hN m v w h]
  unfold ampl
  rw [← tot_dn hp a, ← tot_smul]
  refine congrArg (tot N) (funext fun v => ?_)
  rw [phase_dn]
  field_simp [turn_ne N m a]

/-- the Laplace operator of the mesh multiplies an amplitude by `-4 Σ sin²(π m/N)/d²` -/
theorem ampl_lap {N : Fin k → Nat} (hN : ∀ a, 0 < N a) (m : Fin k → Int) {g : (Fin k → Int) → ℚ} (hg : Per1 N g) (d : Fin k → ℚ) :
    ampl N m (lap d g) = ((-4 * ∑ a, Real.sin (Real.pi * m a / N a) ^ 2 / (d a : ℝ) ^ 2 : ℝ) : ℂ) * ampl N m g := by
  have h1 : lap d g = fun v => ∑ a, (1 / d a ^ 2) * (g (up a v) + ((-2) * g v + g (dn a v))) := by
    funext v
    exact Finset.sum_congr rfl fun a _ => by ring
  have h2 : ∀ a, ampl N m (fun v => (1 / d a ^ 2) * (g (up a v) + ((-2) * g v + g (dn a v))))
      = ((1 / d a ^ 2 : ℚ) : ℂ) * (((-4 * Real.sin (Real.pi * m a / N a) ^ 2 : ℝ) : ℂ) * ampl N m g) := by
    intro a
    rw [ampl_mul, ampl_add, ampl_up hN m hg, ampl_add N m (fun v => (-2) * g v), ampl_mul, ampl_dn hN m hg, ← turn_add]
    push_cast
    ring
  rw [h1, ampl_sum, Finset.sum_congr rfl fun a _ => h2 a]
  push_cast
  rw [Finset.mul_sum, Finset.sum_mul]
  exact Finset.sum_congr rfl fun a _ => by ring

/-- two-term recurrence: its solutions are the two waves of the angle `θ` -/
theorem recurrence {θ : ℝ} (hθ : Real.sin θ ≠ 0) {a : Nat → ℂ} (h : ∀ i, a (i + 2) + a i = 2 * Real.cos θ * a (i + 1)) :
    ∃ A B : ℂ, ∀ i : Nat, a i = A * Complex.exp (-(θ * i) * I) + B * Complex.exp ((θ * i) * I) := by
  let p := Complex.exp (-θ * I)
  let q := Complex.exp (θ * I)
  have hs : (Real.sin θ : ℂ) ≠ 0 := by exact_mod_cast hθ
  have hq : q = Real.cos θ + Real.sin θ * I := by
    show Complex.exp (θ * I) = _
    rw [Complex.exp_mul_I, Complex.ofReal_cos, Complex.ofReal_sin]
  have hp : p = Real.cos θ - Real.sin θ * I := by
    show Complex.exp (-θ * I) = _
    rw [Complex.exp_mul_I, Complex.ofReal_cos, Complex.ofReal_sin, Complex.cos_neg, Complex.sin_neg]
    ring
  have sc : (Real.sin θ : ℂ) ^ 2 + (Real.cos θ : ℂ) ^ 2 = 1 := by exact_mod_cast Real.sin_sq_add_cos_sq θ
  have pow_p : ∀ i : Nat, Complex.exp (-(θ * i) * I) = p ^ i := fun i => by
    rw [← Complex.exp_nat_mul]; congr 1; ring
  have pow_q : ∀ i : Nat, Complex.exp ((θ * i) * I) = q ^ i := fun i => by
    rw [← Complex.exp_nat_mul]; congr 1; ring
  have hp2 : p ^ 2 = 2 * Real.cos θ * p - 1 := by
    rw [hp]; linear_combination -sc + (Real.sin θ : ℂ) ^ 2 * Complex.I_sq
  have hq2 : q ^ 2 = 2 * Real.cos θ * q - 1 := by
    rw [hq]; linear_combination -sc + (Real.sin θ : ℂ) ^ 2 * Complex.I_sq
  have hI : (2 * Real.sin θ * I : ℂ) ≠ 0 := mul_ne_zero (mul_ne_zero two_ne_zero hs) Complex.I_ne_zero
  have qp : q - p = 2 * Real.sin θ * I := by rw [hp, hq]; ring
  refine ⟨(q * a 0 - a 1) / (2 * Real.sin θ * I), (a 1 - p * a 0) / (2 * Real.sin θ * I), ?_⟩
  have key : ∀ i : Nat, a i = (q * a 0 - a 1) / (2 * Real.sin θ * I) * p ^ i + (a 1 - p * a 0) / (2 * Real.sin θ * I) * q ^ i
      ∧ a (i + 1) = (q * a 0 - a 1) / (2 * Real.sin θ * I) * p ^ (i + 1) + (a 1 - p * a 0) / (2 * Real.sin θ * I) * q ^ (i + 1) := by
    intro i
    induction i with
    | zero =>
      rw [← qp] at hI ⊢
      constructor
      · field_simp; ring
      · field_simp; ring
    | succ i ih =>
      refine ⟨ih.2, ?_⟩
      have := h i
      rw [ih.1, ih.2] at this
      generalize (q * a 0 - a 1) / (2 * Real.sin θ * I) = A at *
      generalize (a 1 - p * a 0) / (2 * Real.sin θ * I) = B at *
      rw [show i + 1 + 1 = i + 2 from rfl]
      linear_combination this - A * p ^ i * hp2 - B * q ^ i * hq2
  intro i
  rw [pow_p, pow_q]
  exact (key i).1

/-! ## bounds -/

theorem sinc_anti {y z : ℝ} (hy : 0 < y) (hyz : y ≤ z) (hz : z ≤ Real.pi) : Real.sin z / z ≤ Real.sin y / y := by
  have z0 : 0 < z := lt_of_lt_of_le hy hyz
  have hc := strictConcaveOn_sin_Icc.concaveOn.2
  have h := hc (show z ∈ Set.Icc 0 Real.pi from ⟨z0.le, hz⟩) (show (0 : ℝ) ∈ Set.Icc 0 Real.pi from ⟨le_refl _, Real.pi_pos.le⟩)
    (show 0 ≤ y / z from div_nonneg hy.le z0.le) (show 0 ≤ 1 - y / z from sub_nonneg.mpr ((div_le_one z0).mpr hyz)) (by ring)
  simp only [smul_eq_mul, Real.sin_zero, mul_zero, add_zero] at h
  rw [div_mul_cancel₀ _ z0.ne'] at h
  rw [div_le_div_iff₀ z0 hy]
  have := mul_le_mul_of_nonneg_right h z0.le
  calc Real.sin z * y = y / z * Real.sin z * z := by field_simp
    _ ≤ _ := this

/-- `sin²`, as a function of the square, lies below its tangents -/
theorem sin_sq_tangent {s x : ℝ} (hs : 0 < s) (hs' : s ≤ Real.pi / 2) (hx : 0 ≤ x) (hx' : x ≤ Real.pi / 2) :
    Real.sin x ^ 2 ≤ Real.sin s ^ 2 + Real.sin (2 * s) / (2 * s) * (x ^ 2 - s ^ 2) := by
  let r := Real.sin (2 * s) / (2 * s)
  let h : ℝ → ℝ := fun x => Real.sin x ^ 2 - r * x ^ 2
  have hd : ∀ x, HasDerivAt h (Real.sin (2 * x) - r * (2 * x)) x := by
    intro x
    have h1 := ((Real.hasDerivAt_sin x).pow 2).sub (((hasDerivAt_id x).pow 2).const_mul r)
    refine h1.congr_deriv ?_
    rw [Real.sin_two_mul]
    simp
  have hc : Continuous h := by unfold h; fun_prop
  suffices h x ≤ h s by
    unfold h at this
    show _ ≤ Real.sin s ^ 2 + r * (x ^ 2 - s ^ 2)
    linarith
  rcases le_total x s with hxs | hxs
  · have mono : MonotoneOn h (Set.Icc 0 s) := by
      refine monotoneOn_of_deriv_nonneg (convex_Icc _ _) hc.continuousOn (fun x _ => (hd x).differentiableAt.differentiableWithinAt) ?_
      intro y hy
      rw [interior_Icc] at hy
      rw [(hd y).deriv]
      have := sinc_anti (y := 2 * y) (z := 2 * s) (by linarith [hy.1]) (by linarith [hy.2]) (by linarith)
      rw [le_div_iff₀ (by linarith [hy.1])] at this
      linarith
    exact mono ⟨hx, hxs⟩ ⟨hs.le, le_refl _⟩ hxs
  · have anti : AntitoneOn h (Set.Icc s (Real.pi / 2)) := by
      refine antitoneOn_of_deriv_nonpos (convex_Icc _ _) hc.continuousOn (fun x _ => (hd x).differentiableAt.differentiableWithinAt) ?_
      intro y hy
      rw [interior_Icc] at hy
      rw [(hd y).deriv]
      have y0 : 0 < y := lt_trans hs hy.1
      have := sinc_anti (y := 2 * s) (z := 2 * y) (by linarith) (by linarith [hy.1]) (by linarith [hy.2])
      rw [div_le_iff₀ (by linarith)] at this
      linarith
    exact anti ⟨le_refl _, hs'⟩ ⟨hxs, hx'⟩ hxs

/-- a mean of `sin²` is below `sin²` of the root mean square -/
theorem mean_sin_sq {ι : Type} (t : Finset ι) (p x : ι → ℝ) (hp : ∀ i ∈ t, 0 ≤ p i) (h1 : ∑ i ∈ t, p i ≤ 1)
    (hx : ∀ i ∈ t, |x i| ≤ Real.pi / 2) :
    ∑ i ∈ t, p i * Real.sin (x i) ^ 2 ≤ Real.sin (√(∑ i ∈ t, p i * x i ^ 2)) ^ 2 ∧ √(∑ i ∈ t, p i * x i ^ 2) ≤ Real.pi / 2 := by
  have hS : 0 ≤ ∑ i ∈ t, p i * x i ^ 2 := Finset.sum_nonneg fun i hi => mul_nonneg (hp i hi) (sq_nonneg _)
  have hle : ∑ i ∈ t, p i * x i ^ 2 ≤ (Real.pi / 2) ^ 2 := by
    calc ∑ i ∈ t, p i * x i ^ 2 ≤ ∑ i ∈ t, p i * (Real.pi / 2) ^ 2 := Finset.sum_le_sum fun i hi =>
          mul_le_mul_of_nonneg_left (by rw [← sq_abs (x i)]; exact pow_le_pow_left₀ (abs_nonneg _) (hx i hi) 2) (hp i hi)
      _ = (∑ i ∈ t, p i) * (Real.pi / 2) ^ 2 := by rw [Finset.sum_mul]
      _ ≤ 1 * (Real.pi / 2) ^ 2 := mul_le_mul_of_nonneg_right h1 (sq_nonneg _)
      _ = _ := one_mul _
  have hs' : √(∑ i ∈ t, p i * x i ^ 2) ≤ Real.pi / 2 := by
    rw [Real.sqrt_le_left (by positivity)]; exact hle
  refine ⟨?_, hs'⟩
  rcases hS.eq_or_lt with h0 | h0
  · rw [← h0, Real.sqrt_zero, Real.sin_zero]
    have hz := (Finset.sum_eq_zero_iff_of_nonneg fun i hi => mul_nonneg (hp i hi) (sq_nonneg (x i))).mp h0.symm
    refine le_of_eq ?_
    rw [zero_pow two_ne_zero]
    refine Finset.sum_eq_zero fun i hi => ?_
    rcases mul_eq_zero.mp (hz i hi) with h | h
    · rw [h, zero_mul]
    · rw [pow_eq_zero_iff two_ne_zero] at h
      rw [h]; simp
  · set S := ∑ i ∈ t, p i * x i ^ 2 with hSdef
    have s0 : 0 < √S := Real.sqrt_pos.mpr h0
    have ss : √S ^ 2 = S := Real.sq_sqrt hS
    set r := Real.sin (2 * √S) / (2 * √S) with hr
    have tang : ∀ i ∈ t, Real.sin (x i) ^ 2 ≤ Real.sin √S ^ 2 + r * (x i ^ 2 - S) := by
      intro i hi
      have := sin_sq_tangent s0 hs' (abs_nonneg (x i)) (hx i hi)
      rw [sq_abs, ss] at this
      rcases abs_choice (x i) with h | h
      · rw [h] at this; exact this
      · rw [h, Real.sin_neg, neg_sq] at this; exact this
    have tang0 : 0 ≤ Real.sin √S ^ 2 + r * (0 - S) := by
      have := sin_sq_tangent s0 hs' (le_refl 0) (by positivity)
      simpa [ss] using this
    calc ∑ i ∈ t, p i * Real.sin (x i) ^ 2 ≤ ∑ i ∈ t, p i * (Real.sin √S ^ 2 + r * (x i ^ 2 - S)) :=
          Finset.sum_le_sum fun i hi => mul_le_mul_of_nonneg_left (tang i hi) (hp i hi)
      _ = (∑ i ∈ t, p i) * (Real.sin √S ^ 2 + r * (0 - S)) + r * S := by
          rw [Finset.sum_mul, hSdef, Finset.mul_sum (s := t) (a := r), ← Finset.sum_add_distrib]
          exact Finset.sum_congr rfl fun i _ => by ring
      _ ≤ 1 * (Real.sin √S ^ 2 + r * (0 - S)) + r * S := by
          have := mul_le_mul_of_nonneg_right h1 tang0
          linarith
      _ = _ := by ring

theorem sin_sq_ge (x : ℝ) : x ^ 2 - x ^ 4 / 3 ≤ Real.sin x ^ 2 := by
  wlog hx : 0 ≤ x generalizing x
  · have := this (-x) (by linarith)
    rw [Real.sin_neg, neg_sq] at this
    nlinarith [this]
  by_cases h3 : x ^ 2 ≤ 3
  · have h := Real.sin_ge_sub_cube hx
    have h0 : 0 ≤ x - x ^ 3 / 6 := by nlinarith [mul_nonneg hx (by linarith : (0 : ℝ) ≤ 6 - x ^ 2)]
    have := pow_le_pow_left₀ h0 h 2
    nlinarith [sq_nonneg (x ^ 3)]
  · push Not at h3
    have : x ^ 2 - x ^ 4 / 3 ≤ 0 := by nlinarith [sq_nonneg x]
    linarith [sq_nonneg (Real.sin x)]

end Verif.Maxwell
