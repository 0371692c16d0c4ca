import Verif.Props.Liouville
import Mathlib.Analysis.SpecialFunctions.Trigonometric.ArctanDeriv
import Mathlib.Analysis.Calculus.Deriv.MeanValue
import Mathlib.LinearAlgebra.CrossProduct

/-! # C96: gyration in a uniform magnetic field -/

namespace Verif.GyrationProps

open Verif.Liouville Verif.Pusher Verif.PusherProps Verif.LiouvilleProps

/-- a uniform magnetic field along z -/
def alongZ {k : Nat} (B : ℝ) (_ : Fin k → ℝ) : FieldsAt ℝ := ⟨0, 0, 0, 0, 0, B⟩

/-- Lorentz factor of a momentum in units of mass times speed of light -/
noncomputable def gamma (u : Fin 3 → ℝ) : ℝ := Real.sqrt (1 + u 0 ^ 2 + u 1 ^ 2 + u 2 ^ 2)

/-- the true cyclotron frequency of a particle with charge `q` and mass `m` -/
noncomputable def cyclotron (q m B : ℝ) (u : Fin 3 → ℝ) : ℝ := q * B / (m * gamma u)

/-- the angle of one push -/
noncomputable def turn (q m B dt : ℝ) (u : Fin 3 → ℝ) : ℝ := 2 * Real.arctan (cyclotron q m B u * dt / 2)

theorem gamma_pos (u : Fin 3 → ℝ) : 0 < gamma u := by
  unfold gamma; positivity

theorem igOf_eq (u : Fin 3 → ℝ) : igOf invSqrt u = 1 / gamma u := by
  unfold igOf invSqrt gamma
  congr 2; ring

theorem cos_turn (t : ℝ) : Real.cos (2 * Real.arctan t) = 1 - 2 * t ^ 2 / (1 + t ^ 2) := by
  have h : (1 + t ^ 2) ≠ 0 := by positivity
  rw [Real.cos_two_mul, Real.cos_sq_arctan]
  field_simp; ring

theorem sin_turn (t : ℝ) : Real.sin (2 * Real.arctan t) = 2 * t / (1 + t ^ 2) := by
  have h : 0 < (1 + t ^ 2) := by positivity
  have hs : Real.sqrt (1 + t ^ 2) ^ 2 = 1 + t ^ 2 := Real.sq_sqrt h.le
  have h0 : Real.sqrt (1 + t ^ 2) ≠ 0 := (Real.sqrt_pos.mpr h).ne'
  rw [Real.sin_two_mul, Real.sin_arctan, Real.cos_arctan]
  generalize hr : Real.sqrt (1 + t ^ 2) = r at *
  rw [eq_div_iff h.ne', ← hs]
  field_simp

/-- the momentum step in a uniform magnetic field along z: a rotation by `turn` -/
theorem kick_turns {k : Nat} (c q m B dt : ℝ) (s : Phase ℝ k) :
    let r := kick invSqrt (q * dt / (2 * m * c)) (q * dt / (2 * m)) (alongZ B) s
    let θ := turn q m B dt s.2
    r.1 = s.1 ∧ r.2 0 = Real.cos θ * s.2 0 + Real.sin θ * s.2 1 ∧ r.2 1 = Real.cos θ * s.2 1 - Real.sin θ * s.2 0
      ∧ r.2 2 = s.2 2 := by
  intro r θ
  obtain ⟨h1, h2, h3, -⟩ := borisC_eq invSqrt (q * dt / (2 * m * c)) (q * dt / (2 * m)) (alongZ B s.1)
    ⟨s.2 0, s.2 1, s.2 2, igOf invSqrt s.2⟩
  have ht : q * dt / (2 * m) * B * invSqrt (1 + s.2 0 * s.2 0 + s.2 1 * s.2 1 + s.2 2 * s.2 2)
      = cyclotron q m B s.2 * dt / 2 := by
    have e := igOf_eq s.2
    unfold igOf at e
    rw [e]; unfold cyclotron
    rw [← div_div]
    by_cases hm : m = 0
    · rw [hm]; simp
    · have := (gamma_pos s.2).ne'
      field_simp
  simp only [alongZ, mul_zero, zero_mul, add_zero] at h1 h2 h3
  rw [ht] at h1 h2 h3
  have hne : (1 + (cyclotron q m B s.2 * dt / 2) ^ 2) ≠ 0 := by positivity
  refine ⟨rfl, ?_, ?_, ?_⟩
  · refine h1.trans ?_
    show _ = Real.cos (2 * _) * _ + Real.sin (2 * _) * _
    rw [cos_turn, sin_turn]
    generalize cyclotron q m B s.2 * dt / 2 = t at *
    unfold rot
    simp only [mul_zero, add_zero, sub_zero]
    rw [← sq]
    field_simp; ring
  · refine h2.trans ?_
    show _ = Real.cos (2 * _) * _ - Real.sin (2 * _) * _
    rw [cos_turn, sin_turn]
    generalize cyclotron q m B s.2 * dt / 2 = t at *
    unfold rot
    simp only [mul_zero, add_zero, sub_zero]
    rw [← sq]
    field_simp; ring
  · refine h3.trans ?_
    unfold rot
    simp

theorem gamma_of_sq (u v : Fin 3 → ℝ) (h : u 0 ^ 2 + u 1 ^ 2 + u 2 ^ 2 = v 0 ^ 2 + v 1 ^ 2 + v 2 ^ 2) : gamma u = gamma v := by
  unfold gamma
  congr 1
  linarith

/-- one whole push in a uniform magnetic field -/
theorem push_turns {k : Nat} (c q m B dt : ℝ) (s : Phase ℝ k) :
    let r := push invSqrt c q m dt (alongZ B) s
    let θ := turn q m B dt s.2
    r.2 0 = Real.cos θ * s.2 0 + Real.sin θ * s.2 1 ∧ r.2 1 = Real.cos θ * s.2 1 - Real.sin θ * s.2 0
      ∧ r.2 2 = s.2 2 ∧ gamma r.2 = gamma s.2
      ∧ ∀ i, r.1 i = s.1 i + c * dt / 2 / gamma s.2 * (s.2 (axis i) + r.2 (axis i)) := by
  intro r θ
  obtain ⟨h0, h1, h2, h3⟩ := kick_turns c q m B dt (drift invSqrt (c * (1 / 2) * dt) s)
  have hg : gamma r.2 = gamma s.2 := by
    apply gamma_of_sq
    have e0 : r.2 0 = Real.cos θ * s.2 0 + Real.sin θ * s.2 1 := h1
    have e1 : r.2 1 = Real.cos θ * s.2 1 - Real.sin θ * s.2 0 := h2
    have e2 : r.2 2 = s.2 2 := h3
    rw [e0, e1, e2]
    have := Real.sin_sq_add_cos_sq θ
    linear_combination (s.2 0 ^ 2 + s.2 1 ^ 2) * this
  refine ⟨h1, h2, h3, hg, fun i => ?_⟩
  show (kick invSqrt _ _ (alongZ B) (drift invSqrt (c * (1 / 2) * dt) s)).1 i
    + c * (1 / 2) * dt * igOf invSqrt r.2 * r.2 (axis i) = _
  rw [h0, igOf_eq, hg]
  show s.1 i + c * (1 / 2) * dt * igOf invSqrt s.2 * s.2 (axis i) + _ = _
  rw [igOf_eq]
  ring

/-! ## C96 -/

theorem pushes_inv {k : Nat} (c q m B dt : ℝ) (s : Phase ℝ k) (n : Nat) :
    let r := pushes invSqrt c q m dt (fun _ => alongZ B) n s
    let θ := turn q m B dt s.2
    r.2 0 = Real.cos (n * θ) * s.2 0 + Real.sin (n * θ) * s.2 1
      ∧ r.2 1 = Real.cos (n * θ) * s.2 1 - Real.sin (n * θ) * s.2 0
      ∧ r.2 2 = s.2 2 ∧ gamma r.2 = gamma s.2 := by
  induction n with
  | zero => simp [pushes]
  | succ n ih =>
    intro r θ
    obtain ⟨h0, h1, h2, h3⟩ := ih
    obtain ⟨g0, g1, g2, g3, -⟩ := push_turns c q m B dt (pushes invSqrt c q m dt (fun _ => alongZ B) n s)
    have ht : turn q m B dt (pushes invSqrt c q m dt (fun _ => alongZ B) n s).2 = θ := by
      show turn q m B dt _ = turn q m B dt s.2
      unfold turn cyclotron; rw [h3]
    have hadd : ((n + 1 : Nat) : ℝ) * θ = n * θ + θ := by push_cast; ring
    rw [ht, h0, h1] at g0 g1
    refine ⟨?_, ?_, g2.trans h2, g3.trans h3⟩
    · rw [hadd, Real.cos_add, Real.sin_add]
      exact g0.trans (by ring)
    · rw [hadd, Real.cos_add, Real.sin_add]
      exact g1.trans (by ring)

/-- C96. In a uniform magnetic field along z the momentum turns about the field by the same angle in every step,
`2 arctan (ω dt / 2)` with the true cyclotron frequency `ω`; the component along the field and the energy stay, for every
number of steps and every step size. -/
theorem gyration {k : Nat} (c q m B dt : ℝ) (s : Phase ℝ k) (n : Nat) :
    let r := pushes invSqrt c q m dt (fun _ => alongZ B) n s
    let θ := 2 * Real.arctan (cyclotron q m B s.2 * dt / 2)
    r.2 0 = Real.cos (n * θ) * s.2 0 + Real.sin (n * θ) * s.2 1
      ∧ r.2 1 = Real.cos (n * θ) * s.2 1 - Real.sin (n * θ) * s.2 0
      ∧ r.2 2 = s.2 2 ∧ gamma r.2 = gamma s.2 :=
  pushes_inv c q m B dt s n

/-- the coordinates x and y of a particle in two or three dimensions -/
def xy {k : Nat} (hk : 2 ≤ k) (s : Phase ℝ k) : ℝ × ℝ := (s.1 ⟨0, by omega⟩, s.1 ⟨1, by omega⟩)

theorem half_tan (t : ℝ) :
    t * (1 + (1 - 2 * t ^ 2 / (1 + t ^ 2))) = 2 * t / (1 + t ^ 2)
      ∧ t * (2 * t / (1 + t ^ 2)) = 1 - (1 - 2 * t ^ 2 / (1 + t ^ 2)) := by
  have h : (1 + t ^ 2) ≠ 0 := by positivity
  constructor <;> field_simp <;> ring

theorem centre_step {k : Nat} (hk : 2 ≤ k) (c q m B dt : ℝ) (hq : q ≠ 0) (hm : m ≠ 0) (hB : B ≠ 0) (s : Phase ℝ k) :
    let r := push invSqrt c q m dt (alongZ B) s
    (xy hk r).1 + m * c / (q * B) * r.2 1 = (xy hk s).1 + m * c / (q * B) * s.2 1
      ∧ (xy hk r).2 - m * c / (q * B) * r.2 0 = (xy hk s).2 - m * c / (q * B) * s.2 0 := by
  intro r
  obtain ⟨g0, g1, -, -, g4⟩ := push_turns c q m B dt s
  have hg := (gamma_pos s.2).ne'
  have hK : c * dt / 2 / gamma s.2 = m * c / (q * B) * (cyclotron q m B s.2 * dt / 2) := by
    unfold cyclotron; field_simp
  have p0 : 0 < k := by omega
  have p1 : 1 < k := by omega
  have ex : r.1 ⟨0, by omega⟩ = s.1 ⟨0, by omega⟩ + c * dt / 2 / gamma s.2 * (s.2 0 + r.2 0) := g4 ⟨0, p0⟩
  have ey : r.1 ⟨1, by omega⟩ = s.1 ⟨1, by omega⟩ + c * dt / 2 / gamma s.2 * (s.2 1 + r.2 1) := g4 ⟨1, p1⟩
  obtain ⟨t1, t2⟩ := half_tan (cyclotron q m B s.2 * dt / 2)
  unfold turn at g0 g1
  rw [cos_turn, sin_turn] at g0 g1
  have e0 : r.2 0 = _ := g0
  have e1 : r.2 1 = _ := g1
  unfold xy
  rw [ex, ey, hK, e0, e1]
  generalize cyclotron q m B s.2 * dt / 2 = t at *
  generalize 2 * t ^ 2 / (1 + t ^ 2) = C at *
  generalize 2 * t / (1 + t ^ 2) = S at *
  generalize m * c / (q * B) = ρ
  constructor
  · show s.1 ⟨0, by omega⟩ + _ + _ = s.1 ⟨0, by omega⟩ + _
    linear_combination ρ * s.2 0 * t1 + ρ * s.2 1 * t2
  · show s.1 ⟨1, by omega⟩ + _ - _ = s.1 ⟨1, by omega⟩ - _
    linear_combination ρ * s.2 1 * t1 - ρ * s.2 0 * t2

/-- C96. The particle is after every step on the true gyration circle: the centre it starts with stays where it is,
and the distance from it is the true gyration radius `m c u⊥ / (q B)`, for every step size. -/
theorem on_the_circle {k : Nat} (hk : 2 ≤ k) (c q m B dt : ℝ) (hq : q ≠ 0) (hm : m ≠ 0) (hB : B ≠ 0) (s : Phase ℝ k)
    (n : Nat) :
    let r := pushes invSqrt c q m dt (fun _ => alongZ B) n s
    let X := (xy hk s).1 + m * c / (q * B) * s.2 1
    let Y := (xy hk s).2 - m * c / (q * B) * s.2 0
    ((xy hk r).1 - X) ^ 2 + ((xy hk r).2 - Y) ^ 2 = (m * c / (q * B)) ^ 2 * (s.2 0 ^ 2 + s.2 1 ^ 2) := by
  intro r X Y
  have hinv : ∀ n : Nat, (xy hk (pushes invSqrt c q m dt (fun _ => alongZ B) n s)).1
        + m * c / (q * B) * (pushes invSqrt c q m dt (fun _ => alongZ B) n s).2 1 = X
      ∧ (xy hk (pushes invSqrt c q m dt (fun _ => alongZ B) n s)).2
        - m * c / (q * B) * (pushes invSqrt c q m dt (fun _ => alongZ B) n s).2 0 = Y := by
    intro n
    induction n with
    | zero => exact ⟨rfl, rfl⟩
    | succ n ih =>
      obtain ⟨a, b⟩ := centre_step hk c q m B dt hq hm hB (pushes invSqrt c q m dt (fun _ => alongZ B) n s)
      exact ⟨a.trans ih.1, b.trans ih.2⟩
  obtain ⟨a, b⟩ := hinv n
  obtain ⟨h0, h1, -, -⟩ := pushes_inv c q m B dt s n
  have e1 : (xy hk r).1 - X = - (m * c / (q * B) * r.2 1) := by rw [← a]; ring
  have e2 : (xy hk r).2 - Y = m * c / (q * B) * r.2 0 := by rw [← b]; ring
  have e3 : r.2 0 = _ := h0
  have e4 : r.2 1 = _ := h1
  rw [e1, e2, e3, e4]
  have := Real.sin_sq_add_cos_sq (n * turn q m B dt s.2)
  linear_combination (m * c / (q * B)) ^ 2 * (s.2 0 ^ 2 + s.2 1 ^ 2) * this

/-- C96. Along the field a particle moves with its constant velocity. -/
theorem along_the_field (c q m B dt : ℝ) (s : Phase ℝ 3) (n : Nat) :
    (pushes invSqrt c q m dt (fun _ => alongZ B) n s).1 2 = s.1 2 + n * dt * (c * s.2 2 / gamma s.2) := by
  induction n with
  | zero => simp [pushes]
  | succ n ih =>
    obtain ⟨-, -, h2, h3⟩ := pushes_inv c q m B dt s n
    obtain ⟨-, -, g2, -, g4⟩ := push_turns c q m B dt (pushes invSqrt c q m dt (fun _ => alongZ B) n s)
    refine (g4 2).trans ?_
    show (pushes invSqrt c q m dt (fun _ => alongZ B) n s).1 2 + c * dt / 2 / gamma _ * (_ + _) = _
    have e : (push invSqrt c q m dt (alongZ B) (pushes invSqrt c q m dt (fun _ => alongZ B) n s)).2 (axis 2) = s.2 2 :=
      g2.trans h2
    have e' : (pushes invSqrt c q m dt (fun _ => alongZ B) n s).2 (axis 2) = s.2 2 := h2
    show _ + _ * ((pushes invSqrt c q m dt (fun _ => alongZ B) n s).2 (axis 2)
      + (push invSqrt c q m dt (alongZ B) (pushes invSqrt c q m dt (fun _ => alongZ B) n s)).2 (axis 2)) = _
    rw [e, e', ih, h3]
    push_cast
    ring

theorem arctan_bounds (x : ℝ) (hx : 0 ≤ x) : x - x ^ 3 / 3 ≤ Real.arctan x ∧ Real.arctan x ≤ x := by
  have key : ∀ (f f' : ℝ → ℝ), (∀ y, HasDerivAt f (f' y) y) → (∀ y, 0 ≤ f' y) → f 0 = 0 → 0 ≤ f x := by
    intro f f' h1 h2 h3
    have := monotone_of_deriv_nonneg (fun y => (h1 y).differentiableAt) (fun y => by rw [(h1 y).deriv]; exact h2 y)
    rw [← h3]; exact this hx
  constructor
  · have := key (fun y => Real.arctan y - y + y ^ 3 / 3) (fun y => 1 / (1 + y ^ 2) - 1 + (3 * y ^ 2) / 3)
      (fun y => ((Real.hasDerivAt_arctan y).sub (hasDerivAt_id' y)).add ((by simpa using hasDerivAt_pow 3 y : HasDerivAt (fun y : ℝ => y ^ 3) (3 * y ^ 2) y).div_const 3))
      (fun y => by
        have h : 0 < 1 + y ^ 2 := by positivity
        have e : 1 / (1 + y ^ 2) - 1 + (3 * y ^ 2) / 3 = y ^ 4 / (1 + y ^ 2) := by field_simp; ring
        rw [e]; positivity)
      (by simp)
    linarith [this]
  · have := key (fun y => y - Real.arctan y) (fun y => 1 - 1 / (1 + y ^ 2))
      (fun y => (hasDerivAt_id' y).sub (Real.hasDerivAt_arctan y))
      (fun y => by
        have h : 0 < 1 + y ^ 2 := by positivity
        have e : 1 - 1 / (1 + y ^ 2) = y ^ 2 / (1 + y ^ 2) := by field_simp; ring
        rw [e]; positivity)
      (by simp)
    linarith [this]

/-- C96. The phase after `n` steps never runs ahead of the true one, and lags by at most `(ω dt)³ / 12` per step. -/
theorem phase_lag (ω dt : ℝ) (n : Nat) (h : 0 ≤ ω * dt) :
    let θ := 2 * Real.arctan (ω * dt / 2)
    n * θ ≤ ω * (n * dt) ∧ ω * (n * dt) - n * θ ≤ n * ((ω * dt) ^ 3 / 12) := by
  intro θ
  obtain ⟨h1, h2⟩ := arctan_bounds (ω * dt / 2) (by linarith)
  have hn : (0 : ℝ) ≤ n := Nat.cast_nonneg n
  have a : θ ≤ ω * dt := by show 2 * _ ≤ _; linarith
  have b : ω * dt - θ ≤ (ω * dt) ^ 3 / 12 := by
    show ω * dt - 2 * _ ≤ _
    have : (ω * dt / 2) ^ 3 / 3 = (ω * dt) ^ 3 / 24 := by ring
    linarith
  constructor
  · calc n * θ ≤ n * (ω * dt) := mul_le_mul_of_nonneg_left a hn
      _ = ω * (n * dt) := by ring
  · calc ω * (n * dt) - n * θ = n * (ω * dt - θ) := by ring
      _ ≤ n * ((ω * dt) ^ 3 / 12) := mul_le_mul_of_nonneg_left b hn

/-- the true motion of the momentum across a uniform field: `du/dt = ω u × e_z` -/
structure TrueGyration (ω : ℝ) (a b : ℝ → ℝ) : Prop where
  x : ∀ t, HasDerivAt a (ω * b t) t
  y : ∀ t, HasDerivAt b (-(ω * a t)) t

theorem true_gyration {ω : ℝ} {a b : ℝ → ℝ} (h : TrueGyration ω a b) (t : ℝ) :
    a t = Real.cos (ω * t) * a 0 + Real.sin (ω * t) * b 0 ∧ b t = Real.cos (ω * t) * b 0 - Real.sin (ω * t) * a 0 := by
  have hl : ∀ t, HasDerivAt (fun t : ℝ => ω * t) ω t := fun t => by simpa using (hasDerivAt_id' t).const_mul ω
  have hc : ∀ t, HasDerivAt (fun t => Real.cos (ω * t)) (-Real.sin (ω * t) * ω) t := fun t => (hl t).cos
  have hs : ∀ t, HasDerivAt (fun t => Real.sin (ω * t)) (Real.cos (ω * t) * ω) t := fun t => (hl t).sin
  have hP : ∀ t, HasDerivAt (fun t => a t * Real.cos (ω * t) - b t * Real.sin (ω * t)) 0 t := fun t => by
    have := ((h.x t).mul (hc t)).sub ((h.y t).mul (hs t))
    exact this.congr_deriv (by ring)
  have hQ : ∀ t, HasDerivAt (fun t => a t * Real.sin (ω * t) + b t * Real.cos (ω * t)) 0 t := fun t => by
    have := ((h.x t).mul (hs t)).add ((h.y t).mul (hc t))
    exact this.congr_deriv (by ring)
  have cP : a t * Real.cos (ω * t) - b t * Real.sin (ω * t) = a 0 := by
    have := is_const_of_deriv_eq_zero (fun t => (hP t).differentiableAt) (fun t => (hP t).deriv) t 0
    simpa using this
  have cQ : a t * Real.sin (ω * t) + b t * Real.cos (ω * t) = b 0 := by
    have := is_const_of_deriv_eq_zero (fun t => (hQ t).differentiableAt) (fun t => (hQ t).deriv) t 0
    simpa using this
  have h1 := Real.sin_sq_add_cos_sq (ω * t)
  constructor
  · linear_combination Real.cos (ω * t) * cP + Real.sin (ω * t) * cQ - a t * h1
  · linear_combination Real.cos (ω * t) * cQ - Real.sin (ω * t) * cP - b t * h1

theorem turn_error (a : ℝ) : |2 * Real.arctan (a / 2) - a| ≤ |a| ^ 3 / 12 := by
  have pos : ∀ a : ℝ, 0 ≤ a → |2 * Real.arctan (a / 2) - a| ≤ |a| ^ 3 / 12 := by
    intro a ha
    obtain ⟨h1, h2⟩ := arctan_bounds (a / 2) (by linarith)
    have : (a / 2) ^ 3 / 3 = a ^ 3 / 24 := by ring
    rw [abs_of_nonneg ha, abs_le]
    have h3 : 0 ≤ a ^ 3 := by positivity
    constructor <;> linarith
  rcases le_total 0 a with h | h
  · exact pos a h
  · have := pos (-a) (by linarith)
    rw [neg_div, Real.arctan_neg, abs_neg] at this
    have e : 2 * -Real.arctan (a / 2) - -a = -(2 * Real.arctan (a / 2) - a) := by ring
    rwa [e, abs_neg] at this

/-- the chord is not longer than the arc -/
theorem chord (φ ψ : ℝ) : (Real.cos φ - Real.cos ψ) ^ 2 + (Real.sin φ - Real.sin ψ) ^ 2 ≤ (φ - ψ) ^ 2 := by
  have h := Real.one_sub_sq_div_two_le_cos (x := φ - ψ)
  rw [Real.cos_sub] at h
  have h1 := Real.sin_sq_add_cos_sq φ
  have h2 := Real.sin_sq_add_cos_sq ψ
  nlinarith

/-- C96. After `n` steps the momentum is within `u⊥ · n |ω dt|³ / 12` of the true solution of the equation of motion
at that time. -/
theorem near_true_motion {k : Nat} (c q m B dt : ℝ) (s : Phase ℝ k) (n : Nat) (a b : ℝ → ℝ)
    (h : TrueGyration (cyclotron q m B s.2) a b) (ha : a 0 = s.2 0) (hb : b 0 = s.2 1) :
    let r := pushes invSqrt c q m dt (fun _ => alongZ B) n s
    (r.2 0 - a (n * dt)) ^ 2 + (r.2 1 - b (n * dt)) ^ 2
      ≤ (s.2 0 ^ 2 + s.2 1 ^ 2) * (n * (|cyclotron q m B s.2 * dt| ^ 3 / 12)) ^ 2 := by
  intro r
  obtain ⟨h0, h1, -, -⟩ := pushes_inv c q m B dt s n
  obtain ⟨t0, t1⟩ := true_gyration h (n * dt)
  have e0 : r.2 0 = _ := h0
  have e1 : r.2 1 = _ := h1
  rw [e0, e1, t0, t1, ha, hb]
  have hc := chord (n * turn q m B dt s.2) (cyclotron q m B s.2 * (n * dt))
  have he := turn_error (cyclotron q m B s.2 * dt)
  have e2 : n * turn q m B dt s.2 - cyclotron q m B s.2 * (n * dt)
      = n * (2 * Real.arctan (cyclotron q m B s.2 * dt / 2) - cyclotron q m B s.2 * dt) := by
    unfold turn; ring
  rw [e2] at hc
  have hn : (0 : ℝ) ≤ n := Nat.cast_nonneg n
  have h3 : (n * (2 * Real.arctan (cyclotron q m B s.2 * dt / 2) - cyclotron q m B s.2 * dt)) ^ 2
      ≤ (n * (|cyclotron q m B s.2 * dt| ^ 3 / 12)) ^ 2 := by
    rw [← sq_abs, abs_mul, Nat.abs_cast]
    exact pow_le_pow_left₀ (by positivity) (mul_le_mul_of_nonneg_left he hn) 2
  generalize n * turn q m B dt s.2 = φ at *
  generalize cyclotron q m B s.2 * (n * dt) = ψ at *
  have hu : 0 ≤ s.2 0 ^ 2 + s.2 1 ^ 2 := by positivity
  calc _ = (s.2 0 ^ 2 + s.2 1 ^ 2) * ((Real.cos φ - Real.cos ψ) ^ 2 + (Real.sin φ - Real.sin ψ) ^ 2) := by ring
    _ ≤ _ := mul_le_mul_of_nonneg_left (hc.trans h3) hu

/-- a true gyration exists for every frequency and every start -/
example (ω x y : ℝ) : TrueGyration ω (fun t => Real.cos (ω * t) * x + Real.sin (ω * t) * y)
    (fun t => Real.cos (ω * t) * y - Real.sin (ω * t) * x) := by
  have hl : ∀ t, HasDerivAt (fun t : ℝ => ω * t) ω t := fun t => by simpa using (hasDerivAt_id' t).const_mul ω
  refine ⟨fun t => ?_, fun t => ?_⟩
  · exact (((hl t).cos.mul_const x).add ((hl t).sin.mul_const y)).congr_deriv (by ring)
  · exact (((hl t).cos.mul_const y).sub ((hl t).sin.mul_const x)).congr_deriv (by ring)

/-! ## any direction of the field -/

/-- a uniform magnetic field -/
def uniform {k : Nat} (B : Fin 3 → ℝ) (_ : Fin k → ℝ) : FieldsAt ℝ := ⟨0, 0, 0, B 0, B 1, B 2⟩

/-- strength of a field -/
noncomputable def strength (B : Fin 3 → ℝ) : ℝ := Real.sqrt (B 0 ^ 2 + B 1 ^ 2 + B 2 ^ 2)

/-- the part of `u` along `B` -/
noncomputable def along (B u : Fin 3 → ℝ) (i : Fin 3) : ℝ := (u 0 * B 0 + u 1 * B 1 + u 2 * B 2) / strength B ^ 2 * B i

/-- the vector product -/
def cross (u B : Fin 3 → ℝ) : Fin 3 → ℝ :=
  ![u 1 * B 2 - u 2 * B 1, u 2 * B 0 - u 0 * B 2, u 0 * B 1 - u 1 * B 0]

theorem cross_is (u B : Fin 3 → ℝ) : cross u B = crossProduct u B := by
  rw [cross_apply]; rfl

/-- `u` turned about `B` by the angle `φ`, clockwise as seen against `B` -/
noncomputable def turned (B : Fin 3 → ℝ) (φ : ℝ) (u : Fin 3 → ℝ) (i : Fin 3) : ℝ :=
  along B u i + Real.cos φ * (u i - along B u i) + Real.sin φ * (cross u B i / strength B)

theorem strength_sq (B : Fin 3 → ℝ) : strength B ^ 2 = B 0 ^ 2 + B 1 ^ 2 + B 2 ^ 2 :=
  Real.sq_sqrt (by positivity)

theorem rot_turned (a b c Bx By Bz Bs t : ℝ) (hB : Bs ≠ 0) (hs : Bs ^ 2 = Bx ^ 2 + By ^ 2 + Bz ^ 2) :
    rot a b c (t * Bx / Bs) (t * By / Bs) (t * Bz / Bs)
      = (a * Bx + b * By + c * Bz) / Bs ^ 2 * Bx + (1 - 2 * t ^ 2 / (1 + t ^ 2)) * (a - (a * Bx + b * By + c * Bz) / Bs ^ 2 * Bx)
        + 2 * t / (1 + t ^ 2) * ((b * Bz - c * By) / Bs) := by
  have h : (1 + t ^ 2) ≠ 0 := by positivity
  have e : 1 + t * Bx / Bs * (t * Bx / Bs) + t * By / Bs * (t * By / Bs) + t * Bz / Bs * (t * Bz / Bs) = 1 + t ^ 2 := by
    field_simp
    linear_combination (- t ^ 2) * hs
  unfold rot
  dsimp only
  rw [e]
  field_simp
  linear_combination (2 * t ^ 2 * a) * hs

/-- the momentum step in a uniform magnetic field -/
theorem kick_turns_any {k : Nat} (c q m dt : ℝ) (B : Fin 3 → ℝ) (hB : strength B ≠ 0) (s : Phase ℝ k) (i : Fin 3) :
    (kick invSqrt (q * dt / (2 * m * c)) (q * dt / (2 * m)) (uniform B) s).2 i
      = turned B (turn q m (strength B) dt s.2) s.2 i := by
  obtain ⟨h1, h2, h3, -⟩ := borisC_eq invSqrt (q * dt / (2 * m * c)) (q * dt / (2 * m)) (uniform B s.1)
    ⟨s.2 0, s.2 1, s.2 2, igOf invSqrt s.2⟩
  have ht : ∀ x, q * dt / (2 * m) * x * invSqrt (1 + s.2 0 * s.2 0 + s.2 1 * s.2 1 + s.2 2 * s.2 2)
      = cyclotron q m (strength B) s.2 * dt / 2 * x / strength B := by
    intro x
    have e := igOf_eq s.2
    unfold igOf at e
    rw [e]; unfold cyclotron
    by_cases hm : m = 0
    · rw [hm]; simp
    · have := (gamma_pos s.2).ne'
      field_simp
  have hs := strength_sq B
  simp only [uniform, mul_zero, add_zero] at h1 h2 h3
  rw [ht, ht, ht] at h1 h2 h3
  unfold turned turn
  rw [cos_turn, sin_turn]
  fin_cases i
  · exact h1.trans (rot_turned _ _ _ _ _ _ _ _ hB hs)
  · refine h2.trans ((rot_turned _ _ _ _ _ _ _ _ hB (by linarith)).trans ?_)
    show _ = (_ / _ * B 1) + _ * (s.2 1 - _ / _ * B 1) + _ * ((s.2 2 * B 0 - s.2 0 * B 2) / _)
    rw [show s.2 1 * B 1 + s.2 2 * B 2 + s.2 0 * B 0 = s.2 0 * B 0 + s.2 1 * B 1 + s.2 2 * B 2 by ring]
  · refine h3.trans ((rot_turned _ _ _ _ _ _ _ _ hB (by linarith)).trans ?_)
    show _ = (_ / _ * B 2) + _ * (s.2 2 - _ / _ * B 2) + _ * ((s.2 0 * B 1 - s.2 1 * B 0) / _)
    rw [show s.2 2 * B 2 + s.2 0 * B 0 + s.2 1 * B 1 = s.2 0 * B 0 + s.2 1 * B 1 + s.2 2 * B 2 by ring]

/-- the direction of a field -/
noncomputable def dir (B : Fin 3 → ℝ) (i : Fin 3) : ℝ := B i / strength B

theorem dir_unit (B : Fin 3 → ℝ) (hB : strength B ≠ 0) : dir B 0 ^ 2 + dir B 1 ^ 2 + dir B 2 ^ 2 = 1 := by
  unfold dir
  rw [div_pow, div_pow, div_pow, ← add_div, ← add_div, ← strength_sq, div_self (pow_ne_zero 2 hB)]

theorem of_dir (B : Fin 3 → ℝ) (hB : strength B ≠ 0) (i : Fin 3) : B i = strength B * dir B i := by
  unfold dir; field_simp

theorem along_dir (B u : Fin 3 → ℝ) (hB : strength B ≠ 0) (i : Fin 3) :
    along B u i = (u 0 * dir B 0 + u 1 * dir B 1 + u 2 * dir B 2) * dir B i := by
  unfold along dir; field_simp

theorem cross_dir (B u : Fin 3 → ℝ) (i : Fin 3) : cross u B i / strength B = cross u (dir B) i := by
  unfold dir
  fin_cases i
  · show (u 1 * B 2 - u 2 * B 1) / _ = u 1 * (B 2 / _) - u 2 * (B 1 / _); ring
  · show (u 2 * B 0 - u 0 * B 2) / _ = u 2 * (B 0 / _) - u 0 * (B 2 / _); ring
  · show (u 0 * B 1 - u 1 * B 0) / _ = u 0 * (B 1 / _) - u 1 * (B 0 / _); ring

theorem turned_dir (B : Fin 3 → ℝ) (hB : strength B ≠ 0) (φ : ℝ) (u : Fin 3 → ℝ) (i : Fin 3) :
    turned B φ u i = (u 0 * dir B 0 + u 1 * dir B 1 + u 2 * dir B 2) * dir B i
      + Real.cos φ * (u i - (u 0 * dir B 0 + u 1 * dir B 1 + u 2 * dir B 2) * dir B i)
      + Real.sin φ * cross u (dir B) i := by
  unfold turned
  rw [along_dir B u hB, cross_dir]

/-- what a turn keeps -/
theorem turned_facts (B u : Fin 3 → ℝ) (hB : strength B ≠ 0) (φ : ℝ) :
    turned B φ u 0 * dir B 0 + turned B φ u 1 * dir B 1 + turned B φ u 2 * dir B 2
        = u 0 * dir B 0 + u 1 * dir B 1 + u 2 * dir B 2
    ∧ (∀ i, cross (turned B φ u) (dir B) i = Real.cos φ * cross u (dir B) i
        - Real.sin φ * (u i - (u 0 * dir B 0 + u 1 * dir B 1 + u 2 * dir B 2) * dir B i))
    ∧ turned B φ u 0 ^ 2 + turned B φ u 1 ^ 2 + turned B φ u 2 ^ 2 = u 0 ^ 2 + u 1 ^ 2 + u 2 ^ 2 := by
  have N := dir_unit B hB
  have hcs := Real.sin_sq_add_cos_sq φ
  have e0 := turned_dir B hB φ u 0
  have e1 := turned_dir B hB φ u 1
  have e2 := turned_dir B hB φ u 2
  rw [show cross u (dir B) 0 = u 1 * dir B 2 - u 2 * dir B 1 from rfl] at e0
  rw [show cross u (dir B) 1 = u 2 * dir B 0 - u 0 * dir B 2 from rfl] at e1
  rw [show cross u (dir B) 2 = u 0 * dir B 1 - u 1 * dir B 0 from rfl] at e2
  generalize dir B = d at *
  generalize Real.cos φ = C at *
  generalize Real.sin φ = S at *
  generalize hp : u 0 * d 0 + u 1 * d 1 + u 2 * d 2 = p at *
  refine ⟨?_, ?_, ?_⟩
  · rw [e0, e1, e2]
    linear_combination (p - C * p) * N + C * hp
  · intro i
    fin_cases i
    · show turned B φ u 1 * d 2 - turned B φ u 2 * d 1 = C * (u 1 * d 2 - u 2 * d 1) - S * (u 0 - p * d 0)
      rw [e1, e2]
      linear_combination (-S * u 0) * N + S * d 0 * hp
    · show turned B φ u 2 * d 0 - turned B φ u 0 * d 2 = C * (u 2 * d 0 - u 0 * d 2) - S * (u 1 - p * d 1)
      rw [e2, e0]
      linear_combination (-S * u 1) * N + S * d 1 * hp
    · show turned B φ u 0 * d 1 - turned B φ u 1 * d 0 = C * (u 0 * d 1 - u 1 * d 0) - S * (u 2 - p * d 2)
      rw [e0, e1]
      linear_combination (-S * u 2) * N + S * d 2 * hp
  · rw [e0, e1, e2]
    linear_combination (p ^ 2 + C ^ 2 * p ^ 2 + S ^ 2 * (u 0 ^ 2 + u 1 ^ 2 + u 2 ^ 2) - 2 * C * p ^ 2) * N
      + (u 0 ^ 2 + u 1 ^ 2 + u 2 ^ 2 - p ^ 2) * hcs
      + (2 * p * C - 2 * C ^ 2 * p - S ^ 2 * (p + u 0 * d 0 + u 1 * d 1 + u 2 * d 2)) * hp

theorem turned_turned (B u : Fin 3 → ℝ) (hB : strength B ≠ 0) (φ ψ : ℝ) (i : Fin 3) :
    turned B ψ (turned B φ u) i = turned B (φ + ψ) u i := by
  obtain ⟨h1, h2, -⟩ := turned_facts B u hB φ
  rw [turned_dir B hB ψ, h1, h2, turned_dir B hB φ, turned_dir B hB (φ + ψ), Real.cos_add, Real.sin_add]
  ring

/-- one whole push in a uniform magnetic field -/
theorem push_turns_any {k : Nat} (c q m dt : ℝ) (B : Fin 3 → ℝ) (hB : strength B ≠ 0) (s : Phase ℝ k) :
    let r := push invSqrt c q m dt (uniform B) s
    r.2 = turned B (turn q m (strength B) dt s.2) s.2 ∧ gamma r.2 = gamma s.2
      ∧ ∀ i, r.1 i = s.1 i + c * dt / 2 / gamma s.2 * (s.2 (axis i) + r.2 (axis i)) := by
  intro r
  have h1 : r.2 = turned B (turn q m (strength B) dt s.2) s.2 :=
    funext fun i => kick_turns_any c q m dt B hB (drift invSqrt (c * (1 / 2) * dt) s) i
  have hg : gamma r.2 = gamma s.2 := by
    apply gamma_of_sq
    rw [h1]
    exact (turned_facts B s.2 hB _).2.2
  refine ⟨h1, hg, fun i => ?_⟩
  show s.1 i + c * (1 / 2) * dt * igOf invSqrt s.2 * s.2 (axis i)
    + c * (1 / 2) * dt * igOf invSqrt r.2 * r.2 (axis i) = _
  rw [igOf_eq, igOf_eq, hg]
  ring

theorem turned_zero (B u : Fin 3 → ℝ) : turned B 0 u = u := by
  funext i; unfold turned; simp

/-- C96. In a uniform magnetic field of any direction: after `n` steps the momentum is the first one turned about the
field by `n` times the angle `2 arctan (ω dt / 2)`; the energy stays. -/
theorem gyration_any {k : Nat} (c q m dt : ℝ) (B : Fin 3 → ℝ) (hB : strength B ≠ 0) (s : Phase ℝ k) (n : Nat) :
    let r := pushes invSqrt c q m dt (fun _ => uniform B) n s
    r.2 = turned B (n * (2 * Real.arctan (cyclotron q m (strength B) s.2 * dt / 2))) s.2 ∧ gamma r.2 = gamma s.2 := by
  induction n with
  | zero => exact ⟨by rw [Nat.cast_zero, zero_mul, turned_zero]; rfl, rfl⟩
  | succ n ih =>
    intro r
    obtain ⟨h0, h3⟩ := ih
    obtain ⟨g0, g3, -⟩ := push_turns_any c q m dt B hB (pushes invSqrt c q m dt (fun _ => uniform B) n s)
    have ht : turn q m (strength B) dt (pushes invSqrt c q m dt (fun _ => uniform B) n s).2
        = 2 * Real.arctan (cyclotron q m (strength B) s.2 * dt / 2) := by
      unfold turn cyclotron; rw [h3]
    rw [ht, h0] at g0
    refine ⟨?_, g3.trans h3⟩
    refine g0.trans ?_
    funext i
    rw [turned_turned B s.2 hB]
    congr 1
    push_cast; ring

/-- C96. The centre of gyration `x + m c u × B / (q B²)` moves along the field with the constant velocity of the
particle along it, and nowhere else, for every step size. In two dimensions these are the components in the plane. -/
theorem guiding_centre {k : Nat} (c q m dt : ℝ) (B : Fin 3 → ℝ) (hq : q ≠ 0) (hm : m ≠ 0) (hB : strength B ≠ 0)
    (s : Phase ℝ k) (n : Nat) (i : Fin k) :
    let r := pushes invSqrt c q m dt (fun _ => uniform B) n s
    r.1 i + m * c / (q * strength B ^ 2) * cross r.2 B (axis i)
      = s.1 i + m * c / (q * strength B ^ 2) * cross s.2 B (axis i)
        + n * dt * (c * along B s.2 (axis i) / gamma s.2) := by
  induction n with
  | zero => simp [pushes]
  | succ n ih =>
    intro r
    obtain ⟨h0, h3⟩ := gyration_any c q m dt B hB s n
    obtain ⟨g0, -, g4⟩ := push_turns_any c q m dt B hB (pushes invSqrt c q m dt (fun _ => uniform B) n s)
    have ga : along B (pushes invSqrt c q m dt (fun _ => uniform B) n s).2 (axis i) = along B s.2 (axis i) := by
      rw [h0, along_dir _ _ hB, along_dir _ _ hB, (turned_facts B s.2 hB _).1]
    have hr : r = push invSqrt c q m dt (uniform B) (pushes invSqrt c q m dt (fun _ => uniform B) n s) := rfl
    clear_value r
    dsimp only at ih
    generalize pushes invSqrt c q m dt (fun _ => uniform B) n s = w at *
    rw [← hr] at g0 g4
    have e1 : r.1 i = w.1 i + c * dt / 2 / gamma w.2 * (w.2 (axis i) + r.2 (axis i)) := g4 i
    have e2 : r.2 = turned B (turn q m (strength B) dt w.2) w.2 := g0
    have e3 : cross r.2 B (axis i) / strength B
        = Real.cos (turn q m (strength B) dt w.2) * (cross w.2 B (axis i) / strength B)
          - Real.sin (turn q m (strength B) dt w.2) * (w.2 (axis i) - along B w.2 (axis i)) := by
      rw [cross_dir, cross_dir, along_dir _ _ hB, e2]
      exact (turned_facts B w.2 hB _).2.1 (axis i)
    have e4 : r.2 (axis i) = along B w.2 (axis i) + Real.cos (turn q m (strength B) dt w.2) * (w.2 (axis i) - along B w.2 (axis i))
        + Real.sin (turn q m (strength B) dt w.2) * (cross w.2 B (axis i) / strength B) := by rw [e2]; rfl
    have hK : c * dt / 2 / gamma w.2 = m * c / (q * strength B) * (cyclotron q m (strength B) w.2 * dt / 2) := by
      have := (gamma_pos w.2).ne'
      unfold cyclotron; field_simp
    have hG : n * dt * (c * along B s.2 (axis i) / gamma s.2) + 2 * (c * dt / 2 / gamma w.2) * along B w.2 (axis i)
        = (n + 1 : ℕ) * dt * (c * along B s.2 (axis i) / gamma s.2) := by
      rw [h3, ga]; push_cast; ring
    have hx : ∀ v : Fin 3 → ℝ, m * c / (q * strength B ^ 2) * cross v B (axis i)
        = m * c / (q * strength B) * (cross v B (axis i) / strength B) := by
      intro v; field_simp
    rw [← hG, hx, hx, e3, e1, e4]
    rw [hx w.2, hx s.2] at ih
    rw [hK]
    unfold turn
    rw [cos_turn, sin_turn]
    obtain ⟨t1, t2⟩ := half_tan (cyclotron q m (strength B) w.2 * dt / 2)
    generalize cyclotron q m (strength B) w.2 * dt / 2 = t at *
    generalize 2 * t ^ 2 / (1 + t ^ 2) = C at *
    generalize 2 * t / (1 + t ^ 2) = S at *
    generalize m * c / (q * strength B) = ρ at *
    generalize cross w.2 B (axis i) / strength B = X at *
    generalize along B w.2 (axis i) = P at *
    linear_combination ih + ρ * (w.2 (axis i) - P) * t1 + ρ * X * t2

/-- a field along the diagonal has a strength -/
example : strength ![1, 1, 1] ≠ 0 := by
  unfold strength
  refine (Real.sqrt_pos.mpr ?_).ne'
  simp
  norm_num

/-- the hypotheses hold: an electron-like particle in a field of 2, and it does turn -/
example : (2 : ℕ) ≤ 3 ∧ (-1 : ℝ) ≠ 0 ∧ (1 : ℝ) ≠ 0 ∧ (2 : ℝ) ≠ 0 ∧ (0 : ℝ) ≤ 3 * (1/10) := by norm_num
example : turn 1 1 2 1 ![0, 0, 0] = Real.pi / 2 := by
  have : gamma ![0, 0, 0] = 1 := by unfold gamma; simp
  unfold turn cyclotron
  rw [this]
  norm_num
  ring

end Verif.GyrationProps
