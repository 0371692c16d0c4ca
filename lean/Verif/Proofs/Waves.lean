import Verif.Proofs.Energy
import Mathlib.Analysis.SpecialFunctions.Trigonometric.Inverse
import Mathlib.Analysis.SpecialFunctions.Complex.Circle
import Mathlib.Analysis.Convex.Deriv
import Mathlib.Analysis.Convex.SpecificFunctions.Deriv

/-! # The wave equation of the Yee scheme, its Fourier amplitudes and its dispersion -/

namespace Verif.Maxwell

variable {k : Nat}

/-- Specification: discrete Laplace operator on a grid with cells of size `d`: second differences along all axes -/
def lap (d : Fin k → ℚ) (f : (Fin k → Int) → ℚ) (v : Fin k → Int) : ℚ :=
  ∑ a, (f (up a v) - 2 * f v + f (dn a v)) / d a ^ 2

theorem up_dn_comm (x y : Fin k) (h : x ≠ y) (v : Fin k → Int) : up x (dn y v) = dn y (up x v) := by
  funext a; unfold up dn
  by_cases h1 : a = x <;> by_cases h2 : a = y
  · exact absurd (h1.symm.trans h2) h
  · simp [h1, h]
  · simp [h2, Ne.symm h]
  · simp [h1, h2]

/-- no current -/
def noJ : V3 k := fun _ _ => 0

section Ops2
variable (P : Par 2) (h : ℚ)

theorem FH2 (e : V3 2) (hd : ∀ v, divE2 P e v = 0) (f : Fin 3) (v : Fin 2 → Int) :
    4 * yeeE2 P h (yeeB2 P h e) noJ f v = P.c2 * (2 * h) ^ 2 * lap P.d (e f) v := by
  have c1 : up 0 (dn 1 v) = dn 1 (up 0 v) := up_dn_comm 0 1 (by decide) v
  have c2 : up 1 (dn 0 v) = dn 0 (up 1 v) := up_dn_comm 1 0 (by decide) v
  have d0 := hd v
  have d1 := hd (up 0 v)
  have d2 := hd (up 1 v)
  unfold divE2 at d0 d1 d2
  rw [dn_up] at d1 d2
  unfold lap
  rw [Fin.sum_univ_two]
  match f with
  | 0 =>
    show 4 * (h * P.c2 * ((-(h * ((e 1 (up 0 v) - e 1 v) / P.d 0 - (e 0 (up 1 v) - e 0 v) / P.d 1))
      - -(h * ((e 1 (up 0 (dn 1 v)) - e 1 (dn 1 v)) / P.d 0 - (e 0 (up 1 (dn 1 v)) - e 0 (dn 1 v)) / P.d 1))) / P.d 1)
      - h / P.eps0 * 0) = _
    rw [c1, up_dn]
    linear_combination (-4 * h ^ 2 * P.c2 / P.d 0) * d1 + (4 * h ^ 2 * P.c2 / P.d 0) * d0
  | 1 =>
    show 4 * (h * P.c2 * (-(-(h * ((e 1 (up 0 v) - e 1 v) / P.d 0 - (e 0 (up 1 v) - e 0 v) / P.d 1))
      - -(h * ((e 1 (up 0 (dn 0 v)) - e 1 (dn 0 v)) / P.d 0 - (e 0 (up 1 (dn 0 v)) - e 0 (dn 0 v)) / P.d 1))) / P.d 0)
      - h / P.eps0 * 0) = _
    rw [c2, up_dn]
    linear_combination (-4 * h ^ 2 * P.c2 / P.d 1) * d2 + (4 * h ^ 2 * P.c2 / P.d 1) * d0
  | 2 =>
    show 4 * (h * P.c2 * ((-(h * (-(e 2 (up 0 v) - e 2 v) / P.d 0)) - -(h * (-(e 2 (up 0 (dn 0 v)) - e 2 (dn 0 v)) / P.d 0))) / P.d 0
      - (-(h * ((e 2 (up 1 v) - e 2 v) / P.d 1)) - -(h * ((e 2 (up 1 (dn 1 v)) - e 2 (dn 1 v)) / P.d 1))) / P.d 1)
      - h / P.eps0 * 0) = _
    rw [up_dn, up_dn]
    ring

theorem HF2 (b : V3 2) (hd : ∀ v, divB2 P b v = 0) (f : Fin 3) (v : Fin 2 → Int) :
    4 * yeeB2 P h (yeeE2 P h b noJ) f v = P.c2 * (2 * h) ^ 2 * lap P.d (b f) v := by
  have c1 : up 0 (dn 1 v) = dn 1 (up 0 v) := up_dn_comm 0 1 (by decide) v
  have c2 : up 1 (dn 0 v) = dn 0 (up 1 v) := up_dn_comm 1 0 (by decide) v
  have d0 := hd v
  have d1 := hd (dn 0 v)
  have d2 := hd (dn 1 v)
  unfold divB2 at d0 d1 d2
  rw [up_dn, c2] at d1
  rw [up_dn, c1] at d2
  unfold lap
  rw [Fin.sum_univ_two]
  match f with
  | 0 =>
    show 4 * -(h * (((h * P.c2 * ((b 1 (up 1 v) - b 1 (dn 0 (up 1 v))) / P.d 0 - (b 0 (up 1 v) - b 0 (dn 1 (up 1 v))) / P.d 1) - h / P.eps0 * 0)
      - (h * P.c2 * ((b 1 v - b 1 (dn 0 v)) / P.d 0 - (b 0 v - b 0 (dn 1 v)) / P.d 1) - h / P.eps0 * 0)) / P.d 1)) = _
    rw [dn_up]
    linear_combination (-4 * h ^ 2 * P.c2 / P.d 0) * d0 + (4 * h ^ 2 * P.c2 / P.d 0) * d1
  | 1 =>
    show 4 * -(h * (-((h * P.c2 * ((b 1 (up 0 v) - b 1 (dn 0 (up 0 v))) / P.d 0 - (b 0 (up 0 v) - b 0 (dn 1 (up 0 v))) / P.d 1) - h / P.eps0 * 0)
      - (h * P.c2 * ((b 1 v - b 1 (dn 0 v)) / P.d 0 - (b 0 v - b 0 (dn 1 v)) / P.d 1) - h / P.eps0 * 0)) / P.d 0)) = _
    rw [dn_up]
    linear_combination (-4 * h ^ 2 * P.c2 / P.d 1) * d0 + (4 * h ^ 2 * P.c2 / P.d 1) * d2
  | 2 =>
    show 4 * -(h * (((h * P.c2 * (-(b 2 (up 0 v) - b 2 (dn 0 (up 0 v))) / P.d 0) - h / P.eps0 * 0)
        - (h * P.c2 * (-(b 2 v - b 2 (dn 0 v)) / P.d 0) - h / P.eps0 * 0)) / P.d 0
      - ((h * P.c2 * ((b 2 (up 1 v) - b 2 (dn 1 (up 1 v))) / P.d 1) - h / P.eps0 * 0)
        - (h * P.c2 * ((b 2 v - b 2 (dn 1 v)) / P.d 1) - h / P.eps0 * 0)) / P.d 1)) = _
    rw [dn_up, dn_up]
    ring
end Ops2

section Ops3
variable (P : Par 3) (h : ℚ)

theorem FH3 (e : V3 3) (hd : ∀ v, divE3 P e v = 0) (f : Fin 3) (v : Fin 3 → Int) :
    4 * yeeE3 P h (yeeB3 P h e) noJ f v = P.c2 * (2 * h) ^ 2 * lap P.d (e f) v := by
  have c01 : up 0 (dn 1 v) = dn 1 (up 0 v) := up_dn_comm 0 1 (by decide) v
  have c02 : up 0 (dn 2 v) = dn 2 (up 0 v) := up_dn_comm 0 2 (by decide) v
  have c10 : up 1 (dn 0 v) = dn 0 (up 1 v) := up_dn_comm 1 0 (by decide) v
  have c12 : up 1 (dn 2 v) = dn 2 (up 1 v) := up_dn_comm 1 2 (by decide) v
  have c20 : up 2 (dn 0 v) = dn 0 (up 2 v) := up_dn_comm 2 0 (by decide) v
  have c21 : up 2 (dn 1 v) = dn 1 (up 2 v) := up_dn_comm 2 1 (by decide) v
  have d := hd v
  have d0 := hd (up 0 v)
  have d1 := hd (up 1 v)
  have d2 := hd (up 2 v)
  unfold divE3 at d d0 d1 d2
  rw [dn_up] at d0 d1 d2
  unfold lap
  rw [Fin.sum_univ_three]
  match f with
  | 0 =>
    show 4 * (h * P.c2 * ((-(h * ((e 1 (up 0 v) - e 1 v) / P.d 0 - (e 0 (up 1 v) - e 0 v) / P.d 1))
      - -(h * ((e 1 (up 0 (dn 1 v)) - e 1 (dn 1 v)) / P.d 0 - (e 0 (up 1 (dn 1 v)) - e 0 (dn 1 v)) / P.d 1))) / P.d 1
      - (-(h * ((e 0 (up 2 v) - e 0 v) / P.d 2 - (e 2 (up 0 v) - e 2 v) / P.d 0))
      - -(h * ((e 0 (up 2 (dn 2 v)) - e 0 (dn 2 v)) / P.d 2 - (e 2 (up 0 (dn 2 v)) - e 2 (dn 2 v)) / P.d 0))) / P.d 2)
      - h / P.eps0 * 0) = _
    rw [c01, c02, up_dn, up_dn]
    linear_combination (-4 * h ^ 2 * P.c2 / P.d 0) * d0 + (4 * h ^ 2 * P.c2 / P.d 0) * d
  | 1 =>
    show 4 * (h * P.c2 * ((-(h * ((e 2 (up 1 v) - e 2 v) / P.d 1 - (e 1 (up 2 v) - e 1 v) / P.d 2))
      - -(h * ((e 2 (up 1 (dn 2 v)) - e 2 (dn 2 v)) / P.d 1 - (e 1 (up 2 (dn 2 v)) - e 1 (dn 2 v)) / P.d 2))) / P.d 2
      - (-(h * ((e 1 (up 0 v) - e 1 v) / P.d 0 - (e 0 (up 1 v) - e 0 v) / P.d 1))
      - -(h * ((e 1 (up 0 (dn 0 v)) - e 1 (dn 0 v)) / P.d 0 - (e 0 (up 1 (dn 0 v)) - e 0 (dn 0 v)) / P.d 1))) / P.d 0)
      - h / P.eps0 * 0) = _
    rw [c12, c10, up_dn, up_dn]
    linear_combination (-4 * h ^ 2 * P.c2 / P.d 1) * d1 + (4 * h ^ 2 * P.c2 / P.d 1) * d
  | 2 =>
    show 4 * (h * P.c2 * ((-(h * ((e 0 (up 2 v) - e 0 v) / P.d 2 - (e 2 (up 0 v) - e 2 v) / P.d 0))
      - -(h * ((e 0 (up 2 (dn 0 v)) - e 0 (dn 0 v)) / P.d 2 - (e 2 (up 0 (dn 0 v)) - e 2 (dn 0 v)) / P.d 0))) / P.d 0
      - (-(h * ((e 2 (up 1 v) - e 2 v) / P.d 1 - (e 1 (up 2 v) - e 1 v) / P.d 2))
      - -(h * ((e 2 (up 1 (dn 1 v)) - e 2 (dn 1 v)) / P.d 1 - (e 1 (up 2 (dn 1 v)) - e 1 (dn 1 v)) / P.d 2))) / P.d 1)
      - h / P.eps0 * 0) = _
    rw [c20, c21, up_dn, up_dn]
    linear_combination (-4 * h ^ 2 * P.c2 / P.d 2) * d2 + (4 * h ^ 2 * P.c2 / P.d 2) * d

theorem HF3 (b : V3 3) (hd : ∀ v, divB3 P b v = 0) (f : Fin 3) (v : Fin 3 → Int) :
    4 * yeeB3 P h (yeeE3 P h b noJ) f v = P.c2 * (2 * h) ^ 2 * lap P.d (b f) v := by
  have c01 : up 0 (dn 1 v) = dn 1 (up 0 v) := up_dn_comm 0 1 (by decide) v
  have c02 : up 0 (dn 2 v) = dn 2 (up 0 v) := up_dn_comm 0 2 (by decide) v
  have c10 : up 1 (dn 0 v) = dn 0 (up 1 v) := up_dn_comm 1 0 (by decide) v
  have c12 : up 1 (dn 2 v) = dn 2 (up 1 v) := up_dn_comm 1 2 (by decide) v
  have c20 : up 2 (dn 0 v) = dn 0 (up 2 v) := up_dn_comm 2 0 (by decide) v
  have c21 : up 2 (dn 1 v) = dn 1 (up 2 v) := up_dn_comm 2 1 (by decide) v
  have d := hd v
  have d0 := hd (dn 0 v)
  have d1 := hd (dn 1 v)
  have d2 := hd (dn 2 v)
  unfold divB3 at d d0 d1 d2
  rw [up_dn, c10, c20] at d0
  rw [up_dn, c01, c21] at d1
  rw [up_dn, c02, c12] at d2
  unfold lap
  rw [Fin.sum_univ_three]
  match f with
  | 0 =>
    show 4 * -(h * (((h * P.c2 * ((b 1 (up 1 v) - b 1 (dn 0 (up 1 v))) / P.d 0 - (b 0 (up 1 v) - b 0 (dn 1 (up 1 v))) / P.d 1) - h / P.eps0 * 0)
      - (h * P.c2 * ((b 1 v - b 1 (dn 0 v)) / P.d 0 - (b 0 v - b 0 (dn 1 v)) / P.d 1) - h / P.eps0 * 0)) / P.d 1
      - ((h * P.c2 * ((b 0 (up 2 v) - b 0 (dn 2 (up 2 v))) / P.d 2 - (b 2 (up 2 v) - b 2 (dn 0 (up 2 v))) / P.d 0) - h / P.eps0 * 0)
      - (h * P.c2 * ((b 0 v - b 0 (dn 2 v)) / P.d 2 - (b 2 v - b 2 (dn 0 v)) / P.d 0) - h / P.eps0 * 0)) / P.d 2)) = _
    rw [dn_up, dn_up]
    linear_combination (-4 * h ^ 2 * P.c2 / P.d 0) * d + (4 * h ^ 2 * P.c2 / P.d 0) * d0
  | 1 =>
    show 4 * -(h * (((h * P.c2 * ((b 2 (up 2 v) - b 2 (dn 1 (up 2 v))) / P.d 1 - (b 1 (up 2 v) - b 1 (dn 2 (up 2 v))) / P.d 2) - h / P.eps0 * 0)
      - (h * P.c2 * ((b 2 v - b 2 (dn 1 v)) / P.d 1 - (b 1 v - b 1 (dn 2 v)) / P.d 2) - h / P.eps0 * 0)) / P.d 2
      - ((h * P.c2 * ((b 1 (up 0 v) - b 1 (dn 0 (up 0 v))) / P.d 0 - (b 0 (up 0 v) - b 0 (dn 1 (up 0 v))) / P.d 1) - h / P.eps0 * 0)
      - (h * P.c2 * ((b 1 v - b 1 (dn 0 v)) / P.d 0 - (b 0 v - b 0 (dn 1 v)) / P.d 1) - h / P.eps0 * 0)) / P.d 0)) = _
    rw [dn_up, dn_up]
    linear_combination (-4 * h ^ 2 * P.c2 / P.d 1) * d + (4 * h ^ 2 * P.c2 / P.d 1) * d1
  | 2 =>
    show 4 * -(h * (((h * P.c2 * ((b 0 (up 0 v) - b 0 (dn 2 (up 0 v))) / P.d 2 - (b 2 (up 0 v) - b 2 (dn 0 (up 0 v))) / P.d 0) - h / P.eps0 * 0)
      - (h * P.c2 * ((b 0 v - b 0 (dn 2 v)) / P.d 2 - (b 2 v - b 2 (dn 0 v)) / P.d 0) - h / P.eps0 * 0)) / P.d 0
      - ((h * P.c2 * ((b 2 (up 1 v) - b 2 (dn 1 (up 1 v))) / P.d 1 - (b 1 (up 1 v) - b 1 (dn 2 (up 1 v))) / P.d 2) - h / P.eps0 * 0)
      - (h * P.c2 * ((b 2 v - b 2 (dn 1 v)) / P.d 1 - (b 1 v - b 1 (dn 2 v)) / P.d 2) - h / P.eps0 * 0)) / P.d 1)) = _
    rw [dn_up, dn_up]
    linear_combination (-4 * h ^ 2 * P.c2 / P.d 2) * d + (4 * h ^ 2 * P.c2 / P.d 2) * d2
end Ops3

/-- increments are additive in the field -/
structure Additive (FE : ℚ → V3 k → V3 k → V3 k) (FB : ℚ → V3 k → V3 k) : Prop where
  e : ∀ h x y, FE h (fun f v => x f v + y f v) noJ = fun f v => FE h x noJ f v + FE h y noJ f v
  b : ∀ h x y, FB h (fun f v => x f v + y f v) = fun f v => FB h x f v + FB h y f v

theorem additive2 (P : Par 2) : Additive (yeeE2 P) (yeeB2 P) := by
  constructor
  · intro h x y
    funext f v
    match f with
    | 0 => simp only [yeeE2, Matrix.cons_val, noJ]; ring
    | 1 => simp only [yeeE2, Matrix.cons_val, noJ]; ring
    | 2 => simp only [yeeE2, Matrix.cons_val, noJ]; ring
  · intro h x y
    funext f v
    match f with
    | 0 => simp only [yeeB2, Matrix.cons_val]; ring
    | 1 => simp only [yeeB2, Matrix.cons_val]; ring
    | 2 => simp only [yeeB2, Matrix.cons_val]; ring

theorem additive3 (P : Par 3) : Additive (yeeE3 P) (yeeB3 P) := by
  constructor
  · intro h x y
    funext f v
    match f with
    | 0 => simp only [yeeE3, Matrix.cons_val, noJ]; ring
    | 1 => simp only [yeeE3, Matrix.cons_val, noJ]; ring
    | 2 => simp only [yeeE3, Matrix.cons_val, noJ]; ring
  · intro h x y
    funext f v
    match f with
    | 0 => simp only [yeeB3, Matrix.cons_val]; ring
    | 1 => simp only [yeeB3, Matrix.cons_val]; ring
    | 2 => simp only [yeeB3, Matrix.cons_val]; ring

/-- two steps without currents: second differences in time -/
theorem second_difference {FE : ℚ → V3 k → V3 k → V3 k} {FB : ℚ → V3 k → V3 k} (A : Additive FE FB) (dt : ℚ) (G : GF k)
    (hj : G.j = noJ) (f : Fin 3) (v : Fin k → Int) :
    let G1 := G.step FE FB dt noJ
    let G2 := G1.step FE FB dt noJ
    G2.b f v - 2 * G1.b f v + G.b f v = 4 * FB (1 / 2 * dt) (FE (1 / 2 * dt) G1.b noJ) f v
    ∧ G2.e f v - 2 * G1.e f v + G.e f v = 4 * FE (1 / 2 * dt) (FB (1 / 2 * dt) G1.e) noJ f v := by
  intro G1 G2
  -- half steps
  let F : V3 k → V3 k := fun b => FE (1 / 2 * dt) b noJ
  let H : V3 k → V3 k := FB (1 / 2 * dt)
  have Fadd : ∀ x y, F (fun f v => x f v + y f v) = fun f v => F x f v + F y f v := A.e _
  have Hadd : ∀ x y, H (fun f v => x f v + y f v) = fun f v => H x f v + H y f v := A.b _
  obtain ⟨e, b, j⟩ := G
  have hj' : j = noJ := hj
  subst hj'
  let eh : V3 k := fun f v => e f v + F b f v
  have b1 : G1.b = fun f v => (fun f v => b f v + H eh f v) f v + H eh f v := rfl
  have e1 : G1.e = fun f v => eh f v + F G1.b f v := rfl
  let eh1 : V3 k := fun f v => G1.e f v + F G1.b f v
  have b2 : G2.b = fun f v => (fun f v => G1.b f v + H eh1 f v) f v + H eh1 f v := rfl
  have e2 : G2.e = fun f v => eh1 f v + F G2.b f v := rfl
  have E1 : ∀ f v, eh1 f v = eh f v + (fun f v => F G1.b f v + F G1.b f v) f v := by
    intro f v
    show G1.e f v + F G1.b f v = eh f v + (F G1.b f v + F G1.b f v)
    rw [congrFun (congrFun e1 f) v]; ring
  have E1' : eh1 = fun f v => eh f v + (fun f v => F G1.b f v + F G1.b f v) f v := funext fun f => funext fun v => E1 f v
  have g0 : ∀ f v, eh f v = e f v + F b f v := fun _ _ => rfl
  clear_value eh eh1
  constructor
  · have h1 : H eh1 f v = H eh f v + (H (F G1.b) f v + H (F G1.b) f v) := by
      rw [E1', Hadd]
      show H eh f v + H (fun f v => F G1.b f v + F G1.b f v) f v = _
      rw [Hadd]
    have g2 : G2.b f v = G1.b f v + H eh1 f v + H eh1 f v := congrFun (congrFun b2 f) v
    have g1 : G1.b f v = b f v + H eh f v + H eh f v := congrFun (congrFun b1 f) v
    show G2.b f v - 2 * G1.b f v + b f v = 4 * H (F G1.b) f v
    rw [g2, h1]
    linear_combination -g1
  · have h2 : F G2.b f v = F G1.b f v + F (H eh1) f v + F (H eh1) f v := by
      rw [b2, Fadd]
      show F (fun f v => G1.b f v + H eh1 f v) f v + _ = _
      rw [Fadd]
    have h1 : F G1.b f v = F b f v + F (H eh) f v + F (H eh) f v := by
      rw [b1, Fadd]
      show F (fun f v => b f v + H eh f v) f v + _ = _
      rw [Fadd]
    -- the full-step value is the mean of the half-step values
    have mean : (fun f v => eh f v + eh1 f v) = fun f v => G1.e f v + G1.e f v := by
      funext f v
      rw [E1, congrFun (congrFun e1 f) v]; ring
    have h3 : F (H eh) f v + F (H eh1) f v = F (H G1.e) f v + F (H G1.e) f v := by
      have : F (H (fun f v => eh f v + eh1 f v)) = F (H fun f v => G1.e f v + G1.e f v) := by rw [mean]
      rw [Hadd, Hadd, Fadd, Fadd] at this
      exact congrFun (congrFun this f) v
    have g2 : G2.e f v = eh1 f v + F G2.b f v := congrFun (congrFun e2 f) v
    have g1 : G1.e f v = eh f v + F G1.b f v := congrFun (congrFun e1 f) v
    show G2.e f v - 2 * G1.e f v + e f v = 4 * F (H G1.e) f v
    rw [g2, h2, E1]
    show eh f v + (F G1.b f v + F G1.b f v) + _ - _ + _ = _
    linear_combination (-2) * g1 + h1 - g0 f v + 2 * h3

end Verif.Maxwell
