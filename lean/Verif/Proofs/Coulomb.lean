import Verif.Model.Coulomb
import Mathlib.Tactic.LinearCombination
import Mathlib.Tactic.FieldSimp
import Mathlib.Tactic.Linarith
import Mathlib.Tactic.Positivity
/-! # Lorentz boosts and rotations -/
namespace Verif.Coulomb

/-- Cauchy–Schwarz -/
theorem cs (a b : V3) : (a.x * b.x + a.y * b.y + a.z * b.z) ^ 2 ≤
    (a.x ^ 2 + a.y ^ 2 + a.z ^ 2) * (b.x ^ 2 + b.y ^ 2 + b.z ^ 2) := by
  nlinarith [sq_nonneg (a.x * b.y - a.y * b.x), sq_nonneg (a.x * b.z - a.z * b.x), sq_nonneg (a.y * b.z - a.z * b.y)]

def dot (a b : V3) : ℝ := a.x * b.x + a.y * b.y + a.z * b.z

theorem cs_lt {a b : V3} {A B : ℝ} (hA : 0 ≤ A) (hB : 0 < B) (ha : dot a a ≤ A ^ 2) (hb : dot b b < B ^ 2)
    (hA' : 0 < A ∨ dot a b = 0) : |dot a b| < A * B ∨ A = 0 := by
  by_cases h0 : A = 0
  · exact Or.inr h0
  left
  have hApos : 0 < A := lt_of_le_of_ne hA (Ne.symm h0)
  have h := cs a b
  have hb0 : 0 ≤ dot b b := by unfold dot; nlinarith [sq_nonneg b.x, sq_nonneg b.y, sq_nonneg b.z]
  have ha0 : 0 ≤ dot a a := by unfold dot; nlinarith [sq_nonneg a.x, sq_nonneg a.y, sq_nonneg a.z]
  have e : (dot a b) ^ 2 ≤ dot a a * dot b b := by unfold dot; nlinarith [h]
  apply abs_lt_of_sq_lt_sq _ (by positivity)
  calc (dot a b) ^ 2 ≤ dot a a * dot b b := e
    _ ≤ A ^ 2 * dot b b := mul_le_mul_of_nonneg_right ha hb0
    _ < A ^ 2 * B ^ 2 := mul_lt_mul_of_pos_left hb (by positivity)
    _ = (A * B) ^ 2 := by ring

/-- a frame moving with velocity `v`: Lorentz factor `g` and `f = g²/((g+1)c²)` -/
structure Frame (c g f : ℝ) (v : V3) : Prop where
  c_pos : 0 < c
  g_pos : 0 < g
  f_eq : f * (g + 1) * c ^ 2 = g ^ 2
  g_eq : g ^ 2 * (c ^ 2 - dot v v) = c ^ 2

theorem Frame.f_v {c g f : ℝ} {v : V3} (h : Frame c g f v) : f * dot v v = g - 1 := by
  have hc := h.c_pos
  have hg := h.g_pos
  have : (f * dot v v - (g - 1)) * ((g + 1) * c ^ 2) = 0 := by
    linear_combination dot v v * h.f_eq - h.g_eq
  have h2 : (g + 1) * c ^ 2 ≠ 0 := by positivity
  have := (mul_eq_zero.mp this).resolve_right h2
  linarith

theorem Frame.neg {c g f : ℝ} {v : V3} (h : Frame c g f v) : Frame c g f ⟨-v.x, -v.y, -v.z⟩ :=
  ⟨h.c_pos, h.g_pos, h.f_eq, by
    have := h.g_eq
    unfold dot at this ⊢
    linear_combination this⟩

theorem Frame.v_lt {c g f : ℝ} {v : V3} (h : Frame c g f v) : dot v v < c ^ 2 := by
  have hc := h.c_pos
  have hg := h.g_pos
  by_contra hn
  have : g ^ 2 * (c ^ 2 - dot v v) ≤ 0 := mul_nonpos_of_nonneg_of_nonpos (by positivity) (by linarith)
  have h2 := h.g_eq
  have : 0 < c ^ 2 := by positivity
  linarith

/-- momentum in the moving frame; `E` is mass times Lorentz factor -/
def bp (g f : ℝ) (v p : V3) (E : ℝ) : V3 :=
  ⟨p.x + (f * dot p v - g * E) * v.x, p.y + (f * dot p v - g * E) * v.y, p.z + (f * dot p v - g * E) * v.z⟩

/-- mass times Lorentz factor in the moving frame -/
noncomputable def bE (c g : ℝ) (v p : V3) (E : ℝ) : ℝ := g * (E - dot p v / c ^ 2)

/-- the mass shell is invariant -/
theorem Frame.shell {c g f : ℝ} {v : V3} (h : Frame c g f v) (p : V3) (E : ℝ) :
    c ^ 2 * bE c g v p E ^ 2 - dot (bp g f v p E) (bp g f v p E) = c ^ 2 * E ^ 2 - dot p p := by
  have hc := h.c_pos
  have h3 := h.f_v
  have h1 := h.f_eq
  have h2 := h.g_eq
  have key : g ^ 2 * (E * c ^ 2 - dot p v) ^ 2 - c ^ 2 * dot (bp g f v p E) (bp g f v p E) =
      c ^ 2 * (c ^ 2 * E ^ 2 - dot p p) := by
    unfold bp
    unfold dot at *
    dsimp only
    linear_combination (c ^ 2 * E ^ 2) * h2 - (p.x * v.x + p.y * v.y + p.z * v.z) ^ 2 * h1
      - c ^ 2 * (f * (p.x * v.x + p.y * v.y + p.z * v.z) ^ 2 - 2 * g * (p.x * v.x + p.y * v.y + p.z * v.z) * E) * h3
  have e : c ^ 2 * bE c g v p E ^ 2 = g ^ 2 * (E * c ^ 2 - dot p v) ^ 2 / c ^ 2 := by
    unfold bE; field_simp
  rw [e]
  have hc2 : c ^ 2 ≠ 0 := by positivity
  field_simp
  linear_combination key

/-- energies stay positive -/
theorem Frame.energy_pos {c g f : ℝ} {v : V3} (h : Frame c g f v) {p : V3} {E : ℝ} (hE : 0 < E)
    (hp : dot p p ≤ c ^ 2 * E ^ 2) : 0 < bE c g v p E := by
  have hc := h.c_pos
  have hv := h.v_lt
  have := cs_lt (a := p) (b := v) (A := c * E) (B := c) (by positivity) hc (by rw [mul_pow]; exact hp) hv
    (Or.inl (by positivity))
  have hA : c * E ≠ 0 := by positivity
  have hd := (abs_lt.mp (this.resolve_right hA)).2
  unfold bE
  apply mul_pos h.g_pos
  rw [sub_pos, div_lt_iff₀ (by positivity)]
  nlinarith

/-- `rotate_momentum` keeps the length -/
theorem rotate_length (p : V3) (cosX sinX phi : ℝ) (hX : cosX ^ 2 + sinX ^ 2 = 1) :
    let q := rotate p (√(p.x ^ 2 + p.y ^ 2 + p.z ^ 2)) (√(p.x ^ 2 + p.y ^ 2)) cosX sinX phi
    dot q q = dot p p := by
  intro q
  have hs : √(p.x ^ 2 + p.y ^ 2 + p.z ^ 2) ^ 2 = p.x ^ 2 + p.y ^ 2 + p.z ^ 2 := Real.sq_sqrt (by positivity)
  have ht : √(p.x ^ 2 + p.y ^ 2) ^ 2 = p.x ^ 2 + p.y ^ 2 := Real.sq_sqrt (by positivity)
  have hs0 := Real.sqrt_nonneg (p.x ^ 2 + p.y ^ 2 + p.z ^ 2)
  have htrig := Real.sin_sq_add_cos_sq phi
  have hq : q = rotate p (√(p.x ^ 2 + p.y ^ 2 + p.z ^ 2)) (√(p.x ^ 2 + p.y ^ 2)) cosX sinX phi := rfl
  unfold rotate at hq
  dsimp only at hq
  generalize √(p.x ^ 2 + p.y ^ 2 + p.z ^ 2) = l at *
  generalize √(p.x ^ 2 + p.y ^ 2) = t at *
  generalize Real.cos phi = C at *
  generalize Real.sin phi = S at *
  by_cases h : t > 1 / 10 ^ 10 * l
  · rw [if_pos h] at hq
    have ht0 : t ≠ 0 := by
      intro h0
      rw [h0] at h
      have : 0 ≤ 1 / 10 ^ 10 * l := by positivity
      linarith
    rw [hq]
    unfold dot
    dsimp only
    field_simp
    have e1 : sinX ^ 2 * C ^ 2 + sinX ^ 2 * S ^ 2 = 1 - cosX ^ 2 := by linear_combination sinX ^ 2 * htrig + hX
    have e2 : l ^ 2 = t ^ 2 + p.z ^ 2 := by linear_combination hs - ht
    have e3 : p.x ^ 2 = t ^ 2 - p.y ^ 2 := by linear_combination -ht
    -- |q|² t² = t² |p|²
    have : (p.x * p.z * (sinX * C) - p.y * l * (sinX * S) + p.x * cosX * t) ^ 2 +
        (p.y * p.z * (sinX * C) + p.x * l * (sinX * S) + p.y * cosX * t) ^ 2 +
        t ^ 2 * (-(t * (sinX * C)) + p.z * cosX) ^ 2 = t ^ 2 * (p.x ^ 2 + p.y ^ 2 + p.z ^ 2) := by
      have : (p.x * p.z * (sinX * C) - p.y * l * (sinX * S) + p.x * cosX * t) ^ 2 +
          (p.y * p.z * (sinX * C) + p.x * l * (sinX * S) + p.y * cosX * t) ^ 2 +
          t ^ 2 * (-(t * (sinX * C)) + p.z * cosX) ^ 2 =
          (p.x ^ 2 + p.y ^ 2) * (p.z ^ 2 * (sinX ^ 2 * C ^ 2) + l ^ 2 * (sinX ^ 2 * S ^ 2) + cosX ^ 2 * t ^ 2
            + 2 * p.z * t * cosX * (sinX * C)) + t ^ 2 * (t ^ 2 * (sinX ^ 2 * C ^ 2) + p.z ^ 2 * cosX ^ 2
            - 2 * p.z * t * cosX * (sinX * C)) := by ring
      rw [this, ← ht, e2]
      have : t ^ 2 * (p.z ^ 2 * (sinX ^ 2 * C ^ 2) + (t ^ 2 + p.z ^ 2) * (sinX ^ 2 * S ^ 2) + cosX ^ 2 * t ^ 2
            + 2 * p.z * t * cosX * (sinX * C)) + t ^ 2 * (t ^ 2 * (sinX ^ 2 * C ^ 2) + p.z ^ 2 * cosX ^ 2
            - 2 * p.z * t * cosX * (sinX * C)) =
          t ^ 2 * (t ^ 2 + p.z ^ 2) * (sinX ^ 2 * C ^ 2 + sinX ^ 2 * S ^ 2 + cosX ^ 2) := by ring
      rw [this, e1]; ring
    linear_combination this
  · rw [if_neg h] at hq
    rw [hq]
    unfold dot
    dsimp only
    linear_combination (cosX ^ 2 + sinX ^ 2 * (S ^ 2 + C ^ 2)) * hs + (p.x ^ 2 + p.y ^ 2 + p.z ^ 2) * (hX + sinX ^ 2 * htrig)

/-- the angle is an angle: also shows that no square root of a negative number is taken -/
theorem angle_circle (s U : ℝ) (hs : 0 ≤ s) (hU : 0 ≤ U) (hU1 : U < 1) :
    (angle s U).1 ^ 2 + (angle s U).2 ^ 2 = 1 := by
  unfold angle
  by_cases h : s < 4
  · rw [if_pos h]
    dsimp only
    have ha : 0 ≤ 37 / 100 * s - 5 / 1000 * s ^ 2 - 64 / 10000 * s ^ 3 := by
      have : 0 ≤ s * (37 / 100 - 5 / 1000 * s - 64 / 10000 * s ^ 2) := by
        apply mul_nonneg hs
        nlinarith
      nlinarith
    generalize 37 / 100 * s - 5 / 1000 * s ^ 2 - 64 / 10000 * s ^ 3 = alpha at ha
    have hr : 0 < (1 - U) + alpha * alpha * U := by nlinarith [mul_nonneg (mul_nonneg ha ha) hU]
    have hsq := Real.sq_sqrt hr.le
    have hrt := Real.sqrt_pos.mpr hr
    have h1 : 0 ≤ alpha * U / √((1 - U) + alpha * alpha * U) := by positivity
    have h2 : alpha * U / √((1 - U) + alpha * alpha * U) ≤ 1 := by
      rw [div_le_one hrt]
      apply Real.le_sqrt_of_sq_le
      have : 0 ≤ (1 - U) * (1 + alpha ^ 2 * U) := mul_nonneg (by linarith) (by positivity)
      nlinarith
    generalize alpha * U / √((1 - U) + alpha * alpha * U) = q at h1 h2
    have h3 : √(q * (1 - q)) ^ 2 = q * (1 - q) := Real.sq_sqrt (mul_nonneg h1 (by linarith))
    linear_combination 4 * h3
  · rw [if_neg h]
    dsimp only
    have : √(1 - (2 * U - 1) * (2 * U - 1)) ^ 2 = 1 - (2 * U - 1) * (2 * U - 1) := by
      apply Real.sq_sqrt
      nlinarith
    linear_combination this

end Verif.Coulomb
