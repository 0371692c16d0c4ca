import Verif.Props.Maxwell
import Mathlib.Algebra.BigOperators.Pi
import Mathlib.Algebra.Order.BigOperators.Ring.Finset
import Mathlib.Logic.Equiv.Fin.Basic
import Mathlib.Tactic.LinearCombination
import Mathlib.Data.ZMod.Basic
/-!
# Sums over a periodic grid, the curls of the Yee scheme, and the energy of one step
-/
namespace Verif.Maxwell
open Verif.SyncFields

variable {k : Nat}

/-- sum over all cells of a grid -/
def tot {M : Type} [AddCommMonoid M] (N : Fin k → Nat) (f : (Fin k → Int) → M) : M := ∑ u : (a : Fin k) → Fin (N a), f fun a => ((u a : Nat) : Int)

/-- a scalar that is periodic on the grid -/
def Per1 {M : Type} (N : Fin k → Nat) (f : (Fin k → Int) → M) : Prop := ∀ v w, (∀ a, v a ≡ w a [ZMOD (N a : Int)]) → f v = f w

theorem tot_add (N : Fin k → Nat) (f g : (Fin k → Int) → ℚ) : tot N (fun v => f v + g v) = tot N f + tot N g := Finset.sum_add_distrib
theorem tot_sub (N : Fin k → Nat) (f g : (Fin k → Int) → ℚ) : tot N (fun v => f v - g v) = tot N f - tot N g := Finset.sum_sub_distrib ..
theorem tot_mul (N : Fin k → Nat) (c : ℚ) (f : (Fin k → Int) → ℚ) : tot N (fun v => c * f v) = c * tot N f := (Finset.mul_sum ..).symm
theorem tot_nonneg (N : Fin k → Nat) {f : (Fin k → Int) → ℚ} (h : ∀ v, 0 ≤ f v) : 0 ≤ tot N f := Finset.sum_nonneg fun _ _ => h _
theorem tot_mono (N : Fin k → Nat) {f g : (Fin k → Int) → ℚ} (h : ∀ v, f v ≤ g v) : tot N f ≤ tot N g := Finset.sum_le_sum fun _ _ => h _

theorem up_dn (a : Fin k) (v : Fin k → Int) : up a (dn a v) = v := by
  funext x; by_cases h : x = a <;> simp [up, dn, h]
theorem dn_up (a : Fin k) (v : Fin k → Int) : dn a (up a v) = v := by
  funext x; by_cases h : x = a <;> simp [up, dn, h]

/-- the sum does not change when the grid is shifted by one cell -/
theorem tot_up {M : Type} [AddCommMonoid M] {N : Fin k → Nat} {f : (Fin k → Int) → M} (hf : Per1 N f) (a : Fin k) : tot N (fun v => f (up a v)) = tot N f := by
  by_cases h0 : ∃ b, N b = 0
  · obtain ⟨b, hb⟩ := h0
    have : IsEmpty ((a : Fin k) → Fin (N a)) := ⟨fun u => by have := (u b).2; omega⟩
    unfold tot
    rw [Fintype.sum_empty, Fintype.sum_empty]
  · push Not at h0
    have : ∀ b, NeZero (N b) := fun b => ⟨h0 b⟩
    unfold tot
    refine Fintype.sum_equiv (Equiv.addRight (Pi.single a (1 : Fin (N a)))) _ _ fun u => ?_
    apply hf
    intro b
    show _ ≡ (((u b + (Pi.single a (1 : Fin (N a)) : (c : Fin k) → Fin (N c)) b : Fin (N b)) : Nat) : Int) [ZMOD _]
    by_cases hb : b = a
    · subst hb
      rw [Pi.single_eq_same, Fin.val_add]
      unfold up
      rw [if_pos rfl]
      have h1 : (((1 : Fin (N b)) : Nat)) = 1 % N b := Fin.val_one' _
      rw [h1, Nat.add_mod_mod]
      push_cast
      exact (Int.mod_modEq _ _).symm
    · rw [Pi.single_eq_of_ne hb, Fin.val_add]
      unfold up
      rw [if_neg hb]
      simp only [Fin.val_zero, add_zero]
      push_cast
      exact (Int.mod_modEq _ _).symm

theorem tot_dn {M : Type} [AddCommMonoid M] {N : Fin k → Nat} {f : (Fin k → Int) → M} (hf : Per1 N f) (a : Fin k) : tot N (fun v => f (dn a v)) = tot N f := by
  have hg : Per1 N fun v => f (dn a v) := fun v w h => hf _ _ (dn_modEq h a)
  rw [← tot_up hg a]
  simp only [dn_up]

theorem Per1.up {M : Type} {N : Fin k → Nat} {f : (Fin k → Int) → M} (hf : Per1 N f) (a : Fin k) : Per1 N fun v => f (up a v) := fun _ _ h => hf _ _ (up_modEq h a)
theorem Per1.dn {M : Type} {N : Fin k → Nat} {f : (Fin k → Int) → M} (hf : Per1 N f) (a : Fin k) : Per1 N fun v => f (dn a v) := fun _ _ h => hf _ _ (dn_modEq h a)
theorem Per1.mul {N : Fin k → Nat} {f g : (Fin k → Int) → ℚ} (hf : Per1 N f) (hg : Per1 N g) : Per1 N fun v => f v * g v := fun v w h => by
  simp only [hf v w h, hg v w h]
theorem Per1.sub {N : Fin k → Nat} {f g : (Fin k → Int) → ℚ} (hf : Per1 N f) (hg : Per1 N g) : Per1 N fun v => f v - g v := fun v w h => by
  simp only [hf v w h, hg v w h]

/-- summation by parts -/
theorem by_parts {N : Fin k → Nat} {f g : (Fin k → Int) → ℚ} (hf : Per1 N f) (hg : Per1 N g) (a : Fin k) :
    tot N (fun v => f v * g (dn a v)) = tot N fun v => f (up a v) * g v := by
  have h : Per1 N fun v => f v * g (dn a v) := hf.mul (hg.dn a)
  rw [← tot_up h a]
  simp only [dn_up]

/-- mixed differences can be exchanged -/
theorem mixed {N : Fin k → Nat} {f g : (Fin k → Int) → ℚ} (hf : Per1 N f) (hg : Per1 N g) {a c : Fin k} (hac : a ≠ c) :
    tot N (fun v => (f v - f (dn a v)) * (g v - g (dn c v))) = tot N fun v => (f (up c v) - f v) * (g (up a v) - g v) := by
  -- all eight products
  have e1 : tot N (fun v => f v * g (dn c v)) = tot N fun v => f (up c v) * g v := by_parts hf hg c
  have e2 : tot N (fun v => f (dn a v) * g v) = tot N fun v => f v * g (up a v) := by
    have := by_parts hg hf a
    simpa only [mul_comm] using this
  have e3 : tot N (fun v => f (dn a v) * g (dn c v)) = tot N fun v => f (up c v) * g (up a v) := by
    rw [by_parts (f := fun v => f (dn a v)) (hf.dn a) hg c]
    have h : Per1 N fun v => f (dn a (up c v)) * g v := ((hf.dn a).up c).mul hg
    rw [← tot_up h a]
    have hc : ∀ v, dn a (up c (up a v)) = up c v := by
      intro v
      rw [up_comm c a (Ne.symm hac), dn_up]
    simp only [hc]
  have l : tot N (fun v => (f v - f (dn a v)) * (g v - g (dn c v))) =
      tot N (fun v => f v * g v) - tot N (fun v => f v * g (dn c v)) - tot N (fun v => f (dn a v) * g v) + tot N (fun v => f (dn a v) * g (dn c v)) := by
    rw [← tot_sub, ← tot_sub, ← tot_add]
    congr 1; funext v; ring
  have r : tot N (fun v => (f (up c v) - f v) * (g (up a v) - g v)) =
      tot N (fun v => f (up c v) * g (up a v)) - tot N (fun v => f (up c v) * g v) - tot N (fun v => f v * g (up a v)) + tot N (fun v => f v * g v) := by
    rw [← tot_sub, ← tot_sub, ← tot_add]
    congr 1; funext v; ring
  rw [l, r, e1, e2, e3]
  ring

/-- a difference is at most twice as long -/
theorem diff_le {N : Fin k → Nat} {f : (Fin k → Int) → ℚ} (hf : Per1 N f) (a : Fin k) :
    tot N (fun v => (f v - f (dn a v)) ^ 2) ≤ 4 * tot N fun v => f v ^ 2 := by
  have h2 : tot N (fun v => f (dn a v) ^ 2) = tot N fun v => f v ^ 2 :=
    tot_dn (f := fun v => f v ^ 2) (fun v w h => by simp only [hf v w h]) a
  calc tot N (fun v => (f v - f (dn a v)) ^ 2) ≤ tot N fun v => 2 * f v ^ 2 + 2 * f (dn a v) ^ 2 :=
        tot_mono N fun v => by nlinarith [sq_nonneg (f v + f (dn a v))]
    _ = 4 * tot N fun v => f v ^ 2 := by rw [tot_add, tot_mul, tot_mul, h2]; ring

/-! ### vector fields -/

/-- inner product of two vector fields -/
def dot (N : Fin k → Nat) (x y : V3 k) : ℚ := tot N fun v => x 0 v * y 0 v + x 1 v * y 1 v + x 2 v * y 2 v

theorem dot_eq (N : Fin k → Nat) (x y : V3 k) :
    dot N x y = tot N (fun v => x 0 v * y 0 v) + tot N (fun v => x 1 v * y 1 v) + tot N (fun v => x 2 v * y 2 v) := by
  unfold dot; rw [tot_add, tot_add]

theorem dot_self_nonneg (N : Fin k → Nat) (x : V3 k) : 0 ≤ dot N x x := tot_nonneg N fun v => by nlinarith [sq_nonneg (x 0 v), sq_nonneg (x 1 v), sq_nonneg (x 2 v)]

theorem dot_comm (N : Fin k → Nat) (x y : V3 k) : dot N x y = dot N y x := by
  unfold dot; congr 1; funext v; ring

theorem dot_lin (N : Fin k → Nat) (α β : ℚ) (x y z : V3 k) : dot N (fun d v => α * x d v + β * y d v) z = α * dot N x z + β * dot N y z := by
  unfold dot
  rw [← tot_mul, ← tot_mul, ← tot_add]
  congr 1; funext v; ring

/-- square of a sum of two -/
theorem dot_sq (N : Fin k → Nat) (α : ℚ) (x y : V3 k) :
    dot N (fun d v => x d v + α * y d v) (fun d v => x d v + α * y d v) = dot N x x + 2 * α * dot N x y + α ^ 2 * dot N y y := by
  unfold dot
  rw [← tot_mul, ← tot_mul, ← tot_add, ← tot_add]
  congr 1; funext v; ring

theorem Periodic.comp {np n : Fin k → Nat} {x : V3 k} (h : Periodic np n x) (d : Fin 3) : Per1 (fun a => np a * n a) (x d) := fun v w hv =>
  h d v w fun a => by have := hv a; push_cast at this; exact this

/-! ### the curls -/

/-- curl of B (2D), as in the update of E -/
def curlB2 (P : Par 2) (b : V3 2) : V3 2 :=
  ![fun v => (b 2 v - b 2 (dn 1 v)) / P.d 1,
    fun v => -(b 2 v - b 2 (dn 0 v)) / P.d 0,
    fun v => (b 1 v - b 1 (dn 0 v)) / P.d 0 - (b 0 v - b 0 (dn 1 v)) / P.d 1]
/-- curl of E (2D), as in the update of B -/
def curlE2 (P : Par 2) (e : V3 2) : V3 2 :=
  ![fun v => (e 2 (up 1 v) - e 2 v) / P.d 1,
    fun v => -(e 2 (up 0 v) - e 2 v) / P.d 0,
    fun v => (e 1 (up 0 v) - e 1 v) / P.d 0 - (e 0 (up 1 v) - e 0 v) / P.d 1]
/-- curl of B (3D) -/
def curlB3 (P : Par 3) (b : V3 3) : V3 3 :=
  ![fun v => (b 2 v - b 2 (dn 1 v)) / P.d 1 - (b 1 v - b 1 (dn 2 v)) / P.d 2,
    fun v => (b 0 v - b 0 (dn 2 v)) / P.d 2 - (b 2 v - b 2 (dn 0 v)) / P.d 0,
    fun v => (b 1 v - b 1 (dn 0 v)) / P.d 0 - (b 0 v - b 0 (dn 1 v)) / P.d 1]
/-- curl of E (3D) -/
def curlE3 (P : Par 3) (e : V3 3) : V3 3 :=
  ![fun v => (e 2 (up 1 v) - e 2 v) / P.d 1 - (e 1 (up 2 v) - e 1 v) / P.d 2,
    fun v => (e 0 (up 2 v) - e 0 v) / P.d 2 - (e 2 (up 0 v) - e 2 v) / P.d 0,
    fun v => (e 1 (up 0 v) - e 1 v) / P.d 0 - (e 0 (up 1 v) - e 0 v) / P.d 1]

/-- one term of the adjointness of the curls -/
theorem adj_term {N : Fin k → Nat} {e b : (Fin k → Int) → ℚ} (he : Per1 N e) (hb : Per1 N b) (a : Fin k) (r : ℚ) :
    tot N (fun v => e v * ((b v - b (dn a v)) / r)) = - tot N fun v => (e (up a v) - e v) / r * b v := by
  have h := by_parts he hb a
  have l : tot N (fun v => e v * ((b v - b (dn a v)) / r)) = r⁻¹ * (tot N (fun v => e v * b v) - tot N fun v => e v * b (dn a v)) := by
    rw [← tot_sub, ← tot_mul]; congr 1; funext v; rw [div_eq_mul_inv]; ring
  have s : tot N (fun v => (e (up a v) - e v) / r * b v) = r⁻¹ * (tot N (fun v => e (up a v) * b v) - tot N fun v => e v * b v) := by
    rw [← tot_sub, ← tot_mul]; congr 1; funext v; rw [div_eq_mul_inv]; ring
  rw [l, s, h]; ring

/-- what a dimension supplies: the increments are curls, which are adjoint, and the length of the curl of B is bounded -/
structure Yee (N : Fin k → Nat) (c2 eps0 R : ℚ) (FE : ℚ → V3 k → V3 k → V3 k) (FB : ℚ → V3 k → V3 k) (CB CE : V3 k → V3 k) : Prop where
  fe : ∀ dt b j d v, FE dt b j d v = dt * c2 * CB b d v - dt / eps0 * j d v
  fb : ∀ dt e d v, FB dt e d v = -(dt * CE e d v)
  adj : ∀ e b : V3 k, (∀ d, Per1 N (e d)) → (∀ d, Per1 N (b d)) → dot N e (CB b) = dot N (CE e) b
  bound : ∀ b : V3 k, (∀ d, Per1 N (b d)) → dot N (CB b) (CB b) ≤ 4 * R * dot N b b

theorem sq_term (N : Fin k → Nat) (f : (Fin k → Int) → ℚ) (a : Fin k) (r : ℚ) :
    tot N (fun v => ((f v - f (dn a v)) / r) ^ 2) = (1 / r ^ 2) * tot N fun v => (f v - f (dn a v)) ^ 2 := by
  rw [← tot_mul]; congr 1; funext v; rw [div_pow]; ring

theorem sq_bound {N : Fin k → Nat} {f : (Fin k → Int) → ℚ} (hf : Per1 N f) (a : Fin k) (r : ℚ) :
    tot N (fun v => ((f v - f (dn a v)) / r) ^ 2) ≤ 4 * (1 / r ^ 2) * tot N fun v => f v ^ 2 := by
  rw [sq_term]
  have := mul_le_mul_of_nonneg_left (diff_le hf a) (div_nonneg zero_le_one (sq_nonneg r) : (0 : ℚ) ≤ 1 / r ^ 2)
  linarith

theorem mixed_term {N : Fin k → Nat} {f g : (Fin k → Int) → ℚ} (hf : Per1 N f) (hg : Per1 N g) {a c : Fin k} (hac : a ≠ c) (r s : ℚ) :
    tot N (fun v => (f v - f (dn a v)) / r * ((g v - g (dn c v)) / s)) = tot N fun v => (f (up c v) - f v) / s * ((g (up a v) - g v) / r) := by
  have h := mixed hf hg hac
  have l : tot N (fun v => (f v - f (dn a v)) / r * ((g v - g (dn c v)) / s)) = r⁻¹ * s⁻¹ * tot N fun v => (f v - f (dn a v)) * (g v - g (dn c v)) := by
    rw [← tot_mul]; congr 1; funext v; simp only [div_eq_mul_inv]; ring
  have m : tot N (fun v => (f (up c v) - f v) / s * ((g (up a v) - g v) / r)) = r⁻¹ * s⁻¹ * tot N fun v => (f (up c v) - f v) * (g (up a v) - g v) := by
    rw [← tot_mul]; congr 1; funext v; simp only [div_eq_mul_inv]; ring
  rw [l, m, h]

/-- forward and backward differences have the same length -/
theorem up_dn_sq {N : Fin k → Nat} {f : (Fin k → Int) → ℚ} (hf : Per1 N f) (a : Fin k) (r : ℚ) :
    tot N (fun v => ((f (up a v) - f v) / r) ^ 2) = tot N fun v => ((f v - f (dn a v)) / r) ^ 2 := by
  have h : Per1 N fun v => ((f v - f (dn a v)) / r) ^ 2 := fun v w hv => by
    have h1 := hf v w hv
    have h2 := hf.dn a v w hv
    simp only at h2
    simp only [h1, h2]
  rw [← tot_up h a]
  simp only [dn_up]

theorem yee2 (N : Fin 2 → Nat) (P : Par 2) :
    Yee N P.c2 P.eps0 (1 / P.d 0 ^ 2 + 1 / P.d 1 ^ 2) (yeeE2 P) (yeeB2 P) (curlB2 P) (curlE2 P) where
  fe dt b j d v := by
    match d with
    | 0 => rfl
    | 1 => rfl
    | 2 => rfl
  fb dt e d v := by
    match d with
    | 0 => rfl
    | 1 => rfl
    | 2 => rfl
  adj e b he hb := by
    have t1 := adj_term (he 0) (hb 2) 1 (P.d 1)
    have t2 := adj_term (he 1) (hb 2) 0 (P.d 0)
    have t3 := adj_term (he 2) (hb 1) 0 (P.d 0)
    have t4 := adj_term (he 2) (hb 0) 1 (P.d 1)
    have l : dot N e (curlB2 P b) = tot N (fun v => e 0 v * ((b 2 v - b 2 (dn 1 v)) / P.d 1)) - tot N (fun v => e 1 v * ((b 2 v - b 2 (dn 0 v)) / P.d 0))
        + tot N (fun v => e 2 v * ((b 1 v - b 1 (dn 0 v)) / P.d 0)) - tot N (fun v => e 2 v * ((b 0 v - b 0 (dn 1 v)) / P.d 1)) := by
      rw [← tot_sub, ← tot_add, ← tot_sub]
      unfold dot curlB2
      congr 1; funext v
      simp only [Matrix.cons_val]
      ring
    have r : dot N (curlE2 P e) b = - tot N (fun v => (e 0 (up 1 v) - e 0 v) / P.d 1 * b 2 v) + tot N (fun v => (e 1 (up 0 v) - e 1 v) / P.d 0 * b 2 v)
        - tot N (fun v => (e 2 (up 0 v) - e 2 v) / P.d 0 * b 1 v) + tot N (fun v => (e 2 (up 1 v) - e 2 v) / P.d 1 * b 0 v) := by
      rw [← neg_one_mul (tot N _), ← tot_mul, ← tot_add, ← tot_sub, ← tot_add]
      unfold dot curlE2
      congr 1; funext v
      simp only [Matrix.cons_val]
      ring
    rw [l, r, t1, t2, t3, t4]
    ring
  bound b hb := by
    have m := mixed_term (hb 1) (hb 0) (a := 0) (c := 1) (by decide) (P.d 0) (P.d 1)
    have q20 := sq_bound (hb 2) 0 (P.d 0)
    have q21 := sq_bound (hb 2) 1 (P.d 1)
    have q10 := sq_bound (hb 1) 0 (P.d 0)
    have q01 := sq_bound (hb 0) 1 (P.d 1)
    have q11 := sq_bound (hb 1) 1 (P.d 1)
    have q00 := sq_bound (hb 0) 0 (P.d 0)
    -- curl² + div² = all differences
    have hdiv : 0 ≤ tot N fun v => ((b 0 (up 0 v) - b 0 v) / P.d 0 + (b 1 (up 1 v) - b 1 v) / P.d 1) ^ 2 := tot_nonneg N fun v => sq_nonneg _
    have hdiv' : tot N (fun v => ((b 0 (up 0 v) - b 0 v) / P.d 0 + (b 1 (up 1 v) - b 1 v) / P.d 1) ^ 2) =
        tot N (fun v => ((b 0 v - b 0 (dn 0 v)) / P.d 0) ^ 2) + tot N (fun v => ((b 1 v - b 1 (dn 1 v)) / P.d 1) ^ 2)
        + 2 * tot N (fun v => (b 1 (up 1 v) - b 1 v) / P.d 1 * ((b 0 (up 0 v) - b 0 v) / P.d 0)) := by
      rw [← up_dn_sq (hb 0), ← up_dn_sq (hb 1), ← tot_mul, ← tot_add, ← tot_add]
      congr 1; funext v; ring
    have hcurl : dot N (curlB2 P b) (curlB2 P b) = tot N (fun v => ((b 2 v - b 2 (dn 1 v)) / P.d 1) ^ 2) + tot N (fun v => ((b 2 v - b 2 (dn 0 v)) / P.d 0) ^ 2)
        + tot N (fun v => ((b 1 v - b 1 (dn 0 v)) / P.d 0) ^ 2) + tot N (fun v => ((b 0 v - b 0 (dn 1 v)) / P.d 1) ^ 2)
        - 2 * tot N (fun v => (b 1 v - b 1 (dn 0 v)) / P.d 0 * ((b 0 v - b 0 (dn 1 v)) / P.d 1)) := by
      rw [← tot_mul, ← tot_add, ← tot_add, ← tot_add, ← tot_sub]
      unfold dot curlB2
      congr 1; funext v
      simp only [Matrix.cons_val]
      ring
    have hb' : dot N b b = tot N (fun v => b 0 v ^ 2) + tot N (fun v => b 1 v ^ 2) + tot N (fun v => b 2 v ^ 2) := by
      rw [dot_eq]; simp only [pow_two]
    rw [hdiv'] at hdiv
    rw [hcurl, hb', m]
    linarith

theorem yee3 (N : Fin 3 → Nat) (P : Par 3) :
    Yee N P.c2 P.eps0 (1 / P.d 0 ^ 2 + 1 / P.d 1 ^ 2 + 1 / P.d 2 ^ 2) (yeeE3 P) (yeeB3 P) (curlB3 P) (curlE3 P) where
  fe dt b j d v := by
    match d with
    | 0 => rfl
    | 1 => rfl
    | 2 => rfl
  fb dt e d v := by
    match d with
    | 0 => rfl
    | 1 => rfl
    | 2 => rfl
  adj e b he hb := by
    have t1 := adj_term (he 0) (hb 2) 1 (P.d 1)
    have t2 := adj_term (he 1) (hb 2) 0 (P.d 0)
    have t3 := adj_term (he 2) (hb 1) 0 (P.d 0)
    have t4 := adj_term (he 2) (hb 0) 1 (P.d 1)
    have t5 := adj_term (he 0) (hb 1) 2 (P.d 2)
    have t6 := adj_term (he 1) (hb 0) 2 (P.d 2)
    have l : dot N e (curlB3 P b) = tot N (fun v => e 0 v * ((b 2 v - b 2 (dn 1 v)) / P.d 1)) - tot N (fun v => e 1 v * ((b 2 v - b 2 (dn 0 v)) / P.d 0))
        + tot N (fun v => e 2 v * ((b 1 v - b 1 (dn 0 v)) / P.d 0)) - tot N (fun v => e 2 v * ((b 0 v - b 0 (dn 1 v)) / P.d 1))
        - tot N (fun v => e 0 v * ((b 1 v - b 1 (dn 2 v)) / P.d 2)) + tot N (fun v => e 1 v * ((b 0 v - b 0 (dn 2 v)) / P.d 2)) := by
      rw [← tot_sub, ← tot_add, ← tot_sub, ← tot_sub, ← tot_add]
      unfold dot curlB3
      congr 1; funext v
      simp only [Matrix.cons_val]
      ring
    have r : dot N (curlE3 P e) b = - tot N (fun v => (e 0 (up 1 v) - e 0 v) / P.d 1 * b 2 v) + tot N (fun v => (e 1 (up 0 v) - e 1 v) / P.d 0 * b 2 v)
        - tot N (fun v => (e 2 (up 0 v) - e 2 v) / P.d 0 * b 1 v) + tot N (fun v => (e 2 (up 1 v) - e 2 v) / P.d 1 * b 0 v)
        + tot N (fun v => (e 0 (up 2 v) - e 0 v) / P.d 2 * b 1 v) - tot N (fun v => (e 1 (up 2 v) - e 1 v) / P.d 2 * b 0 v) := by
      rw [← neg_one_mul (tot N _), ← tot_mul, ← tot_add, ← tot_sub, ← tot_add, ← tot_add, ← tot_sub]
      unfold dot curlE3
      congr 1; funext v
      simp only [Matrix.cons_val]
      ring
    rw [l, r, t1, t2, t3, t4, t5, t6]
    ring
  bound b hb := by
    have m01 := mixed_term (hb 1) (hb 0) (a := 0) (c := 1) (by decide) (P.d 0) (P.d 1)
    have m02 := mixed_term (hb 2) (hb 0) (a := 0) (c := 2) (by decide) (P.d 0) (P.d 2)
    have m12 := mixed_term (hb 2) (hb 1) (a := 1) (c := 2) (by decide) (P.d 1) (P.d 2)
    have q : ∀ d a, tot N (fun v => ((b d v - b d (dn a v)) / P.d a) ^ 2) ≤ 4 * (1 / P.d a ^ 2) * tot N fun v => b d v ^ 2 := fun d a => sq_bound (hb d) a (P.d a)
    have q00 := q 0 0
    have q01 := q 0 1
    have q02 := q 0 2
    have q10 := q 1 0
    have q11 := q 1 1
    have q12 := q 1 2
    have q20 := q 2 0
    have q21 := q 2 1
    have q22 := q 2 2
    have hdiv : 0 ≤ tot N fun v => ((b 0 (up 0 v) - b 0 v) / P.d 0 + (b 1 (up 1 v) - b 1 v) / P.d 1 + (b 2 (up 2 v) - b 2 v) / P.d 2) ^ 2 :=
      tot_nonneg N fun v => sq_nonneg _
    have hdiv' : tot N (fun v => ((b 0 (up 0 v) - b 0 v) / P.d 0 + (b 1 (up 1 v) - b 1 v) / P.d 1 + (b 2 (up 2 v) - b 2 v) / P.d 2) ^ 2) =
        tot N (fun v => ((b 0 v - b 0 (dn 0 v)) / P.d 0) ^ 2) + tot N (fun v => ((b 1 v - b 1 (dn 1 v)) / P.d 1) ^ 2)
        + tot N (fun v => ((b 2 v - b 2 (dn 2 v)) / P.d 2) ^ 2)
        + 2 * tot N (fun v => (b 1 (up 1 v) - b 1 v) / P.d 1 * ((b 0 (up 0 v) - b 0 v) / P.d 0))
        + 2 * tot N (fun v => (b 2 (up 2 v) - b 2 v) / P.d 2 * ((b 0 (up 0 v) - b 0 v) / P.d 0))
        + 2 * tot N (fun v => (b 2 (up 2 v) - b 2 v) / P.d 2 * ((b 1 (up 1 v) - b 1 v) / P.d 1)) := by
      rw [← up_dn_sq (hb 0), ← up_dn_sq (hb 1), ← up_dn_sq (hb 2), ← tot_mul, ← tot_mul, ← tot_mul, ← tot_add, ← tot_add, ← tot_add, ← tot_add, ← tot_add]
      congr 1; funext v; ring
    have hcurl : dot N (curlB3 P b) (curlB3 P b) = tot N (fun v => ((b 2 v - b 2 (dn 1 v)) / P.d 1) ^ 2) + tot N (fun v => ((b 2 v - b 2 (dn 0 v)) / P.d 0) ^ 2)
        + tot N (fun v => ((b 1 v - b 1 (dn 0 v)) / P.d 0) ^ 2) + tot N (fun v => ((b 0 v - b 0 (dn 1 v)) / P.d 1) ^ 2)
        + tot N (fun v => ((b 1 v - b 1 (dn 2 v)) / P.d 2) ^ 2) + tot N (fun v => ((b 0 v - b 0 (dn 2 v)) / P.d 2) ^ 2)
        - 2 * tot N (fun v => (b 1 v - b 1 (dn 0 v)) / P.d 0 * ((b 0 v - b 0 (dn 1 v)) / P.d 1))
        - 2 * tot N (fun v => (b 2 v - b 2 (dn 0 v)) / P.d 0 * ((b 0 v - b 0 (dn 2 v)) / P.d 2))
        - 2 * tot N (fun v => (b 2 v - b 2 (dn 1 v)) / P.d 1 * ((b 1 v - b 1 (dn 2 v)) / P.d 2)) := by
      rw [← tot_mul, ← tot_mul, ← tot_mul, ← tot_add, ← tot_add, ← tot_add, ← tot_add, ← tot_add, ← tot_sub, ← tot_sub, ← tot_sub]
      unfold dot curlB3
      congr 1; funext v
      simp only [Matrix.cons_val]
      ring
    have hb' : dot N b b = tot N (fun v => b 0 v ^ 2) + tot N (fun v => b 1 v ^ 2) + tot N (fun v => b 2 v ^ 2) := by
      rw [dot_eq]; simp only [pow_two]
    rw [hdiv'] at hdiv
    rw [hcurl, hb', m01, m02, m12]
    linarith

/-! ### energy of one step -/

/-- twice the energy of the fields over ε₀: `E² + c² B²` less the term of the staggering in time -/
def energy (N : Fin k → Nat) (c2 dt : ℚ) (CB : V3 k → V3 k) (e b : V3 k) : ℚ :=
  dot N e e + c2 * dot N b b - (dt / 2) ^ 2 * c2 ^ 2 * dot N (CB b) (CB b)

variable {N : Fin k → Nat} {c2 eps0 R : ℚ} {FE : ℚ → V3 k → V3 k → V3 k} {FB : ℚ → V3 k → V3 k} {CB CE : V3 k → V3 k}

/-- the balance of one step -/
theorem energy_step (Y : Yee N c2 eps0 R FE FB CB CE) (dt : ℚ) (J : V3 k) (G : GF k) (hb : ∀ d, Per1 N (G.b d))
    (he1 : ∀ d, Per1 N ((G.stepE FE (1 / 2 * dt)).e d)) (hb1 : ∀ d, Per1 N ((G.step FE FB dt J).b d)) :
    energy N c2 dt CB (G.step FE FB dt J).e (G.step FE FB dt J).b - energy N c2 dt CB G.e G.b =
      - (dt / eps0 * (dot N G.j G.e + dot N J (G.step FE FB dt J).e)) + (dt / (2 * eps0)) ^ 2 * (dot N G.j G.j - dot N J J) := by
  obtain ⟨G', hG'⟩ : ∃ G' : GF k, G' = G.step FE FB dt J := ⟨_, rfl⟩
  obtain ⟨m, hm⟩ : ∃ m : V3 k, m = (G.stepE FE (1 / 2 * dt)).e := ⟨_, rfl⟩
  have hmE : ∀ d v, m d v = G.e d v + (dt / 2 * c2) * CB G.b d v - dt / (2 * eps0) * G.j d v := by
    intro d v
    rw [hm]
    show G.e d v + FE (1 / 2 * dt) G.b G.j d v = _
    rw [Y.fe]
    rw [show (1 / 2 * dt) / eps0 = dt / (2 * eps0) by rw [mul_comm (2 : ℚ), div_mul_eq_div_div]; ring]
    ring
  have hB : ∀ d v, G'.b d v = G.b d v - dt * CE m d v := by
    intro d v
    rw [hG', hm]
    show G.b d v + FB (1 / 2 * dt) _ d v + FB (1 / 2 * dt) _ d v = _
    rw [Y.fb, Y.fb]
    show G.b d v + -(1 / 2 * dt * CE (G.stepE FE (1 / 2 * dt)).e d v) + -(1 / 2 * dt * CE (G.stepE FE (1 / 2 * dt)).e d v) = _
    ring
  have hE : ∀ d v, G'.e d v = m d v + (dt / 2 * c2) * CB G'.b d v - dt / (2 * eps0) * J d v := by
    intro d v
    have h1 : G'.e d v = m d v + FE (1 / 2 * dt) G'.b J d v := by rw [hG', hm]; rfl
    rw [h1, Y.fe]
    rw [show (1 / 2 * dt) / eps0 = dt / (2 * eps0) by rw [mul_comm (2 : ℚ), div_mul_eq_div_div]; ring]
    ring
  rw [← hG'] at hb1 ⊢
  rw [← hm] at he1
  have a1 := Y.adj m G.b he1 hb
  have a2 := Y.adj m G'.b he1 hb1
  -- lengths of `E - j` before and `E + j` after
  have s1 : dot N (fun d v => m d v + -(dt / 2 * c2) * CB G.b d v) (fun d v => m d v + -(dt / 2 * c2) * CB G.b d v) =
      dot N (fun d v => G.e d v + -(dt / (2 * eps0)) * G.j d v) (fun d v => G.e d v + -(dt / (2 * eps0)) * G.j d v) := by
    have : (fun d v => m d v + -(dt / 2 * c2) * CB G.b d v) = fun d v => G.e d v + -(dt / (2 * eps0)) * G.j d v := by
      funext d v; rw [hmE]; ring
    rw [this]
  have s2 : dot N (fun d v => m d v + (dt / 2 * c2) * CB G'.b d v) (fun d v => m d v + (dt / 2 * c2) * CB G'.b d v) =
      dot N (fun d v => G'.e d v + dt / (2 * eps0) * J d v) (fun d v => G'.e d v + dt / (2 * eps0) * J d v) := by
    have : (fun d v => m d v + (dt / 2 * c2) * CB G'.b d v) = fun d v => G'.e d v + dt / (2 * eps0) * J d v := by
      funext d v; rw [hE]; ring
    rw [this]
  rw [dot_sq, dot_sq] at s1 s2
  -- B
  have s3 : dot N G'.b G'.b = dot N G.b G.b - dt * (dot N (CE m) G.b + dot N (CE m) G'.b) := by
    have h1 : dot N G'.b G'.b = dot N G.b G'.b - dt * dot N (CE m) G'.b := by
      have := dot_lin N 1 (-dt) G.b (CE m) G'.b
      rw [show (fun d v => 1 * G.b d v + -dt * CE m d v) = G'.b by funext d v; rw [hB]; ring] at this
      rw [this]; ring
    have h2 : dot N G.b G'.b = dot N G.b G.b - dt * dot N (CE m) G.b := by
      have := dot_lin N 1 (-dt) G.b (CE m) G.b
      rw [show (fun d v => 1 * G.b d v + -dt * CE m d v) = G'.b by funext d v; rw [hB]; ring] at this
      rw [dot_comm, this]; ring
    rw [h1, h2]; ring
  have hj : dt / eps0 = 2 * (dt / (2 * eps0)) := by
    by_cases h0 : eps0 = 0
    · subst h0; simp
    · field_simp
  unfold energy
  rw [s3, hj, dot_comm N G.j G.e, dot_comm N J G'.e]
  generalize dt / (2 * eps0) = κ at s1 s2 ⊢
  rw [a1] at s1
  rw [a2] at s2
  linear_combination s1 - s2

/-- under the Courant condition the energy bounds the fields -/
theorem energy_bounds (Y : Yee N c2 eps0 R FE FB CB CE) {dt q : ℚ} (hc : 0 ≤ c2) (hq : c2 * dt ^ 2 * R ≤ q ^ 2) (e b : V3 k) (hb : ∀ d, Per1 N (b d)) :
    dot N e e + (1 - q ^ 2) * c2 * dot N b b ≤ energy N c2 dt CB e b ∧ energy N c2 dt CB e b ≤ dot N e e + c2 * dot N b b := by
  have h1 := Y.bound b hb
  have h2 := dot_self_nonneg N b
  have h3 := dot_self_nonneg N (CB b)
  unfold energy
  refine ⟨?_, ?_⟩
  · have h4 : (dt / 2) ^ 2 * c2 ^ 2 * dot N (CB b) (CB b) ≤ (dt / 2) ^ 2 * c2 ^ 2 * (4 * R * dot N b b) :=
      mul_le_mul_of_nonneg_left h1 (by positivity)
    have h5 : (c2 * dt ^ 2 * R) * (c2 * dot N b b) ≤ q ^ 2 * (c2 * dot N b b) := mul_le_mul_of_nonneg_right hq (by positivity)
    nlinarith
  · have : 0 ≤ (dt / 2) ^ 2 * c2 ^ 2 * dot N (CB b) (CB b) := by positivity
    linarith

end Verif.Maxwell
