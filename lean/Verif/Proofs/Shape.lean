import Mathlib.Tactic.Linarith
import Mathlib.Tactic.Ring
import Mathlib.Algebra.Order.Interval.Finset.Basic
import Mathlib.Data.Int.Interval
import Verif.Spec.Shape
/-! # Facts about the particle shape -/
namespace Verif.Shape

theorem shape_nonneg (t : ℚ) : 0 ≤ shape t := by
  unfold shape
  split
  · rename_i h
    have := abs_le.mp h
    nlinarith
  · split
    · positivity
    · exact le_rfl

theorem shape_zero {t : ℚ} (h : 3 / 2 ≤ |t|) : shape t = 0 := by
  unfold shape
  rw [if_neg (by linarith)]
  split
  · have : |t| = 3 / 2 := le_antisymm (by assumption) h
    rw [this]; norm_num
  · rfl

theorem shape_mid {t : ℚ} (h1 : -(1/2) ≤ t) (h2 : t ≤ 1/2) : shape t = 3 / 4 - t ^ 2 := by
  unfold shape
  rw [if_pos (abs_le.mpr ⟨h1, h2⟩)]

theorem shape_right {t : ℚ} (h1 : 1/2 ≤ t) (h2 : t ≤ 3/2) : shape t = (3/2 - t) ^ 2 / 2 := by
  have h : |t| = t := abs_of_nonneg (by linarith)
  unfold shape
  rw [h]
  by_cases hc : t ≤ 1/2
  · have : t = 1/2 := by linarith
    rw [if_pos hc, this]; norm_num
  · rw [if_neg hc, if_pos h2]

theorem shape_left {t : ℚ} (h1 : -(3/2) ≤ t) (h2 : t ≤ -(1/2)) : shape t = (3/2 + t) ^ 2 / 2 := by
  have h : |t| = -t := abs_of_nonpos (by linarith)
  unfold shape
  rw [h]
  by_cases hc : -t ≤ 1/2
  · have : t = -(1/2) := by linarith
    rw [if_pos hc, this]; norm_num
  · rw [if_neg hc, if_pos (by linarith)]; ring

/-- only the three grid points around the nearest one see the particle -/
theorem shape_far {X : ℚ} {m : ℤ} (h : m < ⌊X + 1/2⌋ - 1 ∨ ⌊X + 1/2⌋ + 1 < m) : shape (X - m) = 0 := by
  have h1 := Int.floor_le (X + 1/2)
  have h2 := Int.lt_floor_add_one (X + 1/2)
  apply shape_zero
  rcases h with h | h
  · have : (m : ℚ) + 1 ≤ ⌊X + 1/2⌋ - 1 := by exact_mod_cast h
    rw [abs_of_nonneg] <;> linarith
  · have : (⌊X + 1/2⌋ : ℚ) + 1 + 1 ≤ m := by exact_mod_cast h
    rw [abs_of_nonpos] <;> linarith

/-- `lineWeight` as a finite sum over any window that contains the three grid points -/
theorem lineWeight_eq (n : Nat) (X : ℚ) (c : Int) (s : Finset ℤ)
    (hs : Finset.Icc (⌊X + 1/2⌋ - 1) (⌊X + 1/2⌋ + 1) ⊆ s) :
    lineWeight n X c = ∑ m ∈ s, if m % (n : Int) = c then shape (X - m) else 0 := by
  unfold lineWeight
  apply finsum_eq_sum_of_support_subset
  intro m hm
  rw [Function.mem_support] at hm
  apply Finset.mem_coe.mpr
  apply hs
  rw [Finset.mem_Icc]
  by_contra hcon
  apply hm
  rw [shape_far (by omega)]
  split <;> rfl

end Verif.Shape
