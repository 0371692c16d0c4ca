import Verif.Proofs.Hilbert
/-!
# C26: the generalized Hilbert curve visits every cell exactly once
-/
namespace Verif.HilbertProps
open Verif.Hilbert

/-- **C26**: for every `width, height ≥ 1` `gilbert2d(width, height)` terminates, and the list of the cells it yields
contains every cell `(x, y)` with `0 ≤ x < width`, `0 ≤ y < height` exactly once and no other cell. -/
theorem gilbert2d_visits_once (width height : Nat) (hw : 0 < width) (hh : 0 < height) :
    ∃ cells, gilbert2d width height = some cells ∧ ∀ x y : Int,
      cells.count ⟨x, y⟩ = if (0 ≤ x ∧ x < width) ∧ (0 ≤ y ∧ y < height) then 1 else 0 := by
  have key : ∀ x y : Int, ind 0 width x * ind 0 height y
      = if (0 ≤ x ∧ x < width) ∧ (0 ≤ y ∧ y < height) then 1 else 0 := by
    intro x y
    unfold ind
    by_cases h1 : 0 ≤ x ∧ x < (width : Int)
    · by_cases h2 : 0 ≤ y ∧ y < (height : Int)
      · rw [if_pos h1, if_pos h2, if_pos ⟨h1, h2⟩]
      · rw [if_neg h2, mul_zero]; exact (if_neg (fun h => h2 h.2)).symm
    · rw [if_neg h1, zero_mul]; exact (if_neg (fun h => h1 h.1)).symm
  have s1 : ∀ k : Nat, sc2 k ⟨1, 0⟩ = ⟨k, 0⟩ := by intro k; unfold sc2; simp
  have s2 : ∀ k : Nat, sc2 k ⟨0, 1⟩ = ⟨0, k⟩ := by intro k; unfold sc2; simp
  have d1 : ∀ x y : Int, dot2 (⟨x, y⟩ - ⟨0, 0⟩) ⟨1, 0⟩ = x := by
    intro x y; unfold dot2; simp only [sub2_x, sub2_y]; ring
  have d2 : ∀ x y : Int, dot2 (⟨x, y⟩ - ⟨0, 0⟩) ⟨0, 1⟩ = y := by
    intro x y; unfold dot2; simp only [sub2_x, sub2_y]; ring
  have F : Frame2 ⟨1, 0⟩ ⟨0, 1⟩ := ⟨Or.inl rfl, Or.inr (Or.inr (Or.inl rfl)), by decide⟩
  unfold gilbert2d
  by_cases h : (width : Int) ≥ height
  · rw [if_pos h]
    obtain ⟨l, e, c⟩ := generate2d_fills _ F ⟨0, 0⟩ le_rfl hw hh
    rw [s1, s2] at e
    refine ⟨l, e, fun x y => ?_⟩
    rw [c]; unfold box2; rw [d1, d2]; exact key x y
  · rw [if_neg h]
    obtain ⟨l, e, c⟩ := generate2d_fills _ F.swap ⟨0, 0⟩ le_rfl hh hw
    rw [s1, s2] at e
    refine ⟨l, e, fun x y => ?_⟩
    rw [c]; unfold box2; rw [d1, d2, Nat.mul_comm]; exact key x y

/-- **C26**, three dimensions: for every `width, height, depth ≥ 1`, also odd ones -/
theorem gilbert3d_visits_once (width height depth : Nat) (hw : 0 < width) (hh : 0 < height) (hd : 0 < depth) :
    ∃ cells, gilbert3d width height depth = some cells ∧ ∀ x y z : Int,
      cells.count ⟨x, y, z⟩
        = if (0 ≤ x ∧ x < width) ∧ (0 ≤ y ∧ y < height) ∧ (0 ≤ z ∧ z < depth) then 1 else 0 := by
  have key : ∀ x y z : Int, ind 0 width x * (ind 0 height y * ind 0 depth z)
      = if (0 ≤ x ∧ x < width) ∧ (0 ≤ y ∧ y < height) ∧ (0 ≤ z ∧ z < depth) then 1 else 0 := by
    intro x y z
    unfold ind
    by_cases h1 : 0 ≤ x ∧ x < (width : Int)
    · by_cases h2 : 0 ≤ y ∧ y < (height : Int)
      · by_cases h3 : 0 ≤ z ∧ z < (depth : Int)
        · rw [if_pos h1, if_pos h2, if_pos h3, if_pos ⟨h1, h2, h3⟩]
        · rw [if_neg h3, mul_zero, mul_zero]; exact (if_neg (fun h => h3 h.2.2)).symm
      · rw [if_neg h2, zero_mul, mul_zero]; exact (if_neg (fun h => h2 h.2.1)).symm
    · rw [if_neg h1, zero_mul]; exact (if_neg (fun h => h1 h.1)).symm
  have s1 : ∀ k : Nat, sc3 k ⟨1, 0, 0⟩ = ⟨k, 0, 0⟩ := by intro k; unfold sc3; simp
  have s2 : ∀ k : Nat, sc3 k ⟨0, 1, 0⟩ = ⟨0, k, 0⟩ := by intro k; unfold sc3; simp
  have s3 : ∀ k : Nat, sc3 k ⟨0, 0, 1⟩ = ⟨0, 0, k⟩ := by intro k; unfold sc3; simp
  have d1 : ∀ x y z : Int, dot3 (⟨x, y, z⟩ - ⟨0, 0, 0⟩) ⟨1, 0, 0⟩ = x := by
    intro x y z; unfold dot3; simp only [sub3_x, sub3_y, sub3_z]; ring
  have d2 : ∀ x y z : Int, dot3 (⟨x, y, z⟩ - ⟨0, 0, 0⟩) ⟨0, 1, 0⟩ = y := by
    intro x y z; unfold dot3; simp only [sub3_x, sub3_y, sub3_z]; ring
  have d3 : ∀ x y z : Int, dot3 (⟨x, y, z⟩ - ⟨0, 0, 0⟩) ⟨0, 0, 1⟩ = z := by
    intro x y z; unfold dot3; simp only [sub3_x, sub3_y, sub3_z]; ring
  have F : Frame3 ⟨1, 0, 0⟩ ⟨0, 1, 0⟩ ⟨0, 0, 1⟩ := ⟨Or.inl rfl, Or.inr (Or.inr (Or.inl rfl)),
    Or.inr (Or.inr (Or.inr (Or.inr (Or.inl rfl)))), by decide, by decide, by decide⟩
  unfold gilbert3d
  by_cases h : (width : Int) ≥ height ∧ (width : Int) ≥ depth
  · rw [if_pos h]
    obtain ⟨l, e, c⟩ := generate3d_fills _ F ⟨0, 0, 0⟩ (w := width) (h := height) (d := depth) le_rfl
      (Or.inl ⟨hw, hh, hd, by omega, by omega, by omega⟩)
    rw [s1, s2, s3] at e
    refine ⟨l, e, fun x y z => ?_⟩
    rw [c]; unfold box3; rw [d1, d2, d3]; exact key x y z
  · rw [if_neg h]
    by_cases h' : (height : Int) ≥ width ∧ (height : Int) ≥ depth
    · rw [if_pos h']
      obtain ⟨l, e, c⟩ := generate3d_fills _ F.swap12 ⟨0, 0, 0⟩ (w := height) (h := width) (d := depth) le_rfl
        (Or.inl ⟨hh, hw, hd, by omega, by omega, by omega⟩)
      rw [s1, s2, s3] at e
      refine ⟨l, e, fun x y z => ?_⟩
      rw [c]; unfold box3; rw [d1, d2, d3, ← key x y z]; ring
    · rw [if_neg h']
      obtain ⟨l, e, c⟩ := generate3d_fills _ F.rot' ⟨0, 0, 0⟩ (w := depth) (h := width) (d := height) le_rfl
        (Or.inl ⟨hd, hw, hh, by omega, by omega, by omega⟩)
      rw [s1, s2, s3] at e
      refine ⟨l, e, fun x y z => ?_⟩
      rw [c]; unfold box3; rw [d1, d2, d3, ← key x y z]; ring

/-- the theorem applies to an odd, oblong grid and to a cube -/
example : (∃ cells, gilbert2d (7 : Nat) (4 : Nat) = some cells ∧ cells.count ⟨6, 3⟩ = 1 ∧ cells.count ⟨7, 0⟩ = 0)
    ∧ ∃ cells, gilbert3d (5 : Nat) (4 : Nat) (3 : Nat) = some cells ∧ cells.count ⟨4, 3, 2⟩ = 1 ∧ cells.count ⟨4, 4, 2⟩ = 0 := by
  obtain ⟨l, e, c⟩ := gilbert2d_visits_once 7 4 (by omega) (by omega)
  obtain ⟨l', e', c'⟩ := gilbert3d_visits_once 5 4 3 (by omega) (by omega) (by omega)
  exact ⟨⟨l, e, (c 6 3).trans (by decide), (c 7 0).trans (by decide)⟩,
    l', e', (c' 4 3 2).trans (by decide), (c' 4 4 2).trans (by decide)⟩

end Verif.HilbertProps
