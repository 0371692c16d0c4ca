import Mathlib.Algebra.BigOperators.Finprod
import Mathlib.Algebra.Order.Field.Rat
import Mathlib.Data.Rat.Floor
/-!
# What a macro particle looks like on the grid

Specification vocabulary, written without reference to the model of the code: the second-order
(triangular shaped cloud) particle shape, and the charge density of a particle on a periodic array.
-/
namespace Verif.Shape

/-- second-order particle shape: the quadratic B-spline of width three cells, as a function of the distance
(in cells) between particle and grid point -/
def shape (t : ℚ) : ℚ :=
  if |t| ≤ 1 / 2 then 3 / 4 - t ^ 2 else if |t| ≤ 3 / 2 then (3 / 2 - |t|) ^ 2 / 2 else 0

/-- weight a particle at coordinate `X` (in cells) gives to entry `c` of an array of `n` entries that is used
periodically: the sum of the shape over all grid points that are stored in entry `c` -/
noncomputable def lineWeight (n : Nat) (X : ℚ) (c : Int) : ℚ :=
  ∑ᶠ m : ℤ, if m % (n : Int) = c then shape (X - m) else 0

/-- value seen by a particle at coordinate `X` (in cells) of a quantity stored at the grid points `m + s`: the average
of the stored values weighted with the particle shape -/
noncomputable def sample (s X : ℚ) (f : ℤ → ℚ) : ℚ := ∑ᶠ m : ℤ, shape (X - (m + s)) * f m

/-- the same in two dimensions: the quantity is stored at the points `(m + sx, n + sy)` -/
noncomputable def sample2 (sx sy X Y : ℚ) (f : ℤ → ℤ → ℚ) : ℚ := sample sx X fun m => sample sy Y fun n => f m n

/-- the same in three dimensions -/
noncomputable def sample3 (sx sy sz X Y Z : ℚ) (f : ℤ → ℤ → ℤ → ℚ) : ℚ :=
  sample sx X fun m => sample2 sy sz Y Z fun n l => f m n l

end Verif.Shape
