import Mathlib.Data.Real.Sqrt
import Mathlib.Logic.Function.Basic

/-!
# The quantum parameter chi (core/qed/inline.py, core/qed/cpu.py)

Floats are modelled by exact reals.  A power `** 0.5` of a negative number is NaN in the code and
`none` here.  A division by a zero `inv_gamma` is `none` too (the compiled function raises).
-/

namespace Verif.Chi

/-- A vector with three components; the code passes them as separate arguments. -/
structure V3 where
  x : ℝ
  y : ℝ
  z : ℝ

/-- The number under the square root, core/qed/inline.py 9-12, with `gamma` of line 7 given. -/
def radicand (c : ℝ) (E B u : V3) (gamma : ℝ) : ℝ :=
  (gamma * E.x + (u.y * B.z - u.z * B.y) * c) ^ 2 +
  (gamma * E.y + (u.z * B.x - u.x * B.z) * c) ^ 2 +
  (gamma * E.z + (u.x * B.y - u.y * B.x) * c) ^ 2 -
  (u.x * E.x + u.y * E.y + u.z * E.z) ^ 2

open Classical in
/-- `calculate_chi_inline`, core/qed/inline.py 5-13.  `factor` (line 6) and the speed of light `c`
are parameters. -/
noncomputable def chi (factor c : ℝ) (E B u : V3) (invGamma : ℝ) : Option ℝ :=
  if invGamma = 0 then none
  else
    let r := radicand c E B u (1 / invGamma)
    if r < 0 then none else some (factor * √r)

/-- What the loop reads and writes of one particle slot; `chi = none` is NaN. -/
structure Ptl where
  E : V3
  B : V3
  u : V3
  invGamma : ℝ
  dead : Bool
  chi : Option ℝ

/-- The loop over the slots of a patch, core/qed/cpu.py 46-54. Simplification: a zero `inv_gamma`
gives `none` here. -/
noncomputable def updatePatch (factor c : ℝ) : List Ptl → List Ptl
  | [] => []
  | p :: ps => (if p.dead then p else { p with chi := Chi.chi factor c p.E p.B p.u p.invGamma })
      :: updatePatch factor c ps

/-- `update_chi_patches`, core/qed/cpu.py 18-54, called by core/qed/radiation.py 92-99 and
core/qed/pair_production.py 88-95: the patches in the order in which the threads take them. -/
noncomputable def updateChi (factor c : ℝ) (order : List Nat) (ps : Nat → List Ptl) : Nat → List Ptl :=
  order.foldl (fun ps i => Function.update ps i (updatePatch factor c (ps i))) ps

end Verif.Chi
