import Mathlib.Algebra.BigOperators.Pi
import Verif.Spec.Matter
/-!
# Specification of a periodic box that is made of copies of a smaller box (C108)
-/
namespace Verif.Tiled
open Verif.WholeRun Verif.Deposit Verif.Matter

variable {k : Nat}

/-- the matter `b` of a larger box consists of copies of the matter `a` of a box of lengths `L`, `m i` of them side by side along axis
`i`: the total of every quantity over `b` is its total over `a` and all its copies. Positions that differ by whole lengths
`m i * L i` of the larger box are the same place there. -/
def Tiles (m : Fin k → Nat) (L : Fin k → ℚ) (a b : List (Kind × List (Ptc k))) : Prop :=
  ∀ F : Kind → (Fin k → ℚ) → Motion → ℚ, (∀ κ x u (z : Fin k → ℤ), F κ (fun i => x i + z i * (m i * L i)) u = F κ x u) →
    amount F b = amount (fun κ x u => ∑ z : (i : Fin k) → Fin (m i), F κ (fun i => x i + (z i : Nat) * L i) u) a

end Verif.Tiled
