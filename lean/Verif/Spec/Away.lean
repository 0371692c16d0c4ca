import Verif.Spec.Causal
import Verif.Spec.WholePml
/-!
# Specification: cells away from absorbing layers (C114)
-/
namespace Verif.Away
open Verif.Cpml (Whole)

variable {k : Nat}

/-- a cell of a periodic grid with as many cells as the domain that is in no layer of the domain: a layer has `thick` cells at both ends
of an absorbing axis, and one more for B at the upper end -/
def Clear (W : Whole k) (c : Fin k → Int) : Prop :=
  ∀ a, W.pml a = true → (W.thick : Int) ≤ c a % (W.N a : Int) ∧ c a % (W.N a : Int) + W.thick + 1 < W.N a

end Verif.Away
