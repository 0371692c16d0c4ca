import Verif.Spec.Matter
/-!
# Specification of the charged matter a set of macro particles stands for (C106)
-/
namespace Verif.Neutral
open Verif.WholeRun Verif.Deposit Verif.Matter

variable {k : Nat}

/-- two sets of macro particles stand for the same charged matter: the total of every quantity that only charged particles have is
the same. Neutral particles, and particles of weight zero, may be in one and not in the other. -/
def SameCharged (L : Fin k → ℚ) (a b : List (Kind × List (Ptc k))) : Prop :=
  ∀ F : Kind → (Fin k → ℚ) → Motion → ℚ, (∀ κ x u (z : Fin k → ℤ), F κ (fun i => x i + z i * L i) u = F κ x u) →
    (∀ κ x u, κ.q = 0 → F κ x u = 0) → amount F a = amount F b

end Verif.Neutral
