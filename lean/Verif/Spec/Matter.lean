import Verif.Spec.WholeRun
/-!
# Specification of the matter a set of macro particles stands for (C102)
-/
namespace Verif.Matter
open Verif.WholeRun Verif.Deposit

variable {k : Nat}

/-- the momentum of a particle (with `1/γ`), without its weight -/
structure Motion where
  ux : ℚ
  uy : ℚ
  uz : ℚ
  invGamma : ℚ

/-- the momentum of a macro particle -/
def motion (p : Ptc k) : Motion := ⟨p.mom.ux, p.mom.uy, p.mom.uz, p.mom.invGamma⟩

/-- the total of a quantity `F` of real particles (which may depend on their kind, position and momentum) over all real particles
that the macro particles stand for: every macro particle counts with its weight -/
def amount (F : Kind → (Fin k → ℚ) → Motion → ℚ) (cl : List (Kind × List (Ptc k))) : ℚ :=
  (cl.map fun s => (s.2.map fun p => p.mom.w * F s.1 p.pos (motion p)).sum).sum

/-- two sets of macro particles stand for the same matter: the total of every quantity is the same. Positions that differ by whole
lengths `L` of the periodic domain are the same place. The number of macro particles, their order, their distribution over
species with the same charge and mass, and their weights may differ. -/
def SameMatter (L : Fin k → ℚ) (a b : List (Kind × List (Ptc k))) : Prop :=
  ∀ F : Kind → (Fin k → ℚ) → Motion → ℚ, (∀ κ x u (z : Fin k → ℤ), F κ (fun i => x i + z i * L i) u = F κ x u) → amount F a = amount F b

end Verif.Matter
