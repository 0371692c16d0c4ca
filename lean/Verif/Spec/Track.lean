import Verif.Spec.WholeRun
/-!
# Specification of following particles through a run (C100)
-/
namespace Verif.Track
open Verif.WholeRun

variable {k : Nat}

/-- `q` can be particle `p` later: the same weight, and its place differs by at most `r` along every axis, up to whole lengths
`L` of the domain -/
structure Along (L : Fin k → ℚ) (r : ℚ) (p q : Ptc k) : Prop where
  w : q.mom.w = p.mom.w
  pos : ∀ i, ∃ z : ℤ, |q.pos i - p.pos i - z * L i| ≤ r

/-- particles `b` are particles `a` later: the particles of `a` are those that were kept and those that were lost, the kept ones
can be matched one to one with all of `b`, and only such were lost as satisfy `lost` -/
def Later (L : Fin k → ℚ) (lost : ℚ → (Fin k → ℚ) → Prop) (r : ℚ) (a b : List (Ptc k)) : Prop :=
  ∃ kept gone b', (kept ++ gone).Perm a ∧ b'.Perm b ∧ List.Forall₂ (Along L r) kept b' ∧ ∀ p ∈ gone, lost r p.pos

/-- the same for all species: each keeps its charge and mass -/
def Tracked (L : Fin k → ℚ) (lost : ℚ → (Fin k → ℚ) → Prop) (r : ℚ) (a b : List (Kind × List (Ptc k))) : Prop :=
  List.Forall₂ (fun s s' => s.1 = s'.1 ∧ Later L lost r s.2 s'.2) a b

/-- on a periodic domain no particle is lost -/
def Never (_ : ℚ) (_ : Fin k → ℚ) : Prop := False

end Verif.Track
