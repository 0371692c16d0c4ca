import Verif.Spec.Causal
/-!
# Specification of what two periodic boxes of different sizes show in a window (C110)
-/
namespace Verif.Window
open Verif.WholeRun Verif.Causal

variable {k : Nat}

/-- the particle at its place in a periodic box of `N` cells of size `d` per axis: moved by whole lengths of the box until its cell
is one of `0, …, N - 1` -/
def wrap (N : Fin k → Nat) (d : Fin k → ℚ) (p : Ptc k) : Ptc k :=
  ⟨fun a => p.pos a - ((cellOf d p.pos a / (N a : Int) : Int) : ℚ) * (N a * d a), p.mom⟩

open Classical in
/-- the particles whose place in the box lies in a window -/
noncomputable def seen (N : Fin k → Nat) (d : Fin k → ℚ) (R : (Fin k → Int) → Prop) (l : List (Ptc k)) : List (Ptc k) :=
  (l.map (wrap N d)).filter fun p => decide (R (cellOf d p.pos))

/-- the same species with the same particles in a window, in any order, where `a` belongs to a box of `N` and `b` to one of `N'` cells -/
def SameSeen (N N' : Fin k → Nat) (d : Fin k → ℚ) (R : (Fin k → Int) → Prop) (a b : List (Kind × List (Ptc k))) : Prop :=
  List.Forall₂ (fun s s' => s.1 = s'.1 ∧ (seen N d R s.2).Perm (seen N' d R s'.2)) a b

/-- a window lies in a box of `N` cells per axis -/
def InBox (N : Fin k → Nat) (R : (Fin k → Int) → Prop) : Prop := ∀ c, R c → ∀ a, 0 ≤ c a ∧ c a < N a

end Verif.Window
