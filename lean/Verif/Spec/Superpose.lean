import Verif.Spec.WholePml
/-!
# Specification vocabulary for the superposition of fields
-/
namespace Verif.Superpose
open Verif.Maxwell Verif.Pusher
open Verif.Cpml (Grid)
open Verif.WholeRun (Species)

variable {k : Nat}

/-- a field is `α` times one field plus `β` times another, in every cell -/
def Mix (α β : ℚ) (f g h : V3 k) : Prop := ∀ d v, h d v = α * f d v + β * g d v

/-- everything on a grid is `α` times what is on one grid plus `β` times what is on another -/
structure Superposed (α β : ℚ) (F G H : Grid k) : Prop where
  e : Mix α β F.e G.e H.e
  b : Mix α β F.b G.b H.b
  j : Mix α β F.j G.j H.j
  psiE : ∀ s, Mix α β (F.psiE s) (G.psiE s) (H.psiE s)
  psiB : ∀ s, Mix α β (F.psiB s) (G.psiB s) (H.psiB s)

/-- no species has a living particle in any of `N` patches -/
def NoParticles (N : Nat) (parts : List (Species × (Nat → List (Slot k)))) : Prop :=
  ∀ a ∈ parts, ∀ t, t < N → ∀ s ∈ a.2 t, s.dead = true

end Verif.Superpose
