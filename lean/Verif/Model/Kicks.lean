import Verif.Model.WholeRun
/-!
# A complete run with collisions, radiation and pair production

The step of `Verif/Model/WholeRun.lean` with the two places at which `Simulation.run` changes particles beside the push:
the collisions between the sorters and the species loop, and radiation and pair production between the species loop and
the particle exchange.

Simplification: what collisions, radiation and pair production do to momenta, weights and flags is left open here (the
models of C14, C37, C73 and of the radiation say what it is); modelled is what all of them have in common, that they
move no particle and create particles only where a particle is.
-/
namespace Verif.WholeRun
open Verif.Maxwell Verif.SyncFields Verif.Pusher Verif.Deposit
open Verif.PicStep (zeroAcc)

/-- the particles of all species at the four places inside a step: after sorting, after the collisions, after the
species loop, after photons and pairs are created -/
structure Phases (k : Nat) where
  sorted : List (Species × (Nat → List (Slot k)))
  collided : List (Species × (Nat → List (Slot k)))
  pushed : List (Species × (Nat → List (Slot k)))
  emitted : List (Species × (Nat → List (Slot k)))

/-- what `collision(dt)` (simulation/simulation.py 974-979), `create_particles` and `reaction` (1052-1065;
core/qed/radiation.py, core/qed/pair_production.py, core/qed/cpu.py, core/collision/cpu.py) have in common: the species stay, and every particle that lives afterwards in a
patch is where a particle lived in that patch before. Momenta, weights, flags and the order of the slots may change in any
way; particles may die, and new ones of any species may appear where a particle was (photons at the emitting particle,
pairs at the decaying photon). -/
def Acted {k : Nat} (N : Nat) (a b : List (Species × (Nat → List (Slot k)))) : Prop :=
  b.map Prod.fst = a.map Prod.fst ∧
  ∀ y ∈ b, ∀ t, t < N → ∀ s ∈ y.2 t, s.dead = false →
    ∃ x ∈ a, ∃ s0 ∈ x.2 t, s0.dead = false ∧ s0.pos = s.pos

/-- Specification: every living particle moves with at most `β` in each direction, in units of the light speed -/
def Slow {k : Nat} (N : Nat) (β : ℚ) (parts : List (Species × (Nat → List (Slot k)))) : Prop :=
  ∀ a ∈ parts, ∀ t, t < N → ∀ s ∈ a.2 t, s.dead = false → ∀ i : Fin k, |s.mom.invGamma * uAt s.mom i| ≤ β

section
variable {k : Nat} {D A : Type} [DecidableEq D] (Y : Sys k D A)

/-- One time step with collisions and emission (simulation.py 937-1118); `p` are the particles at the places inside the
step. Differs from `Step` in the two lines with `Acted`. -/
def ActStep (rk rk' : Nat → Nat) (x : St k) (p : Phases k) (x' : St k) : Prop :=
  ∃ σ1 σ2 σ3 σ4,
    GuardE Y rk (Y.solver.stepE (1 / 2 * Y.dt) x.fld) σ1 ∧
    GuardB Y rk (Y.solver.stepB (1 / 2 * Y.dt) σ1) σ2 ∧
    Sorted x.parts p.sorted ∧
    Acted Y.npatches p.sorted p.collided ∧
    p.pushed = (speciesLoop Y σ2 p.collided fun _ => zeroAcc).1 ∧
    Currents Y rk (speciesLoop Y σ2 p.collided fun _ => zeroAcc).2 σ2 σ3 ∧
    Acted Y.npatches p.pushed p.emitted ∧
    List.Forall₂ (Exchanged Y rk) p.emitted x'.parts ∧
    GuardB Y rk' (Y.solver.stepB (1 / 2 * Y.dt) σ3) σ4 ∧
    GuardE Y rk' (Y.solver.stepE (1 / 2 * Y.dt) σ4) x'.fld

/-- a run with collisions and emission in any step -/
def ActRun (rk : Nat → Nat → Nat) (x : Nat → St k) (p : Nat → Phases k) : Prop :=
  ∀ i, ActStep Y (rk i) (rk (i + 1)) (x i) (p i) (x (i + 1))
end

end Verif.WholeRun
