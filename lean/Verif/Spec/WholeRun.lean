import Verif.Model.WholeRun
import Verif.Proofs.Maxwell
import Verif.Props.PicStep
import Verif.Spec.Shape
/-!
# Specification vocabulary for complete runs: the undivided simulation

The same physics without patches, ranks, guard cells, particle slots and exchanges: one periodic grid that covers the
whole domain, and one list of particles per species, which are never moved back into the domain. A particle sees the
fields of the grid weighted with its shape (`Verif.Shape`), its momentum changes by the Boris rotation, all particles
deposit into the one grid, and the fields change by the Yee scheme.
-/
namespace Verif.WholeRun
open Verif.Maxwell Verif.Pusher Verif.Deposit Verif.Shape Verif.PicSpec
open Verif.PicStep (field undivided2 undivided3)

/-- a particle: position, momentum with `1/γ` and weight -/
structure Ptc (k : Nat) where
  pos : Fin k → ℚ
  mom : Mom

/-- the undivided simulation between two steps: fields on all cells, and the particles of every species -/
structure World (k : Nat) where
  fld : GF k
  cloud : List (Kind × List (Ptc k))

/-- its laws: increments of E and B, the fields a particle at a position sees, the currents of all particles -/
structure Phys (k : Nat) where
  FE : ℚ → V3 k → V3 k → V3 k
  FB : ℚ → V3 k → V3 k
  see : GF k → (Fin k → ℚ) → EB
  cur : List (Kind × List (Ptc k)) → V3 k
  rs : ℚ → ℚ
  dt : ℚ

section
variable {k : Nat} (Φ : Phys k)

/-- one step of a particle of kind `κ`: half a step with the old velocity, Boris rotation in the fields seen there, half
a step with the new velocity -/
def pushed (κ : Kind) (G : GF k) (p : Ptc k) : Ptc k :=
  let x := fun i : Fin k => p.pos i + lightSpeed * (1 / 2) * Φ.dt * p.mom.invGamma * uAt p.mom i
  let f := Φ.see G x
  let r := borisUnified Φ.rs lightSpeed κ.q κ.m Φ.dt ⟨f.ex, f.ey, f.ez, f.bx, f.by', f.bz⟩
    ⟨p.mom.ux, p.mom.uy, p.mom.uz, p.mom.invGamma⟩
  let u : Mom := ⟨r.ux, r.uy, r.uz, r.ig, p.mom.w⟩
  ⟨fun i => x i + lightSpeed * (1 / 2) * Φ.dt * u.invGamma * uAt u i, u⟩

/-- the fields after the first half of a step, in which the particles are pushed -/
def midField (G : GF k) : GF k := (G.stepE Φ.FE (1 / 2 * Φ.dt)).stepB Φ.FB (1 / 2 * Φ.dt)

/-- one step of the undivided simulation -/
def World.step (W : World k) : World k :=
  let cl := W.cloud.map fun s => (s.1, s.2.map (pushed Φ s.1 (midField Φ W.fld)))
  ⟨GF.step Φ.FE Φ.FB Φ.dt (Φ.cur cl) W.fld, cl⟩

/-- the undivided simulation after `i` steps -/
def World.run (W : World k) : Nat → World k
  | 0 => W
  | i + 1 => (World.run W i).step Φ
end

/-- fields seen at `x` on a 2D Yee grid with cells of size `d`: every component weighted with the particle shape at its
own place in the cell -/
noncomputable def see2 (d : Fin 2 → ℚ) (G : GF 2) (x : Fin 2 → ℚ) : EB :=
  let X := x 0 / d 0
  let Y := x 1 / d 1
  ⟨sample2 (1 / 2) 0 X Y fun m n => G.e 0 ![m, n], sample2 0 (1 / 2) X Y fun m n => G.e 1 ![m, n],
   sample2 0 0 X Y fun m n => G.e 2 ![m, n], sample2 0 (1 / 2) X Y fun m n => G.b 0 ![m, n],
   sample2 (1 / 2) 0 X Y fun m n => G.b 1 ![m, n], sample2 (1 / 2) (1 / 2) X Y fun m n => G.b 2 ![m, n]⟩

/-- the same in 3D -/
noncomputable def see3 (d : Fin 3 → ℚ) (G : GF 3) (x : Fin 3 → ℚ) : EB :=
  let X := x 0 / d 0
  let Y := x 1 / d 1
  let Z := x 2 / d 2
  ⟨sample3 (1 / 2) 0 0 X Y Z fun m n l => G.e 0 ![m, n, l], sample3 0 (1 / 2) 0 X Y Z fun m n l => G.e 1 ![m, n, l],
   sample3 0 0 (1 / 2) X Y Z fun m n l => G.e 2 ![m, n, l], sample3 0 (1 / 2) (1 / 2) X Y Z fun m n l => G.b 0 ![m, n, l],
   sample3 (1 / 2) 0 (1 / 2) X Y Z fun m n l => G.b 1 ![m, n, l],
   sample3 (1 / 2) (1 / 2) 0 X Y Z fun m n l => G.b 2 ![m, n, l]⟩

/-- all particles of all kinds with their charges -/
def macros2 (cl : List (Kind × List (Ptc 2))) : List Macro2 :=
  cl.flatMap fun s => s.2.map fun p => ⟨s.1.q, p.pos 0, p.pos 1, p.mom⟩
/-- the same in 3D -/
def macros3 (cl : List (Kind × List (Ptc 3))) : List Macro3 :=
  cl.flatMap fun s => s.2.map fun p => ⟨s.1.q, p.pos 0, p.pos 1, p.pos 2, p.mom⟩

/-- the currents all particles deposit in one periodic array of `N 0 × N 1` cells -/
def cur2 (N : Fin 2 → Nat) (d : Fin 2 → ℚ) (dt : ℚ) (cl : List (Kind × List (Ptc 2))) : V3 2 :=
  fun f c => field (undivided2 N d dt (macros2 cl)) f.castSucc fun a => c a % (N a : Int)
/-- the same in 3D -/
def cur3 (N : Fin 3 → Nat) (d : Fin 3 → ℚ) (dt : ℚ) (cl : List (Kind × List (Ptc 3))) : V3 3 :=
  fun f c => field (undivided3 N d dt (macros3 cl)) f.castSucc fun a => c a % (N a : Int)

/-- the undivided 2D simulation on `N 0 × N 1` cells -/
noncomputable def phys2 (N : Fin 2 → Nat) (d : Fin 2 → ℚ) (c2 eps0 dt : ℚ) (rs : ℚ → ℚ) : Phys 2 :=
  ⟨yeeE2 ⟨d, c2, eps0⟩, yeeB2 ⟨d, c2, eps0⟩, see2 d, cur2 N d dt, rs, dt⟩
/-- the undivided 3D simulation -/
noncomputable def phys3 (N : Fin 3 → Nat) (d : Fin 3 → ℚ) (c2 eps0 dt : ℚ) (rs : ℚ → ℚ) : Phys 3 :=
  ⟨yeeE3 ⟨d, c2, eps0⟩, yeeB3 ⟨d, c2, eps0⟩, see3 d, cur3 N d dt, rs, dt⟩

/-! ## what a state of the program shows -/

/-- the particle in a slot, if it is alive (and has coordinates) -/
def ptc {k : Nat} (s : Slot k) : Option (Ptc k) :=
  if s.dead then none else (nums s.pos).map fun v => ⟨v, s.mom⟩

/-- the living particles of one species in all `N` patches -/
def particles {k : Nat} (N : Nat) (ps : Nat → List (Slot k)) : List (Ptc k) :=
  (List.range N).flatMap fun t => (ps t).filterMap ptc

/-- the same position up to whole lengths `L` of the domain, and the same momentum and weight -/
def SamePtc {k : Nat} (L : Fin k → ℚ) (p q : Ptc k) : Prop :=
  p.mom = q.mom ∧ ∀ i, ∃ z : ℤ, p.pos i = q.pos i + z * L i

/-- the same particles, in any order -/
def SameParticles {k : Nat} (L : Fin k → ℚ) (a b : List (Ptc k)) : Prop :=
  ∃ b', b'.Perm b ∧ List.Forall₂ (SamePtc L) a b'

/-- the same species with the same particles -/
def SameCloud {k : Nat} (L : Fin k → ℚ) (a b : List (Kind × List (Ptc k))) : Prop :=
  List.Forall₂ (fun s s' => s.1 = s'.1 ∧ SameParticles L s.2 s'.2) a b

/-- the particles of all species of a state of the program -/
def cloudOf {k : Nat} (N : Nat) (parts : List (Species × (Nat → List (Slot k)))) : List (Kind × List (Ptc k)) :=
  parts.map fun s => (s.1.toKind, particles N s.2)

end Verif.WholeRun
