import Verif.Model.Deposit
import Verif.Spec.Shape
/-!
# Specification vocabulary for complete steps

The macro particles of a run as a user knows them, the charge density they make on the undivided periodic grid, and
what a step may do to them. No reference to patches, arrays or guard cells.
-/
namespace Verif.PicSpec
open Verif.Deposit
open Verif.Particles (F64)

/-- a macro particle: the charge of its species, its position, momentum and weight -/
structure Macro2 where
  q : ℚ
  x : ℚ
  y : ℚ
  mom : Mom

/-- the same in 3D -/
structure Macro3 where
  q : ℚ
  x : ℚ
  y : ℚ
  z : ℚ
  mom : Mom

/-- a slot of a species with charge `q` that holds a living particle with coordinates -/
def macro2 (q : ℚ) (p : Part2) : Option Macro2 :=
  match p.dead, p.x, p.y with
  | false, .val x, .val y => some ⟨q, x, y, p.mom⟩
  | _, _, _ => none

/-- the same in 3D -/
def macro3 (q : ℚ) (p : Part3) : Option Macro3 :=
  match p.dead, p.x, p.y, p.z with
  | false, .val x, .val y, .val z => some ⟨q, x, y, z, p.mom⟩
  | _, _, _, _ => none

/-- the living particles with coordinates among the slots of all species of one patch -/
def living2 (sp : List (ℚ × List Part2)) : List Macro2 := sp.flatMap fun s => s.2.filterMap (macro2 s.1)

/-- the same in 3D -/
def living3 (sp : List (ℚ × List Part3)) : List Macro3 := sp.flatMap fun s => s.2.filterMap (macro3 s.1)

/-- all living particles of `N` patches -/
def everyone2 (N : Nat) (cloud : Nat → List (ℚ × List Part2)) : List Macro2 :=
  (List.range N).flatMap fun t => living2 (cloud t)
/-- the same in 3D -/
def everyone3 (N : Nat) (cloud : Nat → List (ℚ × List Part3)) : List Macro3 :=
  (List.range N).flatMap fun t => living3 (cloud t)

/-- charge density in cell `c` of a periodic domain of `n 0 × n 1` cells of size `d 0 × d 1`, of particles displaced by
`s` times their velocity from their stored positions -/
noncomputable def chargeDensity2 (n : Fin 2 → Nat) (d : Fin 2 → ℚ) (s : ℚ) (ms : List Macro2) (c : Fin 2 → Int) : ℚ :=
  (ms.map fun m => m.q * m.mom.w / (d 0 * d 1) *
    (Shape.lineWeight (n 0) ((m.x + s * m.mom.vx) / d 0) (c 0 % n 0) *
     Shape.lineWeight (n 1) ((m.y + s * m.mom.vy) / d 1) (c 1 % n 1))).sum

/-- the same in 3D -/
noncomputable def chargeDensity3 (n : Fin 3 → Nat) (d : Fin 3 → ℚ) (s : ℚ) (ms : List Macro3) (c : Fin 3 → Int) : ℚ :=
  (ms.map fun m => m.q * m.mom.w / (d 0 * d 1 * d 2) *
    (Shape.lineWeight (n 0) ((m.x + s * m.mom.vx) / d 0) (c 0 % n 0) *
     Shape.lineWeight (n 1) ((m.y + s * m.mom.vy) / d 1) (c 1 % n 1) *
     Shape.lineWeight (n 2) ((m.z + s * m.mom.vz) / d 2) (c 2 % n 2))).sum

/-- what one step does to a coordinate: half a step with the old velocity, half a step with the new one, and possibly
whole periods `L` -/
def Drift (L dt x v x' v' : ℚ) : Prop := ∃ k : ℤ, x' = x + v * dt / 2 + v' * dt / 2 + k * L

/-- `m'` is particle `m` one step later: same charge and weight, any new momentum -/
def Moved2 (L : Fin 2 → ℚ) (dt : ℚ) (m m' : Macro2) : Prop :=
  m'.q = m.q ∧ m'.mom.w = m.mom.w ∧ Drift (L 0) dt m.x m.mom.vx m'.x m'.mom.vx
    ∧ Drift (L 1) dt m.y m.mom.vy m'.y m'.mom.vy

/-- the same in 3D -/
def Moved3 (L : Fin 3 → ℚ) (dt : ℚ) (m m' : Macro3) : Prop :=
  m'.q = m.q ∧ m'.mom.w = m.mom.w ∧ Drift (L 0) dt m.x m.mom.vx m'.x m'.mom.vx
    ∧ Drift (L 1) dt m.y m.mom.vy m'.y m'.mom.vy ∧ Drift (L 2) dt m.z m.mom.vz m'.z m'.mom.vz

/-- the particles `b` are the particles `a` one step later, in any order -/
def NextStep {M : Type} (R : M → M → Prop) (a b : List M) : Prop := ∃ b', b'.Perm b ∧ List.Forall₂ R a b'

/-- the three cells next to coordinate `x` lie in the patch number `c` of `n` cells of size `d` or within `ng` cells of
it -/
def Covered (n ng c : Nat) (d x : ℚ) : Prop :=
  -(ng : Int) ≤ ⌊x / d - c * n + 1 / 2⌋ - 1 ∧ ⌊x / d - c * n + 1 / 2⌋ + 1 < n + ng

/-- one axis of a particle's step fits patch number `c`: at most one cell per step, and covered at both ends of the
deposited path -/
def FitsAxis (n ng c : Nat) (d dt x v : ℚ) : Prop :=
  |v * dt| ≤ d ∧ Covered n ng c d (x - v * dt / 2) ∧ Covered n ng c d (x + v * dt / 2)

end Verif.PicSpec
