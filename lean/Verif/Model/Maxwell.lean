import Verif.Model.SyncFields
/-!
# Field solver on one patch and the field part of a time step

Models `src/lambdapic/core/maxwell/cpu.py` (2D 8-36, 3D 82-113) and the field part of the step loop,
`src/lambdapic/simulation/simulation.py` 945-960 and 1097-1118. Arrays are addressed by per-axis
position; numpy's negative indices are `index` (cells below 0 are read at the end of the array).
Simplifications: exact rationals; `c**2` and `epsilon_0` are parameters; patches without PML.
-/
namespace Verif.Maxwell
open SyncFields

/-- one field array of a patch -/
abbrev Arr (k : Nat) := (Fin k → Int) → ℚ

/-- the field arrays of a patch: `e 0, e 1, e 2` are `ex, ey, ez`, and likewise for `b` and `j`
(core/fields.py `Fields2D`/`Fields3D`) -/
structure Fields (k : Nat) where
  e : Fin 3 → Arr k
  b : Fin 3 → Arr k
  j : Fin 3 → Arr k

/-- assignment to one array element -/
def put {k : Nat} (A : Arr k) (c : Fin k → Int) (x : ℚ) : Arr k := fun c' => if c' = c then x else A c'

/-- `f.e[comp][c] = x` -/
def Fields.setE {k : Nat} (f : Fields k) (comp : Fin 3) (c : Fin k → Int) (x : ℚ) : Fields k :=
  { f with e := fun d => if d = comp then put (f.e d) c x else f.e d }

/-- `f.b[comp][c] = x` -/
def Fields.setB {k : Nat} (f : Fields k) (comp : Fin 3) (c : Fin k → Int) (x : ℚ) : Fields k :=
  { f with b := fun d => if d = comp then put (f.b d) c x else f.b d }

/-- constants of the solver: cell sizes, `c**2` (cpu.py 16), `epsilon_0` (cpu.py 17) -/
structure Par (k : Nat) where
  d : Fin k → ℚ
  c2 : ℚ
  eps0 : ℚ

section TwoD
variable (nx ny ng : Nat) (P : Par 2) (dt : ℚ)

/-- array element `[i, j]` -/
def at2 (i j : Int) : Fin 2 → Int := index ![nx, ny] ng ![i, j]

/-- loop body of `update_efield_2d` (maxwell/cpu.py 20-22) -/
def eBody2 (f : Fields 2) (u : Fin 2 → Nat) : Fields 2 :=
  let i : Int := u 0
  let j : Int := u 1
  let c := at2 nx ny ng
  let bf := dt * P.c2
  let jf := dt / P.eps0
  let f := f.setE 0 (c i j) (f.e 0 (c i j) +
    (bf * ((f.b 2 (c i j) - f.b 2 (c i (j - 1))) / P.d 1) - jf * f.j 0 (c i j)))
  let f := f.setE 1 (c i j) (f.e 1 (c i j) +
    (bf * (-(f.b 2 (c i j) - f.b 2 (c (i - 1) j)) / P.d 0) - jf * f.j 1 (c i j)))
  let f := f.setE 2 (c i j) (f.e 2 (c i j) +
    (bf * ((f.b 1 (c i j) - f.b 1 (c (i - 1) j)) / P.d 0
      - (f.b 0 (c i j) - f.b 0 (c i (j - 1))) / P.d 1) - jf * f.j 2 (c i j)))
  f

/-- loop body of `update_bfield_2d` (maxwell/cpu.py 33-35) -/
def bBody2 (f : Fields 2) (u : Fin 2 → Nat) : Fields 2 :=
  let i : Int := u 0
  let j : Int := u 1
  let c := at2 nx ny ng
  let f := f.setB 0 (c i j) (f.b 0 (c i j) -
    dt * ((f.e 2 (c i (j + 1)) - f.e 2 (c i j)) / P.d 1))
  let f := f.setB 1 (c i j) (f.b 1 (c i j) -
    dt * (-(f.e 2 (c (i + 1) j) - f.e 2 (c i j)) / P.d 0))
  let f := f.setB 2 (c i j) (f.b 2 (c i j) -
    dt * ((f.e 1 (c (i + 1) j) - f.e 1 (c i j)) / P.d 0 - (f.e 0 (c i (j + 1)) - f.e 0 (c i j)) / P.d 1))
  f

/-- `update_efield_2d` (maxwell/cpu.py 8-22) -/
def updateE2 (f : Fields 2) : Fields 2 := (cells2 ![nx, ny]).foldl (eBody2 nx ny ng P dt) f

/-- `update_bfield_2d` (maxwell/cpu.py 24-35) -/
def updateB2 (f : Fields 2) : Fields 2 := (cells2 ![nx, ny]).foldl (bBody2 nx ny ng P dt) f
end TwoD

section ThreeD
variable (nx ny nz ng : Nat) (P : Par 3) (dt : ℚ)

/-- array element `[i, j, k]` -/
def at3 (i j k : Int) : Fin 3 → Int := index ![nx, ny, nz] ng ![i, j, k]

/-- loop body of `update_efield_3d` (maxwell/cpu.py 95-97) -/
def eBody3 (f : Fields 3) (u : Fin 3 → Nat) : Fields 3 :=
  let i : Int := u 0
  let j : Int := u 1
  let k : Int := u 2
  let c := at3 nx ny nz ng
  let bf := dt * P.c2
  let jf := dt / P.eps0
  let f := f.setE 0 (c i j k) (f.e 0 (c i j k) +
    (bf * ((f.b 2 (c i j k) - f.b 2 (c i (j - 1) k)) / P.d 1
      - (f.b 1 (c i j k) - f.b 1 (c i j (k - 1))) / P.d 2) - jf * f.j 0 (c i j k)))
  let f := f.setE 1 (c i j k) (f.e 1 (c i j k) +
    (bf * ((f.b 0 (c i j k) - f.b 0 (c i j (k - 1))) / P.d 2
      - (f.b 2 (c i j k) - f.b 2 (c (i - 1) j k)) / P.d 0) - jf * f.j 1 (c i j k)))
  let f := f.setE 2 (c i j k) (f.e 2 (c i j k) +
    (bf * ((f.b 1 (c i j k) - f.b 1 (c (i - 1) j k)) / P.d 0
      - (f.b 0 (c i j k) - f.b 0 (c i (j - 1) k)) / P.d 1) - jf * f.j 2 (c i j k)))
  f

/-- loop body of `update_bfield_3d` (maxwell/cpu.py 110-112) -/
def bBody3 (f : Fields 3) (u : Fin 3 → Nat) : Fields 3 :=
  let i : Int := u 0
  let j : Int := u 1
  let k : Int := u 2
  let c := at3 nx ny nz ng
  let f := f.setB 0 (c i j k) (f.b 0 (c i j k) -
    dt * ((f.e 2 (c i (j + 1) k) - f.e 2 (c i j k)) / P.d 1
      - (f.e 1 (c i j (k + 1)) - f.e 1 (c i j k)) / P.d 2))
  let f := f.setB 1 (c i j k) (f.b 1 (c i j k) -
    dt * ((f.e 0 (c i j (k + 1)) - f.e 0 (c i j k)) / P.d 2
      - (f.e 2 (c (i + 1) j k) - f.e 2 (c i j k)) / P.d 0))
  let f := f.setB 2 (c i j k) (f.b 2 (c i j k) -
    dt * ((f.e 1 (c (i + 1) j k) - f.e 1 (c i j k)) / P.d 0
      - (f.e 0 (c i (j + 1) k) - f.e 0 (c i j k)) / P.d 1))
  f

/-- `update_efield_3d` (maxwell/cpu.py 82-97) -/
def updateE3 (f : Fields 3) : Fields 3 := (cells3 ![nx, ny, nz]).foldl (eBody3 nx ny nz ng P dt) f

/-- `update_bfield_3d` (maxwell/cpu.py 100-112) -/
def updateB3 (f : Fields 3) : Fields 3 := (cells3 ![nx, ny, nz]).foldl (bBody3 nx ny nz ng P dt) f
end ThreeD

/-- the fields of all patches of the process -/
abbrev Dom (k : Nat) := Nat → Fields k

/-- the solver used by one process: the guard exchange and the two update kernels, which get the time
step as argument -/
structure Solver (k : Nat) (D : Type) where
  sync : Sync k D
  updE : ℚ → Fields k → Fields k
  updB : ℚ → Fields k → Fields k

/-- the 2D solver (maxwell/solver/solver.py `MaxwellSolver2D`) -/
def solver2 (nx ny ng npatches : Nat) (nbr : Nat → B2 → Option Nat) (P : Par 2) : Solver 2 B2 :=
  ⟨syncGuard2 nx ny ng npatches nbr, updateE2 nx ny ng P, updateB2 nx ny ng P⟩

/-- the 3D solver (maxwell/solver/solver.py `MaxwellSolver3D`) -/
def solver3 (nx ny nz ng npatches : Nat) (nbr : Nat → B3 → Option Nat) (P : Par 3) : Solver 3 B3 :=
  ⟨syncGuard3 nx ny nz ng npatches nbr, updateE3 nx ny nz ng P, updateB3 nx ny nz ng P⟩

section Steps
variable {k : Nat} {D : Type} (S : Solver k D)

/-- `patches.sync_guard_fields(['ex', 'ey', 'ez'])` under some thread schedule (simulation.py 950) -/
def Solver.SyncE (σ σ' : Dom k) : Prop :=
  (∀ c, S.sync.GuardRun (fun l => (σ l.1).e c l.2) (fun l => (σ' l.1).e c l.2)) ∧
  ∀ t, (σ' t).b = (σ t).b ∧ (σ' t).j = (σ t).j

/-- `patches.sync_guard_fields(['bx', 'by', 'bz'])` under some thread schedule (simulation.py 958) -/
def Solver.SyncB (σ σ' : Dom k) : Prop :=
  (∀ c, S.sync.GuardRun (fun l => (σ l.1).b c l.2) (fun l => (σ' l.1).b c l.2)) ∧
  ∀ t, (σ' t).e = (σ t).e ∧ (σ' t).j = (σ t).j

/-- `maxwell.update_efield(dt)`: every patch, patches are independent (maxwell/cpu.py 38-58) -/
def Solver.stepE (dt : ℚ) (σ : Dom k) : Dom k :=
  fun t => if t < S.sync.npatches then S.updE dt (σ t) else σ t

/-- `maxwell.update_bfield(dt)` (maxwell/cpu.py 60-80) -/
def Solver.stepB (dt : ℚ) (σ : Dom k) : Dom k :=
  fun t => if t < S.sync.npatches then S.updB dt (σ t) else σ t

/-- first field half of a step: E by `dt/2`, exchange, B by `dt/2`, exchange (simulation.py 945-960) -/
def Solver.Half1 (dt : ℚ) (σ σ' : Dom k) : Prop :=
  ∃ σ1, S.SyncE (S.stepE (1 / 2 * dt) σ) σ1 ∧ S.SyncB (S.stepB (1 / 2 * dt) σ1) σ'

/-- second field half: B by `dt/2`, exchange, E by `dt/2`, exchange (simulation.py 1097-1118), no laser -/
def Solver.Half2 (dt : ℚ) (σ σ' : Dom k) : Prop :=
  ∃ σ1, S.SyncB (S.stepB (1 / 2 * dt) σ) σ1 ∧ S.SyncE (S.stepE (1 / 2 * dt) σ1) σ'

/-- the particle part of a step changes the currents only (simulation.py 961-1096) -/
def Deposit (σ σ' : Dom k) : Prop := ∀ t, (σ' t).e = (σ t).e ∧ (σ' t).b = (σ t).b

/-- one time step of the fields -/
def Solver.Step (dt : ℚ) (σ σ' : Dom k) : Prop :=
  ∃ σ1 σ2, S.Half1 dt σ σ1 ∧ Deposit σ1 σ2 ∧ S.Half2 dt σ2 σ'
end Steps

end Verif.Maxwell
