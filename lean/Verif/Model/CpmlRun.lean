import Verif.Model.Cpml
import Verif.Model.MpiFields
import Verif.Model.Neighbors
/-!
# Runs with absorbing layers

The field part of a time step of a whole simulation whose axes are periodic or end in absorbing layers: solver with layers on every patch, guard
exchange between the patches of a rank and between ranks. Models `src/lambdapic/simulation/simulation.py` 945-960 and 1097-1118 (the field halves of
a step), 450-464 and 1348-1367 (`_init_pml`), with the solver of `Verif.Model.Cpml` and the exchanges of `Verif.Model.SyncFields` and
`Verif.Model.MpiFields`. Simplifications: both ends of an axis carry the same condition; the particle part of a step enters through the currents it
leaves; lasers are left out. A patch that moves to another rank takes its layers along (it is pickled as a whole, core/mpi/load_balancer.py 207-222),
so patches are named by their number in the grid and the rank layout only decides how the exchange is done.
-/
namespace Verif.Cpml
open SyncFields Maxwell Neighbors

/-- the condition at both ends of an axis: absorbing or periodic (simulation.py 159-166 `boundary_conditions`) -/
def axisBC (pml : Bool) : AxisBC := if pml then ⟨.pml, .pml⟩ else ⟨.periodic, .periodic⟩

/-- the fields and the layers of all patches -/
structure PDom (k : Nat) where
  fld : Dom k
  lay : Nat → List (Layer k)

/-- a simulation with layers: number of patches, the exchanges for a rank layout, and the solver on one patch -/
structure PSys (k : Nat) (D : Type) where
  npatches : Nat
  guardLoc : (Nat → Nat) → Sync k D
  guardMpi : (Nat → Nat) → Mpi k D
  solveE : ℚ → List (Layer k) → Fields k → Fields k × List (Layer k)
  solveB : ℚ → List (Layer k) → Fields k → Fields k × List (Layer k)

section
variable {k : Nat} {D : Type} (Y : PSys k D)

/-- `maxwell.update_efield(dt)` on all patches (solver.py 135-166, 201-227) -/
def PSys.stepE (dt : ℚ) (x : PDom k) : PDom k where
  fld := fun t => if t < Y.npatches then (Y.solveE dt (x.lay t) (x.fld t)).1 else x.fld t
  lay := fun t => if t < Y.npatches then (Y.solveE dt (x.lay t) (x.fld t)).2 else x.lay t

/-- `maxwell.update_bfield(dt)` on all patches (solver.py 169-190, 229-253) -/
def PSys.stepB (dt : ℚ) (x : PDom k) : PDom k where
  fld := fun t => if t < Y.npatches then (Y.solveB dt (x.lay t) (x.fld t)).1 else x.fld t
  lay := fun t => if t < Y.npatches then (Y.solveB dt (x.lay t) (x.fld t)).2 else x.lay t

/-- guard exchange of `ex, ey, ez` on all ranks (simulation.py 947-952, 1112-1117) -/
def PSys.SyncE (rk : Nat → Nat) (x x' : PDom k) : Prop :=
  (∀ c, GuardExchange (Y.guardLoc rk) (Y.guardMpi rk) (fun l => (x.fld l.1).e c l.2) fun l => (x'.fld l.1).e c l.2) ∧
  (∀ t, (x'.fld t).b = (x.fld t).b ∧ (x'.fld t).j = (x.fld t).j) ∧ x'.lay = x.lay

/-- guard exchange of `bx, by, bz` on all ranks (simulation.py 955-960, 1103-1108) -/
def PSys.SyncB (rk : Nat → Nat) (x x' : PDom k) : Prop :=
  (∀ c, GuardExchange (Y.guardLoc rk) (Y.guardMpi rk) (fun l => (x.fld l.1).b c l.2) fun l => (x'.fld l.1).b c l.2) ∧
  (∀ t, (x'.fld t).e = (x.fld t).e ∧ (x'.fld t).j = (x.fld t).j) ∧ x'.lay = x.lay

/-- the particle part of a step leaves currents, and neither fields nor layers (simulation.py 961-1096) -/
def PDom.SetsJ (x x' : PDom k) : Prop := (∀ t, (x'.fld t).e = (x.fld t).e ∧ (x'.fld t).b = (x.fld t).b) ∧ x'.lay = x.lay

/-- one time step that leaves the state `mid` after the particle part; the layout of the ranks may change in between (simulation.py 945-1118) -/
def PSys.Step (rk rk' : Nat → Nat) (dt : ℚ) (x mid x' : PDom k) : Prop :=
  ∃ x1 x2 x3, Y.SyncE rk (Y.stepE (1 / 2 * dt) x) x1 ∧ Y.SyncB rk (Y.stepB (1 / 2 * dt) x1) x2 ∧ x2.SetsJ mid ∧
    Y.SyncB rk' (Y.stepB (1 / 2 * dt) mid) x3 ∧ Y.SyncE rk' (Y.stepE (1 / 2 * dt) x3) x'
end

/-- what a run is set up with: patches per axis, cells per patch and axis, guard cells, which axes end in absorbing layers, `cpml_thickness`,
`sigma_maxval`, cell sizes and constants, and `exp` -/
structure PConf (k : Nat) where
  np : Fin k → Nat
  n : Fin k → Nat
  ng : Nat
  pml : Fin k → Bool
  thick : Nat
  smax : ℚ
  par : Par k
  ex : ℚ → ℚ

/-- the table of all neighbours in 2D (patch.py 594-667) -/
def PConf.nbr2 (C : PConf 2) : Nat → B2 → Option Nat :=
  neighborIpatch2 (C.np 0) (C.np 1) (axisBC (C.pml 0)) (axisBC (C.pml 1)) (createPatches2 (C.np 0) (C.np 1)) (createPatches2 (C.np 0) (C.np 1))

/-- the table of all neighbours in 3D -/
def PConf.nbr3 (C : PConf 3) : Nat → B3 → Option Nat :=
  neighborIpatch3 (C.np 0) (C.np 1) (C.np 2) (axisBC (C.pml 0)) (axisBC (C.pml 1)) (axisBC (C.pml 2))
    (createPatches3 (C.np 0) (C.np 1) (C.np 2)) (createPatches3 (C.np 0) (C.np 1) (C.np 2))

/-- place of patch `t` in the 2D patch grid (`ipatch_x`, `ipatch_y`) -/
def PConf.coord2 (C : PConf 2) (t : Nat) : Fin 2 → Nat :=
  match (createPatches2 (C.np 0) (C.np 1))[t]? with | some p => ![p.ix, p.iy] | none => ![0, 0]
/-- place of patch `t` in the 3D patch grid -/
def PConf.coord3 (C : PConf 3) (t : Nat) : Fin 3 → Nat :=
  match (createPatches3 (C.np 0) (C.np 1) (C.np 2))[t]? with | some p => ![p.ix, p.iy, p.iz] | none => ![0, 0, 0]

/-- the 2D simulation with layers -/
def pmlSys2 (C : PConf 2) : PSys 2 B2 where
  npatches := (createPatches2 (C.np 0) (C.np 1)).length
  guardLoc := fun rk => syncGuard2 (C.n 0) (C.n 1) C.ng (createPatches2 (C.np 0) (C.np 1)).length (localNbr rk C.nbr2)
  guardMpi := fun rk => mpiGuard2 (C.n 0) (C.n 1) C.ng (createPatches2 (C.np 0) (C.np 1)).length (remoteNbr rk C.nbr2)
  solveE := fun dt => solverE2 (C.n 0) (C.n 1) C.ng C.par dt C.ex
  solveB := fun dt => solverB2 (C.n 0) (C.n 1) C.ng C.par dt C.ex

/-- the 3D simulation with layers -/
def pmlSys3 (C : PConf 3) : PSys 3 B3 where
  npatches := (createPatches3 (C.np 0) (C.np 1) (C.np 2)).length
  guardLoc := fun rk => syncGuard3 (C.n 0) (C.n 1) (C.n 2) C.ng (createPatches3 (C.np 0) (C.np 1) (C.np 2)).length (localNbr rk C.nbr3)
  guardMpi := fun rk => mpiGuard3 (C.n 0) (C.n 1) (C.n 2) C.ng (createPatches3 (C.np 0) (C.np 1) (C.np 2)).length (remoteNbr rk C.nbr3)
  solveE := fun dt => solverE3 (C.n 0) (C.n 1) (C.n 2) C.ng C.par dt C.ex
  solveB := fun dt => solverB3 (C.n 0) (C.n 1) (C.n 2) C.ng C.par dt C.ex

/-- the layers after `_init_pml` in 2D (simulation.py 450-464); no patch may have failed -/
def Inits2 (C : PConf 2) (lay : Nat → List (Layer 2)) : Prop :=
  ∀ t, t < (pmlSys2 C).npatches → initPml2 C.np C.n (C.coord2 t) (fun a _ => C.pml a) C.thick C.smax = some (lay t)

/-- the layers after `_init_pml` in 3D (simulation.py 1348-1367) -/
def Inits3 (C : PConf 3) (lay : Nat → List (Layer 3)) : Prop :=
  ∀ t, t < (pmlSys3 C).npatches → initPml3 C.np C.n (C.coord3 t) (fun a _ => C.pml a) C.thick C.smax = some (lay t)

end Verif.Cpml
