import Verif.Model.Pusher
import Verif.Model.PicStep
import Verif.Model.MpiFields
import Verif.Model.MpiExchange
import Verif.Model.Geometry
import Verif.Model.Neighbors
/-!
# A complete run: fields, particles and all exchanges

Puts the models of the field solver, the exchanges of fields and currents inside and between ranks, the sorter, the
push of all species (either path), the deposition, the particle exchange inside and between ranks and the load
balancer together, in the order of `Simulation.run` (simulation/simulation.py 937-1118).

Nothing is fixed that the program leaves open: every exchange runs under any schedule, the sorter may leave the slots
of a patch in any order, patches may be processed in any order, and ranks may hold any patches, which the balancer may
change in every step.

Simplifications: domain periodic in all directions; every species enabled; no collisions, no radiation or pair
production, no lasers, absorbing layers or moving window, no callbacks; exact arithmetic; every `+=` of the current
exchange is one indivisible statement (that this is not so for the wait loop of the exchange between ranks is the
defect of C07); patches are numbered over all ranks.
-/
namespace Verif.WholeRun
open Verif.Maxwell Verif.SyncFields Verif.Pusher Verif.Deposit Verif.Geometry Verif.Neighbors Verif.MpiExchange
open Verif.PicStep (field zeroAcc)

/-- charge and mass of a species (`Species.q`, `Species.m`, core/species.py) -/
structure Kind where
  q : ℚ
  m : ℚ

/-- a species with the path its push takes (`use_unified_pusher`, simulation.py 904-910) -/
structure Species extends Kind where
  unified : Bool

/-- the configuration of a run: patches per axis, cells per patch and axis, guard cells, cell sizes, `c²`, `ε₀`, time
step, and `1 / sqrt(.)` of the momentum update -/
structure Conf (k : Nat) where
  np : Fin k → Nat
  n : Fin k → Nat
  ng : Nat
  d : Fin k → ℚ
  c2 : ℚ
  eps0 : ℚ
  dt : ℚ
  rs : ℚ → ℚ

/-- what a dimension supplies: the solver on the table of all neighbours, the exchanges for a rank layout, the push,
the patch origins, and the particle exchange on the attribute vectors `A` -/
structure Sys (k : Nat) (D A : Type) where
  npatches : Nat
  solver : Solver k D
  guardLoc : (Nat → Nat) → Sync k D
  guardMpi : (Nat → Nat) → Mpi k D
  curLoc : (Nat → Nat) → Sync k D
  curMpi : (Nat → Nat) → Mpi k D
  push : Species → List (PatchSt k) → List (PatchSt k)
  origin : Nat → Fin k → ℚ
  geo : A → Exchange.Geo A D
  pack : Slot k → Exchange.Slot A
  unpack : Exchange.Slot A → Slot k
  dt : ℚ

/-- the state between two time steps: the field arrays of all patches, and for every species the particle slots of all
patches -/
structure St (k : Nat) where
  fld : Dom k
  parts : List (Species × (Nat → List (Slot k)))

section Gen
variable {k : Nat} {D A : Type} [DecidableEq D] (Y : Sys k D A)

/-- exchange of the guard cells of `ex, ey, ez` on all ranks (simulation.py 947-952, 1112-1117) -/
def GuardE (rk : Nat → Nat) (σ σ' : Dom k) : Prop :=
  (∀ c, GuardExchange (Y.guardLoc rk) (Y.guardMpi rk) (fun l => (σ l.1).e c l.2) fun l => (σ' l.1).e c l.2) ∧
  ∀ t, (σ' t).b = (σ t).b ∧ (σ' t).j = (σ t).j

/-- exchange of the guard cells of `bx, by, bz` on all ranks (simulation.py 955-960, 1103-1108) -/
def GuardB (rk : Nat → Nat) (σ σ' : Dom k) : Prop :=
  (∀ c, GuardExchange (Y.guardLoc rk) (Y.guardMpi rk) (fun l => (σ l.1).b c l.2) fun l => (σ' l.1).b c l.2) ∧
  ∀ t, (σ' t).e = (σ t).e ∧ (σ' t).j = (σ t).j

/-- the sorters of all species (simulation.py 966-972): the slots of each patch, reordered. That the sorter does
nothing else is C25; which order it chooses depends on its bucket arithmetic and is left open here. -/
def Sorted (a b : List (Species × (Nat → List (Slot k)))) : Prop :=
  List.Forall₂ (fun x y => y.1 = x.1 ∧ ∀ t, (y.2 t).Perm (x.2 t)) a b

/-- the patches as the push of one species gets them (simulation.py 988-1034, core/pusher/pusher.py 101-137) -/
def gather (σ : Dom k) (ps : Nat → List (Slot k)) (acc : Nat → Acc k) : List (PatchSt k) :=
  (List.range Y.npatches).map fun t => ⟨ps t, σ t, acc t, Y.origin t⟩

/-- the species loop (simulation.py 983-1041): push and deposit species by species; the current arrays accumulate -/
def speciesLoop (σ : Dom k) : List (Species × (Nat → List (Slot k))) → (Nat → Acc k) →
    List (Species × (Nat → List (Slot k))) × (Nat → Acc k)
  | [], acc => ([], acc)
  | (sp, ps) :: rest, acc =>
    let Ps := Y.push sp (gather Y σ ps acc)
    let ps' : Nat → List (Slot k) := fun t => (Ps[t]?.map PatchSt.parts).getD (ps t)
    let acc' : Nat → Acc k := fun t => (Ps[t]?.map PatchSt.acc).getD (acc t)
    let r := speciesLoop σ rest acc'
    ((sp, ps') :: r.1, r.2)

/-- `sync_currents_start` … `sync_currents_wait` on all ranks for `jx, jy, jz` (simulation.py 1043, 1080, 1143-1188);
`rho` is exchanged the same way and is not read by the step -/
def Currents (rk : Nat → Nat) (acc : Nat → Acc k) (σ σ' : Dom k) : Prop :=
  (∀ t, (σ' t).e = (σ t).e ∧ (σ' t).b = (σ t).b) ∧
  ∀ c : Fin 3, CurrentExchange (Y.curLoc rk) (Y.curMpi rk) (fun l => field (acc l.1) c.castSucc l.2)
    fun l => (σ' l.1).j c l.2

/-- the particle exchange of one species between and inside ranks (simulation.py 1066-1077): patches in any order,
appended slots with any attribute values, no undefined behaviour -/
def Exchanged (rk : Nat → Nat) (x y : Species × (Nat → List (Slot k))) : Prop :=
  y.1 = x.1 ∧ ∃ ord2 ord3 blank s', ord2.Perm (List.range Y.npatches) ∧ ord3.Perm (List.range Y.npatches) ∧
    parSync (Y.geo blank) rk ord2 ord3 (fun t => (x.2 t).map Y.pack) = some s' ∧
    ∀ t, y.2 t = (s' t).map Y.unpack

/-- One time step (simulation.py 937-1118). `rk` is the rank layout at its beginning; the balancer may replace it by
`rk'` (1082-1088), which carries the arrays of a patch unchanged to its new rank (C28), so that in global numbering
only the exchanges that follow notice. The current arrays are reset before the species loop (980-981). -/
def Step (rk rk' : Nat → Nat) (x x' : St k) : Prop :=
  ∃ σ1 σ2 σ3 σ4 parts1,
    GuardE Y rk (Y.solver.stepE (1 / 2 * Y.dt) x.fld) σ1 ∧
    GuardB Y rk (Y.solver.stepB (1 / 2 * Y.dt) σ1) σ2 ∧
    Sorted x.parts parts1 ∧
    Currents Y rk (speciesLoop Y σ2 parts1 fun _ => zeroAcc).2 σ2 σ3 ∧
    List.Forall₂ (Exchanged Y rk) (speciesLoop Y σ2 parts1 fun _ => zeroAcc).1 x'.parts ∧
    GuardB Y rk' (Y.solver.stepB (1 / 2 * Y.dt) σ3) σ4 ∧
    GuardE Y rk' (Y.solver.stepE (1 / 2 * Y.dt) σ4) x'.fld

/-- a run: `rk i` is the rank layout at the beginning of step `i` -/
def Run (rk : Nat → Nat → Nat) (x : Nat → St k) : Prop := ∀ i, Step Y (rk i) (rk (i + 1)) (x i) (x (i + 1))
end Gen

/-! ## the two dimensions -/

/-- periodic at both ends -/
abbrev perBC : AxisBC := ⟨.periodic, .periodic⟩

/-- axis `a` of the patch grid (simulation.py 218, 482) -/
def Conf.axis {k : Nat} (C : Conf k) (a : Fin k) : Axis := ⟨C.np a, C.n a, C.d a, perBC, 0⟩

/-- what the push of one species reads (pusher/pusher.py 60-95): the arrays have `n + 2 ng` cells per axis -/
def Conf.runPar {k : Nat} (C : Conf k) (sp : Species) : RunPar k :=
  ⟨fun a => C.n a + 2 * C.ng, C.d, sp.q, sp.m, C.dt⟩

/-- constants of the solver -/
def Conf.par {k : Nat} (C : Conf k) : Par k := ⟨C.d, C.c2, C.eps0⟩

/-- the table of all neighbours (patch.py 594-667) of the patches in the order of `create_patches`
(simulation.py 472-500, 1380-1420) -/
def Conf.nbr2 (C : Conf 2) : Nat → B2 → Option Nat :=
  neighborIpatch2 (C.np 0) (C.np 1) perBC perBC (createPatches2 (C.np 0) (C.np 1)) (createPatches2 (C.np 0) (C.np 1))

/-- the same in 3D -/
def Conf.nbr3 (C : Conf 3) : Nat → B3 → Option Nat :=
  neighborIpatch3 (C.np 0) (C.np 1) (C.np 2) perBC perBC perBC (createPatches3 (C.np 0) (C.np 1) (C.np 2))
    (createPatches3 (C.np 0) (C.np 1) (C.np 2))

/-- place of patch `t` in the patch grid -/
def Conf.coord2 (C : Conf 2) (t : Nat) : Fin 2 → Nat :=
  match (createPatches2 (C.np 0) (C.np 1))[t]? with | some p => ![p.ix, p.iy] | none => ![0, 0]
/-- the same in 3D -/
def Conf.coord3 (C : Conf 3) (t : Nat) : Fin 3 → Nat :=
  match (createPatches3 (C.np 0) (C.np 1) (C.np 2))[t]? with | some p => ![p.ix, p.iy, p.iz] | none => ![0, 0, 0]

/-- the 2D simulation (simulation/simulation.py `Simulation`); a particle's attributes are `x`, `y` and the rest:
momentum, weight and interpolated fields (core/particles.py 63-69); its identity `_id` is not modelled here -/
def sys2 (C : Conf 2) : Sys 2 B2 (A2 (Mom × EB)) where
  npatches := (createPatches2 (C.np 0) (C.np 1)).length
  solver := solver2 (C.n 0) (C.n 1) C.ng (createPatches2 (C.np 0) (C.np 1)).length C.nbr2 C.par
  guardLoc := fun rk => syncGuard2 (C.n 0) (C.n 1) C.ng (createPatches2 (C.np 0) (C.np 1)).length (localNbr rk C.nbr2)
  guardMpi := fun rk => mpiGuard2 (C.n 0) (C.n 1) C.ng (createPatches2 (C.np 0) (C.np 1)).length (remoteNbr rk C.nbr2)
  curLoc := fun rk => syncCurrents2 (C.n 0) (C.n 1) C.ng (createPatches2 (C.np 0) (C.np 1)).length (localNbr rk C.nbr2)
  curMpi := fun rk => mpiCurrents2 (C.n 0) (C.n 1) C.ng (createPatches2 (C.np 0) (C.np 1)).length (remoteNbr rk C.nbr2)
  push := fun sp => pushSpecies2 sp.unified C.rs (C.runPar sp)
  origin := fun t a => (C.axis a).x0 (C.coord2 t a)
  geo := simGeo2 (C.axis 0) (C.axis 1) (createPatches2 (C.np 0) (C.np 1)) (createPatches2 (C.np 0) (C.np 1))
  pack := fun s => ⟨⟨s.pos 0, s.pos 1, (s.mom, s.eb)⟩, s.dead⟩
  unpack := fun s => ⟨![s.a.x, s.a.y], s.a.rest.1, s.a.rest.2, s.dead⟩
  dt := C.dt

/-- the 3D simulation (simulation/simulation.py `Simulation3D`) -/
def sys3 (C : Conf 3) : Sys 3 B3 (A3 (Mom × EB)) where
  npatches := (createPatches3 (C.np 0) (C.np 1) (C.np 2)).length
  solver := solver3 (C.n 0) (C.n 1) (C.n 2) C.ng (createPatches3 (C.np 0) (C.np 1) (C.np 2)).length C.nbr3 C.par
  guardLoc := fun rk => syncGuard3 (C.n 0) (C.n 1) (C.n 2) C.ng (createPatches3 (C.np 0) (C.np 1) (C.np 2)).length
    (localNbr rk C.nbr3)
  guardMpi := fun rk => mpiGuard3 (C.n 0) (C.n 1) (C.n 2) C.ng (createPatches3 (C.np 0) (C.np 1) (C.np 2)).length
    (remoteNbr rk C.nbr3)
  curLoc := fun rk => syncCurrents3 (C.n 0) (C.n 1) (C.n 2) C.ng (createPatches3 (C.np 0) (C.np 1) (C.np 2)).length
    (localNbr rk C.nbr3)
  curMpi := fun rk => mpiCurrents3 (C.n 0) (C.n 1) (C.n 2) C.ng (createPatches3 (C.np 0) (C.np 1) (C.np 2)).length
    (remoteNbr rk C.nbr3)
  push := fun sp => pushSpecies3 sp.unified C.rs (C.runPar sp)
  origin := fun t a => (C.axis a).x0 (C.coord3 t a)
  geo := simGeo3 (C.axis 0) (C.axis 1) (C.axis 2) (createPatches3 (C.np 0) (C.np 1) (C.np 2))
    (createPatches3 (C.np 0) (C.np 1) (C.np 2))
  pack := fun s => ⟨⟨s.pos 0, s.pos 1, s.pos 2, (s.mom, s.eb)⟩, s.dead⟩
  unpack := fun s => ⟨![s.a.x, s.a.y, s.a.z], s.a.rest.1, s.a.rest.2, s.dead⟩
  dt := C.dt

end Verif.WholeRun
