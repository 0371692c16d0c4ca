import Verif.Model.WholeRun
import Verif.Model.CpmlRun
/-!
# A complete run with absorbing layers

The time step of `Verif.Model.WholeRun` on a domain whose axes are periodic or end in absorbing layers: the fields are
advanced by the solver with layers (`Verif.Model.CpmlRun`), the neighbour tables end at absorbing ends, and the particle
exchange uses patch bounds without the cells of the layers (`Patch.xmin` …, core/patch/patch.py 105-148), so that particles
that enter a layer are removed. In the order of `Simulation.run` (simulation/simulation.py 937-1118).

Simplifications: those of `Verif.Model.WholeRun` except that the domain need not be periodic; both ends of an axis carry
the same condition.
-/
namespace Verif.WholePml
open Verif.Maxwell Verif.SyncFields Verif.Pusher Verif.Deposit Verif.Geometry Verif.Neighbors Verif.MpiExchange
open Verif.WholeRun (Species Sys sys2 sys3 Sorted speciesLoop Currents Exchanged)
open Verif.Cpml (PConf PDom PSys axisBC pmlSys2 pmlSys3)
open Verif.PicStep (zeroAcc)

/-- the configuration of a run: that of the fields and layers, time step, and `1 / sqrt(.)` of the momentum update -/
structure LConf (k : Nat) extends PConf k where
  dt : ℚ
  rs : ℚ → ℚ

/-- what the particles see of it: sizes and constants -/
def LConf.conf {k : Nat} (C : LConf k) : WholeRun.Conf k :=
  ⟨C.np, C.n, C.ng, C.par.d, C.par.c2, C.par.eps0, C.dt, C.rs⟩

/-- axis `a` of the patch grid with its conditions and `cpml_thickness` (simulation.py 159-166, 218, 450-464, 482) -/
def LConf.axis {k : Nat} (C : LConf k) (a : Fin k) : Axis := ⟨C.np a, C.n a, C.par.d a, axisBC (C.pml a), C.thick⟩

/-- push, exchange of currents and exchange of particles in 2D: as on a periodic domain, with the table of neighbours and
the patch bounds of this domain. Of its solver only the sizes of the arrays are used. -/
def lsys2 (C : LConf 2) : Sys 2 B2 (A2 (Mom × EB)) :=
  { sys2 C.conf with
    solver := solver2 (C.n 0) (C.n 1) C.ng (createPatches2 (C.np 0) (C.np 1)).length C.nbr2 C.par
    guardLoc := (pmlSys2 C.toPConf).guardLoc
    guardMpi := (pmlSys2 C.toPConf).guardMpi
    curLoc := fun rk => syncCurrents2 (C.n 0) (C.n 1) C.ng (createPatches2 (C.np 0) (C.np 1)).length (localNbr rk C.nbr2)
    curMpi := fun rk => mpiCurrents2 (C.n 0) (C.n 1) C.ng (createPatches2 (C.np 0) (C.np 1)).length (remoteNbr rk C.nbr2)
    geo := simGeo2 (C.axis 0) (C.axis 1) (createPatches2 (C.np 0) (C.np 1)) (createPatches2 (C.np 0) (C.np 1)) }

/-- the same in 3D -/
def lsys3 (C : LConf 3) : Sys 3 B3 (A3 (Mom × EB)) :=
  { sys3 C.conf with
    solver := solver3 (C.n 0) (C.n 1) (C.n 2) C.ng (createPatches3 (C.np 0) (C.np 1) (C.np 2)).length C.nbr3 C.par
    guardLoc := (pmlSys3 C.toPConf).guardLoc
    guardMpi := (pmlSys3 C.toPConf).guardMpi
    curLoc := fun rk => syncCurrents3 (C.n 0) (C.n 1) (C.n 2) C.ng (createPatches3 (C.np 0) (C.np 1) (C.np 2)).length
      (localNbr rk C.nbr3)
    curMpi := fun rk => mpiCurrents3 (C.n 0) (C.n 1) (C.n 2) C.ng (createPatches3 (C.np 0) (C.np 1) (C.np 2)).length
      (remoteNbr rk C.nbr3)
    geo := simGeo3 (C.axis 0) (C.axis 1) (C.axis 2) (createPatches3 (C.np 0) (C.np 1) (C.np 2))
      (createPatches3 (C.np 0) (C.np 1) (C.np 2)) }

/-- the state between two time steps: fields and layers of all patches, and for every species the particle slots of all
patches -/
structure LSt (k : Nat) where
  dom : PDom k
  parts : List (Species × (Nat → List (Slot k)))

section Gen
variable {k : Nat} {D A : Type} [DecidableEq D] (Y : Sys k D A) (P : PSys k D)

/-- one time step (simulation.py 937-1118); `rk` is the rank layout at its beginning, `rk'` the one the balancer leaves
(1082-1088) -/
def LStep (rk rk' : Nat → Nat) (x x' : LSt k) : Prop :=
  ∃ x1 x2 mid x3 parts1,
    P.SyncE rk (P.stepE (1 / 2 * Y.dt) x.dom) x1 ∧
    P.SyncB rk (P.stepB (1 / 2 * Y.dt) x1) x2 ∧
    Sorted x.parts parts1 ∧
    Currents Y rk (speciesLoop Y x2.fld parts1 fun _ => zeroAcc).2 x2.fld mid.fld ∧ mid.lay = x2.lay ∧
    List.Forall₂ (Exchanged Y rk) (speciesLoop Y x2.fld parts1 fun _ => zeroAcc).1 x'.parts ∧
    P.SyncB rk' (P.stepB (1 / 2 * Y.dt) mid) x3 ∧
    P.SyncE rk' (P.stepE (1 / 2 * Y.dt) x3) x'.dom

/-- a run: `rk i` is the rank layout at the beginning of step `i` -/
def LRun (rk : Nat → Nat → Nat) (x : Nat → LSt k) : Prop := ∀ i, LStep Y P (rk i) (rk (i + 1)) (x i) (x (i + 1))
end Gen

/-- a run of the 2D program -/
def LRun2 (C : LConf 2) : (Nat → Nat → Nat) → (Nat → LSt 2) → Prop := LRun (lsys2 C) (pmlSys2 C.toPConf)
/-- a run of the 3D program -/
def LRun3 (C : LConf 3) : (Nat → Nat → Nat) → (Nat → LSt 3) → Prop := LRun (lsys3 C) (pmlSys3 C.toPConf)

end Verif.WholePml
