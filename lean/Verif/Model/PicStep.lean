import Verif.Model.Deposit
import Verif.Model.SyncFields
/-!
# One complete step of a periodic domain

Puts together the models of the field solver, the current deposition and the current exchange in the order of
`Simulation.run` (simulation/simulation.py 940-1118). Simplifications: all patches on one process; no laser and no
absorbing layer; no callbacks; every species uses the split pusher, and its particle part (push, collisions, QED,
exchange between patches) is described by the particles each patch holds when it deposits.
-/
namespace Verif.PicStep
open Verif.Deposit Verif.Maxwell Verif.SyncFields

/-- one axis of the arrays of patch number `c` (simulation.py 482-483, 1397: `x0 = i * Lx / npatch_x`, which is
`i * nx * dx` for `Lx = npatch_x * nx * dx`; the arrays have `ng` guard cells on both sides, core/fields.py 99) -/
def patchAxis (n ng : Nat) (d : ℚ) (c : Nat) : Grid1 := ⟨n + 2 * ng, d, c * n * d⟩

/-- arrays of zeros (`current_depositor.reset`, simulation.py 980-981; `reset_current_2d`, current/cpu2d.c 9-15, 65-68; 3D current/cpu3d.c 8-15, 233-236) -/
def zeroAcc {k : Nat} : Acc k := ⟨fun _ => 0, fun _ => 0, fun _ => 0, fun _ => 0⟩

/-- the deposition of all species of one patch, in order, from zero (simulation.py 980-1041); a species is its charge
and its particle slots -/
def depositAll2 (gx gy : Grid1) (dt : ℚ) (sp : List (ℚ × List Part2)) : Acc 2 :=
  sp.foldl (fun acc s => depositPatch2 gx gy dt s.1 s.2 acc) zeroAcc

/-- the same in 3D -/
def depositAll3 (gx gy gz : Grid1) (dt : ℚ) (sp : List (ℚ × List Part3)) : Acc 3 :=
  sp.foldl (fun acc s => depositPatch3 gx gy gz dt s.1 s.2 acc) zeroAcc

/-- the arrays `jx`, `jy`, `jz`, `rho` by number, as in `sync_currents_2d` (core/patch/sync_fields2d.c 64-73) -/
def field {k : Nat} (a : Acc k) : Fin 4 → Arr k := ![a.jx, a.jy, a.jz, a.rho]

/-- the particle part of a step as far as the fields are concerned: the arrays of every patch are those deposited by
its particles, then `sync_currents` folds the guard cells under some thread schedule (simulation.py 980-1043,
1164-1165); `rho` after the step is the fourth array -/
def Currents {k : Nat} {D : Type} (s : Sync k D) (dep : Nat → Acc k) (rho : Nat → Arr k) (σ σ' : Dom k) : Prop :=
  (∀ t, (σ' t).e = (σ t).e ∧ (σ' t).b = (σ t).b) ∧
  (∀ d : Fin 3, s.CurrentRun (fun l => field (dep l.1) d.castSucc l.2) fun l => (σ' l.1).j d l.2) ∧
  s.CurrentRun (fun l => field (dep l.1) 3 l.2) fun l => rho l.1 l.2

/-- one complete step: half a step of the fields, deposition and current exchange, half a step of the fields
(simulation.py 940-1118) -/
def Step {k : Nat} {D : Type} (S : Solver k D) (s : Sync k D) (dt : ℚ) (dep : Nat → Acc k) (rho : Nat → Arr k)
    (σ σ' : Dom k) : Prop :=
  ∃ σ1 σ2, S.Half1 dt σ σ1 ∧ Currents s dep rho σ1 σ2 ∧ S.Half2 dt σ2 σ'

end Verif.PicStep
