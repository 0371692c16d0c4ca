import Verif.Model.WholeRun
/-!
# Enabling and disabling

`EnableMixin` (core/utils/enable_mixin.py), the check of the flag of every species in `Simulation.run`, and the flags of
the pusher and of the current depositor on the two paths of the push.
-/
namespace Verif.Enable
open Verif.Maxwell Verif.SyncFields Verif.Pusher Verif.Deposit Verif.WholeRun
open Verif.PicStep (zeroAcc)

/-- the attribute `_enabled` (core/utils/enable_mixin.py 4-14), absent at first -/
abbrev Flag := Option Bool

/-- calls a user can make (core/utils/enable_mixin.py 5-14) -/
inductive Call
  | enable
  | disable
  | isEnabled

/-- `is_enabled` (core/utils/enable_mixin.py 11-14): its value; it stores `True` if the attribute is absent -/
def isEnabled (f : Flag) : Bool × Flag := (f.getD true, some (f.getD true))

/-- one call (core/utils/enable_mixin.py 5-14) -/
def call (f : Flag) : Call → Flag
  | .enable => some true
  | .disable => some false
  | .isEnabled => (isEnabled f).2

/-- `if_enabled` (core/utils/enable_mixin.py 31-39): the method, or nothing -/
def ifEnabled {α : Type} (f : Flag) (m : α → α) (a : α) : α := if (isEnabled f).1 then m a else a

/-- the species loop of a step in which species `i` is enabled if `on i` (simulation/simulation.py 983-986): a disabled
species is skipped -/
def speciesLoopOn {k : Nat} {D A : Type} (Y : Sys k D A) (σ : Dom k) : (Nat → Bool) → List (Species × (Nat → List (Slot k))) →
    (Nat → Acc k) → List (Species × (Nat → List (Slot k))) × (Nat → Acc k)
  | _, [], acc => ([], acc)
  | on, (sp, ps) :: rest, acc =>
    if on 0 then
      let Ps := Y.push sp (gather Y σ ps acc)
      let ps' : Nat → List (Slot k) := fun t => (Ps[t]?.map PatchSt.parts).getD (ps t)
      let acc' : Nat → Acc k := fun t => (Ps[t]?.map PatchSt.acc).getD (acc t)
      let r := speciesLoopOn Y σ (fun i => on (i + 1)) rest acc'
      ((sp, ps') :: r.1, r.2)
    else
      let r := speciesLoopOn Y σ (fun i => on (i + 1)) rest acc
      ((sp, ps) :: r.1, r.2)

section
variable {k : Nat} {D A : Type} [DecidableEq D] (Y : Sys k D A)

/-- One time step (simulation.py 937-1118) with the species `on` enabled. Differs from `WholeRun.Step` in the species loop
only: the sorters skip disabled species too (966-972), which is one of the orders `Sorted` allows, and the particle
exchange takes all species (1066-1077). -/
def FlagStep (on : Nat → Bool) (rk rk' : Nat → Nat) (x x' : St k) : Prop :=
  ∃ σ1 σ2 σ3 σ4 parts1,
    GuardE Y rk (Y.solver.stepE (1 / 2 * Y.dt) x.fld) σ1 ∧
    GuardB Y rk (Y.solver.stepB (1 / 2 * Y.dt) σ1) σ2 ∧
    Sorted x.parts parts1 ∧
    Currents Y rk (speciesLoopOn Y σ2 on parts1 fun _ => zeroAcc).2 σ2 σ3 ∧
    List.Forall₂ (Exchanged Y rk) (speciesLoopOn Y σ2 on parts1 fun _ => zeroAcc).1 x'.parts ∧
    GuardB Y rk' (Y.solver.stepB (1 / 2 * Y.dt) σ3) σ4 ∧
    GuardE Y rk' (Y.solver.stepE (1 / 2 * Y.dt) σ4) x'.fld

/-- a run in which callbacks enable and disable species between the steps: `on i s` tells whether species `s` is enabled
in step `i` (simulation/simulation.py 937-1118). Simplification: all ranks set the same flags. -/
def FlagRun (on : Nat → Nat → Bool) (rk : Nat → Nat → Nat) (x : Nat → St k) : Prop :=
  ∀ i, FlagStep Y (on i) (rk i) (rk (i + 1)) (x i) (x (i + 1))
end

/-- the flags of the pusher of a species, of the field interpolator and of the current depositor -/
structure Flags where
  pusher : Flag
  interp : Flag
  depositor : Flag

/-- the split sequence (simulation/simulation.py 991-1031) with the flags: `push_position` and `__call__` of the pusher,
and `__call__` of the interpolator and of the depositor are `if_enabled` (pusher/pusher.py 102-117,
interpolation/field_interpolation.py 149, 173, current/deposition.py 159, 191) -/
def splitFlags {k : Nat} (f : Flags) (kern : PatchSt k → Kern k) (rs : ℚ → ℚ) (R : RunPar k) (Ps : List (PatchSt k)) :
    List (PatchSt k) :=
  let Ps := ifEnabled f.pusher (fun Ps => Ps.map fun P => { P with parts := splitPush (1 / 2 * R.dt) P.parts }) Ps
  let Ps := ifEnabled f.interp (fun Ps => Ps.map fun P => { P with parts := splitInterp (kern P) P.parts }) Ps
  let Ps := ifEnabled f.pusher (fun Ps => Ps.map fun P =>
    { P with parts := splitBoris (borisPy rs lightSpeed R.q R.m R.dt) P.parts }) Ps
  let Ps := ifEnabled f.pusher (fun Ps => Ps.map fun P => { P with parts := splitPush (1 / 2 * R.dt) P.parts }) Ps
  ifEnabled f.depositor (fun Ps => Ps.map fun P => { P with acc := splitDeposit (kern P) P.parts P.acc }) Ps

/-- the push of a species in 2D with the flags: the unified pusher interpolates and deposits itself and asks neither the
interpolator nor the depositor (simulation/simulation.py 988-991, pusher/pusher.py 117-127) -/
def pushFlags2 (f : Flags) (useUnified : Bool) (rs : ℚ → ℚ) (R : RunPar 2) (Ps : List (PatchSt 2)) : List (PatchSt 2) :=
  if useUnified then ifEnabled f.pusher (unified2 rs R) Ps
  else splitFlags f (fun P => kern2S (R.grid P 0) (R.grid P 1) P.fields R.q R.dt) rs R Ps

end Verif.Enable
