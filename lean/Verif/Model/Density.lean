import Verif.Model.CurrentSync
/-!
# Output of the density of one species

Models `SaveSpeciesDensityToHDF5._call`, `_extract_prev_rho`, `_compute_density` (callback/hdf5.py 451-560) as a state machine over the
events of a run, and the way `ExtractSpeciesDensity` receives a slice from another rank (callback/utils.py 323-340, 413-429).

Simplifications: densities are kept for all cells (slicing is `Verif/Model/Output.lean`); the interval does not depend on the species
(an integer or a time, see `Verif.RunLoop.Interval`).
-/
namespace Verif.SyncFields
open Verif.RunLoop (Op Ev Stage)

variable {k : Nat}

/-- `prev_rho` and the densities written so far, with their step -/
structure DensSt (k : Nat) where
  prev : Option (Loc k → ℚ)
  out : List (Nat × (Loc k → ℚ))

/-- `_call` while `sim.ispec = i`, with `rho` the charge density after `sim.sync_currents()` (hdf5.py 464-482).
`none`: `self.prev_rho[ip]` with `prev_rho = None`, a `TypeError`. -/
def densCall (target : Nat) (q : ℚ) (istep i : Nat) (rho : Loc k → ℚ) (st : DensSt k) : Option (DensSt k) :=
  if target = 0 then
    if i = 0 then some { st with out := st.out ++ [(istep, fun l => rho l / q)] } else some st
  else if i = target - 1 then some { st with prev := some rho }
  else if i = target then
    match st.prev with
    | none => none
    | some prev => some ⟨none, st.out ++ [(istep, fun l => (rho l - prev l) / q)]⟩
  else some st

/-- the callback at one event of the run: registered for the stage `current_deposition` (hdf5.py 424), called when the interval says
so (callback.py 78-100) -/
def densEvent (target : Nat) (q : ℚ) (fires : Nat → Bool) (rho : Loc k → ℚ) (e : Ev) (st : DensSt k) : Option (DensSt k) :=
  match e.op with
  | .stage .currentDeposition (some i) => if fires e.istep then densCall target q e.istep i rho st else some st
  | _ => some st

/-- the callback over a sequence of events; `snap pre` is the charge density after the call of `sync_currents` in the event that
follows the events `pre` -/
def densRun (target : Nat) (q : ℚ) (fires : Nat → Bool) (snap : List Ev → Loc k → ℚ) :
    List Ev → List Ev → DensSt k → Option (DensSt k)
  | _, [], st => some st
  | pre, e :: es, st => (densEvent target q fires (snap pre) e st).bind (densRun target q fires snap (pre ++ [e]) es)

/-- `Recv(buf)` of a contiguous array of `numx × numy` into a buffer of `nx × ny` doubles, both row by row (utils.py 329, 343;
the sender sends `density_per_patch[ip]`, 364): the message fills the beginning of the buffer -/
def recvFlat {V : Type} (numx numy : Nat) (data : Nat → Nat → V) (old : Nat → V) (pos : Nat) : V :=
  if pos < numx * numy then data (pos / numy) (pos % numy) else old pos

/-- `buf[:num_x, :num_y]` (utils.py 346) -/
def readBuf {V : Type} (ny : Nat) (flat : Nat → V) (i j : Nat) : V := flat (i * ny + j)

end Verif.SyncFields
