import Verif.Model.Pusher
/-!
# Photons

`PhotonPusher` (core/pusher/pusher.py 144-146), the species loop of the run with it (simulation/simulation.py 991-1041), and
core/pusher/photon.py.
-/
namespace Verif.Photon
open Verif.Pusher Verif.Deposit

/-- `PhotonPusher.__call__` (core/pusher/pusher.py 145-146): the body is `...` -/
def photonKick {k : Nat} (ps : List (Slot k)) : List (Slot k) := ps

/-- the particles of one patch in the split sequence of the species loop (simulation.py 991-1041) for a species with a `PhotonPusher`, without
QED events and callbacks; photons are never pushed by the unified pusher (simulation.py 906) -/
def photonParts {k : Nat} (K : Kern k) (dt : ℚ) (ps : List (Slot k)) : List (Slot k) :=
  splitPush (1 / 2 * dt) (photonKick (splitInterp K (splitPush (1 / 2 * dt) ps)))

/-- the current of one patch in the same sequence (simulation.py 1037-1039) -/
def photonAcc {k : Nat} (K : Kern k) (dt : ℚ) (ps : List (Slot k)) (acc : Acc k) : Acc k := splitDeposit K (photonParts K dt ps) acc

/-- several steps, each with the fields it finds -/
def photonRun {k : Nat} (dt : ℚ) (Ks : List (Kern k)) (ps : List (Slot k)) : List (Slot k) := Ks.foldl (fun ps K => photonParts K dt ps) ps

/-- `update_photon_gamma` (core/pusher/photon.py 5-10); `rs` is `(.) ** -0.5`. Only `photon_push_patches` (core/pusher/cpu.py 39-55) calls it, and
nobody calls that. -/
def updateGamma {k : Nat} (rs : ℚ → ℚ) (ps : List (Slot k)) : List (Slot k) :=
  ps.map fun s => if s.dead then s else
    { s with mom := { s.mom with invGamma := rs (s.mom.ux * s.mom.ux + s.mom.uy * s.mom.uy + s.mom.uz * s.mom.uz) } }

end Verif.Photon
