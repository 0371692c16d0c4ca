import Verif.Model.Pusher

/-! # The push of one particle as a map of position and momentum

The same chain of calls as in `Verif.Pusher.unifiedStrip` for one live particle, over any field of numbers, so that the
true square root can be used. -/

namespace Verif.Liouville

open Verif.Pusher

variable {K : Type} [Field K]

/-- position and momentum of a particle in dimension `k` -/
abbrev Phase (K : Type) (k : Nat) : Type := (Fin k → K) × (Fin 3 → K)

/-- the momentum component that moves coordinate `i` (unified_pusher_2d.c 53-61, unified_pusher_3d.c 53-63) -/
def axis (i : Nat) : Fin 3 := match i with | 0 => 0 | 1 => 1 | _ => 2

/-- `1.0 / sqrt(1.0 + ux*ux + uy*uy + uz*uz)`, the stored `inv_gamma` of a particle (unified_pusher_2d.c 50 and the
loading of particles) -/
def igOf (rs : K → K) (u : Fin 3 → K) : K := rs (1 + u 0 * u 0 + u 1 * u 1 + u 2 * u 2)

/-- `push_position_2d`, `push_position_3d` (unified_pusher_2d.c 53-61, unified_pusher_3d.c 53-63) -/
def drift {k : Nat} (rs : K → K) (cdt : K) (s : Phase K k) : Phase K k :=
  (fun i => s.1 i + cdt * igOf rs s.2 * s.2 (axis i), s.2)

/-- `boris` (unified_pusher_2d.c 15-51, unified_pusher_3d.c 15-51) with the fields `F` gives at the position -/
def kick {k : Nat} (rs : K → K) (efactor bfactor : K) (F : (Fin k → K) → FieldsAt K) (s : Phase K k) : Phase K k :=
  let r := borisC rs efactor bfactor (F s.1) ⟨s.2 0, s.2 1, s.2 2, igOf rs s.2⟩
  (s.1, ![r.ux, r.uy, r.uz])

/-- the push of one live particle (unified_pusher_2d.c 246-248 and 271-354, unified_pusher_3d.c 315-317 and 341-428):
half a position step, interpolation, `boris`, half a position step; `F` is the interpolation at the moment of the push -/
def push {k : Nat} (rs : K → K) (c q m dt : K) (F : (Fin k → K) → FieldsAt K) (s : Phase K k) : Phase K k :=
  drift rs (c * (1 / 2) * dt) (kick rs (q * dt / (2 * m * c)) (q * dt / (2 * m)) F (drift rs (c * (1 / 2) * dt) s))

/-- `n` pushes in the fields of the successive steps (simulation/simulation.py, the loop over time steps) -/
def pushes {k : Nat} (rs : K → K) (c q m dt : K) (F : Nat → (Fin k → K) → FieldsAt K) :
    Nat → Phase K k → Phase K k
  | 0, s => s
  | n + 1, s => push rs c q m dt (F n) (pushes rs c q m dt F n s)

end Verif.Liouville
