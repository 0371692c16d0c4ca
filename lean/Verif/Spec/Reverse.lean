import Verif.Spec.WholeRun
/-!
# Specification of a simulation turned back in time (C98)

All velocities, the magnetic field and the currents change their sign; positions, weights and the electric field stay.
Nothing here refers to the program.
-/
namespace Verif.Reverse
open Verif.Maxwell Verif.Pusher Verif.Deposit Verif.WholeRun

variable {k : Nat}

/-- the opposite momentum -/
def opposite (m : Mom) : Mom := ⟨-m.ux, -m.uy, -m.uz, m.invGamma, m.w⟩

/-- the particles with opposite momenta -/
def turnedCloud (cl : List (Kind × List (Ptc k))) : List (Kind × List (Ptc k)) :=
  cl.map fun s => (s.1, s.2.map fun p => ⟨p.pos, opposite p.mom⟩)

/-- the fields with opposite B and J -/
def turnedFields (G : GF k) : GF k := ⟨G.e, fun f c => -G.b f c, fun f c => -G.j f c⟩

/-- a simulation turned back in time -/
def turned (W : World k) : World k := ⟨turnedFields W.fld, turnedCloud W.cloud⟩

end Verif.Reverse
