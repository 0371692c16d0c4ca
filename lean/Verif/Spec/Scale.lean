import Verif.Spec.WholeRun
/-!
# Specification of a simulation in another scale (C99)

All lengths and times are multiplied by `len`, all charges by `q`, all masses by `m`. For the motion to be the same the
fields have to be multiplied by `m / (q len)` and the number densities by `m / (q len)^2`; the weight of a macro particle is
its number density times the size of a cell, where the size has as many factors `len` as the grid has axes. Nothing here
refers to the program.
-/
namespace Verif.Scale
open Verif.Maxwell Verif.Pusher Verif.Deposit Verif.WholeRun

variable {k : Nat}

/-- the factors of a change of scale -/
structure Scale where
  len : ℚ
  q : ℚ
  m : ℚ

/-- no factor is zero, and lengths stay positive -/
structure Scale.Ok (S : Scale) : Prop where
  len : 0 < S.len
  q : S.q ≠ 0
  m : S.m ≠ 0

/-- factor of E and B -/
def Scale.eb (S : Scale) : ℚ := S.m / (S.q * S.len)
/-- factor of number densities -/
def Scale.dens (S : Scale) : ℚ := S.m / (S.q * S.len) ^ 2
/-- factor of the current density: charge times number density times velocity -/
def Scale.j (S : Scale) : ℚ := S.q * S.dens
/-- factor of the weights: number density times the size of a cell on `k` axes -/
def Scale.w (S : Scale) (k : Nat) : ℚ := S.dens * S.len ^ k

/-- a particle in the other scale: momenta in units of mc stay -/
def Scale.ptc (S : Scale) (p : Ptc k) : Ptc k :=
  ⟨fun i => S.len * p.pos i, ⟨p.mom.ux, p.mom.uy, p.mom.uz, p.mom.invGamma, S.w k * p.mom.w⟩⟩
/-- a kind of particles in the other scale -/
def Scale.kind (S : Scale) (κ : Kind) : Kind := ⟨S.q * κ.q, S.m * κ.m⟩
/-- particles in the other scale -/
def Scale.cloud (S : Scale) (cl : List (Kind × List (Ptc k))) : List (Kind × List (Ptc k)) :=
  cl.map fun s => (S.kind s.1, s.2.map S.ptc)
/-- fields in the other scale -/
def Scale.fields (S : Scale) (G : GF k) : GF k :=
  ⟨fun f c => S.eb * G.e f c, fun f c => S.eb * G.b f c, fun f c => S.j * G.j f c⟩
/-- a simulation in the other scale -/
def Scale.world (S : Scale) (W : World k) : World k := ⟨S.fields W.fld, S.cloud W.cloud⟩

end Verif.Scale
