import Verif.Model.WholePml
import Verif.Spec.WholeRun
import Verif.Spec.CpmlRun
/-!
# Specification vocabulary for complete runs with absorbing layers: the undivided simulation

One grid that is periodic along some axes and ends in an absorbing layer at both ends of the others
(`Verif.Spec.CpmlRun`), and one list of particles per species. In every step the particles are pushed in the fields after
the first half step and deposit their currents; then those that are in a layer are gone.
-/
namespace Verif.WholePml
open Verif.Maxwell Verif.Pusher Verif.Deposit
open Verif.WholeRun (Kind Ptc Phys pushed see2 see3 macros2 macros3)
open Verif.Cpml (Whole Grid)
open Verif.PicStep (field undivided2 undivided3)

variable {k : Nat}

/-- the undivided simulation between two steps -/
structure LWorld (k : Nat) where
  grid : Grid k
  cloud : List (Kind × List (Ptc k))

/-- a position is between the layers: cells are centred on the grid points, and a layer has `thick` cells -/
def Free (W : Whole k) (x : Fin k → ℚ) : Prop :=
  ∀ a, W.pml a = true → W.thick * W.par.d a - W.par.d a / 2 ≤ x a ∧ x a ≤ (W.N a - W.thick) * W.par.d a - W.par.d a / 2
instance (W : Whole k) (x : Fin k → ℚ) : Decidable (Free W x) := by unfold Free; infer_instance

/-- cells of one array that covers the domain and three more cells beyond every absorbing end -/
def room (W : Whole k) (a : Fin k) : Nat := W.N a + if W.pml a = true then 6 else 0

/-- the currents all particles deposit in this array -/
def curOpen2 (W : Whole 2) (dt : ℚ) (cl : List (Kind × List (Ptc 2))) : V3 2 :=
  fun f c => field (undivided2 (room W) W.par.d dt (macros2 cl)) f.castSucc fun a => c a % (room W a : Int)
/-- the same in 3D -/
def curOpen3 (W : Whole 3) (dt : ℚ) (cl : List (Kind × List (Ptc 3))) : V3 3 :=
  fun f c => field (undivided3 (room W) W.par.d dt (macros3 cl)) f.castSucc fun a => c a % (room W a : Int)

/-- what the particles do: the fields they see, their currents, and the momentum update. The increments of E and B of
`Phys` are not used; the fields change by `Whole.step`. -/
noncomputable def lphys2 (W : Whole 2) (dt : ℚ) (rs : ℚ → ℚ) : Phys 2 :=
  ⟨yeeE2 W.par, yeeB2 W.par, see2 W.par.d, curOpen2 W dt, rs, dt⟩
/-- the same in 3D -/
noncomputable def lphys3 (W : Whole 3) (dt : ℚ) (rs : ℚ → ℚ) : Phys 3 :=
  ⟨yeeE3 W.par, yeeB3 W.par, see3 W.par.d, curOpen3 W dt, rs, dt⟩

section
variable (W : Whole k) (Φ : Phys k)

/-- the fields in which the particles are pushed: E and B after half a step -/
def midGrid (G : Grid k) : GF k :=
  let H := W.stepB (1 / 2 * Φ.dt) (W.stepE (1 / 2 * Φ.dt) G)
  ⟨H.e, H.b, H.j⟩

/-- all particles after the push, before those in the layers are removed -/
def LWorld.moved (U : LWorld k) : List (Kind × List (Ptc k)) :=
  U.cloud.map fun s => (s.1, s.2.map (pushed Φ s.1 (midGrid W Φ U.grid)))

/-- one step of the undivided simulation -/
def LWorld.step (U : LWorld k) : LWorld k :=
  ⟨W.step Φ.dt (Φ.cur (U.moved W Φ)) U.grid, (U.moved W Φ).map fun s => (s.1, s.2.filter fun p => decide (Free W p.pos))⟩

/-- the undivided simulation after `i` steps -/
def LWorld.run (U : LWorld k) : Nat → LWorld k
  | 0 => U
  | i + 1 => (LWorld.run U i).step W Φ
end

end Verif.WholePml
