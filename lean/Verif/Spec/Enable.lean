import Verif.Spec.WholeRun
/-!
# Enabling and disabling: specification

The undivided simulation in which only some species are enabled.
-/
namespace Verif.Enable
open Verif.Maxwell Verif.WholeRun

variable {k : Nat}

/-- `f` applied to the entries that are on -/
def mapOn {α : Type*} (f : α → α) : (Nat → Bool) → List α → List α
  | _, [] => []
  | on, a :: l => (if on 0 then f a else a) :: mapOn f (fun i => on (i + 1)) l

/-- the entries that are on -/
def chosen {α : Type*} : (Nat → Bool) → List α → List α
  | _, [] => []
  | on, a :: l => if on 0 then a :: chosen (fun i => on (i + 1)) l else chosen (fun i => on (i + 1)) l

/-- one step of the undivided simulation in which the species `on` are enabled: only these move, and only
these make a current -/
def _root_.Verif.WholeRun.World.stepOn (Φ : Phys k) (on : Nat → Bool) (W : World k) : World k :=
  let cl := mapOn (fun s => (s.1, s.2.map (pushed Φ s.1 (midField Φ W.fld)))) on W.cloud
  ⟨GF.step Φ.FE Φ.FB Φ.dt (Φ.cur (chosen on cl)) W.fld, cl⟩

/-- the undivided simulation after `i` steps -/
def _root_.Verif.WholeRun.World.runOn (Φ : Phys k) (on : Nat → Nat → Bool) (W : World k) (n : Nat) : World k :=
  Nat.rec W (fun i V => V.stepOn Φ (on i)) n

end Verif.Enable
