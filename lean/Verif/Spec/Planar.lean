import Verif.Spec.Matter
/-!
# Specification of a 3D simulation of a problem that does not depend on z (C103)
-/
namespace Verif.Planar
open Verif.WholeRun Verif.Matter

/-- the first two coordinates -/
def flat {α : Type} (x : Fin 3 → α) : Fin 2 → α := ![x 0, x 1]

/-- a place moved by `h` along z -/
def along (h : ℚ) (x : Fin 3 → ℚ) : Fin 3 → ℚ := ![x 0, x 1, x 2 + h]

/-- all particles moved by `h` along z -/
def lifted (h : ℚ) (cl : List (Kind × List (Ptc 3))) : List (Kind × List (Ptc 3)) :=
  cl.map fun s => (s.1, s.2.map fun p => ⟨along h p.pos, p.mom⟩)

/-- the matter of a 3D simulation is that of a 2D simulation, drawn out along z: moving everything by one cell along z leaves the same
matter, and the total of every quantity that does not depend on z is the total per length of the 2D simulation times the length of
the domain along z -/
structure DrawnOut (L : Fin 3 → ℚ) (dz : ℚ) (a : List (Kind × List (Ptc 2))) (b : List (Kind × List (Ptc 3))) : Prop where
  even : SameMatter L (lifted dz b) b
  column : ∀ F : Kind → (Fin 2 → ℚ) → Motion → ℚ, (∀ κ x u (z : Fin 2 → ℤ), F κ (fun i => x i + z i * flat L i) u = F κ x u) →
    amount (fun κ x u => F κ (flat x) u) b = L 2 * amount F a

/-- an undivided 3D simulation is a 2D simulation drawn out along z: the fields do not depend on z -/
structure Planar (L : Fin 3 → ℚ) (dz : ℚ) (V : World 2) (W : World 3) : Prop where
  fields : ∀ f c, W.fld.e f c = V.fld.e f (flat c) ∧ W.fld.b f c = V.fld.b f (flat c) ∧ W.fld.j f c = V.fld.j f (flat c)
  matter : DrawnOut L dz V.cloud W.cloud

end Verif.Planar
