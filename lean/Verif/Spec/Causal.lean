import Verif.Spec.WholeRun
/-!
# Specification of what a region of the grid depends on (C101)
-/
namespace Verif.Causal
open Verif.WholeRun

variable {k : Nat}

/-- the cell in which a position lies (cells are centred on the grid points) -/
def cellOf (d : Fin k → ℚ) (x : Fin k → ℚ) : Fin k → Int := fun a => ⌊x a / d a + 1 / 2⌋

/-- the cells of a region that are more than `r` cells away from every cell outside of it, along some axis: all cells up to `r`
away along each axis belong to the region -/
def inner (r : Nat) (R : (Fin k → Int) → Prop) (c : Fin k → Int) : Prop := ∀ c', (∀ a, |c' a - c a| ≤ r) → R c'

/-- a region of a periodic grid of `N` cells per axis: cells that are whole lengths apart are the same cell -/
def Region (N : Fin k → Nat) (R : (Fin k → Int) → Prop) : Prop := ∀ c c', (∀ a, c a ≡ c' a [ZMOD N a]) → (R c ↔ R c')

open Classical in
/-- the particles that lie in a region -/
noncomputable def within (d : Fin k → ℚ) (R : (Fin k → Int) → Prop) (cl : List (Kind × List (Ptc k))) : List (Kind × List (Ptc k)) :=
  cl.map fun s => (s.1, s.2.filter fun p => decide (R (cellOf d p.pos)))

/-- two undivided simulations agree on a region: the same fields and currents in its cells, and the same particles in them, up to
order and whole lengths `L` of the domain -/
structure AgreeOn (L d : Fin k → ℚ) (R : (Fin k → Int) → Prop) (W W' : World k) : Prop where
  fields : ∀ c, R c → ∀ f, W.fld.e f c = W'.fld.e f c ∧ W.fld.b f c = W'.fld.b f c ∧ W.fld.j f c = W'.fld.j f c
  species : SameCloud L (within d R W.cloud) (within d R W'.cloud)

end Verif.Causal
