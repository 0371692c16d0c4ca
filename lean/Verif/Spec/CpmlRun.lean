import Verif.Spec.Cpml
import Verif.Model.CpmlRun
/-!
# Specification: one undivided grid with absorbing layers

One grid of `N a` cells per axis, periodic or with an absorbing layer at both ends of an axis. The layer at an end has the cells and coefficients
that one patch of `N a` cells would give it (`wall`); its auxiliary fields belong to the grid. Cells beyond an absorbing end are never changed.
-/
namespace Verif.Cpml
open SyncFields Maxwell

/-- an undivided grid: cells per axis, which axes end in layers, thickness and strength of the layers, constants and `exp` -/
structure Whole (k : Nat) where
  N : Fin k → Nat
  pml : Fin k → Bool
  thick : Nat
  smax : ℚ
  par : Par k
  ex : ℚ → ℚ

/-- fields, currents and, for every end of an axis, the auxiliary fields -/
structure Grid (k : Nat) where
  e : V3 k
  b : V3 k
  j : V3 k
  psiE : Fin k × Bool → V3 k
  psiB : Fin k × Bool → V3 k

variable {k : Nat}

/-- a cell of the grid: between the two ends on the axes that have ends -/
def Whole.Inside (W : Whole k) (v : Fin k → Int) : Prop := ∀ a, W.pml a = true → 0 ≤ v a ∧ v a < W.N a
instance (W : Whole k) (v : Fin k → Int) : Decidable (W.Inside v) := by unfold Whole.Inside; infer_instance

/-- cells and coefficients of the layer at the lower (`false`) or upper (`true`) end of an axis -/
def Whole.wall (W : Whole k) (s : Fin k × Bool) : Layer k := build s.1 (W.N s.1) ⟨s.2, W.thick, 20, 15 / 100, W.smax⟩

/-- `kappa` for the E cells of an axis -/
def Whole.kapE (W : Whole k) (a : Fin k) (i : Nat) : ℚ := if W.pml a = true then (W.wall (a, false)).kE i * (W.wall (a, true)).kE i else 1
/-- `kappa` for the B cells of an axis -/
def Whole.kapB (W : Whole k) (a : Fin k) (i : Nat) : ℚ := if W.pml a = true then (W.wall (a, false)).kB i * (W.wall (a, true)).kB i else 1

/-- the renewed auxiliary field for E in a cell of a layer -/
def Whole.newPsiE (W : Whole k) (dt : ℚ) (s : Fin k × Bool) (ψ b : V3 k) (d : Fin 3) (v : Fin k → Int) : ℚ :=
  let l := W.wall s
  let i := (v s.1).toNat
  l.bE dt W.ex i * ψ d v + ccoeff (l.bE dt W.ex i) (l.kE i) (l.sE i) (l.aE i) (W.par.d s.1) * diffB b s.1 d v
/-- the renewed auxiliary field for B in a cell of a layer -/
def Whole.newPsiB (W : Whole k) (dt : ℚ) (s : Fin k × Bool) (ψ e : V3 k) (d : Fin 3) (v : Fin k → Int) : ℚ :=
  let l := W.wall s
  let i := (v s.1).toNat
  l.bB dt W.ex i * ψ d v + ccoeff (l.bB dt W.ex i) (l.kB i) (l.sB i) (l.aB i) (W.par.d s.1) * diffE e s.1 d v

/-- a cell of the grid in the E part of an existing layer -/
def Whole.InE (W : Whole k) (s : Fin k × Bool) (v : Fin k → Int) : Prop := W.pml s.1 = true ∧ (W.wall s).InE v
/-- a cell of the grid in the B part of an existing layer -/
def Whole.InB (W : Whole k) (s : Fin k × Bool) (v : Fin k → Int) : Prop := W.pml s.1 = true ∧ (W.wall s).InB v
instance (W : Whole k) (s : Fin k × Bool) (v : Fin k → Int) : Decidable (W.InE s v) := by unfold Whole.InE; infer_instance
instance (W : Whole k) (s : Fin k × Bool) (v : Fin k → Int) : Decidable (W.InB s v) := by unfold Whole.InB; infer_instance

/-- E after time `dt`: the stretched curl of B in every cell, and in the layers the renewed auxiliary fields -/
def Whole.stepE (W : Whole k) (dt : ℚ) (G : Grid k) : Grid k :=
  { G with
    e := fun d v => if W.Inside v then G.e d v + stretchE W.par dt W.kapE G.b G.j d v +
      ∑ a : Fin k, ∑ mx : Bool, (if W.InE (a, mx) v then curlSign d (comp a) * (dt * W.par.c2 * W.newPsiE dt (a, mx) (G.psiE (a, mx)) G.b d v) else 0)
      else G.e d v
    psiE := fun s d v => if W.Inside v ∧ W.InE s v then W.newPsiE dt s (G.psiE s) G.b d v else G.psiE s d v }

/-- B after time `dt` -/
def Whole.stepB (W : Whole k) (dt : ℚ) (G : Grid k) : Grid k :=
  { G with
    b := fun d v => if W.Inside v then G.b d v + stretchB W.par dt W.kapB G.e d v +
      ∑ a : Fin k, ∑ mx : Bool, (if W.InB (a, mx) v then -(curlSign d (comp a) * (dt * W.newPsiB dt (a, mx) (G.psiB (a, mx)) G.e d v)) else 0)
      else G.b d v
    psiB := fun s d v => if W.Inside v ∧ W.InB s v then W.newPsiB dt s (G.psiB s) G.e d v else G.psiB s d v }

/-- one time step: E and B by half a step, new currents, B and E by half a step -/
def Whole.step (W : Whole k) (dt : ℚ) (J : V3 k) (G : Grid k) : Grid k :=
  W.stepE (1 / 2 * dt) (W.stepB (1 / 2 * dt) { W.stepB (1 / 2 * dt) (W.stepE (1 / 2 * dt) G) with j := J })

/-- the grid after `m` steps -/
def Whole.run (W : Whole k) (dt : ℚ) (J : Nat → V3 k) (G : Grid k) : Nat → Grid k
  | 0 => G
  | m + 1 => W.step dt (J m) (W.run dt J G m)

/-- a field on the grid repeats itself on the periodic axes -/
def Whole.Periodic (W : Whole k) (g : V3 k) : Prop :=
  ∀ d v w, (∀ a, if W.pml a = true then v a = w a else v a ≡ w a [ZMOD (W.N a : Int)]) → g d v = g d w

/-- all that is on the grid repeats itself on the periodic axes; the auxiliary fields start at zero -/
structure Whole.Starts (W : Whole k) (G : Grid k) : Prop where
  e : W.Periodic G.e
  b : W.Periodic G.b
  j : W.Periodic G.j
  psiE : ∀ s d v, G.psiE s d v = 0
  psiB : ∀ s d v, G.psiB s d v = 0

/-- the undivided grid of a run that is set up with `C` -/
def PConf.whole (C : PConf k) : Whole k := ⟨fun a => C.np a * C.n a, C.pml, C.thick, C.smax, C.par, C.ex⟩

/-- E and B of the patches, guard cells included, are those of the grid; `coord t` is the place of patch `t` among the patches -/
def ShowsEB (C : PConf k) (N : Nat) (coord : Nat → Fin k → Nat) (x : PDom k) (G : Grid k) : Prop :=
  ∀ t, t < N → ∀ d v, InRange C.n C.ng v →
    (x.fld t).e d (index C.n C.ng v) = G.e d (globalCell C.n (coord t) v) ∧ (x.fld t).b d (index C.n C.ng v) = G.b d (globalCell C.n (coord t) v)

/-- the currents in the own cells of the patches are those of the grid -/
def ShowsJ (C : PConf k) (N : Nat) (coord : Nat → Fin k → Nat) (x : PDom k) (J : V3 k) : Prop :=
  ∀ t, t < N → ∀ d v, Own C.n v → (x.fld t).j d (index C.n C.ng v) = J d (globalCell C.n (coord t) v)

end Verif.Cpml
