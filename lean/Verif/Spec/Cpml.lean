import Verif.Model.Cpml
import Verif.Proofs.Maxwell
import Mathlib.Algebra.BigOperators.Fin
/-!
# Specification of the absorbing layer

The scheme of Roden and Gedney, for 2 and 3 dimensions at once: every derivative along an axis is divided by `kappa` of that axis, and inside of a
layer of that axis the auxiliary field `psi` is added to it, which forgets with the factor `b` and takes up the derivative with the factor `c`.
-/
namespace Verif.Cpml
open SyncFields Maxwell

/-- an axis as a component of a vector -/
def comp {k : Nat} (a : Fin k) : Fin 3 := Fin.ofNat 3 a.val
/-- the component that is neither `a` nor `d` (for `a ≠ d`) -/
def third (a d : Fin 3) : Fin 3 := -(a + d)
/-- sign of the derivative along `a` of component `third a d` in component `d` of a curl -/
def curlSign (d a : Fin 3) : ℚ := if a = d + 1 then 1 else if d = a + 1 then -1 else 0

/-- backward difference along `a` of the component of `b` that enters component `d` of its curl -/
def diffB {k : Nat} (b : V3 k) (a : Fin k) (d : Fin 3) (v : Fin k → Int) : ℚ := b (third (comp a) d) v - b (third (comp a) d) (dn a v)
/-- forward difference along `a` of the component of `e` that enters component `d` of its curl -/
def diffE {k : Nat} (e : V3 k) (a : Fin k) (d : Fin 3) (v : Fin k → Int) : ℚ := e (third (comp a) d) (up a v) - e (third (comp a) d) v

/-- increment of E: `dt c² curl B` with every derivative divided by `kappa`, minus `dt/eps0 J` -/
def stretchE {k : Nat} (P : Par k) (dt : ℚ) (κ : Fin k → Nat → ℚ) (b j : V3 k) (d : Fin 3) (v : Fin k → Int) : ℚ :=
  (∑ a : Fin k, curlSign d (comp a) * (dt * P.c2 * (diffB b a d v / P.d a / κ a (v a).toNat))) - dt / P.eps0 * j d v
/-- increment of B: `- dt curl E` with every derivative divided by `kappa` -/
def stretchB {k : Nat} (P : Par k) (dt : ℚ) (κ : Fin k → Nat → ℚ) (e : V3 k) (d : Fin 3) (v : Fin k → Int) : ℚ :=
  -∑ a : Fin k, curlSign d (comp a) * (dt * (diffE e a d v / P.d a / κ a (v a).toNat))

variable {k : Nat}

/-- a cell is in the E part of a layer -/
def Layer.InE (l : Layer k) (v : Fin k → Int) : Prop := (l.startE : Int) ≤ v l.axis ∧ v l.axis < l.stopE
/-- a cell is in the B part of a layer -/
def Layer.InB (l : Layer k) (v : Fin k → Int) : Prop := (l.startB : Int) ≤ v l.axis ∧ v l.axis < l.stopB

instance (l : Layer k) (v : Fin k → Int) : Decidable (l.InE v) := by unfold Layer.InE; infer_instance
instance (l : Layer k) (v : Fin k → Int) : Decidable (l.InB v) := by unfold Layer.InB; infer_instance

/-- the factor `b` of the layer for E at depth `i` -/
def Layer.bE (l : Layer k) (dt : ℚ) (ex : ℚ → ℚ) (i : Nat) : ℚ := ex (-(l.sE i / l.kE i + l.aE i) * dt)
/-- the factor `b` of the layer for B at depth `i` -/
def Layer.bB (l : Layer k) (dt : ℚ) (ex : ℚ → ℚ) (i : Nat) : ℚ := ex (-(l.sB i / l.kB i + l.aB i) * dt)

/-- the new auxiliary field of a layer for E, inside of the layer: `b psi + c (difference)/dx`-/
def Layer.psiE' (l : Layer k) (P : Par k) (dt : ℚ) (ex : ℚ → ℚ) (n : Fin k → Nat) (ng : Nat) (b : V3 k) (d : Fin 3) (v : Fin k → Int) : ℚ :=
  let i := (v l.axis).toNat
  l.bE dt ex i * l.psiE d (index n ng v) + ccoeff (l.bE dt ex i) (l.kE i) (l.sE i) (l.aE i) (P.d l.axis) * diffB b l.axis d v
/-- the new auxiliary field of a layer for B, inside of the layer -/
def Layer.psiB' (l : Layer k) (P : Par k) (dt : ℚ) (ex : ℚ → ℚ) (n : Fin k → Nat) (ng : Nat) (e : V3 k) (d : Fin 3) (v : Fin k → Int) : ℚ :=
  let i := (v l.axis).toNat
  l.bB dt ex i * l.psiB d (index n ng v) + ccoeff (l.bB dt ex i) (l.kB i) (l.sB i) (l.aB i) (P.d l.axis) * diffE e l.axis d v

/-- what a layer adds to component `d` of E in a cell -/
def Layer.addE (l : Layer k) (P : Par k) (dt : ℚ) (ex : ℚ → ℚ) (n : Fin k → Nat) (ng : Nat) (b : V3 k) (d : Fin 3) (v : Fin k → Int) : ℚ :=
  if l.InE v then curlSign d (comp l.axis) * (dt * P.c2 * l.psiE' P dt ex n ng b d v) else 0
/-- what a layer adds to component `d` of B in a cell -/
def Layer.addB (l : Layer k) (P : Par k) (dt : ℚ) (ex : ℚ → ℚ) (n : Fin k → Nat) (ng : Nat) (e : V3 k) (d : Fin 3) (v : Fin k → Int) : ℚ :=
  if l.InB v then -(curlSign d (comp l.axis) * (dt * l.psiB' P dt ex n ng e d v)) else 0

/-- `l'` is layer `l` after its E step: the auxiliary fields across the axis are renewed inside of the layer, everything else is kept -/
structure Layer.AfterE (P : Par k) (dt : ℚ) (ex : ℚ → ℚ) (n : Fin k → Nat) (ng : Nat) (b : V3 k) (l l' : Layer k) : Prop where
  same : l' = { l with psiE := l'.psiE }
  inside : ∀ d, d ≠ comp l.axis → ∀ v, Own n v → l.InE v → l'.psiE d (index n ng v) = l.psiE' P dt ex n ng b d v
  outside : ∀ d, d ≠ comp l.axis → ∀ v, Own n v → ¬ l.InE v → l'.psiE d (index n ng v) = l.psiE d (index n ng v)

/-- `l'` is layer `l` after its B step -/
structure Layer.AfterB (P : Par k) (dt : ℚ) (ex : ℚ → ℚ) (n : Fin k → Nat) (ng : Nat) (e : V3 k) (l l' : Layer k) : Prop where
  same : l' = { l with psiB := l'.psiB }
  inside : ∀ d, d ≠ comp l.axis → ∀ v, Own n v → l.InB v → l'.psiB d (index n ng v) = l.psiB' P dt ex n ng e d v
  outside : ∀ d, d ≠ comp l.axis → ∀ v, Own n v → ¬ l.InB v → l'.psiB d (index n ng v) = l.psiB d (index n ng v)

/-- the whole E update of a patch: in every cell the stretched curl and what the layers add; nothing else changes but the auxiliary fields -/
structure SolvedE (P : Par k) (dt : ℚ) (ex : ℚ → ℚ) (n : Fin k → Nat) (ng : Nat) (κ : Fin k → Nat → ℚ) (ls : List (Layer k)) (f : Fields k)
    (r : Fields k × List (Layer k)) : Prop where
  src : r.1.b = f.b
  j : r.1.j = f.j
  cells : ∀ d v, Own n v → r.1.e d (index n ng v) = f.e d (index n ng v) + stretchE P dt κ (cellsOf n ng f.b) (cellsOf n ng f.j) d v +
    (ls.map fun l => l.addE P dt ex n ng (cellsOf n ng f.b) d v).sum
  frame : ∀ d x, (∀ v, Own n v → index n ng v ≠ x) → r.1.e d x = f.e d x
  layers : List.Forall₂ (Layer.AfterE P dt ex n ng (cellsOf n ng f.b)) ls r.2

/-- the whole B update of a patch: in every cell the stretched curl and what the layers add; nothing else changes but the auxiliary fields -/
structure SolvedB (P : Par k) (dt : ℚ) (ex : ℚ → ℚ) (n : Fin k → Nat) (ng : Nat) (κ : Fin k → Nat → ℚ) (ls : List (Layer k)) (f : Fields k)
    (r : Fields k × List (Layer k)) : Prop where
  src : r.1.e = f.e
  j : r.1.j = f.j
  cells : ∀ d v, Own n v → r.1.b d (index n ng v) = f.b d (index n ng v) + stretchB P dt κ (cellsOf n ng f.e) d v +
    (ls.map fun l => l.addB P dt ex n ng (cellsOf n ng f.e) d v).sum
  frame : ∀ d x, (∀ v, Own n v → index n ng v ≠ x) → r.1.b d x = f.b d x
  layers : List.Forall₂ (Layer.AfterB P dt ex n ng (cellsOf n ng f.e)) ls r.2

end Verif.Cpml
