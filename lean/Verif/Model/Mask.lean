import Verif.Model.Neighbors
import Verif.Model.Cpml
import Verif.Model.Output
/-!
# Simulations on a domain with a mask

`src/lambdapic/simulation/_mask_simulation.py` (`_MaskSimulation`, 35-102): which patches are made, their neighbours, the absorbing layers, the mask of
cells, and what the mask does to the output (`src/lambdapic/callback/utils.py` 88-110, 306-367). Lengths are exact rational numbers.
-/
namespace Verif.Mask
open Neighbors Cpml Output

/-- the numbers of a 2D simulation that matter here: patches per axis, cells per patch, lengths of the domain -/
structure Box where
  npx : Nat
  npy : Nat
  nx : Nat
  ny : Nat
  lx : ℚ
  ly : ℚ

/-- `xc`, `yc`: where the mask is asked for patch `(i, j)` (_mask_simulation.py 42-43) -/
def centre (D : Box) (i j : Nat) : ℚ × ℚ := (((i : ℚ) + 1 / 2) * D.lx / D.npx, ((j : ℚ) + 1 / 2) * D.ly / D.npy)

/-- body of the loops over `j` and `i` (_mask_simulation.py 42-58); the state is the list of patches and the counter `index` -/
def visit (D : Box) (mask : ℚ → ℚ → Bool) (s : List P2 × Nat) (c : Nat × Nat) : List P2 × Nat :=
  if mask (centre D c.1 c.2).1 (centre D c.1 c.2).2 then (s.1 ++ [⟨s.2, c.1, c.2⟩], s.2 + 1) else s

/-- the pairs `(i, j)` in the order of the loops (_mask_simulation.py 40-41) -/
def places (D : Box) : List (Nat × Nat) := (List.range D.npy).flatMap fun j => (List.range D.npx).map fun i => (i, j)

/-- the patches in the list (_mask_simulation.py 38-58) -/
def chosen (D : Box) (mask : ℚ → ℚ → Bool) : List P2 := ((places D).foldl (visit D mask) ([], 0)).1

/-- the boundary conditions handed to `init_rect_neighbor_index_2d` (_mask_simulation.py 64-67) -/
def openEnds : AxisBC := ⟨.pml, .pml⟩

/-- entry `b` of `neighbor_index` of patch `p` (_mask_simulation.py 61-68); `none` is a `KeyError` -/
def neighbour (D : Box) (ps : List P2) (p : P2) (b : B2) : Option Int := neighborIndex2 D.npx D.npy openEnds openEnds ps p b

/-- `create_patches` (_mask_simulation.py 35-69): `none` is the failed assertion `mask produced no patches` or a `KeyError` -/
def create (D : Box) (mask : ℚ → ℚ → Bool) : Option (List P2) :=
  let ps := chosen D mask
  if ps = [] then none
  else if ps.all fun p => B2.all.all fun b => (neighbour D ps p b).isSome then some ps else none

/-- `self.domain_mask[s] = True` for one patch (_mask_simulation.py 75-79) -/
def cover (D : Box) (m : Nat → Nat → Bool) (p : P2) : Nat → Nat → Bool := fun x y =>
  if p.ix * D.nx ≤ x ∧ x < (p.ix + 1) * D.nx ∧ p.iy * D.ny ≤ y ∧ y < (p.iy + 1) * D.ny then true else m x y

/-- `domain_mask` (_mask_simulation.py 74-79) -/
def domainMask (D : Box) (ps : List P2) : Nat → Nat → Bool := ps.foldl (cover D) fun _ _ => false

/-- the faces in the order of `_init_pml` with the axis and the side of their layer (_mask_simulation.py 86-101) -/
def faces : List (B2 × Fin 2 × Bool) := [(.xmin, 0, false), (.xmax, 0, true), (.ymin, 1, false), (.ymax, 1, true)]

/-- `_init_pml` for one patch (_mask_simulation.py 83-102), `nb b` is `p.neighbor_index[b]`; `none` is a failed assertion of a layer or of
`add_pml_boundary` -/
def attach (nb : B2 → Int) (n : Fin 2 → Nat) (t : Nat) (smax : ℚ) : List (B2 × Fin 2 × Bool) → List (Layer 2) → Option (List (Layer 2))
  | [], ls => some ls
  | f :: fs, ls =>
    if nb f.1 < 0 then ((buildChecked f.2.1 n ⟨f.2.2, t, 20, 15 / 100, smax⟩).bind (addPml2 ls)).bind (attach nb n t smax fs)
    else attach nb n t smax fs ls

/-- the layers of patch `p` -/
def layers (D : Box) (ps : List P2) (t : Nat) (smax : ℚ) (p : P2) : Option (List (Layer 2)) :=
  attach (fun b => (neighbour D ps p b).getD (-1)) ![D.nx, D.ny] t smax faces []

/-- `a[~mask] = nan` (utils.py 107-108, 366-367): `shape` is the shape of `a`, `full` that of the mask. numpy refuses a Boolean index of another
shape: `none` is the `IndexError`. In the result `none` is NaN. -/
def blank {V : Type} (shape full : Nat × Nat) (m : Nat → Nat → Bool) (a : Nat → Nat → V) : Option (Nat → Nat → Option V) :=
  if shape = full then some fun x y => if m x y then some (a x y) else none else none

/-- `get_fields_2d` for one component of a simulation with a mask, on rank 0 (utils.py 85-110) -/
def fieldOutput {V : Type} (D : Box) (zero : V) (ps : List P2) (ranks : List (List (GPatch V))) (msgs : List (Nat × (Nat → Nat → V))) :
    Option (Nat → Nat → Option V) :=
  (getFields2 D.nx D.ny D.npx D.npy true zero ranks msgs).bind fun r =>
    blank (D.npx * D.nx, D.npy * D.ny) (D.npx * D.nx, D.npy * D.ny) (domainMask D ps) r.1

/-- the last statement of `ExtractSpeciesDensity._write_2d` on rank 0 (utils.py 366-367) for a density of `mx × my` chosen cells (279-287) -/
def densityOutput {V : Type} (D : Box) (ps : List P2) (mx my : Nat) (density : Nat → Nat → V) : Option (Nat → Nat → Option V) :=
  blank (mx, my) (D.npx * D.nx, D.npy * D.ny) (domainMask D ps) density

end Verif.Mask
