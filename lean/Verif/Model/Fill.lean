import Mathlib.Algebra.Order.Field.Rat
import Mathlib.Data.Fin.VecNotation
import Mathlib.Algebra.BigOperators.Fin
/-!
# Counting and filling macro particles

Models core/patch/cpu.py 6-99 and `calculate_npart`, `add_species`, `fill_particles` of core/patch/patch.py 796-907. One
patch at a time: every iteration of the parallel loops touches only its own patch.

`k` is the dimension. User functions are arbitrary: `dens` and `ppc` (after `int(...)`) of the grid point. Random draws are an
oracle `u cell particle axis` in `[0,1)`, `Generator.uniform(a, b)` is `a + (b - a) * u`. Arithmetic is exact.
-/
namespace Verif.Fill

/-- the user's input -/
structure Profile (k : Nat) where
  dens : (Fin k → ℚ) → ℚ
  densMin : ℚ
  ppc : (Fin k → ℚ) → ℤ

/-- `self.xaxis = np.arange(nx)*dx + x0` (patch.py 272, 362) -/
def axis (n : Nat) (h x0 : ℚ) : List ℚ := (List.range n).map fun i : Nat => (i : ℚ) * h + x0

/-- the grid points in the order of the two nested loops (cpu.py 13-14) -/
def cells2 (ax : Fin 2 → List ℚ) : List (Fin 2 → ℚ) := (ax 0).flatMap fun x => (ax 1).map fun y => ![x, y]

/-- the grid points in the order of the three nested loops (cpu.py 57-59) -/
def cells3 (ax : Fin 3 → List ℚ) : List (Fin 3 → ℚ) :=
  (ax 0).flatMap fun x => (ax 1).flatMap fun y => (ax 2).map fun z => ![x, y, z]

/-- `num_particles[ipatch]` (cpu.py 10-18, 52-62) -/
def count {k : Nat} (p : Profile k) (cells : List (Fin k → ℚ)) : ℤ :=
  cells.foldl (fun n c => if p.dens c > p.densMin then n + p.ppc c else n) 0

/-- one macro particle as filled: position and weight -/
structure Slot (k : Nat) where
  pos : Fin k → ℚ
  w : ℚ

/-- the spacing the kernels use: `xaxis_list[0][1] - xaxis_list[0][0]` (cpu.py 24-25, 71-73); `none` if the axis has fewer
than two points (the index is out of bounds and not checked) -/
def spacing (ax : List ℚ) : Option ℚ :=
  match ax with
  | a :: b :: _ => some (b - a)
  | _ => none

/-- the particles of one cell: `gen.uniform(-dx/2, dx/2, ppc) + x_grid` and `dens*dx*dy / ppc` (cpu.py 41-43, 93-96) -/
def cellParticles {k : Nat} (p : Profile k) (h : Fin k → ℚ) (u : Nat → Fin k → ℚ) (c : Fin k → ℚ) : List (Slot k) :=
  (List.range (p.ppc c).toNat).map fun i =>
    ⟨fun d => (-h d / 2 + (h d / 2 - -h d / 2) * u i d) + c d, p.dens c * (∏ d, h d) / p.ppc c⟩

/-- the loop over the cells (cpu.py 36-44, 86-97): `a` are the arrays of the patch, `ipart` the running index, `j` the number of
the cell. `none`: an exception — a negative size, a slice that does not fit, or division by zero (cpu.py 41-43). An empty
slice with `ppc = 0` divides by zero. -/
def fillCells {k : Nat} (p : Profile k) (h : Fin k → ℚ) (u : Nat → Nat → Fin k → ℚ) :
    List (Fin k → ℚ) → Nat → Nat → List (Option (Slot k)) → Option (List (Option (Slot k)))
  | [], _, _, a => some a
  | c :: cs, j, ipart, a =>
    if p.dens c > p.densMin then
      if p.ppc c < 0 then none
      else if a.length < ipart + (p.ppc c).toNat then none
      else if p.ppc c = 0 then none
      else fillCells p h u cs (j + 1) (ipart + (p.ppc c).toNat)
        (a.take ipart ++ (cellParticles p h (u j) c).map some ++ a.drop (ipart + (p.ppc c).toNat))
    else fillCells p h u cs (j + 1) ipart a

/-- `initialize(num_macro_particles)` (patch.py 856-857): arrays of that size, nothing written yet; negative sizes raise -/
def reserve (k : Nat) (n : ℤ) : Option (List (Option (Slot k))) := if n < 0 then none else some (List.replicate n.toNat none)

/-- `add_species` then `fill_particles` for one patch in 2D; `ax0` are the axes of patch 0 of this rank -/
def fillPatch2 (p : Profile 2) (u : Nat → Nat → Fin 2 → ℚ) (ax0 ax : Fin 2 → List ℚ) : Option (List (Option (Slot 2))) := do
  let a ← reserve 2 (count p (cells2 ax))
  let dx ← spacing (ax0 0)
  let dy ← spacing (ax0 1)
  fillCells p ![dx, dy] u (cells2 ax) 0 0 a

/-- the same in 3D -/
def fillPatch3 (p : Profile 3) (u : Nat → Nat → Fin 3 → ℚ) (ax0 ax : Fin 3 → List ℚ) : Option (List (Option (Slot 3))) := do
  let a ← reserve 3 (count p (cells3 ax))
  let dx ← spacing (ax0 0)
  let dy ← spacing (ax0 1)
  let dz ← spacing (ax0 2)
  fillCells p ![dx, dy, dz] u (cells3 ax) 0 0 a

end Verif.Fill
