import Mathlib.Data.Rat.Floor
import Mathlib.Algebra.Order.Field.Rat

/-!
# The Debye length of the collision module (core/collision/cpu.py 136-250, collision.py 153-168)

Floats are exact rationals; `math.inf` is `⊤`, here `none` of `Option ℚ` (`Inv`).  Two irrational functions are
parameters: `vp u2` for `u2 / sqrt(1 + u2)` (cpu.py 214) and `rmin2 n` for `(4 pi n / 3) ** (-2/3)` (cpu.py 247).
The constants `c**2` and `epsilon_0` are parameters. One cell of one patch is modelled: the loops over patches and
cells (cpu.py 147-158, 236-238) treat each cell by itself. The bucket of a cell is the list of its slots.
-/

namespace Verif.Debye

/-- One slot of the particle arrays. -/
structure Slot where
  dead : Bool
  w : ℚ
  ux : ℚ
  uy : ℚ
  uz : ℚ
deriving DecidableEq

/-- What does not change: `m`, `q` of the species are in `Spec`. -/
structure Env where
  vol : ℚ
  c2 : ℚ
  eps0 : ℚ
  vp : ℚ → ℚ
  rmin2 : ℚ → ℚ

/-- mass and charge of a species -/
structure Spec where
  m : ℚ
  q : ℚ

/-- an inverse square length; `none` is infinity -/
abbrev Inv := Option ℚ

/-- float addition with infinity -/
def Inv.add : Inv → Inv → Inv
  | some a, some b => some (a + b)
  | _, _ => none

/-- first loop, cpu.py 190-197: total weight and weighted momenta of the living -/
def sums (l : List Slot) : ℚ × ℚ × ℚ × ℚ :=
  l.foldl (fun s p => if p.dead then s
    else (s.1 + p.w, s.2.1 + p.w * p.ux, s.2.2.1 + p.w * p.uy, s.2.2.2 + p.w * p.uz)) (0, 0, 0, 0)

/-- second loop, cpu.py 206-216 -/
def heat (E : Env) (mx my mz : ℚ) (l : List Slot) : ℚ :=
  l.foldl (fun s p => if p.dead then s
    else s + p.w * E.vp ((p.ux - mx) ^ 2 + (p.uy - my) ^ 2 + (p.uz - mz) ^ 2) / 3) 0

/-- `debye_length_cell`, cpu.py 173-228 -/
def cell (E : Env) (S : Spec) (l : List Slot) : Inv × ℚ :=
  let s := sums l
  if s.1 ≤ 0 then (some (-1), 0)
  else
    let density := s.1 / E.vol
    let kT := heat E (s.2.1 / s.1) (s.2.2.1 / s.1) (s.2.2.2 / s.1) l / s.1 * S.m * E.c2
    (if 0 < kT then some (density * S.q ^ 2 / (E.eps0 * kT)) else none, density)

/-- the two numbers kept per cell: `debye_length_inv_square_list`, `total_density_list` -/
structure Cell where
  inv : Inv
  dens : ℚ

/-- `debye_length_patches` on one cell, cpu.py 138-158; only the inverse length is reset -/
def addSpecies (E : Env) (S : Spec) (l : List Slot) (reset : Bool) (s : Cell) : Cell :=
  let s := if reset then { s with inv := some 0 } else s
  let r := cell E S l
  if 0 < r.2 then ⟨Inv.add s.inv r.1, s.dens + r.2⟩ else s

/-- `constrain_debye_length_patches` on one cell, cpu.py 232-250; `1 / inf` is 0 -/
def constrain (E : Env) (s : Cell) : Cell :=
  match s.inv with
  | some a => if a ≤ 0 then s else if 1 / a < E.rmin2 s.dens then { s with inv := some (1 / E.rmin2 s.dens) } else s
  | none => if 0 < E.rmin2 s.dens then { s with inv := some (1 / E.rmin2 s.dens) } else s

/-- the loop over species, collision.py 154-163: `reset` for species 0 -/
def species (E : Env) : Nat → List (Spec × List Slot) → Cell → Cell
  | _, [], s => s
  | i, (S, l) :: rest, s => species E (i + 1) rest (addSpecies E S l (i == 0) s)

/-- `calculate_debye_length`, collision.py 153-168, for one cell -/
def call (E : Env) (sp : List (Spec × List Slot)) (s : Cell) : Cell := constrain E (species E 0 sp s)

/-- the arrays when they are made, collision.py 80-95 -/
def fresh : Cell := ⟨some 0, 0⟩

end Verif.Debye
