import Mathlib.Data.Real.Sqrt
/-!
# Putting a new particle in a dead slot

Models `search_dead`, `insert_at` and `sum_dead` of core/collision/utils.py 423-478. The starting index is not negative.
Coordinates are real numbers.
-/
namespace Verif.Insert

/-- `for j in range(j, e): if is_dead[j]: return j` (utils.py 429-431, 433-435): `n` indices from `j` on -/
def inner (dead : List Bool) : Nat → Nat → Option Nat
  | _, 0 => none
  | j, n + 1 => if dead.getD j false then some j else inner dead (j + 1) n

/-- `is_dead[i:i+8].view(np.uint64)` (utils.py 428): the eight bytes as one little-endian number -/
def word (bytes : List Bool) : Nat := bytes.foldr (fun b acc => b.toNat + 256 * acc) 0

/-- `search_dead` (utils.py 423-437) from index `i` on, `none` is the result `-1` -/
def search (dead : List Bool) (i : Nat) : Option Nat :=
  if i < dead.length then
    if i + 8 ≤ dead.length then
      if word ((dead.drop i).take 8) ≠ 0 then
        match inner dead i 8 with
        | some j => some j
        | none => search dead (i + 8)
      else search dead (i + 8)
    else
      match inner dead i (dead.length - i) with
      | some j => some j
      | none => search dead (i + 8)
  else none
termination_by dead.length - i

/-- what `insert_at` writes -/
structure Part where
  x : ℝ
  y : ℝ
  z : ℝ
  ux : ℝ
  uy : ℝ
  uz : ℝ
  invGamma : ℝ
  w : ℝ

/-- the arrays of a species on a patch -/
structure Arrays where
  parts : List Part
  dead : List Bool

/-- `insert_at` (utils.py 439-468): the arrays afterwards and the index used; the arrays are untouched if there is no dead slot -/
noncomputable def insertAt (a : Arrays) (istart : Nat) (x y z ux uy uz w : ℝ) : Arrays × Option Nat :=
  match search a.dead istart with
  | none => (a, none)
  | some i =>
    (⟨a.parts.set i ⟨x, y, z, ux, uy, uz, 1 / Real.sqrt (ux * ux + uy * uy + uz * uz + 1), w⟩, a.dead.set i false⟩, some i)

/-- `sum_dead` (utils.py 470-478) -/
def sumDead (parts : List (List Bool)) : List Nat := parts.map fun d => d.foldl (fun n b => n + b.toNat) 0

end Verif.Insert
