import Mathlib.Data.List.Sort
import Mathlib.Data.Nat.Sqrt
/-!
# Automatic choice of the number of patches

Models `find_divisors`, `auto_patch_2d`, `auto_patch_3d` (simulation/utils.py 69-140). `np.sqrt` of an integer below 2^52
rounds down to the integer square root; it is modelled by `Nat.sqrt`. `none` is the `IndexError` of
`possible_npatch_x[i]` on an empty list.
-/
namespace Verif.AutoPatch

/-- `find_divisors(n, 2)` for `n > 0` (utils.py 69-78): a set, then sorted -/
def findDivisors (n : Nat) : List Nat :=
  ((((List.range (Nat.sqrt n + 1)).filter fun i => 2 ≤ i ∧ n % i = 0).flatMap fun i => [i, n / i]).dedup).insertionSort
    (· ≤ ·)

/-- the running best: `npatches_min`, `npatch_xy_diff_min` (`none` for infinity) and the choice -/
structure Best (α : Type) where
  best : Option (Nat × Nat)
  choice : Option α

/-- `abs(a - b)` -/
def absDiff (a b : Nat) : Nat := (a - b) + (b - a)

/-- `min(n//cpml_thickness, n//(2*n_guard))` (utils.py 85-86) -/
def maxPatches (n ng cpml : Nat) : Nat := min (n / cpml) (n / (2 * ng))

/-- `npatch_x_min <= npatch_x <= npatch_x_max` (utils.py 98) -/
def inRange (n ng cpml p : Nat) : Bool := 2 ≤ p && p ≤ maxPatches n ng cpml

/-- replace the running best if both measures are not worse (utils.py 99-102) -/
def improve {α : Type} (b : Best α) (npatches diff : Nat) (c : α) : Best α :=
  match b.best with
  | none => ⟨some (npatches, diff), some c⟩
  | some (m, d) => if npatches ≤ m ∧ diff ≤ d then ⟨some (npatches, diff), some c⟩ else b

/-- `auto_patch_2d` (utils.py 80-107) -/
def autoPatch2 (nx ny ng cpml npatchMin : Nat) : Option (Nat × Nat) :=
  let px := findDivisors nx
  let py := findDivisors ny
  let r : Best (Nat × Nat) := (px.flatMap fun x => py.map fun y => (x, y)).foldl (fun b c =>
    if c.1 * c.2 < npatchMin then b
    else if inRange nx ng cpml c.1 || inRange ny ng cpml c.2 then
      improve b (c.1 * c.2) (absDiff (nx / c.1) (ny / c.2)) c
    else b) ⟨none, none⟩
  match r.choice with
  | some c => some c
  | none => match px[0]?, py[0]? with
    | some x, some y => some (x, y)
    | _, _ => none

/-- `auto_patch_3d` (utils.py 109-140) -/
def autoPatch3 (nx ny nz ng cpml npatchMin : Nat) : Option (Nat × Nat × Nat) :=
  let px := findDivisors nx
  let py := findDivisors ny
  let pz := findDivisors nz
  let r : Best (Nat × Nat × Nat) := (px.flatMap fun x => py.flatMap fun y => pz.map fun z => (x, y, z)).foldl (fun b c =>
    if c.1 * c.2.1 * c.2.2 < npatchMin then b
    else if inRange nx ng cpml c.1 || inRange ny ng cpml c.2.1 || inRange nz ng cpml c.2.2 then
      improve b (c.1 * c.2.1 * c.2.2)
        (max (max (absDiff (nx / c.1) (ny / c.2.1)) (absDiff (ny / c.2.1) (nz / c.2.2)))
          (absDiff (nz / c.2.2) (nx / c.1))) c
    else b) ⟨none, none⟩
  match r.choice with
  | some c => some c
  | none => match px[0]?, py[0]?, pz[0]? with
    | some x, some y, some z => some (x, y, z)
    | _, _, _ => none

end Verif.AutoPatch
