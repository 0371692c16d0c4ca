import Verif.Model.Particles
import Mathlib.Algebra.Order.Field.Rat
/-!
# Loading particles from a file

Models `LoadParticles` (`src/lambdapic/callback/utils.py` 1051-1175) and the bounds of a patch (`src/lambdapic/core/patch/patch.py` 106-150).

Simplifications: exact arithmetic; `np.sqrt` is a parameter; the file is a list of rows (datasets of one length); the Python set of attributes is a list in
any order; an `AttributeError` is `Err.value`. The event flags of QED containers, which are not in the file, are left out.
-/
namespace Verif.Load
open Verif.Particles

/-- `x + y` on float64 with NaN -/
def fadd : F64 → F64 → F64
  | .val x, .val y => .val (x + y)
  | _, _ => .nan
/-- `x * y` on float64 with NaN -/
def fmul : F64 → F64 → F64
  | .val x, .val y => .val (x * y)
  | _, _ => .nan

/-- one particle in the file: the value of each dataset -/
abbrev Row := String → F64

/-- names of the coordinates -/
def coordName : Nat → String
  | 0 => "x"
  | 1 => "y"
  | _ => "z"

/-- position of patch `i` along an axis with `np` patches of `n` cells: `x0 = i * Lx / npatch_x` (simulation.py 482, 1397), plus the way `o` the moving window
has gone (`Verif.Model.MovingWindow`) -/
def x0 (o dx : ℚ) (np n i : Nat) : ℚ := o + i * (np * n * dx) / np
/-- `Patch.xmin` (patch.py 106-115); `t` is the thickness of the absorbing layer at the lower side, if there is one -/
def pmin (x0 dx : ℚ) (t : Option Nat) : ℚ :=
  match t with
  | some t => x0 + t * dx
  | none => x0
/-- `Patch.xmax` (patch.py 117-122) -/
def pmax (x0 dx : ℚ) (n : Nat) (t : Option Nat) : ℚ :=
  match t with
  | some t => x0 + (n - 1) * dx - t * dx
  | none => x0 + (n - 1) * dx

/-- one axis of a patch: position, cell size, cells and layers -/
structure Axis where
  x0 : ℚ
  dx : ℚ
  n : Nat
  lo : Option Nat
  hi : Option Nat

/-- `(x >= p.xmin - p.dx/2) & (x < p.xmax + p.dx/2)` (callback/utils.py 1122-1128); comparisons with NaN are false -/
def Axis.inb (A : Axis) (v : F64) : Bool :=
  match v with
  | .nan => false
  | .val q => decide (pmin A.x0 A.dx A.lo - A.dx / 2 ≤ q) && decide (q < pmax A.x0 A.dx A.n A.hi + A.dx / 2)

/-- the `inbound` mask of a patch for one row (callback/utils.py 1122-1128); a patch is the list of its axes -/
def inbound (b : List Axis) (r : Row) : Bool := (b.zipIdx).all fun (A, i) => A.inb (r (coordName i))

/-- `getattr(part, attr)[-npart:] = attr_data` (callback/utils.py 1139-1141) -/
def setAttr (rows : List Row) (p : Parts) (a : String) : Except Err Parts :=
  if a ∈ p.names then do
    let l ← setFromArr (p.arr a) (-(rows.length : Int)) (rows.map fun r => r a)
    return { p with arr := fun x => if x = a then l else p.arr x }
  else .error .value

/-- the last `n` elements, `arr[-n:]` for `0 < n` -/
def lastN (n : Nat) (l : List F64) : List F64 := l.drop (l.length - n)

/-- `np.sqrt(1 + ux**2 + uy**2 + uz**2)` on the last `n` particles (callback/utils.py 1145) -/
def gammas (sq : F64 → F64) (n : Nat) (p : Parts) : List F64 :=
  List.zipWith (fun a b => sq (fadd a b))
    (List.zipWith (fun a b => fadd (fadd (.val 1) (fmul a a)) (fmul b b)) (lastN n (p.arr "ux")) (lastN n (p.arr "uy")))
    ((lastN n (p.arr "uz")).map fun c => fmul c c)

/-- one patch and one batch (callback/utils.py 1130-1148); `rows` are the rows of the batch in the patch -/
def loadInto (sq : F64 → F64) (attrs : List String) (p : Parts) (rows : List Row) : Except Err Parts :=
  if rows.length = 0 then .ok p else do
    let p ← extend p rows.length
    let p ← attrs.foldlM (setAttr rows) p
    let p ← if "ux" ∈ attrs ∨ "uy" ∈ attrs ∨ "uz" ∈ attrs then do
        let l ← setFromArr (p.arr "inv_gamma") (-(rows.length : Int)) (gammas sq rows.length p)
        pure { p with arr := fun x => if x = "inv_gamma" then l else p.arr x }
      else pure p
    return { p with dead := setFrom p.dead (-(rows.length : Int)) false }

/-- the loop over the patches for one batch (callback/utils.py 1121-1148) -/
def loadBatch (sq : F64 → F64) (attrs : List String) (rows : List Row) (ps : List (List Axis × Parts)) : Except Err (List (List Axis × Parts)) :=
  ps.mapM fun p => do
    let q ← loadInto sq attrs p.2 (rows.filter (inbound p.1))
    return (p.1, q)

/-- `range(0, total, batch)` (callback/utils.py 1108) -/
def starts (total batch : Nat) : List Nat := List.range' 0 ((total + batch - 1) / batch) batch

/-- `_load_from_file` (callback/utils.py 1102-1149) for one species; `batch` is `_batch_size` -/
def loadFile (sq : F64 → F64) (attrs : List String) (batch : Nat) (file : List Row) (ps : List (List Axis × Parts)) : Except Err (List (List Axis × Parts)) :=
  (starts file.length batch).foldlM (fun ps s => loadBatch sq attrs ((file.drop s).take (min (s + batch) file.length - s)) ps) ps

/-- `_filter_attributes` (callback/utils.py 1151-1172): the names in the file, and the attributes of the first species (not of the species that is
loaded) -/
def filterAttrs (dim : Nat) (names attrs0 : List String) : Except Err (List String) :=
  if (1 ≤ dim ∧ "x" ∉ names) ∨ (2 ≤ dim ∧ "y" ∉ names) ∨ (dim = 3 ∧ "z" ∉ names) ∨ "w" ∉ names then .error .value
  else .ok (names.filter fun a => decide (a ∈ attrs0) && decide (a ≠ "_id") && decide (a ≠ "inv_gamma"))

/-- the callback: filter the attributes, then load (callback/utils.py 1102-1175). `attrs0` are the attributes of the first species of the first patch -/
def load (sq : F64 → F64) (dim batch : Nat) (names attrs0 : List String) (file : List Row) (ps : List (List Axis × Parts)) :
    Except Err (List (List Axis × Parts)) := do
  let attrs ← filterAttrs dim names attrs0
  loadFile sq attrs batch file ps

end Verif.Load
