import Mathlib.Data.Fin.VecNotation
import Mathlib.Data.Fintype.Basic
import Mathlib.Data.Rat.Defs
import Mathlib.Algebra.Field.Rat
import Verif.Model.Boundaries
import Verif.Model.Interleave
/-!
# Guard-cell exchange between the patches of one process

Models `src/lambdapic/core/patch/sync_fields2d.c` and `sync_fields3d.c`.

A field of a patch is one array of `n + 2 ng` entries per axis: cells `0 … n-1` are the patch's own,
`n … n+ng-1` is the guard above, and the last `ng` entries are the guard below, reached with negative
indices (`INDEX2`/`INDEX3`). Simplifications: values are exact rationals; one field at a time (the C loop
also runs over the attributes, which are separate arrays); an array is addressed by its per-axis
positions instead of the flat row-major offset (`flat2`, `flat3` give the offset).
-/
namespace Verif.SyncFields
open Interleave

/-- one axis of a block copy: destination start, source start, number of cells (the macro arguments
`ix_dst, ix_src, NX`, sync_fields2d.c 74-83) -/
structure Rng where
  dst : Int
  src : Int
  w : Nat

/-- a cell of a patch array: patch number and position along each axis -/
abbrev Loc (k : Nat) := Nat × (Fin k → Int)

/-- one axis of `INDEX2`/`INDEX3`: negative positions count from the end (sync_fields2d.c 9-11) -/
def wrapIx (N : Nat) (i : Int) : Int := if 0 ≤ i then i else i + N

/-- `INDEX2`/`INDEX3` before flattening, with `NX = nx + 2*ng` (sync_fields2d.c 9-16, 52-53) -/
def index {k : Nat} (n : Fin k → Nat) (ng : Nat) (v : Fin k → Int) : Fin k → Int :=
  fun a => wrapIx (n a + 2 * ng) (v a)

/-- flat offset computed by `INDEX2` (sync_fields2d.c 9-11) -/
def flat2 (NY : Nat) (u : Fin 2 → Int) : Int := u 1 + u 0 * NY

/-- flat offset computed by `INDEX3` (sync_fields3d.c 13-16) -/
def flat3 (NY NZ : Nat) (u : Fin 3 → Int) : Int := u 2 + u 1 * NZ + u 0 * NY * NZ

/-- the loop nest over a 2D block (sync_fields2d.c 77-82) -/
def cells2 (w : Fin 2 → Nat) : List (Fin 2 → Nat) :=
  (List.range (w 0)).flatMap fun ix => (List.range (w 1)).map fun iy => ![ix, iy]

/-- the loop nest over a 3D block (sync_fields3d.c 121-128) -/
def cells3 (w : Fin 3 → Nat) : List (Fin 3 → Nat) :=
  (List.range (w 0)).flatMap fun ix => (List.range (w 1)).flatMap fun iy =>
    (List.range (w 2)).map fun iz => ![ix, iy, iz]

/-- `sync_currents_2d` arguments per boundary (sync_fields2d.c 82-137) -/
def currentTab2 (nx ny ng : Nat) : B2 → Fin 2 → Rng
  | .xmin => ![⟨0, nx, ng⟩, ⟨0, 0, ny⟩]
  | .xmax => ![⟨(nx : Int) - ng, -(ng : Int), ng⟩, ⟨0, 0, ny⟩]
  | .ymin => ![⟨0, 0, nx⟩, ⟨0, ny, ng⟩]
  | .ymax => ![⟨0, 0, nx⟩, ⟨(ny : Int) - ng, -(ng : Int), ng⟩]
  | .xminymin => ![⟨0, nx, ng⟩, ⟨0, ny, ng⟩]
  | .xmaxymin => ![⟨(nx : Int) - ng, -(ng : Int), ng⟩, ⟨0, ny, ng⟩]
  | .xminymax => ![⟨0, nx, ng⟩, ⟨(ny : Int) - ng, -(ng : Int), ng⟩]
  | .xmaxymax => ![⟨(nx : Int) - ng, -(ng : Int), ng⟩, ⟨(ny : Int) - ng, -(ng : Int), ng⟩]

/-- order of the boundaries (sync_fields2d.c 82-137) -/
def currentOrder2 : List B2 :=
  [.xmin, .xmax, .ymin, .ymax, .xminymin, .xmaxymin, .xminymax, .xmaxymax]

/-- `sync_guard_fields_2d` arguments per boundary (sync_fields2d.c 185-246) -/
def guardTab2 (nx ny ng : Nat) : B2 → Fin 2 → Rng
  | .xmin => ![⟨-(ng : Int), (nx : Int) - ng, ng⟩, ⟨0, 0, ny⟩]
  | .xmax => ![⟨nx, 0, ng⟩, ⟨0, 0, ny⟩]
  | .ymin => ![⟨0, 0, nx⟩, ⟨-(ng : Int), (ny : Int) - ng, ng⟩]
  | .ymax => ![⟨0, 0, nx⟩, ⟨ny, 0, ng⟩]
  | .xminymin => ![⟨-(ng : Int), (nx : Int) - ng, ng⟩, ⟨-(ng : Int), (ny : Int) - ng, ng⟩]
  | .xmaxymin => ![⟨nx, 0, ng⟩, ⟨-(ng : Int), (ny : Int) - ng, ng⟩]
  | .xminymax => ![⟨-(ng : Int), (nx : Int) - ng, ng⟩, ⟨ny, 0, ng⟩]
  | .xmaxymax => ![⟨nx, 0, ng⟩, ⟨ny, 0, ng⟩]

/-- order of the boundaries (sync_fields2d.c 185-246) -/
def guardOrder2 : List B2 :=
  [.xmin, .xmax, .ymin, .ymax, .xminymin, .xmaxymin, .xminymax, .xmaxymax]

/-- `sync_currents_3d` arguments per boundary (sync_fields3d.c 131-343) -/
def currentTab3 (nx ny nz ng : Nat) : B3 → Fin 3 → Rng
  | .xmin => ![⟨0, nx, ng⟩, ⟨0, 0, ny⟩, ⟨0, 0, nz⟩]
  | .xmax => ![⟨(nx : Int) - ng, -(ng : Int), ng⟩, ⟨0, 0, ny⟩, ⟨0, 0, nz⟩]
  | .ymin => ![⟨0, 0, nx⟩, ⟨0, ny, ng⟩, ⟨0, 0, nz⟩]
  | .ymax => ![⟨0, 0, nx⟩, ⟨(ny : Int) - ng, -(ng : Int), ng⟩, ⟨0, 0, nz⟩]
  | .zmin => ![⟨0, 0, nx⟩, ⟨0, 0, ny⟩, ⟨0, nz, ng⟩]
  | .zmax => ![⟨0, 0, nx⟩, ⟨0, 0, ny⟩, ⟨(nz : Int) - ng, -(ng : Int), ng⟩]
  | .xminymin => ![⟨0, nx, ng⟩, ⟨0, ny, ng⟩, ⟨0, 0, nz⟩]
  | .xminymax => ![⟨0, nx, ng⟩, ⟨(ny : Int) - ng, -(ng : Int), ng⟩, ⟨0, 0, nz⟩]
  | .xminzmin => ![⟨0, nx, ng⟩, ⟨0, 0, ny⟩, ⟨0, nz, ng⟩]
  | .xminzmax => ![⟨0, nx, ng⟩, ⟨0, 0, ny⟩, ⟨(nz : Int) - ng, -(ng : Int), ng⟩]
  | .xmaxymin => ![⟨(nx : Int) - ng, -(ng : Int), ng⟩, ⟨0, ny, ng⟩, ⟨0, 0, nz⟩]
  | .xmaxymax => ![⟨(nx : Int) - ng, -(ng : Int), ng⟩, ⟨(ny : Int) - ng, -(ng : Int), ng⟩, ⟨0, 0, nz⟩]
  | .xmaxzmin => ![⟨(nx : Int) - ng, -(ng : Int), ng⟩, ⟨0, 0, ny⟩, ⟨0, nz, ng⟩]
  | .xmaxzmax => ![⟨(nx : Int) - ng, -(ng : Int), ng⟩, ⟨0, 0, ny⟩, ⟨(nz : Int) - ng, -(ng : Int), ng⟩]
  | .yminzmin => ![⟨0, 0, nx⟩, ⟨0, ny, ng⟩, ⟨0, nz, ng⟩]
  | .yminzmax => ![⟨0, 0, nx⟩, ⟨0, ny, ng⟩, ⟨(nz : Int) - ng, -(ng : Int), ng⟩]
  | .ymaxzmin => ![⟨0, 0, nx⟩, ⟨(ny : Int) - ng, -(ng : Int), ng⟩, ⟨0, nz, ng⟩]
  | .ymaxzmax => ![⟨0, 0, nx⟩, ⟨(ny : Int) - ng, -(ng : Int), ng⟩, ⟨(nz : Int) - ng, -(ng : Int), ng⟩]
  | .xminyminzmin => ![⟨0, nx, ng⟩, ⟨0, ny, ng⟩, ⟨0, nz, ng⟩]
  | .xminyminzmax => ![⟨0, nx, ng⟩, ⟨0, ny, ng⟩, ⟨(nz : Int) - ng, -(ng : Int), ng⟩]
  | .xminymaxzmin => ![⟨0, nx, ng⟩, ⟨(ny : Int) - ng, -(ng : Int), ng⟩, ⟨0, nz, ng⟩]
  | .xminymaxzmax => ![⟨0, nx, ng⟩, ⟨(ny : Int) - ng, -(ng : Int), ng⟩, ⟨(nz : Int) - ng, -(ng : Int), ng⟩]
  | .xmaxyminzmin => ![⟨(nx : Int) - ng, -(ng : Int), ng⟩, ⟨0, ny, ng⟩, ⟨0, nz, ng⟩]
  | .xmaxyminzmax => ![⟨(nx : Int) - ng, -(ng : Int), ng⟩, ⟨0, ny, ng⟩, ⟨(nz : Int) - ng, -(ng : Int), ng⟩]
  | .xmaxymaxzmin => ![⟨(nx : Int) - ng, -(ng : Int), ng⟩, ⟨(ny : Int) - ng, -(ng : Int), ng⟩, ⟨0, nz, ng⟩]
  | .xmaxymaxzmax => ![⟨(nx : Int) - ng, -(ng : Int), ng⟩, ⟨(ny : Int) - ng, -(ng : Int), ng⟩, ⟨(nz : Int) - ng, -(ng : Int), ng⟩]

/-- order of the boundaries (sync_fields3d.c 131-343) -/
def currentOrder3 : List B3 :=
  [.xmin, .xmax, .ymin, .ymax, .zmin, .zmax, .xminymin, .xminymax, .xminzmin, .xminzmax, .xmaxymin, .xmaxymax, .xmaxzmin, .xmaxzmax, .yminzmin, .yminzmax, .ymaxzmin, .ymaxzmax, .xminyminzmin, .xminyminzmax, .xminymaxzmin, .xminymaxzmax, .xmaxyminzmin, .xmaxyminzmax, .xmaxymaxzmin, .xmaxymaxzmax]

/-- `sync_guard_fields_3d` arguments per boundary (sync_fields3d.c 394-604) -/
def guardTab3 (nx ny nz ng : Nat) : B3 → Fin 3 → Rng
  | .xmin => ![⟨-(ng : Int), (nx : Int) - ng, ng⟩, ⟨0, 0, ny⟩, ⟨0, 0, nz⟩]
  | .xmax => ![⟨nx, 0, ng⟩, ⟨0, 0, ny⟩, ⟨0, 0, nz⟩]
  | .ymin => ![⟨0, 0, nx⟩, ⟨-(ng : Int), (ny : Int) - ng, ng⟩, ⟨0, 0, nz⟩]
  | .ymax => ![⟨0, 0, nx⟩, ⟨ny, 0, ng⟩, ⟨0, 0, nz⟩]
  | .zmin => ![⟨0, 0, nx⟩, ⟨0, 0, ny⟩, ⟨-(ng : Int), (nz : Int) - ng, ng⟩]
  | .zmax => ![⟨0, 0, nx⟩, ⟨0, 0, ny⟩, ⟨nz, 0, ng⟩]
  | .xminymin => ![⟨-(ng : Int), (nx : Int) - ng, ng⟩, ⟨-(ng : Int), (ny : Int) - ng, ng⟩, ⟨0, 0, nz⟩]
  | .xmaxymin => ![⟨nx, 0, ng⟩, ⟨-(ng : Int), (ny : Int) - ng, ng⟩, ⟨0, 0, nz⟩]
  | .xminymax => ![⟨-(ng : Int), (nx : Int) - ng, ng⟩, ⟨ny, 0, ng⟩, ⟨0, 0, nz⟩]
  | .xmaxymax => ![⟨nx, 0, ng⟩, ⟨ny, 0, ng⟩, ⟨0, 0, nz⟩]
  | .xminzmin => ![⟨-(ng : Int), (nx : Int) - ng, ng⟩, ⟨0, 0, ny⟩, ⟨-(ng : Int), (nz : Int) - ng, ng⟩]
  | .xmaxzmin => ![⟨nx, 0, ng⟩, ⟨0, 0, ny⟩, ⟨-(ng : Int), (nz : Int) - ng, ng⟩]
  | .xminzmax => ![⟨-(ng : Int), (nx : Int) - ng, ng⟩, ⟨0, 0, ny⟩, ⟨nz, 0, ng⟩]
  | .xmaxzmax => ![⟨nx, 0, ng⟩, ⟨0, 0, ny⟩, ⟨nz, 0, ng⟩]
  | .yminzmin => ![⟨0, 0, nx⟩, ⟨-(ng : Int), (ny : Int) - ng, ng⟩, ⟨-(ng : Int), (nz : Int) - ng, ng⟩]
  | .ymaxzmin => ![⟨0, 0, nx⟩, ⟨ny, 0, ng⟩, ⟨-(ng : Int), (nz : Int) - ng, ng⟩]
  | .yminzmax => ![⟨0, 0, nx⟩, ⟨-(ng : Int), (ny : Int) - ng, ng⟩, ⟨nz, 0, ng⟩]
  | .ymaxzmax => ![⟨0, 0, nx⟩, ⟨ny, 0, ng⟩, ⟨nz, 0, ng⟩]
  | .xminyminzmin => ![⟨-(ng : Int), (nx : Int) - ng, ng⟩, ⟨-(ng : Int), (ny : Int) - ng, ng⟩, ⟨-(ng : Int), (nz : Int) - ng, ng⟩]
  | .xminyminzmax => ![⟨-(ng : Int), (nx : Int) - ng, ng⟩, ⟨-(ng : Int), (ny : Int) - ng, ng⟩, ⟨nz, 0, ng⟩]
  | .xminymaxzmin => ![⟨-(ng : Int), (nx : Int) - ng, ng⟩, ⟨ny, 0, ng⟩, ⟨-(ng : Int), (nz : Int) - ng, ng⟩]
  | .xminymaxzmax => ![⟨-(ng : Int), (nx : Int) - ng, ng⟩, ⟨ny, 0, ng⟩, ⟨nz, 0, ng⟩]
  | .xmaxyminzmin => ![⟨nx, 0, ng⟩, ⟨-(ng : Int), (ny : Int) - ng, ng⟩, ⟨-(ng : Int), (nz : Int) - ng, ng⟩]
  | .xmaxyminzmax => ![⟨nx, 0, ng⟩, ⟨-(ng : Int), (ny : Int) - ng, ng⟩, ⟨nz, 0, ng⟩]
  | .xmaxymaxzmin => ![⟨nx, 0, ng⟩, ⟨ny, 0, ng⟩, ⟨-(ng : Int), (nz : Int) - ng, ng⟩]
  | .xmaxymaxzmax => ![⟨nx, 0, ng⟩, ⟨ny, 0, ng⟩, ⟨nz, 0, ng⟩]

/-- order of the boundaries (sync_fields3d.c 394-604) -/
def guardOrder3 : List B3 :=
  [.xmin, .xmax, .ymin, .ymax, .zmin, .zmax, .xminymin, .xmaxymin, .xminymax, .xmaxymax, .xminzmin, .xmaxzmin, .xminzmax, .xmaxzmax, .yminzmin, .ymaxzmin, .yminzmax, .ymaxzmax, .xminyminzmin, .xminyminzmax, .xminymaxzmin, .xminymaxzmax, .xmaxyminzmin, .xmaxyminzmax, .xmaxymaxzmin, .xmaxymaxzmax]

/-- everything one call works on: cells per patch, guard width, number of patches, the neighbour table,
the order of the boundaries, their macro arguments and the loop nest -/
structure Sync (k : Nat) (D : Type) where
  n : Fin k → Nat
  ng : Nat
  npatches : Nat
  nbr : Nat → D → Option Nat
  order : List D
  tab : D → Fin k → Rng
  cells : (Fin k → Nat) → List (Fin k → Nat)

/-- the (destination, source) pairs of the loop body for patch `p`, in program order
(sync_fields2d.c 86-137 / 187-246, sync_fields3d.c 130-343 / 393-604) -/
def Sync.pairs {k : Nat} {D : Type} (s : Sync k D) (p : Nat) : List (Loc k × Loc k) :=
  s.order.flatMap fun b =>
    match s.nbr p b with
    | none => []
    | some q =>
      (s.cells fun a => (s.tab b a).w).map fun u =>
        ((p, index s.n s.ng fun a => (s.tab b a).dst + u a),
         (q, index s.n s.ng fun a => (s.tab b a).src + u a))

/-- `dst = src` (sync_fields2d.c 181) -/
def copyStep {k : Nat} (x : Loc k × Loc k) : Step (Loc k) ℚ :=
  fun m => fun l => if l = x.1 then m x.2 else m l

/-- `dst += src` (sync_fields2d.c 79) -/
def addStep {k : Nat} (x : Loc k × Loc k) : Step (Loc k) ℚ :=
  fun m => fun l => if l = x.1 then m x.1 + m x.2 else m l

/-- `src = 0.0` (sync_fields2d.c 80) -/
def zeroStep {k : Nat} (x : Loc k × Loc k) : Step (Loc k) ℚ :=
  fun m => fun l => if l = x.2 then 0 else m l

/-- body of `sync_guard_fields_2d`/`_3d` for one patch (sync_fields2d.c 167-246, sync_fields3d.c 374-604) -/
def Sync.guardProg {k : Nat} {D : Type} (s : Sync k D) (p : Nat) : List (Step (Loc k) ℚ) :=
  (s.pairs p).map copyStep

/-- body of `sync_currents_2d`/`_3d` for one patch (sync_fields2d.c 61-137, sync_fields3d.c 103-343) -/
def Sync.currentProg {k : Nat} {D : Type} (s : Sync k D) (p : Nat) : List (Step (Loc k) ℚ) :=
  (s.pairs p).flatMap fun x => [addStep x, zeroStep x]

/-- `sync_currents_2d` (sync_fields2d.c 43-142) -/
def syncCurrents2 (nx ny ng npatches : Nat) (nbr : Nat → B2 → Option Nat) : Sync 2 B2 :=
  ⟨![nx, ny], ng, npatches, nbr, currentOrder2, currentTab2 nx ny ng, cells2⟩

/-- `sync_guard_fields_2d` (sync_fields2d.c 144-248) -/
def syncGuard2 (nx ny ng npatches : Nat) (nbr : Nat → B2 → Option Nat) : Sync 2 B2 :=
  ⟨![nx, ny], ng, npatches, nbr, guardOrder2, guardTab2 nx ny ng, cells2⟩

/-- `sync_currents_3d` (sync_fields3d.c 84-348) -/
def syncCurrents3 (nx ny nz ng npatches : Nat) (nbr : Nat → B3 → Option Nat) : Sync 3 B3 :=
  ⟨![nx, ny, nz], ng, npatches, nbr, currentOrder3, currentTab3 nx ny nz ng, cells3⟩

/-- `sync_guard_fields_3d` (sync_fields3d.c 350-611) -/
def syncGuard3 (nx ny nz ng npatches : Nat) (nbr : Nat → B3 → Option Nat) : Sync 3 B3 :=
  ⟨![nx, ny, nz], ng, npatches, nbr, guardOrder3, guardTab3 nx ny nz ng, cells3⟩

/-- one execution of `sync_guard_fields` under the thread schedule `sched` (`omp parallel for`,
sync_fields2d.c 166) -/
def Sync.GuardRun {k : Nat} {D : Type} (s : Sync k D) (m m' : Loc k → ℚ) : Prop :=
  ∃ sched, IsSchedule s.npatches s.guardProg sched ∧ m' = run (sched.map Prod.snd) m

/-- one execution of `sync_currents` under some thread schedule (sync_fields2d.c 61) -/
def Sync.CurrentRun {k : Nat} {D : Type} (s : Sync k D) (m m' : Loc k → ℚ) : Prop :=
  ∃ sched, IsSchedule s.npatches s.currentProg sched ∧ m' = run (sched.map Prod.snd) m

end Verif.SyncFields
