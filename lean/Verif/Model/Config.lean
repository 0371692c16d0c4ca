import Verif.Model.AutoPatch
import Verif.Model.RunLoop
import Verif.Model.WholeRun
/-!
# The constructor of a simulation

Models `SimulationConfig`, `Simulation3DConfig` and their validators (simulation/simulation.py 50-118), `_validate` (200-226 in
2D, 1259-1299 in 3D), `__post_init__` as far as it concerns the numbers of the set-up (228-240), `_auto_patch` (265-283,
1300-1318), `get_cfl` (1212-1213, 1432-1433), and the look-ups of the boundary conditions at the start (457-463, 1356-1366;
core/patch/patch.py 479-496, 552-581), in any number `k` of dimensions. Numbers of type float are exact and finite; the types of the arguments are right (pydantic refuses others).
`log_file`, `truncate_log`, `enable_timer`, `random_seed`, `comm` do not matter for the numbers of the set-up and are left out.
-/
namespace Verif.Config
open Verif.Deposit

variable {k : Nat}

/-- a boundary condition (simulation.py 73) -/
inductive BC
  | pml
  | periodic
deriving DecidableEq

/-- why a set-up is refused: the `ValidationError` of pydantic, or an exception of the automatic choice of patches -/
inductive Err
  | validation
  | auto
deriving DecidableEq

/-- the arguments of the constructor (simulation.py 145-178, 1246-1257). `bc a false` is the entry for the lower side of axis `a`
in the dictionary, `bc a true` that of the upper side; `none` if the dictionary has no such key. -/
structure Args (k : Nat) where
  n : Fin k → Int
  d : Fin k → ℚ
  np : Fin k → Int
  nsteps : Option Int
  simTime : Option ℚ
  cfl : ℚ
  ng : Int
  thick : Int
  bc : Fin k → Bool → Option BC

/-- the constraints `gt=0`, `le=1` of the fields (simulation.py 51-61, 104-106) -/
def fieldsOk (A : Args k) : Bool :=
  decide (∀ a, 0 < A.n a) && decide (∀ a, 0 < A.d a) && decide (∀ a, 0 < A.np a) && A.nsteps.all (fun s => decide (0 < s)) &&
    A.simTime.all (fun t => decide (0 < t)) && decide (0 < A.cfl) && decide (A.cfl ≤ 1) && decide (0 < A.ng) && decide (0 < A.thick)

/-- the validators with `mode='after'`: `validate_nx_divisible`, `validate_ny_divisible`, `validate_nz_divisible`,
`validate_nsteps_sim_time_mutual_exclusion` (simulation.py 83-100, 113-117) -/
def afterOk (A : Args k) : Bool := decide (∀ a, A.n a % A.np a = 0) && !(A.nsteps.isSome && A.simTime.isSome)

/-- the attributes of a simulation that has been constructed -/
structure Sim (k : Nat) where
  n : Fin k → Int
  d : Fin k → ℚ
  np : Fin k → Int
  /-- `nx_per_patch` and so on -/
  per : Fin k → Int
  /-- `Lx` and so on -/
  L : Fin k → ℚ
  dt : ℚ
  nsteps : Option Int
  simTime : Option ℚ
  ng : Int
  thick : Int
  bc : Fin k → Bool → Option BC

/-- `self.dx**-2 + self.dy**-2 + ...` -/
def invSq (d : Fin k → ℚ) : ℚ := ((List.finRange k).map fun a => 1 / d a ^ 2).sum

/-- `_validate` (simulation.py 200-226, 1259-1299) and the rest of `__post_init__` (234-239); `root s` is `s**-0.5`.
`//` of integers is the floor of the quotient. -/
def validate (root : ℚ → ℚ) (A : Args k) : Except Err (Sim k) :=
  if fieldsOk A && afterOk A then
    .ok ⟨A.n, A.d, A.np, fun a => A.n a / A.np a, fun a => A.n a * A.d a, A.cfl * root (invSq A.d) / lightSpeed, A.nsteps, A.simTime,
      A.ng, A.thick, A.bc⟩
  else .error .validation

/-- `_auto_patch` (simulation.py 265-283, 1300-1318): if one of the counts is 0 all are replaced. `auto` is `auto_patch_2d` or
`auto_patch_3d` with the least number of patches, `none` if it raises. Numbers of cells, guard cells or layers that are not positive make it
raise or are refused afterwards; here they make it raise. -/
def autoPatch (auto : (Fin k → Nat) → Nat → Nat → Option (Fin k → Nat)) (A : Args k) : Except Err (Args k) :=
  if ∃ a, A.np a = 0 then
    if (∀ a, 0 < A.n a) ∧ 0 < A.ng ∧ 0 < A.thick then
      match auto (fun a => (A.n a).toNat) A.ng.toNat A.thick.toNat with
      | some np => .ok { A with np := fun a => np a }
      | none => .error .auto
    else .error .auto
  else .ok A

/-- `__post_init__` (simulation.py 228-240) -/
def construct (root : ℚ → ℚ) (auto : (Fin k → Nat) → Nat → Nat → Option (Fin k → Nat)) (A : Args k) : Except Err (Sim k) :=
  match autoPatch auto A with
  | .ok A' => validate root A'
  | .error e => .error e

/-- `auto_patch_2d` as `_auto_patch` calls it (simulation.py 277): `threads` is the sum of the threads of all ranks,
`_auto_patch_factor` is 4 (198) -/
def auto2 (threads : Nat) (n : Fin 2 → Nat) (ng thick : Nat) : Option (Fin 2 → Nat) :=
  (AutoPatch.autoPatch2 (n 0) (n 1) ng thick (threads * 4)).map fun c => ![c.1, c.2]

/-- `auto_patch_3d` as `_auto_patch` calls it (simulation.py 1312-1314) -/
def auto3 (threads : Nat) (n : Fin 3 → Nat) (ng thick : Nat) : Option (Fin 3 → Nat) :=
  (AutoPatch.autoPatch3 (n 0) (n 1) (n 2) ng thick (threads * 4)).map fun c => ![c.1, c.2.1, c.2.2]

/-- `get_cfl` (simulation.py 1212-1213, 1432-1433) -/
def getCfl (root : ℚ → ℚ) (S : Sim k) : ℚ := S.dt / (root (invSq S.d) / lightSpeed)

/-- the boundary conditions that the tables of neighbours and the absorbing layers look up at the start: those of all sides, because
every side has a patch (simulation.py 457-463, 1356-1366, patch.py 479-496, 552-581). `none` is the `KeyError`. -/
def sides (S : Sim k) : Option (Fin k → Bool → BC) :=
  if h : ∀ a u, (S.bc a u).isSome then some fun a u => (S.bc a u).get (h a u) else none

end Verif.Config
