import Verif.Model.RunLoop
/-!
# Reports of progress

Models `ProgressBar` (core/utils/progress_bar.py 27-211) as `Simulation.run` uses it (simulation/simulation.py 929-938, 1124-1137).
What is displayed on a terminal is left to tqdm and not modelled; of the lines of the log only the count, the total and the
percentage are modelled (not the elapsed and remaining time and the speed, which tqdm measures). Percentages are exact numbers,
the code prints one digit after the point. `time.monotonic()` is an arbitrary number at each reading.
-/
namespace Verif.Progress
open RunLoop

/-- what is written: a line of the log (progress_bar.py 184-190) or the comment of a SLURM job (progress_bar.py 12-24; sent by the first process only) -/
inductive Out
  | line (k total : Int) (pct : ℚ)
  | comment (pct : ℚ)
deriving DecidableEq

/-- the attributes of a bar (progress_bar.py 72-111): `terminal` is `is_terminal()`, `slurm` tells that `SLURM_JOB_ID` is set -/
structure Bar where
  total : Int
  n : Int
  last : Int
  lastTime : ℚ
  interval : Int
  terminal : Bool
  disabled : Bool
  slurm : Bool

/-- `maxinterval` (progress_bar.py 77), 60 unless given -/
def maxInterval : ℚ := 60

/-- `__init__` (progress_bar.py 61-111) with `progress_interval` and `slurm` left to the program, as in simulation.py 929-935 -/
def make (total : Int) (initial : Nat) (terminal disabled slurm : Bool) (now : ℚ) : Bar :=
  ⟨total, initial, initial, now, min 100 (max 1 (total / 10)), terminal, disabled, slurm⟩

/-- `100 * self._n / self.total` (progress_bar.py 129, 186, 200); `none` is the `ZeroDivisionError` -/
def percent (b : Bar) : Option ℚ := if b.total = 0 then none else some (100 * b.n / b.total)

/-- a line if `log` and no terminal, and the comment of the job (progress_bar.py 126-129, 197-200) -/
def emit (b : Bar) (log : Bool) : Option (List Out) :=
  if (log && !b.terminal) || b.slurm then
    (percent b).map fun p =>
      (if log && !b.terminal then [.line b.n b.total p] else []) ++ (if b.slurm then [.comment p] else [])
  else some []

/-- `update(1)` at the time `now` (progress_bar.py 113-131) -/
def update (b : Bar) (now : ℚ) : Option (Bar × List Out) :=
  if b.disabled then some ({ b with n := b.n + 1 }, [])
  else
    let b' := { b with n := b.n + 1 }
    if b.interval ≤ b'.n - b.last ∨ maxInterval ≤ now - b.lastTime then
      (emit b' true).map fun out => ({ b' with last := b'.n, lastTime := now }, out)
    else some (b', [])

/-- `close()` (progress_bar.py 192-201) -/
def close (b : Bar) : Option (List Out) :=
  if b.disabled then some [] else emit b (decide (b.last < b.n))

/-- something written when `done` steps have been carried out -/
structure Said where
  done : Nat
  out : Out
deriving DecidableEq

/-- the bar in the loop of `run` (simulation.py 937-938, 1124-1137): `update` at the start of a step, `close` at each of the three
ends; `now i` is the reading of the clock in step `i` -/
def steps (o : Nat → Oracle) (now : Nat → ℚ) : Nat → Nat → Bar → Option (List Said)
  | 0, istep, b => (close b).map fun l => l.map (Said.mk istep)
  | left + 1, istep, b =>
    (update b (now istep)).bind fun r =>
      (if (o istep).dump || (o istep).stop then (close r.1).map fun l => l.map (Said.mk (istep + 1))
       else steps o now left (istep + 1) r.1).map fun l => r.2.map (Said.mk istep) ++ l

/-- all that is written by a run to `total` on rank `rank`; the bar is made at the time `t0` (simulation.py 929-935) -/
def reports (o : Nat → Oracle) (now : Nat → ℚ) (t0 : ℚ) (terminal slurm : Bool) (rank itime : Nat) (total : Int) :
    Option (List Said) :=
  steps o now (total - (itime : Int)).toNat itime (make total itime terminal (decide (0 < rank)) slurm t0)

end Verif.Progress
