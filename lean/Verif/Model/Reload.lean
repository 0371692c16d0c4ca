import Mathlib.Algebra.Order.Field.Rat
/-!
# The `autoreload` command

`src/lambdapic/cli/auto_reload.py` (11-89) with the part of `Simulation.run` that it depends on (`src/lambdapic/simulation/simulation.py` 883-884, 937,
1124-1140). The file system is a function of the moment: what the script and its time of modification are. Every read of the file happens at a moment that
the environment chooses. One process; with several ranks each rank asks for itself, which is C64.
-/
namespace Verif.Reload

/-- what a script does when it is executed: `sim` is the number of steps of the first simulation it defines (`nsteps` or `sim_time`), `none` if it defines
none; `broken` is `none` if it runs through, `some false` if it fails before the simulation is bound to its name (also for a syntax error), `some true`
if it fails afterwards -/
structure Text where
  id : Nat
  sim : Option Nat
  broken : Option Bool
  deriving DecidableEq, Repr

/-- the script on disk at a moment: contents and `os.path.getmtime` -/
structure File where
  text : Text
  mtime : ℚ

/-- the simulation object of the module: the script it came from and `itime` -/
structure Sim where
  text : Text
  nsteps : Nat
  itime : Nat
  deriving DecidableEq, Repr

/-- the attributes of `AutoReload` that change (auto_reload.py 12-22), and the local `finished` (61) -/
structure State where
  lastModified : ℚ
  modified : Bool
  sim : Option Sim
  finished : Bool

/-- what happens in one step of a run: an exception, a checkpoint on request (simulation.py 1124-1127), or a complete step with the file read at a moment -/
inductive Tick
  | error
  | dump
  | step (moment : Nat)
  deriving DecidableEq, Repr

/-- how a run ended: `finished` and `dumped` return `None` -/
inductive Ending
  | finished | dumped | stopped | error
  deriving DecidableEq, Repr

/-- a run that was carried out: script, step it began at, number of complete steps, end -/
structure Run where
  text : Text
  start : Nat
  steps : Nat
  ending : Ending
  deriving DecidableEq, Repr

/-- why the command ended: the loop was left, or an exception was passed on -/
inductive Exit
  | finish | raised
  deriving DecidableEq, Repr

/-- `self.sim` after the execution of a script (auto_reload.py 24-32) -/
def bound (t : Text) (old : Option Sim) : Option Sim := if t.broken = some false then old else t.sim.map fun n => ⟨t, n, 0⟩

/-- `AutoReload.__init__` (auto_reload.py 12-22): the time is read at moment `m`, the script is executed at moment `r`. `none`: the exception of the
script -/
def start (F : Nat → File) (m r : Nat) : Option State :=
  if (F r).text.broken = none then some ⟨(F m).mtime, false, bound (F r).text none, false⟩ else none

/-- `reload` (auto_reload.py 42-49): the names a failing script has bound until then stay bound; the others keep their old values -/
def reload (F : Nat → File) (r : Nat) (s : State) : State := { s with sim := bound (F r).text s.sim }

/-- `check_modification` (auto_reload.py 51-57) -/
def check (F : Nat → File) (m : Nat) (s : State) : Bool × State :=
  if s.lastModified < (F m).mtime then (true, { s with modified := true, lastModified := (F m).mtime }) else (false, s)

/-- the loop of `Simulation.run` (simulation.py 937, 1124-1140) from step `i`, with `k` steps to go, after `d` steps -/
def steps (F : Nat → File) (tick : Nat → Tick) : Nat → Nat → State → Nat × Ending × State
  | 0, d, s => (d, .finished, s)
  | k + 1, d, s =>
    match tick d with
    | .error => (d, .error, s)
    | .dump => (d, .dumped, s)
    | .step m =>
      let c := check F m s
      if c.1 then (d + 1, .stopped, c.2) else steps F tick k (d + 1) c.2

/-- choices of the environment for one round of the loop in `run`: moment of the reload, whether the set-up fails, the steps, moment of the last check -/
structure Round where
  reloadAt : Nat
  setUpFails : Bool
  tick : Nat → Tick
  checkAt : Nat

/-- `self.sim.run(...)` (auto_reload.py 69-70): `initialized = False` makes the run set up fields and particles anew (simulation.py 883-884); it begins at
`itime` and ends at `nsteps` (937, 1194-1199). The result has the run that was carried out, if there was a simulation. -/
def attempt (F : Nat → File) (o : Round) (s : State) : Option Run × Ending × State :=
  match s.sim with
  | none => (none, .error, s)
  | some sim =>
    if o.setUpFails then (some ⟨sim.text, sim.itime, 0, .error⟩, .error, s)
    else
      let r := steps F o.tick (sim.nsteps - sim.itime) 0 s
      (some ⟨sim.text, sim.itime, r.1, r.2.1⟩, r.2.1, { r.2.2 with sim := some { sim with itime := sim.itime + r.1 } })

/-- one round of the loop in `run` (auto_reload.py 62-89) -/
def round (F : Nat → File) (exitOnError exitOnFinish : Bool) (o : Round) (s : State) : State × Option Run × Option Exit :=
  let s1 := if s.modified then { reload F o.reloadAt s with modified := false, finished := false } else s
  if s1.finished then ((check F o.checkAt s1).2, none, none)
  else
    let a := attempt F o s1
    match a.2.1 with
    | .finished | .dumped =>
      if exitOnFinish then ({ a.2.2 with finished := true }, a.1, some .finish)
      else ((check F o.checkAt { a.2.2 with finished := true }).2, a.1, none)
    | .stopped => ((check F o.checkAt { a.2.2 with finished := false }).2, a.1, none)
    | .error =>
      if exitOnError then (a.2.2, a.1, some .raised)
      else ((check F o.checkAt { a.2.2 with modified := true }).2, a.1, none)

/-- the loop (auto_reload.py 62-89): final state, the runs in order, and why it ended (`none`: it goes on) -/
def loop (F : Nat → File) (e1 e2 : Bool) : List Round → State → State × List Run × Option Exit
  | [], s => (s, [], none)
  | o :: os, s =>
    let r := round F e1 e2 o s
    match r.2.2 with
    | some x => (r.1, r.2.1.toList, some x)
    | none =>
      let t := loop F e1 e2 os r.1
      (t.1, r.2.1.toList ++ t.2.1, t.2.2)

end Verif.Reload
