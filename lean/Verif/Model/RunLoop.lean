import Mathlib.Data.Rat.Floor
import Mathlib.Algebra.Order.Field.Rat
/-!
# The run loop

Models `Simulation.run` and what it calls (simulation/simulation.py 172-187, 857-1217, 1435-1480), the callback
wrappers (callback/callback.py) and the clock handling of `RestartDump` (callback/restart.py).

A run is described by the trace of its operations. Everything the loop reads from the surrounding world (which
species are enabled when a loop asks, whether a signal requested a dump, what `stop_callback` returns) is an
oracle, so that theorems over all oracles cover all behaviours of callbacks and signals. Simplifications: exact
rational time; progress bar, timers, logging and the PyPI check are left out; callbacks do not assign
`sim.itime`, `sim.time` or `sim.dt`; callable intervals see the clock and the species.
-/
namespace Verif.RunLoop

/-- `Simulation.STAGES` (simulation.py 172-187) -/
inductive Stage
  | init | start | maxwell1 | pushPosition1 | interpolator | qed | pushMomentum | pushPosition2
  | currentDeposition | qedCreate | laser | maxwell2 | end_ | final
deriving DecidableEq, Repr

/-- the names, in the order of `STAGES` (simulation.py 172-187) -/
def Stage.all : List (Stage × String) :=
  [(.init, "init"), (.start, "start"), (.maxwell1, "maxwell_1"), (.pushPosition1, "_push_position_1"),
   (.interpolator, "_interpolator"), (.qed, "_qed"), (.pushMomentum, "_push_momentum"),
   (.pushPosition2, "_push_position_2"), (.currentDeposition, "current_deposition"),
   (.qedCreate, "qed_create_particles"), (.laser, "_laser"), (.maxwell2, "maxwell_2"), (.end_, "end"),
   (.final, "final")]

/-- look-up of a stage name: `if stage not in self.stages` (simulation.py 1460) -/
def Stage.ofName (s : String) : Option Stage := (Stage.all.find? fun x => x.2 == s).map (·.1)

/-- one operation of the run loop; `stage s i` runs the callbacks of stage `s` while `sim.ispec = i` -/
inductive Op
  | stage (s : Stage) (ispec : Option Nat)
  | updateE | syncGuardE | updateB | syncGuardB
  | sort (i : Nat) | collide | resetCurrents
  | unified (i : Nat) | pushPosition (i : Nat) | interpolate (i : Nat) | radiate (i : Nat) | pairs (i : Nat)
  | pushMomentum (i : Nat) | deposit (i : Nat)
  | syncCurrentsStart | createPhotons (i : Nat) | createPairs (i : Nat)
  | mpiParticles | syncParticles | syncCurrentsWait | rebalance | updateLists
deriving DecidableEq, Repr

/-- what is fixed during a run: number of species, which of them the unified pusher handles
(simulation.py 893-908), which have radiation and pair production, whether there are collisions -/
structure Config where
  nspec : Nat
  unified : Nat → Bool
  radiation : Nat → Bool
  pairs : Nat → Bool
  collision : Bool

/-- `use_unified_pusher` (simulation.py 893-908): Boris pusher, no radiation, no pair production and no callback
in a stage inside the push; `used` are the stages that have callbacks -/
def useUnified (boris radiation pairs : Bool) (used : List Stage) : Bool :=
  boris && !radiation && !pairs && !([Stage.pushPosition1, .interpolator, .qed, .pushMomentum,
    .pushPosition2].any fun s => used.contains s)

/-- answers of the world during one step: `s.is_enabled()` in the three species loops (simulation.py 967, 984,
1053), `should_rebalance` on more than one rank (1085), `_dump_requested` (1130), `stop_callback()` (1139) -/
structure Oracle where
  sortEnabled : Nat → Bool
  pushEnabled : Nat → Bool
  createEnabled : Nat → Bool
  rebalance : Bool
  dump : Bool
  stop : Bool

/-- the push of one species (simulation.py 983-1041); the depositor and interpolator are always set
(simulation.py 518, 526) -/
def speciesOps (c : Config) (i : Nat) : List Op :=
  (if c.unified i then [.unified i]
   else [.pushPosition i, .stage .pushPosition1 (some i), .interpolate i, .stage .interpolator (some i)] ++
     (if c.radiation i then [.radiate i] else []) ++ (if c.pairs i then [.pairs i] else []) ++
     [.stage .qed (some i), .pushMomentum i, .stage .pushMomentum (some i), .pushPosition i,
      .stage .pushPosition2 (some i), .deposit i]) ++
  [.stage .currentDeposition (some i)]

/-- particle creation of one species (simulation.py 1052-1066) -/
def createOps (c : Config) (i : Nat) : List Op :=
  (if c.radiation i then [.createPhotons i] else []) ++ (if c.pairs i then [.createPairs i] else [])

/-- one pass of the loop body up to the dump check (simulation.py 940-1127). While the species loops run,
`sim.ispec` is the species last visited; before the first step it is unset and during `start`/`maxwell_1`
it is `None`. -/
def stepOps (c : Config) (o : Oracle) : List Op :=
  [.stage .start none, .updateE, .syncGuardE, .updateB, .syncGuardB, .stage .maxwell1 none] ++
  ((List.range c.nspec).filter o.sortEnabled).map .sort ++
  (if c.collision then [.collide] else []) ++
  [.resetCurrents] ++
  ((List.range c.nspec).filter o.pushEnabled).flatMap (speciesOps c) ++
  [.syncCurrentsStart] ++
  ((List.range c.nspec).filter o.createEnabled).flatMap (createOps c) ++
  [.mpiParticles, .syncParticles, .syncCurrentsWait] ++
  (if o.rebalance then [.rebalance] else []) ++
  [.updateLists, .stage .qedCreate none, .updateB, .stage .laser none, .syncGuardB, .updateE, .syncGuardE,
   .stage .maxwell2 none, .stage .end_ none]

/-- `sim.itime` and `sim.time` -/
structure Clock where
  itime : Nat
  time : ℚ
deriving DecidableEq

/-- an operation with the loop variable and the clock at that moment -/
structure Ev where
  istep : Nat
  clock : Clock
  op : Op
deriving DecidableEq

/-- how `run` returns: end of the loop, dump on request, `stop_callback` -/
inductive Outcome
  | done | dumped | stopped
deriving DecidableEq

/-- the result of a run -/
structure Result where
  trace : List Ev
  clock : Clock
  outcome : Outcome

/-- `for self.istep in range(istep, istep + left)` (simulation.py 937-1141). On a requested dump the loop
returns before `time` and `itime` advance (1130-1133); `stop_callback` is asked after they did (1139-1141). -/
def loop (c : Config) (dt : ℚ) (o : Nat → Oracle) : Nat → Nat → Clock → Result
  | 0, _, k => ⟨[], k, .done⟩
  | left + 1, istep, k =>
    let evs := (stepOps c (o istep)).map fun op => Ev.mk istep k op
    if (o istep).dump then ⟨evs, k, .dumped⟩
    else
      let k' := Clock.mk (k.itime + 1) (k.time + dt)
      if (o istep).stop then ⟨evs, k', .stopped⟩
      else
        let r := loop c dt o left (istep + 1) k'
        ⟨evs ++ r.trace, r.clock, r.outcome⟩

/-- `int(t / dt)`: Python truncates towards zero -/
def truncDiv (t dt : ℚ) : Int := if 0 ≤ t / dt then ⌊t / dt⌋ else ⌈t / dt⌉

/-- `_handle_nsteps` (simulation.py 1190-1210); `cfgN`, `cfgT` are the values given to the constructor.
`none` is the `ValueError`. -/
def handleNsteps (cfgN : Option Int) (cfgT : Option ℚ) (dt : ℚ) (itime : Nat) (nsteps : Option Int)
    (simTime : Option ℚ) : Option Int :=
  match nsteps, simTime with
  | some _, some _ => none
  | none, none =>
    match cfgN, cfgT with
    | some n, _ => some n
    | none, some t => some (truncDiv t dt)
    | none, none => none
  | none, some t => some (truncDiv t dt)
  | some n, none => some (n + itime)

/-- `Simulation.run` on an initialised simulation (simulation.py 857-1151): `init` callbacks, the loop over
`range(itime, total)`, `final` callbacks only when the loop runs to its end -/
def run (c : Config) (dt : ℚ) (cfgN : Option Int) (cfgT : Option ℚ) (o : Nat → Oracle) (nsteps : Option Int)
    (simTime : Option ℚ) (k : Clock) : Option Result :=
  (handleNsteps cfgN cfgT dt k.itime nsteps simTime).map fun total : Int =>
    let r := loop c dt o (total - (k.itime : Int)).toNat k.itime k
    ⟨⟨k.itime, k, .stage .init none⟩ :: r.trace ++
      (if r.outcome = .done then [⟨r.clock.itime, r.clock, .stage .final none⟩] else []), r.clock, r.outcome⟩

/-- `RestartDump.load` (restart.py 143-162): the dump was taken before the clock advanced -/
def load (dt : ℚ) (saved : Clock) : Clock := ⟨saved.itime + 1, ((saved.itime + 1 : Nat) : ℚ) * dt⟩

/-! ## callbacks -/

/-- an interval (callback.py 11-48) -/
inductive Interval
  | steps (n : Int)
  | seconds (x : ℚ)
  | call (f : Clock → Option Nat → Bool)

/-- what is passed in `callbacks`: `stage` is the attribute (`none`: a plain function without one; an empty
string or `None` in the code is `some ""`); `interval` is `none` for objects that are called without an interval
check, such as `MovingWindow` -/
structure Callback where
  stage : Option String
  interval : Option Interval

/-- `_validate_interval` (callback.py 11-20) -/
def Interval.valid : Interval → Bool
  | .steps n => decide (1 ≤ n)
  | .seconds x => decide (0 < x ∧ x < 1)
  | .call _ => true

/-- Python's `a % b` for `b > 0` -/
def ratMod (a b : ℚ) : ℚ := a - b * (⌊a / b⌋ : ℚ)

/-- `_interval_triggered` (callback.py 23-48) -/
def Interval.triggered (dt : ℚ) (k : Clock) (ispec : Option Nat) : Interval → Bool
  | .steps n => decide ((k.itime : Int) % n = 0)
  | .seconds x => decide (ratMod k.time x < dt)
  | .call f => f k ispec

/-- where `SimulationCallbacks` files a callback (simulation.py 1457-1466); `none` is the `ValueError` -/
def Callback.stageOf (cb : Callback) : Option Stage :=
  match cb.stage with
  | none => some .end_
  | some s => if s = "" then some .end_ else Stage.ofName s

/-- the interval that is checked: plain functions are wrapped with the default interval 1
(simulation.py 1465, callback.py 51) -/
def Callback.checked (cb : Callback) : Option Interval :=
  match cb.stage with
  | none => some (.steps 1)
  | some _ => cb.interval

/-- `SimulationCallbacks.__init__` (simulation.py 1438-1468): callback numbers per stage, in the order given;
`none` when some stage name is unknown -/
def register : List Callback → Nat → (Stage → List Nat) → Option (Stage → List Nat)
  | [], _, acc => some acc
  | cb :: cbs, n, acc =>
    match cb.stageOf with
    | none => none
    | some s => register cbs (n + 1) fun t => if t = s then acc t ++ [n] else acc t

/-- does a callback run its body when it is called (callback.py 78-100, 113-121) -/
def Callback.fires (cb : Callback) (dt : ℚ) (k : Clock) (ispec : Option Nat) : Bool :=
  match cb.checked with
  | none => true
  | some i => i.triggered dt k ispec

/-- one execution of a callback body -/
structure Fired where
  cb : Nat
  istep : Nat
  clock : Clock
  stage : Stage
  ispec : Option Nat
deriving DecidableEq

/-- `SimulationCallbacks.run` for one event of the trace (simulation.py 1470-1480) -/
def firedBy (cbs : List Callback) (table : Stage → List Nat) (dt : ℚ) (e : Ev) : List Fired :=
  match e.op with
  | .stage s ispec => (table s).filterMap fun n =>
      match cbs[n]? with
      | some cb => if cb.fires dt e.clock ispec then some ⟨n, e.istep, e.clock, s, ispec⟩ else none
      | none => none
  | _ => []

/-- all callback executions of a run -/
def fired (cbs : List Callback) (table : Stage → List Nat) (dt : ℚ) (trace : List Ev) : List Fired :=
  trace.flatMap (firedBy cbs table dt)

/-- `SimulationCallbacks.non_empty_stages` (simulation.py 1482-1492) -/
def nonEmptyStages (table : Stage → List Nat) : List Stage := (Stage.all.map (·.1)).filter fun s => !(table s).isEmpty

/-- `SimulationCallbacks.has_triggered_callbacks` (simulation.py 1493-1510): an object without an interval counts as one with
interval 1 -/
def hasTriggered (cbs : List Callback) (table : Stage → List Nat) (dt : ℚ) (k : Clock) (ispec : Option Nat) (s : Stage) : Bool :=
  (table s).any fun n =>
    match cbs[n]? with
    | some cb => (cb.checked.getD (.steps 1)).triggered dt k ispec
    | none => false

end Verif.RunLoop
