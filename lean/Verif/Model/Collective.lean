import Verif.Model.RunLoop
/-!
# What the ranks of a run wait for

Models the blocking MPI calls of `Simulation.run` on several ranks: the collective calls (`Barrier`, `gather`,
`allgather`, `scatter`, `bcast`), and the halo exchanges, which are posted by a `_start` call and waited for by a
`_wait` call. A rank is the list of its communication calls in program order; the machine below says when a call
returns. Simplifications: the contents of the messages are left out (they are the subject of the other models);
posting never blocks; a wait for an exchange returns once all the partners of that exchange have posted their own
side, which covers both receives and sends that MPI does not buffer. Which rank is whose partner is arbitrary and
may change from one exchange to the next (the load balancer moves patches).
-/
namespace Verif.Collective

/-- the kinds of collective calls that occur (load_balancer.py 63-64, 105-106, 128, 197, 255; simulation.py 926,
1138, 1169; callback.py 95-99, 132-136; restart.py 95, 101, 107) -/
inductive Kind
  | barrier | gather | allgather | scatter | bcast
deriving DecidableEq, Repr

/-- the communicators: the base one and the two duplicates (core/mpi/mpi_manager.py 23-24) -/
inductive Com
  | base | particles | currents
deriving DecidableEq, Repr

/-- the exchanges, told apart by tag and communicator: guard cells of E and B (mpi_manager.py 156-172), currents
(180-195), the counts and the data of the particles of one species (111-148), the patches moved by the load
balancer (load_balancer.py 204-226) -/
inductive Tag
  | e | b | j | count (i : Nat) | data (i : Nat) | patch
deriving DecidableEq, Repr

/-- one communication call of one rank -/
inductive Call
  | coll (m : Com) (k : Kind)
  | post (t : Tag)
  | wait (t : Tag)
deriving DecidableEq, Repr

/-- the collective calls in `l` on communicator `m`, in order; MPI matches the n-th call of every rank -/
def colls (m : Com) (l : List Call) : List Kind :=
  l.filterMap fun | .coll m' k => if m' = m then some k else none | _ => none

/-- the ranks and their programs; `peer t n r q`: rank `r` takes part with rank `q` in the `n`-th exchange with
tag `t` -/
structure Job where
  ranks : Nat
  prog : Nat → List Call
  peer : Tag → Nat → Nat → Nat → Prop

/-- the calls from which rank `r` has returned are the first `s r` ones -/
abbrev State := Nat → Nat

/-- the calls rank `r` has entered: those it returned from, and the one it is in -/
def Job.entered (J : Job) (s : State) (r : Nat) : List Call := (J.prog r).take (s r + 1)

/-- when the call rank `r` is in can return (semantics of `MPI_Barrier`, `MPI_Gather`, ..., `MPI_Isend`,
`MPI_Irecv`, `MPI_Wait`). The `n`-th collective on a communicator returns when every rank has entered its `n`-th
collective there and it is the same one. Simplification: a `gather` or `bcast` waits for all the ranks, which MPI
allows but does not require. -/
def Job.returns (J : Job) (s : State) (r : Nat) : Call → Prop
  | .coll m k => ∀ q, q < J.ranks → (colls m (J.entered s q))[(colls m ((J.prog r).take (s r))).length]? = some k
  | .post _ => True
  | .wait t =>
    let n := ((J.prog r).take (s r)).count (.wait t)
    ∀ q, q < J.ranks → J.peer t n r q → n < (J.entered s q).count (.post t)

/-- one rank returns from the call it is in and goes on to the next one -/
def Job.Step (J : Job) (s s' : State) : Prop :=
  ∃ r c, r < J.ranks ∧ (J.prog r)[s r]? = some c ∧ J.returns s r c ∧ s' = fun q => if q = r then s r + 1 else s q

/-- the states reached after `n` returns, in every interleaving of the ranks -/
inductive Job.Reach (J : Job) : Nat → State → Prop
  | start : J.Reach 0 fun _ => 0
  | step {n s s'} : J.Reach n s → J.Step s s' → J.Reach (n + 1) s'

/-- every rank has come to the end of its program -/
def Job.Done (J : Job) (s : State) : Prop := ∀ r, r < J.ranks → s r = (J.prog r).length

/-! ## the programs of `Simulation.run` -/

/-- what the callbacks of a stage call, and whether the currents still have to be synchronized when
`sync_currents_start` is called (simulation.py 1163; a callback may have called `sync_currents`). A callback that is
triggered makes the collective calls of its body and one `Barrier` (callback.py 95-99, 132-136); which are triggered
depends on the step, the clock, the stage and the species. Simplification: callbacks make no point-to-point calls. -/
structure World where
  cb : Nat → RunLoop.Clock → RunLoop.Stage → Option Nat → List Kind
  needSync : Nat → Bool

/-- the particle exchange of all species (simulation.py 1066-1072; mpi_manager.py 111-148;
sync_particles_2d.c 719-727, 763; sync_particles_3d.c 937): for each species the counts are exchanged and awaited,
there is a barrier, the data are posted; then the data of each species are awaited -/
def particleCalls (nspec : Nat) : List Call :=
  (List.range nspec).flatMap (fun i => [.post (.count i), .wait (.count i), .coll .particles .barrier, .post (.data i)])
    ++ (List.range nspec).map fun i => .wait (.data i)

/-- `LoadBalancer.__call__` (load_balancer.py 53-81): two gathers of the loads, a gather of the patches, `scatter`,
`bcast`, `allgather` of the places, the patches themselves, and `should_rebalance` again -/
def rebalanceCalls : List Call :=
  [.coll .base .gather, .coll .base .gather, .coll .base .gather, .coll .base .scatter, .coll .base .bcast,
   .coll .base .allgather, .post .patch, .wait .patch, .coll .base .allgather]

/-- the communication calls of one operation of the run loop (simulation.py 926, 940-1138). `should_rebalance`
calls `allgather` in every step (1085, load_balancer.py 255), right after `sync_currents_wait`; every rank is
supposed to own a patch (else `should_rebalance` returns before its `allgather`, see C28). The barriers at 926 and
1138 follow the `init` stage and come before the `final` stage. -/
def callsOf (w : World) (nspec : Nat) (e : RunLoop.Ev) : List Call :=
  match e.op with
  | .stage .init i => (w.cb e.istep e.clock .init i).map (.coll .base) ++ [.coll .base .barrier]
  | .stage .final i => .coll .base .barrier :: (w.cb e.istep e.clock .final i).map (.coll .base)
  | .stage s i => (w.cb e.istep e.clock s i).map (.coll .base)
  | .syncGuardE => [.post .e, .wait .e]
  | .syncGuardB => [.post .b, .wait .b]
  | .syncCurrentsStart => if w.needSync e.istep then [.coll .base .barrier, .post .j] else []
  | .mpiParticles => particleCalls nspec
  | .syncCurrentsWait => (if w.needSync e.istep then [.wait .j] else []) ++ [.coll .base .allgather]
  | .rebalance => rebalanceCalls
  | _ => []

/-- `RestartDump._call` when a signal asked for it (simulation.py 1124-1127; restart.py 87-107): three barriers -/
def endCalls : RunLoop.Outcome → List Call
  | .dumped => [.coll .base .barrier, .coll .base .barrier, .coll .base .barrier]
  | _ => []

/-- the communication calls of one rank during a run (simulation.py 857-1141) -/
def calls (w : World) (nspec : Nat) (r : RunLoop.Result) : List Call :=
  r.trace.flatMap (callsOf w nspec) ++ endCalls r.outcome

/-- the answers of the world on rank `r`: `base` is what all the ranks share (enabled species and the decision to
rebalance, which `allgather` makes common); `dump r i` is `_dump_requested` on rank `r` at the end of step `i`
(simulation.py 1124), `stop r i` what its `stop_callback` returns (1133) -/
def oracle (base : Nat → RunLoop.Oracle) (dump stop : Nat → Nat → Bool) (r i : Nat) : RunLoop.Oracle :=
  { base i with dump := dump r i, stop := stop r i }

/-- a call of `run(nsteps=n)` on `R` ranks that share the configuration, the callbacks and the clock
(simulation.py 857-1141) -/
def job (R : Nat) (peer : Tag → Nat → Nat → Nat → Prop) (w : World) (c : RunLoop.Config) (dt : ℚ)
    (base : Nat → RunLoop.Oracle) (dump stop : Nat → Nat → Bool) (n : Nat) (k : RunLoop.Clock) : Job where
  ranks := R
  prog r := match RunLoop.run c dt none none (oracle base dump stop r) (some n) none k with
    | some res => calls w c.nspec res
    | none => []
  peer := peer

/-- the flag `_dump_requested` of a `RestartDump` with `dump_signals` (restart.py 75-78): it stays set once the
handler has run. `seen r` is the step of rank `r` at whose end the flag is first seen set. -/
def signalled (seen : Nat → Nat) (r i : Nat) : Bool := decide (seen r ≤ i)

end Verif.Collective
