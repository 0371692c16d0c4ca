/-!
# A job of several ranks of which one fails (`abort_on_mpi_error`)

Models core/mpi/utils.py 13-45 around `Simulation.run` (simulation/simulation.py 858-1145, `initialize` 284-423).

Every rank runs the same script: steps `0, …, steps - 1`, of which those from `entry` on happen in `Simulation.run` and those before in
code of the user and in calls of `initialize()` before `run`. A step of a rank is either `go`, which can be finished when certain
other ranks have reached that step too (all of them for a collective call, the sender for a receive, none for local work), or
`throw`, a Python exception. Ranks proceed in any order. Simplified: the ranks have the same number of steps (steps of local work
can be added), a message may be waited for only in the step in which it is sent, what the steps compute is left out.
-/
namespace Verif.Job

/-- what a rank does in a step. `throw s` raises an exception that ends a process with exit status `s` (1 for an error, the argument of
`sys.exit` for `SystemExit`); `except BaseException` (utils.py 30) catches them all -/
inductive Op where
  | go (waits : Nat → Bool)
  | throw (status : Nat)

/-- a job: number of ranks, number of steps, first step in `run`, the steps of every rank -/
structure Script where
  ranks : Nat
  steps : Nat
  entry : Nat
  op : Nat → Nat → Op

/-- a rank before step `i`, or out of the script by an exception in step `i` with the exit status of its process -/
inductive Place where
  | before (i : Nat)
  | left (i status : Nat)

/-- a job: the places of its ranks, and the exit status if it was aborted -/
structure State where
  place : Nat → Place
  aborted : Option Nat

/-- all ranks start at step 0 -/
def start : State := ⟨fun _ => .before 0, none⟩

/-- a rank has reached step `i`: it is in this step or has finished it -/
def Place.reached (i : Nat) : Place → Bool
  | .before j => decide (i ≤ j)
  | .left j _ => decide (i < j)

def State.put (J : State) (r : Nat) (p : Place) : State := { J with place := fun s => if s = r then p else J.place s }

/-- the wrapper of `run` when an exception passes (utils.py 27-43): with more than one rank `comm.Abort(1)` ends all processes of the
job, with one rank the exception is raised again. An exception outside of `run` leaves the script of its rank only. -/
def caught (P : Script) (r i status : Nat) (J : State) : State :=
  if P.entry ≤ i ∧ 1 < P.ranks then { J with aborted := some 1 } else J.put r (.left i status)

/-- rank `r` proceeds by one step; `none` if it cannot: the job was aborted, the rank is at its end, or it waits for another rank -/
def move (P : Script) (r : Nat) (J : State) : Option State :=
  match J.aborted with
  | some _ => none
  | none =>
    match J.place r with
    | .left _ _ => none
    | .before i =>
      if P.steps ≤ i then none
      else match P.op r i with
        | .throw status => some (caught P r i status J)
        | .go waits =>
          if (List.range P.ranks).all fun s => !waits s || (J.place s).reached i then some (J.put r (.before (i + 1))) else none

end Verif.Job
