/-!
# Thread interleavings

Parallel loops (`#pragma omp parallel for`, `prange`) are modelled as threads, each with a list of
atomic steps on a shared memory; an execution is any list of steps whose projection to each thread is
that thread's program.
-/
namespace Verif.Interleave

/-- one atomic step on a shared memory -/
abbrev Step (L V : Type) := (L → V) → (L → V)

/-- run a list of steps -/
def run {L V : Type} (steps : List (Step L V)) (m : L → V) : L → V := steps.foldl (fun m f => f m) m

/-- the steps of thread `t` in a schedule, in order -/
def proj {L V : Type} (t : Nat) (sched : List (Nat × Step L V)) : List (Step L V) :=
  (sched.filter fun x => x.1 == t).map Prod.snd

/-- `sched` is an execution of the programs `prog 0 … prog (n-1)` -/
def IsSchedule {L V : Type} (n : Nat) (prog : Nat → List (Step L V)) (sched : List (Nat × Step L V)) :
    Prop :=
  ∀ t, proj t sched = if t < n then prog t else []

end Verif.Interleave
