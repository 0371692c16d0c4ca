import Mathlib.Data.Real.Basic
/-!
# The load balancer over the steps of a run

Models `LoadBalancer.__init__` 47-53, `__call__` 55-80 (the threshold), `_default_load_function` 82-101, `_gather_loads`
103-121, `update_weights` 239-246 and `should_rebalance` 248-270 of core/mpi/load_balancer.py, and the call in
simulation/simulation.py 1080-1087. Moving the patches is in `Verif.Model.LoadBalance`. Loads are real numbers; the loads of a
rank after patches were moved are arbitrary.
-/
namespace Verif.Balance

/-- `_default_load_function` (load_balancer.py 82-101): the published numbers of living particles of the species of a patch, and
its number of cells -/
noncomputable def defaultLoad (alive : List Nat) (cells : Nat) : ℝ := alive.foldl (fun (l : ℝ) (n : Nat) => l + (n : ℝ)) 0 + (cells : ℝ) / 2

/-- `_gather_loads` (load_balancer.py 103-121) on rank 0: what every rank sent, its loads and the numbers of its patches -/
def gather (all : List (List ℝ × List Nat)) : List ℝ :=
  all.foldl (fun g x => (x.1.zip x.2).foldl (fun g y => g.set y.2 y.1) g)
    (List.replicate ((all.map fun x => x.1.length).sum) 0)

/-- load_balancer.py 258-270: the decision from the gathered totals -/
noncomputable def decision (threshold : ℝ) (totals : List ℝ) : Bool :=
  let mx := totals.foldl max (totals.headD 0)
  let mn := totals.foldl min (totals.headD 0)
  let avg := totals.sum / totals.length
  if avg = 0 then false else decide ((mx - mn) / avg > threshold)

/-- `should_rebalance` (load_balancer.py 248-270) on `R` ranks, each with its own threshold. A rank without patches returns before
the `allgather`; `none`: some ranks wait in it for ever. -/
noncomputable def shouldRebalance (R : Nat) (thr : Nat → ℝ) (loads : Nat → List ℝ) : Option (Nat → Bool) :=
  if (List.range R).all fun r => (loads r).isEmpty then some fun _ => false
  else if (List.range R).any fun r => (loads r).isEmpty then none
  else some fun r => decision (thr r) ((List.range R).map fun r => (loads r).sum)

/-- what a step did -/
inductive Outcome
  | keep
  | balanced
  | unbalanced
deriving DecidableEq

/-- one step of the run (simulation.py 1080-1087 and load_balancer.py 55-80): the loads of the ranks before, and after the patches
were moved, `inc = e/2`, `dec = 3/π`. `none`: ranks wait for ever, because only some of them called the balancer or entered the
`allgather`. -/
noncomputable def step (R : Nat) (inc dec init : ℝ) (thr : Nat → ℝ) (before after : Nat → List ℝ) :
    Option ((Nat → ℝ) × Outcome) :=
  if R ≤ 1 then some (thr, .keep)
  else do
    let d ← shouldRebalance R thr before
    if (List.range R).all fun r => !d r then some (thr, .keep)
    else if (List.range R).all fun r => d r then
      let d' ← shouldRebalance R thr after
      some (fun r => if d' r then thr r * inc else if thr r > init then thr r * dec else thr r,
        if d' 0 then .unbalanced else .balanced)
    else none

/-- the steps of a run: the thresholds after and what each step did -/
noncomputable def run (R : Nat) (inc dec init : ℝ) : (Nat → ℝ) → List ((Nat → List ℝ) × (Nat → List ℝ)) →
    Option ((Nat → ℝ) × List Outcome)
  | thr, [] => some (thr, [])
  | thr, (b, a) :: rest => do
    let (thr1, o) ← step R inc dec init thr b a
    let (thr2, os) ← run R inc dec init thr1 rest
    some (thr2, o :: os)

/-- a run of the code: all ranks start with the configured threshold (load_balancer.py 50-53) -/
noncomputable def start (R : Nat) (inc dec init : ℝ) (h : List ((Nat → List ℝ) × (Nat → List ℝ))) :
    Option ((Nat → ℝ) × List Outcome) := run R inc dec init (fun _ => init) h

end Verif.Balance
