import Verif.Model.Message
import Mathlib.Data.List.Sort
/-!
# Load balancing: who gets which patch, and the exchange

Models `LoadBalancer._compute_distribution`, `_exchange` (/repo/src/lambdapic/core/mpi/load_balancer.py
121-224), `should_rebalance` (247-269) and `Patches.append`, `Patches.pop`
(/repo/src/lambdapic/core/patch/patch.py 418-438).  A patch is its index, its rank and the rest
(`data`: fields, particles, geometry), which `dill` copies unchanged.  Collectives (`gather`, `scatter`,
`bcast`, `allgather`) are functions of the contributions of all ranks.  Simplification: a
`{p.index: ...}` dictionary's key order is the list order (indices are distinct).
-/
namespace Verif.LoadBalance
open Verif.Message

/-- patch.py 25-120: the attributes the balancer looks at, and all the others -/
structure Patch (α : Type) where
  index : Nat
  rank : Nat
  data : α
deriving DecidableEq

/-- patch.py 389-420: `Patches.patches`, `Patches.indices` -/
structure Patches (α : Type) where
  patches : List (Patch α)
  indices : List Nat

variable {α : Type}

/-- patch.py 418-423 -/
def Patches.append (ps : Patches α) (p : Patch α) : Patches α :=
  ⟨ps.patches ++ [p], ps.indices ++ [p.index]⟩

/-- patch.py 432-438; `none` = `ValueError` / `IndexError` -/
def Patches.pop (ps : Patches α) (idx : Nat) : Option (Patch α × Patches α) :=
  if idx ∈ ps.indices then
    match ps.patches[ps.indices.idxOf idx]? with
    | none => none
    | some p => some (p, ⟨ps.patches.eraseIdx (ps.indices.idxOf idx), ps.indices.erase idx⟩)
  else none

/-- load_balancer.py 203-205: pop all the patches to send -/
def popAll (ps : Patches α) : List Nat → Option (List (Patch α) × Patches α)
  | [] => some ([], ps)
  | i :: is =>
    match ps.pop i with
    | none => none
    | some (p, ps1) =>
      match popAll ps1 is with
      | none => none
      | some (q, ps2) => some (p :: q, ps2)

/-- load_balancer.py 139-144: indices of all skeletons, sorted -/
def allSorted (R : Nat) (own : Nat → Patches α) : List Nat :=
  ((List.range R).flatMap fun r => (own r).patches.map (·.index)).insertionSort (· ≤ ·)

/-- load_balancer.py 154-167: index → new rank -/
def assignment (R : Nat) (own : Nat → Patches α) (newRanks : List Nat) : List (Nat × Nat) :=
  (allSorted R own).zip newRanks

/-- load_balancer.py 162-166: the indices of `patches_list[r]`, the skeletons scattered to rank `r` -/
def patchesNew (R : Nat) (own : Nat → Patches α) (newRanks : List Nat) (r : Nat) : List Nat :=
  ((assignment R own newRanks).filter fun x => x.2 = r).map (·.1)

/-- load_balancer.py 163-167: the dictionary `index_to_new_rank` (last entry wins) -/
def indexToNew (R : Nat) (own : Nat → Patches α) (newRanks : List Nat) (idx : Nat) : Option Nat :=
  (assignment R own newRanks).reverse.lookup idx

/-- load_balancer.py 197-200: the dictionary `index_to_old_rank` (last rank wins) -/
def indexToOld (own : Nat → Patches α) (R : Nat) (idx : Nat) : Option Nat :=
  (List.range R).foldl (fun acc r => if idx ∈ (own r).patches.map (·.index) then some r else acc) none

/-- what a rank is going to do in `_exchange` -/
structure Plan (α : Type) where
  /-- patches left after popping the outgoing ones -/
  kept : Patches α
  /-- destination, tag, patch -/
  sends : List (Nat × Nat × Patch α)
  /-- source, tag -/
  recvs : List (Nat × Nat)

/-- load_balancer.py 207-212: destination and tag of each patch to send; `none` = `KeyError` -/
def sendList (R : Nat) (own : Nat → Patches α) (newRanks : List Nat) (out : List (Patch α)) :
    Option (List (Nat × Nat × Patch α)) :=
  out.mapM fun p => (indexToNew R own newRanks p.index).map fun d => (d, p.index, p)

/-- load_balancer.py 214-219: source and tag of each patch to receive; `none` = `KeyError` -/
def recvList (R : Nat) (own : Nat → Patches α) (r : Nat) : List Nat → Option (List (Nat × Nat))
  | [] => some []
  | i :: is =>
    match indexToOld own R i, recvList R own r is with
    | some s, some l => if s = r then some l else some ((s, i) :: l)
    | _, _ => none

/-- load_balancer.py 184-219 on rank `r` -/
def plan (R : Nat) (own : Nat → Patches α) (newRanks : List Nat) (r : Nat) : Option (Plan α) :=
  let old := (own r).patches.map (·.index)
  let new := patchesNew R own newRanks r
  let toSend := old.filter fun i => i ∉ new
  let toRecv := new.filter fun i => i ∉ old
  match popAll (own r) toSend with
  | none => none
  | some (out, kept) =>
    match sendList R own newRanks out, recvList R own r toRecv with
    | some s, some v => some ⟨kept, s, v⟩
    | _, _ => none

/-- load_balancer.py 219-222: what rank `r` holds after receiving `got` -/
def Plan.finish (p : Plan α) (r : Nat) (got : List (Patch α)) : Patches α :=
  got.foldl (fun ps q => ps.append { q with rank := r }) p.kept

/-- load_balancer.py 247-256 `should_rebalance`, as a rank's answer given what the collective
`allgather` returned; `none` = the rank returned without entering the collective (line 248). -/
def rebalanceCall (localLoads : List Rat) : Option Rat :=
  if localLoads.length = 0 then none else some localLoads.sum

/-- load_balancer.py 258-269: the decision from the gathered totals (never empty) -/
def decision (threshold : Rat) (totals : List Rat) : Bool :=
  let mx := totals.foldl max (totals.headD 0)
  let mn := totals.foldl min (totals.headD 0)
  let avg := totals.sum / totals.length
  if avg = 0 then false else decide ((mx - mn) / avg > threshold)

end Verif.LoadBalance
