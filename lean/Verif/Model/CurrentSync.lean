import Verif.Model.MpiFields
import Verif.Model.RunLoop
/-!
# Synchronisation of the currents during a run

Models `Simulation.sync_currents`, `sync_currents_start`, `sync_currents_wait` (simulation/simulation.py 1143-1188),
the flag `current_synced` and the pending handle, and the places of the run loop that touch the currents
(simulation.py 979-982, 988-991, 1035-1041, 1043, 1080). The ranks execute the same calls (they are collective); one
component of the current of all patches of all ranks is one memory, patches numbered globally as in
`Verif/Model/MpiFields.lean`.

Simplifications: all buffers of a `start` are filled before any element of the matching `wait` is added (for
the other orders of the ranks see `mpi_current_reduction2_partial`); every `+=` is indivisible; callbacks do
not write into the current arrays themselves.
-/
namespace Verif.SyncFields
open Verif.RunLoop (Op Ev Stage)

/-- what does not change: number of ranks, local and remote exchange for a given distribution of the patches -/
structure CurrentSys (k : Nat) (D : Type) where
  nrank : Nat
  loc : (Nat → Nat) → Sync k D
  rem : (Nat → Nat) → Mpi k D

/-- `handle` is `_current_sync_handle`: the distribution of the patches it was made for and the message buffers;
`synced` is `current_synced`; `rk` the rank of each patch -/
structure CurrentSt (k : Nat) (D : Type) where
  mem : Loc k → ℚ
  rk : Nat → Nat
  handle : Option ((Nat → Nat) × (Nat → D → (Fin k → Nat) → ℚ))
  synced : Bool

variable {k : Nat} {D : Type} [DecidableEq D]

/-- `sync_currents_start` (simulation.py 1155-1176): local folding, barrier, buffers filled and sent. On one rank
`mpi.sync_currents_start` returns `None` (mpi_manager.py 180-183). -/
def CurrentSys.Start (S : CurrentSys k D) (s s' : CurrentSt k D) : Prop :=
  if s.synced = true ∨ s.handle.isSome = true then s' = s
  else ∃ m1, (S.loc s.rk).CurrentRun s.mem m1 ∧
    if S.nrank = 1 then s' = { s with mem := m1, synced := true }
    else ∃ (fills : List (MpiStep k D)) (buf0 : Nat → D → (Fin k → Nat) → ℚ), fills.Perm ((S.rem s.rk).elements.map fun e => .fill e.1 e.2.1 e.2.2) ∧
      s' = { s with mem := (fills.foldl (S.rem s.rk).exec ⟨m1, buf0⟩).mem,
                    handle := some (s.rk, (fills.foldl (S.rem s.rk).exec ⟨m1, buf0⟩).buf) }

/-- `sync_currents_wait` (simulation.py 1178-1188): the received buffers are added -/
def CurrentSys.Wait (S : CurrentSys k D) (s s' : CurrentSt k D) : Prop :=
  match s.handle with
  | none => s' = s
  | some h => ∃ adds : List (MpiStep k D), adds.Perm ((S.rem h.1).elements.map fun e => .add e.1 e.2.1 e.2.2) ∧
      s' = { s with mem := (adds.foldl (S.rem h.1).exec ⟨s.mem, h.2⟩).mem, handle := none, synced := true }

/-- `sync_currents` (simulation.py 1143-1153) -/
def CurrentSys.Sync (S : CurrentSys k D) (s s' : CurrentSt k D) : Prop :=
  if s.synced = true then s' = s else ∃ s1, S.Start s s1 ∧ S.Wait s1 s'

/-- what a callback may call -/
inductive Call
  | sync | start | wait
deriving DecidableEq

def CurrentSys.CallRel (S : CurrentSys k D) : Call → CurrentSt k D → CurrentSt k D → Prop
  | .sync => S.Sync
  | .start => S.Start
  | .wait => S.Wait

/-- the calls of all callbacks of one stage, one after the other -/
inductive CurrentSys.Calls (S : CurrentSys k D) : List Call → CurrentSt k D → CurrentSt k D → Prop
  | nil (s) : S.Calls [] s s
  | cons {c cs s s1 s2} : S.CallRel c s s1 → S.Calls cs s1 s2 → S.Calls (c :: cs) s s2

/-- effect of one operation of the run loop on the currents: `δ i` is what species `i` deposits in this step, on all
patches and ranks; `calls` what the callbacks call (simulation.py 979-982 reset, 988-991 and 1035-1038 deposition, 1043,
1080 start and wait, 1085-1088 new distribution of the patches) -/
def CurrentSys.OpRel (S : CurrentSys k D) (δ : Nat → Loc k → ℚ) (calls : Stage → Option Nat → List Call) :
    Op → CurrentSt k D → CurrentSt k D → Prop
  | .resetCurrents => fun s s' => s' = { s with mem := fun _ => 0, synced := false }
  | .unified i => fun s s' => s' = { s with mem := fun l => s.mem l + δ i l, synced := false }
  | .deposit i => fun s s' => s' = { s with mem := fun l => s.mem l + δ i l, synced := false }
  | .syncCurrentsStart => S.Start
  | .syncCurrentsWait => S.Wait
  | .rebalance => fun s s' => ∃ rk', (∀ p, rk' p < S.nrank) ∧ s' = { s with rk := rk' }
  | .stage st i => S.Calls (calls st i)
  | _ => fun s s' => s' = s

/-- a sequence of operations; deposits and calls may depend on the step -/
inductive CurrentSys.Evs (S : CurrentSys k D) (δ : Nat → Nat → Loc k → ℚ)
    (calls : Nat → Stage → Option Nat → List Call) : List Ev → CurrentSt k D → CurrentSt k D → Prop
  | nil (s) : S.Evs δ calls [] s s
  | snoc {evs e s s1 s2} : S.Evs δ calls evs s s1 → S.OpRel (δ e.istep) (calls e.istep) e.op s1 s2 →
      S.Evs δ calls (evs ++ [e]) s s2

/-- the 2D system -/
def currentSys2 (npatches nx ny ng : Nat) (nbr : Nat → B2 → Option Nat) (nrank : Nat) : CurrentSys 2 B2 :=
  ⟨nrank, fun rk => syncCurrents2 nx ny ng npatches (localNbr rk nbr),
    fun rk => mpiCurrents2 nx ny ng npatches (remoteNbr rk nbr)⟩

/-- the 3D system -/
def currentSys3 (npatches nx ny nz ng : Nat) (nbr : Nat → B3 → Option Nat) (nrank : Nat) : CurrentSys 3 B3 :=
  ⟨nrank, fun rk => syncCurrents3 nx ny nz ng npatches (localNbr rk nbr),
    fun rk => mpiCurrents3 nx ny nz ng npatches (remoteNbr rk nbr)⟩

end Verif.SyncFields
