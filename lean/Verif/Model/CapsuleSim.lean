import Verif.Model.Capsule

/-!
# What a simulation does with the exchanges

The calls into the exchange functions that a simulation makes, as the operations of `Verif.Model.Capsule`: which
exchanges are started, waited for and dropped, and when. Capsules are dropped as CPython drops them: when the last
variable that refers to them gets another value or goes away.

Models simulation/simulation.py 261-262, 743-762, 925-1132, 1143-1188, core/mpi/mpi_manager.py 105-195, 208-298.

Simplifications. What happens between the calls is present only where it creates or releases arrays. The exchanges of
guard cells of the electric and the magnetic field use two variables, which are the same in both half steps.
-/
namespace Verif.Capsule

variable {A : Type}

/-- the arguments of an exchange of guard cells -/
structure GuardArgs (A : Type) where
  np : Nat
  nb : Nat
  na : Nat
  rank : Nat → Nat → Int
  arr : Nat → Nat → A

/-- the arguments of an exchange of currents -/
structure CurrentArgs (A : Type) where
  np : Nat
  nb : Nat
  rank : Nat → Nat → Int
  j : Nat → Nat → A

/-- the exchange of the particles of one species: the arrays released and created by `extend` before it
(mpi_manager.py 126-129, 229-232) and the arguments -/
structure SpeciesArgs (A : Type) where
  gone : List A
  new : List A
  dim : Nat
  np : Nat
  nb : Nat
  na : Nat
  rank : Nat → Nat → Int
  out : Nat → Nat
  inc : Nat → Nat
  arrs : Nat → List A

def GuardArgs.start (g : GuardArgs A) : Start A := .guard g.np g.nb g.na g.rank g.arr
def CurrentArgs.start (c : CurrentArgs A) : Start A := .currents c.np c.nb c.rank c.j
/-- the attributes passed are those of the species, which contain the positions (mpi_manager.py 140, 243) -/
def SpeciesArgs.start (s : SpeciesArgs A) : Start A := .particles s.dim s.np s.nb s.na true s.rank s.out s.inc s.arrs

/-- What the simulation and its callbacks do, in any order. -/
inductive Call (A : Type) where
  /-- `self.current_synced = False`: currents reset or deposited (simulation.py 982, 991, 1038) -/
  | deposit
  /-- `Simulation.sync_currents_start` (1155-1176) -/
  | currentsStart (c : CurrentArgs A)
  /-- `Simulation.sync_currents_wait` (1178-1188) -/
  | currentsWait
  /-- `Simulation.sync_currents` (1143-1153) -/
  | currents (c : CurrentArgs A)
  /-- start, local exchange and wait of the electric field (947-952, 1113-1118) -/
  | guardE (g : GuardArgs A)
  /-- the same for the magnetic field (955-960, 1103-1108) -/
  | guardB (g : GuardArgs A)
  /-- `MPIManager.sync_guard_fields` (mpi_manager.py 150-154, 253-257), from `maxwell_stage` (simulation.py 755-761) -/
  | guardOnce (g : GuardArgs A)
  /-- the exchange of the particles of all species (1067-1074) -/
  | particles (l : List (SpeciesArgs A))
  /-- arrays replaced: new particles, patches migrated by the load balancer (1051-1065, 1082-1088) -/
  | arrays (new gone : List A)
  /-- `run` returns or an exception leaves it: its local variables go away -/
  | leave
  /-- an exception between the start and the wait of an exchange of guard cells (947-952) -/
  | breakGuard (g : GuardArgs A)
  /-- an exception after the exchanges of the species in `l` have been started and before the first wait (1070-1074) -/
  | breakParticles (l : List (SpeciesArgs A))

/-- The state: `current_synced`, `_current_sync_handle` and the local variables of `run` that hold capsules:
`e_sync_handle`, `b_sync_handle`, `particle_sync_handles`, and the loop variable `h` when the list no longer contains
its capsule. `next` is a name not used so far. -/
structure Sim where
  synced : Bool
  handle : Option Nat
  e : Option Nat
  b : Option Nat
  ps : List Nat
  h : Option Nat
  next : Nat

/-- a simulation before its first run (simulation.py 261-263) -/
def Sim.init : Sim := ⟨false, none, none, none, [], none, 0⟩

/-- the capsule in a variable dropped -/
def dropVar : Option Nat → List (Op A)
  | none => []
  | some id => [.drop id]

/-- `Simulation.sync_currents_start` (simulation.py 1155-1176); with one rank the manager returns `None`
(mpi_manager.py 181-182, 284-285) -/
def currentsStart (ranks : Nat) (c : CurrentArgs A) (s : Sim) : List (Op A) × Sim :=
  if s.synced || s.handle.isSome then ([], s)
  else if ranks = 1 then ([], { s with synced := true })
  else ([.start s.next c.start], { s with handle := some s.next, next := s.next + 1 })

/-- `Simulation.sync_currents_wait` (simulation.py 1178-1188): `_current_sync_handle = None` drops the capsule -/
def currentsWait (s : Sim) : List (Op A) × Sim :=
  match s.handle with
  | none => ([], s)
  | some id => ([.wait id, .drop id], { s with handle := none, synced := true })

/-- one species of the loop that starts the exchanges: the arrays are resized, the exchange is started, its capsule
is appended to the list (simulation.py 1071-1072, mpi_manager.py 111-142, 214-245) -/
def startSpecies : List (SpeciesArgs A) → Nat → List (Op A)
  | [], _ => []
  | s :: l, n => s.gone.map .dropArray ++ s.new.map .newArray ++ .start n s.start :: startSpecies l (n + 1)

/-- The exchange of all species (simulation.py 1070-1074). The empty list drops the capsules of the last step except
the one in `h`; the first iteration of the second loop drops that one. -/
def particles (l : List (SpeciesArgs A)) (s : Sim) : List (Op A) × Sim :=
  let ids := List.range' s.next l.length
  let kept := s.ps.getLast?.orElse fun _ => s.h
  (s.ps.dropLast.map .drop ++ startSpecies l s.next ++
    (match ids with
      | [] => []
      | id :: rest => dropVar kept ++ .wait id :: rest.map .wait),
    { s with ps := ids, h := if ids = [] then kept else none, next := s.next + l.length })

/-- the local variables of `run` go away -/
def leave (s : Sim) : List (Op A) × Sim :=
  (dropVar s.e ++ dropVar s.b ++ s.ps.map .drop ++ dropVar s.h, { s with e := none, b := none, ps := [], h := none })

/-- the operations of a call -/
def emit (ranks : Nat) (s : Sim) : Call A → List (Op A) × Sim
  | .deposit => ([], { s with synced := false })
  | .currentsStart c => currentsStart ranks c s
  | .currentsWait => currentsWait s
  | .currents c =>
    if s.synced then ([], s)
    else
      let (o₁, s₁) := currentsStart ranks c s
      let (o₂, s₂) := currentsWait s₁
      (o₁ ++ o₂, s₂)
  | .guardE g =>
    if ranks = 1 then ([], s)
    else (.start s.next g.start :: dropVar s.e ++ [.wait s.next], { s with e := some s.next, next := s.next + 1 })
  | .guardB g =>
    if ranks = 1 then ([], s)
    else (.start s.next g.start :: dropVar s.b ++ [.wait s.next], { s with b := some s.next, next := s.next + 1 })
  | .guardOnce g =>
    if ranks = 1 then ([], s)
    else ([.start s.next g.start, .wait s.next, .drop s.next], { s with next := s.next + 1 })
  | .particles l =>
    if ranks = 1 then ([], s) else particles l s
  | .arrays new gone => (gone.map .dropArray ++ new.map .newArray, s)
  | .leave => leave s
  | .breakGuard g =>
    if ranks = 1 then leave s
    else
      let (o, s') := leave { s with next := s.next + 1 }
      (.start s.next g.start :: .drop s.next :: o, s')
  | .breakParticles l =>
    if ranks = 1 then leave s
    else
      let (o, s') := leave { s with
        ps := List.range' s.next l.length
        h := s.ps.getLast?.orElse fun _ => s.h
        next := s.next + l.length }
      (s.ps.dropLast.map .drop ++ startSpecies l s.next ++ o, s')

/-- the operations of a history of calls, and the state after it -/
def emits (ranks : Nat) (calls : List (Call A)) : List (Op A) × Sim :=
  calls.foldl (fun r c => let (o, s) := emit ranks r.2 c; (r.1 ++ o, s)) ([], Sim.init)

end Verif.Capsule
