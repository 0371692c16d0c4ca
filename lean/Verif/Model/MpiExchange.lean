import Verif.Model.Geometry
import Verif.Model.MpiFields
/-!
# Model of the particle exchange between ranks

`src/lambdapic/core/mpi/sync_particles_2d.c`, `sync_particles_3d.c`, their driver in
`src/lambdapic/core/mpi/mpi_manager.py` (105-148 in 2D, 208-251 in 3D), and the order in which the run
loop calls it (simulation.py 1066-1077): the exchange between ranks first, then the exchange inside each
rank (`Verif/Model/Exchange.lean`).

The patches of all ranks are numbered globally (`index`), `g.nbr` being the neighbours on *other* ranks
(`neighbor_index` where `neighbor_rank >= 0`); see `SyncFields.remoteNbr`.  As for the exchange inside a
rank, the 2D and 3D files differ only in the boundary enum, the branch tree and the wrapped coordinates,
so the same record `Exchange.Geo` is used.  `g.cls` and `g.clsI` are here the branch trees of
`count_outgoing_particles` and of `get_outgoing_indices`; they are the same trees, branch by branch, as
those of the exchange inside a rank (compare mpi/sync_particles_2d.c 82-120, 132-187 with
patch/sync_particles_2d.c 37-84, 95-143, and mpi/sync_particles_3d.c 123-230, 245-325 with
patch/sync_particles_3d.c 79-193, 204-299), and `handle_periodic` is the same function.

`none` is undefined behaviour: a write outside an allocated array, a read of an entry never written, a
search for a dead slot that runs past the end of the array.

Simplifications: message `(patch, boundary)` reaches the receive posted for the opposite boundary of
the neighbour, which is what the tags ensure (`Verif/Model/Tags.lean`, C29); one species; the flattened
buffers are lists of attribute vectors; allocation never fails.
-/
namespace Verif.MpiExchange
open Verif.Exchange
variable {A D : Type} [DecidableEq D]

/-- `npart_outgoing` (mpi/sync_particles_2d.c 668-696, 3d 840-870): the counters of the boundaries
behind which there is another rank, zero elsewhere -/
def outgoing (g : Geo A D) (s : Nat → List (Slot A)) (ip : Nat) (d : D) : Nat :=
  match g.nbr ip d with
  | none => 0
  | some _ => countOut (g.cls ip) (s ip) d

/-- `npart_incoming` (mpi/sync_particles_2d.c 698-727, 3d 872-901): the count received from the
neighbour for its opposite boundary -/
def incoming (g : Geo A D) (s : Nat → List (Slot A)) (ip : Nat) (d : D) : Nat :=
  match g.nbr ip d with
  | none => 0
  | some q => outgoing g s q (g.opp d)

/-- `npart_new` (mpi/sync_particles_2d.c 730-739, 3d 904-913) -/
def newcomers (g : Geo A D) (s : Nat → List (Slot A)) (ip : Nat) : Nat :=
  g.dirs.foldl (fun acc d => match g.nbr ip d with
    | none => acc
    | some _ => acc + incoming g s ip d) 0

/-- `npart_to_extend` (mpi/sync_particles_2d.c 740-758, 3d 914-932): unlike inside a rank, exactly the missing slots -/
def toExtend (ndead new : Nat) : Nat :=
  if new = 0 then 0 else if 0 < (new : Int) - ndead then new - ndead else 0

/-- the arrays after `extend` (mpi_manager.py 126-129) -/
def extended (g : Geo A D) (s : Nat → List (Slot A)) (ip : Nat) : List (Slot A) :=
  extendSlots g (s ip) (toExtend (nDead (s ip)) (newcomers g s ip))

/-- `get_outgoing_indices` (mpi/sync_particles_2d.c 124-189, 3d 232-326), from particle `k` on.
`len d` is the allocated length of `outgoing_indices[d]`, zero standing for `NULL` (383-399); `acc d`
are the entries written so far, so `ibuff[d]` is its length. -/
def outIndices (cls : A → Option D) (len : D → Nat) :
    Nat → List (Slot A) → (D → List Nat) → Option (D → List Nat)
  | _, [], acc => some acc
  | k, s :: rest, acc =>
    if s.dead then outIndices cls len (k + 1) rest acc else
    match cls s.a with
    | none => outIndices cls len (k + 1) rest acc
    | some d =>
      if len d = 0 then outIndices cls len (k + 1) rest acc
      else if (acc d).length < len d then
        outIndices cls len (k + 1) rest fun e => if e = d then acc e ++ [k] else acc e
      else none

/-- `is_dead[idx] = 1` for the indices sent (mpi/sync_particles_2d.c 425-429, 3d 574-578) -/
def markAt (slots : List (Slot A)) (idx : List Nat) : List (Slot A) :=
  idx.foldl (fun l i => l.modify i fun s => ⟨s.a, true⟩) slots

/-- the boundary loop of `fill_particles_from_boundary_2d_start` for one patch
(mpi/sync_particles_2d.c 402-430, 3d 551-579): for each boundary with another rank behind it copy the
outgoing particles into the send buffer, post it, mark them dead. Result: the messages and the slots. -/
def sendLoop (g : Geo A D) (len : D → Nat) (ip : Nat) (idx : D → List Nat) :
    List D → (D → List A) × List (Slot A) → Option ((D → List A) × List (Slot A))
  | [], st => some st
  | d :: ds, st =>
    match g.nbr ip d with
    | none => sendLoop g len ip idx ds st
    | some _ =>
      match (List.range (len d)).mapM fun j => (idx d)[j]? with
      | none => none
      | some js =>
        match js.mapM fun j => (st.2[j]?).map Slot.a with
        | none => none
        | some buf =>
          sendLoop g len ip idx ds (fun e => if e = d then buf else st.1 e, markAt st.2 js)

/-- `fill_particles_from_boundary_2d_start` for patch `ip`, whose slots are `slots`
(mpi/sync_particles_2d.c 370-434) -/
def sendPatch (g : Geo A D) (len : D → Nat) (ip : Nat) (slots : List (Slot A)) :
    Option ((D → List A) × List (Slot A)) :=
  match outIndices (g.clsI ip) len 0 slots (fun _ => []) with
  | none => none
  | some idx => sendLoop g len ip idx g.dirs (fun _ => [], slots)

/-- writing one received buffer (mpi/sync_particles_2d.c 526-551): `ipart` moves on to the next dead
slot, the wrapped particle is written there; `none` if there is no dead slot left -/
def place (wrap : A → A) : List (Slot A) → List A → Option (List (Slot A))
  | l, [] => some l
  | [], _ :: _ => none
  | s :: rest, b :: bs =>
    if s.dead then (place wrap rest bs).map (⟨wrap b, false⟩ :: ·)
    else (place wrap rest (b :: bs)).map (s :: ·)

/-- the buffers received by patch `ip`, in boundary order, `npart_incoming` particles of each
(mpi/sync_particles_2d.c 436-452, 518-526); `none` = an entry that was not sent is used -/
def received (g : Geo A D) (inc : D → Nat) (msg : Nat → D → List A) (ip : Nat) :
    List D → Option (List A)
  | [] => some []
  | d :: ds =>
    match g.nbr ip d with
    | none => if inc d = 0 then received g inc msg ip ds else none
    | some q =>
      match (List.range (inc d)).mapM fun j => (msg q (g.opp d))[j]? with
      | none => none
      | some b => (received g inc msg ip ds).map (b ++ ·)

/-- `fill_particles_from_boundary_2d_wait` for patch `ip` (mpi/sync_particles_2d.c 513-553, 3d 670-718).
The cursor `ipart` is not reset between boundaries, so the buffers are written as one sequence. -/
def recvPatch (g : Geo A D) (inc : D → Nat) (msg : Nat → D → List A) (ip : Nat)
    (slots : List (Slot A)) : Option (List (Slot A)) :=
  match received g inc msg ip g.dirs with
  | none => none
  | some buf => place (g.wrap ip) slots buf

/-- the value of `f p` for every patch, if none is undefined -/
def forAll {β : Type} (n : Nat) (f : Nat → Option β) (dflt : Nat → β) : Option (Nat → β) :=
  match (List.range n).mapM f with
  | none => none
  | some l => some fun p => l.getD p (dflt p)

/-- `sync_particles_start` on every rank followed by `sync_particles_wait` on every rank for one species
(mpi_manager.py 111-148).  What a patch sends depends on its own arrays only, and they are not written
to before `_wait`, so all messages are those of the state before the exchange. -/
def mpiSync (g : Geo A D) (s : Nat → List (Slot A)) : Option (Nat → List (Slot A)) :=
  match forAll g.npatches (fun ip => sendPatch g (outgoing g s ip) ip (extended g s ip))
      (fun _ => (fun _ => [], [])) with
  | none => none
  | some snt =>
    forAll g.npatches (fun ip => recvPatch g (incoming g s ip) (fun q => (snt q).1) ip (snt ip).2) s

/-- the same geometry with another neighbour table -/
def withNbr (g : Geo A D) (nbr : Nat → D → Option Nat) : Geo A D := { g with nbr := nbr }

/-- One particle exchange of the run loop (simulation.py 1066-1077) on ranks given by `rk`: between
ranks, then inside each rank (the loops of different ranks touch different patches, so they are one loop
over all patches with the neighbours of the same rank). -/
def parSync (g : Geo A D) (rk : Nat → Nat) (ord2 ord3 : List Nat) (s : Nat → List (Slot A)) :
    Option (Nat → List (Slot A)) :=
  match mpiSync (withNbr g (SyncFields.remoteNbr rk g.nbr)) s with
  | none => none
  | some s1 => syncParticles (withNbr g (SyncFields.localNbr rk g.nbr)) ord2 ord3 s1

end Verif.MpiExchange
