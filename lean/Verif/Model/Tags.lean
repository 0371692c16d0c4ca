import Verif.Model.MpiFields
/-!
# Message tags of the exchanges between ranks

Models the posted sends and receives of `core/mpi/sync_particles_2d.c`/`_3d.c` and
`sync_fields2d.c`/`_3d.c`. Each kind of exchange has its own communicator (mpi_manager.py 17-25), so the
tags of one kind only have to be distinct among themselves. `nbr p b` are the remote neighbours
(`neighbor_rank >= 0`), `rk p` the rank of patch `p`; `num b` is the number of boundary `b` in the C enum.
-/
namespace Verif.Tags

/-- `(index*NUM_BOUNDARIES + ibound)*m + j`: particles with `m = nspec`, `j = ispec`
(sync_particles_2d.c 418, 447, 715-716; sync_particles_3d.c 567, 596, 889-890) -/
def particleTag (NB nspec index ibound ispec : Nat) : Nat := (index * NB + ibound) * nspec + ispec

/-- tags of the current exchange (sync_fields2d.c 424-425, sync_fields3d.c 775-776) -/
def currentTag (NB index ibound : Nat) : Nat := index * NB + ibound

/-- tags of the guard exchange (sync_fields2d.c 577-578, sync_fields3d.c 933-934) -/
def guardTag (NB nattrs index ibound iattr : Nat) : Nat :=
  index * NB * nattrs + ibound * nattrs + iattr

/-- number of a boundary in the C enum (sync_fields2d.c 20-30) -/
def num2 (b : B2) : Nat := B2.all.idxOf b

/-- number of a boundary in the C enum (sync_fields3d.c 20-52) -/
def num3 (b : B3) : Nat := B3.all.idxOf b

/-- what a message carries: particle numbers, or particles/field values; sender patch, sender boundary,
species or field attribute -/
inductive Content (D : Type)
  | count (p : Nat) (b : D) (j : Nat)
  | data (p : Nat) (b : D) (j : Nat)
deriving DecidableEq

/-- a posted `MPI_Isend`/`MPI_Irecv`: the other rank, the tag, and what is sent or expected -/
structure Post (D : Type) where
  peer : Nat
  tag : Nat
  what : Content D
deriving DecidableEq

/-- one exchange: number of boundaries, boundary numbers, opposite boundaries, remote neighbours, ranks,
items per boundary (species or attributes), tag formula, and for each rank its (patch, boundary) pairs in
the order its threads reach them -/
structure Exchange (D : Type) where
  num : D → Nat
  opp : D → D
  nbr : Nat → D → Option Nat
  rk : Nat → Nat
  items : Nat
  tag : Nat → Nat → Nat → Nat
  order : Nat → List (Nat × D)

/-- the (patch, boundary) pairs of rank `r` that have a remote neighbour, with that neighbour: the loop over
patches and boundaries with `if (neighbor_rank < 0) continue` (sync_fields2d.c 400-413) -/
def Exchange.remote {D : Type} (x : Exchange D) (r : Nat) : List (Nat × D × Nat) :=
  (x.order r).filterMap fun e => (x.nbr e.1 e.2).map fun q => (e.1, e.2, q)

/-- the send of item `j` across `(p, b)` towards `q`: tag from the own index and boundary
(sync_particles_2d.c 418, sync_fields2d.c 424, 577) -/
def Exchange.sendPost {D : Type} (x : Exchange D) (kind : Nat → D → Nat → Content D) (j : Nat)
    (e : Nat × D × Nat) : Post D :=
  ⟨x.rk e.2.2, x.tag e.1 (x.num e.2.1) j, kind e.1 e.2.1 j⟩

/-- the receive of item `j` across `(p, b)` from `q`: tag from the neighbour's index and the opposite
boundary (sync_particles_2d.c 447, sync_fields2d.c 425, 578) -/
def Exchange.recvPost {D : Type} (x : Exchange D) (kind : Nat → D → Nat → Content D) (j : Nat)
    (e : Nat × D × Nat) : Post D :=
  ⟨x.rk e.2.2, x.tag e.2.2 (x.num (x.opp e.2.1)) j, kind e.2.2 (x.opp e.2.1) j⟩

/-- sends of a field exchange on rank `r`, in the order they are posted (sync_fields2d.c 400-440, 565-590) -/
def Exchange.fieldSends {D : Type} (x : Exchange D) (r : Nat) : List (Post D) :=
  (List.range x.items).flatMap fun j => (x.remote r).map (x.sendPost .data j)

/-- receives of a field exchange on rank `r` -/
def Exchange.fieldRecvs {D : Type} (x : Exchange D) (r : Nat) : List (Post D) :=
  (List.range x.items).flatMap fun j => (x.remote r).map (x.recvPost .data j)

/-- sends of the particle exchange of all species on rank `r`: per species first the numbers of leaving
particles (sync_particles_2d.c 706-730), then the particles where the number is not zero (411-425); `out`
are the numbers of leaving particles (simulation.py 1104-1112 starts all species in turn) -/
def Exchange.particleSends {D : Type} (x : Exchange D) (out : Nat → D → Nat → Nat) (r : Nat) :
    List (Post D) :=
  (List.range x.items).flatMap fun j => (x.remote r).map (x.sendPost .count j) ++
    ((x.remote r).filter fun e => decide (out e.1 e.2.1 j > 0)).map (x.sendPost .data j)

/-- receives of the particle exchange on rank `r`: the particle message is expected where the received number
is not zero (sync_particles_2d.c 436-452); that number is the one the neighbour counted -/
def Exchange.particleRecvs {D : Type} (x : Exchange D) (out : Nat → D → Nat → Nat) (r : Nat) :
    List (Post D) :=
  (List.range x.items).flatMap fun j => (x.remote r).map (x.recvPost .count j) ++
    ((x.remote r).filter fun e => decide (out e.2.2 (x.opp e.2.1) j > 0)).map (x.recvPost .data j)

/-- the posts of one rank that concern one channel: the given peer and tag, in program order -/
def channel {D : Type} (posts : List (Post D)) (peer tag : Nat) : List (Content D) :=
  (posts.filter fun x => decide (x.peer = peer ∧ x.tag = tag)).map Post.what

/-- `check_tag_ub` (sync_particles_2d.c 40-72, sync_particles_3d.c 82-114): `indices` are the own patch
indices and all their `neighbor_index` entries; `true` when the exchange is refused -/
def checkTagUb (NB nspec ub : Nat) (indices : List Nat) : Bool :=
  decide ((indices.foldl max 0 * NB + (NB - 1)) * nspec + (nspec - 1) > ub)

/-- particle exchange in 2D: `nspec` species, 8 boundaries (sync_particles_2d.c 15-30, 418, 447, 715-716) -/
def particles2 (rk : Nat → Nat) (nbr : Nat → B2 → Option Nat) (order : Nat → List (Nat × B2)) (nspec : Nat) :
    Exchange B2 :=
  ⟨num2, B2.opp, SyncFields.remoteNbr rk nbr, rk, nspec, particleTag 8 nspec, order⟩

/-- current exchange in 2D: one message per boundary with all four arrays (sync_fields2d.c 400-440) -/
def currents2 (rk : Nat → Nat) (nbr : Nat → B2 → Option Nat) (order : Nat → List (Nat × B2)) : Exchange B2 :=
  ⟨num2, B2.opp, SyncFields.remoteNbr rk nbr, rk, 1, fun p b _ => currentTag 8 p b, order⟩

/-- guard exchange in 2D: one message per boundary and attribute (sync_fields2d.c 565-590) -/
def guards2 (rk : Nat → Nat) (nbr : Nat → B2 → Option Nat) (order : Nat → List (Nat × B2)) (nattrs : Nat) :
    Exchange B2 :=
  ⟨num2, B2.opp, SyncFields.remoteNbr rk nbr, rk, nattrs, guardTag 8 nattrs, order⟩

/-- particle exchange in 3D: 26 boundaries (sync_particles_3d.c 567, 596, 889-890) -/
def particles3 (rk : Nat → Nat) (nbr : Nat → B3 → Option Nat) (order : Nat → List (Nat × B3)) (nspec : Nat) :
    Exchange B3 :=
  ⟨num3, B3.opp, SyncFields.remoteNbr rk nbr, rk, nspec, particleTag 26 nspec, order⟩

/-- current exchange in 3D (sync_fields3d.c 750-790) -/
def currents3 (rk : Nat → Nat) (nbr : Nat → B3 → Option Nat) (order : Nat → List (Nat × B3)) : Exchange B3 :=
  ⟨num3, B3.opp, SyncFields.remoteNbr rk nbr, rk, 1, fun p b _ => currentTag 26 p b, order⟩

/-- guard exchange in 3D (sync_fields3d.c 920-950) -/
def guards3 (rk : Nat → Nat) (nbr : Nat → B3 → Option Nat) (order : Nat → List (Nat × B3)) (nattrs : Nat) :
    Exchange B3 :=
  ⟨num3, B3.opp, SyncFields.remoteNbr rk nbr, rk, nattrs, guardTag 26 nattrs, order⟩

end Verif.Tags
