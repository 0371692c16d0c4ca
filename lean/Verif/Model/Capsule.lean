import Mathlib.Data.Finset.Basic
import Mathlib.Data.List.Basic

/-!
# Memory and requests of the exchanges between ranks

An exchange between ranks is started by one call into C, which allocates its buffers and its request arrays, posts
the messages, and returns a capsule (a Python object that holds a pointer to a handle). A second call waits for the
messages, uses the buffers and frees them. When Python drops the capsule its destructor runs; if the exchange was
never waited for (an exception was raised in between, say) the destructor waits and frees instead.

Models core/mpi/sync_fields2d.c 280-650, core/mpi/sync_fields3d.c 633-1008, core/mpi/sync_particles_2d.c 205-590,
core/mpi/sync_particles_3d.c 344-760, core/utils/cutils.h 32-75 and the `_start` and `_wait` methods of
core/mpi/mpi_manager.py 111-195, 214-298.

Simplifications. The model keeps which blocks exist, how many elements they have, which request slots have been
written and which messages are in flight, not the bytes (the contents are the subject of C30, C33, C34 and C40).
`malloc` never fails and never returns an address a second time, so that every use of a freed block shows. The
iterations of an OpenMP loop run in the order of the index (they touch different slots and different buffers). A wait
returns (that it does so is the subject of C56).
-/
namespace Verif.Capsule

/-- a pointer of the C code: `NULL`, a block from `malloc`, the data of a NumPy array `a`, or an uninitialised value -/
inductive Buf (A : Type) where
  | null
  | block (b : Nat)
  | array (a : A)
  | junk
  deriving DecidableEq

/-- a message in flight: the slot `slot` of the request array in block `arr`, and the memory it reads or writes -/
structure Req (A : Type) where
  arr : Nat
  slot : Nat
  buf : Buf A
  deriving DecidableEq

/-- The memory of one process as far as the exchanges are concerned: the blocks allocated and not freed, the number
of elements of a block, the NumPy arrays that exist, the request slots that have been written, the messages in
flight. -/
structure Mem (A : Type) where
  next : Nat
  live : Finset Nat
  size : Nat → Nat
  arrays : Finset A
  slots : Finset (Nat × Nat)
  pend : List (Req A)

variable {A : Type} [DecidableEq A]

/-- a process that has allocated nothing -/
def Mem.empty : Mem A := ⟨0, ∅, fun _ => 0, ∅, ∅, []⟩

/-- `malloc(n * sizeof …)` -/
def Mem.malloc (m : Mem A) (n : Nat) : Nat × Mem A :=
  (m.next, { m with
    next := m.next + 1
    live := insert m.next m.live
    size := Function.update m.size m.next n })

/-- `free(p)`. `none` is undefined behaviour: the block is not allocated (any more), the memory belongs to NumPy, the
pointer was never set, or a message in flight still uses the block. -/
def Mem.free (m : Mem A) : Buf A → Option (Mem A)
  | .null => some m
  | .block b =>
    if b ∈ m.live ∧ ∀ q ∈ m.pend, q.arr ≠ b ∧ q.buf ≠ .block b then some { m with live := m.live.erase b } else none
  | .array _ => none
  | .junk => none

/-- memory that may be read and written; `NULL` is given to MPI with a length of zero -/
def Mem.Valid (m : Mem A) : Buf A → Prop
  | .null => True
  | .block b => b ∈ m.live
  | .array a => a ∈ m.arrays
  | .junk => False

instance (m : Mem A) (p : Buf A) : Decidable (m.Valid p) := by
  cases p <;> unfold Mem.Valid <;> infer_instance

/-- reading or writing through a pointer -/
def Mem.touch (m : Mem A) (p : Buf A) : Option (Mem A) := if m.Valid p then some m else none

/-- `requests[i] = MPI_REQUEST_NULL`; a slot outside the array, or one that has been written already (its request
would be lost), is a fault -/
def Mem.noRequest (m : Mem A) (arr i : Nat) : Option (Mem A) :=
  if arr ∈ m.live ∧ i < m.size arr ∧ (arr, i) ∉ m.slots then some { m with slots := insert (arr, i) m.slots } else none

/-- `MPI_Isend(p, …, &requests[i])` and `MPI_Irecv(p, …, &requests[i])` -/
def Mem.post (m : Mem A) (arr i : Nat) (p : Buf A) : Option (Mem A) :=
  if arr ∈ m.live ∧ i < m.size arr ∧ (arr, i) ∉ m.slots ∧ m.Valid p then
    some { m with slots := insert (arr, i) m.slots, pend := ⟨arr, i, p⟩ :: m.pend }
  else none

/-- `MPI_Wait(&requests[i], …)`; the slot must have been written -/
def Mem.wait (m : Mem A) (arr i : Nat) : Option (Mem A) :=
  if arr ∈ m.live ∧ (arr, i) ∈ m.slots then
    some { m with pend := m.pend.filter fun q => !(q.arr == arr && q.slot == i) }
  else none

/-- `MPI_Waitall(n, requests, …)` -/
def Mem.waitall (m : Mem A) (n arr : Nat) : Option (Mem A) :=
  (List.range n).foldlM (fun m i => m.wait arr i) m

/-- `free` of several pointers one after the other -/
def Mem.frees (m : Mem A) (ps : List (Buf A)) : Option (Mem A) :=
  ps.foldlM (fun m p => m.free p) m

/-- several allocations one after the other -/
def Mem.mallocs (m : Mem A) : List Nat → List Nat × Mem A
  | [] => ([], m)
  | n :: ns =>
    let (b, m₁) := m.malloc n
    let (bs, m₂) := m₁.mallocs ns
    (b :: bs, m₂)

/-- which exchange a handle belongs to (sync_fields2d.c 290-310, sync_particles_2d.c 207-230; 3d 638-657, 344-368) -/
inductive Kind where
  | guard | currents | particles
  deriving DecidableEq

/-- A handle. `self` is the block of the struct; `sreq`, `rreq` are `send_requests` and `recv_requests`, with `total`
slots; `sbuf i`, `rbuf i` are the buffers slot `i` sends from and receives into (`send_buf[i]`, `recv_buf[i]`,
`attrs_send[i]`, `attrs_recv[i]`; the exchange of guard cells has none, it sends from the field arrays);
`tables` are the other blocks the struct points to, in the order in which they are freed; `uses i` are the NumPy
arrays written after the receive of slot `i`. -/
structure Handle (A : Type) where
  kind : Kind
  self : Nat
  sreq : Nat
  rreq : Nat
  total : Nat
  sbuf : Nat → Buf A
  rbuf : Nat → Buf A
  tables : List Nat
  uses : Nat → List A
  finalized : Bool

/-! ## Starting -/

/-- the slots of the exchanges with one slot per patch and side: `i = ipatch*NUM_BOUNDARIES + ibound`
(sync_fields2d.c 393-397, sync_particles_2d.c 383-400, 433-444) -/
def pairSlots (np nb : Nat) : List (Nat × Nat × Nat) :=
  (List.range np).flatMap fun ip => (List.range nb).map fun ib => (ip * nb + ib, ip, ib)

/-- the slots of the exchange of guard cells, attribute by attribute:
`ipatch*NUM_BOUNDARIES*nattrs + ibound*nattrs + iattr` (sync_fields2d.c 561-588, sync_fields3d.c 920-946) -/
def guardSlots (np nb na : Nat) : List (Nat × Nat × Nat × Nat) :=
  (List.range na).flatMap fun ia => (List.range np).flatMap fun ip => (List.range nb).map fun ib =>
    (ip * nb * na + ib * na + ia, ia, ip, ib)

/-- one iteration of the loop of `sync_guard_fields_2d_start` (sync_fields2d.c 571-588, 3d 927-943): a side without a
rank behind it gets null requests, otherwise the edge is sent from the field array and received into it -/
def guardPost (rank : Nat → Nat → Int) (arr : Nat → Nat → A) (sreq rreq : Nat) (m : Mem A)
    (s : Nat × Nat × Nat × Nat) : Option (Mem A) :=
  let (i, ia, ip, ib) := s
  if rank ip ib < 0 then do
    let m ← m.noRequest sreq i
    m.noRequest rreq i
  else do
    let m ← m.post sreq i (.array (arr ia ip))
    m.post rreq i (.array (arr ia ip))

/-- `sync_guard_fields_2d_start` (sync_fields2d.c 528-607), `sync_guard_fields_3d_start` (sync_fields3d.c 883-963):
`nattrs` tables of array pointers and the table of the tables, three tables of the patches, two request arrays, the
loop, the tables of the patches freed, the handle. `rank ip ib` is `neighbor_rank`, `arr ia ip` the data of field
`ia` of patch `ip`. -/
def startGuard (np nb na : Nat) (rank : Nat → Nat → Int) (arr : Nat → Nat → A) (m : Mem A) :
    Option (Handle A × Mem A) := do
  let (table, m) := m.malloc na
  let (lists, m) := m.mallocs (List.replicate na np)
  let (tmp, m) := m.mallocs [np, np, np]
  let (sreq, m) := m.malloc (np * nb * na)
  let (rreq, m) := m.malloc (np * nb * na)
  let m ← (guardSlots np nb na).foldlM (guardPost rank arr sreq rreq) m
  let m ← m.frees (tmp.map .block)
  let (self, m) := m.malloc 1
  pure (⟨.guard, self, sreq, rreq, np * nb * na, fun _ => .null, fun _ => .null, lists ++ [table], fun _ => [],
    false⟩, m)

/-- one iteration of the loop of `sync_currents_2d_start` (sync_fields2d.c 400-441, 3d 750-794): the buffers and the
messages of one side; the state is the memory, `send_buf` and `recv_buf` -/
def currentsPost (rank : Nat → Nat → Int) (sreq rreq : Nat) (s : Mem A × (Nat → Buf A) × (Nat → Buf A))
    (k : Nat × Nat × Nat) : Option (Mem A × (Nat → Buf A) × (Nat → Buf A)) :=
  let (m, sb, rb) := s
  let (i, ip, ib) := k
  if rank ip ib < 0 then do
    let m ← m.noRequest sreq i
    let m ← m.noRequest rreq i
    pure (m, Function.update sb i .null, Function.update rb i .null)
  else do
    let (b, m) := m.malloc 1
    let (c, m) := m.malloc 1
    let m ← m.post sreq i (.block b)
    let m ← m.post rreq i (.block c)
    pure (m, Function.update sb i (.block b), Function.update rb i (.block c))

/-- `sync_currents_2d_start` (sync_fields2d.c 365-461), `sync_currents_3d_start` (sync_fields3d.c 713-813): four
tables of current and density arrays, three tables of the patches, the request arrays, the tables of buffers, the
loop, the tables of the patches freed, the handle. `j k ip` is the array `jx, jy, jz, rho` of patch `ip`. -/
def startCurrents (np nb : Nat) (rank : Nat → Nat → Int) (j : Nat → Nat → A) (m : Mem A) :
    Option (Handle A × Mem A) := do
  let (js, m) := m.mallocs [np, np, np, np]
  let (tmp, m) := m.mallocs [np, np, np]
  let (sreq, m) := m.malloc (np * nb)
  let (rreq, m) := m.malloc (np * nb)
  let (sArr, m) := m.malloc (np * nb)
  let (rArr, m) := m.malloc (np * nb)
  let (m, sb, rb) ← (pairSlots np nb).foldlM (currentsPost rank sreq rreq) (m, fun _ => .junk, fun _ => .junk)
  let m ← m.frees (tmp.map .block)
  let (self, m) := m.malloc 1
  pure (⟨.currents, self, sreq, rreq, np * nb, sb, rb, [sArr, rArr] ++ js,
    fun i => [j 0 (i / nb), j 1 (i / nb), j 2 (i / nb), j 3 (i / nb)], false⟩, m)

/-- `attrs_send[i]`, `attrs_recv[i]` and `outgoing_indices[ibound]` of one side of a patch
(sync_particles_2d.c 385-400, 3d 532-548): no buffer for zero particles -/
def particlesAlloc (out inc : Nat → Nat) (s : Mem A × (Nat → Buf A) × (Nat → Buf A) × List (Buf A))
    (i : Nat) : Mem A × (Nat → Buf A) × (Nat → Buf A) × List (Buf A) :=
  let (m, sb, rb, idx) := s
  let (m, sb, idx) :=
    if out i = 0 then (m, Function.update sb i .null, idx)
    else
      let (o, m) := m.malloc (out i)
      let (b, m) := m.malloc (out i)
      (m, Function.update sb i (.block b), idx ++ [.block o])
  if inc i = 0 then (m, sb, Function.update rb i .null, idx)
  else
    let (c, m) := m.malloc (inc i)
    (m, sb, Function.update rb i (.block c), idx)

/-- the sends of one side of a patch (sync_particles_2d.c 404-431, 3d 551-579): null request without a rank behind
the side -/
def particlesSend (rank : Nat → Nat → Int) (ip nb sreq : Nat) (sb : Nat → Buf A) (m : Mem A) (ib : Nat) :
    Option (Mem A) :=
  if rank ip ib < 0 then m.noRequest sreq (ip * nb + ib)
  else m.post sreq (ip * nb + ib) (sb (ip * nb + ib))

/-- one patch of the first loop of `fill_particles_from_boundary_2d_start` (sync_particles_2d.c 370-436,
3d 514-583): the buffers of all sides, the sends, the index lists freed -/
def particlesPatch (nb : Nat) (rank : Nat → Nat → Int) (out inc : Nat → Nat) (sreq : Nat)
    (s : Mem A × (Nat → Buf A) × (Nat → Buf A)) (ip : Nat) : Option (Mem A × (Nat → Buf A) × (Nat → Buf A)) := do
  let (m, sb, rb) := s
  let (m, sb, rb, idx) := ((List.range nb).map (ip * nb + ·)).foldl (particlesAlloc out inc) (m, sb, rb, [])
  let m ← (List.range nb).foldlM (particlesSend rank ip nb sreq sb) m
  let m ← m.frees idx
  pure (m, sb, rb)

/-- one receive (sync_particles_2d.c 440-454, 3d 588-602) -/
def particlesRecv (nb : Nat) (rank : Nat → Nat → Int) (rreq : Nat) (rb : Nat → Buf A) (m : Mem A) (i : Nat) :
    Option (Mem A) :=
  if rank (i / nb) (i % nb) < 0 then m.noRequest rreq i else m.post rreq i (rb i)

/-- the number of tables of the particles and the patches that the handle keeps besides `attrs_list`: `is_dead`,
`neighbor_index`, `neighbor_rank` and two bounds for each axis (sync_particles_2d.c 321-335, 3d 450-467) -/
def keptTables (dim : Nat) : Nat := 3 + 2 * dim

/-- the number of tables that are freed when the messages have been posted: a position table for each axis, `npart`
and `index` (sync_particles_2d.c 458-461, 3d 605-609) -/
def tmpTables (dim : Nat) : Nat := dim + 2

/-- `fill_particles_from_boundary_2d_start` (sync_particles_2d.c 274-492), `fill_particles_from_boundary_3d_start`
(sync_particles_3d.c 413-649). `attrsOk` says whether the attributes contain the positions; if they do not the
function raises `ValueError` and returns with the tables allocated so far (347-350, 3d 487-490). `out i` and `inc i`
are the numbers of particles sent and received by slot `i`, `arrs ip` the arrays of the attributes and `is_dead` of
the species in patch `ip`. -/
def startParticles (dim np nb na : Nat) (attrsOk : Bool) (rank : Nat → Nat → Int) (out inc : Nat → Nat)
    (arrs : Nat → List A) (m : Mem A) : Option (Option (Handle A) × Mem A) := do
  let (tmp, m) := m.mallocs (List.replicate (tmpTables dim) np)
  let (kept, m) := m.mallocs (List.replicate (keptTables dim) np)
  let (attrsList, m) := m.malloc (na * np)
  if attrsOk then
    let (npIn, m) := m.malloc (np * nb)
    let (sArr, m) := m.malloc (np * nb)
    let (rArr, m) := m.malloc (np * nb)
    let (sreq, m) := m.malloc (np * nb)
    let (rreq, m) := m.malloc (np * nb)
    let (m, sb, rb) ← (List.range np).foldlM (particlesPatch nb rank out inc sreq) (m, fun _ => .junk, fun _ => .junk)
    let m ← (List.range (np * nb)).foldlM (particlesRecv nb rank rreq rb) m
    let m ← m.frees (tmp.map .block)
    let (self, m) := m.malloc 1
    pure (some ⟨.particles, self, sreq, rreq, np * nb, sb, rb, [sArr, rArr, attrsList, npIn] ++ kept,
      fun i => if inc i = 0 then [] else arrs (i / nb), false⟩, m)
  else pure (none, m)

/-! ## Waiting -/

/-- reading a receive buffer and writing the arrays it is meant for -/
def Mem.consume (m : Mem A) (p : Buf A) (as : List A) : Option (Mem A) := do
  let m ← m.touch p
  as.foldlM (fun m a => m.touch (.array a)) m

/-- `sync_guard_fields_2d_wait` (sync_fields2d.c 609-640, 3d 965-996): both requests of every slot, then the tables
and the request arrays -/
def waitGuard (h : Handle A) (m : Mem A) : Option (Mem A) := do
  let m ← m.touch (.block h.self)
  let m ← (List.range h.total).foldlM (fun m i => do
    let m ← m.wait h.sreq i
    m.wait h.rreq i) m
  let m ← m.frees (h.tables.map .block)
  m.frees [.block h.sreq, .block h.rreq]

/-- one iteration of `sync_currents_2d_wait` (sync_fields2d.c 476-501, 3d 827-856): nothing for a side without a
buffer; otherwise receive, add to the arrays, wait for the send, free both buffers -/
def currentsWaitOne (h : Handle A) (m : Mem A) (i : Nat) : Option (Mem A) :=
  if h.sbuf i = .null then some m
  else do
    let m ← m.wait h.rreq i
    let m ← m.consume (h.rbuf i) (h.uses i)
    let m ← m.wait h.sreq i
    m.frees [h.sbuf i, h.rbuf i]

/-- `sync_currents_2d_wait` (sync_fields2d.c 463-511, 3d 815-866) -/
def waitCurrents (h : Handle A) (m : Mem A) : Option (Mem A) := do
  let m ← m.touch (.block h.self)
  let m ← (List.range h.total).foldlM (currentsWaitOne h) m
  let m ← m.frees [.block h.sreq, .block h.rreq]
  m.frees (h.tables.map .block)

/-- `fill_particles_from_boundary_2d_wait` (sync_particles_2d.c 494-579, 3d 651-745): all receives, the particles
copied into the arrays, all sends, the buffers, the request arrays and the tables -/
def waitParticles (h : Handle A) (m : Mem A) : Option (Mem A) := do
  let m ← m.touch (.block h.self)
  let m ← m.waitall h.total h.rreq
  let m ← (List.range h.total).foldlM (fun m i => m.consume (h.rbuf i) (h.uses i)) m
  let m ← m.waitall h.total h.sreq
  let m ← (List.range h.total).foldlM (fun m i => m.frees [h.sbuf i, h.rbuf i]) m
  let m ← m.frees [.block h.sreq, .block h.rreq]
  m.frees (h.tables.map .block)

/-- The `_wait` function of a handle. None of them looks at `finalized` (sync_fields2d.c 469-472, 615-618,
sync_particles_2d.c 500-503, 3d 821-824, 971-974, 657-660); each sets it at the end. -/
def waitHandle (h : Handle A) (m : Mem A) : Option (Handle A × Mem A) := do
  let m ← match h.kind with
    | .guard => waitGuard h m
    | .currents => waitCurrents h m
    | .particles => waitParticles h m
  pure ({ h with finalized := true }, m)

/-! ## Dropping the capsule -/

/-- The destructors `field_guard_destructor`, `currents_destructor` and `particle_sync_destructor`
(sync_fields2d.c 316-358, 3d 664-706, sync_particles_2d.c 237-268, 3d 374-406): only the struct when the exchange has
been waited for; otherwise both request arrays are waited for and everything is freed. The guard-cell handle has no
buffers of its own. -/
def dropHandle (h : Handle A) (m : Mem A) : Option (Mem A) := do
  let m ← m.touch (.block h.self)
  if h.finalized then m.free (.block h.self)
  else
    let m ← m.waitall h.total h.sreq
    let m ← m.waitall h.total h.rreq
    let m ← m.frees [.block h.sreq, .block h.rreq]
    let m ← if h.kind = .guard then some m
      else (List.range h.total).foldlM (fun m i => m.frees [h.sbuf i, h.rbuf i]) m
    let m ← m.frees (h.tables.map .block)
    m.free (.block h.self)

/-! ## Histories -/

/-- the arguments of a `_start` call -/
inductive Start (A : Type) where
  | guard (np nb na : Nat) (rank : Nat → Nat → Int) (arr : Nat → Nat → A)
  | currents (np nb : Nat) (rank : Nat → Nat → Int) (j : Nat → Nat → A)
  | particles (dim np nb na : Nat) (attrsOk : Bool) (rank : Nat → Nat → Int) (out inc : Nat → Nat) (arrs : Nat → List A)

/-- the `_start` functions of `MPIManager2D` and `MPIManager3D` with more than one rank (mpi_manager.py 131-142,
160-166, 184-189, 234-245, 263-269, 287-292); `none` for the handle is the `ValueError` -/
def Start.call (m : Mem A) : Start A → Option (Option (Handle A) × Mem A)
  | .guard np nb na rank arr => (startGuard np nb na rank arr m).map fun r => (some r.1, r.2)
  | .currents np nb rank j => (startCurrents np nb rank j m).map fun r => (some r.1, r.2)
  | .particles dim np nb na ok rank out inc arrs => startParticles dim np nb na ok rank out inc arrs m

/-- What Python can do: start an exchange and keep the capsule under a name, wait for it, let go of the capsule, and
create and release NumPy arrays. -/
inductive Op (A : Type) where
  | start (id : Nat) (k : Start A)
  | wait (id : Nat)
  | drop (id : Nat)
  | newArray (a : A)
  | dropArray (a : A)

/-- the process: its memory and the capsules Python holds -/
structure World (A : Type) where
  mem : Mem A
  caps : List (Nat × Handle A)

/-- a process at its start -/
def World.init : World A := ⟨.empty, []⟩

/-- One operation. `none` is undefined behaviour in the C code. A name that holds no capsule cannot be waited for or
dropped, so nothing happens. Releasing an array that a message in flight reads or writes is undefined behaviour. -/
def step (w : World A) : Op A → Option (World A)
  | .start id k => do
    let (h, m) ← k.call w.mem
    match h with
    | some h => pure ⟨m, w.caps ++ [(id, h)]⟩
    | none => pure ⟨m, w.caps⟩
  | .wait id =>
    match w.caps.find? fun c => c.1 == id with
    | none => some w
    | some c => do
      let (h, m) ← waitHandle c.2 w.mem
      pure ⟨m, w.caps.map fun d => if d.1 = id then (id, h) else d⟩
  | .drop id =>
    match w.caps.find? fun c => c.1 == id with
    | none => some w
    | some c => do
      let m ← dropHandle c.2 w.mem
      pure ⟨m, w.caps.filter fun d => d.1 ≠ id⟩
  | .newArray a => some { w with mem := { w.mem with arrays := insert a w.mem.arrays } }
  | .dropArray a =>
    if ∀ q ∈ w.mem.pend, q.buf ≠ .array a then some { w with mem := { w.mem with arrays := w.mem.arrays.erase a } }
    else none

/-- a history of operations from the start of the process -/
def run (ops : List (Op A)) : Option (World A) := ops.foldlM step World.init

end Verif.Capsule
