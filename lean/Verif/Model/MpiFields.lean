import Verif.Model.SyncFields
/-!
# Field exchange between processes

Models `src/lambdapic/core/mpi/sync_fields2d.c`, `sync_fields3d.c` and the calls around them
(`MPIManager`, simulation.py 945-965, 1143-1188).

Patches are numbered globally; `rk p` is the rank that holds patch `p`. Each rank only touches the arrays of
its own patches, so the arrays of all ranks together form one memory `Loc k → ℚ`. A message is identified
by its sender patch and boundary: that every receive gets the message of the neighbour's opposite
boundary is what the tags ensure (`Verif/Model/Tags.lean`). Simplifications: exact rationals; one field
component at a time; the elements of a message are addressed by their per-axis offsets in the block
instead of the flat position in the buffer.
-/
namespace Verif.SyncFields
open Interleave

/-- `get_boundary_currents` (core/mpi/sync_fields2d.c 102-145): where received currents are added (`dst`), which own
guard cells are sent (`src`), block size (`w`) -/
def mpiCurrentTab2 (nx ny ng : Nat) : B2 → Fin 2 → Rng
  | .xmin => ![⟨0, -(ng : Int), ng⟩, ⟨0, 0, ny⟩]
  | .xmax => ![⟨(nx : Int) - ng, nx, ng⟩, ⟨0, 0, ny⟩]
  | .ymin => ![⟨0, 0, nx⟩, ⟨0, -(ng : Int), ng⟩]
  | .ymax => ![⟨0, 0, nx⟩, ⟨(ny : Int) - ng, ny, ng⟩]
  | .xminymin => ![⟨0, -(ng : Int), ng⟩, ⟨0, -(ng : Int), ng⟩]
  | .xmaxymin => ![⟨(nx : Int) - ng, nx, ng⟩, ⟨0, -(ng : Int), ng⟩]
  | .xminymax => ![⟨0, -(ng : Int), ng⟩, ⟨(ny : Int) - ng, ny, ng⟩]
  | .xmaxymax => ![⟨(nx : Int) - ng, nx, ng⟩, ⟨(ny : Int) - ng, ny, ng⟩]

/-- `init_boundary_types` (core/mpi/sync_fields2d.c 148-203), called with the full array sizes: raw array start of the
received block (`start_guard`), of the sent block (`start_bound`), `subsize` -/
def mpiGuardTab2 (NX NY ng : Nat) : B2 → Fin 2 → Rng
  | .xmin => ![⟨(NX : Int) - ng, 0, ng⟩, ⟨0, 0, NY - 2 * ng⟩]
  | .xmax => ![⟨(NX : Int) - 2 * ng, (NX : Int) - 3 * ng, ng⟩, ⟨0, 0, NY - 2 * ng⟩]
  | .ymin => ![⟨0, 0, NX - 2 * ng⟩, ⟨(NY : Int) - ng, 0, ng⟩]
  | .ymax => ![⟨0, 0, NX - 2 * ng⟩, ⟨(NY : Int) - 2 * ng, (NY : Int) - 3 * ng, ng⟩]
  | .xminymin => ![⟨(NX : Int) - ng, 0, ng⟩, ⟨(NY : Int) - ng, 0, ng⟩]
  | .xmaxymin => ![⟨(NX : Int) - 2 * ng, (NX : Int) - 3 * ng, ng⟩, ⟨(NY : Int) - ng, 0, ng⟩]
  | .xminymax => ![⟨(NX : Int) - ng, 0, ng⟩, ⟨(NY : Int) - 2 * ng, (NY : Int) - 3 * ng, ng⟩]
  | .xmaxymax => ![⟨(NX : Int) - 2 * ng, (NX : Int) - 3 * ng, ng⟩, ⟨(NY : Int) - 2 * ng, (NY : Int) - 3 * ng, ng⟩]

/-- `get_boundary_currents` (core/mpi/sync_fields3d.c 164-305) -/
def mpiCurrentTab3 (nx ny nz ng : Nat) : B3 → Fin 3 → Rng
  | .xmin => ![⟨0, -(ng : Int), ng⟩, ⟨0, 0, ny⟩, ⟨0, 0, nz⟩]
  | .xmax => ![⟨(nx : Int) - ng, nx, ng⟩, ⟨0, 0, ny⟩, ⟨0, 0, nz⟩]
  | .ymin => ![⟨0, 0, nx⟩, ⟨0, -(ng : Int), ng⟩, ⟨0, 0, nz⟩]
  | .ymax => ![⟨0, 0, nx⟩, ⟨(ny : Int) - ng, ny, ng⟩, ⟨0, 0, nz⟩]
  | .zmin => ![⟨0, 0, nx⟩, ⟨0, 0, ny⟩, ⟨0, -(ng : Int), ng⟩]
  | .zmax => ![⟨0, 0, nx⟩, ⟨0, 0, ny⟩, ⟨(nz : Int) - ng, nz, ng⟩]
  | .xminymin => ![⟨0, -(ng : Int), ng⟩, ⟨0, -(ng : Int), ng⟩, ⟨0, 0, nz⟩]
  | .xminymax => ![⟨0, -(ng : Int), ng⟩, ⟨(ny : Int) - ng, ny, ng⟩, ⟨0, 0, nz⟩]
  | .xminzmin => ![⟨0, -(ng : Int), ng⟩, ⟨0, 0, ny⟩, ⟨0, -(ng : Int), ng⟩]
  | .xminzmax => ![⟨0, -(ng : Int), ng⟩, ⟨0, 0, ny⟩, ⟨(nz : Int) - ng, nz, ng⟩]
  | .xmaxymin => ![⟨(nx : Int) - ng, nx, ng⟩, ⟨0, -(ng : Int), ng⟩, ⟨0, 0, nz⟩]
  | .xmaxymax => ![⟨(nx : Int) - ng, nx, ng⟩, ⟨(ny : Int) - ng, ny, ng⟩, ⟨0, 0, nz⟩]
  | .xmaxzmin => ![⟨(nx : Int) - ng, nx, ng⟩, ⟨0, 0, ny⟩, ⟨0, -(ng : Int), ng⟩]
  | .xmaxzmax => ![⟨(nx : Int) - ng, nx, ng⟩, ⟨0, 0, ny⟩, ⟨(nz : Int) - ng, nz, ng⟩]
  | .yminzmin => ![⟨0, 0, nx⟩, ⟨0, -(ng : Int), ng⟩, ⟨0, -(ng : Int), ng⟩]
  | .yminzmax => ![⟨0, 0, nx⟩, ⟨0, -(ng : Int), ng⟩, ⟨(nz : Int) - ng, nz, ng⟩]
  | .ymaxzmin => ![⟨0, 0, nx⟩, ⟨(ny : Int) - ng, ny, ng⟩, ⟨0, -(ng : Int), ng⟩]
  | .ymaxzmax => ![⟨0, 0, nx⟩, ⟨(ny : Int) - ng, ny, ng⟩, ⟨(nz : Int) - ng, nz, ng⟩]
  | .xminyminzmin => ![⟨0, -(ng : Int), ng⟩, ⟨0, -(ng : Int), ng⟩, ⟨0, -(ng : Int), ng⟩]
  | .xminyminzmax => ![⟨0, -(ng : Int), ng⟩, ⟨0, -(ng : Int), ng⟩, ⟨(nz : Int) - ng, nz, ng⟩]
  | .xminymaxzmin => ![⟨0, -(ng : Int), ng⟩, ⟨(ny : Int) - ng, ny, ng⟩, ⟨0, -(ng : Int), ng⟩]
  | .xminymaxzmax => ![⟨0, -(ng : Int), ng⟩, ⟨(ny : Int) - ng, ny, ng⟩, ⟨(nz : Int) - ng, nz, ng⟩]
  | .xmaxyminzmin => ![⟨(nx : Int) - ng, nx, ng⟩, ⟨0, -(ng : Int), ng⟩, ⟨0, -(ng : Int), ng⟩]
  | .xmaxyminzmax => ![⟨(nx : Int) - ng, nx, ng⟩, ⟨0, -(ng : Int), ng⟩, ⟨(nz : Int) - ng, nz, ng⟩]
  | .xmaxymaxzmin => ![⟨(nx : Int) - ng, nx, ng⟩, ⟨(ny : Int) - ng, ny, ng⟩, ⟨0, -(ng : Int), ng⟩]
  | .xmaxymaxzmax => ![⟨(nx : Int) - ng, nx, ng⟩, ⟨(ny : Int) - ng, ny, ng⟩, ⟨(nz : Int) - ng, nz, ng⟩]

/-- `init_boundary_types` (core/mpi/sync_fields3d.c 450-599) -/
def mpiGuardTab3 (NX NY NZ ng : Nat) : B3 → Fin 3 → Rng
  | .xmin => ![⟨(NX : Int) - ng, 0, ng⟩, ⟨0, 0, NY - 2 * ng⟩, ⟨0, 0, NZ - 2 * ng⟩]
  | .xmax => ![⟨(NX : Int) - 2 * ng, (NX : Int) - 3 * ng, ng⟩, ⟨0, 0, NY - 2 * ng⟩, ⟨0, 0, NZ - 2 * ng⟩]
  | .ymin => ![⟨0, 0, NX - 2 * ng⟩, ⟨(NY : Int) - ng, 0, ng⟩, ⟨0, 0, NZ - 2 * ng⟩]
  | .ymax => ![⟨0, 0, NX - 2 * ng⟩, ⟨(NY : Int) - 2 * ng, (NY : Int) - 3 * ng, ng⟩, ⟨0, 0, NZ - 2 * ng⟩]
  | .zmin => ![⟨0, 0, NX - 2 * ng⟩, ⟨0, 0, NY - 2 * ng⟩, ⟨(NZ : Int) - ng, 0, ng⟩]
  | .zmax => ![⟨0, 0, NX - 2 * ng⟩, ⟨0, 0, NY - 2 * ng⟩, ⟨(NZ : Int) - 2 * ng, (NZ : Int) - 3 * ng, ng⟩]
  | .xminymin => ![⟨(NX : Int) - ng, 0, ng⟩, ⟨(NY : Int) - ng, 0, ng⟩, ⟨0, 0, NZ - 2 * ng⟩]
  | .xminymax => ![⟨(NX : Int) - ng, 0, ng⟩, ⟨(NY : Int) - 2 * ng, (NY : Int) - 3 * ng, ng⟩, ⟨0, 0, NZ - 2 * ng⟩]
  | .xminzmin => ![⟨(NX : Int) - ng, 0, ng⟩, ⟨0, 0, NY - 2 * ng⟩, ⟨(NZ : Int) - ng, 0, ng⟩]
  | .xminzmax => ![⟨(NX : Int) - ng, 0, ng⟩, ⟨0, 0, NY - 2 * ng⟩, ⟨(NZ : Int) - 2 * ng, (NZ : Int) - 3 * ng, ng⟩]
  | .xmaxymin => ![⟨(NX : Int) - 2 * ng, (NX : Int) - 3 * ng, ng⟩, ⟨(NY : Int) - ng, 0, ng⟩, ⟨0, 0, NZ - 2 * ng⟩]
  | .xmaxymax => ![⟨(NX : Int) - 2 * ng, (NX : Int) - 3 * ng, ng⟩, ⟨(NY : Int) - 2 * ng, (NY : Int) - 3 * ng, ng⟩, ⟨0, 0, NZ - 2 * ng⟩]
  | .xmaxzmin => ![⟨(NX : Int) - 2 * ng, (NX : Int) - 3 * ng, ng⟩, ⟨0, 0, NY - 2 * ng⟩, ⟨(NZ : Int) - ng, 0, ng⟩]
  | .xmaxzmax => ![⟨(NX : Int) - 2 * ng, (NX : Int) - 3 * ng, ng⟩, ⟨0, 0, NY - 2 * ng⟩, ⟨(NZ : Int) - 2 * ng, (NZ : Int) - 3 * ng, ng⟩]
  | .yminzmin => ![⟨0, 0, NX - 2 * ng⟩, ⟨(NY : Int) - ng, 0, ng⟩, ⟨(NZ : Int) - ng, 0, ng⟩]
  | .yminzmax => ![⟨0, 0, NX - 2 * ng⟩, ⟨(NY : Int) - ng, 0, ng⟩, ⟨(NZ : Int) - 2 * ng, (NZ : Int) - 3 * ng, ng⟩]
  | .ymaxzmin => ![⟨0, 0, NX - 2 * ng⟩, ⟨(NY : Int) - 2 * ng, (NY : Int) - 3 * ng, ng⟩, ⟨(NZ : Int) - ng, 0, ng⟩]
  | .ymaxzmax => ![⟨0, 0, NX - 2 * ng⟩, ⟨(NY : Int) - 2 * ng, (NY : Int) - 3 * ng, ng⟩, ⟨(NZ : Int) - 2 * ng, (NZ : Int) - 3 * ng, ng⟩]
  | .xminyminzmin => ![⟨(NX : Int) - ng, 0, ng⟩, ⟨(NY : Int) - ng, 0, ng⟩, ⟨(NZ : Int) - ng, 0, ng⟩]
  | .xminyminzmax => ![⟨(NX : Int) - ng, 0, ng⟩, ⟨(NY : Int) - ng, 0, ng⟩, ⟨(NZ : Int) - 2 * ng, (NZ : Int) - 3 * ng, ng⟩]
  | .xminymaxzmin => ![⟨(NX : Int) - ng, 0, ng⟩, ⟨(NY : Int) - 2 * ng, (NY : Int) - 3 * ng, ng⟩, ⟨(NZ : Int) - ng, 0, ng⟩]
  | .xminymaxzmax => ![⟨(NX : Int) - ng, 0, ng⟩, ⟨(NY : Int) - 2 * ng, (NY : Int) - 3 * ng, ng⟩, ⟨(NZ : Int) - 2 * ng, (NZ : Int) - 3 * ng, ng⟩]
  | .xmaxyminzmin => ![⟨(NX : Int) - 2 * ng, (NX : Int) - 3 * ng, ng⟩, ⟨(NY : Int) - ng, 0, ng⟩, ⟨(NZ : Int) - ng, 0, ng⟩]
  | .xmaxyminzmax => ![⟨(NX : Int) - 2 * ng, (NX : Int) - 3 * ng, ng⟩, ⟨(NY : Int) - ng, 0, ng⟩, ⟨(NZ : Int) - 2 * ng, (NZ : Int) - 3 * ng, ng⟩]
  | .xmaxymaxzmin => ![⟨(NX : Int) - 2 * ng, (NX : Int) - 3 * ng, ng⟩, ⟨(NY : Int) - 2 * ng, (NY : Int) - 3 * ng, ng⟩, ⟨(NZ : Int) - ng, 0, ng⟩]
  | .xmaxymaxzmax => ![⟨(NX : Int) - 2 * ng, (NX : Int) - 3 * ng, ng⟩, ⟨(NY : Int) - 2 * ng, (NY : Int) - 3 * ng, ng⟩, ⟨(NZ : Int) - 2 * ng, (NZ : Int) - 3 * ng, ng⟩]

/-- the neighbours on the same rank: `neighbor_ipatch` (patch.py 641-667) in global numbering -/
def localNbr {D : Type} (rk : Nat → Nat) (nbr : Nat → D → Option Nat) (p : Nat) (b : D) : Option Nat :=
  (nbr p b).filter fun q => rk q == rk p

/-- the neighbours on other ranks: `neighbor_index` where `neighbor_rank >= 0` (patch.py 594-638) -/
def remoteNbr {D : Type} (rk : Nat → Nat) (nbr : Nat → D → Option Nat) (p : Nat) (b : D) : Option Nat :=
  (nbr p b).filter fun q => rk q != rk p

/-- what one exchange between ranks works on; `nbr` are the remote neighbours, `order` the boundary
enumeration (sync_fields2d.c 22-31, sync_fields3d.c 20-52), `opp` the table `OPPOSITE_BOUNDARY`
(sync_fields2d.c 33-42, sync_fields3d.c 54-84) -/
structure Mpi (k : Nat) (D : Type) where
  n : Fin k → Nat
  ng : Nat
  npatches : Nat
  nbr : Nat → D → Option Nat
  order : List D
  opp : D → D
  tab : D → Fin k → Rng
  cells : (Fin k → Nat) → List (Fin k → Nat)

/-! ### guard cells -/

/-- the elements moved by the guard exchange for patch `p`: element `u` of the block received across `b`
is element `u` of the block the neighbour sends across the opposite boundary; both blocks are MPI
subarrays, addressed by raw array positions (sync_fields2d.c 565-605, sync_fields3d.c 921-961) -/
def Mpi.guardPairs {k : Nat} {D : Type} (s : Mpi k D) (p : Nat) : List (Loc k × Loc k) :=
  s.order.flatMap fun b =>
    match s.nbr p b with
    | none => []
    | some q =>
      (s.cells fun a => (s.tab b a).w).map fun u =>
        ((p, fun a => (s.tab b a).dst + u a), (q, fun a => (s.tab (s.opp b) a).src + u a))

/-- One guard synchronisation: the ranks post sends and receives directly on the field arrays, copy
between their own patches, then wait (simulation.py 945-965). A message element may be read and written
at any moment between the two calls, so the element copies, local and remote, happen in any order. -/
def GuardExchange {k : Nat} {D : Type} (loc : Sync k D) (rem : Mpi k D) (m m' : Loc k → ℚ) : Prop :=
  ∃ copies : List (Loc k × Loc k),
    copies.Perm ((List.range loc.npatches).flatMap loc.pairs ++
      (List.range rem.npatches).flatMap rem.guardPairs) ∧ m' = run (copies.map copyStep) m

/-! ### currents -/

/-- arrays and message buffers: `buf p b u` is element `u` of the buffer patch `p` sends across `b`
(`send_buf`, and `recv_buf` of the receiver after delivery) -/
structure MpiState (k : Nat) (D : Type) where
  mem : Loc k → ℚ
  buf : Nat → D → (Fin k → Nat) → ℚ

/-- statements of the current exchange; `p`, `b`, `u`: patch, boundary, element of the block -/
inductive MpiStep (k : Nat) (D : Type)
  | fill (p : Nat) (b : D) (u : Fin k → Nat)
  | add (p : Nat) (b : D) (u : Fin k → Nat)

/-- `fill`: `buf[..] = field[INDEX(src)]; field[INDEX(src)] = 0` (sync_fields2d.c 44-74, 400-435,
sync_fields3d.c 86-125, 749-787). `add`: `field[INDEX(dst)] += recv_buf[..]` (sync_fields2d.c 76-100, 475-497,
sync_fields3d.c 127-162, 827-852). -/
def Mpi.exec {k : Nat} {D : Type} [DecidableEq D] (s : Mpi k D) (st : MpiState k D) : MpiStep k D → MpiState k D
  | .fill p b u =>
    let c : Loc k := (p, index s.n s.ng fun a => (s.tab b a).src + u a)
    { mem := fun l => if l = c then 0 else st.mem l,
      buf := fun p' b' u' => if p' = p ∧ b' = b ∧ u' = u then st.mem c else st.buf p' b' u' }
  | .add p b u =>
    match s.nbr p b with
    | none => st
    | some q =>
      let c : Loc k := (p, index s.n s.ng fun a => (s.tab b a).dst + u a)
      { st with mem := fun l => if l = c then st.mem c + st.buf q (s.opp b) u else st.mem l }

/-- (patch, boundary, element) of every message element -/
def Mpi.elements {k : Nat} {D : Type} (s : Mpi k D) : List (Nat × D × (Fin k → Nat)) :=
  (List.range s.npatches).flatMap fun p => s.order.flatMap fun b =>
    match s.nbr p b with
    | none => []
    | some _ => (s.cells fun a => (s.tab b a).w).map fun u => (p, b, u)

/-- all statements of one `sync_currents_start` + `sync_currents_wait` on all ranks -/
def Mpi.steps {k : Nat} {D : Type} (s : Mpi k D) : List (MpiStep k D) :=
  (s.elements.map fun e => .fill e.1 e.2.1 e.2.2) ++ (s.elements.map fun e => .add e.1 e.2.1 e.2.2)

/-- an order in which the statements may happen: every statement once, and a received element is added
after its sender has written it (the message is sent after the buffer is filled and the receiver waits
for it). Threads and ranks are otherwise unordered. -/
def Mpi.Legal {k : Nat} {D : Type} (s : Mpi k D) (sched : List (MpiStep k D)) : Prop :=
  sched.Perm s.steps ∧ ∀ l1 l2 p b u q, sched = l1 ++ .add p b u :: l2 → s.nbr p b = some q →
    .fill q (s.opp b) u ∈ l1

/-- One current synchronisation: local folding on every rank, a barrier, then the exchange between ranks
(simulation.py 1143-1188); every `+=` is taken as one indivisible statement. -/
def CurrentExchange {k : Nat} {D : Type} [DecidableEq D] (loc : Sync k D) (rem : Mpi k D)
    (m m' : Loc k → ℚ) : Prop :=
  ∃ m1, loc.CurrentRun m m1 ∧ ∃ sched buf0, rem.Legal sched ∧ m' = (sched.foldl rem.exec ⟨m1, buf0⟩).mem

/-! ### the additions statement by statement -/

/-- the two halves of `field[INDEX(dst)] += recv_buf[..]` as compiled: read the cell into a register of
the thread that works on `(p, b)`, then write register plus element -/
inductive RaceStep (k : Nat) (D : Type)
  | load (p : Nat) (b : D) (u : Fin k → Nat)
  | store (p : Nat) (b : D) (u : Fin k → Nat)
deriving DecidableEq

/-- memory and the register of each thread; the wait loop is an `omp parallel for collapse(2)` over
patches and boundaries (sync_fields2d.c 475-502, sync_fields3d.c 827-857) -/
structure RaceState (k : Nat) (D : Type) where
  mem : Loc k → ℚ
  reg : Nat → D → ℚ

/-- `recv q b u`: the received element -/
def Mpi.raceExec {k : Nat} {D : Type} [DecidableEq D] (s : Mpi k D) (recv : Nat → D → (Fin k → Nat) → ℚ)
    (st : RaceState k D) : RaceStep k D → RaceState k D
  | .load p b u =>
    { st with reg := fun p' b' =>
        if p' = p ∧ b' = b then st.mem (p, index s.n s.ng fun a => (s.tab b a).dst + u a) else st.reg p' b' }
  | .store p b u =>
    { st with mem := fun l =>
        if l = (p, index s.n s.ng fun a => (s.tab b a).dst + u a) then st.reg p b + recv p b u else st.mem l }

/-- the loop body of thread `(p, b)` (sync_fields2d.c 76-100, 477-501) -/
def Mpi.raceProg {k : Nat} {D : Type} (s : Mpi k D) (p : Nat) (b : D) : List (RaceStep k D) :=
  match s.nbr p b with
  | none => []
  | some _ => (s.cells fun a => (s.tab b a).w).flatMap fun u => [.load p b u, .store p b u]

/-- the thread a statement belongs to -/
def RaceStep.thread {k : Nat} {D : Type} : RaceStep k D → Nat × D
  | .load p b _ => (p, b)
  | .store p b _ => (p, b)

/-- `sched` interleaves the threads of the wait loop: restricted to any thread it is that thread's program -/
def Mpi.RaceSched {k : Nat} {D : Type} [DecidableEq D] (s : Mpi k D) (sched : List (RaceStep k D)) : Prop :=
  ∀ p b, sched.filter (fun x => x.thread = (p, b)) = if p < s.npatches then s.raceProg p b else []

/-- 2D guard exchange between ranks -/
def mpiGuard2 (nx ny ng npatches : Nat) (nbr : Nat → B2 → Option Nat) : Mpi 2 B2 :=
  ⟨![nx, ny], ng, npatches, nbr, B2.all, B2.opp, mpiGuardTab2 (nx + 2 * ng) (ny + 2 * ng) ng, cells2⟩

/-- 2D current exchange between ranks -/
def mpiCurrents2 (nx ny ng npatches : Nat) (nbr : Nat → B2 → Option Nat) : Mpi 2 B2 :=
  ⟨![nx, ny], ng, npatches, nbr, B2.all, B2.opp, mpiCurrentTab2 nx ny ng, cells2⟩

/-- 3D guard exchange between ranks -/
def mpiGuard3 (nx ny nz ng npatches : Nat) (nbr : Nat → B3 → Option Nat) : Mpi 3 B3 :=
  ⟨![nx, ny, nz], ng, npatches, nbr, B3.all, B3.opp,
    mpiGuardTab3 (nx + 2 * ng) (ny + 2 * ng) (nz + 2 * ng) ng, cells3⟩

/-- 3D current exchange between ranks -/
def mpiCurrents3 (nx ny nz ng npatches : Nat) (nbr : Nat → B3 → Option Nat) : Mpi 3 B3 :=
  ⟨![nx, ny, nz], ng, npatches, nbr, B3.all, B3.opp, mpiCurrentTab3 nx ny nz ng, cells3⟩

end Verif.SyncFields
