/-!
# Model of the intra-rank particle exchange

`src/lambdapic/core/patch/sync_particles_2d.c`, `sync_particles_3d.c` and the driver
`Patches.sync_particles` in `src/lambdapic/core/patch/patch.py` 705-758.

The 2D and the 3D C file are the same program except for the set of boundaries, the branch tree that
classifies a particle, and the coordinates that are wrapped.  The model is therefore parametrised by

* `D` — the boundary enum (`enum Boundary2D`, 8 values; `enum Boundary3D`, 26 values), with the list
  `dirs` of its values in enum order and `opp` = `OPPOSITE_BOUNDARY`;
* `A` — the attribute vector of one particle (all entries of `attrs`);
* `cls ip a` / `clsI ip a` — the branch trees of `count_outgoing_particles` / `get_incoming_index`
  for patch `ip` (two separate pieces of C code);
* `wrap ip a` — the effect of `handle_periodic` on the coordinates when written into patch `ip`;
* `inside ip a` — negation of the condition in `mark_out_of_bound_as_dead`;
* `kill a` / `deadMark a` — what that function writes into the coordinates of a particle it kills /
  of an already dead slot.

The concrete 2D and 3D instances are in `Verif/Model/Exchange2D.lean` and `Exchange3D.lean`.

Memory model: arrays are lists; an out-of-bounds write, a NULL/uninitialised read is the value `none`
("undefined behaviour").  Simplifications: the flattened `buffer[ibuff*nattrs+iattr]` is a list of
attribute vectors; allocation never fails; `npy_intp` is unbounded; the `AUTOFREE` of numpy-owned
memory (`fill_particles_from_boundary_2d` 361-362) is not modelled.
-/
namespace Verif.Exchange

/-- One particle slot: attribute vector and `is_dead` flag. -/
structure Slot (A : Type) where
  a : A
  dead : Bool
  deriving DecidableEq, Repr

/-- Everything that does not change during one exchange (see the file header). `nbr ip d` is
`neighbor_ipatch[ip][d]`, with `none` for negative entries. -/
structure Geo (A D : Type) where
  dirs : List D
  opp : D → D
  npatches : Nat
  nbr : Nat → D → Option Nat
  cls : Nat → A → Option D
  clsI : Nat → A → Option D
  wrap : Nat → A → A
  inside : Nat → A → Bool
  kill : A → A
  deadMark : A → A
  blank : A

variable {A D : Type} [DecidableEq D]

/-- `count_outgoing_particles` (sync_particles_2d.c 37-84, sync_particles_3d.c 79-193): one counter
per boundary, dead particles skipped. -/
def countOut (cls : A → Option D) (slots : List (Slot A)) : D → Nat :=
  slots.foldl (fun c s =>
    if s.dead then c else
    match cls s.a with
    | none => c
    | some d => fun e => if e = d then c e + 1 else c e) (fun _ => 0)

/-- incoming count of patch `ip` (sync_particles_2d.c 288-295): sum over boundaries with a neighbour
of what that neighbour sends through the opposite boundary. -/
def npartNew (g : Geo A D) (out : Nat → D → Nat) (ip : Nat) : Nat :=
  g.dirs.foldl (fun acc ib =>
    match g.nbr ip ib with
    | none => acc
    | some i => acc + out i (g.opp ib)) 0

/-- dead count (sync_particles_2d.c 297-303) -/
def nDead (slots : List (Slot A)) : Nat :=
  slots.foldl (fun n s => if s.dead then n + 1 else n) 0

/-- `npart_to_extend` (sync_particles_2d.c 307-311); `(npy_intp)(npart * 0.25)` is `npart / 4`. -/
def toExtend (npart ndead npartNew : Nat) : Nat :=
  if ndead < npartNew then npartNew - ndead + npart / 4 else 0

/-- `npart_alive` published by `get_npart_to_extend` (sync_particles_2d.c 304-305) and stored in
`_npart_alive` (patch.py 717-719). -/
def reportedAlive (g : Geo A D) (s : Nat → List (Slot A)) (ip : Nat) : Nat :=
  (s ip).length - nDead (s ip) + npartNew g (fun i => countOut (g.cls i) (s i)) ip

/-- `ParticlesBase.extend` as called from patch.py 725-730 (see `Verif.Particles.extend`): append
dead slots. -/
def extendSlots (g : Geo A D) (slots : List (Slot A)) (n : Nat) : List (Slot A) :=
  slots ++ List.replicate n ⟨g.blank, true⟩

/-- `incoming_indices_list` after the first parallel loop (sync_particles_2d.c 416-432): for every
boundary with a neighbour an uninitialised array of `npart_outgoing[neighbour][opposite]` entries. -/
def allocIdx (g : Geo A D) (out : Nat → D → Nat) (ip : Nat) (ib : D) : List (Option Nat) :=
  if npartNew g out ip = 0 then [] else
  match g.nbr ip ib with
  | none => []
  | some i => List.replicate (out i (g.opp ib)) none

abbrev IdxTab (D : Type) := Nat → D → List (Option Nat)

/-- `SET_INCOMING_INDEX` (sync_particles_2d.c 86-92): store particle index `k` at position
`ibuff[d]` of the array of the neighbour across `d` and advance the counter.  `none` = write
outside the allocated array. -/
def setIncoming (g : Geo A D) (ip : Nat) (d : D) (k : Nat)
    (st : (D → Nat) × IdxTab D) : Option ((D → Nat) × IdxTab D) :=
  match g.nbr ip d with
  | none => some st
  | some t =>
    let ib := g.opp d
    if st.1 d < (st.2 t ib).length then
      some (fun e => if e = d then st.1 e + 1 else st.1 e,
            fun t' ib' => if t' = t ∧ ib' = ib then (st.2 t ib).set (st.1 d) (some k) else st.2 t' ib')
    else none

/-- the particle loop of `get_incoming_index` (sync_particles_2d.c 108-140), from index `k` on -/
def incomingLoop (g : Geo A D) (ip : Nat) :
    Nat → List (Slot A) → (D → Nat) × IdxTab D → Option ((D → Nat) × IdxTab D)
  | _, [], st => some st
  | k, s :: rest, st =>
    if s.dead then incomingLoop g ip (k + 1) rest st else
    match g.clsI ip s.a with
    | none => incomingLoop g ip (k + 1) rest st
    | some d =>
      match setIncoming g ip d k st with
      | none => none
      | some st' => incomingLoop g ip (k + 1) rest st'

/-- `get_incoming_index` for patch `ip` (sync_particles_2d.c 95-141). -/
def getIncomingIndex (g : Geo A D) (s : Nat → List (Slot A)) (ip : Nat) (tab : IdxTab D) :
    Option (IdxTab D) :=
  (incomingLoop g ip 0 (s ip) (fun _ => 0, tab)).map Prod.snd

/-- Second parallel loop (sync_particles_2d.c 433-446), patches processed in the order `ord`. -/
def phase2 (g : Geo A D) (s : Nat → List (Slot A)) : List Nat → IdxTab D → Option (IdxTab D)
  | [], tab => some tab
  | ip :: rest, tab =>
    match getIncomingIndex g s ip tab with
    | none => none
    | some tab' => phase2 g s rest tab'

/-- read one entry: array entry must be initialised, particle index must be in range -/
def readSlot (s : Nat → List (Slot A)) (i : Nat) (e : Option Nat) : Option A :=
  match e with
  | none => none
  | some k => ((s i)[k]?).map Slot.a

/-- `fill_boundary_particles_to_buffer` for patch `ip` (sync_particles_2d.c 144-165): for each
boundary with a neighbour read `npart_incoming[ibound]` particles through the index array. -/
def fillBuffer (g : Geo A D) (out : Nat → D → Nat) (tab : IdxTab D) (s : Nat → List (Slot A))
    (ip : Nat) : Option (List A) :=
  g.dirs.foldl (fun buf ib =>
    match buf with
    | none => none
    | some b =>
      match g.nbr ip ib with
      | none => some b
      | some i =>
        ((List.range (out i (g.opp ib))).mapM
          (fun j => readSlot s i ((tab ip ib).getD j none))).map (b ++ ·)) (some [])

/-- "Fill particles from buffer" (sync_particles_2d.c 467-496): walk over the slots, put the next
buffered particle (coordinates wrapped) into each dead slot until the buffer is used up. -/
def fillSlots (wrap : A → A) : List (Slot A) → List A → List (Slot A)
  | [], _ => []
  | s :: rest, [] => s :: rest
  | s :: rest, b :: bs =>
    if s.dead then ⟨wrap b, false⟩ :: fillSlots wrap rest bs
    else s :: fillSlots wrap rest (b :: bs)

/-- body of the third parallel loop for patch `ip` (sync_particles_2d.c 448-497); reads the
*current* arrays of the neighbours. -/
def fillPatch (g : Geo A D) (out : Nat → D → Nat) (tab : IdxTab D) (s : Nat → List (Slot A))
    (ip : Nat) : Option (Nat → List (Slot A)) :=
  if npartNew g out ip = 0 then some s else
  match fillBuffer g out tab s ip with
  | none => none
  | some buf => some fun j => if j = ip then fillSlots (g.wrap ip) (s ip) buf else s j

/-- Third parallel loop, patches processed in the order `ord`. -/
def phase3 (g : Geo A D) (out : Nat → D → Nat) (tab : IdxTab D) :
    List Nat → (Nat → List (Slot A)) → Option (Nat → List (Slot A))
  | [], s => some s
  | ip :: rest, s =>
    match fillPatch g out tab s ip with
    | none => none
    | some s' => phase3 g out tab rest s'

/-- `mark_out_of_bound_as_dead` (sync_particles_2d.c 185-202, sync_particles_3d.c 326-346) -/
def markDead (g : Geo A D) (ip : Nat) (slots : List (Slot A)) : List (Slot A) :=
  slots.map fun s => if s.dead then ⟨g.deadMark s.a, true⟩
    else if g.inside ip s.a then s else ⟨g.kill s.a, true⟩

/-- One call of `Patches.sync_particles` for one species (patch.py 705-758): count, extend, then
`fill_particles_from_boundary` with its four parallel loops.  `ord2`, `ord3` are the orders in which
the patches are processed in the second and third loop (loops one and four touch only their own
patch). `none` = undefined behaviour somewhere. -/
def syncParticles (g : Geo A D) (ord2 ord3 : List Nat) (s : Nat → List (Slot A)) :
    Option (Nat → List (Slot A)) :=
  let out := fun i => countOut (g.cls i) (s i)
  let s1 := fun ip => extendSlots g (s ip) (toExtend (s ip).length (nDead (s ip)) (npartNew g out ip))
  match phase2 g s1 ord2 (allocIdx g out) with
  | none => none
  | some tab =>
    match phase3 g out tab ord3 s1 with
    | none => none
    | some s2 => some fun ip => markDead g ip (s2 ip)

end Verif.Exchange
