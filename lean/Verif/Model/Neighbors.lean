import Verif.Model.Boundaries
/-!
# Patch grid creation and neighbour tables

`src/lambdapic/simulation/simulation.py` `create_patches` (478-499, 3D 1389-1404) and
`src/lambdapic/core/patch/patch.py` `init_rect_neighbor_index_2d/3d` (446-592),
`init_neighbor_ipatch_2d/3d` (641-667), `init_neighbor_rank_2d/3d` (594-638).
-/
namespace Verif.Neighbors

/-- value of a `boundary_conditions` entry -/
inductive BC where
  | pml | periodic
  deriving DecidableEq, Repr

/-- boundary conditions of one axis (`'xmin'`, `'xmax'` entries of the dict) -/
structure AxisBC where
  lo : BC
  hi : BC
  deriving DecidableEq, Repr

/-- wrapping of one tentative neighbour coordinate (patch.py 477-487 for x, same code for y, z);
`none` is the `continue`. -/
def wrapCoord (n : Nat) (bc : AxisBC) (c : Int) : Option Int :=
  if c < 0 then
    if bc.lo = .periodic then some ((n : Int) - 1) else none
  else if (n : Int) ≤ c then
    if bc.hi = .periodic then some 0 else none
  else some c

/-- integer bookkeeping of a 2D patch (`Patch2D` index, ipatch_x, ipatch_y) -/
structure P2 where
  index : Nat
  ix : Nat
  iy : Nat
  deriving DecidableEq, Repr

/-- `Simulation.create_patches` (simulation.py 478-498) -/
def createPatches2 (npx npy : Nat) : List P2 :=
  (List.range npy).flatMap fun j => (List.range npx).map fun i => ⟨i + j * npx, i, j⟩

/-- `patch_index_map.get((ni, nj))` (patch.py 465-466, 502): dict built from a patch list, later
entries overwrite earlier ones. -/
def mapGet2 (ps : List P2) (ni nj : Int) : Option Nat :=
  (ps.reverse.find? fun p => decide ((p.ix : Int) = ni ∧ (p.iy : Int) = nj)).map P2.index

/-- number of keys of the dict -/
def mapLen2 (ps : List P2) : Nat := (ps.map fun p => (p.ix, p.iy)).eraseDups.length

/-- loop body of `init_rect_neighbor_index_2d` for patch `p` and the offset of boundary `b`
(patch.py 472-507): the value stored in `p.neighbor_index[b]` (`-1` = none).  Each boundary name
occurs once in the offset table, so the loop assigns each entry at most once. `none` = KeyError. -/
def neighborIndex2 (npx npy : Nat) (bx by' : AxisBC) (ps : List P2) (p : P2) (b : B2) :
    Option Int :=
  match wrapCoord npx bx (p.ix + b.offset.1) with
  | none => some (-1)
  | some ni =>
    match wrapCoord npy by' (p.iy + b.offset.2) with
    | none => some (-1)
    | some nj =>
      match mapGet2 ps ni nj with
      | some k => some k
      | none => if mapLen2 ps = npx * npy then none else some (-1)

/-- `indices.index(neighbor_index)` for a local patch list, `-1` if absent (patch.py 651-653).
`idx` is the `neighbor_index` entry. -/
def ipatchOf (indices : List Nat) (idx : Int) : Int :=
  if 0 ≤ idx then
    match indices.findIdx? (fun k : Nat => decide ((k : Int) = idx)) with
    | some i => i
    | none => -1
  else -1

/-- `init_neighbor_ipatch_2d` (patch.py 641-653): entry `b` of local patch number `ip`.  `loc` are
the patches of this rank, `ps` all patches; `none` where the C code sees a negative number. -/
def neighborIpatch2 (npx npy : Nat) (bx by' : AxisBC) (ps loc : List P2) (ip : Nat) (b : B2) :
    Option Nat :=
  match loc[ip]? with
  | none => none
  | some p =>
    match neighborIndex2 npx npy bx by' ps p b with
    | none => none
    | some idx =>
      let k := ipatchOf (loc.map P2.index) idx
      if 0 ≤ k then some k.toNat else none

/-- `init_neighbor_rank_2d` (patch.py 594-616): `-1` when the neighbour is absent or on the same
rank.  `none` = KeyError in the rank map. -/
def neighborRank2 (rankOf : Nat → Option Nat) (myRank : Nat) (idx : Int) : Option Int :=
  if 0 ≤ idx then
    match rankOf idx.toNat with
    | none => none
    | some r => if r ≠ myRank then some r else some (-1)
  else some (-1)

/-- `init_neighbor_rank_3d` (patch.py 618-638): looks at position `neighbor_index` of the *local*
patch list instead of the rank map; `none` = IndexError. `locRanks` are the ranks of the local
patches in list order. -/
def neighborRank3 (locRanks : List Nat) (_rankOf : Nat → Option Nat) (myRank : Nat) (idx : Int) :
    Option Int :=
  if 0 ≤ idx then
    match locRanks[idx.toNat]? with
    | none => none
    | some r => if r ≠ myRank then some r else some (-1)
  else some (-1)

/-- integer bookkeeping of a 3D patch -/
structure P3 where
  index : Nat
  ix : Nat
  iy : Nat
  iz : Nat
  deriving DecidableEq, Repr

/-- `Simulation3D.create_patches` (simulation.py 1389-1402) -/
def createPatches3 (npx npy npz : Nat) : List P3 :=
  (List.range npz).flatMap fun k => (List.range npy).flatMap fun j =>
    (List.range npx).map fun i => ⟨i + j * npx + k * npx * npy, i, j, k⟩

/-- `patch_index_map.get((ni, nj, nk))` (patch.py 537-538, 587) -/
def mapGet3 (ps : List P3) (ni nj nk : Int) : Option Nat :=
  (ps.reverse.find? fun p =>
    decide ((p.ix : Int) = ni ∧ (p.iy : Int) = nj ∧ (p.iz : Int) = nk)).map P3.index

/-- number of keys of the dict -/
def mapLen3 (ps : List P3) : Nat := (ps.map fun p => (p.ix, p.iy, p.iz)).eraseDups.length

/-- loop body of `init_rect_neighbor_index_3d` (patch.py 544-592) -/
def neighborIndex3 (npx npy npz : Nat) (bx by' bz : AxisBC) (ps : List P3) (p : P3) (b : B3) :
    Option Int :=
  match wrapCoord npx bx (p.ix + b.offset.1) with
  | none => some (-1)
  | some ni =>
    match wrapCoord npy by' (p.iy + b.offset.2.1) with
    | none => some (-1)
    | some nj =>
      match wrapCoord npz bz (p.iz + b.offset.2.2) with
      | none => some (-1)
      | some nk =>
        match mapGet3 ps ni nj nk with
        | some k => some k
        | none => if mapLen3 ps = npx * npy * npz then none else some (-1)

/-- `init_neighbor_ipatch_3d` (patch.py 655-667) -/
def neighborIpatch3 (npx npy npz : Nat) (bx by' bz : AxisBC) (ps loc : List P3) (ip : Nat) (b : B3) :
    Option Nat :=
  match loc[ip]? with
  | none => none
  | some p =>
    match neighborIndex3 npx npy npz bx by' bz ps p b with
    | none => none
    | some idx =>
      let k := ipatchOf (loc.map P3.index) idx
      if 0 ≤ k then some k.toNat else none

end Verif.Neighbors
