import Mathlib.Data.Rat.Floor
import Mathlib.Algebra.Order.Field.Rat
import Mathlib.Data.Fintype.Basic
/-!
# Output of fields and particles

Models the slicing and writing of fields (callback/hdf5.py 14-133, 162-273), the particle output
(callback/hdf5.py 616-700) and the collection of fields on rank 0 (callback/utils.py 50-237).

Simplifications: the index divisions `math.ceil(a / step)`, `math.floor(a / step)` are exact (in the code they go through a double,
which is exact below 2^53); an HDF5 dataset is a function on its indices, one write of a patch is indivisible; attributes, chunking
and file names are left out.
-/
namespace Verif.Output

/-! ## slices -/

/-- one element of the user's slice: an integer, a `slice` object, or anything else (`...`, `None`, a float) -/
inductive UIdx
  | int (i : Int)
  | slice (start stop step : Option Int)
  | other
deriving DecidableEq

/-- a normalised `slice` -/
structure Sl where
  start : Int
  stop : Int
  step : Int
deriving DecidableEq, Inhabited

/-- the body of the loop of `_normalize_slice` (hdf5.py 56-97); `none` is the `ValueError` -/
def normalizeAxis (dim : Int) : UIdx → Option Sl
  | .int s =>
    let s := if s < 0 then dim + s else s
    if s < 0 ∨ s ≥ dim then none else some ⟨s, s + 1, 1⟩
  | .slice start stop step =>
    let start := start.getD 0
    let stop := stop.getD dim
    let step := step.getD 1
    if step ≤ 0 then none
    else
      let start := if start < 0 then dim + start else start
      let stop := if stop < 0 then dim + stop else stop
      let start := max 0 (min start dim)
      let stop := max 0 (min stop dim)
      if start ≥ stop then none else some ⟨start, stop, step⟩
  | .other => none

/-- `_normalize_slice` for a tuple (hdf5.py 33-99): wrong length and elements that are neither integers nor slices raise -/
def normalizeSlice {d : Nat} (dims : Fin d → Nat) (user : List UIdx) : Option (Fin d → Sl) :=
  if h : user.length = d then
    if ∀ a : Fin d, (normalizeAxis (dims a) (user[a.val]'(h ▸ a.isLt))).isSome = true then
      some fun a => (normalizeAxis (dims a) (user[a.val]'(h ▸ a.isLt))).getD default
    else none
  else none

/-- `len(range(start, stop, step))` for a positive step (hdf5.py 200) -/
def Sl.count (s : Sl) : Int := if s.start < s.stop then (s.stop - s.start - 1) / s.step + 1 else 0

/-- the part of a slice in one patch: the local slice, the first output index and the number of elements -/
structure Piece where
  localStart : Int
  localStop : Int
  step : Int
  out : Int
  num : Int
deriving DecidableEq, Inhabited

/-- `_compute_patch_slice` (hdf5.py 102-133); `math.ceil(a / b)` is `-((-a) / b)` -/
def patchSlice (s : Sl) (offset size : Int) : Option Piece :=
  let first := s.start + -((-(max 0 (offset - s.start))) / s.step) * s.step
  let lastGlobal := min s.stop (offset + size) - 1
  let lastSelected := s.start + (lastGlobal - s.start) / s.step * s.step
  if lastSelected < first then none
  else
    let localFirst := first - offset
    let out := (first - s.start) / s.step
    let num := (lastSelected - first) / s.step + 1
    some ⟨localFirst, localFirst + num * s.step, s.step, out, num⟩

/-- the number of elements numpy takes for `arr[start:stop:step]` on an axis of length `len`, nonnegative bounds -/
def takenLen (len : Int) (p : Piece) : Int :=
  if p.localStart < min p.localStop len then (min p.localStop len - p.localStart - 1) / p.step + 1 else 0

variable {d : Nat} {V : Type}

/-- what one patch holds of a component: its position in the grid of patches and its array, of length `n + 2 ng` per axis, own cells
first (fields.py) -/
structure PatchArr (d : Nat) (V : Type) where
  ipatch : Fin d → Nat
  arr : (Fin d → Int) → V

/-- the piece of a patch along each axis (hdf5.py 225-230, 268-273) -/
def piece (n : Fin d → Nat) (sl : Fin d → Sl) (ipatch : Fin d → Nat) (a : Fin d) : Option Piece :=
  patchSlice (sl a) (ipatch a * n a) (n a)

/-- the body of the patch loop of `_write_mpi` and `_write_non_mpi` (hdf5.py 223-240, 256-273): `dset[out_idx] = data[local_slices]`.
`none`: the shapes differ or the target range is not inside the dataset, which h5py rejects. -/
def writePatch (n : Fin d → Nat) (ng : Nat) (sl : Fin d → Sl) (dset : (Fin d → Int) → V) (p : PatchArr d V) :
    Option ((Fin d → Int) → V) :=
  if ∃ a, piece n sl p.ipatch a = none then some dset
  else
    let pc := fun a => (piece n sl p.ipatch a).getD default
    if ∀ a, takenLen (n a + 2 * ng) (pc a) = (pc a).num ∧ 0 ≤ (pc a).out ∧ (pc a).out + (pc a).num ≤ (sl a).count then
      some fun o => if ∀ a, (pc a).out ≤ o a ∧ o a < (pc a).out + (pc a).num
        then p.arr fun a => (pc a).localStart + (o a - (pc a).out) * (pc a).step else dset o
    else none

/-- all patches of all ranks, in the order in which their writes happen to be executed -/
def writeAll (n : Fin d → Nat) (ng : Nat) (sl : Fin d → Sl) (fill : V) (patches : List (PatchArr d V)) :
    Option ((Fin d → Int) → V) :=
  patches.foldlM (writePatch n ng sl) fun _ => fill

/-- the slice that is used (hdf5.py 197-198, 352-358): the user's, or all cells -/
def chosenSlice (dims : Fin d → Nat) : Option (List UIdx) → Option (Fin d → Sl)
  | none => some fun a => ⟨0, dims a, 1⟩
  | some u => normalizeSlice dims u

/-- `_write_nd` with the user's slice, or without one (hdf5.py 182-206, 350-367) -/
def saveFields (dims n : Fin d → Nat) (ng : Nat) (user : Option (List UIdx)) (fill : V) (patches : List (PatchArr d V)) :
    Option ((Fin d → Sl) × ((Fin d → Int) → V)) :=
  (chosenSlice dims user).bind fun sl => (writeAll n ng sl fill patches).map fun ds => (sl, ds)

/-! ## particles -/

/-- one statement `dset[start:start+n] = data` -/
structure Write (V : Type) where
  start : Nat
  data : List V

/-- the writes of one rank for one attribute (hdf5.py 685-692): `start` counts on over its patches -/
def rankWrites (start : Nat) : List (List V) → List (Write V)
  | [] => []
  | living :: rest => ⟨start, living⟩ :: rankWrites (start + living.length) rest

/-- the writes of all ranks (hdf5.py 683-692): rank `r` starts after all particles of the ranks before it;
`ranks r` lists for each patch the attribute of its living particles (`data[is_alive]`) -/
def allWrites (ranks : List (List (List V))) : List (Write V) :=
  (List.range ranks.length).flatMap fun r =>
    rankWrites ((ranks.take r).map fun patches => (patches.map List.length).sum).sum (ranks.getD r [])

/-- `dset[start:start+n] = data` on a dataset -/
def Write.apply (dset : List V) (w : Write V) : List V :=
  dset.take w.start ++ w.data ++ dset.drop (w.start + w.data.length)

/-- the dataset is created with the total number of elements (hdf5.py 673-678), then the writes happen in some order -/
def saveParticles (zero : V) (ranks : List (List (List V))) (order : List (Write V)) : List V :=
  order.foldl Write.apply (List.replicate ((ranks.map fun patches => (patches.map List.length).sum).sum) zero)

/-! ## collecting fields on rank 0 -/

/-- a patch of a rank with one field component: global index, position in the grid, array of `(nx + 2 ng) × (ny + 2 ng)` -/
structure GPatch (V : Type) where
  index : Nat
  ix : Nat
  iy : Nat
  arr : Nat → Nat → V

/-- the dictionary of all ranks (utils.py 76-80): later entries win -/
def indexMap (ranks : List (List (GPatch V))) (ix iy : Nat) : Option Nat :=
  (ranks.flatten.reverse.find? fun p => decide (p.ix = ix ∧ p.iy = iy)).map (·.index)

/-- `Recv(buf, tag=index)` from any source: the first message with that tag not yet received (utils.py 106, 115-121) -/
def recv (tag : Nat) : List (Nat × (Nat → Nat → V)) → Option ((Nat → Nat → V) × List (Nat × (Nat → Nat → V)))
  | [] => none
  | m :: ms => if m.1 = tag then some (m.2, ms) else (recv tag ms).map fun r => (r.1, m :: r.2)

/-- `field_[s] = a[:-2*ng, :-2*ng]` (utils.py 96-107) -/
def paste (nx ny ix iy : Nat) (a : Nat → Nat → V) (f : Nat → Nat → V) : Nat → Nat → V :=
  fun i j => if ix * nx ≤ i ∧ i < ix * nx + nx ∧ iy * ny ≤ j ∧ j < iy * ny + ny then a (i - ix * nx) (j - iy * ny) else f i j

/-- the loop body of rank 0 (utils.py 88-107); `own` are the patches of rank 0, `masked` is `hasattr(sim, 'domain_mask')`. `none`: a
`KeyError` or a `Recv` that waits forever. -/
def collectPatch (nx ny : Nat) (masked : Bool) (ranks : List (List (GPatch V))) (own : List (GPatch V))
    (st : (Nat → Nat → V) × List (Nat × (Nat → Nat → V))) (ip : Nat × Nat) :
    Option ((Nat → Nat → V) × List (Nat × (Nat → Nat → V))) :=
  match indexMap ranks ip.1 ip.2 with
  | none => if masked then some st else none
  | some index =>
    match own.reverse.find? fun p => decide (p.index = index) with
    | some p => some (paste nx ny ip.1 ip.2 p.arr st.1, st.2)
    | none => (recv index st.2).map fun r => (paste nx ny ip.1 ip.2 r.1 st.1, r.2)

/-- `get_fields_2d` for one component on rank 0 (utils.py 50-125): `msgs` are the messages of the other ranks in the order in which
they can be matched. The result is the field and the messages left over. -/
def getFields2 (nx ny npx npy : Nat) (masked : Bool) (zero : V) (ranks : List (List (GPatch V)))
    (msgs : List (Nat × (Nat → Nat → V))) : Option ((Nat → Nat → V) × List (Nat × (Nat → Nat → V))) :=
  ((List.range npx).flatMap fun ix => (List.range npy).map fun iy => (ix, iy)).foldlM
    (collectPatch nx ny masked ranks (ranks.headD [])) (fun _ _ => zero, msgs)

/-- what the other ranks send (utils.py 114-118) -/
def sent (ranks : List (List (GPatch V))) : List (Nat × (Nat → Nat → V)) :=
  ranks.tail.flatten.map fun p => (p.index, p.arr)

/-! ### 3D -/

/-- a patch of a 3D simulation: `zmin`, `zmax` without absorbing layer (patch.py 136-148), array of own cells and guards -/
structure GPatch3 (V : Type) where
  index : Nat
  ix : Nat
  iy : Nat
  iz : Nat
  arr : Nat → Nat → Nat → V

/-- `p.zmin <= slice_at <= p.zmax` (utils.py 170, 216; patch.py 136-148) with `z0 = iz * nz * dz` (simulation.py 1397) -/
def hasSlice (nz : Nat) (dz z : ℚ) (p : GPatch3 V) : Bool :=
  decide ((p.iz * nz : ℚ) * dz ≤ z ∧ z ≤ (p.iz * nz : ℚ) * dz + ((nz : ℚ) - 1) * dz)

/-- `int((slice_at + dz / 2) / dz)` (utils.py 176-177); positions are not negative -/
def izGlobal (dz z : ℚ) : Nat := ⌊(z + dz / 2) / dz⌋.toNat

/-- the plane a patch of rank 0 contributes (utils.py 179, 207) -/
def localPlane (nz : Nat) (dz z : ℚ) (p : GPatch3 V) : Nat → Nat → V :=
  fun i j => p.arr i j (izGlobal dz z - izGlobal dz z / nz * nz)

/-- the plane a patch of another rank sends (utils.py 217-222) -/
def remotePlane (nz ng : Nat) (dz z : ℚ) (p : GPatch3 V) : Nat → Nat → V :=
  fun i j => p.arr i j (izGlobal dz z - p.iz * nz + ng)

/-- the dictionary of the patches that contain the slice (utils.py 166-174, 182) -/
def indexMap3 (nz : Nat) (dz z : ℚ) (ranks : List (List (GPatch3 V))) (ix iy iz : Nat) : Option Nat :=
  ((ranks.flatten.filter (hasSlice nz dz z)).reverse.find? fun p => decide (p.ix = ix ∧ p.iy = iy ∧ p.iz = iz)).map (·.index)

/-- the loop body of rank 0 (utils.py 191-211) -/
def collectPatch3 (nx ny nz : Nat) (dz z : ℚ) (ranks : List (List (GPatch3 V))) (own : List (GPatch3 V))
    (st : (Nat → Nat → V) × List (Nat × (Nat → Nat → V))) (ip : Nat × Nat × Nat) :
    Option ((Nat → Nat → V) × List (Nat × (Nat → Nat → V))) :=
  match indexMap3 nz dz z ranks ip.1 ip.2.1 ip.2.2 with
  | none => some st
  | some index =>
    match own.reverse.find? fun p => decide (p.index = index) with
    | some p => some (paste nx ny ip.1 ip.2.1 (localPlane nz dz z p) st.1, st.2)
    | none => (recv index st.2).map fun r => (paste nx ny ip.1 ip.2.1 r.1 st.1, r.2)

/-- `get_fields_3d` for one component on rank 0 (utils.py 128-237) -/
def getFields3 (nx ny nz npx npy npz : Nat) (dz z : ℚ) (zero : V) (ranks : List (List (GPatch3 V)))
    (msgs : List (Nat × (Nat → Nat → V))) : Option ((Nat → Nat → V) × List (Nat × (Nat → Nat → V))) :=
  ((List.range npx).flatMap fun ix => (List.range npy).flatMap fun iy => (List.range npz).map fun iz => (ix, iy, iz)).foldlM
    (collectPatch3 nx ny nz dz z ranks (ranks.headD [])) (fun _ _ => zero, msgs)

/-- what the other ranks send (utils.py 213-225) -/
def sent3 (nz ng : Nat) (dz z : ℚ) (ranks : List (List (GPatch3 V))) : List (Nat × (Nat → Nat → V)) :=
  (ranks.tail.flatten.filter (hasSlice nz dz z)).map fun p => (p.index, remotePlane nz ng dz z p)

end Verif.Output
