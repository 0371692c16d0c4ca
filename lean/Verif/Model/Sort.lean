import Mathlib.Data.Rat.Floor
import Verif.Model.Particles
/-!
# Bucket sort of the particles of a patch

Models `src/lambdapic/core/sort/cpu2d.c` and `cpu3d.c` (`calculate_bucket_index` / `calculate_cell_index`,
`calculate_bucket_bound`, `bucket_sort` / `bucket_sort_3d`) as they are called for one patch by
`sort_particles_patches_2d` / `_3d`.

An array of length `n` is a function on `Nat` of which only the values below `n` mean anything. Simplifications: exact
rationals; `npy_intp` unbounded; the coordinates of living particles are numbers (a NaN coordinate would be converted to
an integer, which is undefined behaviour).
-/
namespace Verif.Sort

/-- `a[i] = v` -/
def upd {β : Type*} (a : Nat → β) (i : Nat) (v : β) : Nat → β := fun j => if j = i then v else a j

/-! ## bucket numbers -/

/-- `if (ix < 0) ix = 0; else if (ix >= nx) ix = nx - 1;` (cpu2d.c 28-29) -/
def clamp (n : Nat) (i : Int) : Int := if i < 0 then 0 else if (n : Int) ≤ i then n - 1 else i

/-- bucket of a living particle in 2D (cpu2d.c 23-43) -/
def cell2 (reverse : Bool) (nx ny : Nat) (dx dy x0 y0 x y : ℚ) : Nat :=
  let ix : Int := ⌊(x - x0) / dx⌋
  let iy : Int := ⌊(y - y0) / dy⌋
  if reverse then
    let ix := clamp nx ix
    let iy := clamp ny iy
    (iy + (nx - 1 - ix) * ny).toNat
  else if 0 ≤ ix ∧ ix < nx ∧ 0 ≤ iy ∧ iy < ny then (iy + ix * ny).toNat
  else nx * ny - 1

/-- bucket of a living particle in 3D (cpu3d.c 23-45) -/
def cell3 (reverse : Bool) (nx ny nz : Nat) (dx dy dz x0 y0 z0 x y z : ℚ) : Nat :=
  let ix : Int := ⌊(x - x0) / dx⌋
  let iy : Int := ⌊(y - y0) / dy⌋
  let iz : Int := ⌊(z - z0) / dz⌋
  if reverse then
    let ix := clamp nx ix
    let iy := clamp ny iy
    let iz := clamp nz iz
    (iz + iy * nz + (nx - 1 - ix) * ny * nz).toNat
  else if 0 ≤ ix ∧ ix < nx ∧ 0 ≤ iy ∧ iy < ny ∧ 0 ≤ iz ∧ iz < nz then (iz + iy * nz + ix * ny * nz).toNat
  else nx * ny * nz - 1

/-- state of the loop of `calculate_bucket_index`: `icell`, `particle_index`, `bucket_count` -/
structure IdxSt where
  icell : Nat
  pidx : Nat → Nat
  count : Nat → Nat

/-- loop body (cpu2d.c 21-53): a dead slot gets the bucket of the slot before it -/
def idxStep (cell : Nat → Nat) (dead : Nat → Bool) (s : IdxSt) (ip : Nat) : IdxSt :=
  let c := if dead ip then s.icell else cell ip
  ⟨c, upd s.pidx ip c, upd s.count c (s.count c + 1)⟩

/-- `calculate_bucket_index` (cpu2d.c 9-54), `calculate_cell_index` (cpu3d.c 8-55); `pidx` is the old content of
`particle_index` -/
def bucketIndex (cell : Nat → Nat) (dead : Nat → Bool) (n : Nat) (pidx : Nat → Nat) : IdxSt :=
  (List.range n).foldl (idxStep cell dead) ⟨0, pidx, fun _ => 0⟩

/-- `calculate_bucket_bound` (cpu2d.c 78-91, cpu3d.c 58-71): result `(bucket_bound_min, bucket_bound_max)` -/
def bucketBound (count : Nat → Nat) (nbin : Nat) (bmin bmax : Nat → Nat) : (Nat → Nat) × (Nat → Nat) :=
  let s := (List.range' 1 (nbin - 1)).foldl (fun (s : (Nat → Nat) × (Nat → Nat)) icell =>
    let mn := upd s.1 icell (s.1 (icell - 1) + count (icell - 1))
    (mn, upd s.2 (icell - 1) (mn icell))) (upd bmin 0 0, bmax)
  (s.1, upd s.2 (nbin - 1) (s.1 (nbin - 1) + count (nbin - 1)))

/-! ## bucket_sort -/

/-- `ibin` in the order of the nested loops over `ix`, `iy` (cpu2d.c 118-120) -/
def bins2 (nx ny : Nat) : List Nat := (List.range nx).flatMap fun ix => (List.range ny).map fun iy => iy + ix * ny

/-- `ibin` in the order of the nested loops over `ix`, `iy`, `iz` (cpu3d.c 84-87) -/
def bins3 (nx ny nz : Nat) : List Nat :=
  (List.range nx).flatMap fun ix => (List.range ny).flatMap fun iy => (List.range nz).map fun iz =>
    iz + iy * nz + ix * ny * nz

/-- computation of `particle_index_ref` (cpu2d.c 117-126) -/
def refIndex (count : Nat → Nat) (bins : List Nat) (ref : Nat → Nat) : Nat → Nat :=
  (bins.foldl (fun (s : Nat × (Nat → Nat)) ibin =>
    (s.1 + count ibin, (List.range' s.1 (count ibin)).foldl (fun r ip => upd r ip ibin) s.2)) (0, ref)).2

/-- state of the mismatch scan: `bucket_count_not`, `particle_index_target`, `nbuf` -/
structure MisSt where
  notCount : Nat → Nat
  target : Nat → Nat
  nbuf : Nat

/-- the mismatch scan (cpu2d.c 128-137) -/
def mismatch (pidx ref : Nat → Nat) (n : Nat) (target : Nat → Nat) : MisSt :=
  (List.range n).foldl (fun (s : MisSt) ip =>
    if pidx ip ≠ ref ip then
      ⟨upd s.notCount (ref ip) (s.notCount (ref ip) + 1), upd s.target s.nbuf ip, s.nbuf + 1⟩
    else s) ⟨fun _ => 0, target, 0⟩

/-- `bucket_start_counter` (cpu2d.c 146-149 and 175-178) -/
def startCounter (notCount : Nat → Nat) (nbin : Nat) (start : Nat → Nat) : Nat → Nat :=
  (List.range' 1 (nbin - 1)).foldl (fun (s : Nat → Nat) ibin => upd s ibin (s (ibin - 1) + notCount (ibin - 1)))
    (upd start 0 0)

/-- gather into `buf` and fill back, for one array (cpu2d.c 157-166 for an attribute, 180-188 for `is_dead`); `buf` and
`start` are what earlier iterations left there -/
def moveArr {β : Type*} (pidx : Nat → Nat) (m : MisSt) (nbin : Nat) (start : Nat → Nat) (buf a : Nat → β) : Nat → β :=
  let g := (List.range m.nbuf).foldl (fun (s : (Nat → Nat) × (Nat → β)) ibuf =>
    let ip := m.target ibuf
    (upd s.1 (pidx ip) (s.1 (pidx ip) + 1), upd s.2 (s.1 (pidx ip)) (a ip))) (startCounter m.notCount nbin start, buf)
  (List.range m.nbuf).foldl (fun (s : Nat → β) ibuf => upd s (m.target ibuf) (g.2 ibuf)) a

/-- the arrays of one patch the sorter works with: the particle attributes, `is_dead`, and the scratch arrays it keeps
between calls -/
structure Patch (α : Type*) where
  n : Nat
  attr : Nat → Nat → α
  dead : Nat → Bool

/-- scratch arrays kept between calls (particle_sort.py 114-118 and 186-190); their content does not matter -/
structure Scratch (α : Type*) where
  pidx : Nat → Nat
  ref : Nat → Nat
  target : Nat → Nat
  start : Nat → Nat
  bmin : Nat → Nat
  bmax : Nat → Nat
  buf : Nat → α
  bufDead : Nat → Bool

/-- result of sorting one patch: the arrays, the published bounds, the number of moved particles -/
structure Sorted (α : Type*) where
  patch : Patch α
  bmin : Nat → Nat
  bmax : Nat → Nat
  nbuf : Nat

/-- one patch of `sort_particles_patches_2d` (cpu2d.c 247-300), `bucket_sort` (cpu2d.c 108-189). `nattrs` attribute
arrays are moved, one after the other; the scratch buffers a move finds there are `S.start`, `S.buf` for each of them
(their content is overwritten before it is read). -/
def sortPatch {α : Type*} (cell : Nat → Nat) (bins : List Nat) (nbin nattrs : Nat) (P : Patch α) (S : Scratch α) :
    Sorted α :=
  let I := bucketIndex cell P.dead P.n S.pidx
  let b := bucketBound I.count nbin S.bmin S.bmax
  let ref := refIndex I.count bins S.ref
  let m := mismatch I.pidx ref P.n S.target
  if m.nbuf = 0 then ⟨P, b.1, b.2, 0⟩
  else
    ⟨⟨P.n, fun a => if a < nattrs then moveArr I.pidx m nbin S.start S.buf (P.attr a) else P.attr a,
      moveArr I.pidx m nbin S.start S.bufDead P.dead⟩, b.1, b.2, m.nbuf⟩

/-- `ParticleSort2D.__call__` for one patch (sort/particle_sort.py 196-211, cpu2d.c): attributes `0` and `1` are `x` and
`y` (`xs`, `ys` give their values as numbers) -/
def sort2 {α : Type*} (toQ : α → ℚ) (reverse : Bool) (nx ny : Nat) (dx dy x0 y0 : ℚ) (nattrs : Nat) (P : Patch α)
    (S : Scratch α) : Sorted α :=
  sortPatch (fun ip => cell2 reverse nx ny dx dy x0 y0 (toQ (P.attr 0 ip)) (toQ (P.attr 1 ip))) (bins2 nx ny) (nx * ny)
    nattrs P S

/-- `ParticleSort3D.__call__` for one patch (sort/particle_sort.py 335-350, cpu3d.c) -/
def sort3 {α : Type*} (toQ : α → ℚ) (reverse : Bool) (nx ny nz : Nat) (dx dy dz x0 y0 z0 : ℚ) (nattrs : Nat)
    (P : Patch α) (S : Scratch α) : Sorted α :=
  sortPatch (fun ip => cell3 reverse nx ny nz dx dy dz x0 y0 z0 (toQ (P.attr 0 ip)) (toQ (P.attr 1 ip))
    (toQ (P.attr 2 ip))) (bins3 nx ny nz) (nx * ny * nz) nattrs P S

end Verif.Sort
