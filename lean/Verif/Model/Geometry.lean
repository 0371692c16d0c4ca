import Verif.Model.Neighbors
import Verif.Model.Particles
import Verif.Model.Exchange
/-!
# Patch geometry along one axis, and the 2D / 3D instances of the particle exchange

* `src/lambdapic/simulation/simulation.py` `_validate` (191-227), `create_patches` (478-498,
  1389-1402), `_set_global_domain_bounds` (425-430, 1319-1326), `_init_pml` (450-464, 1349-1367);
* `src/lambdapic/core/patch/patch.py` `Patch.xmin` … `zmax` (105-148);
* the widening of the bounds by half a cell in `sync_particles_2d.c` (262-265, 367-372) and `_3d.c`.
-/
namespace Verif.Geometry
open Verif.Neighbors
open Verif.Particles (F64)

/-- C comparison `v < q`; false for NaN -/
def F64.lt : F64 → Rat → Bool
  | .nan, _ => false
  | .val v, q => decide (v < q)

/-- C comparison `v > q`; false for NaN -/
def F64.gt : F64 → Rat → Bool
  | .nan, _ => false
  | .val v, q => decide (q < v)

/-- `v + q` -/
def F64.add : F64 → Rat → F64
  | .nan, _ => .nan
  | .val v, q => .val (v + q)

/-- One axis of the simulation: number of patches, cells per patch (`nx // npatch_x`; the config
validator, simulation.py 83-93, rejects a remainder), cell size, boundary conditions,
`cpml_thickness`. -/
structure Axis where
  n : Nat
  c : Nat
  h : Rat
  bc : AxisBC
  thick : Nat

namespace Axis
variable (a : Axis)

/-- `Lx = nx * dx` (simulation.py 218) -/
def L : Rat := ((a.n * a.c : Nat) : Rat) * a.h

/-- `x0 = i * Lx / npatch_x` (simulation.py 482) -/
def x0 (i : Nat) : Rat := (i : Rat) * a.L / (a.n : Rat)

/-- `Patch.xmin` (patch.py 105-113), the PML being present iff `_init_pml` added it
(simulation.py 457) -/
def pmin (i : Nat) : Rat :=
  if i = 0 ∧ a.bc.lo = .pml then a.x0 i + (a.thick : Rat) * a.h else a.x0 i

/-- `Patch.xmax` (patch.py 115-120, simulation.py 459) -/
def pmax (i : Nat) : Rat :=
  if i = a.n - 1 ∧ a.bc.hi = .pml then a.x0 i + ((a.c : Rat) - 1) * a.h - (a.thick : Rat) * a.h
  else a.x0 i + ((a.c : Rat) - 1) * a.h

/-- `xmin_list[ipatch] -= 0.5 * dx` (sync_particles_2d.c 368) -/
def lo (i : Nat) : Rat := a.pmin i - a.h / 2

/-- `xmax_list[ipatch] += 0.5 * dx` (sync_particles_2d.c 369) -/
def hi (i : Nat) : Rat := a.pmax i + a.h / 2

/-- `xmin_global` (simulation.py 427) -/
def gmin : Rat := -a.h / 2

/-- `xmax_global` (simulation.py 428) -/
def gmax : Rat := a.L - a.h / 2

end Axis

/-- `fabs` -/
def fabs (q : Rat) : Rat := if q < 0 then -q else q

/-- `handle_periodic` (sync_particles_2d.c 168-182, sync_particles_3d.c 349-363) on one coordinate;
`L` is `xmax_global - xmin_global` (345).  Both tests use the value read at the beginning. -/
def handlePeriodic (coord : F64) (gmin gmax pmin pmax cell : Rat) : F64 :=
  let b1 := if F64.gt coord gmax = true ∧ fabs (pmin - gmin) < cell
    then F64.add coord (-(gmax - gmin)) else coord
  if F64.lt coord gmin = true ∧ fabs (pmax - gmax) < cell then F64.add b1 (gmax - gmin) else b1

/-- Bounds of all local patches along one axis as the C code sees them: `lo`, `hi` already widened by
half a cell, plus the global bounds and the cell size. -/
structure Bnd where
  lo : Nat → Rat
  hi : Nat → Rat
  gmin : Rat
  gmax : Rat
  cell : Rat

/-- bounds of the local patches along an axis, `coord ip` being the patch grid coordinate of local
patch `ip` -/
def Axis.bnd (a : Axis) (coord : Nat → Nat) : Bnd :=
  ⟨fun ip => a.lo (coord ip), fun ip => a.hi (coord ip), a.gmin, a.gmax, a.h⟩

/-- `handle_periodic` call for a coordinate written into patch `ip` (sync_particles_2d.c 470-485) -/
def Bnd.wrap (b : Bnd) (ip : Nat) (v : F64) : F64 :=
  handlePeriodic v b.gmin b.gmax (b.lo ip) (b.hi ip) b.cell

/-! ## 2D -/

/-- attribute vector of a 2D particle: the coordinates and everything else (`rest` = all other
entries of `attrs`, e.g. `w, ux, uy, uz, inv_gamma, _id`) -/
structure A2 (R : Type) where
  x : F64
  y : F64
  rest : R
  deriving DecidableEq, Repr

/-- branch tree of `count_outgoing_particles` (sync_particles_2d.c 37-84); `none` = no counter
incremented -/
def cls2 {R : Type} (bx by' : Bnd) (ip : Nat) (p : A2 R) : Option B2 :=
  if F64.lt p.y (by'.lo ip) then
    if F64.lt p.x (bx.lo ip) then some .xminymin
    else if F64.gt p.x (bx.hi ip) then some .xmaxymin
    else some .ymin
  else if F64.gt p.y (by'.hi ip) then
    if F64.lt p.x (bx.lo ip) then some .xminymax
    else if F64.gt p.x (bx.hi ip) then some .xmaxymax
    else some .ymax
  else
    if F64.lt p.x (bx.lo ip) then some .xmin
    else if F64.gt p.x (bx.hi ip) then some .xmax
    else none

/-- branch tree of `get_incoming_index` (sync_particles_2d.c 95-143) -/
def clsI2 {R : Type} (bx by' : Bnd) (ip : Nat) (p : A2 R) : Option B2 :=
  if F64.lt p.y (by'.lo ip) then
    if F64.lt p.x (bx.lo ip) then some .xminymin
    else if F64.gt p.x (bx.hi ip) then some .xmaxymin
    else some .ymin
  else if F64.gt p.y (by'.hi ip) then
    if F64.lt p.x (bx.lo ip) then some .xminymax
    else if F64.gt p.x (bx.hi ip) then some .xmaxymax
    else some .ymax
  else
    if F64.lt p.x (bx.lo ip) then some .xmin
    else if F64.gt p.x (bx.hi ip) then some .xmax
    else none

/-- negation of the condition in `mark_out_of_bound_as_dead` (sync_particles_2d.c 196) -/
def inside2 {R : Type} (bx by' : Bnd) (ip : Nat) (p : A2 R) : Bool :=
  !(F64.lt p.x (bx.lo ip) || F64.gt p.x (bx.hi ip) ||
    F64.lt p.y (by'.lo ip) || F64.gt p.y (by'.hi ip))

/-- The 2D exchange (sync_particles_2d.c). `nbr` = `neighbor_ipatch`; `blank` = attribute values of a
freshly appended slot. -/
def geo2 {R : Type} (npatches : Nat) (nbr : Nat → B2 → Option Nat) (bx by' : Bnd) (blank : A2 R) :
    Exchange.Geo (A2 R) B2 where
  dirs := B2.all
  opp := B2.opp
  npatches := npatches
  nbr := nbr
  cls := cls2 bx by'
  clsI := clsI2 bx by'
  wrap := fun ip p => ⟨bx.wrap ip p.x, by'.wrap ip p.y, p.rest⟩
  inside := inside2 bx by'
  kill := fun p => ⟨.nan, .nan, p.rest⟩
  deadMark := fun p => p
  blank := blank

/-- The exchange between the patches `loc` of one rank of a 2D simulation with axes `ax`, `ay` whose
complete patch list is `ps`. -/
def simGeo2 {R : Type} (ax ay : Axis) (ps loc : List P2) (blank : A2 R) :
    Exchange.Geo (A2 R) B2 :=
  geo2 loc.length (neighborIpatch2 ax.n ay.n ax.bc ay.bc ps loc)
    (ax.bnd fun ip => (loc[ip]?.map P2.ix).getD 0)
    (ay.bnd fun ip => (loc[ip]?.map P2.iy).getD 0) blank

/-! ## 3D -/

/-- attribute vector of a 3D particle -/
structure A3 (R : Type) where
  x : F64
  y : F64
  z : F64
  rest : R
  deriving DecidableEq, Repr

/-- branch tree of `count_outgoing_particles` (sync_particles_3d.c 79-193) -/
def cls3 {R : Type} (bx by' bz : Bnd) (ip : Nat) (p : A3 R) : Option B3 :=
  if F64.lt p.z (bz.lo ip) then
    if F64.lt p.y (by'.lo ip) then
      if F64.lt p.x (bx.lo ip) then some .xminyminzmin
      else if F64.gt p.x (bx.hi ip) then some .xmaxyminzmin
      else some .yminzmin
    else if F64.gt p.y (by'.hi ip) then
      if F64.lt p.x (bx.lo ip) then some .xminymaxzmin
      else if F64.gt p.x (bx.hi ip) then some .xmaxymaxzmin
      else some .ymaxzmin
    else
      if F64.lt p.x (bx.lo ip) then some .xminzmin
      else if F64.gt p.x (bx.hi ip) then some .xmaxzmin
      else some .zmin
  else if F64.gt p.z (bz.hi ip) then
    if F64.lt p.y (by'.lo ip) then
      if F64.lt p.x (bx.lo ip) then some .xminyminzmax
      else if F64.gt p.x (bx.hi ip) then some .xmaxyminzmax
      else some .yminzmax
    else if F64.gt p.y (by'.hi ip) then
      if F64.lt p.x (bx.lo ip) then some .xminymaxzmax
      else if F64.gt p.x (bx.hi ip) then some .xmaxymaxzmax
      else some .ymaxzmax
    else
      if F64.lt p.x (bx.lo ip) then some .xminzmax
      else if F64.gt p.x (bx.hi ip) then some .xmaxzmax
      else some .zmax
  else
    if F64.lt p.y (by'.lo ip) then
      if F64.lt p.x (bx.lo ip) then some .xminymin
      else if F64.gt p.x (bx.hi ip) then some .xmaxymin
      else some .ymin
    else if F64.gt p.y (by'.hi ip) then
      if F64.lt p.x (bx.lo ip) then some .xminymax
      else if F64.gt p.x (bx.hi ip) then some .xmaxymax
      else some .ymax
    else
      if F64.lt p.x (bx.lo ip) then some .xmin
      else if F64.gt p.x (bx.hi ip) then some .xmax
      else none

/-- branch tree of `get_incoming_index` (sync_particles_3d.c 204-299) -/
def clsI3 {R : Type} (bx by' bz : Bnd) (ip : Nat) (p : A3 R) : Option B3 :=
  if F64.lt p.z (bz.lo ip) then
    if F64.lt p.y (by'.lo ip) then
      if F64.lt p.x (bx.lo ip) then some .xminyminzmin
      else if F64.gt p.x (bx.hi ip) then some .xmaxyminzmin
      else some .yminzmin
    else if F64.gt p.y (by'.hi ip) then
      if F64.lt p.x (bx.lo ip) then some .xminymaxzmin
      else if F64.gt p.x (bx.hi ip) then some .xmaxymaxzmin
      else some .ymaxzmin
    else
      if F64.lt p.x (bx.lo ip) then some .xminzmin
      else if F64.gt p.x (bx.hi ip) then some .xmaxzmin
      else some .zmin
  else if F64.gt p.z (bz.hi ip) then
    if F64.lt p.y (by'.lo ip) then
      if F64.lt p.x (bx.lo ip) then some .xminyminzmax
      else if F64.gt p.x (bx.hi ip) then some .xmaxyminzmax
      else some .yminzmax
    else if F64.gt p.y (by'.hi ip) then
      if F64.lt p.x (bx.lo ip) then some .xminymaxzmax
      else if F64.gt p.x (bx.hi ip) then some .xmaxymaxzmax
      else some .ymaxzmax
    else
      if F64.lt p.x (bx.lo ip) then some .xminzmax
      else if F64.gt p.x (bx.hi ip) then some .xmaxzmax
      else some .zmax
  else
    if F64.lt p.y (by'.lo ip) then
      if F64.lt p.x (bx.lo ip) then some .xminymin
      else if F64.gt p.x (bx.hi ip) then some .xmaxymin
      else some .ymin
    else if F64.gt p.y (by'.hi ip) then
      if F64.lt p.x (bx.lo ip) then some .xminymax
      else if F64.gt p.x (bx.hi ip) then some .xmaxymax
      else some .ymax
    else
      if F64.lt p.x (bx.lo ip) then some .xmin
      else if F64.gt p.x (bx.hi ip) then some .xmax
      else none

/-- negation of the condition in `mark_out_of_bound_as_dead` (sync_particles_3d.c 339) -/
def inside3 {R : Type} (bx by' bz : Bnd) (ip : Nat) (p : A3 R) : Bool :=
  !(F64.lt p.x (bx.lo ip) || F64.gt p.x (bx.hi ip) ||
    F64.lt p.y (by'.lo ip) || F64.gt p.y (by'.hi ip) ||
    F64.lt p.z (bz.lo ip) || F64.gt p.z (bz.hi ip))

/-- The 3D exchange (sync_particles_3d.c).  Unlike 2D, `mark_out_of_bound_as_dead` also writes NaN
into already dead slots (333-336). -/
def geo3 {R : Type} (npatches : Nat) (nbr : Nat → B3 → Option Nat) (bx by' bz : Bnd) (blank : A3 R) :
    Exchange.Geo (A3 R) B3 where
  dirs := B3.all
  opp := B3.opp
  npatches := npatches
  nbr := nbr
  cls := cls3 bx by' bz
  clsI := clsI3 bx by' bz
  wrap := fun ip p => ⟨bx.wrap ip p.x, by'.wrap ip p.y, bz.wrap ip p.z, p.rest⟩
  inside := inside3 bx by' bz
  kill := fun p => ⟨.nan, .nan, .nan, p.rest⟩
  deadMark := fun p => ⟨.nan, .nan, .nan, p.rest⟩
  blank := blank

/-- The exchange between the patches `loc` of one rank of a 3D simulation. -/
def simGeo3 {R : Type} (ax ay az : Axis) (ps loc : List P3) (blank : A3 R) :
    Exchange.Geo (A3 R) B3 :=
  geo3 loc.length (neighborIpatch3 ax.n ay.n az.n ax.bc ay.bc az.bc ps loc)
    (ax.bnd fun ip => (loc[ip]?.map P3.ix).getD 0)
    (ay.bnd fun ip => (loc[ip]?.map P3.iy).getD 0)
    (az.bnd fun ip => (loc[ip]?.map P3.iz).getD 0) blank

end Verif.Geometry
