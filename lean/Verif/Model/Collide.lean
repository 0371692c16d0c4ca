import Verif.Model.Pairing
import Verif.Model.Coulomb
import Verif.Model.Sort
/-!
# The collision step of a run

`Collision.__call__` (src/lambdapic/core/collision/collision.py 183-207) with the loops over cells in core/collision/cpu.py (281-371), the set-up of
collisions and sorters in src/lambdapic/simulation/simulation.py (577-637, 691-699, 1369-1376), and the choice of the numbering of the buckets in
core/sort/particle_sort.py (64-90). Pairs are those of Model/Pairing, one collision is that of Model/Coulomb, buckets are those of Model/Sort. One patch:
patches have their own arrays and their own random generators, and the loop over patches is parallel.
-/
namespace Verif.Collide
open Verif.Pairing (Pair)
open Verif.Coulomb (Consts Kind Part Params Draws)

/-- what the loops read of one patch: for each species the number of slots, the dead flags, the size of the bucket arrays and the bounds of the buckets -/
structure Patch where
  n : Nat → Nat
  dead : Nat → Nat → Bool
  nb : Nat → Nat
  bmin : Nat → Nat → Nat
  bmax : Nat → Nat → Nat

/-- one collision: the two species, the bucket, the pair -/
structure Event where
  s1 : Nat
  s2 : Nat
  cell : Nat
  pair : Pair

/-- the results of a loop that can fail, one after the other -/
def collect {β γ : Type} (f : β → Option (List γ)) : List β → Option (List γ)
  | [] => some []
  | x :: xs => (f x).bind fun a => (collect f xs).map (a ++ ·)

/-- the pairs of one bucket (cpu.py 293-302, 338-350): `i1`, `i2` are the shuffled index arrays -/
def cellPairs (A : Patch) (s1 s2 b : Nat) (i1 i2 : List Nat) : Option (List Pair) :=
  if s1 = s2 then Pairing.intra (A.dead s1) (A.bmin s1 b) (A.bmax s1 b) i1
  else Pairing.inter (A.dead s1) (A.bmin s1 b) (A.bmax s1 b) (A.dead s2) (A.bmin s2 b) (A.bmax s2 b) i1 i2

/-- the loop over the buckets of the first species (cpu.py 293, 338): `none` if the arrays of the second species are shorter -/
def pairEvents (A : Patch) (sh : Nat × Nat → Nat → List Nat × List Nat) (q : Nat × Nat) : Option (List Event) :=
  if A.nb q.2 < A.nb q.1 then none
  else collect (fun b => (cellPairs A q.1 q.2 b (sh q b).1 (sh q b).2).map (List.map fun p => ⟨q.1, q.2, b, p⟩)) (List.range (A.nb q.1))

/-- all collisions of one call, in order (collision.py 183-207). Collisions change neither dead flags nor bounds, so the pairs are listed first. -/
def events (A : Patch) (sh : Nat × Nat → Nat → List Nat × List Nat) (cs : List (Nat × Nat)) : Option (List Event) :=
  collect (pairEvents A sh) cs

/-- the particles of a patch: species and slot -/
abbrev Store := Nat → Nat → Part

/-- constants and parameters of a call: `debye` is the array of the Debye lengths by bucket, `draw k` the random numbers of collision `k` -/
structure Env where
  K : Consts
  kind : Nat → Kind
  lnLambda : ℝ
  debye : Nat → ℝ
  cellVol : ℝ
  dt : ℝ
  draw : Nat → Draws

/-- writing one particle -/
def put (st : Store) (s i : Nat) (v : Part) : Store := fun s' i' => if s' = s ∧ i' = i then v else st s' i'

/-- the parameters of one collision (cpu.py 312-323, 360-371) -/
def params (E : Env) (e : Event) : Params := ⟨E.lnLambda, E.debye e.cell, (e.pair.dtCorr : ℝ), (e.pair.wCorr : ℝ), E.cellVol, E.dt⟩

/-- one collision on the arrays (cpu.py 375-428): both particles are read before one is written -/
noncomputable def hit (E : Env) (e : Event) (r : Draws) (st : Store) : Store :=
  let s := Coulomb.kernel E.K (E.kind e.s1) (E.kind e.s2) (params E e) r (st e.s1 e.pair.ip1) (st e.s2 e.pair.ip2)
  put (put st e.s1 e.pair.ip1 s.1) e.s2 e.pair.ip2 s.2

/-- the collisions one after the other, from number `k` -/
noncomputable def run (E : Env) : Nat → List Event → Store → Store
  | _, [], st => st
  | k, e :: es, st => run E (k + 1) es (hit E e (E.draw k) st)

/-- one call in one patch -/
noncomputable def call (E : Env) (A : Patch) (sh : Nat × Nat → Nat → List Nat × List Nat) (cs : List (Nat × Nat)) (st : Store) : Option Store :=
  (events A sh cs).map fun es => run E 0 es st

/-! ## set-up -/

/-- `_collision_groups`, `initialized`, whether the sorters have a bucket for every cell, the groups of `self.collision` (simulation.py 259-260) -/
structure Setup where
  groups : List (List Nat)
  ready : Bool
  cells : Bool
  collision : Option (List (List Nat))
  deriving DecidableEq

/-- what a user does: `add_collision`, or starting the simulation -/
inductive Op
  | collide (g : List (List Nat))
  | init
  deriving DecidableEq

/-- `_init_collision` (simulation.py 620-637) -/
def initCollision (g : List (List Nat)) : Option (List (List Nat)) := if g = [] then none else some g

/-- `add_collision` (simulation.py 577-618) with `ns` species and `initialize` as far as it concerns sorters and collisions (411-416, 691-699);
`none`: the `ValueError` for a species that was not added. -/
def op (ns : Nat) (s : Setup) : Op → Option Setup
  | .collide g =>
    if g.all fun x => x.all fun i => i < ns then
      some { s with groups := g, collision := if s.ready then initCollision g else s.collision }
    else none
  | .init => some { s with ready := true, cells := s.groups ≠ [], collision := initCollision s.groups }

/-- a new `Simulation` and the things done to it -/
def setup (ns : Nat) (ops : List Op) : Option Setup := ops.foldlM (op ns) ⟨[], false, false, none⟩

/-- the buckets of a sorter: numbers and widths; two dimensions have `nz = 1` -/
structure Buckets where
  nx : Nat
  ny : Nat
  nz : Nat
  dx : ℚ
  dy : ℚ
  dz : ℚ
  deriving DecidableEq

/-- `_init_sorter` (simulation.py 691-699, 1369-1376) on patches of `nx` by `ny` by `nz` cells in a domain of width `Ly`, `Lz` -/
def sorter (cells : Bool) (nx ny nz : Nat) (dx dy dz Ly Lz : ℚ) : Buckets := if cells then ⟨nx, ny, nz, dx, dy, dz⟩ else ⟨nx, 1, 1, dx, Ly, Lz⟩

/-- `_decide_reverse_x` (particle_sort.py 64-90) for living particles with weight and momentum along x -/
def reverse (B : Buckets) (l : List (ℚ × ℚ)) : Bool :=
  if B.ny = 1 ∧ B.nz = 1 then 0 < (l.map (·.1)).sum ∧ (l.map fun p => p.1 * p.2).sum / (l.map (·.1)).sum < 0 else false

/-- `_reverse_decided` and `reverse_x` of a sorter after a call (particle_sort.py 198-199): the order is decided in the first call and kept -/
def decide1 (B : Buckets) (l : List (ℚ × ℚ)) (st : Option Bool) : Option Bool :=
  match st with
  | some r => some r
  | none => some (reverse B l)

/-- the calls of a sorter of one species, each with the particles it finds; the result is the order it has decided for -/
def sorts (B : Buckets) (calls : List (List (ℚ × ℚ))) : Option Bool := calls.foldl (fun st l => decide1 B l st) none

/-- `_check_shared_bucket_ordering` (collision.py 100-136), called by `generate_field_lists` (95) when collisions are set up; `st s` is the sorter of
species `s`. `false`: the `ValueError`. -/
def checkShared (g : List (List Nat)) (st : Nat → Option Bool) : Bool := (g.flatten.filterMap st).dedup.length ≤ 1

/-- what the collisions of a patch find after all species were sorted in two dimensions (simulation.py 965-978, particle_sort.py 196-211): `mom` are
weight and momentum along x of the particles at the first sort -/
def sorted2 {α : Type} (toQ : α → ℚ) (B : Buckets) (mom : Nat → List (ℚ × ℚ)) (x0 y0 : ℚ) (nattrs : Nat) (P : Nat → Sort.Patch α)
    (S : Nat → Sort.Scratch α) : Patch :=
  let R := fun s => Sort.sort2 toQ (reverse B (mom s)) B.nx B.ny B.dx B.dy x0 y0 nattrs (P s) (S s)
  ⟨fun s => (R s).patch.n, fun s => (R s).patch.dead, fun _ => B.nx * B.ny, fun s => (R s).bmin, fun s => (R s).bmax⟩

/-- the same in three dimensions (particle_sort.py 335-350) -/
def sorted3 {α : Type} (toQ : α → ℚ) (B : Buckets) (mom : Nat → List (ℚ × ℚ)) (x0 y0 z0 : ℚ) (nattrs : Nat) (P : Nat → Sort.Patch α)
    (S : Nat → Sort.Scratch α) : Patch :=
  let R := fun s => Sort.sort3 toQ (reverse B (mom s)) B.nx B.ny B.nz B.dx B.dy B.dz x0 y0 z0 nattrs (P s) (S s)
  ⟨fun s => (R s).patch.n, fun s => (R s).patch.dead, fun _ => B.nx * B.ny * B.nz, fun s => (R s).bmin, fun s => (R s).bmax⟩

end Verif.Collide
