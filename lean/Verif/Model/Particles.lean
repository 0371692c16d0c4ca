/-!
# Model of `src/lambdapic/core/particles.py`

A particle container is a structure of arrays, as in the code.  `float64` values are the type `F64`
(`nan` or an exact rational); the `_id` array is kept as its `uint64` bit pattern (a natural number),
because the code only ever views it that way (`id` property, particles.py 195-202).
-/
namespace Verif.Particles

/-- A `float64` value: NaN or an exact rational.  Simplification: no rounding, no infinities. -/
inductive F64 where
  | nan
  | val (q : Rat)
  deriving DecidableEq, Repr, Inhabited

/-- Exceptions raised by the modelled functions. -/
inductive Err where
  | assertion
  | value
  deriving DecidableEq, Repr

/-! ## numpy primitives used by particles.py -/

/-- `ndarray.resize(m, refcheck=False)` on a 1-D array: truncate, or pad with zeros. -/
def npResize {β : Type} (z : β) (l : List β) (m : Nat) : List β :=
  l.take m ++ List.replicate (m - l.length) z

/-- Start position of the Python slice `a[s:]` for an array of length `len`. -/
def pyStart (len : Nat) (s : Int) : Nat :=
  if s < 0 then (Int.toNat (len + s)) else min s.toNat len

/-- `arr[s:] = v` with a scalar `v`. -/
def setFrom {β : Type} (l : List β) (s : Int) (v : β) : List β :=
  l.take (pyStart l.length s) ++ List.replicate (l.length - pyStart l.length s) v

/-- `arr[s:] = vs` with an array `vs`; numpy raises if the lengths differ. -/
def setFromArr {β : Type} (l : List β) (s : Int) (vs : List β) : Except Err (List β) :=
  if l.length - pyStart l.length s = vs.length then
    .ok (l.take (pyStart l.length s) ++ vs)
  else .error .value

/-- `arr[idx]` fancy indexing (all indices are in range where it is used). -/
def gather {β : Type} [Inhabited β] (l : List β) (idx : List Nat) : List β :=
  idx.map fun i => l.getD i default

/-! ## The container -/

/-- `ParticlesBase` (particles.py 11-89).  `names` is `attrs` without `_id`; `arr a` is the array
stored under attribute `a`; `ids` is the `_id` array as bit patterns. -/
structure Parts where
  names : List String
  arr : String → List F64
  ids : List Nat
  dead : List Bool
  npart : Nat
  created : Nat
  extended : Bool
  rank : Nat
  ipatch : Nat

/-- The attribute names of `ParticlesBase.__init__` (particles.py 63-67), `_id` kept apart. -/
def baseNames : List String :=
  ["x", "y", "z", "w", "ux", "uy", "uz", "inv_gamma",
   "ex_part", "ey_part", "ez_part", "bx_part", "by_part", "bz_part"]

/-- Rank actually stored by `__init__` (particles.py 72-79): when `rank is None` the `finally`
clause overwrites whatever `COMM_WORLD.Get_rank()` returned with 0. -/
def effectiveRank (rank : Option Nat) (_commRank : Nat) : Nat :=
  match rank with
  | none => 0
  | some r => r

/-- `ParticlesBase.__init__` (particles.py 57-89) including the range assertion (line 85). -/
def mk' (ipatch : Option Nat) (rank : Option Nat) (commRank : Nat) : Except Err Parts :=
  let r := effectiveRank rank commRank
  let ip := ipatch.getD 0
  if r < 2 ^ 14 ∧ ip < 2 ^ 18 then
    .ok { names := baseNames, arr := fun _ => [], ids := [], dead := [], npart := 0,
          created := 0, extended := false, rank := r, ipatch := ip }
  else .error .assertion

/-- `_generate_ids` (particles.py 91-116): `rank << 50 | ipatch << 32 | local`. -/
def generateIds (p : Parts) (start count : Nat) : Except Err (List Nat) :=
  if start + count ≤ 2 ^ 32 then
    .ok ((List.range' start count).map fun i => (p.rank <<< 50) ||| (p.ipatch <<< 32) ||| i)
  else .error .assertion

/-- `initialize` (particles.py 118-139).  The argument is an `Int` because of the assertion. -/
def initParts (p : Parts) (npart : Int) : Except Err Parts :=
  if 0 ≤ npart then do
    let n := npart.toNat
    let ids ← generateIds p p.created n
    return { p with
      npart := n
      arr := fun a =>
        if a = "inv_gamma" then List.replicate n (.val 1)
        else if a ∈ p.names then List.replicate n (.val 0) else p.arr a
      dead := List.replicate n false
      ids := ids
      created := p.created + n }
  else .error .assertion

/-- NaN as a 64-bit pattern (what `arr[-n:] = np.nan` momentarily stores in `_id`). -/
def nanBits : Nat := 0x7ff8000000000000

/-- `ParticlesBase.extend` (particles.py 141-168), statement by statement. -/
def extend (p : Parts) (n : Int) : Except Err Parts :=
  if n ≤ 0 then .ok p else do
    let m := (n + p.npart).toNat
    let arr1 : String → List F64 := fun a =>
      if a ∈ p.names then setFrom (npResize (.val 0) (p.arr a) m) (-n) .nan else p.arr a
    let ids1 := setFrom (npResize 0 p.ids m) (-n) nanBits
    let arr2 : String → List F64 := fun a =>
      if a = "w" then setFrom (arr1 "w") (-n) (.val 0) else arr1 a
    let new ← generateIds p p.created n.toNat
    let ids2 ← setFromArr ids1 (-n) new
    return { p with
      arr := arr2
      ids := ids2
      created := p.created + n.toNat
      dead := setFrom (npResize false p.dead m) (-n) true
      npart := m
      extended := true }

/-- Number of living particles, `self.is_alive.sum()` (particles.py 179, 205-211). -/
def nAlive (p : Parts) : Nat := p.dead.count false

/-- `int(n_alive * (1 + extra_buff))` (particles.py 180), exact arithmetic; `int` truncates, the
argument is non-negative for `extra_buff ≥ 0`. -/
def pruneSize (nalive : Nat) (extra : Rat) : Nat :=
  ((nalive : Rat) * (1 + extra)).floor.toNat

/-- `prune` (particles.py 170-193).  `argsort` is numpy's (unstable) argsort, a parameter.
Returns the new container and the sorting index (`None` when nothing was done). -/
def prune (argsort : List Bool → List Nat) (p : Parts) (extra : Rat) : Parts × Option (List Nat) :=
  let npart := pruneSize (nAlive p) extra
  if p.npart ≤ npart then (p, none)
  else
    let idx := argsort p.dead
    ({ p with
        arr := fun a =>
          if a ∈ p.names then npResize (.val 0) (gather (p.arr a) idx) npart else p.arr a
        ids := npResize 0 (gather p.ids idx) npart
        dead := npResize false (gather p.dead idx) npart
        npart := npart
        extended := true }, some idx)

/-! ## QED particles -/

/-- `QEDParticles` (particles.py 219-241): the extra float attributes are ordinary names, `event`
is an extra boolean array outside `attrs`. -/
structure QParts where
  base : Parts
  event : List Bool

/-- `QEDParticles.initParts` (particles.py 243-250). -/
def QParts.initParts (q : QParts) (npart : Int) : Except Err QParts := do
  let b ← Particles.initParts q.base npart
  return { base := b, event := List.replicate npart.toNat false }

/-- `QEDParticles.extend` (particles.py 252-260).  `resize` to a negative length raises. -/
def QParts.extend (q : QParts) (n : Int) : Except Err QParts :=
  if n + q.base.npart < 0 then .error .value else do
    let ev := setFrom (npResize false q.event (n + q.base.npart).toNat) (-n) false
    let b ← Particles.extend q.base n
    return { base := b, event := ev }

/-- `QEDParticles.prune` (particles.py 262-270).  When the base prune returned `None`,
`event[None]` has shape `(1, npart)` and the broadcast assignment leaves `event` unchanged. -/
def QParts.prune (argsort : List Bool → List Nat) (q : QParts) (extra : Rat) : QParts :=
  match Particles.prune argsort q.base extra with
  | (b, none) => { base := b, event := npResize false q.event b.npart }
  | (b, some idx) => { base := b, event := npResize false (gather q.event idx) b.npart }

end Verif.Particles
