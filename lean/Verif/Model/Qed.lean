import Mathlib.Data.Rat.Floor
import Mathlib.Algebra.Order.Field.Rat
import Verif.Model.Particles
/-!
# Model of `core/qed`: photon emission, pair creation, optical depths and table lookup

Numbers are exact rationals; the functions `** -0.5`, `-log(1 - u)` and `10 ** x` are parameters.  The separate attribute arrays of
a species (all of one length, property C04) are one list of particles.  All kernels treat the patches independently (`prange` over
patches, each patch has its own arrays), so the model is that of one patch.
-/
namespace Verif.Qed
open Verif.Particles (F64)

/-- the attributes of one slot used by the QED kernels (particles.py 11-89, 219-250) -/
structure Part where
  x : ℚ
  y : ℚ
  z : ℚ
  ux : ℚ
  uy : ℚ
  uz : ℚ
  invGamma : ℚ
  w : ℚ
  dead : Bool
  id : Nat
  chi : ℚ
  tau : F64
  delta : ℚ
  event : Bool
  deriving DecidableEq

/-! ## events -/

/-- first loop of `find_event_index_inline` (inline.py 33-37) -/
def countEvents (l : List Part) : Nat :=
  l.foldl (fun n p => if p.dead then n else n + (if p.event then 1 else 0)) 0

/-- second loop of `find_event_index_inline` (inline.py 40-47) from particle `ip` on; `none` is a write behind the array -/
def writeEvents : List Part → (ip : Nat) → (idx : Nat) → List Nat → Option (List Nat)
  | [], _, _, out => some out
  | p :: l, ip, idx, out =>
    if p.dead then writeEvents l (ip + 1) idx out
    else if p.event then
      if idx < out.length then writeEvents l (ip + 1) (idx + 1) (out.set idx ip) else none
    else writeEvents l (ip + 1) idx out

/-- `find_event_index_inline` (inline.py 16-47) -/
def findEvents (l : List Part) : Option (List Nat) := writeEvents l 0 0 (List.replicate (countEvents l) 0)

/-! ## filling dead slots -/

/-- `while not is_dead[idx]: idx += 1` (inline.py 70-71, 104-105, 130-131, 144-145); `none` is a read behind the array -/
def nextDead (l : List Part) (i : Nat) : Option Nat :=
  if h : i < l.length then
    if l[i].dead then some i else nextDead l (i + 1)
  else none
termination_by l.length - i

/-- the loop over the events in `create_photon_inline_2d/3d` (inline.py 68-82, 102-117): `f k` writes the particle made by source `k` -/
def createLoop (f : Nat → Part → Part) : List Nat → Nat → List Part → Option (List Part)
  | [], _, l => some l
  | k :: ks, i, l =>
    match nextDead l i with
    | none => none
    | some j => createLoop f ks j (l.modify j (f k))

/-- the loop of `create_pair_inline_2d/3d` (inline.py 126-154, 162-192): two targets filled in turn -/
def createLoop2 (f g : Nat → Part → Part) : List Nat → Nat → List Part → Nat → List Part → Option (List Part × List Part)
  | [], _, l, _, m => some (l, m)
  | k :: ks, i, l, i', m =>
    match nextDead l i with
    | none => none
    | some j =>
      match nextDead m i' with
      | none => none
      | some j' => createLoop2 f g ks j (l.modify j (f k)) j' (m.modify j' (g k))

/-- `max(0, event.sum() - is_dead.sum())` (cpu.py 388) -/
def extensionSize (source target : List Part) : Nat :=
  source.countP (·.event) - target.countP (·.dead)

/-- `n += int(npart * extra_buff)` with `extra_buff = 0.25` and `extend(n)` (radiation.py 213-219, pair_production.py 248-257).
`blank` is the dead slot that `extend` appends (see `Verif.Particles.extend`; new ids, so it depends on the position). -/
def grow (blank : Nat → Part) (source target : List Part) : List Part :=
  let n := extensionSize source target
  if n > 0 then target ++ (List.range (n + target.length / 4)).map fun k => blank (target.length + k) else target

/-! ## photon emission -/

/-- the body of the loop (inline.py 72-82; 3D: 106-117) -/
def photonOf (rsqrt : ℚ → ℚ) (dim3 : Bool) (e p : Part) : Part :=
  let ux := e.delta * e.ux
  let uy := e.delta * e.uy
  let uz := e.delta * e.uz
  { p with
    x := e.x, y := e.y, z := if dim3 then e.z else p.z
    ux := ux, uy := uy, uz := uz
    invGamma := rsqrt (ux ^ 2 + uy ^ 2 + uz ^ 2)
    w := e.w
    dead := false }

/-- `photon_recoil_patches` (cpu.py 323-330) for one particle -/
def recoil (rsqrt : ℚ → ℚ) (e : Part) : Part :=
  if e.dead then e
  else if e.event then
    let ux := e.ux * (1 - e.delta)
    let uy := e.uy * (1 - e.delta)
    let uz := e.uz * (1 - e.delta)
    { e with ux := ux, uy := uy, uz := uz, invGamma := rsqrt (1 + ux ^ 2 + uy ^ 2 + uz ^ 2) }
  else e

/-- `NonlinearComptonLCFA.create_particles` followed by `reaction` (radiation.py 204-239, simulation.py 1060-1061) in one patch -/
def emission (rsqrt : ℚ → ℚ) (dim3 : Bool) (blank : Nat → Part) (ele pho : List Part) : Option (List Part × List Part) :=
  let pho1 := grow blank ele pho
  match findEvents ele with
  | none => none
  | some idx =>
    match createLoop (fun k => photonOf rsqrt dim3 (ele.getD k (blank 0))) idx 0 pho1 with
    | none => none
    | some pho2 => some (ele.map (recoil rsqrt), pho2)

/-! ## pair creation -/

/-- the electron or (with `1 - delta` for `fraction`) the positron of a photon (inline.py 133-141, 146-154; 3D: 169-178, 183-192) -/
def leptonOf (rsqrt : ℚ → ℚ) (dim3 : Bool) (fraction : ℚ) (g p : Part) : Part :=
  let ux := fraction * g.ux
  let uy := fraction * g.uy
  let uz := fraction * g.uz
  { p with
    x := g.x, y := g.y, z := if dim3 then g.z else p.z
    ux := ux, uy := uy, uz := uz
    invGamma := rsqrt (1 + ux ^ 2 + uy ^ 2 + uz ^ 2)
    w := g.w
    dead := false }

/-- `remove_photon_patches` (cpu.py 343-347) for one photon -/
def removePhoton (p : Part) : Part := if p.dead then p else if p.event then { p with dead := true } else p

/-- `NonlinearPairProductionLCFA.create_particles` followed by `reaction` (pair_production.py 237-277, simulation.py 1064-1065) in
one patch: photons, electrons, positrons afterwards -/
def pairCreation (rsqrt : ℚ → ℚ) (dim3 : Bool) (blank blank' : Nat → Part) (pho ele pos : List Part) :
    Option (List Part × List Part × List Part) :=
  let ele1 := grow blank pho ele
  let pos1 := grow blank' pho pos
  match findEvents pho with
  | none => none
  | some idx =>
    match createLoop2 (fun k => leptonOf rsqrt dim3 (pho.getD k (blank 0)).delta (pho.getD k (blank 0)))
        (fun k => leptonOf rsqrt dim3 (1 - (pho.getD k (blank 0)).delta) (pho.getD k (blank 0))) idx 0 ele1 0 pos1 with
    | none => none
    | some (ele2, pos2) => some (pho.map removePhoton, ele2, pos2)

/-! ## optical depths -/

/-- what the optical-depth kernels use besides the particles: `neglog u` is `-log(1 - u)`, `rate chi` the tabulated rate,
`sample chi u` the energy fraction drawn with the random number `u`, `stream k` the `k`-th random number -/
structure TauEnv where
  chiMin : ℚ
  dt : ℚ
  neglog : ℚ → ℚ
  rate : ℚ → ℚ
  sample : ℚ → ℚ → ℚ
  stream : Nat → ℚ

/-- `tau == 0.0 or isnan(tau)` (optical_depth.py 70, 119) -/
def unset : F64 → Bool
  | .nan => true
  | .val q => q = 0

/-- the number in a set optical depth -/
def tauVal : F64 → ℚ
  | .nan => 0
  | .val q => q

/-- the body of the loops of `update_tau_e` (optical_depth.py 62-81, `fires t` is `t < 0`) and `update_tau_gamma` (111-130,
`fires t` is `t <= 0`); the second component counts the random numbers used so far -/
def tauStep (E : TauEnv) (fires : ℚ → Bool) (k : Nat) (p : Part) : Part × Nat :=
  if p.dead ∨ p.chi < E.chiMin then ({ p with event := false, delta := 0 }, k)
  else
    let dtau := E.dt * p.invGamma
    let t0 := if unset p.tau then E.neglog (E.stream k) else tauVal p.tau
    let k0 := if unset p.tau then k + 1 else k
    let t := t0 - E.rate p.chi * dtau
    if fires t then
      ({ p with tau := .val (E.neglog (E.stream k0)), event := true, delta := E.sample p.chi (E.stream (k0 + 1)) }, k0 + 2)
    else ({ p with tau := .val t, event := false, delta := 0 }, k0)

/-- the loop over the particles of a patch (optical_depth.py 61, 110) -/
def tauLoop (E : TauEnv) (fires : ℚ → Bool) : Nat → List Part → List Part × Nat
  | k, [] => ([], k)
  | k, p :: l =>
    let a := tauStep E fires k p
    let b := tauLoop E fires a.2 l
    (a.1 :: b.1, b.2)

/-- `update_tau_e` (optical_depth.py 38-81) -/
def updateTauE (E : TauEnv) (k : Nat) (l : List Part) : List Part × Nat := tauLoop E (fun t => t < 0) k l

/-- `update_tau_gamma` (optical_depth.py 87-130) -/
def updateTauGamma (E : TauEnv) (k : Nat) (l : List Part) : List Part × Nat := tauLoop E (fun t => t ≤ 0) k l

/-! ## table lookup -/

/-- the table parameters (optical_depth_tables.py 23-28) -/
structure Grid where
  chiN : Nat
  chiLo : ℚ
  chiHi : ℚ
  chiDelta : ℚ
  deltaN : Nat
  deltaLo : ℚ
  deltaDelta : ℚ

/-- a value, or a read outside the table -/
inductive Res (α : Type) where
  | ok (v : α)
  | outOfBounds
  deriving DecidableEq

/-- `_get_chi_idx` (optical_depth_tables.py 33-42); the argument is `log10(chi)` -/
def chiIdx (G : Grid) (logChi : ℚ) : Int :=
  if logChi < G.chiLo then -1
  else if logChi > G.chiHi then G.chiN - 1
  else ⌊(logChi - G.chiLo) / G.chiDelta⌋

/-- `table1d[i]` for a non-negative index -/
def read (t : List ℚ) (i : Int) : Option ℚ := t[i.toNat]?

/-- `_linear_interp1d` (optical_depth_tables.py 45-54) -/
def linearInterp (G : Grid) (logChi : ℚ) (t : List ℚ) : Res ℚ :=
  let idx := chiIdx G logChi
  if idx = -1 then .ok 0
  else
    match read t idx, read t (idx + 1) with
    | some a, some b =>
      let left := G.chiLo + idx * G.chiDelta
      .ok (a + (b - a) / G.chiDelta * (logChi - left))
    | _, _ => .outOfBounds

/-- the loop `while low <= high` of `_bisect_interp` (optical_depth_tables.py 72-79; the same in optical_depth_tables_sigmoid.py),
`y mid` is `mid_delta`.  The value of `high` at the end; `none` is a loop that never ends. -/
def bisect (y : Int → ℚ) (r : ℚ) (low high : Int) : Option Int :=
  if low ≤ high then
    let mid := (low + high) / 2
    if y mid < r then bisect y r (mid + 1) high
    else if y mid > r then bisect y r low (mid - 1)
    else bisect y r low high
  else some high
partial_fixpoint

/-- `table2d[i, j] * (1 - t) + table2d[i+1, j] * t` for two rows of the table -/
def blend (a b : List ℚ) (t : ℚ) (j : Int) : ℚ := a.getD j.toNat 0 * (1 - t) + b.getD j.toNat 0 * t

/-- `_bisect_interp` (optical_depth_tables.py 58-90) with the random number `u`: `log_delta` (the code returns `10 ** log_delta`);
`none` is a loop that never ends.  The `-1` of a too small chi would index from the end; it does not occur (optical_depth.py 62). -/
def bisectInterp (G : Grid) (logChi u : ℚ) (table : List (List ℚ)) : Option (Res ℚ) :=
  let ci := chiIdx G logChi
  let t := (logChi - (G.chiLo + ci * G.chiDelta)) / G.chiDelta
  match table[ci.toNat]?, table[(ci + 1).toNat]? with
  | some a, some b =>
    let ymin := blend a b t 0
    let ymax := blend a b t (G.deltaN - 1)
    let r := u * (ymax - ymin) + ymin
    match bisect (blend a b t) r 0 (G.deltaN - 1) with
    | none => none
    | some di =>
      if 0 ≤ di ∧ di + 1 < G.deltaN then
        let y1 := blend a b t di
        let y2 := blend a b t (di + 1)
        some (.ok (G.deltaLo + di * G.deltaDelta + G.deltaDelta / (y2 - y1) * (r - y1)))
      else some .outOfBounds
  | _, _ => some .outOfBounds

end Verif.Qed
