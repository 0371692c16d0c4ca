import Mathlib.Data.Rat.Floor
import Verif.Model.Maxwell
import Verif.Model.Particles
/-!
# Current deposition

Models `src/lambdapic/core/current/current_deposit.h` (2D reference, 2D fast, 3D fast),
`src/lambdapic/core/current/cpu3d.c` (3D reference) and the particle loops of
`current/cpu2d.c` 165-182, `current/cpu3d.c` 165-180.

Simplifications: exact rationals instead of doubles (so `one_third` is 1/3 and `1.0 / 12.0` is 1/12);
`int` and `npy_intp` are unbounded; an array is addressed by its per-axis positions instead of the flat
row-major offset; the arrays have at least one cell per axis (the C `while` loops would not end
otherwise).
-/
namespace Verif.Deposit
open Verif.Maxwell (Arr)
open Verif.Particles (F64)

/-- `LIGHT_SPEED` (utils/cutils.h 17) -/
def lightSpeed : ℚ := 299792458

/-- C cast `(int)q`: truncation towards zero -/
def cInt (q : ℚ) : Int := if 0 ≤ q then ⌊q⌋ else ⌈q⌉

/-- `calculate_S` (current_deposit.h 7-23, cpu3d.c 16-32); `minus`, `mid`, `positive` are 0 or 1 -/
def calcS (delta : ℚ) (shift : Int) : Nat → ℚ :=
  let dm := 1 / 2 * (delta * delta + delta + 1 / 4)
  let d0 := 3 / 4 - delta * delta
  let dp := 1 / 2 * (delta * delta - delta + 1 / 4)
  let minus : ℚ := if shift = -1 then 1 else 0
  let mid : ℚ := if shift = 0 then 1 else 0
  let positive : ℚ := if shift = 1 then 1 else 0
  fun i => match i with
  | 0 => minus * dm
  | 1 => minus * d0 + mid * dm
  | 2 => minus * dp + mid * d0 + positive * dm
  | 3 => mid * dp + positive * d0
  | 4 => positive * dp
  | _ => 0

/-- `calculate_S0` (current_deposit.h 28-35) -/
def calcS0 (delta : ℚ) : Nat → ℚ :=
  fun i => match i with
  | 0 => 0
  | 1 => 1 / 2 * (delta * delta + delta + 1 / 4)
  | 2 => 3 / 4 - delta * delta
  | 3 => 1 / 2 * (delta * delta - delta + 1 / 4)
  | _ => 0

/-- `while (_idx < 0) _idx += (n);` (current_deposit.h 45); does not end for `n = 0`, which the model
replaces by leaving the index alone -/
def wrapUp (n : Nat) (i : Int) : Int :=
  if i < 0 ∧ 0 < n then wrapUp n (i + n) else i
termination_by (-i).toNat
decreasing_by omega

/-- `while (_idx >= (n)) _idx -= (n);` (current_deposit.h 46) -/
def wrapDown (n : Nat) (i : Int) : Int :=
  if (n : Int) ≤ i ∧ 0 < n then wrapDown n (i - n) else i
termination_by i.toNat
decreasing_by omega

/-- one entry of `PRECOMPUTE_WRAP_INDICES` (current_deposit.h 41-49) -/
def wrapIdx (n : Nat) (i0 : Int) (i : Nat) : Int := wrapDown n (wrapUp n (i0 + ((i : Int) - 2)))

/-- the four arrays a deposition adds to -/
structure Acc (k : Nat) where
  jx : Arr k
  jy : Arr k
  jz : Arr k
  rho : Arr k

/-- `a[idx] += v` -/
def addTo {k : Nat} (A : Arr k) (c : Fin k → Int) (v : ℚ) : Arr k := fun l => if l = c then A l + v else A l

/-- values of one axis that the deposition works with: `ix0`, `dcell_x`, `S0x`, `S1x` -/
structure Ax where
  i0 : Int
  dcell : Int
  S0 : Nat → ℚ
  S1 : Nat → ℚ

namespace Ax
/-- `DSx[i] = S1x[i] - S0x[i]` (current_deposit.h 100) -/
def DS (a : Ax) (i : Nat) : ℚ := a.S1 i - a.S0 i
/-- `i_start = dcell_x < 0 ? 0 : 1` (current_deposit.h 113) -/
def start (a : Ax) : Nat := if a.dcell < 0 then 0 else 1
/-- `i_end = dcell_x > 0 ? 5 : 4` (current_deposit.h 114) -/
def stop (a : Ax) : Nat := if 0 < a.dcell then 5 else 4
end Ax

/-- one axis of the preamble, given the cast used for the cell number (current_deposit.h 68-96):
`old`, `adv` are `x_old / dx`, `x_adv / dx` -/
def mkAx (cast : ℚ → Int) (old adv : ℚ) : Ax :=
  let ix0 := cast (old + 1 / 2)
  let ix1 := cast (adv + 1 / 2)
  ⟨ix0, ix1 - ix0, calcS0 (ix0 - old),
    if ix1 - ix0 = 0 then calcS0 (ix1 - adv) else calcS (ix1 - adv) (ix1 - ix0)⟩

/-- grid constants of one axis: cells of the array (guards included), cell size, patch origin -/
structure Grid1 where
  n : Nat
  d : ℚ
  x0 : ℚ

/-- `x_old = x - vx * 0.5 * dt - x0` (current_deposit.h 61) -/
def xOld (g : Grid1) (x v dt : ℚ) : ℚ := x - v * (1 / 2) * dt - g.x0
/-- `x_adv = x + vx * 0.5 * dt - x0` (current_deposit.h 63) -/
def xAdv (g : Grid1) (x v dt : ℚ) : ℚ := x + v * (1 / 2) * dt - g.x0

/-- momentum and weight of one particle -/
structure Mom where
  ux : ℚ
  uy : ℚ
  uz : ℚ
  invGamma : ℚ
  w : ℚ

/-- `vx = ux * LIGHT_SPEED * inv_gamma` (current_deposit.h 58) -/
def Mom.vx (p : Mom) : ℚ := p.ux * lightSpeed * p.invGamma
/-- `vy` (current_deposit.h 59) -/
def Mom.vy (p : Mom) : ℚ := p.uy * lightSpeed * p.invGamma
/-- `vz` (current_deposit.h 60) -/
def Mom.vz (p : Mom) : ℚ := p.uz * lightSpeed * p.invGamma

/-! ## 2D -/

/-- the constants of the loop nest -/
structure Fac where
  charge : ℚ
  fdx : ℚ
  fdy : ℚ
  fdz : ℚ

/-- state of the inner loop: `jx_buff`, `jy_buff` and the arrays -/
structure St2 where
  jxb : Nat → ℚ
  jyb : ℚ
  acc : Acc 2

/-- loop body (current_deposit.h 130-143; the same text in `current_deposit_2d_fast_cells` 168-181);
`fz` is `factor_dt_vz` -/
def body2 (nx ny : Nat) (ax ay : Ax) (f : Fac) (i : Nat) (s : St2) (j : Nat) : St2 :=
  let a := ax.S0 i + 1 / 2 * ax.DS i
  let b := ay.S0 j + 1 / 2 * ay.DS j
  let wy := ay.DS j * a
  let wz := a * b + 1 / 12 * ax.DS i * ay.DS j
  let jxb := fun j' => if j' = j then s.jxb j - f.fdx * ax.DS i * b else s.jxb j'
  let jyb := s.jyb - f.fdy * wy
  let c : Fin 2 → Int := ![wrapIdx nx ax.i0 i, wrapIdx ny ay.i0 j]
  ⟨jxb, jyb,
    ⟨addTo s.acc.jx c (jxb j), addTo s.acc.jy c jyb, addTo s.acc.jz c (f.fdz * wz),
      addTo s.acc.rho c (f.charge * ax.S1 i * ay.S1 j)⟩⟩

/-- one iteration of the outer loop (current_deposit.h 124-144) -/
def row2 (nx ny : Nat) (ax ay : Ax) (f : Fac) (js je : Nat) (s : (Nat → ℚ) × Acc 2) (i : Nat) :
    (Nat → ℚ) × Acc 2 :=
  let t := (List.range' js (je - js)).foldl (body2 nx ny ax ay f i) ⟨s.1, 0, s.2⟩
  (t.jxb, t.acc)

/-- the loop nest with given bounds (current_deposit.h 122-144, `current_deposit_2d_fast_cells` 150-183) -/
def cells2 (nx ny : Nat) (ax ay : Ax) (f : Fac) (is ie js je : Nat) (acc : Acc 2) : Acc 2 :=
  ((List.range' is (ie - is)).foldl (row2 nx ny ax ay f js je) (fun _ => 0, acc)).2

/-- the cast chosen by `if (x_old >= 0 && x_adv >= 0 && y_old >= 0 && y_adv >= 0)`
(current_deposit.h 73-83) -/
def cast2 (xo xa yo ya : ℚ) : ℚ → Int :=
  if 0 ≤ xo ∧ 0 ≤ xa ∧ 0 ≤ yo ∧ 0 ≤ ya then cInt else fun q => ⌊q⌋

/-- `current_deposit_2d` (current_deposit.h 51-145) -/
def deposit2 (gx gy : Grid1) (dt q : ℚ) (x y : ℚ) (p : Mom) (acc : Acc 2) : Acc 2 :=
  let xo := xOld gx x p.vx dt
  let xa := xAdv gx x p.vx dt
  let yo := xOld gy y p.vy dt
  let ya := xAdv gy y p.vy dt
  let cast := cast2 xo xa yo ya
  let ax := mkAx cast (xo / gx.d) (xa / gx.d)
  let ay := mkAx cast (yo / gy.d) (ya / gy.d)
  let charge := q * p.w / (gx.d * gy.d)
  let factor := charge / dt
  cells2 gx.n gy.n ax ay ⟨charge, factor * gx.d, factor * gy.d, factor * dt * p.vz⟩
    ax.start ax.stop ay.start ay.stop acc

/-- `current_deposit_2d_fast` (current_deposit.h 185-268) with the constants of its caller
(unified_pusher_2d.c 249-251) -/
def deposit2Fast (gx gy : Grid1) (dt q : ℚ) (x y : ℚ) (p : Mom) (acc : Acc 2) : Acc 2 :=
  let qOverDxDy := q / (gx.d * gy.d)
  let qOverDyDt := q / (gy.d * dt)
  let qOverDxDt := q / (gx.d * dt)
  let xo := xOld gx x p.vx dt
  let xa := xAdv gx x p.vx dt
  let yo := xOld gy y p.vy dt
  let ya := xAdv gy y p.vy dt
  let cast := cast2 xo xa yo ya
  let ax := mkAx cast (xo / gx.d) (xa / gx.d)
  let ay := mkAx cast (yo / gy.d) (ya / gy.d)
  let charge := qOverDxDy * p.w
  let f : Fac := ⟨charge, qOverDyDt * p.w, qOverDxDt * p.w, charge * p.vz⟩
  if ax.dcell = 0 ∧ ay.dcell = 0 then cells2 gx.n gy.n ax ay f 1 4 1 4 acc
  else cells2 gx.n gy.n ax ay f ax.start ax.stop ay.start ay.stop acc

/-- a 2D particle slot as the deposition sees it -/
structure Part2 where
  x : F64
  y : F64
  mom : Mom
  dead : Bool

/-- the particle loop of `current_deposition_cpu_2d` for one patch (current/cpu2d.c 169-180) -/
def depositPatch2 (gx gy : Grid1) (dt q : ℚ) (ps : List Part2) (acc : Acc 2) : Acc 2 :=
  ps.foldl (fun acc p =>
    if p.dead then acc else
    match p.x, p.y with
    | .val x, .val y => deposit2 gx gy dt q x y p.mom acc
    | _, _ => acc) acc

/-! ## 3D -/

/-- state of the innermost loop: `jx_buff[k][j]`, `jy_buff[k]`, `jz_buff` and the arrays -/
structure St3 where
  jxb : Nat → Nat → ℚ
  jyb : Nat → ℚ
  jzb : ℚ
  acc : Acc 3

/-- loop body of `current_deposit_3d_fast_cells` (current_deposit.h 288-331); `cell` gives the array
position of stencil point `i, j, k` -/
def body3Fast (cell : Nat → Nat → Nat → Fin 3 → Int) (ax ay az : Ax) (f : Fac) (i j : Nat) (s : St3)
    (k : Nat) : St3 :=
  let a_x := ax.S0 i + 1 / 2 * ax.DS i
  let c_x := 1 / 2 * ax.S0 i + 1 / 3 * ax.DS i
  let a_y := ay.S0 j + 1 / 2 * ay.DS j
  let c_y := 1 / 2 * ay.S0 j + 1 / 3 * ay.DS j
  let termJzIj := a_x * ay.S0 j + c_x * ay.DS j
  let termJx := a_y * az.S0 k + c_y * az.DS k
  let termJy := a_x * az.S0 k + c_x * az.DS k
  let jxb := fun k' j' => if k' = k ∧ j' = j then s.jxb k j - f.fdx * ax.DS i * termJx else s.jxb k' j'
  let jyb := fun k' => if k' = k then s.jyb k - f.fdy * ay.DS j * termJy else s.jyb k'
  let jzb := s.jzb - f.fdz * az.DS k * termJzIj
  let c := cell i j k
  ⟨jxb, jyb, jzb,
    ⟨addTo s.acc.jx c (jxb k j), addTo s.acc.jy c (jyb k), addTo s.acc.jz c jzb,
      addTo s.acc.rho c (f.charge * ax.S1 i * ay.S1 j * az.S1 k)⟩⟩

/-- loop body of `current_deposit_3d` (cpu3d.c 99-113) -/
def body3Ref (cell : Nat → Nat → Nat → Fin 3 → Int) (ax ay az : Ax) (f : Fac) (i j : Nat) (s : St3)
    (k : Nat) : St3 :=
  let wx := ax.DS i * (ay.S0 j * az.S0 k + 1 / 2 * ay.DS j * az.S0 k + 1 / 2 * ay.S0 j * az.DS k
    + 1 / 3 * ay.DS j * az.DS k)
  let wy := ay.DS j * (ax.S0 i * az.S0 k + 1 / 2 * ax.DS i * az.S0 k + 1 / 2 * ax.S0 i * az.DS k
    + 1 / 3 * ax.DS i * az.DS k)
  let wz := az.DS k * (ax.S0 i * ay.S0 j + 1 / 2 * ax.DS i * ay.S0 j + 1 / 2 * ax.S0 i * ay.DS j
    + 1 / 3 * ax.DS i * ay.DS j)
  let jxb := fun k' j' => if k' = k ∧ j' = j then s.jxb k j - f.fdx * wx else s.jxb k' j'
  let jyb := fun k' => if k' = k then s.jyb k - f.fdy * wy else s.jyb k'
  let jzb := s.jzb - f.fdz * wz
  let c := cell i j k
  ⟨jxb, jyb, jzb,
    ⟨addTo s.acc.jx c (jxb k j), addTo s.acc.jy c (jyb k), addTo s.acc.jz c jzb,
      addTo s.acc.rho c (f.charge * ax.S1 i * ay.S1 j * az.S1 k)⟩⟩

/-- the three nested loops with a given body; `jz_buff` is cleared per `j`, `jy_buff` per `i`
(current_deposit.h 285-331, cpu3d.c 89-116) -/
def cells3 (body : Nat → Nat → St3 → Nat → St3) (is ie js je ks ke : Nat) (acc : Acc 3) : Acc 3 :=
  ((List.range' is (ie - is)).foldl (fun (s : (Nat → Nat → ℚ) × Acc 3) i =>
    let t := (List.range' js (je - js)).foldl (fun (t : (Nat → Nat → ℚ) × (Nat → ℚ) × Acc 3) j =>
      let u := (List.range' ks (ke - ks)).foldl (body i j) ⟨t.1, t.2.1, 0, t.2.2⟩
      (u.jxb, u.jyb, u.acc)) (s.1, fun _ => 0, s.2)
    (t.1, t.2.2)) (fun _ _ => 0, acc)).2

/-- `ix0w` (current_deposit.h 417-423) -/
def baseWrap (n : Nat) (i0 : Int) : Int := wrapDown n (wrapUp n i0)

/-- `ix = ix0w + (i - 2); if (ix < 0) ix += nx; else if (ix >= nx) ix -= nx;`
(current_deposit.h 289-291) -/
def cellFast1 (n : Nat) (i0 : Int) (i : Nat) : Int :=
  let ix := baseWrap n i0 + ((i : Int) - 2)
  if ix < 0 then ix + n else if (n : Int) ≤ ix then ix - n else ix

/-- one axis of `INDEX3(ix0 + (i - 2), …)` (cpu3d.c 91 and 109, utils/cutils.h 23-26) -/
def cellRef1 (n : Nat) (i0 : Int) (i : Nat) : Int := SyncFields.wrapIx n (i0 + ((i : Int) - 2))

/-- the cast chosen in 3D (current_deposit.h 359-373) -/
def cast3 (xo xa yo ya zo za : ℚ) : ℚ → Int :=
  if 0 ≤ xo ∧ 0 ≤ xa ∧ 0 ≤ yo ∧ 0 ≤ ya ∧ 0 ≤ zo ∧ 0 ≤ za then cInt else fun q => ⌊q⌋

/-- `current_deposit_3d_fast` (current_deposit.h 333-440) with the constants of its caller
(unified_pusher_3d.c 318-321) -/
def deposit3Fast (gx gy gz : Grid1) (dt q : ℚ) (x y z : ℚ) (p : Mom) (acc : Acc 3) : Acc 3 :=
  let xo := xOld gx x p.vx dt
  let xa := xAdv gx x p.vx dt
  let yo := xOld gy y p.vy dt
  let ya := xAdv gy y p.vy dt
  let zo := xOld gz z p.vz dt
  let za := xAdv gz z p.vz dt
  let cast := cast3 xo xa yo ya zo za
  let ax := mkAx cast (xo / gx.d) (xa / gx.d)
  let ay := mkAx cast (yo / gy.d) (ya / gy.d)
  let az := mkAx cast (zo / gz.d) (za / gz.d)
  let f : Fac := ⟨q / (gx.d * gy.d * gz.d) * p.w, q / (gy.d * gz.d * dt) * p.w,
    q / (gx.d * gz.d * dt) * p.w, q / (gx.d * gy.d * dt) * p.w⟩
  let cell := fun i j k => ![cellFast1 gx.n ax.i0 i, cellFast1 gy.n ay.i0 j, cellFast1 gz.n az.i0 k]
  if ax.dcell = 0 ∧ ay.dcell = 0 ∧ az.dcell = 0 then
    cells3 (body3Fast cell ax ay az f) 1 4 1 4 1 4 acc
  else cells3 (body3Fast cell ax ay az f) ax.start ax.stop ay.start ay.stop az.start az.stop acc

/-- one axis of the preamble of the 3D reference code (cpu3d.c 51-78) -/
def mkAxRef (old adv : ℚ) : Ax :=
  let ix0 := ⌊old + 1 / 2⌋
  let ix1 := ⌊adv + 1 / 2⌋
  ⟨ix0, ix1 - ix0, calcS (ix0 - old) 0, calcS (ix1 - adv) (ix1 - ix0)⟩

/-- `current_deposit_3d` (cpu3d.c 34-117); the loop bounds `fmin(1, 1 + dcell_x)`, `fmax(4, 4 + dcell_x)`
(90, 94, 98) are converted to natural numbers -/
def deposit3Ref (gx gy gz : Grid1) (dt q : ℚ) (x y z : ℚ) (p : Mom) (acc : Acc 3) : Acc 3 :=
  let ax := mkAxRef (xOld gx x p.vx dt / gx.d) (xAdv gx x p.vx dt / gx.d)
  let ay := mkAxRef (xOld gy y p.vy dt / gy.d) (xAdv gy y p.vy dt / gy.d)
  let az := mkAxRef (xOld gz z p.vz dt / gz.d) (xAdv gz z p.vz dt / gz.d)
  let charge := q * p.w / (gx.d * gy.d * gz.d)
  let factor := charge / dt
  let f : Fac := ⟨charge, factor * gx.d, factor * gy.d, factor * gz.d⟩
  let cell := fun i j k => ![cellRef1 gx.n ax.i0 i, cellRef1 gy.n ay.i0 j, cellRef1 gz.n az.i0 k]
  let lo := fun (d : Int) => (min 1 (1 + d)).toNat
  let hi := fun (d : Int) => (max 4 (4 + d)).toNat
  cells3 (body3Ref cell ax ay az f) (lo ax.dcell) (hi ax.dcell) (lo ay.dcell) (hi ay.dcell)
    (lo az.dcell) (hi az.dcell) acc

/-- a 3D particle slot as the deposition sees it -/
structure Part3 where
  x : F64
  y : F64
  z : F64
  mom : Mom
  dead : Bool

/-- the particle loop of `current_deposition_cpu_3d` for one patch (current/cpu3d.c 169-179) -/
def depositPatch3 (gx gy gz : Grid1) (dt q : ℚ) (ps : List Part3) (acc : Acc 3) : Acc 3 :=
  ps.foldl (fun acc p =>
    if p.dead then acc else
    match p.x, p.y, p.z with
    | .val x, .val y, .val z => deposit3Ref gx gy gz dt q x y z p.mom acc
    | _, _, _ => acc) acc

end Verif.Deposit
