import Verif.Model.Deposit
/-!
# Field interpolation, Boris pusher and the particle push of one species

Models `src/lambdapic/core/interpolation/cpu2d.c`, `cpu3d.c`, `core/pusher/boris.py`, `core/pusher/cpu.py`,
`core/pusher/pusher.py`, `core/pusher/unified/unified_pusher_2d.c`, `unified_pusher_3d.c` and the species loop of
`simulation/simulation.py` 983-1034.

Simplifications: exact arithmetic; `int`/`npy_intp` unbounded; arrays addressed by per-axis positions. `1 / sqrt(.)`
is a parameter `rs`: it is `fun x => 1 / √x` over the reals (Props/Pusher, C23), and for the comparison of the two
code paths over the rationals it is any function whatsoever. The radiation and pair-production hooks of the split
path are not called: a species that has them never uses the unified path.
-/
namespace Verif.Pusher
open Verif.Maxwell (Arr Fields)
open Verif.Particles (F64)
open Verif.Deposit (Grid1 Mom Acc cInt lightSpeed)
open Verif.SyncFields (wrapIx)

/-! ## interpolation -/

/-- `get_gx` (interpolation/cpu2d.c 7-12, cpu3d.c 7-12, unified_pusher_2d.c 64-69, unified_pusher_3d.c 66-71) -/
def getGx (delta : ℚ) : Fin 3 → ℚ :=
  ![1 / 2 * (1 / 4 + delta * delta + delta), 3 / 4 - delta * delta, 1 / 2 * (1 / 4 + delta * delta - delta)]

/-- `interp_field` (cpu2d.c 18-30), `interp_field_safe` (unified_pusher_2d.c 72-84), `interp_field_fast`
(unified_pusher_2d.c 86-96): the three have the same text up to the way a cell is addressed, which is `rd` -/
def interpField2 (rd : Int → Int → ℚ) (fac1 fac2 : Fin 3 → ℚ) (ix iy : Int) : ℚ :=
  fac2 0 * (fac1 0 * rd (ix - 1) (iy - 1) + fac1 1 * rd ix (iy - 1) + fac1 2 * rd (ix + 1) (iy - 1))
  + fac2 1 * (fac1 0 * rd (ix - 1) iy + fac1 1 * rd ix iy + fac1 2 * rd (ix + 1) iy)
  + fac2 2 * (fac1 0 * rd (ix - 1) (iy + 1) + fac1 1 * rd ix (iy + 1) + fac1 2 * rd (ix + 1) (iy + 1))

/-- `interp_field` (cpu3d.c 14-51), `interp_field_safe_3d` (unified_pusher_3d.c 74-110), `interp_field_fast_3d`
(unified_pusher_3d.c 112-150) -/
def interpField3 (rd : Int → Int → Int → ℚ) (facx facy facz : Fin 3 → ℚ) (ix iy iz : Int) : ℚ :=
  facz 0 * (facy 0 * (facx 0 * rd (ix - 1) (iy - 1) (iz - 1) + facx 1 * rd ix (iy - 1) (iz - 1)
      + facx 2 * rd (ix + 1) (iy - 1) (iz - 1))
    + facy 1 * (facx 0 * rd (ix - 1) iy (iz - 1) + facx 1 * rd ix iy (iz - 1)
      + facx 2 * rd (ix + 1) iy (iz - 1))
    + facy 2 * (facx 0 * rd (ix - 1) (iy + 1) (iz - 1) + facx 1 * rd ix (iy + 1) (iz - 1)
      + facx 2 * rd (ix + 1) (iy + 1) (iz - 1)))
  + facz 1 * (facy 0 * (facx 0 * rd (ix - 1) (iy - 1) iz + facx 1 * rd ix (iy - 1) iz
      + facx 2 * rd (ix + 1) (iy - 1) iz)
    + facy 1 * (facx 0 * rd (ix - 1) iy iz + facx 1 * rd ix iy iz + facx 2 * rd (ix + 1) iy iz)
    + facy 2 * (facx 0 * rd (ix - 1) (iy + 1) iz + facx 1 * rd ix (iy + 1) iz
      + facx 2 * rd (ix + 1) (iy + 1) iz))
  + facz 2 * (facy 0 * (facx 0 * rd (ix - 1) (iy - 1) (iz + 1) + facx 1 * rd ix (iy - 1) (iz + 1)
      + facx 2 * rd (ix + 1) (iy - 1) (iz + 1))
    + facy 1 * (facx 0 * rd (ix - 1) iy (iz + 1) + facx 1 * rd ix iy (iz + 1)
      + facx 2 * rd (ix + 1) iy (iz + 1))
    + facy 2 * (facx 0 * rd (ix - 1) (iy + 1) (iz + 1) + facx 1 * rd ix (iy + 1) (iz + 1)
      + facx 2 * rd (ix + 1) (iy + 1) (iz + 1)))

/-- the six field values a particle stores: `ex_part` … `bz_part` -/
structure EB where
  ex : ℚ
  ey : ℚ
  ez : ℚ
  bx : ℚ
  by' : ℚ
  bz : ℚ
  deriving DecidableEq

/-- `field[INDEX2(i, j)]` (utils/cutils.h 21) -/
def rdSafe2 (nx ny : Nat) (A : Arr 2) (i j : Int) : ℚ := A ![wrapIx nx i, wrapIx ny j]
/-- `field[i * ny + j]` (unified_pusher_2d.c 90-95) -/
def rdFast2 (A : Arr 2) (i j : Int) : ℚ := A ![i, j]
/-- `field[INDEX3(i, j, k)]` (utils/cutils.h 23-26) -/
def rdSafe3 (nx ny nz : Nat) (A : Arr 3) (i j k : Int) : ℚ := A ![wrapIx nx i, wrapIx ny j, wrapIx nz k]
/-- `field[i * ny * nz + j * nz + k]` (unified_pusher_3d.c 118-121) -/
def rdFast3 (A : Arr 3) (i j k : Int) : ℚ := A ![i, j, k]

/-- the part of `interpolation_2d` after the cell numbers are known (cpu2d.c 51-70; unified_pusher_2d.c 126-136 and
138-153): `X`, `Y` are `x_over_dx`, `y_over_dy` -/
def gatherAt2 (rd : Arr 2 → Int → Int → ℚ) (F : Fields 2) (X Y : ℚ) (ix1 ix2 iy1 iy2 : Int) : EB :=
  let gx := getGx (ix1 - X)
  let hx := getGx (ix2 - X + 1 / 2)
  let gy := getGx (iy1 - Y)
  let hy := getGx (iy2 - Y + 1 / 2)
  ⟨interpField2 (rd (F.e 0)) hx gy ix2 iy1,
   interpField2 (rd (F.e 1)) gx hy ix1 iy2,
   interpField2 (rd (F.e 2)) gx gy ix1 iy1,
   interpField2 (rd (F.b 0)) gx hy ix1 iy2,
   interpField2 (rd (F.b 1)) hx gy ix2 iy1,
   interpField2 (rd (F.b 2)) hx hy ix2 iy2⟩

/-- `interpolation_2d` of the split path (interpolation/cpu2d.c 32-70) -/
def interp2 (gx gy : Grid1) (F : Fields 2) (x y : ℚ) : EB :=
  let X := (x - gx.x0) / gx.d
  let Y := (y - gy.x0) / gy.d
  gatherAt2 (rdSafe2 gx.n gy.n) F X Y ⌊X + 1 / 2⌋ ⌊X⌋ ⌊Y + 1 / 2⌋ ⌊Y⌋

/-- one axis of `use_fast_path` (unified_pusher_2d.c 123-124): both cell numbers lie in `1 … n - 2` -/
def fastAxis (n : Nat) (i1 i2 : Int) : Prop := 0 < i2 ∧ i2 < n - 1 ∧ 0 < i1 ∧ i1 < n - 1

instance (n : Nat) (i1 i2 : Int) : Decidable (fastAxis n i1 i2) := by unfold fastAxis; infer_instance

/-- `interpolation_2d` of the unified pusher (unified_pusher_2d.c 98-154) -/
def interp2Unified (gx gy : Grid1) (F : Fields 2) (x y : ℚ) : EB :=
  let X := (x - gx.x0) * (1 / gx.d)
  let Y := (y - gy.x0) * (1 / gy.d)
  let ix1 := cInt (X + 1 / 2)
  let ix2 := cInt X
  let iy1 := cInt (Y + 1 / 2)
  let iy2 := cInt Y
  if fastAxis gx.n ix1 ix2 ∧ fastAxis gy.n iy1 iy2 then gatherAt2 rdFast2 F X Y ix1 ix2 iy1 iy2
  else gatherAt2 (rdSafe2 gx.n gy.n) F X Y ⌊X + 1 / 2⌋ ⌊X⌋ ⌊Y + 1 / 2⌋ ⌊Y⌋

/-- the part of `interpolation_3d` after the cell numbers are known (cpu3d.c 73-98; unified_pusher_3d.c 189-202 and
203-221) -/
def gatherAt3 (rd : Arr 3 → Int → Int → Int → ℚ) (F : Fields 3) (X Y Z : ℚ) (ix1 ix2 iy1 iy2 iz1 iz2 : Int) : EB :=
  let gx := getGx (ix1 - X)
  let hx := getGx (ix2 - X + 1 / 2)
  let gy := getGx (iy1 - Y)
  let hy := getGx (iy2 - Y + 1 / 2)
  let gz := getGx (iz1 - Z)
  let hz := getGx (iz2 - Z + 1 / 2)
  ⟨interpField3 (rd (F.e 0)) hx gy gz ix2 iy1 iz1,
   interpField3 (rd (F.e 1)) gx hy gz ix1 iy2 iz1,
   interpField3 (rd (F.e 2)) gx gy hz ix1 iy1 iz2,
   interpField3 (rd (F.b 0)) gx hy hz ix1 iy2 iz2,
   interpField3 (rd (F.b 1)) hx gy hz ix2 iy1 iz2,
   interpField3 (rd (F.b 2)) hx hy gz ix2 iy2 iz1⟩

/-- `interpolation_3d` of the split path (interpolation/cpu3d.c 53-99) -/
def interp3 (gx gy gz : Grid1) (F : Fields 3) (x y z : ℚ) : EB :=
  let X := (x - gx.x0) / gx.d
  let Y := (y - gy.x0) / gy.d
  let Z := (z - gz.x0) / gz.d
  gatherAt3 (rdSafe3 gx.n gy.n gz.n) F X Y Z ⌊X + 1 / 2⌋ ⌊X⌋ ⌊Y + 1 / 2⌋ ⌊Y⌋ ⌊Z + 1 / 2⌋ ⌊Z⌋

/-- `interpolation_3d` of the unified pusher (unified_pusher_3d.c 152-222) -/
def interp3Unified (gx gy gz : Grid1) (F : Fields 3) (x y z : ℚ) : EB :=
  let X := (x - gx.x0) * (1 / gx.d)
  let Y := (y - gy.x0) * (1 / gy.d)
  let Z := (z - gz.x0) * (1 / gz.d)
  let ix1 := cInt (X + 1 / 2)
  let ix2 := cInt X
  let iy1 := cInt (Y + 1 / 2)
  let iy2 := cInt Y
  let iz1 := cInt (Z + 1 / 2)
  let iz2 := cInt Z
  if fastAxis gx.n ix1 ix2 ∧ fastAxis gy.n iy1 iy2 ∧ fastAxis gz.n iz1 iz2 then
    gatherAt3 rdFast3 F X Y Z ix1 ix2 iy1 iy2 iz1 iz2
  else gatherAt3 (rdSafe3 gx.n gy.n gz.n) F X Y Z ⌊X + 1 / 2⌋ ⌊X⌋ ⌊Y + 1 / 2⌋ ⌊Y⌋ ⌊Z + 1 / 2⌋ ⌊Z⌋

/-! ## Boris push -/

section Boris
variable {K : Type*} [Field K]

/-- a momentum with its `inv_gamma` -/
structure Mo (K : Type*) where
  ux : K
  uy : K
  uz : K
  ig : K

/-- field values at the particle -/
structure FieldsAt (K : Type*) where
  ex : K
  ey : K
  ez : K
  bx : K
  by' : K
  bz : K

/-- `boris` of the unified pusher (unified_pusher_2d.c 15-51, unified_pusher_3d.c 15-51); `rs` is `1.0 / sqrt(.)` -/
def borisC (rs : K → K) (efactor bfactor : K) (f : FieldsAt K) (p : Mo K) : Mo K :=
  let ux_minus := p.ux + efactor * f.ex
  let uy_minus := p.uy + efactor * f.ey
  let uz_minus := p.uz + efactor * f.ez
  let ig_minus := rs (1 + ux_minus * ux_minus + uy_minus * uy_minus + uz_minus * uz_minus)
  let Tx := bfactor * f.bx * ig_minus
  let Ty := bfactor * f.by' * ig_minus
  let Tz := bfactor * f.bz * ig_minus
  let ux_prime := ux_minus + uy_minus * Tz - uz_minus * Ty
  let uy_prime := uy_minus + uz_minus * Tx - ux_minus * Tz
  let uz_prime := uz_minus + ux_minus * Ty - uy_minus * Tx
  let Tfactor := 2 / (1 + Tx * Tx + Ty * Ty + Tz * Tz)
  let Sx := Tfactor * Tx
  let Sy := Tfactor * Ty
  let Sz := Tfactor * Tz
  let ux_plus := ux_minus + uy_prime * Sz - uz_prime * Sy
  let uy_plus := uy_minus + uz_prime * Sx - ux_prime * Sz
  let uz_plus := uz_minus + ux_prime * Sy - uy_prime * Sx
  let ux := ux_plus + efactor * f.ex
  let uy := uy_plus + efactor * f.ey
  let uz := uz_plus + efactor * f.ez
  ⟨ux, uy, uz, rs (1 + ux * ux + uy * uy + uz * uz)⟩

/-- `boris_inline` (pusher/boris.py 6-38); `c` is the speed of light -/
def borisPy (rs : K → K) (c q m dt : K) (f : FieldsAt K) (p : Mo K) : Mo K :=
  let efactor := q * dt / (2 * m * c)
  let bfactor := q * dt / (2 * m)
  let ux_minus := p.ux + efactor * f.ex
  let uy_minus := p.uy + efactor * f.ey
  let uz_minus := p.uz + efactor * f.ez
  let ig_minus := rs (1 + ux_minus ^ 2 + uy_minus ^ 2 + uz_minus ^ 2)
  let Tx := bfactor * f.bx * ig_minus
  let Ty := bfactor * f.by' * ig_minus
  let Tz := bfactor * f.bz * ig_minus
  let ux_prime := ux_minus + uy_minus * Tz - uz_minus * Ty
  let uy_prime := uy_minus + uz_minus * Tx - ux_minus * Tz
  let uz_prime := uz_minus + ux_minus * Ty - uy_minus * Tx
  let Tfactor := 2 / (1 + Tx ^ 2 + Ty ^ 2 + Tz ^ 2)
  let Sx := Tfactor * Tx
  let Sy := Tfactor * Ty
  let Sz := Tfactor * Tz
  let ux_plus := ux_minus + uy_prime * Sz - uz_prime * Sy
  let uy_plus := uy_minus + uz_prime * Sx - ux_prime * Sz
  let uz_plus := uz_minus + ux_prime * Sy - uy_prime * Sx
  let ux_new := ux_plus + efactor * f.ex
  let uy_new := uy_plus + efactor * f.ey
  let uz_new := uz_plus + efactor * f.ez
  ⟨ux_new, uy_new, uz_new, rs (1 + ux_new ^ 2 + uy_new ^ 2 + uz_new ^ 2)⟩

/-- the call of `boris` with the constants of the unified driver (unified_pusher_2d.c 246-247,
unified_pusher_3d.c 315-316) -/
def borisUnified (rs : K → K) (c q m dt : K) (f : FieldsAt K) (p : Mo K) : Mo K :=
  borisC rs (q * dt / (2 * m * c)) (q * dt / (2 * m)) f p

end Boris

/-! ## the push of one species -/

/-- one particle slot, as the push sees it -/
structure Slot (k : Nat) where
  pos : Fin k → F64
  mom : Mom
  eb : EB
  dead : Bool

/-- the coordinates, if none of them is NaN: `isnan(x) || isnan(y)` is `nums pos = none` -/
def nums {k : Nat} (pos : Fin k → F64) : Option (Fin k → ℚ) :=
  if ∀ i, pos i ≠ .nan then some fun i => match pos i with | .val v => v | .nan => 0 else none

/-- momentum component along axis `i` -/
def uAt (p : Mom) (i : Nat) : ℚ := match i with | 0 => p.ux | 1 => p.uy | _ => p.uz

/-- `*x += v`: NaN stays NaN -/
def bump (x : F64) (v : ℚ) : F64 := match x with | .nan => .nan | .val a => .val (a + v)

/-- `push_position_2d` / `push_position_3d` (unified_pusher_2d.c 53-61, unified_pusher_3d.c 53-63) and the body of
the loop of `push_position_2d` (pusher/cpu.py 69-70) -/
def pushPos {k : Nat} (cdt : ℚ) (s : Slot k) : Slot k :=
  { s with pos := fun i => bump (s.pos i) (cdt * s.mom.invGamma * uAt s.mom i) }

/-- the kernels of one patch in dimension `k` -/
structure Kern (k : Nat) where
  interp : (Fin k → ℚ) → EB
  dep : (Fin k → ℚ) → Mom → Acc k → Acc k

/-- call of the interpolation kernel for one particle, storing the six values -/
def storeInterp {k : Nat} (K : Kern k) (s : Slot k) : Slot k :=
  match nums s.pos with | some v => { s with eb := K.interp v } | none => s

/-- call of the momentum update for one particle -/
def storeMom {k : Nat} (bor : FieldsAt ℚ → Mo ℚ → Mo ℚ) (s : Slot k) : Slot k :=
  let r := bor ⟨s.eb.ex, s.eb.ey, s.eb.ez, s.eb.bx, s.eb.by', s.eb.bz⟩
    ⟨s.mom.ux, s.mom.uy, s.mom.uz, s.mom.invGamma⟩
  { s with mom := ⟨r.ux, r.uy, r.uz, r.ig, s.mom.w⟩ }

/-- call of the deposition kernel for one particle -/
def depOne {k : Nat} (K : Kern k) (acc : Acc k) (s : Slot k) : Acc k :=
  match nums s.pos with | some v => K.dep v s.mom acc | none => acc

/-- `if (is_dead[ip]) continue; if (isnan(x) || isnan(y)) continue;` -/
def skipDeadNan {k : Nat} (f : Slot k → Slot k) (s : Slot k) : Slot k :=
  if s.dead then s else if nums s.pos = none then s else f s

/-- `if is_dead[ip]: continue` -/
def skipDead {k : Nat} (f : Slot k → Slot k) (s : Slot k) : Slot k := if s.dead then s else f s

/-- `clean_strip` (unified_pusher_2d.c 266-269) -/
def cleanStrip {k : Nat} (strip : List (Slot k)) : Bool :=
  strip.all fun s => !(s.dead || (nums s.pos).isNone)

/-- the work on one strip (unified_pusher_2d.c 271-354, unified_pusher_3d.c 341-428). The loops of a clean strip have
no checks. A kernel that would be called with a NaN coordinate (never the case in a clean strip) leaves its target
alone in this model. -/
def unifiedStrip {k : Nat} (K : Kern k) (bor : FieldsAt ℚ → Mo ℚ → Mo ℚ) (cdtHalf : ℚ) (strip : List (Slot k))
    (acc : Acc k) : List (Slot k) × Acc k :=
  if cleanStrip strip then
    let s1 := strip.map fun s => storeInterp K (pushPos cdtHalf s)
    let s2 := s1.map fun s => pushPos cdtHalf (storeMom bor s)
    (s2, s2.foldl (depOne K) acc)
  else
    let s2 := strip.map (skipDeadNan fun s => pushPos cdtHalf (storeMom bor (storeInterp K (pushPos cdtHalf s))))
    (s2, s2.foldl (fun acc s => if s.dead then acc else if nums s.pos = none then acc else depOne K acc s) acc)

/-- `STRIP_SIZE` (unified_pusher_2d.c 12, unified_pusher_3d.c 12) -/
def stripSize : Nat := 256

/-- `for (s = 0; s < npart; s += STRIP_SIZE)` (unified_pusher_2d.c 261-263); `size` is `STRIP_SIZE` -/
def unifiedPatch {k : Nat} (K : Kern k) (bor : FieldsAt ℚ → Mo ℚ → Mo ℚ) (cdtHalf : ℚ) (size : Nat)
    (ps : List (Slot k)) (acc : Acc k) : List (Slot k) × Acc k :=
  if h : ps = [] ∨ size = 0 then (ps, acc)
  else
    let r := unifiedStrip K bor cdtHalf (ps.take size) acc
    let r' := unifiedPatch K bor cdtHalf size (ps.drop size) r.2
    (r.1 ++ r'.1, r'.2)
termination_by ps.length
decreasing_by
  have := List.length_pos_of_ne_nil (fun e => h (Or.inl e))
  rw [List.length_drop]; omega

/-- `pusher[ispec].push_position(dt)` for one patch (pusher/pusher.py 101-109, pusher/cpu.py 57-90): only dimension 2
does anything -/
def splitPush {k : Nat} (dt : ℚ) (ps : List (Slot k)) : List (Slot k) :=
  if k = 2 then ps.map (skipDead (pushPos (lightSpeed * dt))) else ps

/-- `interpolator(ispec)` for one patch (interpolation/cpu2d.c 113-128, cpu3d.c 155-168) -/
def splitInterp {k : Nat} (K : Kern k) (ps : List (Slot k)) : List (Slot k) := ps.map (skipDeadNan (storeInterp K))

/-- `pusher[ispec](dt)` for one patch (pusher/pusher.py 130-137, pusher/cpu.py 13-36, pusher/boris.py 44-51) -/
def splitBoris {k : Nat} (bor : FieldsAt ℚ → Mo ℚ → Mo ℚ) (ps : List (Slot k)) : List (Slot k) :=
  ps.map (skipDead (storeMom bor))

/-- `current_depositor(ispec, dt)` for one patch (current/cpu2d.c 169-180, current/cpu3d.c 169-179) -/
def splitDeposit {k : Nat} (K : Kern k) (ps : List (Slot k)) (acc : Acc k) : Acc k :=
  ps.foldl (fun acc s => if s.dead then acc else if nums s.pos = none then acc else depOne K acc s) acc

/-- kernels called by the unified pusher in 2D -/
def kern2U (gx gy : Grid1) (F : Fields 2) (q dt : ℚ) : Kern 2 :=
  ⟨fun v => interp2Unified gx gy F (v 0) (v 1), fun v p acc => Deposit.deposit2Fast gx gy dt q (v 0) (v 1) p acc⟩
/-- kernels called by the split path in 2D -/
def kern2S (gx gy : Grid1) (F : Fields 2) (q dt : ℚ) : Kern 2 :=
  ⟨fun v => interp2 gx gy F (v 0) (v 1), fun v p acc => Deposit.deposit2 gx gy dt q (v 0) (v 1) p acc⟩
/-- kernels called by the unified pusher in 3D -/
def kern3U (gx gy gz : Grid1) (F : Fields 3) (q dt : ℚ) : Kern 3 :=
  ⟨fun v => interp3Unified gx gy gz F (v 0) (v 1) (v 2),
   fun v p acc => Deposit.deposit3Fast gx gy gz dt q (v 0) (v 1) (v 2) p acc⟩
/-- kernels called by the split path in 3D -/
def kern3S (gx gy gz : Grid1) (F : Fields 3) (q dt : ℚ) : Kern 3 :=
  ⟨fun v => interp3 gx gy gz F (v 0) (v 1) (v 2),
   fun v p acc => Deposit.deposit3Ref gx gy gz dt q (v 0) (v 1) (v 2) p acc⟩

/-- one patch: its particles of one species, fields, current arrays and origin -/
structure PatchSt (k : Nat) where
  parts : List (Slot k)
  fields : Fields k
  acc : Acc k
  origin : Fin k → ℚ

/-- constants of a run: cells per axis (guards included), cell sizes, charge, mass, `dt` -/
structure RunPar (k : Nat) where
  n : Fin k → Nat
  d : Fin k → ℚ
  q : ℚ
  m : ℚ
  dt : ℚ

/-- grid of axis `i` in a patch -/
def RunPar.grid {k : Nat} (R : RunPar k) (P : PatchSt k) (i : Fin k) : Grid1 := ⟨R.n i, R.d i, P.origin i⟩

/-- `unified_boris_pusher_cpu_2d` (unified_pusher_2d.c 157-364): patches are independent of each other -/
def unified2 (rs : ℚ → ℚ) (R : RunPar 2) (Ps : List (PatchSt 2)) : List (PatchSt 2) :=
  Ps.map fun P =>
    let r := unifiedPatch (kern2U (R.grid P 0) (R.grid P 1) P.fields R.q R.dt) (borisUnified rs lightSpeed R.q R.m R.dt)
      (lightSpeed * (1 / 2) * R.dt) stripSize P.parts P.acc
    { P with parts := r.1, acc := r.2 }

/-- `unified_boris_pusher_cpu_3d` (unified_pusher_3d.c 225-440) -/
def unified3 (rs : ℚ → ℚ) (R : RunPar 3) (Ps : List (PatchSt 3)) : List (PatchSt 3) :=
  Ps.map fun P =>
    let r := unifiedPatch (kern3U (R.grid P 0) (R.grid P 1) (R.grid P 2) P.fields R.q R.dt)
      (borisUnified rs lightSpeed R.q R.m R.dt) (lightSpeed * (1 / 2) * R.dt) stripSize P.parts P.acc
    { P with parts := r.1, acc := r.2 }

/-- the split sequence of the species loop (simulation/simulation.py 991-1031): each stage runs over all patches
before the next one starts -/
def split {k : Nat} (kern : PatchSt k → Kern k) (rs : ℚ → ℚ) (R : RunPar k) (Ps : List (PatchSt k)) :
    List (PatchSt k) :=
  let Ps := Ps.map fun P => { P with parts := splitPush (1 / 2 * R.dt) P.parts }
  let Ps := Ps.map fun P => { P with parts := splitInterp (kern P) P.parts }
  let Ps := Ps.map fun P => { P with parts := splitBoris (borisPy rs lightSpeed R.q R.m R.dt) P.parts }
  let Ps := Ps.map fun P => { P with parts := splitPush (1 / 2 * R.dt) P.parts }
  Ps.map fun P => { P with acc := splitDeposit (kern P) P.parts P.acc }

/-- the split path in 2D -/
def split2 (rs : ℚ → ℚ) (R : RunPar 2) : List (PatchSt 2) → List (PatchSt 2) :=
  split (fun P => kern2S (R.grid P 0) (R.grid P 1) P.fields R.q R.dt) rs R

/-- the split path in 3D -/
def split3 (rs : ℚ → ℚ) (R : RunPar 3) : List (PatchSt 3) → List (PatchSt 3) :=
  split (fun P => kern3S (R.grid P 0) (R.grid P 1) (R.grid P 2) P.fields R.q R.dt) rs R

/-- `if use_unified_pusher[ispec]: ... else: ...` (simulation/simulation.py 988-1031) in 2D -/
def pushSpecies2 (useUnified : Bool) (rs : ℚ → ℚ) (R : RunPar 2) (Ps : List (PatchSt 2)) : List (PatchSt 2) :=
  if useUnified then unified2 rs R Ps else split2 rs R Ps

/-- the same in 3D -/
def pushSpecies3 (useUnified : Bool) (rs : ℚ → ℚ) (R : RunPar 3) (Ps : List (PatchSt 3)) : List (PatchSt 3) :=
  if useUnified then unified3 rs R Ps else split3 rs R Ps

end Verif.Pusher
