import Mathlib.Analysis.SpecialFunctions.Complex.Arg
import Mathlib.Analysis.SpecialFunctions.Trigonometric.Arctan
import Mathlib.Analysis.SpecialFunctions.Exp
import Mathlib.Data.Real.Sqrt
/-!
# Laser injection

Models `src/lambdapic/callback/laser.py`: the two kernels that write the magnetic field next to the absorbing layer (17-77), the callback (109-137),
the transverse centre (154-217), `SimpleLaser` (287-386), `GaussianLaser` (415-555) and combined lasers (139-150, 242-272).
Simplifications: exact reals; `scipy.constants` and the generalised Laguerre polynomial with its norm are parameters; `np.arctan2` is the argument of
a complex number (no signed zeros); only `side = "xmin"` exists (317, 447), so the side is not modelled; `prange` loops are run in order (their
iterations write different elements and read none that is written).
-/
namespace Verif.Laser

/-- the field arrays of a patch: `e 0, e 1, e 2` are `ex, ey, ez`, and likewise for `b` and `j` (core/fields.py 6-67); `I` is the type of
positions in the array -/
structure LF (I : Type) where
  e : Fin 3 → I → ℝ
  b : Fin 3 → I → ℝ
  j : Fin 3 → I → ℝ

/-- `b[comp]` is overwritten where `at` holds -/
noncomputable def LF.over {I : Type} (f : LF I) (comp : Fin 3) (pos : I → Prop) (v : I → ℝ) : LF I :=
  open Classical in
  { f with b := fun d x => if d = comp ∧ pos x then v x else f.b d x }

/-- numpy's negative index in an axis of `N` elements -/
def wrap (N : Nat) (i : Int) : Int := if i < 0 then i + N else i

/-- constants of the run: `c`, `epsilon_0`, cell sizes and time step -/
structure Const where
  c : ℝ
  eps0 : ℝ
  dx : ℝ
  dy : ℝ
  dz : ℝ
  dt : ℝ

/-- positions of a 2D array -/
abbrev I2 := Int × Int
/-- positions of a 3D array -/
abbrev I3 := Int × Int × Int

/-- first loop body of `_update_laser_bfields_2d` (laser.py 28-29) -/
noncomputable def bxBody2 (L : Nat) (f : LF I2) (iy : Nat) : LF I2 :=
  f.over 0 (fun x => x = ((L : Int) - 1, (iy : Int))) fun x => f.b 0 (0, x.2)

/-- right hand side of the assignment to `bz` (laser.py 31-37) -/
noncomputable def bz2 (K : Const) (NX L : Nat) (eysrc : Nat → ℝ) (f : LF I2) (iy : Nat) : ℝ :=
  let p (i : Int) : I2 := (wrap NX i, iy)
  1 / ((K.c * K.dt / K.dx + 1) * K.c) * (
    4 * eysrc iy
    + 2 * (f.e 1 (p 0) + K.c * 0.5 * (f.b 2 (p 0) + f.b 2 (p (-1))))
    - 2 * f.e 1 (p L)
    + K.dt / K.eps0 * f.j 1 (p L)
    + (K.c * K.dt / K.dx - 1) * K.c * f.b 2 (p L))

/-- right hand side of the assignment to `by` (laser.py 38-45) -/
noncomputable def by2 (K : Const) (NX NY L : Nat) (ezsrc : Nat → ℝ) (f : LF I2) (iy : Nat) : ℝ :=
  let p (i : Int) : I2 := (wrap NX i, iy)
  1 / ((K.c * K.dt / K.dx + 1) * K.c) * (
    - 4 * ezsrc iy
    - 2 * (f.e 2 (p 0) - K.c * 0.5 * (f.b 1 (p 0) + f.b 1 (p (-1))))
    + 2 * f.e 2 (p L)
    - (K.dt * K.c ^ 2) * (f.b 0 (p L) - f.b 0 (wrap NX L, wrap NY ((iy : Int) - 1))) / K.dy
    - K.dt / K.eps0 * f.j 2 (p L)
    + (K.c * K.dt / K.dx - 1) * K.c * f.b 1 (p L))

/-- second loop body of `_update_laser_bfields_2d` (laser.py 30-45) -/
noncomputable def bBody2 (K : Const) (NX NY L : Nat) (src : Nat → ℝ × ℝ) (f : LF I2) (iy : Nat) : LF I2 :=
  let f := f.over 2 (fun x => x = ((L : Int) - 1, (iy : Int))) fun _ => bz2 K NX L (fun i => (src i).1) f iy
  f.over 1 (fun x => x = ((L : Int) - 1, (iy : Int))) fun _ => by2 K NX NY L (fun i => (src i).2) f iy

/-- `_update_laser_bfields_2d` (laser.py 19-45); `NX`, `NY` are the array sizes with guard cells -/
noncomputable def update2 (K : Const) (NX NY L lo hi : Nat) (src : Nat → ℝ × ℝ) (f : LF I2) : LF I2 :=
  let f := (List.range' lo (hi - lo)).foldl (bxBody2 L) f
  (List.range' lo (hi - lo)).foldl (bBody2 K NX NY L src) f

/-- first loop body of `_update_laser_bfields_3d` (laser.py 58-59): all z at once -/
noncomputable def bxBody3 (L : Nat) (f : LF I3) (iy : Nat) : LF I3 :=
  f.over 0 (fun x => x.1 = (L : Int) - 1 ∧ x.2.1 = (iy : Int)) fun x => f.b 0 (0, x.2.1, x.2.2)

/-- right hand side of the assignment to `bz` (laser.py 62-69) -/
noncomputable def bz3 (K : Const) (NX NZ L : Nat) (eysrc : Nat × Nat → ℝ) (f : LF I3) (u : Nat × Nat) : ℝ :=
  let p (i : Int) : I3 := (wrap NX i, u.1, u.2)
  1 / ((K.c * K.dt / K.dx + 1) * K.c) * (
    4 * eysrc u
    + 2 * (f.e 1 (p 0) + K.c * 0.5 * (f.b 2 (p 0) + f.b 2 (p (-1))))
    - 2 * f.e 1 (p L)
    - (K.dt * K.c ^ 2) * (f.b 0 (p L) - f.b 0 (wrap NX L, u.1, wrap NZ ((u.2 : Int) - 1))) / K.dz
    + K.dt / K.eps0 * f.j 1 (p L)
    + (K.c * K.dt / K.dx - 1) * K.c * f.b 2 (p L))

/-- right hand side of the assignment to `by` (laser.py 70-77) -/
noncomputable def by3 (K : Const) (NX NY L : Nat) (ezsrc : Nat × Nat → ℝ) (f : LF I3) (u : Nat × Nat) : ℝ :=
  let p (i : Int) : I3 := (wrap NX i, u.1, u.2)
  1 / ((K.c * K.dt / K.dx + 1) * K.c) * (
    - 4 * ezsrc u
    - 2 * (f.e 2 (p 0) - K.c * 0.5 * (f.b 1 (p 0) + f.b 1 (p (-1))))
    + 2 * f.e 2 (p L)
    - (K.dt * K.c ^ 2) * (f.b 0 (p L) - f.b 0 (wrap NX L, wrap NY ((u.1 : Int) - 1), u.2)) / K.dy
    - K.dt / K.eps0 * f.j 2 (p L)
    + (K.c * K.dt / K.dx - 1) * K.c * f.b 1 (p L))

/-- second loop body of `_update_laser_bfields_3d` (laser.py 60-77) -/
noncomputable def bBody3 (K : Const) (NX NY NZ L : Nat) (src : Nat × Nat → ℝ × ℝ) (f : LF I3) (u : Nat × Nat) : LF I3 :=
  let f := f.over 2 (fun x => x = ((L : Int) - 1, (u.1 : Int), (u.2 : Int))) fun _ => bz3 K NX NZ L (fun i => (src i).1) f u
  f.over 1 (fun x => x = ((L : Int) - 1, (u.1 : Int), (u.2 : Int))) fun _ => by3 K NX NY L (fun i => (src i).2) f u

/-- `_update_laser_bfields_3d` (laser.py 49-77) -/
noncomputable def update3 (K : Const) (NX NY NZ L ylo yhi zlo zhi : Nat) (src : Nat × Nat → ℝ × ℝ) (f : LF I3) : LF I3 :=
  let f := (List.range' ylo (yhi - ylo)).foldl (bxBody3 L) f
  ((List.range' ylo (yhi - ylo)).flatMap fun iy => (List.range' zlo (zhi - zlo)).map fun iz => (iy, iz)).foldl
    (bBody3 K NX NY NZ L src) f

/-! ### where the beam is centred -/

/-- `o or d` in Python: `None` and zero both give `d` -/
noncomputable def pyOr (o : Option ℝ) (d : ℝ) : ℝ :=
  open Classical in
  match o with
  | none => d
  | some v => if v = 0 then d else v

/-- a point of the injection plane as the sources see it (laser.py 154-172, 193-217) -/
structure Pt where
  y : ℝ
  z : ℝ
  r : ℝ
  phi : ℝ

/-- `Laser2D._get_r`, `_get_phi`, `_get_boundary_coordinates` (laser.py 153-172) for a point with `yaxis` value `y` -/
noncomputable def pt2 (y0 : Option ℝ) (Ly dy y : ℝ) : Pt :=
  let d := y - dy / 2 - pyOr y0 (Ly / 2)
  ⟨d, 0, |d|, Complex.arg ⟨d, 0⟩⟩

/-- `Laser3D._get_r`, `_get_phi`, `_get_boundary_coordinates` (laser.py 192-217) -/
noncomputable def pt3 (y0 z0 : Option ℝ) (Ly Lz dy dz y z : ℝ) : Pt :=
  let d := y - dy / 2 - pyOr y0 (Ly / 2)
  let e := z - dz / 2 - pyOr z0 (Lz / 2)
  ⟨d, e, Real.sqrt (d ^ 2 + e ^ 2), Complex.arg ⟨d, e⟩⟩

/-! ### sources -/

/-- attributes of `SimpleLaser` after construction (laser.py 329-348); `E0` is the peak field, `angle_z = 0` (323) -/
structure Simple where
  E0 : ℝ
  w0 : ℝ
  ctau : ℝ
  omega0 : ℝ
  k0 : ℝ
  angle : ℝ
  pol : ℝ
  ell : ℝ
  cep : ℝ

/-- ellipticity and polarisation (laser.py 377-385 and 546-554) -/
noncomputable def polarise (amp phase pol ell : ℝ) : ℝ × ℝ :=
  let norm := Real.sqrt (1 + ell ^ 2)
  let major := 1 / norm
  let minor := ell / norm
  (amp * (major * Real.cos pol * Real.sin phase - minor * Real.sin pol * Real.cos phase),
   amp * (major * Real.sin pol * Real.sin phase + minor * Real.cos pol * Real.cos phase))

/-- the temporal profile of `SimpleLaser` (laser.py 366-367) -/
noncomputable def Simple.tprof (s : Simple) (c time y : ℝ) : ℝ :=
  open Classical in
  let t := c * time - y * Real.sin s.angle
  Real.sin (t / (2 * s.ctau) * Real.pi) ^ 2 * (if t < 2 * s.ctau then 1 else 0)

/-- `SimpleLaser._calculate_bound_fields` after the stop test (laser.py 358-386) -/
noncomputable def Simple.source (s : Simple) (c time : ℝ) (p : Pt) : ℝ × ℝ :=
  let rrot := Real.sqrt ((p.y / Real.cos s.angle) ^ 2 + p.z ^ 2)
  let trans := -(s.k0 * Real.sin s.angle * p.y + 0 * p.z)
  let amp := s.E0 * Real.exp (-rrot ^ 2 / s.w0 ^ 2) * s.tprof c time p.y
  let phase := s.omega0 * time + s.cep + trans
  let e := polarise amp phase s.pol s.ell
  (e.1 * Real.cos s.angle, e.2 * Real.cos 0)

/-- attributes of `GaussianLaser` after construction (laser.py 458-486); `lag` is `lg_norm * genlaguerre(p, |l|)` -/
structure Gauss where
  E0 : ℝ
  w0 : ℝ
  ctau : ℝ
  omega0 : ℝ
  k0 : ℝ
  zR : ℝ
  x0 : ℝ
  focus : ℝ
  pol : ℝ
  ell : ℝ
  cep : ℝ
  l : Int
  p : Nat
  lag : ℝ → ℝ

/-- beam radius at the boundary (laser.py 491-494) -/
noncomputable def Gauss.w (g : Gauss) (x : ℝ) : ℝ := g.w0 * Real.sqrt (1 + ((x - g.focus) / g.zR) ^ 2)

/-- `phase_curv` (laser.py 497, 532): `R` is infinite within 1e-10 of the focus, dividing by infinity gives 0 -/
noncomputable def Gauss.curv (g : Gauss) (x r : ℝ) : ℝ :=
  open Classical in
  let z := x - g.focus
  if |z| > 1e-10 then g.k0 * r ^ 2 / (2 * (z * (1 + (g.zR / z) ^ 2))) else 0

/-- `amp_lg` (laser.py 521-528) -/
noncomputable def Gauss.amplg (g : Gauss) (x r : ℝ) : ℝ :=
  if g.l ≠ 0 ∨ g.p > 0 then (Real.sqrt 2 * r / g.w x) ^ g.l.natAbs * g.lag ((Real.sqrt 2 * r / g.w x) ^ 2) else 1

/-- `phase_lg` (laser.py 525, 528) -/
noncomputable def Gauss.phaselg (g : Gauss) (phi : ℝ) : ℝ := if g.l ≠ 0 ∨ g.p > 0 then (g.l : ℝ) * phi else 0

/-- `GaussianLaser._calculate_bound_fields` after the stop test (laser.py 510-555); `x` is `cpml_thickness*dx` -/
noncomputable def Gauss.source (g : Gauss) (c time x : ℝ) (p : Pt) : ℝ × ℝ :=
  let tprof := Real.exp (-(c * time - g.x0) ^ 2 / g.ctau ^ 2)
  let amp := g.E0 * (g.w0 / g.w x) * Real.exp (-p.r ^ 2 / g.w x ^ 2) * g.amplg x p.r
  let psi := Real.arctan ((x - g.focus) / g.zR)
  let phase := g.omega0 * time + g.cep - g.k0 * x - g.curv x p.r - (2 * g.p + g.l.natAbs + 1) * psi - g.phaselg p.phi
  polarise (amp * tprof) phase g.pol g.ell

/-- a single laser: its kind, centre and `tstop` -/
structure Base where
  kind : Simple ⊕ Gauss
  y0 : Option ℝ
  z0 : Option ℝ
  tstop : ℝ

/-- lasers the user can build: single ones and sums (laser.py 139-150, 242-252) -/
inductive Laser
  | base (b : Base)
  | comb (l r : Laser)

/-- what the sources read of the simulation -/
structure Sim where
  K : Const
  Ly : ℝ
  Lz : ℝ
  time : ℝ
  thick : Nat

/-- source of a single laser at one point (laser.py 351-386 or 504-555) -/
noncomputable def Base.source (b : Base) (S : Sim) (p : Pt) : ℝ × ℝ :=
  match b.kind with
  | .inl s => s.source S.K.c S.time p
  | .inr g => g.source S.K.c S.time (S.thick * S.K.dx) p

/-- `tstop`: a sum stops with the later of its parts (laser.py 252) -/
noncomputable def Laser.tstop : Laser → ℝ
  | .base b => b.tstop
  | .comb l r => max l.tstop r.tstop

/-- `_calculate_bound_fields` (laser.py 254-266, 355-356, 507-508): `pts b` are the points of the injection plane as `b` sees them -/
noncomputable def Laser.fields {J : Type} (S : Sim) (pts : Base → J → Pt) : Laser → Option (J → ℝ × ℝ)
  | .base b => open Classical in if S.K.c * S.time ≥ b.tstop then none else some fun j => b.source S (pts b j)
  | .comb l r =>
    match l.fields S pts, r.fields S pts with
    | none, none => none
    | none, some s => some s
    | some s, none => some s
    | some s, some s' => some fun j => s j + s' j

/-- a patch: position in the grid, absorbing layers (sides and thickness, in order), cells, guard cells, corner of the grid, fields -/
structure Patch (I : Type) where
  ix : Nat
  pml : List (String × Nat)
  n : Fin 3 → Nat
  ng : Nat
  y0 : ℝ
  z0 : ℝ
  f : LF I

/-- `get_pml(...).thickness` or a default (boundary/utils.py 30-39) -/
def pmlThick (l : List (String × Nat)) (side : String) (dflt : Nat) : Nat :=
  match l.find? (fun p => p.1 == side) with
  | some p => p.2
  | none => dflt

/-- the points of the injection plane of a 2D patch (fields.py 101-105, own cells) -/
noncomputable def points2 (S : Sim) (p : Patch I2) (b : Base) (iy : Nat) : Pt := pt2 b.y0 S.Ly S.K.dy (p.y0 + iy * S.K.dy)

/-- the points of the injection plane of a 3D patch -/
noncomputable def points3 (S : Sim) (p : Patch I3) (b : Base) (u : Nat × Nat) : Pt :=
  pt3 b.y0 b.z0 S.Ly S.Lz S.K.dy S.K.dz (p.y0 + u.1 * S.K.dy) (p.z0 + u.2 * S.K.dz)

/-- `Laser2D._update_bfields` (laser.py 174-190) -/
noncomputable def patchUpdate2 (S : Sim) (src : Nat → ℝ × ℝ) (p : Patch I2) : Patch I2 :=
  { p with
    f := update2 S.K (p.n 0 + 2 * p.ng) (p.n 1 + 2 * p.ng) (S.thick + 2) (pmlThick p.pml "ymin" 0)
      (p.n 1 - pmlThick p.pml "ymax" 0) src p.f }

/-- `Laser3D._update_bfields` (laser.py 219-240) -/
noncomputable def patchUpdate3 (S : Sim) (src : Nat × Nat → ℝ × ℝ) (p : Patch I3) : Patch I3 :=
  { p with
    f := update3 S.K (p.n 0 + 2 * p.ng) (p.n 1 + 2 * p.ng) (p.n 2 + 2 * p.ng) (S.thick + 2) (pmlThick p.pml "ymin" 0)
      (p.n 1 - pmlThick p.pml "ymax" 0) (pmlThick p.pml "zmin" 0) (p.n 2 - pmlThick p.pml "zmax" 0) src p.f }

/-- number of `PMLXmin` layers of the leftmost patches (laser.py 122-123) -/
def nPmlXmin {I : Type} (ps : List (Patch I)) : Nat :=
  (((ps.filter fun p => p.ix == 0).flatMap Patch.pml).filter fun q => q.1 == "xmin").length

/-- `Laser.__call__` (laser.py 109-137): the laser's `disabled` flag and the patches of the rank. `upd` and `pts` are those of the dimension -/
noncomputable def call {I J : Type} (upd : Sim → (J → ℝ × ℝ) → Patch I → Patch I) (pts : Sim → Patch I → Base → J → Pt) (l : Laser) (S : Sim)
    (st : Bool × List (Patch I)) : Bool × List (Patch I) :=
  open Classical in
  if st.1 then st
  else if S.K.c * S.time ≥ l.tstop then (true, st.2)
  else if nPmlXmin st.2 < (st.2.filter fun p => p.ix == 0).length then (true, st.2)
  else (false, st.2.map fun p =>
    if p.ix = 0 then
      match l.fields S (pts S p) with
      | none => p
      | some src => upd S src p
    else p)

end Verif.Laser
