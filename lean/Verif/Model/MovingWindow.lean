import Verif.Model.Neighbors
import Verif.Model.Fill
import Verif.Model.Geometry
/-!
# The moving window

Models `MovingWindow` (callback/utils.py 471-840), in 2D and 3D (in 2D `iz = 0`). Every rank runs the callback on its own patches;
one rank is one `WinSt`.

Simplifications: arithmetic is exact; field arrays of a patch are one function from array position to value; the neighbour maps are
rebuilt by `init_rect_neighbor_index_2d/3d` from the gathered patches (utils.py 650-716), which is `Verif.Neighbors.neighborIndex2/3`
on the patches of all ranks.
-/
namespace Verif.MovingWindow

/-- the constants of the simulation the callback reads: patches along x, cells per patch, cell size, time step, speed of light -/
structure Cfg where
  npx : Nat
  nxpp : Nat
  dx : ℚ
  dt : ℚ
  c : ℚ

/-- `patch_Lx = sim.nx_per_patch * sim.dx` (utils.py 529) -/
def Cfg.Lp (W : Cfg) : ℚ := W.nxpp * W.dx

/-- `sim.Lx = nx * dx` with `nx_per_patch = nx // npatch_x` (simulation.py 238-262) -/
def Cfg.Lx (W : Cfg) : ℚ := ((W.npx * W.nxpp : Nat) : ℚ) * W.dx

/-- one patch: global index, position in the grid, `x0`, `xaxis`, and the same of its fields (patch.py 243-262, fields.py 95-111) -/
structure WPatch where
  index : Nat
  ix : Nat
  iy : Nat
  iz : Nat
  x0 : ℚ
  xaxis : Nat → ℚ
  fx0 : ℚ
  fxaxis : Nat → ℚ
  field : Nat → ℚ
  pmlx : Bool

/-- the attributes of one callback object on one rank, with the patches of the rank (utils.py 513-515) -/
structure WinSt where
  start : Option ℚ
  total : Option ℚ
  this : Option ℚ
  num : Nat
  patches : List WPatch

/-- the part of the loop that moves a patch to the other end: shift of all coordinates (utils.py 609-616, 637-644), then all
field arrays are filled with zero (utils.py 580-582) -/
def WPatch.recycle (p : WPatch) (ix : Nat) (d : ℚ) : WPatch :=
  { p with
    ix := ix
    x0 := p.x0 + d
    xaxis := fun j => p.xaxis j + d
    fx0 := p.fx0 + d
    fxaxis := fun j => p.fxaxis j + d
    field := fun _ => 0 }

/-- `_shift_right` for one patch (utils.py 607-620) -/
def shiftRight (W : Cfg) (p : WPatch) : WPatch :=
  if p.ix = 0 then p.recycle (W.npx - 1) W.Lx else { p with ix := p.ix - 1 }

/-- `_shift_left` for one patch (utils.py 635-648) -/
def shiftLeft (W : Cfg) (p : WPatch) : WPatch :=
  if p.ix = W.npx - 1 then p.recycle 0 (-W.Lx) else { p with ix := p.ix + 1 }

/-- `__call__` with the time of the simulation and the velocity at that time (utils.py 529-577) -/
def call (W : Cfg) (time v : ℚ) (s : WinSt) : WinSt :=
  let start := s.start.getD (W.Lx / W.c)
  let total := s.total.getD W.Lp
  let this := s.this.getD W.Lp
  if time < start then ⟨some start, some total, some this, s.num, s.patches⟩
  else
    let ps := if s.num = 0 then s.patches.map fun p => { p with pmlx := false } else s.patches
    let d := v * W.dt
    if W.Lp ≤ this + d then ⟨some start, some (total + d), some (this + d - W.Lp), s.num + 1, ps.map (shiftRight W)⟩
    else if this + d ≤ -W.Lp then ⟨some start, some (total + d), some (this + d + W.Lp), s.num + 1, ps.map (shiftLeft W)⟩
    else ⟨some start, some (total + d), some (this + d), s.num + 1, ps⟩

/-- a sequence of calls, each with the time and the velocity -/
def calls (W : Cfg) (l : List (ℚ × ℚ)) (s : WinSt) : WinSt := l.foldl (fun s a => call W a.1 a.2 s) s

/-- `__init__` (utils.py 500-515) on a rank with the given patches -/
def fresh (start : Option ℚ) (ps : List WPatch) : WinSt := ⟨start, none, none, 0, ps⟩

/-- a patch as `create_patches` and `_init_fields` build it (simulation.py 478-496, 433-447; patch.py 258; fields.py 103-106) -/
def initial (W : Cfg) (ng : Nat) (field : Nat → ℚ) (index ix iy iz : Nat) (pmlx : Bool) : WPatch where
  index := index
  ix := ix
  iy := iy
  iz := iz
  x0 := (ix : ℚ) * W.Lx / W.npx
  xaxis := fun j => (j : ℚ) * W.dx + (ix : ℚ) * W.Lx / W.npx
  fx0 := (ix : ℚ) * W.Lx / W.npx
  fxaxis := fun j => (if j < W.nxpp + ng then (j : ℚ) else (j : ℚ) - (W.nxpp + 2 * ng : Nat)) * W.dx + (ix : ℚ) * W.Lx / W.npx
  field := field
  pmlx := pmlx

/-- one species of one recycled patch in `_fill_particles` (utils.py 730-840), with the `fill` of the dimension; `ax0` are
the axes of the first recycled patch of the rank -/
def refill {k : Nat} (fill : Fill.Profile k → (Nat → Nat → Fin k → ℚ) → (Fin k → List ℚ) → (Fin k → List ℚ) → Option (List (Option (Fill.Slot k))))
    (inject : Bool) (stop : Option ℚ) (time : ℚ) (dens : Option (Fill.Profile k)) (u : Nat → Nat → Fin k → ℚ)
    (ax0 ax : Fin k → List ℚ) (old : List (Option (Fill.Slot k))) : Option (List (Option (Fill.Slot k))) :=
  if inject = false then some old
  else if (match stop with | some t => decide (t ≤ time) | none => false) then some old
  else match dens with
    | none => some old
    | some p => fill p u ax0 ax

end Verif.MovingWindow
