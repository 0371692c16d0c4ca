/-!
# Boundary enums, opposite tables and neighbour offsets

* enums: `src/lambdapic/core/patch/patch.py` `Boundary2D`/`Boundary3D` (lines 22-69) and the C enums
  (`sync_particles_2d.c` 13-23, `sync_particles_3d.c` 13-44) — same order;
* `opp`: `OPPOSITE_BOUNDARY` (`sync_particles_2d.c` 25-34, `sync_particles_3d.c` 46-76);
* `offset`: the `neighbor_offsets` tables (`patch.py` 456-463 and 516-535).
-/
namespace Verif

/-- `Boundary2D` (patch.py 22-69; sync_particles_2d.c enum) -/
inductive B2 where
  | xmin | xmax | ymin | ymax | xminymin | xmaxymin | xminymax | xmaxymax
  deriving DecidableEq, Repr

/-- enum values in numeric order -/
def B2.all : List B2 :=
  [.xmin, .xmax, .ymin, .ymax, .xminymin, .xmaxymin, .xminymax, .xmaxymax]

/-- `OPPOSITE_BOUNDARY` (sync_particles_2d.c) -/
def B2.opp : B2 → B2
  | .xmin => .xmax
  | .xmax => .xmin
  | .ymin => .ymax
  | .ymax => .ymin
  | .xminymin => .xmaxymax
  | .xmaxymin => .xminymax
  | .xminymax => .xmaxymin
  | .xmaxymax => .xminymin

/-- `neighbor_offsets` (patch.py 456-463) -/
def B2.offset : B2 → Int × Int
  | .xmin => (-1, 0)
  | .xmax => (1, 0)
  | .ymin => (0, -1)
  | .ymax => (0, 1)
  | .xminymin => (-1, -1)
  | .xmaxymin => (1, -1)
  | .xminymax => (-1, 1)
  | .xmaxymax => (1, 1)

/-- `Boundary3D` (patch.py 22-69; sync_particles_3d.c enum) -/
inductive B3 where
  | xmin | xmax | ymin | ymax | zmin | zmax | xminymin | xminymax | xminzmin | xminzmax | xmaxymin | xmaxymax | xmaxzmin | xmaxzmax | yminzmin | yminzmax | ymaxzmin | ymaxzmax | xminyminzmin | xminyminzmax | xminymaxzmin | xminymaxzmax | xmaxyminzmin | xmaxyminzmax | xmaxymaxzmin | xmaxymaxzmax
  deriving DecidableEq, Repr

/-- enum values in numeric order -/
def B3.all : List B3 :=
  [.xmin, .xmax, .ymin, .ymax, .zmin, .zmax, .xminymin, .xminymax, .xminzmin, .xminzmax, .xmaxymin, .xmaxymax, .xmaxzmin, .xmaxzmax, .yminzmin, .yminzmax, .ymaxzmin, .ymaxzmax, .xminyminzmin, .xminyminzmax, .xminymaxzmin, .xminymaxzmax, .xmaxyminzmin, .xmaxyminzmax, .xmaxymaxzmin, .xmaxymaxzmax]

/-- `OPPOSITE_BOUNDARY` (sync_particles_3d.c) -/
def B3.opp : B3 → B3
  | .xmin => .xmax
  | .xmax => .xmin
  | .ymin => .ymax
  | .ymax => .ymin
  | .zmin => .zmax
  | .zmax => .zmin
  | .xminymin => .xmaxymax
  | .xminymax => .xmaxymin
  | .xminzmin => .xmaxzmax
  | .xminzmax => .xmaxzmin
  | .xmaxymin => .xminymax
  | .xmaxymax => .xminymin
  | .xmaxzmin => .xminzmax
  | .xmaxzmax => .xminzmin
  | .yminzmin => .ymaxzmax
  | .yminzmax => .ymaxzmin
  | .ymaxzmin => .yminzmax
  | .ymaxzmax => .yminzmin
  | .xminyminzmin => .xmaxymaxzmax
  | .xminyminzmax => .xmaxymaxzmin
  | .xminymaxzmin => .xmaxyminzmax
  | .xminymaxzmax => .xmaxyminzmin
  | .xmaxyminzmin => .xminymaxzmax
  | .xmaxyminzmax => .xminymaxzmin
  | .xmaxymaxzmin => .xminyminzmax
  | .xmaxymaxzmax => .xminyminzmin

/-- `neighbor_offsets` (patch.py 516-535) -/
def B3.offset : B3 → Int × Int × Int
  | .xmin => (-1, 0, 0)
  | .xmax => (1, 0, 0)
  | .ymin => (0, -1, 0)
  | .ymax => (0, 1, 0)
  | .zmin => (0, 0, -1)
  | .zmax => (0, 0, 1)
  | .xminymin => (-1, -1, 0)
  | .xminymax => (-1, 1, 0)
  | .xminzmin => (-1, 0, -1)
  | .xminzmax => (-1, 0, 1)
  | .xmaxymin => (1, -1, 0)
  | .xmaxymax => (1, 1, 0)
  | .xmaxzmin => (1, 0, -1)
  | .xmaxzmax => (1, 0, 1)
  | .yminzmin => (0, -1, -1)
  | .yminzmax => (0, -1, 1)
  | .ymaxzmin => (0, 1, -1)
  | .ymaxzmax => (0, 1, 1)
  | .xminyminzmin => (-1, -1, -1)
  | .xminyminzmax => (-1, -1, 1)
  | .xminymaxzmin => (-1, 1, -1)
  | .xminymaxzmax => (-1, 1, 1)
  | .xmaxyminzmin => (1, -1, -1)
  | .xmaxyminzmax => (1, -1, 1)
  | .xmaxymaxzmin => (1, 1, -1)
  | .xmaxymaxzmax => (1, 1, 1)

end Verif
