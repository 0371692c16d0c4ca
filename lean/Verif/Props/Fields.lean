import Verif.Proofs.SyncGlobal
/-!
# C13, C14 — guard-cell exchange

Specification vocabulary (`Verif/Proofs/SyncFields.lean`, `SyncGlobal.lean`):
* a cell of a patch is given by its signed coordinates; `Own n v`: all of them in `0 … n-1`;
  `InRange n ng v`: own or guard cell; `index` is the array position of a cell;
* `Same n u w t v`: cell `w` of local patch `u` and cell `v` of local patch `t` are the same cell of the
  global grid (`patch coordinate * n + cell`, modulo the number of global cells on a periodic axis);
* `allCells n ng`: all cells of one patch array.

Every statement quantifies over the thread schedule: `GuardRun`/`CurrentRun m m'` says that *some*
interleaving of the patches' statements leads from `m` to `m'`.
-/
namespace Verif.SyncFields
open Neighbors

/-- value of cell `v` of local patch `t` -/
def at' {k : Nat} (n : Fin k → Nat) (ng : Nat) (m : Loc k → ℚ) (t : Nat) (v : Fin k → Int) : ℚ :=
  m (t, index n ng v)

/-- **C13 (2D).** For every patch grid, every list of distinct local patches of that grid, every patch
size not below the guard width, all field contents and every thread schedule, after
`sync_guard_fields`: own cells are unchanged; a cell that represents the same global cell as an own cell
of some local patch holds the value of that own cell; all other guard cells are unchanged. -/
theorem guard_exchange2 {npx npy nx ny ng : Nat} (hngx : ng ≤ nx) (hngy : ng ≤ ny) {bx by' : AxisBC}
    (hx : bx.Paired) (hy : by'.Paired) {loc : List P2} (hsub : ∀ p ∈ loc, p ∈ createPatches2 npx npy)
    (hnd : loc.Nodup) {m m' : Loc 2 → ℚ}
    (hrun : (syncGuard2 nx ny ng loc.length
      (neighborIpatch2 npx npy bx by' (createPatches2 npx npy) loc)).GuardRun m m') :
    let n := ![nx, ny]
    let g := place2 npx npy bx by' loc
    (∀ t v, t < loc.length → Own n v → at' n ng m' t v = at' n ng m t v) ∧
    (∀ t w u v, t < loc.length → u < loc.length → InRange n ng w → Own n v → g.Same n t w u v →
      at' n ng m' t w = at' n ng m u v) ∧
    (∀ t w, t < loc.length → InRange n ng w →
      (¬ ∃ u v, u < loc.length ∧ Own n v ∧ g.Same n t w u v) → at' n ng m' t w = at' n ng m t w) :=
  guard_global (guard2_shape hngx hngy)
    (nbrGeo2 hx hy (grid_createPatches2 npx npy) hsub hnd rfl rfl) (guardTab2_eq nx ny ng) hrun

/-- **C13 (3D).** -/
theorem guard_exchange3 {npx npy npz nx ny nz ng : Nat} (hngx : ng ≤ nx) (hngy : ng ≤ ny) (hngz : ng ≤ nz)
    {bx by' bz : AxisBC} (hx : bx.Paired) (hy : by'.Paired) (hz : bz.Paired) {loc : List P3}
    (hsub : ∀ p ∈ loc, p ∈ createPatches3 npx npy npz) (hnd : loc.Nodup) {m m' : Loc 3 → ℚ}
    (hrun : (syncGuard3 nx ny nz ng loc.length
      (neighborIpatch3 npx npy npz bx by' bz (createPatches3 npx npy npz) loc)).GuardRun m m') :
    let n := ![nx, ny, nz]
    let g := place3 npx npy npz bx by' bz loc
    (∀ t v, t < loc.length → Own n v → at' n ng m' t v = at' n ng m t v) ∧
    (∀ t w u v, t < loc.length → u < loc.length → InRange n ng w → Own n v → g.Same n t w u v →
      at' n ng m' t w = at' n ng m u v) ∧
    (∀ t w, t < loc.length → InRange n ng w →
      (¬ ∃ u v, u < loc.length ∧ Own n v ∧ g.Same n t w u v) → at' n ng m' t w = at' n ng m t w) :=
  guard_global (guard3_shape hngx hngy hngz)
    (nbrGeo3 hx hy hz (grid_createPatches3 npx npy npz) hsub hnd rfl rfl) (guardTab3_eq nx ny nz ng) hrun

/-- **C14 (2D).** After `sync_currents`, for every schedule: each own cell holds the sum of everything
any local patch had deposited on that global cell (its own value plus every guard copy, each once);
guard cells folded into a local patch are zero, the others unchanged; the total over all cells is
conserved; and a second call changes nothing. -/
theorem current_exchange2 {npx npy nx ny ng : Nat} (hngx : ng ≤ nx) (hngy : ng ≤ ny) {bx by' : AxisBC}
    (hx : bx.Paired) (hy : by'.Paired) {loc : List P2} (hsub : ∀ p ∈ loc, p ∈ createPatches2 npx npy)
    (hnd : loc.Nodup) {m m' : Loc 2 → ℚ}
    (hrun : (syncCurrents2 nx ny ng loc.length
      (neighborIpatch2 npx npy bx by' (createPatches2 npx npy) loc)).CurrentRun m m') :
    let n := ![nx, ny]
    let g := place2 npx npy bx by' loc
    (∀ t v, t < loc.length → Own n v → at' n ng m' t v =
      ∑ u ∈ Finset.range loc.length, ∑ w ∈ allCells n ng,
        if g.Same n u w t v then at' n ng m u w else 0) ∧
    (∀ u w, u < loc.length → InRange n ng w → ¬ Own n w →
      (∃ t v, t < loc.length ∧ Own n v ∧ g.Same n u w t v) → at' n ng m' u w = 0) ∧
    (∀ u w, u < loc.length → InRange n ng w → ¬ Own n w →
      (¬ ∃ t v, t < loc.length ∧ Own n v ∧ g.Same n u w t v) → at' n ng m' u w = at' n ng m u w) ∧
    (∑ t ∈ Finset.range loc.length, ∑ w ∈ allCells n ng, at' n ng m' t w =
      ∑ t ∈ Finset.range loc.length, ∑ w ∈ allCells n ng, at' n ng m t w) ∧
    (∀ m'', (syncCurrents2 nx ny ng loc.length
      (neighborIpatch2 npx npy bx by' (createPatches2 npx npy) loc)).CurrentRun m' m'' →
      ∀ t w, t < loc.length → InRange n ng w → at' n ng m'' t w = at' n ng m' t w) := by
  have hs := current2_shape (N := loc.length)
    (nbr := neighborIpatch2 npx npy bx by' (createPatches2 npx npy) loc) hngx hngy
  have hg := nbrGeo2 (s := syncCurrents2 nx ny ng loc.length
    (neighborIpatch2 npx npy bx by' (createPatches2 npx npy) loc)) hx hy (grid_createPatches2 npx npy)
    hsub hnd rfl rfl
  obtain ⟨a, b, c⟩ := current_global hs hg (currentTab2_eq nx ny ng) hrun
  exact ⟨a, b, c, current_total_global hs hg (currentTab2_eq nx ny ng) hrun,
    fun m'' h t w ht hw => current_twice hs hg (currentTab2_eq nx ny ng) hrun h t w ht hw⟩

/-- **C14 (3D).** -/
theorem current_exchange3 {npx npy npz nx ny nz ng : Nat} (hngx : ng ≤ nx) (hngy : ng ≤ ny)
    (hngz : ng ≤ nz) {bx by' bz : AxisBC} (hx : bx.Paired) (hy : by'.Paired) (hz : bz.Paired)
    {loc : List P3} (hsub : ∀ p ∈ loc, p ∈ createPatches3 npx npy npz) (hnd : loc.Nodup)
    {m m' : Loc 3 → ℚ}
    (hrun : (syncCurrents3 nx ny nz ng loc.length
      (neighborIpatch3 npx npy npz bx by' bz (createPatches3 npx npy npz) loc)).CurrentRun m m') :
    let n := ![nx, ny, nz]
    let g := place3 npx npy npz bx by' bz loc
    (∀ t v, t < loc.length → Own n v → at' n ng m' t v =
      ∑ u ∈ Finset.range loc.length, ∑ w ∈ allCells n ng,
        if g.Same n u w t v then at' n ng m u w else 0) ∧
    (∀ u w, u < loc.length → InRange n ng w → ¬ Own n w →
      (∃ t v, t < loc.length ∧ Own n v ∧ g.Same n u w t v) → at' n ng m' u w = 0) ∧
    (∀ u w, u < loc.length → InRange n ng w → ¬ Own n w →
      (¬ ∃ t v, t < loc.length ∧ Own n v ∧ g.Same n u w t v) → at' n ng m' u w = at' n ng m u w) ∧
    (∑ t ∈ Finset.range loc.length, ∑ w ∈ allCells n ng, at' n ng m' t w =
      ∑ t ∈ Finset.range loc.length, ∑ w ∈ allCells n ng, at' n ng m t w) ∧
    (∀ m'', (syncCurrents3 nx ny nz ng loc.length
      (neighborIpatch3 npx npy npz bx by' bz (createPatches3 npx npy npz) loc)).CurrentRun m' m'' →
      ∀ t w, t < loc.length → InRange n ng w → at' n ng m'' t w = at' n ng m' t w) := by
  have hs := current3_shape (N := loc.length)
    (nbr := neighborIpatch3 npx npy npz bx by' bz (createPatches3 npx npy npz) loc) hngx hngy hngz
  have hg := nbrGeo3 (s := syncCurrents3 nx ny nz ng loc.length
    (neighborIpatch3 npx npy npz bx by' bz (createPatches3 npx npy npz) loc)) hx hy hz
    (grid_createPatches3 npx npy npz) hsub hnd rfl rfl
  obtain ⟨a, b, c⟩ := current_global hs hg (currentTab3_eq nx ny nz ng) hrun
  exact ⟨a, b, c, current_total_global hs hg (currentTab3_eq nx ny nz ng) hrun,
    fun m'' h t w ht hw => current_twice hs hg (currentTab3_eq nx ny nz ng) hrun h t w ht hw⟩

/-- every cell of a patch array lies inside its allocation, and distinct cells have distinct flat
offsets, so the per-axis addressing used above is the C array -/
theorem cells_in_array2 {nx ny ng : Nat} {v w : Fin 2 → Int} (hv : InRange ![nx, ny] ng v)
    (hw : InRange ![nx, ny] ng w) :
    (0 ≤ flat2 (ny + 2 * ng) (index ![nx, ny] ng v) ∧
      flat2 (ny + 2 * ng) (index ![nx, ny] ng v) < ((nx + 2 * ng) * (ny + 2 * ng) : Nat)) ∧
    (flat2 (ny + 2 * ng) (index ![nx, ny] ng v) = flat2 (ny + 2 * ng) (index ![nx, ny] ng w) → v = w) := by
  have b := fun a => index_bounds hv a
  have c := fun a => index_bounds hw a
  refine ⟨?_, fun h => ?_⟩
  · have b0 : 0 ≤ index ![nx, ny] ng v 0 ∧ index ![nx, ny] ng v 0 < nx + 2 * ng := b 0
    have b1 : 0 ≤ index ![nx, ny] ng v 1 ∧ index ![nx, ny] ng v 1 < ny + 2 * ng := b 1
    unfold flat2
    generalize index ![nx, ny] ng v 0 = i at *
    generalize index ![nx, ny] ng v 1 = j at *
    push_cast
    constructor
    · have : 0 ≤ i * ((ny : Int) + 2 * ng) := Int.mul_nonneg b0.1 (by omega)
      omega
    · nlinarith
  · refine index_inj hv hw (flat2_inj (NX := nx + 2 * ng) (NY := ny + 2 * ng) ?_ ?_ h)
    · intro a
      match a with
      | 0 => have := b 0; push_cast at this ⊢; exact this
      | 1 => have := b 1; push_cast at this ⊢; exact this
    · intro a
      match a with
      | 0 => have := c 0; push_cast at this ⊢; exact this
      | 1 => have := c 1; push_cast at this ⊢; exact this

/-- the hypotheses are met: 2×2 patches of 4×4 cells, guard width 3, periodic in x; the executions
exist (here the sequential one), and the guard cell (-1, 4) of patch 0 is own cell (3, 0) of patch 3 -/
example : (∃ m', (syncGuard2 4 4 3 4 (neighborIpatch2 2 2 ⟨.periodic, .periodic⟩ ⟨.pml, .pml⟩
      (createPatches2 2 2) (createPatches2 2 2))).GuardRun (fun _ => 1) m') ∧
    (∃ m', (syncCurrents2 4 4 3 4 (neighborIpatch2 2 2 ⟨.periodic, .periodic⟩ ⟨.pml, .pml⟩
      (createPatches2 2 2) (createPatches2 2 2))).CurrentRun (fun _ => 1) m') ∧
    (place2 2 2 ⟨.periodic, .periodic⟩ ⟨.pml, .pml⟩ (createPatches2 2 2)).Same ![4, 4] 0 ![-1, 4] 3 ![3, 0] ∧
    neighborIpatch2 2 2 ⟨.periodic, .periodic⟩ ⟨.pml, .pml⟩ (createPatches2 2 2) (createPatches2 2 2) 0
      .xminymax = some 3 ∧ (createPatches2 2 2).Nodup :=
  ⟨⟨_, _, Interleave.isSchedule_seq _ _, rfl⟩, ⟨_, _, Interleave.isSchedule_seq _ _, rfl⟩,
    by decide, by decide, by decide⟩

end Verif.SyncFields
