import Verif.Proofs.Neighbors
/-!
# C12 — neighbour tables

Specification vocabulary (`Verif/Proofs/Neighbors.lean`): `Adj n bc c o m` says that patch coordinate
`m` is reached from `c` by the step `o` on an axis of `n` patches, a periodic axis being a ring;
`AxisBC.Paired` says both ends of the axis have the same boundary condition.
-/
namespace Verif.Neighbors

/-- the integer offset a boundary name stands for (spec: `XMIN` is one step towards lower x, ...) -/
def stepOf2 (b : B2) : Int × Int :=
  ((if b ∈ [.xmin, .xminymin, .xminymax] then -1
    else if b ∈ [.xmax, .xmaxymin, .xmaxymax] then 1 else 0),
   (if b ∈ [.ymin, .xminymin, .xmaxymin] then -1
    else if b ∈ [.ymax, .xminymax, .xmaxymax] then 1 else 0))

theorem offset_eq_step2 (b : B2) : b.offset = stepOf2 b := by cases b <;> decide

/-- **C12 (2D).** For every patch count and every boundary-condition setting that pairs the two ends
of each axis: the neighbour index computed for patch `p` across boundary `b` is defined (no
`KeyError`), is the index of the geometrically adjacent patch when there is one, and `-1` exactly
when there is none; and if `q` is the neighbour of `p` across `b`, then `p` is the neighbour of `q`
across the opposite boundary. -/
theorem neighbours2 (npx npy : Nat) (bx by' : AxisBC) (hx : bx.Paired) (hy : by'.Paired)
    (p : P2) (hp : p ∈ createPatches2 npx npy) (b : B2) :
    (∀ q ∈ createPatches2 npx npy,
      (neighborIndex2 npx npy bx by' (createPatches2 npx npy) p b = some (q.index : Int) ↔
        Adj npx bx p.ix (stepOf2 b).1 q.ix ∧ Adj npy by' p.iy (stepOf2 b).2 q.iy)) ∧
    (neighborIndex2 npx npy bx by' (createPatches2 npx npy) p b = some (-1) ↔
      ¬ ∃ q ∈ createPatches2 npx npy,
        Adj npx bx p.ix (stepOf2 b).1 q.ix ∧ Adj npy by' p.iy (stepOf2 b).2 q.iy) ∧
    (∀ q ∈ createPatches2 npx npy,
      neighborIndex2 npx npy bx by' (createPatches2 npx npy) p b = some (q.index : Int) →
      neighborIndex2 npx npy bx by' (createPatches2 npx npy) q b.opp = some (p.index : Int)) := by
  have hg := grid_createPatches2 npx npy
  have key : ∀ q ∈ createPatches2 npx npy,
      (neighborIndex2 npx npy bx by' (createPatches2 npx npy) p b = some (q.index : Int) ↔
        Adj npx bx p.ix (stepOf2 b).1 q.ix ∧ Adj npy by' p.iy (stepOf2 b).2 q.iy) := by
    intro q hq
    rw [neighborIndex2_some hx hy hg hp, ← offset_eq_step2]
    constructor
    · rintro ⟨r, hr, e, h⟩
      rw [hg.indexInj r hr q hq e] at h; exact h
    · intro h; exact ⟨q, hq, rfl, h⟩
  refine ⟨key, ?_, ?_⟩
  · constructor
    · rintro h ⟨q, hq, hadj⟩
      have := (key q hq).mpr hadj
      rw [h] at this
      simp at this
    · intro h
      rcases neighborIndex2_total (bx := bx) (by' := by') hg (full_createPatches2 npx npy) hp b with h' | ⟨q, hq, h'⟩
      · exact h'
      · exact absurd ⟨q, hq, (key q hq).mp h'⟩ h
  · intro q hq h
    have hb := hg.bound p hp
    obtain ⟨h1, h2⟩ := (key q hq).mp h
    rw [neighborIndex2_some hx hy hg hq, B2.offset_opp, offset_eq_step2]
    exact ⟨p, hp, rfl, h1.symm hb.1, h2.symm hb.2⟩

/-- The hypotheses are met and the neighbour is the expected one: 3×2 patches, periodic in x, PML in
y; patch 0 has patch 2 to its left and none below. -/
example : neighborIndex2 3 2 ⟨.periodic, .periodic⟩ ⟨.pml, .pml⟩ (createPatches2 3 2) ⟨0, 0, 0⟩ .xmin
      = some 2 ∧
    neighborIndex2 3 2 ⟨.periodic, .periodic⟩ ⟨.pml, .pml⟩ (createPatches2 3 2) ⟨0, 0, 0⟩ .ymin
      = some (-1) ∧ (⟨0, 0, 0⟩ : P2) ∈ createPatches2 3 2 := by decide

/-- **C12 fails for mixed boundary conditions**, which the config validator (simulation.py 73-76)
accepts: with `xmin: periodic, xmax: pml` patch 0 has neighbour 1 across XMIN, but patch 1 has no
neighbour across XMAX. -/
theorem mixed_bc_not_symmetric_fails :
    ∃ (bx by' : AxisBC) (p q : P2) (b : B2), p ∈ createPatches2 2 1 ∧ q ∈ createPatches2 2 1 ∧
      neighborIndex2 2 1 bx by' (createPatches2 2 1) p b = some (q.index : Int) ∧
      neighborIndex2 2 1 bx by' (createPatches2 2 1) q b.opp ≠ some (p.index : Int) :=
  ⟨⟨.periodic, .pml⟩, ⟨.pml, .pml⟩, ⟨0, 0, 0⟩, ⟨1, 1, 0⟩, .xmin, by decide⟩

/-- the integer offset a 3D boundary name stands for -/
def stepOf3 (b : B3) : Int × Int × Int :=
  ((if b ∈ [.xmin, .xminymin, .xminymax, .xminzmin, .xminzmax, .xminyminzmin, .xminyminzmax,
      .xminymaxzmin, .xminymaxzmax] then -1
    else if b ∈ [.xmax, .xmaxymin, .xmaxymax, .xmaxzmin, .xmaxzmax, .xmaxyminzmin, .xmaxyminzmax,
      .xmaxymaxzmin, .xmaxymaxzmax] then 1 else 0),
   (if b ∈ [.ymin, .xminymin, .xmaxymin, .yminzmin, .yminzmax, .xminyminzmin, .xminyminzmax,
      .xmaxyminzmin, .xmaxyminzmax] then -1
    else if b ∈ [.ymax, .xminymax, .xmaxymax, .ymaxzmin, .ymaxzmax, .xminymaxzmin, .xminymaxzmax,
      .xmaxymaxzmin, .xmaxymaxzmax] then 1 else 0),
   (if b ∈ [.zmin, .xminzmin, .xmaxzmin, .yminzmin, .ymaxzmin, .xminyminzmin, .xminymaxzmin,
      .xmaxyminzmin, .xmaxymaxzmin] then -1
    else if b ∈ [.zmax, .xminzmax, .xmaxzmax, .yminzmax, .ymaxzmax, .xminyminzmax, .xminymaxzmax,
      .xmaxyminzmax, .xmaxymaxzmax] then 1 else 0))

theorem offset_eq_step3 (b : B3) : b.offset = stepOf3 b := by cases b <;> decide

/-- **C12 (3D).** -/
theorem neighbours3 (npx npy npz : Nat) (bx by' bz : AxisBC) (hx : bx.Paired) (hy : by'.Paired)
    (hz : bz.Paired) (p : P3) (hp : p ∈ createPatches3 npx npy npz) (b : B3) :
    (∀ q ∈ createPatches3 npx npy npz,
      (neighborIndex3 npx npy npz bx by' bz (createPatches3 npx npy npz) p b = some (q.index : Int) ↔
        Adj npx bx p.ix (stepOf3 b).1 q.ix ∧ Adj npy by' p.iy (stepOf3 b).2.1 q.iy ∧
          Adj npz bz p.iz (stepOf3 b).2.2 q.iz)) ∧
    (neighborIndex3 npx npy npz bx by' bz (createPatches3 npx npy npz) p b = some (-1) ↔
      ¬ ∃ q ∈ createPatches3 npx npy npz,
        Adj npx bx p.ix (stepOf3 b).1 q.ix ∧ Adj npy by' p.iy (stepOf3 b).2.1 q.iy ∧
          Adj npz bz p.iz (stepOf3 b).2.2 q.iz) ∧
    (∀ q ∈ createPatches3 npx npy npz,
      neighborIndex3 npx npy npz bx by' bz (createPatches3 npx npy npz) p b = some (q.index : Int) →
      neighborIndex3 npx npy npz bx by' bz (createPatches3 npx npy npz) q b.opp
        = some (p.index : Int)) := by
  have hg := grid_createPatches3 npx npy npz
  have key : ∀ q ∈ createPatches3 npx npy npz,
      (neighborIndex3 npx npy npz bx by' bz (createPatches3 npx npy npz) p b = some (q.index : Int) ↔
        Adj npx bx p.ix (stepOf3 b).1 q.ix ∧ Adj npy by' p.iy (stepOf3 b).2.1 q.iy ∧
          Adj npz bz p.iz (stepOf3 b).2.2 q.iz) := by
    intro q hq
    rw [neighborIndex3_some hx hy hz hg hp, ← offset_eq_step3]
    constructor
    · rintro ⟨r, hr, e, h⟩
      rw [hg.indexInj r hr q hq e] at h; exact h
    · intro h; exact ⟨q, hq, rfl, h⟩
  refine ⟨key, ?_, ?_⟩
  · constructor
    · rintro h ⟨q, hq, hadj⟩
      have := (key q hq).mpr hadj
      rw [h] at this
      simp at this
    · intro h
      rcases neighborIndex3_total (bx := bx) (by' := by') (bz := bz) hg
        (full_createPatches3 npx npy npz) hp b with h' | ⟨q, hq, h'⟩
      · exact h'
      · exact absurd ⟨q, hq, (key q hq).mp h'⟩ h
  · intro q hq h
    have hb := hg.bound p hp
    obtain ⟨h1, h2, h3⟩ := (key q hq).mp h
    rw [neighborIndex3_some hx hy hz hg hq, B3.offset_opp, offset_eq_step3]
    exact ⟨p, hp, rfl, h1.symm hb.1, h2.symm hb.2.1, h3.symm hb.2.2⟩

/-- 2×2×2 patches, periodic in x and z: the corner neighbour of patch 0 across XMINYMAXZMIN is 7 -/
example : neighborIndex3 2 2 2 ⟨.periodic, .periodic⟩ ⟨.pml, .pml⟩ ⟨.periodic, .periodic⟩
      (createPatches3 2 2 2) ⟨0, 0, 0, 0⟩ .xminymaxzmin = some 7 ∧
    (⟨0, 0, 0, 0⟩ : P3) ∈ createPatches3 2 2 2 := by decide

/-- **C12 per rank.**  The table of local neighbours (`neighbor_ipatch`) of any subset of the patches
living on one rank is opposite-symmetric and names geometrically adjacent patches.  `ps` is any
list of patches on distinct grid points with distinct indices (`Grid2`): the initial list, or the
list after any number of moving-window shifts. -/
theorem local_neighbours2 (npx npy : Nat) (bx by' : AxisBC) (hx : bx.Paired) (hy : by'.Paired)
    (ps loc : List P2) (hg : Grid2 npx npy ps) (hsub : ∀ p ∈ loc, p ∈ ps) (hnd : loc.Nodup)
    (i t : Nat) (b : B2) :
    (neighborIpatch2 npx npy bx by' ps loc i b = some t ↔
      ∃ p q, loc[i]? = some p ∧ loc[t]? = some q ∧
        Adj npx bx p.ix (stepOf2 b).1 q.ix ∧ Adj npy by' p.iy (stepOf2 b).2 q.iy) ∧
    (neighborIpatch2 npx npy bx by' ps loc i b = some t →
      neighborIpatch2 npx npy bx by' ps loc t b.opp = some i) := by
  rw [← offset_eq_step2]
  exact ⟨neighborIpatch2_some hx hy hg hsub hnd i t b, neighborIpatch2_sym hx hy hg hsub hnd⟩

/-- the hypotheses are met by the initial list and any selection of its patches -/
example : Grid2 4 3 (createPatches2 4 3) ∧
    (∀ p ∈ (createPatches2 4 3).take 5, p ∈ createPatches2 4 3) ∧ ((createPatches2 4 3).take 5).Nodup :=
  ⟨grid_createPatches2 4 3, fun _ h => List.mem_of_mem_take h,
    (nodup_createPatches2 4 3).sublist (List.take_sublist _ _)⟩

/-- **C12 per rank (3D).**  The table of local neighbours (`neighbor_ipatch`) of any subset of the patches
living on one rank is opposite-symmetric and names geometrically adjacent patches.  `ps` is any
list of patches on distinct grid points with distinct indices (`Grid3`): the initial list, or the
list after any number of moving-window shifts. -/
theorem local_neighbours3 (npx npy npz : Nat) (bx by' bz : AxisBC) (hx : bx.Paired) (hy : by'.Paired) (hz : bz.Paired)
    (ps loc : List P3) (hg : Grid3 npx npy npz ps) (hsub : ∀ p ∈ loc, p ∈ ps) (hnd : loc.Nodup)
    (i t : Nat) (b : B3) :
    (neighborIpatch3 npx npy npz bx by' bz ps loc i b = some t ↔
      ∃ p q, loc[i]? = some p ∧ loc[t]? = some q ∧
        Adj npx bx p.ix (stepOf3 b).1 q.ix ∧ Adj npy by' p.iy (stepOf3 b).2.1 q.iy ∧
        Adj npz bz p.iz (stepOf3 b).2.2 q.iz) ∧
    (neighborIpatch3 npx npy npz bx by' bz ps loc i b = some t →
      neighborIpatch3 npx npy npz bx by' bz ps loc t b.opp = some i) := by
  rw [← offset_eq_step3]
  exact ⟨neighborIpatch3_some hx hy hz hg hsub hnd i t b, neighborIpatch3_sym hx hy hz hg hsub hnd⟩

/-- the hypotheses are met by the initial list and any selection of its patches -/
example : Grid3 4 3 2 (createPatches3 4 3 2) ∧
    (∀ p ∈ (createPatches3 4 3 2).take 5, p ∈ createPatches3 4 3 2) ∧ ((createPatches3 4 3 2).take 5).Nodup :=
  ⟨grid_createPatches3 4 3 2, fun _ h => List.mem_of_mem_take h,
    (nodup_createPatches3 4 3 2).sublist (List.take_sublist _ _)⟩

/-- **C12, neighbour ranks (2D).** With a rank map that covers all patches, the stored neighbour rank
is the rank of the neighbour patch when that differs from the own rank, otherwise `-1`. -/
theorem neighbour_rank2 (rankOf : Nat → Option Nat) (myRank : Nat) (idx : Nat) (r : Nat)
    (h : rankOf idx = some r) :
    neighborRank2 rankOf myRank idx = some (if r = myRank then -1 else (r : Int)) ∧
    neighborRank2 rankOf myRank (-1) = some (-1) := by
  constructor
  · unfold neighborRank2
    simp [h]
    split <;> simp_all
  · rfl

/-- **3D neighbour ranks ignore the rank map** (patch.py 634): called on the local patches of a rank,
as `MovingWindow` does (callback/utils.py 716), the answer can differ from the map's: local patches
2, 3 of rank 1; the neighbour with index 0 lives on rank 0 but the code reports "same rank". -/
theorem neighbour_rank3_ignores_map_fails :
    ∃ (locRanks : List Nat) (rankOf : Nat → Option Nat) (idx r : Nat), rankOf idx = some r ∧ r ≠ 1 ∧
      neighborRank3 locRanks rankOf 1 idx = some (-1) :=
  ⟨[1, 1], fun i => if i < 2 then some 0 else some 1, 0, 0, by decide⟩

end Verif.Neighbors
