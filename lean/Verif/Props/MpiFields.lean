import Verif.Proofs.MpiFields
import Verif.Props.Fields
/-!
# C30, C59 — field exchange between processes

Vocabulary as in `Verif/Props/Fields.lean`; `rk p` is the rank of patch `p`, any function. Patches are
numbered as `createPatches` lists them. `GuardExchange`/`CurrentExchange m m'`: some order of the
statements of all threads on all ranks, allowed by the messages, leads from `m` to `m'`.
-/
namespace Verif.SyncFields
open Neighbors

/-- the neighbour table of the whole grid -/
def gridNbr2 (npx npy : Nat) (bx by' : AxisBC) : Nat → B2 → Option Nat :=
  neighborIpatch2 npx npy bx by' (createPatches2 npx npy) (createPatches2 npx npy)

/-- the neighbour table of the whole grid -/
def gridNbr3 (npx npy npz : Nat) (bx by' bz : AxisBC) : Nat → B3 → Option Nat :=
  neighborIpatch3 npx npy npz bx by' bz (createPatches3 npx npy npz) (createPatches3 npx npy npz)

theorem mpiCurrents2_shape {nx ny ng N : Nat} {nbr : Nat → B2 → Option Nat} (hx : ng ≤ nx) (hy : ng ≤ ny) :
    MpiShape (mpiCurrents2 nx ny ng N nbr) off2 where
  shape := by
    refine shape2 _ ?_ ?_ rfl ?_
    · intro b; show b ∈ B2.all; cases b <;> decide
    · show B2.all.Nodup; decide
    · intro a
      match a with
      | 0 => exact hx
      | 1 => exact hy
  tab := mpiCurrentTab2_eq nx ny ng
  opp_opp := by intro b; show b.opp.opp = b; cases b <;> rfl

theorem mpiCurrents3_shape {nx ny nz ng N : Nat} {nbr : Nat → B3 → Option Nat} (hx : ng ≤ nx) (hy : ng ≤ ny)
    (hz : ng ≤ nz) : MpiShape (mpiCurrents3 nx ny nz ng N nbr) off3 where
  shape := by
    refine shape3 _ ?_ ?_ rfl ?_
    · intro b; show b ∈ B3.all; cases b <;> decide
    · show B3.all.Nodup; decide
    · intro a
      match a with
      | 0 => exact hx
      | 1 => exact hy
      | 2 => exact hz
  tab := mpiCurrentTab3_eq nx ny nz ng
  opp_opp := by intro b; show b.opp.opp = b; cases b <;> rfl

/-- **C59, guard cells (2D).** For every patch grid, every distribution of the patches over ranks, all field
contents and every order of the copies and message deliveries: own cells are unchanged; every guard cell
that represents an own cell of some patch, on whatever rank, holds its value; other guard cells are
unchanged. -/
theorem guard_any_ranks2 {npx npy nx ny ng : Nat} (hngx : ng ≤ nx) (hngy : ng ≤ ny) {bx by' : AxisBC}
    (hx : bx.Paired) (hy : by'.Paired) (rk : Nat → Nat) {m m' : Loc 2 → ℚ}
    (hrun : GuardExchange
      (syncGuard2 nx ny ng (createPatches2 npx npy).length (localNbr rk (gridNbr2 npx npy bx by')))
      (mpiGuard2 nx ny ng (createPatches2 npx npy).length (remoteNbr rk (gridNbr2 npx npy bx by'))) m m') :
    let N := (createPatches2 npx npy).length
    let n := ![nx, ny]
    let g := place2 npx npy bx by' (createPatches2 npx npy)
    (∀ t v, t < N → Own n v → at' n ng m' t v = at' n ng m t v) ∧
    (∀ t w u v, t < N → u < N → InRange n ng w → Own n v → g.Same n t w u v →
      at' n ng m' t w = at' n ng m u v) ∧
    (∀ t w, t < N → InRange n ng w →
      (¬ ∃ u v, u < N ∧ Own n v ∧ g.Same n t w u v) → at' n ng m' t w = at' n ng m t w) := by
  obtain ⟨m'', h⟩ : ∃ m'', (syncGuard2 nx ny ng (createPatches2 npx npy).length
      (gridNbr2 npx npy bx by')).GuardRun m m'' := ⟨_, _, Interleave.isSchedule_seq _ _, rfl⟩
  have e : m' = m'' := guard_ranks (rk := rk)
    (g := syncGuard2 nx ny ng (createPatches2 npx npy).length (gridNbr2 npx npy bx by'))
    (rem := mpiGuard2 nx ny ng (createPatches2 npx npy).length (remoteNbr rk (gridNbr2 npx npy bx by')))
    (guard2_shape hngx hngy) (guardTab2_eq nx ny ng) (mpiGuardTab2_eq nx ny ng)
    (by intro b; show b ∈ B2.all; cases b <;> decide) rfl rfl rfl hrun h
  rw [e]
  exact guard_exchange2 hngx hngy hx hy (fun _ h => h) (nodup_createPatches2 npx npy) h

/-- **C59, guard cells (3D).** -/
theorem guard_any_ranks3 {npx npy npz nx ny nz ng : Nat} (hngx : ng ≤ nx) (hngy : ng ≤ ny) (hngz : ng ≤ nz)
    {bx by' bz : AxisBC} (hx : bx.Paired) (hy : by'.Paired) (hz : bz.Paired) (rk : Nat → Nat)
    {m m' : Loc 3 → ℚ}
    (hrun : GuardExchange
      (syncGuard3 nx ny nz ng (createPatches3 npx npy npz).length
        (localNbr rk (gridNbr3 npx npy npz bx by' bz)))
      (mpiGuard3 nx ny nz ng (createPatches3 npx npy npz).length
        (remoteNbr rk (gridNbr3 npx npy npz bx by' bz))) m m') :
    let N := (createPatches3 npx npy npz).length
    let n := ![nx, ny, nz]
    let g := place3 npx npy npz bx by' bz (createPatches3 npx npy npz)
    (∀ t v, t < N → Own n v → at' n ng m' t v = at' n ng m t v) ∧
    (∀ t w u v, t < N → u < N → InRange n ng w → Own n v → g.Same n t w u v →
      at' n ng m' t w = at' n ng m u v) ∧
    (∀ t w, t < N → InRange n ng w →
      (¬ ∃ u v, u < N ∧ Own n v ∧ g.Same n t w u v) → at' n ng m' t w = at' n ng m t w) := by
  obtain ⟨m'', h⟩ : ∃ m'', (syncGuard3 nx ny nz ng (createPatches3 npx npy npz).length
      (gridNbr3 npx npy npz bx by' bz)).GuardRun m m'' := ⟨_, _, Interleave.isSchedule_seq _ _, rfl⟩
  have e : m' = m'' := guard_ranks (rk := rk)
    (g := syncGuard3 nx ny nz ng (createPatches3 npx npy npz).length (gridNbr3 npx npy npz bx by' bz))
    (rem := mpiGuard3 nx ny nz ng (createPatches3 npx npy npz).length
      (remoteNbr rk (gridNbr3 npx npy npz bx by' bz)))
    (guard3_shape hngx hngy hngz) (guardTab3_eq nx ny nz ng) (mpiGuardTab3_eq nx ny nz ng)
    (by intro b; show b ∈ B3.all; cases b <;> decide) rfl rfl rfl hrun h
  rw [e]
  exact guard_exchange3 hngx hngy hngz hx hy hz (fun _ h => h) (nodup_createPatches3 npx npy npz) h

/-- **C30/C59, currents (2D).** For every patch grid, every distribution of the patches over ranks, all
deposited currents and every order of the statements of all threads and ranks in which each `+=` is
indivisible: each own cell ends with the sum of everything any patch on any rank had deposited on that
global cell, each contribution once; the guard cells that were folded are zero, the others unchanged.

Partial: the compiled `+=` is not indivisible and the threads of one patch add into overlapping cells
without synchronisation, see `mpi_current_reduction_fails`. -/
theorem mpi_current_reduction2_partial {npx npy nx ny ng : Nat} (hngx : ng ≤ nx) (hngy : ng ≤ ny)
    {bx by' : AxisBC} (hx : bx.Paired) (hy : by'.Paired) (rk : Nat → Nat) {m m' : Loc 2 → ℚ}
    (hrun : CurrentExchange
      (syncCurrents2 nx ny ng (createPatches2 npx npy).length (localNbr rk (gridNbr2 npx npy bx by')))
      (mpiCurrents2 nx ny ng (createPatches2 npx npy).length (remoteNbr rk (gridNbr2 npx npy bx by'))) m m') :
    let N := (createPatches2 npx npy).length
    let n := ![nx, ny]
    let g := place2 npx npy bx by' (createPatches2 npx npy)
    (∀ t v, t < N → Own n v → at' n ng m' t v =
      ∑ u ∈ Finset.range N, ∑ w ∈ allCells n ng, if g.Same n u w t v then at' n ng m u w else 0) ∧
    (∀ u w, u < N → InRange n ng w → ¬ Own n w →
      (∃ t v, t < N ∧ Own n v ∧ g.Same n u w t v) → at' n ng m' u w = 0) ∧
    (∀ u w, u < N → InRange n ng w → ¬ Own n w →
      (¬ ∃ t v, t < N ∧ Own n v ∧ g.Same n u w t v) → at' n ng m' u w = at' n ng m u w) := by
  intro N n g
  obtain ⟨m'', h⟩ : ∃ m'', (syncCurrents2 nx ny ng (createPatches2 npx npy).length
      (gridNbr2 npx npy bx by')).CurrentRun m m'' := ⟨_, _, Interleave.isSchedule_seq _ _, rfl⟩
  have hs := current2_shape (N := (createPatches2 npx npy).length) (nbr := gridNbr2 npx npy bx by') hngx hngy
  have hg := nbrGeo2 (s := syncCurrents2 nx ny ng (createPatches2 npx npy).length (gridNbr2 npx npy bx by'))
    hx hy (grid_createPatches2 npx npy) (fun _ h => h) (nodup_createPatches2 npx npy) rfl rfl
  have e : ∀ p v, p < N → InRange n ng v → at' n ng m' p v = at' n ng m'' p v :=
    current_ranks (rem := mpiCurrents2 nx ny ng N (remoteNbr rk (gridNbr2 npx npy bx by'))) hs (hg.ok hs)
      (currentTab2_eq nx ny ng) (mpiCurrents2_shape hngx hngy) rfl rfl rfl rfl hrun h
  obtain ⟨a, b, c, _⟩ := current_exchange2 hngx hngy hx hy (fun _ h => h) (nodup_createPatches2 npx npy) h
  exact ⟨fun t v ht hv => (e t v ht (hv.inRange ng)).trans (a t v ht hv),
    fun u w hu hw hno hex => (e u w hu hw).trans (b u w hu hw hno hex),
    fun u w hu hw hno hex => (e u w hu hw).trans (c u w hu hw hno hex)⟩

/-- **C30/C59, currents (3D).** Same as in 2D, and partial for the same reason. -/
theorem mpi_current_reduction3_partial {npx npy npz nx ny nz ng : Nat} (hngx : ng ≤ nx) (hngy : ng ≤ ny)
    (hngz : ng ≤ nz) {bx by' bz : AxisBC} (hx : bx.Paired) (hy : by'.Paired) (hz : bz.Paired)
    (rk : Nat → Nat) {m m' : Loc 3 → ℚ}
    (hrun : CurrentExchange
      (syncCurrents3 nx ny nz ng (createPatches3 npx npy npz).length
        (localNbr rk (gridNbr3 npx npy npz bx by' bz)))
      (mpiCurrents3 nx ny nz ng (createPatches3 npx npy npz).length
        (remoteNbr rk (gridNbr3 npx npy npz bx by' bz))) m m') :
    let N := (createPatches3 npx npy npz).length
    let n := ![nx, ny, nz]
    let g := place3 npx npy npz bx by' bz (createPatches3 npx npy npz)
    (∀ t v, t < N → Own n v → at' n ng m' t v =
      ∑ u ∈ Finset.range N, ∑ w ∈ allCells n ng, if g.Same n u w t v then at' n ng m u w else 0) ∧
    (∀ u w, u < N → InRange n ng w → ¬ Own n w →
      (∃ t v, t < N ∧ Own n v ∧ g.Same n u w t v) → at' n ng m' u w = 0) ∧
    (∀ u w, u < N → InRange n ng w → ¬ Own n w →
      (¬ ∃ t v, t < N ∧ Own n v ∧ g.Same n u w t v) → at' n ng m' u w = at' n ng m u w) := by
  intro N n g
  obtain ⟨m'', h⟩ : ∃ m'', (syncCurrents3 nx ny nz ng (createPatches3 npx npy npz).length
      (gridNbr3 npx npy npz bx by' bz)).CurrentRun m m'' := ⟨_, _, Interleave.isSchedule_seq _ _, rfl⟩
  have hs := current3_shape (N := (createPatches3 npx npy npz).length)
    (nbr := gridNbr3 npx npy npz bx by' bz) hngx hngy hngz
  have hg := nbrGeo3 (s := syncCurrents3 nx ny nz ng (createPatches3 npx npy npz).length
    (gridNbr3 npx npy npz bx by' bz))
    hx hy hz (grid_createPatches3 npx npy npz) (fun _ h => h) (nodup_createPatches3 npx npy npz) rfl rfl
  have e : ∀ p v, p < N → InRange n ng v → at' n ng m' p v = at' n ng m'' p v :=
    current_ranks (rem := mpiCurrents3 nx ny nz ng N (remoteNbr rk (gridNbr3 npx npy npz bx by' bz))) hs
      (hg.ok hs) (currentTab3_eq nx ny nz ng) (mpiCurrents3_shape hngx hngy hngz) rfl rfl rfl rfl hrun h
  obtain ⟨a, b, c, _⟩ := current_exchange3 hngx hngy hngz hx hy hz (fun _ h => h)
    (nodup_createPatches3 npx npy npz) h
  exact ⟨fun t v ht hv => (e t v ht (hv.inRange ng)).trans (a t v ht hv),
    fun u w hu hw hno hex => (e u w hu hw).trans (b u w hu hw hno hex),
    fun u w hu hw hno hex => (e u w hu hw).trans (c u w hu hw hno hex)⟩

/-- executions exist: all buffers first, then all additions -/
theorem exchange_exists {k : Nat} {D : Type} [DecidableEq D] (loc : Sync k D) (rem : Mpi k D)
    {off : D → Fin k → Int} (hr : MpiShape rem off) (hn : NbrOK rem.asSync rem.opp) (m : Loc k → ℚ) :
    (∃ m', GuardExchange loc rem m m') ∧ ∃ m', CurrentExchange loc rem m m' := by
  refine ⟨⟨_, _, List.Perm.refl _, rfl⟩, _, _, ⟨_, Interleave.isSchedule_seq _ _, rfl⟩, rem.steps,
    fun _ _ _ => 0, ⟨List.Perm.refl _, ?_⟩, rfl⟩
  intro l1 l2 p b u q hsp hq
  have hmemE := @mem_elements k D rem hr.shape.complete hr.shape.mem_cells
  have hadd : (p, b, u) ∈ rem.elements := by
    have : MpiStep.add p b u ∈ rem.steps := by rw [hsp]; simp
    rcases List.mem_append.mp this with h | h
    · obtain ⟨_, _, e⟩ := List.mem_map.mp h
      cases e
    · obtain ⟨⟨_, _, _⟩, h, e⟩ := List.mem_map.mp h
      injection e with a b c
      dsimp only at a b c
      rw [← a, ← b, ← c]; exact h
  obtain ⟨hp, _, hu⟩ := hmemE.mp hadd
  have hw : ∀ a, (rem.tab (rem.opp b) a).w = (rem.tab b a).w := by
    intro a
    have h := hr.shape.off_unit b a
    rw [hr.tab, hr.tab, hr.shape.off_opp]; unfold mpiRng currentRng
    rcases h with h | h | h <;> rw [h] <;> simp
  have hel : (q, rem.opp b, u) ∈ rem.elements :=
    hmemE.mpr ⟨hn.lt p b q hp hq, ⟨p, hn.sym p b q hp hq⟩, fun a => by rw [hw]; exact hu a⟩
  have hf : MpiStep.fill q (rem.opp b) u ∈ rem.elements.map fun e => MpiStep.fill e.1 e.2.1 e.2.2 :=
    List.mem_map.mpr ⟨_, hel, rfl⟩
  -- the additions start after the last buffer
  rcases List.append_eq_append_iff.mp (show rem.elements.map (fun e => MpiStep.fill e.1 e.2.1 e.2.2) ++
      rem.elements.map (fun e => MpiStep.add e.1 e.2.1 e.2.2) = l1 ++ MpiStep.add p b u :: l2 from hsp)
    with ⟨c, h1, _⟩ | ⟨c, h1, h2⟩
  · rw [h1]; exact List.mem_append_left _ hf
  · cases c with
    | nil => rw [h1] at hf; simpa using hf
    | cons y c =>
      have hy : y = MpiStep.add p b u := by
        have := h2; simp at this; exact this.1.symm
      have : MpiStep.add p b u ∈ rem.elements.map fun e => MpiStep.fill e.1 e.2.1 e.2.2 := by
        rw [h1, hy]; simp
      obtain ⟨_, _, e⟩ := List.mem_map.mp this
      cases e

/-- **C59, neighbour tables.** The table of local neighbours a rank computes from its own patch list is
the grid table restricted to that rank. -/
theorem rank_table2 {npx npy : Nat} {bx by' : AxisBC} (hx : bx.Paired) (hy : by'.Paired) (rk : Nat → Nat)
    (r : Nat) {loc : List P2} (hsub : ∀ p ∈ loc, p ∈ createPatches2 npx npy) (hnd : loc.Nodup)
    (hloc : ∀ I p, (createPatches2 npx npy)[I]? = some p → (p ∈ loc ↔ rk I = r)) {i I t T : Nat} {p q : P2}
    (hi : loc[i]? = some p) (hI : (createPatches2 npx npy)[I]? = some p) (ht : loc[t]? = some q)
    (hT : (createPatches2 npx npy)[T]? = some q) (b : B2) :
    neighborIpatch2 npx npy bx by' (createPatches2 npx npy) loc i b = some t ↔
      localNbr rk (gridNbr2 npx npy bx by') I b = some T := by
  have hg := grid_createPatches2 npx npy
  rw [localNbr_some, neighborIpatch2_some hx hy hg hsub hnd]
  unfold gridNbr2
  rw [neighborIpatch2_some hx hy hg (fun _ h => h) (nodup_createPatches2 npx npy)]
  have hpr : rk I = r := (hloc I p hI).mp (List.mem_of_getElem? hi)
  have hqr : rk T = r := (hloc T q hT).mp (List.mem_of_getElem? ht)
  constructor
  · rintro ⟨p', q', h1, h2, h3⟩
    rw [hi] at h1; rw [ht] at h2
    cases h1; cases h2
    exact ⟨⟨p, q, hI, hT, h3⟩, hqr.trans hpr.symm⟩
  · rintro ⟨⟨p', q', h1, h2, h3⟩, _⟩
    rw [hI] at h1; rw [hT] at h2
    cases h1; cases h2
    exact ⟨p, q, hi, ht, h3⟩

/-- a rank with one patch of 3×3 cells and remote neighbours below, left and across the corner -/
def raceCase : Mpi 2 B2 := mpiCurrents2 3 3 3 1 fun p b =>
  if p = 0 then match b with
    | .xmin => some 1
    | .ymin => some 2
    | .xminymin => some 3
    | _ => none
  else none

/-- the two halves of the first addition of the `xmin` thread enclose the whole `ymin` thread -/
def raceSched : List (RaceStep 2 B2) :=
  (raceCase.raceProg 0 .xmin).take 1 ++ raceCase.raceProg 0 .ymin ++ (raceCase.raceProg 0 .xmin).drop 1 ++
    raceCase.raceProg 0 .xminymin

/-- **C30 fails at the level of memory accesses.** The wait loop runs over (patch, boundary) pairs in
parallel, and the boundary strips of one patch overlap near its edges. Here an interleaving of the three
threads of one patch loses one of the three contributions to cell (0, 0): all received elements are 1,
the cell ends with 2 instead of 3. -/
theorem mpi_current_reduction_fails :
    raceCase.RaceSched raceSched ∧
    (raceSched.foldl (raceCase.raceExec fun _ _ _ => 1) ⟨fun _ => 0, fun _ _ => 0⟩).mem (0, ![0, 0]) = 2 ∧
    ∀ b ∈ [B2.xmin, .ymin, .xminymin], index raceCase.n raceCase.ng
      (fun a => (raceCase.tab b a).dst + ((![0, 0] : Fin 2 → Nat) a : Int)) = ![0, 0] := by
  refine ⟨?_, by decide +kernel, by decide⟩
  intro p b
  by_cases hp : p = 0
  · subst hp
    cases b <;> decide +kernel
  · have h1 : ¬ p < raceCase.npatches := by show ¬ p < 1; omega
    rw [if_neg h1, List.filter_eq_nil_iff]
    have hall : ∀ x ∈ raceSched, x.thread.1 = 0 := by decide +kernel
    intro x hx
    simp only [decide_eq_true_eq]
    intro e
    have := hall x hx
    rw [e] at this
    exact hp this

/-- the hypotheses are met: 3×2 patches periodic in x, two ranks; patch 0 (rank 0) has patch 1 on the same
rank and patch 2 on the other one -/
example : (∃ m', CurrentExchange
      (syncCurrents2 4 4 3 (createPatches2 3 2).length
        (localNbr (fun p => p % 3 / 2) (gridNbr2 3 2 ⟨.periodic, .periodic⟩ ⟨.pml, .pml⟩)))
      (mpiCurrents2 4 4 3 (createPatches2 3 2).length
        (remoteNbr (fun p => p % 3 / 2) (gridNbr2 3 2 ⟨.periodic, .periodic⟩ ⟨.pml, .pml⟩))) (fun _ => 1) m') ∧
    localNbr (fun p => p % 3 / 2) (gridNbr2 3 2 ⟨.periodic, .periodic⟩ ⟨.pml, .pml⟩) 0 .xmax = some 1 ∧
    remoteNbr (fun p => p % 3 / 2) (gridNbr2 3 2 ⟨.periodic, .periodic⟩ ⟨.pml, .pml⟩) 0 .xmin = some 2 := by
  refine ⟨(exchange_exists _ _ (mpiCurrents2_shape (by decide) (by decide)) ⟨?_, ?_⟩ _).2, by decide, by decide⟩
  · intro p b q hp hq
    have hq' := (remoteNbr_some.mp hq).1
    have hp' : p < 6 := hp
    show q < 6
    have : ∀ p < 6, ∀ b ∈ B2.all, ∀ q ∈ gridNbr2 3 2 ⟨.periodic, .periodic⟩ ⟨.pml, .pml⟩ p b, q < 6 := by
      decide +kernel
    exact this p hp' b (by cases b <;> decide) q hq'
  · intro p b q hp hq
    have hq' : _ = some q := hq
    have hp' : p < 6 := hp
    show remoteNbr _ _ q b.opp = some p
    have : ∀ p < 6, ∀ b ∈ B2.all, ∀ q ∈ remoteNbr (fun p => p % 3 / 2)
        (gridNbr2 3 2 ⟨.periodic, .periodic⟩ ⟨.pml, .pml⟩) p b, remoteNbr (fun p => p % 3 / 2)
        (gridNbr2 3 2 ⟨.periodic, .periodic⟩ ⟨.pml, .pml⟩) q b.opp = some p := by
      decide +kernel
    exact this p hp' b (by cases b <;> decide) q hq'

end Verif.SyncFields
