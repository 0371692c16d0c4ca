import Verif.Proofs.PicStep
/-!
# C65 — complete steps: patches are invisible to the currents, and Gauss's law survives every step

Specification vocabulary: `Verif/Spec/PicStep.lean` (macro particles, their charge density on the undivided periodic
grid, what a step does to them), `divE2`/`divE3` (`Verif/Props/Maxwell.lean`).
-/
namespace Verif.PicStep
open Verif.Deposit Verif.Maxwell Verif.SyncFields Verif.DepositProps Verif.PicSpec Verif.Neighbors

/-- Specification: what the deposition routine itself gives for all particles, one after the other, on one undivided
periodic array of `n 0 × n 1` cells -/
def undivided2 (n : Fin 2 → Nat) (d : Fin 2 → ℚ) (dt : ℚ) (ms : List Macro2) : Acc 2 :=
  ms.foldl (fun acc m => deposit2 ⟨n 0, d 0, 0⟩ ⟨n 1, d 1, 0⟩ dt m.q m.x m.y m.mom acc) zeroAcc

/-- the same in 3D, with the routine that wraps indices -/
def undivided3 (n : Fin 3 → Nat) (d : Fin 3 → ℚ) (dt : ℚ) (ms : List Macro3) : Acc 3 :=
  ms.foldl (fun acc m => deposit3Fast ⟨n 0, d 0, 0⟩ ⟨n 1, d 1, 0⟩ ⟨n 2, d 2, 0⟩ dt m.q m.x m.y m.z m.mom acc) zeroAcc

/-- Specification: every particle fits the patch that deposits it -/
def AllFit2 (n : Fin 2 → Nat) (ng : Nat) (d : Fin 2 → ℚ) (dt : ℚ) (N : Nat) (coord : Nat → Fin 2 → Nat)
    (cloud : Nat → List (ℚ × List Part2)) : Prop :=
  ∀ t, t < N → ∀ m ∈ living2 (cloud t), FitsAxis (n 0) ng (coord t 0) (d 0) dt m.x m.mom.vx
    ∧ FitsAxis (n 1) ng (coord t 1) (d 1) dt m.y m.mom.vy

/-- the same in 3D -/
def AllFit3 (n : Fin 3 → Nat) (ng : Nat) (d : Fin 3 → ℚ) (dt : ℚ) (N : Nat) (coord : Nat → Fin 3 → Nat)
    (cloud : Nat → List (ℚ × List Part3)) : Prop :=
  ∀ t, t < N → ∀ m ∈ living3 (cloud t), FitsAxis (n 0) ng (coord t 0) (d 0) dt m.x m.mom.vx
    ∧ FitsAxis (n 1) ng (coord t 1) (d 1) dt m.y m.mom.vy ∧ FitsAxis (n 2) ng (coord t 2) (d 2) dt m.z m.mom.vz

/-- the deposition of patch `t` of the process -/
def patchDeposit2 (n : Fin 2 → Nat) (ng : Nat) (d : Fin 2 → ℚ) (dt : ℚ) (coord : Nat → Fin 2 → Nat)
    (cloud : Nat → List (ℚ × List Part2)) (t : Nat) : Acc 2 :=
  depositAll2 (patchAxis (n 0) ng (d 0) (coord t 0)) (patchAxis (n 1) ng (d 1) (coord t 1)) dt (cloud t)

/-- the same in 3D -/
def patchDeposit3 (n : Fin 3 → Nat) (ng : Nat) (d : Fin 3 → ℚ) (dt : ℚ) (coord : Nat → Fin 3 → Nat)
    (cloud : Nat → List (ℚ × List Part3)) (t : Nat) : Acc 3 :=
  depositAll3 (patchAxis (n 0) ng (d 0) (coord t 0)) (patchAxis (n 1) ng (d 1) (coord t 1))
    (patchAxis (n 2) ng (d 2) (coord t 2)) dt (cloud t)

/-- A particle that starts the step inside its patch (the bounds of the particle exchange: half a cell beyond the
first and last cell) and moves at most one cell per step fits, if there are at least three guard cells. -/
theorem fits_of_inside {n ng c : Nat} (hng : 3 ≤ ng) {d dt x0 v0 x v : ℚ} (hd : 0 < d) (hv0 : |v0 * dt| ≤ d)
    (hv : |v * dt| ≤ d) (hlo : c * n * d - d / 2 ≤ x0) (hhi : x0 ≤ c * n * d + n * d - d / 2)
    (hx : x = x0 + v0 * dt / 2 + v * dt / 2) : FitsAxis n ng c d dt x v := by
  have a0 := abs_le.mp hv0
  have a1 := abs_le.mp hv
  refine ⟨hv, ?_, ?_⟩
  · have h1 : -1 ≤ (x - v * dt / 2) / d - c * n := by
      rw [le_sub_iff_add_le, le_div_iff₀ hd]; subst hx; linarith [a0.1]
    have h2 : (x - v * dt / 2) / d - c * n ≤ n := by
      rw [sub_le_iff_le_add, div_le_iff₀ hd]; subst hx; linarith [a0.2]
    unfold Covered
    have f1 : (-1 : Int) ≤ ⌊(x - v * dt / 2) / d - c * n + 1 / 2⌋ := Int.le_floor.mpr (by push_cast; linarith)
    have f2 : ⌊(x - v * dt / 2) / d - c * n + 1 / 2⌋ < (n : Int) + 1 := Int.floor_lt.mpr (by push_cast; linarith)
    constructor <;> omega
  · have h1 : -2 ≤ (x + v * dt / 2) / d - c * n := by
      rw [le_sub_iff_add_le, le_div_iff₀ hd]; subst hx; linarith [a0.1, a1.1]
    have h2 : (x + v * dt / 2) / d - c * n ≤ n + 1 := by
      rw [sub_le_iff_le_add, div_le_iff₀ hd]; subst hx; linarith [a0.2, a1.2]
    unfold Covered
    have f1 : (-2 : Int) ≤ ⌊(x + v * dt / 2) / d - c * n + 1 / 2⌋ := Int.le_floor.mpr (by push_cast; linarith)
    have f2 : ⌊(x + v * dt / 2) / d - c * n + 1 / 2⌋ < (n : Int) + 2 := Int.floor_lt.mpr (by push_cast; linarith)
    constructor <;> omega

/-- an own cell of a patch as a cell of the undivided grid -/
theorem globalCell_lt2 {npx npy nx ny : Nat} {loc : List P2} (hsub : ∀ p ∈ loc, p ∈ createPatches2 npx npy) {t : Nat}
    (ht : t < loc.length) {v : Fin 2 → Int} (hv : Own ![nx, ny] v) (a : Fin 2) :
    0 ≤ globalCell ![nx, ny] ((place2 npx npy per per loc).coord t) v a
      ∧ globalCell ![nx, ny] ((place2 npx npy per per loc).coord t) v a < ((![npx * nx, npy * ny] : Fin 2 → Nat) a : Int) := by
  have h := congrFun (globalCell_mod (n := ![nx, ny]) (fun a => coord_lt2 (bx := per) (by' := per) hsub ht a) hv) a
  have hnp : 0 < (place2 npx npy per per loc).np a := lt_of_le_of_lt (Nat.zero_le _) (coord_lt2 hsub ht a)
  have hn : (0 : Int) < (![nx, ny] : Fin 2 → Nat) a := by have := hv a; omega
  have hpos : (0 : Int) < ((place2 npx npy per per loc).np a : Int) * (![nx, ny] : Fin 2 → Nat) a :=
    mul_pos (by exact_mod_cast hnp) hn
  rw [← h]
  refine ⟨Int.emod_nonneg _ hpos.ne', lt_of_lt_of_eq (Int.emod_lt_of_pos _ hpos) ?_⟩
  match a with
  | 0 => exact (Nat.cast_mul npx nx).symm
  | 1 => exact (Nat.cast_mul npy ny).symm

/-- the same in 3D -/
theorem globalCell_lt3 {npx npy npz nx ny nz : Nat} {loc : List P3} (hsub : ∀ p ∈ loc, p ∈ createPatches3 npx npy npz)
    {t : Nat} (ht : t < loc.length) {v : Fin 3 → Int} (hv : Own ![nx, ny, nz] v) (a : Fin 3) :
    0 ≤ globalCell ![nx, ny, nz] ((place3 npx npy npz per per per loc).coord t) v a
      ∧ globalCell ![nx, ny, nz] ((place3 npx npy npz per per per loc).coord t) v a
        < ((![npx * nx, npy * ny, npz * nz] : Fin 3 → Nat) a : Int) := by
  have h := congrFun (globalCell_mod (n := ![nx, ny, nz])
    (fun a => coord_lt3 (bx := per) (by' := per) (bz := per) hsub ht a) hv) a
  have hnp : 0 < (place3 npx npy npz per per per loc).np a := lt_of_le_of_lt (Nat.zero_le _) (coord_lt3 hsub ht a)
  have hn : (0 : Int) < (![nx, ny, nz] : Fin 3 → Nat) a := by have := hv a; omega
  have hpos : (0 : Int) < ((place3 npx npy npz per per per loc).np a : Int) * (![nx, ny, nz] : Fin 3 → Nat) a :=
    mul_pos (by exact_mod_cast hnp) hn
  rw [← h]
  refine ⟨Int.emod_nonneg _ hpos.ne', lt_of_lt_of_eq (Int.emod_lt_of_pos _ hpos) ?_⟩
  match a with
  | 0 => exact (Nat.cast_mul npx nx).symm
  | 1 => exact (Nat.cast_mul npy ny).symm
  | 2 => exact (Nat.cast_mul npz nz).symm

theorem undivided_whole2 {N : Fin 2 → Nat} (hN : ∀ a, 0 < N a) {d : Fin 2 → ℚ} (hd : ∀ a, 0 < d a) {dt : ℚ} (hdt : dt ≠ 0)
    {ms : List Macro2} (hall : ∀ m ∈ ms, |m.mom.vx * dt| ≤ d 0 ∧ |m.mom.vy * dt| ≤ d 1) (f : Fin 4) {c : Fin 2 → Int}
    (hc : ∀ a, 0 ≤ c a ∧ c a < N a) : field (undivided2 N d dt ms) f c = wholeJ2 N d dt ms f c := by
  have e := dep2_fold (gx := ⟨N 0, d 0, 0⟩) (gy := ⟨N 1, d 1, 0⟩) ⟨hN 0, hd 0⟩ ⟨hN 1, hd 1⟩ hdt ms hall zeroAcc f c
  rw [zero_field, zero_add] at e
  refine e.trans ?_
  unfold wholeJ2
  have em : (fun a => c a % (N a : Int)) = c := funext fun a => Int.emod_eq_of_lt (hc a).1 (hc a).2
  rw [em]

theorem undivided_whole3 {N : Fin 3 → Nat} (hN : ∀ a, 2 ≤ N a) {d : Fin 3 → ℚ} (hd : ∀ a, 0 < d a) {dt : ℚ} (hdt : dt ≠ 0)
    {ms : List Macro3} (hall : ∀ m ∈ ms, |m.mom.vx * dt| ≤ d 0 ∧ |m.mom.vy * dt| ≤ d 1 ∧ |m.mom.vz * dt| ≤ d 2)
    (f : Fin 4) {c : Fin 3 → Int} (hc : ∀ a, 0 ≤ c a ∧ c a < N a) :
    field (undivided3 N d dt ms) f c = wholeJ3 N d dt ms f c := by
  have e := dep3_fold (gx := ⟨N 0, d 0, 0⟩) (gy := ⟨N 1, d 1, 0⟩) (gz := ⟨N 2, d 2, 0⟩) (dt := dt)
    (D := dep3Fast ⟨N 0, d 0, 0⟩ ⟨N 1, d 1, 0⟩ ⟨N 2, d 2, 0⟩ dt) ms
    (fun m hm => deposit3Fast_adds _ _ _ ⟨by have := hN 0; show 0 < N 0; omega, hd 0⟩
      ⟨by have := hN 1; show 0 < N 1; omega, hd 1⟩ ⟨by have := hN 2; show 0 < N 2; omega, hd 2⟩ (hN 0) (hN 1) (hN 2)
      dt m.q m.x m.y m.z hdt m.mom (hall m hm).1 (hall m hm).2.1 (hall m hm).2.2) zeroAcc f c
  rw [zero_field, zero_add] at e
  refine e.trans ?_
  unfold wholeJ3
  have em : (fun a => c a % (N a : Int)) = c := funext fun a => Int.emod_eq_of_lt (hc a).1 (hc a).2
  rw [em]

/-! ## 2D -/

section TwoD
variable {npx npy nx ny ng : Nat} (hng : 1 ≤ ng) (hngx : ng ≤ nx) (hngy : ng ≤ ny) {loc : List P2}
  {d : Fin 2 → ℚ} (hd : ∀ a, 0 < d a) {dt : ℚ} (hdt : dt ≠ 0)
include hng hngx hngy hd hdt

/-- **C65 (2D), deposition.** On every periodic patch grid, for any local patches, any species and particles that fit
their patches, and every thread schedule of the exchange: every own cell of every patch, of each of `jx`, `jy`, `jz`
and `rho`, holds what the deposition of all particles on one undivided periodic array gives in that cell. -/
theorem patches_transparent2 (hsub : ∀ p ∈ loc, p ∈ createPatches2 npx npy) (hnd : loc.Nodup)
    (cloud : Nat → List (ℚ × List Part2)) :
    let n := ![nx, ny]
    let N := ![npx * nx, npy * ny]
    let g := place2 npx npy per per loc
    let s := syncCurrents2 nx ny ng loc.length (neighborIpatch2 npx npy per per (createPatches2 npx npy) loc)
    AllFit2 n ng d dt loc.length g.coord cloud →
    ∀ (f : Fin 4) (m' : Loc 2 → ℚ),
      s.CurrentRun (fun l => field (patchDeposit2 n ng d dt g.coord cloud l.1) f l.2) m' →
    ∀ t v, t < loc.length → Own n v →
      m' (t, index n ng v) = field (undivided2 N d dt (everyone2 loc.length cloud)) f (globalCell n (g.coord t) v) := by
  intro n N g s hfit f m' hrun t v ht hv
  have h := (current_exchange2 hngx hngy (bx := per) (by' := per) rfl rfl hsub hnd hrun).1 t v ht hv
  have hn : ∀ a, 0 < n a := fun a => match a with
    | 0 => by show 0 < nx; omega
    | 1 => by show 0 < ny; omega
  have hnp : ∀ a, 0 < g.np a := fun a => lt_of_le_of_lt (Nat.zero_le _) (coord_lt2 hsub ht a)
  have hNN : ∀ a, 0 < N a := fun a => match a with
    | 0 => Nat.mul_pos (hnp 0) (hn 0)
    | 1 => Nat.mul_pos (hnp 1) (hn 1)
  refine h.trans ?_
  have hbc : ∀ a, (g.bc a).lo = .periodic := fun a => match a with
    | 0 => rfl
    | 1 => rfl
  have hval : ∀ u, u < loc.length → ∀ l, field (patchDeposit2 n ng d dt g.coord cloud u) f l
      = ((living2 (cloud u)).map fun m => closed2 (patchAxis (n 0) ng (d 0) (g.coord u 0))
          (patchAxis (n 1) ng (d 1) (g.coord u 1)) dt m f l).sum := by
    intro u hu l
    unfold patchDeposit2
    rw [depositAll2_fold, dep2_fold ⟨by show 0 < n 0 + 2 * ng; omega, hd 0⟩ ⟨by show 0 < n 1 + 2 * ng; omega, hd 1⟩ hdt _
      (fun m hm => ⟨(hfit u hu m hm).1.1, (hfit u hu m hm).2.1⟩), zero_field, zero_add]
  have step : ∀ u ∈ Finset.range loc.length, (∑ w ∈ allCells n ng, if g.Same n u w t v then
      at' n ng (fun l => field (patchDeposit2 n ng d dt g.coord cloud l.1) f l.2) u w else 0)
      = ((living2 (cloud u)).map fun m => closed2 ⟨npx * nx, d 0, 0⟩ ⟨npy * ny, d 1, 0⟩ dt m f
          (globalCell n (g.coord t) v)).sum := by
    intro u hu
    have hu' := Finset.mem_range.mp hu
    show (∑ w ∈ allCells n ng, if g.Same n u w t v then
      (field (patchDeposit2 n ng d dt g.coord cloud u) f) (index n ng w) else 0) = _
    rw [same_fold, funext (hval u hu')]
    refine foldTo_list _ _ _ fun m hm => ?_
    have hF : ∀ a, FoldAxis (n a) ng ng (g.np a * n a) (g.coord u a * n a)
        (globalCell n (g.coord t) v a % (g.np a * n a : Int)) (sel g n u t v a) := fun a => sel_ring (hbc a) (hn a) (hnp a)
    rw [fold_closed2 hF hd (hfit u hu' m hm).1 (hfit u hu' m hm).2,
      globalCell_mod (fun a => coord_lt2 hsub ht a) hv]
    rfl
  refine (Finset.sum_congr rfl step).trans ?_
  rw [← sum_everyone loc.length (fun u => living2 (cloud u))]
  have hall : ∀ m ∈ everyone2 loc.length cloud, |m.mom.vx * dt| ≤ d 0 ∧ |m.mom.vy * dt| ≤ d 1 := by
    intro m hm
    obtain ⟨u, hu, hm⟩ := List.mem_flatMap.mp hm
    have := hfit u (List.mem_range.mp hu) m hm
    exact ⟨this.1.1, this.2.1⟩
  have := dep2_fold (gx := ⟨N 0, d 0, 0⟩) (gy := ⟨N 1, d 1, 0⟩) ⟨hNN 0, hd 0⟩ ⟨hNN 1, hd 1⟩ hdt
    (everyone2 loc.length cloud) hall zeroAcc f (globalCell n (g.coord t) v)
  rw [zero_field, zero_add] at this
  exact this.symm

/-- **C65 (2D), charge density.** The `rho` a step leaves in the own cells of the patches is the charge density of all
particles, half a step ahead of their stored positions, on the undivided grid. -/
theorem rho_stored2 (hsub : ∀ p ∈ loc, p ∈ createPatches2 npx npy) (hnd : loc.Nodup)
    (cloud : Nat → List (ℚ × List Part2)) :
    let n := ![nx, ny]
    let N := ![npx * nx, npy * ny]
    let g := place2 npx npy per per loc
    let s := syncCurrents2 nx ny ng loc.length (neighborIpatch2 npx npy per per (createPatches2 npx npy) loc)
    AllFit2 n ng d dt loc.length g.coord cloud → ∀ m' : Loc 2 → ℚ,
      s.CurrentRun (fun l => field (patchDeposit2 n ng d dt g.coord cloud l.1) 3 l.2) m' →
    ∀ t v, t < loc.length → Own n v →
      m' (t, index n ng v)
        = chargeDensity2 N d (dt / 2) (everyone2 loc.length cloud) (globalCell n (g.coord t) v) := by
  intro n N g s hfit m' hrun t v ht hv
  rw [patches_transparent2 hng hngx hngy hd hdt hsub hnd cloud hfit 3 m' hrun t v ht hv]
  have hn : ∀ a, 0 < n a := fun a => match a with
    | 0 => by show 0 < nx; omega
    | 1 => by show 0 < ny; omega
  have hnp : ∀ a, 0 < g.np a := fun a => lt_of_le_of_lt (Nat.zero_le _) (coord_lt2 hsub ht a)
  have hNN : ∀ a, 0 < N a := fun a => match a with
    | 0 => Nat.mul_pos (hnp 0) (hn 0)
    | 1 => Nat.mul_pos (hnp 1) (hn 1)
  have hall : ∀ m ∈ everyone2 loc.length cloud, |m.mom.vx * dt| ≤ d 0 ∧ |m.mom.vy * dt| ≤ d 1 := by
    intro m hm
    obtain ⟨u, hu, hm⟩ := List.mem_flatMap.mp hm
    have := hfit u (List.mem_range.mp hu) m hm
    exact ⟨this.1.1, this.2.1⟩
  rw [undivided_whole2 hNN hd hdt hall 3 (globalCell_lt2 hsub ht hv)]
  exact (whole_cont2 hNN hd hdt _ hall _).2

/-- **C65 (2D), complete runs.** A periodic run of any length over any patch grid, with any species, particles that
fit their patches and move from step to step by half a step with the old and half a step with the new velocity (any
new momentum, any whole periods, handed to any patch in any order), and every thread schedule of every exchange: the
difference between div E and the charge density of all particles over ε₀, taken in the middle of a step where the
particles are pushed, is in every cell the same in every step. -/
theorem gauss_pic2 {P : Par 2} (hP : P.d = d) (hmem : ∀ p, p ∈ loc ↔ p ∈ createPatches2 npx npy) (hnd : loc.Nodup)
    {σ : Nat → Dom 2} {ρ : Nat → Nat → Arr 2} {G : GF 2} (hper : G.Per ![npx, npy] ![nx, ny])
    (cloud : Nat → Nat → List (ℚ × List Part2)) :
    let n := ![nx, ny]
    let N := ![npx * nx, npy * ny]
    let nbr := neighborIpatch2 npx npy per per (createPatches2 npx npy) loc
    let S := solver2 nx ny ng loc.length nbr P
    let s := syncCurrents2 nx ny ng loc.length nbr
    let g := place2 npx npy per per loc
    Rep S g (σ 0) G →
    (∀ i, AllFit2 n ng d dt loc.length g.coord (cloud i)) →
    (∀ i, NextStep (Moved2 (fun a => N a * d a) dt) (everyone2 loc.length (cloud i)) (everyone2 loc.length (cloud (i + 1)))) →
    (∀ i, Step S s dt (patchDeposit2 n ng d dt g.coord (cloud i)) (ρ i) (σ i) (σ (i + 1))) →
    ∀ i t v τ τ0, t < loc.length → Own n v → S.Half1 dt (σ i) τ → S.Half1 dt (σ 0) τ0 →
      divE2 P (cellsOf n ng (τ t).e) v
        - chargeDensity2 N d (-(dt / 2)) (everyone2 loc.length (cloud i)) (globalCell n (g.coord t) v) / P.eps0 =
      divE2 P (cellsOf n ng (τ0 t).e) v
        - chargeDensity2 N d (-(dt / 2)) (everyone2 loc.length (cloud 0)) (globalCell n (g.coord t) v) / P.eps0 := by
  intro n N nbr S s g hrep hfit hnext hstep i t v τ τ0 ht hv h1 h10
  have hsub : ∀ p ∈ loc, p ∈ createPatches2 npx npy := fun p hp => (hmem p).mp hp
  have hn : ∀ a, 0 < n a := fun a => match a with
    | 0 => by show 0 < nx; omega
    | 1 => by show 0 < ny; omega
  have hnp : ∀ a, 0 < g.np a := fun a => lt_of_le_of_lt (Nat.zero_le _) (coord_lt2 hsub ht a)
  have hNN : ∀ a, 0 < N a := fun a => match a with
    | 0 => Nat.mul_pos (hnp 0) (hn 0)
    | 1 => Nat.mul_pos (hnp 1) (hn 1)
  have hall : ∀ i, ∀ m ∈ everyone2 loc.length (cloud i), |m.mom.vx * dt| ≤ d 0 ∧ |m.mom.vy * dt| ≤ d 1 := by
    intro i m hm
    obtain ⟨u, hu, hm⟩ := List.mem_flatMap.mp hm
    have := hfit i u (List.mem_range.mp hu) m hm
    exact ⟨this.1.1, this.2.1⟩
  let J : Nat → V3 2 := fun i f => wholeJ2 N d dt (everyone2 loc.length (cloud i)) f.castSucc
  have hJ : ∀ i, Periodic ![npx, npy] ![nx, ny] (J i) := by
    intro i f v w h
    show wholeJ2 N d dt _ _ v = wholeJ2 N d dt _ _ w
    have e : (fun a => v a % (N a : Int)) = fun a => w a % (N a : Int) := by
      funext a
      match a with
      | 0 => have := h 0; show v 0 % ((npx * nx : Nat) : Int) = w 0 % ((npx * nx : Nat) : Int); push_cast; exact this
      | 1 => have := h 1; show v 1 % ((npy * ny : Nat) : Int) = w 1 % ((npy * ny : Nat) : Int); push_cast; exact this
    unfold wholeJ2
    rw [e]
  have hcont : ∀ i v, (chargeDensity2 N d (-(dt / 2)) (everyone2 loc.length (cloud (i + 1))) v
      - chargeDensity2 N d (-(dt / 2)) (everyone2 loc.length (cloud i)) v) / dt + divE2 P (J i) v = 0 := by
    intro i v
    rw [density_next2 hd (hnext i)]
    have := (whole_cont2 hNN hd hdt (everyone2 loc.length (cloud i)) (hall i) v).1
    unfold divE2
    rw [hP]
    exact this
  have hsw : ∀ i, StepWith S g dt (J i) (σ i) (σ (i + 1)) := by
    intro i
    obtain ⟨σ1, σ2, a1, ⟨a2, a3, _⟩, a4⟩ := hstep i
    refine ⟨σ1, σ2, a1, a2, fun u hu f w hw => ?_, a4⟩
    have := patches_transparent2 hng hngx hngy hd hdt hsub hnd (cloud i) (hfit i) f.castSucc _ (a3 f) u w hu hw
    refine this.trans ?_
    exact undivided_whole2 hNN hd hdt (hall i) f.castSucc (globalCell_lt2 hsub hu hw)
  exact gauss_run2 hng hngx hngy hmem hnd P dt hdt
    (rho := fun i => chargeDensity2 N d (-(dt / 2)) (everyone2 loc.length (cloud i))) hper hJ hcont hrep hsw i t v τ τ0 ht hv h1 h10

/-- **C65 (2D), with the stored density.** If div E = ρ/ε₀ holds when the particles are first pushed, then in every later
step it holds with the `rho` arrays the step before has stored. -/
theorem gauss_stored2 {P : Par 2} (hP : P.d = d) (hmem : ∀ p, p ∈ loc ↔ p ∈ createPatches2 npx npy) (hnd : loc.Nodup)
    {σ : Nat → Dom 2} {ρ : Nat → Nat → Arr 2} {G : GF 2} (hper : G.Per ![npx, npy] ![nx, ny])
    (cloud : Nat → Nat → List (ℚ × List Part2)) :
    let n := ![nx, ny]
    let N := ![npx * nx, npy * ny]
    let nbr := neighborIpatch2 npx npy per per (createPatches2 npx npy) loc
    let S := solver2 nx ny ng loc.length nbr P
    let s := syncCurrents2 nx ny ng loc.length nbr
    let g := place2 npx npy per per loc
    Rep S g (σ 0) G →
    (∀ i, AllFit2 n ng d dt loc.length g.coord (cloud i)) →
    (∀ i, NextStep (Moved2 (fun a => N a * d a) dt) (everyone2 loc.length (cloud i)) (everyone2 loc.length (cloud (i + 1)))) →
    (∀ i, Step S s dt (patchDeposit2 n ng d dt g.coord (cloud i)) (ρ i) (σ i) (σ (i + 1))) →
    (∀ τ0, S.Half1 dt (σ 0) τ0 → ∀ t v, t < loc.length → Own n v → divE2 P (cellsOf n ng (τ0 t).e) v
      = chargeDensity2 N d (-(dt / 2)) (everyone2 loc.length (cloud 0)) (globalCell n (g.coord t) v) / P.eps0) →
    ∀ i t v τ, t < loc.length → Own n v → S.Half1 dt (σ (i + 1)) τ →
      divE2 P (cellsOf n ng (τ t).e) v = ρ i t (index n ng v) / P.eps0 := by
  intro n N nbr S s g hrep hfit hnext hstep hini i t v τ ht hv h1
  have hsub : ∀ p ∈ loc, p ∈ createPatches2 npx npy := fun p hp => (hmem p).mp hp
  obtain ⟨τ0, _, h10, _⟩ := hstep 0
  have h := gauss_pic2 hng hngx hngy hd hdt hP hmem hnd hper cloud hrep hfit hnext hstep (i + 1) t v τ τ0 ht hv h1 h10
  obtain ⟨σ1, σ2, _, ⟨_, _, a3⟩, _⟩ := hstep i
  have hr := rho_stored2 hng hngx hngy hd hdt hsub hnd (cloud i) (hfit i) _ a3 t v ht hv
  have hi := hini τ0 h10 t v ht hv
  have hn := density_next2 hd (hnext i) (globalCell n (g.coord t) v)
  have hr' : ρ i t (index n ng v) = chargeDensity2 N d (dt / 2) (everyone2 loc.length (cloud i)) (globalCell n (g.coord t) v) := hr
  rw [hr', ← hn]
  linarith
end TwoD

/-! ## 3D -/

section ThreeD
variable {npx npy npz nx ny nz ng : Nat} (hng : 2 ≤ ng) (hngx : ng ≤ nx) (hngy : ng ≤ ny) (hngz : ng ≤ nz) {loc : List P3}
  {d : Fin 3 → ℚ} (hd : ∀ a, 0 < d a) {dt : ℚ} (hdt : dt ≠ 0)
include hng hngx hngy hngz hngz hd hdt

/-- **C65 (3D), deposition.** On every periodic patch grid, for any local patches, any species and particles that fit
their patches, and every thread schedule of the exchange: every own cell of every patch, of each of `jx`, `jy`, `jz`
and `rho`, holds what the deposition of all particles on one undivided periodic array gives in that cell. -/
theorem patches_transparent3 (hsub : ∀ p ∈ loc, p ∈ createPatches3 npx npy npz) (hnd : loc.Nodup)
    (cloud : Nat → List (ℚ × List Part3)) :
    let n := ![nx, ny, nz]
    let N := ![npx * nx, npy * ny, npz * nz]
    let g := place3 npx npy npz per per per loc
    let s := syncCurrents3 nx ny nz ng loc.length (neighborIpatch3 npx npy npz per per per (createPatches3 npx npy npz) loc)
    AllFit3 n ng d dt loc.length g.coord cloud →
    ∀ (f : Fin 4) (m' : Loc 3 → ℚ),
      s.CurrentRun (fun l => field (patchDeposit3 n ng d dt g.coord cloud l.1) f l.2) m' →
    ∀ t v, t < loc.length → Own n v →
      m' (t, index n ng v) = field (undivided3 N d dt (everyone3 loc.length cloud)) f (globalCell n (g.coord t) v) := by
  intro n N g s hfit f m' hrun t v ht hv
  have h := (current_exchange3 hngx hngy hngz (bx := per) (by' := per) (bz := per) rfl rfl rfl hsub hnd hrun).1 t v ht hv
  have hn : ∀ a, 0 < n a := fun a => match a with
    | 0 => by show 0 < nx; omega
    | 1 => by show 0 < ny; omega
    | 2 => by show 0 < nz; omega
  have hnp : ∀ a, 0 < g.np a := fun a => lt_of_le_of_lt (Nat.zero_le _) (coord_lt3 hsub ht a)
  have hNN : ∀ a, 2 ≤ N a := fun a => match a with
    | 0 => le_trans (show 2 ≤ nx by omega) (Nat.le_mul_of_pos_left nx (hnp 0))
    | 1 => le_trans (show 2 ≤ ny by omega) (Nat.le_mul_of_pos_left ny (hnp 1))
    | 2 => le_trans (show 2 ≤ nz by omega) (Nat.le_mul_of_pos_left nz (hnp 2))
  refine h.trans ?_
  have hbc : ∀ a, (g.bc a).lo = .periodic := fun a => match a with
    | 0 => rfl
    | 1 => rfl
    | 2 => rfl
  have hval : ∀ u, u < loc.length → ∀ l, field (patchDeposit3 n ng d dt g.coord cloud u) f l
      = ((living3 (cloud u)).map fun m => closed3 (patchAxis (n 0) ng (d 0) (g.coord u 0))
          (patchAxis (n 1) ng (d 1) (g.coord u 1))
          (patchAxis (n 2) ng (d 2) (g.coord u 2)) dt m f l).sum := by
    intro u hu l
    unfold patchDeposit3
    have hng1 : 1 ≤ ng := Nat.le_of_succ_le hng
    have hp : ∀ a, 0 < n a + 2 * ng := fun a => by have := hn a; omega
    rw [depositAll3_fold, dep3_fold (gx := patchAxis (n 0) ng (d 0) (g.coord u 0))
      (gy := patchAxis (n 1) ng (d 1) (g.coord u 1)) (gz := patchAxis (n 2) ng (d 2) (g.coord u 2)) (dt := dt)
      (D := dep3 (patchAxis (n 0) ng (d 0) (g.coord u 0)) (patchAxis (n 1) ng (d 1) (g.coord u 1))
        (patchAxis (n 2) ng (d 2) (g.coord u 2)) dt) _
      (fun m hm => deposit3Ref_adds _ _ _ ⟨hp 0, hd 0⟩ ⟨hp 1, hd 1⟩ ⟨hp 2, hd 2⟩ dt m.q m.x m.y m.z m.mom
        (hfit u hu m hm).1.1 (hfit u hu m hm).2.1.1 (hfit u hu m hm).2.2.1
        (fits_of (hn 0) hng1 (hd 0) (hfit u hu m hm).1) (fits_of (hn 1) hng1 (hd 1) (hfit u hu m hm).2.1)
        (fits_of (hn 2) hng1 (hd 2) (hfit u hu m hm).2.2)), zero_field, zero_add]
  have step : ∀ u ∈ Finset.range loc.length, (∑ w ∈ allCells n ng, if g.Same n u w t v then
      at' n ng (fun l => field (patchDeposit3 n ng d dt g.coord cloud l.1) f l.2) u w else 0)
      = ((living3 (cloud u)).map fun m => closed3 ⟨npx * nx, d 0, 0⟩ ⟨npy * ny, d 1, 0⟩ ⟨npz * nz, d 2, 0⟩ dt m f
          (globalCell n (g.coord t) v)).sum := by
    intro u hu
    have hu' := Finset.mem_range.mp hu
    show (∑ w ∈ allCells n ng, if g.Same n u w t v then
      (field (patchDeposit3 n ng d dt g.coord cloud u) f) (index n ng w) else 0) = _
    rw [same_fold, funext (hval u hu')]
    refine foldTo_list _ _ _ fun m hm => ?_
    have hF : ∀ a, FoldAxis (n a) ng ng (g.np a * n a) (g.coord u a * n a)
        (globalCell n (g.coord t) v a % (g.np a * n a : Int)) (sel g n u t v a) := fun a => sel_ring (hbc a) (hn a) (hnp a)
    rw [fold_closed3 hF hd (hfit u hu' m hm).1 (hfit u hu' m hm).2.1 (hfit u hu' m hm).2.2,
      globalCell_mod (fun a => coord_lt3 hsub ht a) hv]
    rfl
  refine (Finset.sum_congr rfl step).trans ?_
  rw [← sum_everyone loc.length (fun u => living3 (cloud u))]
  have hall : ∀ m ∈ everyone3 loc.length cloud, |m.mom.vx * dt| ≤ d 0 ∧ |m.mom.vy * dt| ≤ d 1 ∧ |m.mom.vz * dt| ≤ d 2 := by
    intro m hm
    obtain ⟨u, hu, hm⟩ := List.mem_flatMap.mp hm
    have := hfit u (List.mem_range.mp hu) m hm
    exact ⟨this.1.1, this.2.1.1, this.2.2.1⟩
  rw [undivided_whole3 hNN hd hdt hall f (globalCell_lt3 hsub ht hv)]
  unfold wholeJ3
  have em : (fun a => globalCell n (g.coord t) v a % (N a : Int)) = globalCell n (g.coord t) v := funext fun a =>
    Int.emod_eq_of_lt (globalCell_lt3 hsub ht hv a).1 (globalCell_lt3 hsub ht hv a).2
  rw [em]
  rfl

/-- **C65 (3D), charge density.** The `rho` a step leaves in the own cells of the patches is the charge density of all
particles, half a step ahead of their stored positions, on the undivided grid. -/
theorem rho_stored3 (hsub : ∀ p ∈ loc, p ∈ createPatches3 npx npy npz) (hnd : loc.Nodup)
    (cloud : Nat → List (ℚ × List Part3)) :
    let n := ![nx, ny, nz]
    let N := ![npx * nx, npy * ny, npz * nz]
    let g := place3 npx npy npz per per per loc
    let s := syncCurrents3 nx ny nz ng loc.length (neighborIpatch3 npx npy npz per per per (createPatches3 npx npy npz) loc)
    AllFit3 n ng d dt loc.length g.coord cloud → ∀ m' : Loc 3 → ℚ,
      s.CurrentRun (fun l => field (patchDeposit3 n ng d dt g.coord cloud l.1) 3 l.2) m' →
    ∀ t v, t < loc.length → Own n v →
      m' (t, index n ng v)
        = chargeDensity3 N d (dt / 2) (everyone3 loc.length cloud) (globalCell n (g.coord t) v) := by
  intro n N g s hfit m' hrun t v ht hv
  rw [patches_transparent3 hng hngx hngy hngz hd hdt hsub hnd cloud hfit 3 m' hrun t v ht hv]
  have hn : ∀ a, 0 < n a := fun a => match a with
    | 0 => by show 0 < nx; omega
    | 1 => by show 0 < ny; omega
    | 2 => by show 0 < nz; omega
  have hnp : ∀ a, 0 < g.np a := fun a => lt_of_le_of_lt (Nat.zero_le _) (coord_lt3 hsub ht a)
  have hNN : ∀ a, 2 ≤ N a := fun a => match a with
    | 0 => le_trans (show 2 ≤ nx by omega) (Nat.le_mul_of_pos_left nx (hnp 0))
    | 1 => le_trans (show 2 ≤ ny by omega) (Nat.le_mul_of_pos_left ny (hnp 1))
    | 2 => le_trans (show 2 ≤ nz by omega) (Nat.le_mul_of_pos_left nz (hnp 2))
  have hall : ∀ m ∈ everyone3 loc.length cloud, |m.mom.vx * dt| ≤ d 0 ∧ |m.mom.vy * dt| ≤ d 1 ∧ |m.mom.vz * dt| ≤ d 2 := by
    intro m hm
    obtain ⟨u, hu, hm⟩ := List.mem_flatMap.mp hm
    have := hfit u (List.mem_range.mp hu) m hm
    exact ⟨this.1.1, this.2.1.1, this.2.2.1⟩
  rw [undivided_whole3 hNN hd hdt hall 3 (globalCell_lt3 hsub ht hv)]
  exact (whole_cont3 hNN hd hdt _ hall _).2

/-- **C65 (3D), complete runs.** A periodic run of any length over any patch grid, with any species, particles that
fit their patches and move from step to step by half a step with the old and half a step with the new velocity (any
new momentum, any whole periods, handed to any patch in any order), and every thread schedule of every exchange: the
difference between div E and the charge density of all particles over ε₀, taken in the middle of a step where the
particles are pushed, is in every cell the same in every step. -/
theorem gauss_pic3 {P : Par 3} (hP : P.d = d) (hmem : ∀ p, p ∈ loc ↔ p ∈ createPatches3 npx npy npz) (hnd : loc.Nodup)
    {σ : Nat → Dom 3} {ρ : Nat → Nat → Arr 3} {G : GF 3} (hper : G.Per ![npx, npy, npz] ![nx, ny, nz])
    (cloud : Nat → Nat → List (ℚ × List Part3)) :
    let n := ![nx, ny, nz]
    let N := ![npx * nx, npy * ny, npz * nz]
    let nbr := neighborIpatch3 npx npy npz per per per (createPatches3 npx npy npz) loc
    let S := solver3 nx ny nz ng loc.length nbr P
    let s := syncCurrents3 nx ny nz ng loc.length nbr
    let g := place3 npx npy npz per per per loc
    Rep S g (σ 0) G →
    (∀ i, AllFit3 n ng d dt loc.length g.coord (cloud i)) →
    (∀ i, NextStep (Moved3 (fun a => N a * d a) dt) (everyone3 loc.length (cloud i)) (everyone3 loc.length (cloud (i + 1)))) →
    (∀ i, Step S s dt (patchDeposit3 n ng d dt g.coord (cloud i)) (ρ i) (σ i) (σ (i + 1))) →
    ∀ i t v τ τ0, t < loc.length → Own n v → S.Half1 dt (σ i) τ → S.Half1 dt (σ 0) τ0 →
      divE3 P (cellsOf n ng (τ t).e) v
        - chargeDensity3 N d (-(dt / 2)) (everyone3 loc.length (cloud i)) (globalCell n (g.coord t) v) / P.eps0 =
      divE3 P (cellsOf n ng (τ0 t).e) v
        - chargeDensity3 N d (-(dt / 2)) (everyone3 loc.length (cloud 0)) (globalCell n (g.coord t) v) / P.eps0 := by
  intro n N nbr S s g hrep hfit hnext hstep i t v τ τ0 ht hv h1 h10
  have hsub : ∀ p ∈ loc, p ∈ createPatches3 npx npy npz := fun p hp => (hmem p).mp hp
  have hn : ∀ a, 0 < n a := fun a => match a with
    | 0 => by show 0 < nx; omega
    | 1 => by show 0 < ny; omega
    | 2 => by show 0 < nz; omega
  have hnp : ∀ a, 0 < g.np a := fun a => lt_of_le_of_lt (Nat.zero_le _) (coord_lt3 hsub ht a)
  have hNN : ∀ a, 2 ≤ N a := fun a => match a with
    | 0 => le_trans (show 2 ≤ nx by omega) (Nat.le_mul_of_pos_left nx (hnp 0))
    | 1 => le_trans (show 2 ≤ ny by omega) (Nat.le_mul_of_pos_left ny (hnp 1))
    | 2 => le_trans (show 2 ≤ nz by omega) (Nat.le_mul_of_pos_left nz (hnp 2))
  have hall : ∀ i, ∀ m ∈ everyone3 loc.length (cloud i), |m.mom.vx * dt| ≤ d 0 ∧ |m.mom.vy * dt| ≤ d 1 ∧ |m.mom.vz * dt| ≤ d 2 := by
    intro i m hm
    obtain ⟨u, hu, hm⟩ := List.mem_flatMap.mp hm
    have := hfit i u (List.mem_range.mp hu) m hm
    exact ⟨this.1.1, this.2.1.1, this.2.2.1⟩
  let J : Nat → V3 3 := fun i f => wholeJ3 N d dt (everyone3 loc.length (cloud i)) f.castSucc
  have hJ : ∀ i, Periodic ![npx, npy, npz] ![nx, ny, nz] (J i) := by
    intro i f v w h
    show wholeJ3 N d dt _ _ v = wholeJ3 N d dt _ _ w
    have e : (fun a => v a % (N a : Int)) = fun a => w a % (N a : Int) := by
      funext a
      match a with
      | 0 => have := h 0; show v 0 % ((npx * nx : Nat) : Int) = w 0 % ((npx * nx : Nat) : Int); push_cast; exact this
      | 2 => have := h 2; show v 2 % ((npz * nz : Nat) : Int) = w 2 % ((npz * nz : Nat) : Int); push_cast; exact this
      | 1 => have := h 1; show v 1 % ((npy * ny : Nat) : Int) = w 1 % ((npy * ny : Nat) : Int); push_cast; exact this
    unfold wholeJ3
    rw [e]
  have hcont : ∀ i v, (chargeDensity3 N d (-(dt / 2)) (everyone3 loc.length (cloud (i + 1))) v
      - chargeDensity3 N d (-(dt / 2)) (everyone3 loc.length (cloud i)) v) / dt + divE3 P (J i) v = 0 := by
    intro i v
    rw [density_next3 hd (hnext i)]
    have := (whole_cont3 hNN hd hdt (everyone3 loc.length (cloud i)) (hall i) v).1
    unfold divE3
    rw [hP]
    exact this
  have hsw : ∀ i, StepWith S g dt (J i) (σ i) (σ (i + 1)) := by
    intro i
    obtain ⟨σ1, σ2, a1, ⟨a2, a3, _⟩, a4⟩ := hstep i
    refine ⟨σ1, σ2, a1, a2, fun u hu f w hw => ?_, a4⟩
    have := patches_transparent3 hng hngx hngy hngz hd hdt hsub hnd (cloud i) (hfit i) f.castSucc _ (a3 f) u w hu hw
    refine this.trans ?_
    exact undivided_whole3 hNN hd hdt (hall i) f.castSucc (globalCell_lt3 hsub hu hw)
  exact gauss_run3 (Nat.le_of_succ_le hng) hngx hngy hngz hmem hnd P dt hdt
    (rho := fun i => chargeDensity3 N d (-(dt / 2)) (everyone3 loc.length (cloud i))) hper hJ hcont hrep hsw i t v τ τ0 ht hv h1 h10

/-- **C65 (3D), with the stored density.** If div E = ρ/ε₀ holds when the particles are first pushed, then in every later
step it holds with the `rho` arrays the step before has stored. -/
theorem gauss_stored3 {P : Par 3} (hP : P.d = d) (hmem : ∀ p, p ∈ loc ↔ p ∈ createPatches3 npx npy npz) (hnd : loc.Nodup)
    {σ : Nat → Dom 3} {ρ : Nat → Nat → Arr 3} {G : GF 3} (hper : G.Per ![npx, npy, npz] ![nx, ny, nz])
    (cloud : Nat → Nat → List (ℚ × List Part3)) :
    let n := ![nx, ny, nz]
    let N := ![npx * nx, npy * ny, npz * nz]
    let nbr := neighborIpatch3 npx npy npz per per per (createPatches3 npx npy npz) loc
    let S := solver3 nx ny nz ng loc.length nbr P
    let s := syncCurrents3 nx ny nz ng loc.length nbr
    let g := place3 npx npy npz per per per loc
    Rep S g (σ 0) G →
    (∀ i, AllFit3 n ng d dt loc.length g.coord (cloud i)) →
    (∀ i, NextStep (Moved3 (fun a => N a * d a) dt) (everyone3 loc.length (cloud i)) (everyone3 loc.length (cloud (i + 1)))) →
    (∀ i, Step S s dt (patchDeposit3 n ng d dt g.coord (cloud i)) (ρ i) (σ i) (σ (i + 1))) →
    (∀ τ0, S.Half1 dt (σ 0) τ0 → ∀ t v, t < loc.length → Own n v → divE3 P (cellsOf n ng (τ0 t).e) v
      = chargeDensity3 N d (-(dt / 2)) (everyone3 loc.length (cloud 0)) (globalCell n (g.coord t) v) / P.eps0) →
    ∀ i t v τ, t < loc.length → Own n v → S.Half1 dt (σ (i + 1)) τ →
      divE3 P (cellsOf n ng (τ t).e) v = ρ i t (index n ng v) / P.eps0 := by
  intro n N nbr S s g hrep hfit hnext hstep hini i t v τ ht hv h1
  have hsub : ∀ p ∈ loc, p ∈ createPatches3 npx npy npz := fun p hp => (hmem p).mp hp
  obtain ⟨τ0, _, h10, _⟩ := hstep 0
  have h := gauss_pic3 hng hngx hngy hngz hd hdt hP hmem hnd hper cloud hrep hfit hnext hstep (i + 1) t v τ τ0 ht hv h1 h10
  obtain ⟨σ1, σ2, _, ⟨_, _, a3⟩, _⟩ := hstep i
  have hr := rho_stored3 hng hngx hngy hngz hd hdt hsub hnd (cloud i) (hfit i) _ a3 t v ht hv
  have hi := hini τ0 h10 t v ht hv
  have hn := density_next3 hd (hnext i) (globalCell n (g.coord t) v)
  have hr' : ρ i t (index n ng v) = chargeDensity3 N d (dt / 2) (everyone3 loc.length (cloud i)) (globalCell n (g.coord t) v) := hr
  rw [hr', ← hn]
  linarith
end ThreeD

/-! ## the hypotheses can be met -/

section Witness
variable {k : Nat} {D : Type} (S : Solver k D) (s : Sync k D)

theorem currentRun_exists (m : Loc k → ℚ) : ∃ m', s.CurrentRun m m' :=
  ⟨_, _, Interleave.isSchedule_seq _ _, rfl⟩

theorem step_exists (dt : ℚ) (dep : Nat → Acc k) (σ : Dom k) : ∃ ρ σ', Step S s dt dep ρ σ σ' := by
  obtain ⟨σ1, h1⟩ := syncE_exists S (S.stepE (1 / 2 * dt) σ)
  obtain ⟨σ2, h2⟩ := syncB_exists S (S.stepB (1 / 2 * dt) σ1)
  choose C hC using fun d : Fin 3 => currentRun_exists s (fun l => field (dep l.1) d.castSucc l.2)
  obtain ⟨R, hR⟩ := currentRun_exists s (fun l => field (dep l.1) 3 l.2)
  let σ3 : Dom k := fun t => { σ2 t with j := fun d l => C d (t, l) }
  obtain ⟨σ4, h4⟩ := syncB_exists S (S.stepB (1 / 2 * dt) σ3)
  obtain ⟨σ5, h5⟩ := syncE_exists S (S.stepE (1 / 2 * dt) σ4)
  exact ⟨fun t l => R (t, l), σ5, σ2, σ3, ⟨σ1, h1, h2⟩, ⟨fun _ => ⟨rfl, rfl⟩, hC, hR⟩, σ4, h4, h5⟩

/-- from every global field and for every sequence of deposits there is a run -/
theorem pic_exists (g : Place k) (dt : ℚ) (dep : Nat → Nat → Acc k) (G : GF k) :
    ∃ (σ : Nat → Dom k) (ρ : Nat → Nat → Arr k), Rep S g (σ 0) G ∧
      ∀ i, Step S s dt (dep i) (ρ i) (σ i) (σ (i + 1)) := by
  obtain ⟨σ0, h0⟩ := rep_exists S g G
  choose R T hT using fun (i : Nat) (τ : Dom k) => step_exists S s dt (dep i) τ
  let σ : Nat → Dom k := fun n => n.rec σ0 fun i τ => T i τ
  exact ⟨σ, fun i => R i (σ i), h0, fun i => hT i (σ i)⟩
end Witness

/-- momentum of weight 1 with velocity 1 along x -/
def uMom : Mom := ⟨1 / 299792458, 0, 0, 1, 1⟩
/-- the same at rest -/
def zMom : Mom := ⟨0, 0, 0, 1, 1⟩

theorem uMom_vx : uMom.vx = 1 := by decide +kernel
theorem uMom_vy : uMom.vy = 0 := by decide +kernel
theorem uMom_vz : uMom.vz = 0 := by decide +kernel
theorem zMom_vx : zMom.vx = 0 := by decide +kernel
theorem zMom_vy : zMom.vy = 0 := by decide +kernel
theorem zMom_vz : zMom.vz = 0 := by decide +kernel

/-- 2 × 2 patches of 4 × 4 cells: a particle of charge 1 that crosses the domain again and again, half a cell per step,
and one of charge -1 at rest -/
def trip (i t : Nat) : List (ℚ × List Part2) :=
  (if t = 0 then [(-1, [⟨.val (-1 / 4), .val 1, zMom, false⟩])] else []) ++
  (if t = (if i % 16 < 8 then 0 else 1) then [(1, [⟨.val ((i % 16 : Nat) / 2), .val 1, uMom, false⟩])] else [])

theorem trip_everyone (i : Nat) : everyone2 4 (trip i) =
    [⟨-1, -1 / 4, 1, zMom⟩, ⟨1, (i % 16 : Nat) / 2, 1, uMom⟩] := by
  unfold trip
  by_cases h : i % 16 < 8
  · simp only [if_pos h]; rfl
  · simp only [if_neg h]; rfl

theorem trip_next (i : Nat) : NextStep (Moved2 (fun a => (![2 * 4, 2 * 4] : Fin 2 → Nat) a * (![1, 1] : Fin 2 → ℚ) a) (1 / 2))
    (everyone2 4 (trip i)) (everyone2 4 (trip (i + 1))) := by
  rw [trip_everyone, trip_everyone]
  refine ⟨_, List.Perm.refl _, List.Forall₂.cons ⟨rfl, rfl, ⟨0, ?_⟩, ⟨0, ?_⟩⟩
    (List.Forall₂.cons ⟨rfl, rfl, ⟨if i % 16 = 15 then -1 else 0, ?_⟩, ⟨0, ?_⟩⟩ List.Forall₂.nil)⟩
  · rw [zMom_vx]; norm_num
  · rw [zMom_vy]; norm_num
  · rw [uMom_vx]
    by_cases h : i % 16 = 15
    · rw [if_pos h, h, show (i + 1) % 16 = 0 by omega]; norm_num
    · rw [if_neg h, show (i + 1) % 16 = i % 16 + 1 by omega]; push_cast; ring
  · rw [uMom_vy]; norm_num

theorem trip_fit (i : Nat) : AllFit2 ![4, 4] 3 ![1, 1] (1 / 2) 4 (place2 2 2 per per (createPatches2 2 2)).coord (trip i) := by
  intro t ht m hm
  have hz : ∀ c : Nat, c = 0 → FitsAxis 4 3 c 1 (1 / 2) 1 0 := by
    rintro c rfl
    exact fits_of_inside (x0 := 1) (v0 := 0) (by decide) (by norm_num) (by norm_num) (by norm_num) (by norm_num)
      (by norm_num) (by norm_num)
  have hc0 : (place2 2 2 per per (createPatches2 2 2)).coord 0 = ![0, 0] := by decide +kernel
  have hc1 : (place2 2 2 per per (createPatches2 2 2)).coord 1 = ![1, 0] := by decide +kernel
  have h0 : (0 : ℚ) ≤ (i % 16 : Nat) := by positivity
  have key : (t = 0 ∧ m = ⟨-1, -1 / 4, 1, zMom⟩) ∨
      (t = (if i % 16 < 8 then 0 else 1) ∧ m = ⟨1, (i % 16 : Nat) / 2, 1, uMom⟩) := by
    unfold trip living2 at hm
    rw [List.flatMap_append, List.mem_append] at hm
    rcases hm with hm | hm
    · left
      split at hm
      · rename_i h
        exact ⟨h, List.mem_singleton.mp hm⟩
      · exact absurd hm List.not_mem_nil
    · right
      by_cases h : t = (if i % 16 < 8 then 0 else 1)
      · rw [if_pos h] at hm
        exact ⟨h, List.mem_singleton.mp hm⟩
      · rw [if_neg h] at hm
        exact absurd hm List.not_mem_nil
  rcases key with ⟨rfl, rfl⟩ | ⟨h, rfl⟩
  · rw [hc0]
    constructor
    · show FitsAxis 4 3 0 1 (1 / 2) (-1 / 4) zMom.vx
      rw [zMom_vx]
      exact fits_of_inside (x0 := -1 / 4) (v0 := 0) (by decide) (by norm_num) (by norm_num) (by norm_num) (by norm_num)
        (by norm_num) (by norm_num)
    · show FitsAxis 4 3 0 1 (1 / 2) 1 zMom.vy
      rw [zMom_vy]
      exact hz 0 rfl
  · by_cases hi : i % 16 < 8
    · rw [if_pos hi] at h
      subst h
      rw [hc0]
      have h1 : ((i % 16 : Nat) : ℚ) ≤ 7 := by exact_mod_cast Nat.le_of_lt_succ hi
      constructor
      · show FitsAxis 4 3 0 1 (1 / 2) ((i % 16 : Nat) / 2) uMom.vx
        rw [uMom_vx]
        exact fits_of_inside (x0 := (i % 16 : Nat) / 2 - 1 / 2) (v0 := 1) (by decide) (by norm_num) (by norm_num)
          (by norm_num) (by push_cast; linarith) (by push_cast; linarith) (by ring)
      · show FitsAxis 4 3 0 1 (1 / 2) 1 uMom.vy
        rw [uMom_vy]
        exact hz 0 rfl
    · rw [if_neg hi] at h
      subst h
      rw [hc1]
      have h1 : ((i % 16 : Nat) : ℚ) ≤ 15 := by exact_mod_cast Nat.le_of_lt_succ (Nat.mod_lt i (by decide))
      have h2 : (8 : ℚ) ≤ (i % 16 : Nat) := by exact_mod_cast Nat.le_of_not_lt hi
      constructor
      · show FitsAxis 4 3 1 1 (1 / 2) ((i % 16 : Nat) / 2) uMom.vx
        rw [uMom_vx]
        exact fits_of_inside (x0 := (i % 16 : Nat) / 2 - 1 / 2) (v0 := 1) (by decide) (by norm_num) (by norm_num)
          (by norm_num) (by push_cast; linarith) (by push_cast; linarith) (by ring)
      · show FitsAxis 4 3 0 1 (1 / 2) 1 uMom.vy
        rw [uMom_vy]
        exact hz 0 rfl

theorem cancel2 {n : Fin 2 → Nat} {d : Fin 2 → ℚ} {s a a' b b' : ℚ} {m m' : Mom} (hx : a + s * m.vx = a' + s * m'.vx)
    (hy : b + s * m.vy = b' + s * m'.vy) (hw : m.w = m'.w) (c : Fin 2 → Int) :
    chargeDensity2 n d s [⟨-1, a, b, m⟩, ⟨1, a', b', m'⟩] c = 0 := by
  unfold chargeDensity2
  simp only [List.map_cons, List.map_nil, List.sum_cons, List.sum_nil]
  rw [hx, hy, hw]
  ring

/-- no field -/
def vacuum : GF 2 := ⟨fun _ _ => 0, fun _ _ => 0, fun _ _ => 0⟩

theorem trip_start (c : Fin 2 → Int) :
    chargeDensity2 ![2 * 4, 2 * 4] ![1, 1] (-((1 / 2) / 2)) (everyone2 4 (trip 0)) c = 0 := by
  rw [trip_everyone]
  refine cancel2 ?_ ?_ (show zMom.w = uMom.w from rfl) _
  · rw [uMom_vx, zMom_vx]; norm_num
  · rw [uMom_vy, zMom_vy]

theorem trip_vacuum (σ : Dom 2) {P : Par 2} {τ0 : Dom 2} :
    let loc := createPatches2 2 2
    let S := solver2 4 4 3 loc.length (neighborIpatch2 2 2 per per (createPatches2 2 2) loc) P
    let g := place2 2 2 per per loc
    Rep S g σ vacuum → S.Half1 (1 / 2) σ τ0 → ∀ {t v}, t < loc.length → Own ![4, 4] v →
      divE2 P (cellsOf ![4, 4] 3 (τ0 t).e) v = 0 := by
  rintro loc S g hrep ⟨τ, a1, a2⟩ t v ht hv
  have hper : vacuum.Per ![2, 2] ![4, 4] := ⟨fun _ _ _ _ => rfl, fun _ _ _ _ => rfl, fun _ _ _ _ => rfl⟩
  have hs := guard2_shape (nx := 4) (ny := 4) (ng := 3) (N := loc.length)
    (nbr := neighborIpatch2 2 2 per per (createPatches2 2 2) loc) (by decide) (by decide)
  have hg : NbrGeo S.sync g off2 :=
    nbrGeo2 (bx := per) (by' := per) rfl rfl (grid_createPatches2 2 2) (fun p hp => hp) (nodup_createPatches2 2 2) rfl rfl
  have hal : AllLocal S.sync g := allLocal2 rfl rfl (fun p hp => hp) rfl
  have r1 := stepE_sync hs hg (guardTab2_eq 4 4 3) hal (kernel2 4 4 3 _ _ P) (localFE2 P) (show 1 ≤ 3 by decide) hper hrep _ a1
  have r2 := stepB_sync hs hg (guardTab2_eq 4 4 3) hal (kernel2 4 4 3 _ _ P) (localFB2 P) (show 1 ≤ 3 by decide)
    (hper.stepE (localFE2 P) _) r1 _ a2
  refine (divE2_shows P (show 1 ≤ 3 by decide) r2 ht hv).trans ?_
  simp [divE2, GF.stepE, GF.stepB, yeeE2, vacuum]

/-- the first step of `trip` leaves charge in cell (7, 1) of the domain -/
theorem trip_charge : chargeDensity2 ![8, 8] ![1, 1] ((1 / 2) / 2) (everyone2 4 (trip 0)) ![7, 1] ≠ 0 := by
  have hall : ∀ m ∈ everyone2 4 (trip 0), |m.mom.vx * (1 / 2)| ≤ (![1, 1] : Fin 2 → ℚ) 0
      ∧ |m.mom.vy * (1 / 2)| ≤ (![1, 1] : Fin 2 → ℚ) 1 := by
    decide +kernel
  have h := (whole_cont2 (n := ![8, 8]) (d := ![1, 1]) (fun a => match a with | 0 => by decide | 1 => by decide)
    (fun a => match a with | 0 => by decide +kernel | 1 => by decide +kernel) (dt := 1 / 2) (by norm_num) _ hall ![7, 1]).2
  rw [← h, trip_everyone]
  have e : ∀ i0, wrapIdx 8 i0 = fun (i : Nat) => (i0 + ((i : Int) - 2)) % 8 := fun i0 => funext fun i => wrapIdx_eq 8 (by decide) i0 i
  have e0 : wrapIdx ((![8, 8] : Fin 2 → Nat) 0) = fun i0 (i : Nat) => (i0 + ((i : Int) - 2)) % 8 := funext e
  have e1 : wrapIdx ((![8, 8] : Fin 2 → Nat) 1) = fun i0 (i : Nat) => (i0 + ((i : Int) - 2)) % 8 := funext e
  unfold wholeJ2 closed2
  dsimp only
  rw [e0, e1]
  decide +kernel

/-- the hypotheses of `gauss_stored2` (and so of `gauss_pic2`, `rho_stored2` and `patches_transparent2`) together: the two
particles of `trip`, no field at first -/
example : ∃ (σ : Nat → Dom 2) (ρ : Nat → Nat → Arr 2),
    let P : Par 2 := ⟨![1, 1], 9, 1⟩
    let loc := createPatches2 2 2
    let nbr := neighborIpatch2 2 2 per per (createPatches2 2 2) loc
    let S := solver2 4 4 3 loc.length nbr P
    let s := syncCurrents2 4 4 3 loc.length nbr
    let g := place2 2 2 per per loc
    let d : Fin 2 → ℚ := ![1, 1]
    let n : Fin 2 → Nat := ![4, 4]
    let N : Fin 2 → Nat := ![2 * 4, 2 * 4]
    (∀ a, 0 < d a) ∧ P.d = d ∧ (∀ p, p ∈ loc ↔ p ∈ createPatches2 2 2) ∧ loc.Nodup ∧ vacuum.Per ![2, 2] ![4, 4] ∧
    Rep S g (σ 0) vacuum ∧
    (∀ i, AllFit2 n 3 d (1 / 2) loc.length g.coord (trip i)) ∧
    (∀ i, NextStep (Moved2 (fun a => N a * d a) (1 / 2)) (everyone2 loc.length (trip i)) (everyone2 loc.length (trip (i + 1)))) ∧
    (∀ i, Step S s (1 / 2) (patchDeposit2 n 3 d (1 / 2) g.coord (trip i)) (ρ i) (σ i) (σ (i + 1))) ∧
    (∀ τ0, S.Half1 (1 / 2) (σ 0) τ0 → ∀ t v, t < loc.length → Own n v → divE2 P (cellsOf n 3 (τ0 t).e) v
      = chargeDensity2 N d (-((1 / 2) / 2)) (everyone2 loc.length (trip 0)) (globalCell n (g.coord t) v) / P.eps0) := by
  let P : Par 2 := ⟨![1, 1], 9, 1⟩
  let loc := createPatches2 2 2
  let nbr := neighborIpatch2 2 2 per per (createPatches2 2 2) loc
  let S := solver2 4 4 3 loc.length nbr P
  let s := syncCurrents2 4 4 3 loc.length nbr
  let g := place2 2 2 per per loc
  let d : Fin 2 → ℚ := ![1, 1]
  let n : Fin 2 → Nat := ![4, 4]
  obtain ⟨σ, ρ, hrep, hstep⟩ := pic_exists S s g (1 / 2) (fun i => patchDeposit2 n 3 d (1 / 2) g.coord (trip i)) vacuum
  have hd : ∀ a, 0 < d a := fun a => match a with
    | 0 => by decide +kernel
    | 1 => by decide +kernel
  have hmem : ∀ p, p ∈ loc ↔ p ∈ createPatches2 2 2 := fun _ => Iff.rfl
  have hnd := nodup_createPatches2 2 2
  have hper : vacuum.Per ![2, 2] ![4, 4] := ⟨fun _ _ _ _ => rfl, fun _ _ _ _ => rfl, fun _ _ _ _ => rfl⟩
  refine ⟨σ, ρ, hd, rfl, hmem, hnd, hper, hrep, trip_fit, trip_next, hstep, ?_⟩
  intro τ0 h t v ht hv
  rw [show chargeDensity2 ![2 * 4, 2 * 4] ![1, 1] (-((1 / 2) / 2)) (everyone2 loc.length (trip 0))
    (globalCell ![4, 4] (g.coord t) v) = 0 from trip_start _]
  exact (trip_vacuum (σ 0) hrep h ht hv).trans (zero_div _).symm

/-! ## too few guard cells -/

/-- one particle of charge 1 in patch 0, moving by 67/100 of a cell per step along x -/
def slip (t : Nat) : List (ℚ × List Part2) :=
  if t = 0 then [(1, [⟨.val (4169 / 1000), .val 1, ⟨67 / 100 / 299792458, 0, 0, 1, 1⟩, false⟩])] else []

/-- what `slip` adds to the `rho` array with the given axes, with the index arithmetic written out -/
def slipRho (gx gy : Grid1) (l : Fin 2 → Int) : ℚ :=
  let ax := axisOf gx (4169 / 1000) (67 / 100) 1
  let ay := axisOf gy 1 0 1
  (∑ i ∈ Finset.range 5, if (ax.i0 + ((i : Int) - 2)) % gx.n = l 0 then ax.S1 i else 0) *
    (∑ i ∈ Finset.range 5, if (ay.i0 + ((i : Int) - 2)) % gy.n = l 1 then ay.S1 i else 0)

theorem slip_rho {gx gy : Grid1} (hx : 0 < gx.n) (hy : 0 < gy.n) (dx : gx.d = 1) (dy : gy.d = 1) (l : Fin 2 → Int) :
    field ((living2 (slip 0)).foldl (dep2 gx gy 1) zeroAcc) 3 l = slipRho gx gy l := by
  rw [dep2_fold (gx := gx) (gy := gy) ⟨hx, by rw [dx]; norm_num⟩ ⟨hy, by rw [dy]; norm_num⟩ (by norm_num) _
    (by rw [dx, dy]; decide +kernel), zero_field, zero_add]
  have e : living2 (slip 0) = [⟨1, 4169 / 1000, 1, ⟨67 / 100 / 299792458, 0, 0, 1, 1⟩⟩] := rfl
  have hvx : Mom.vx ⟨67 / 100 / 299792458, 0, 0, 1, 1⟩ = 67 / 100 := by decide +kernel
  have hvy : Mom.vy ⟨67 / 100 / 299792458, 0, 0, 1, 1⟩ = 0 := by decide +kernel
  rw [e, List.map_singleton, List.sum_singleton]
  show 1 * 1 / (gx.d * gy.d) * (proj (wrapIdx gx.n (axisOf gx (4169 / 1000) (Mom.vx _) 1).i0) _ _
    * proj (wrapIdx gy.n (axisOf gy 1 (Mom.vy _) 1).i0) _ _) = _
  rw [hvx, hvy, dx, dy]
  unfold proj slipRho
  simp only [wrapIdx_eq _ hx, wrapIdx_eq _ hy]
  ring

/-- **C65 fails with two guard cells.** `n_guard = 2` is a value the configuration accepts, and the particle starts its
step inside its patch (below the bound 7/2) and moves less than the Courant limit of a square grid (0.95/√2 of a cell),
but part of its charge is written to the guard cells on the other side of its patch: the next patch has less charge in
its cell 2 than the deposition on the undivided array gives, under every thread schedule. -/
theorem small_guard_fails :
    let n : Fin 2 → Nat := ![4, 4]
    let d : Fin 2 → ℚ := ![1, 1]
    let loc := createPatches2 3 1
    let g := place2 3 1 per per loc
    let s := syncCurrents2 4 4 2 loc.length (neighborIpatch2 3 1 per per (createPatches2 3 1) loc)
    (∀ m ∈ living2 (slip 0), |m.mom.vx * 1| * |m.mom.vx * 1| < (95 / 100) ^ 2 / 2 ∧ m.mom.vy = 0 ∧
      -1 / 2 ≤ m.x - m.mom.vx * 1 ∧ m.x - m.mom.vx * 1 < 7 / 2) ∧
    ∀ m' : Loc 2 → ℚ, s.CurrentRun (fun l => field (patchDeposit2 n 2 d 1 g.coord slip l.1) 3 l.2) m' →
      m' (1, index n 2 ![2, 1]) < field (undivided2 ![12, 4] d 1 (everyone2 loc.length slip)) 3 (globalCell n (g.coord 1) ![2, 1]) := by
  intro n d loc g s
  refine ⟨by decide +kernel, fun m' hrun => ?_⟩
  have h := (current_exchange2 (by decide) (by decide) (bx := per) (by' := per) rfl rfl (fun p hp => hp)
    (nodup_createPatches2 3 1) hrun).1 1 ![2, 1] (by decide) (fun a => match a with | 0 => by decide | 1 => by decide)
  have h' : m' (1, index n 2 ![2, 1]) = _ := h
  have hv : ∀ u w, field (patchDeposit2 n 2 d 1 g.coord slip u) 3 w
      = if u = 0 then slipRho (patchAxis 4 2 1 0) (patchAxis 4 2 1 0) w else 0 := by
    intro u w
    unfold patchDeposit2
    rw [depositAll2_fold]
    by_cases hu : u = 0
    · subst hu
      rw [if_pos rfl]
      exact slip_rho (by decide) (by decide) rfl rfl w
    · rw [if_neg hu]
      have : slip u = [] := if_neg hu
      rw [this]
      exact zero_field 3 w
  have hw : field (undivided2 ![12, 4] d 1 (everyone2 loc.length slip)) 3 (globalCell n (g.coord 1) ![2, 1])
      = slipRho ⟨12, 1, 0⟩ ⟨4, 1, 0⟩ (globalCell n (g.coord 1) ![2, 1]) := by
    have e : everyone2 loc.length slip = living2 (slip 0) := rfl
    rw [e]
    exact slip_rho (by decide) (by decide) rfl rfl _
  rw [h', hw]
  unfold at'
  simp only [hv]
  decide +kernel

end Verif.PicStep
