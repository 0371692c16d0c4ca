import Verif.Proofs.WholeRunParts
/-!
# Complete runs in two dimensions: what the general argument needs
-/
namespace Verif.WholeRun
open Verif.Maxwell Verif.SyncFields Verif.Pusher Verif.Deposit Verif.Geometry Verif.Neighbors Verif.PicSpec Verif.Shape
open Verif.MpiExchange Verif.PusherProps Verif.ExchangeProps Verif.DepositProps
open Verif.Exchange (alive living)
open Verif.PicStep (field zeroAcc undivided2 patchDeposit2 wholeJ2 closed2)
open Verif.Particles (F64)

/-- places of the patches of a configuration -/
def Conf.place2 (C : Conf 2) : Place 2 :=
  SyncFields.place2 (C.np 0) (C.np 1) perBC perBC (createPatches2 (C.np 0) (C.np 1))

/-- the laws of the undivided simulation of a configuration -/
noncomputable def Conf.phys2 (C : Conf 2) : Phys 2 :=
  WholeRun.phys2 (fun a => C.np a * C.n a) C.d C.c2 C.eps0 C.dt C.rs

/-- the kernels of a patch -/
def Conf.kern2 (C : Conf 2) (sp : Species) (o : Fin 2 → ℚ) (F : Fields 2) : Kern 2 :=
  kern2U ⟨C.n 0 + 2 * C.ng, C.d 0, o 0⟩ ⟨C.n 1 + 2 * C.ng, C.d 1, o 1⟩ F sp.q C.dt

theorem vec2 {α : Type*} (f : Fin 2 → α) : ![f 0, f 1] = f := by
  funext a; match a with | 0 => rfl | 1 => rfl

/-! ## interpolation -/

/-- what a particle reads from the arrays of its patch is what it would read from the undivided grid -/
theorem see_cell2 {nx ny ng : Nat} {A : Arr 2} {H : (Fin 2 → Int) → ℚ} {c : Fin 2 → Nat} (hng : 2 ≤ ng)
    (hA : ∀ w, InRange ![nx, ny] ng w → A (index ![nx, ny] ng w) = H (globalCell ![nx, ny] c w)) {X Y : ℚ}
    (hX : -1 ≤ X ∧ X ≤ nx) (hY : -1 ≤ Y ∧ Y ≤ ny) {sx sy : ℚ} (hx : sx = 0 ∨ sx = 1 / 2) (hy : sy = 0 ∨ sy = 1 / 2)
    (gx gy : Grid1) (ex : gx.n = nx + 2 * ng) (ey : gy.n = ny + 2 * ng) :
    sample2 sx sy X Y (stored2 gx gy A)
      = sample2 sx sy (X + ((c 0 * nx : Int) : ℚ)) (Y + ((c 1 * ny : Int) : ℚ)) fun m n => H ![m, n] := by
  rw [sample2_add]
  refine sample_congr fun m m1 m2 => sample_congr fun n n1 n2 => ?_
  have r1 := near_range hng hX.1 hX.2 hx m1 m2
  have r2 := near_range hng hY.1 hY.2 hy n1 n2
  have h := hA ![m, n] (fun a => match a with | 0 => r1 | 1 => r2)
  have e1 : index ![nx, ny] ng ![m, n] = ![if 0 ≤ m then m else m + gx.n, if 0 ≤ n then n else n + gy.n] := by
    funext a
    match a with
    | 0 => show wrapIx (nx + 2 * ng) m = _; rw [ex]; rfl
    | 1 => show wrapIx (ny + 2 * ng) n = _; rw [ey]; rfl
  have e2 : globalCell ![nx, ny] c ![m, n] = ![m + c 0 * nx, n + c 1 * ny] := by
    funext a
    match a with
    | 0 => exact add_comm _ _
    | 1 => exact add_comm _ _
  unfold stored2
  rw [← e1, h, e2]

theorem see_congr2 {np n : Fin 2 → Nat} {d : Fin 2 → ℚ} (hd : ∀ a, 0 < d a) {G : GF 2} {x y : Fin 2 → ℚ}
    (hper : G.Per np n) (h : ∀ i, ∃ z : ℤ, x i = y i + z * len np n d i) : see2 d G x = see2 d G y := by
  obtain ⟨z0, h0⟩ := h 0
  obtain ⟨z1, h1⟩ := h 1
  have key : ∀ (sx sy : ℚ) (V : V3 2) (f : Fin 3), Periodic np n V →
      sample2 sx sy (x 0 / d 0) (x 1 / d 1) (fun m n => V f ![m, n])
        = sample2 sx sy (y 0 / d 0) (y 1 / d 1) fun m n => V f ![m, n] := by
    intro sx sy V f hV
    rw [h0, h1, len_div (hd 0).ne', len_div (hd 1).ne', sample2_add]
    congr 1
    funext m n'
    apply hV
    intro a
    match a with
    | 0 => exact Int.modEq_iff_dvd.mpr ⟨-z0, by show m - (m + z0 * _) = _; ring⟩
    | 1 => exact Int.modEq_iff_dvd.mpr ⟨-z1, by show n' - (n' + z1 * _) = _; ring⟩
  unfold see2
  dsimp only
  rw [key _ _ _ _ hper.e, key _ _ _ _ hper.e, key _ _ _ _ hper.e, key _ _ _ _ hper.b, key _ _ _ _ hper.b,
    key _ _ _ _ hper.b]

theorem interp_see2 (C : Conf 2) (hng : 2 ≤ C.ng) (hd : ∀ a, 0 < C.d a) (hnp : ∀ a, 0 < C.np a) (sp : Species)
    {t : Nat} {σ : Dom 2} {G : GF 2} {v : Fin 2 → ℚ} (ht : t < (sys2 C).npatches)
    (hrep : Rep (sys2 C).solver C.place2 σ G)
    (hv : ∀ i, -1 ≤ v i / C.d i - C.place2.coord t i * (sys2 C).solver.sync.n i ∧
      v i / C.d i - C.place2.coord t i * (sys2 C).solver.sync.n i ≤ (sys2 C).solver.sync.n i) :
    (C.kern2 sp ((sys2 C).origin t) (σ t)).interp v = see2 C.d G v := by
  have o : ∀ a, (sys2 C).origin t a = C.place2.coord t a * C.n a * C.d a := fun a => axis_x0 C a (hnp a) _
  show interp2Unified _ _ (σ t) (v 0) (v 1) = _
  rw [interp2Unified_eq]
  have hs := interp2_samples ⟨C.n 0 + 2 * C.ng, C.d 0, (sys2 C).origin t 0⟩ ⟨C.n 1 + 2 * C.ng, C.d 1, (sys2 C).origin t 1⟩
    (σ t) (v 0) (v 1)
  have c0 : ∀ a, (v a - (sys2 C).origin t a) / C.d a = v a / C.d a - C.place2.coord t a * C.n a := by
    intro a
    have := (hd a).ne'
    rw [o a]; field_simp
  have b : ∀ a, v a / C.d a - C.place2.coord t a * C.n a + ((C.place2.coord t a * C.n a : Int) : ℚ) = v a / C.d a := by
    intro a; push_cast; ring
  have kE : ∀ (sx sy : ℚ) (f : Fin 3), (sx = 0 ∨ sx = 1 / 2) → (sy = 0 ∨ sy = 1 / 2) → ∀ gx gy : Grid1,
      gx = ⟨C.n 0 + 2 * C.ng, C.d 0, (sys2 C).origin t 0⟩ → gy = ⟨C.n 1 + 2 * C.ng, C.d 1, (sys2 C).origin t 1⟩ →
      sample2 sx sy (cellCoord gx (v 0)) (cellCoord gy (v 1)) (stored2 gx gy ((σ t).e f))
        = sample2 sx sy (v 0 / C.d 0) (v 1 / C.d 1) fun m n => G.e f ![m, n] := by
    rintro sx sy f hx hy _ _ rfl rfl
    have := see_cell2 (c := C.place2.coord t) hng (fun w hw => hrep.e t ht f w hw) (hv 0) (hv 1) hx hy
      ⟨C.n 0 + 2 * C.ng, C.d 0, (sys2 C).origin t 0⟩ ⟨C.n 1 + 2 * C.ng, C.d 1, (sys2 C).origin t 1⟩ rfl rfl
    unfold cellCoord
    dsimp only
    rw [c0 0, c0 1]
    refine this.trans ?_
    rw [show (C.place2.coord t 0 * C.n 0 : Int) = (C.place2.coord t 0 * C.n 0 : Int) from rfl]
    congr 1
    · exact b 0
    · exact b 1
  have kB : ∀ (sx sy : ℚ) (f : Fin 3), (sx = 0 ∨ sx = 1 / 2) → (sy = 0 ∨ sy = 1 / 2) → ∀ gx gy : Grid1,
      gx = ⟨C.n 0 + 2 * C.ng, C.d 0, (sys2 C).origin t 0⟩ → gy = ⟨C.n 1 + 2 * C.ng, C.d 1, (sys2 C).origin t 1⟩ →
      sample2 sx sy (cellCoord gx (v 0)) (cellCoord gy (v 1)) (stored2 gx gy ((σ t).b f))
        = sample2 sx sy (v 0 / C.d 0) (v 1 / C.d 1) fun m n => G.b f ![m, n] := by
    rintro sx sy f hx hy _ _ rfl rfl
    have := see_cell2 (c := C.place2.coord t) hng (fun w hw => hrep.b t ht f w hw) (hv 0) (hv 1) hx hy
      ⟨C.n 0 + 2 * C.ng, C.d 0, (sys2 C).origin t 0⟩ ⟨C.n 1 + 2 * C.ng, C.d 1, (sys2 C).origin t 1⟩ rfl rfl
    unfold cellCoord
    dsimp only
    rw [c0 0, c0 1]
    refine this.trans ?_
    congr 1
    · exact b 0
    · exact b 1
  have z : (0 : ℚ) = 0 ∨ (0 : ℚ) = 1 / 2 := Or.inl rfl
  have h : (1 / 2 : ℚ) = 0 ∨ (1 / 2 : ℚ) = 1 / 2 := Or.inr rfl
  obtain ⟨s1, s2, s3, s4, s5, s6⟩ := hs
  rw [kE _ _ _ h z _ _ rfl rfl] at s1
  rw [kE _ _ _ z h _ _ rfl rfl] at s2
  rw [kE _ _ _ z z _ _ rfl rfl] at s3
  rw [kB _ _ _ z h _ _ rfl rfl] at s4
  rw [kB _ _ _ h z _ _ rfl rfl] at s5
  rw [kB _ _ _ h h _ _ rfl rfl] at s6
  unfold see2
  dsimp only
  rw [← s1, ← s2, ← s3, ← s4, ← s5, ← s6]

/-! ## currents -/

/-- a slot as the deposition reads it -/
def part2 (s : Slot 2) : Part2 := ⟨s.pos 0, s.pos 1, s.mom, s.dead⟩

/-- the slots of all species of every patch -/
def slots2 (N : Nat) (parts : List (Species × (Nat → List (Slot 2)))) (t : Nat) : List (ℚ × List Part2) :=
  if t < N then parts.map fun a => (a.1.q, (a.2 t).map part2) else []

theorem nums2 (pos : Fin 2 → F64) : nums pos = match pos 0, pos 1 with
    | .val x, .val y => some ![x, y]
    | _, _ => none := by
  unfold nums
  cases h0 : pos 0 with
  | nan => rw [if_neg (fun h => h 0 h0)]
  | val x =>
    cases h1 : pos 1 with
    | nan => rw [if_neg (fun h => h 1 h1)]
    | val y =>
      rw [if_pos (fun a => match a with | 0 => by rw [h0]; simp | 1 => by rw [h1]; simp)]
      congr 1
      funext a
      match a with
      | 0 => simp only [h0]; rfl
      | 1 => simp only [h1]; rfl

theorem macro_part2 (q : ℚ) (s : Slot 2) :
    macro2 q (part2 s) = (ptc s).map fun p => ⟨q, p.pos 0, p.pos 1, p.mom⟩ := by
  unfold macro2 ptc part2
  rw [nums2]
  obtain ⟨pos, mom, eb, dd⟩ := s
  cases dd with
  | true => rfl
  | false =>
    dsimp only
    cases h0 : pos 0 with
    | nan => rfl
    | val x => cases h1 : pos 1 with
      | nan => rfl
      | val y => rfl

theorem dep_part2 {gx gy : Grid1} (hx : gx.d ≠ 0) (hy : gy.d ≠ 0) {dt : ℚ} (hdt : dt ≠ 0) (q : ℚ) (F : Fields 2)
    (ps : List (Slot 2)) (acc : Acc 2) :
    ps.foldl (depChecked (kern2U gx gy F q dt)) acc = depositPatch2 gx gy dt q (ps.map part2) acc := by
  unfold depositPatch2
  induction ps generalizing acc with
  | nil => rfl
  | cons s ps ih =>
    rw [List.foldl_cons, ih, List.map_cons, List.foldl_cons]
    congr 1
    obtain ⟨pos, mom, eb, dd⟩ := s
    have hn := nums2 pos
    unfold depChecked depOne part2
    cases dd with
    | true => rfl
    | false =>
      cases h0 : pos 0 with
      | nan =>
        rw [h0] at hn
        simp only [hn, h0]
        rfl
      | val x => cases h1 : pos 1 with
        | nan =>
          rw [h0, h1] at hn
          simp only [hn, h0, h1]
          rfl
        | val y =>
          rw [h0, h1] at hn
          simp only [hn, h0, h1]
          exact fast_eq_ref2 gx gy hx hy dt q x y hdt mom acc

theorem depParts_all2 (C : Conf 2) (hd : ∀ a, 0 < C.d a) (hdt : C.dt ≠ 0) (hnp : ∀ a, 0 < C.np a) (σ : Dom 2)
    (parts : List (Species × (Nat → List (Slot 2)))) {t : Nat} (ht : t < (sys2 C).npatches) :
    depParts (fun sp => C.kern2 sp ((sys2 C).origin t) (σ t)) parts t
      = patchDeposit2 ![C.n 0, C.n 1] C.ng C.d C.dt C.place2.coord (slots2 (sys2 C).npatches parts) t := by
  have o : ∀ a, (sys2 C).origin t a = C.place2.coord t a * C.n a * C.d a := fun a => axis_x0 C a (hnp a) _
  unfold depParts patchDeposit2 PicStep.depositAll2 slots2
  rw [if_pos ht, List.foldl_map]
  congr 1
  funext acc a
  dsimp only
  unfold Conf.kern2
  rw [dep_part2 (hd 0).ne' (hd 1).ne' hdt]
  unfold PicStep.patchAxis
  rw [o 0, o 1]
  rfl

theorem everyone_macros2 (N : Nat) (parts : List (Species × (Nat → List (Slot 2)))) :
    (everyone2 N (slots2 N parts)).Perm (macros2 (cloudOf N parts)) := by
  have e1 : everyone2 N (slots2 N parts) = (List.range N).flatMap fun t => parts.flatMap fun a =>
      (a.2 t).filterMap fun s => macro2 a.1.q (part2 s) := by
    unfold everyone2
    apply List.flatMap_congr
    intro t ht
    unfold living2 slots2
    rw [if_pos (List.mem_range.mp ht), List.flatMap_map]
    apply List.flatMap_congr
    intro a _
    dsimp only
    rw [List.filterMap_map]
    rfl
  have e2 : macros2 (cloudOf N parts) = parts.flatMap fun a => (List.range N).flatMap fun t =>
      (a.2 t).filterMap fun s => macro2 a.1.q (part2 s) := by
    unfold macros2 cloudOf
    rw [List.flatMap_map]
    apply List.flatMap_congr
    intro a _
    unfold particles
    dsimp only
    rw [List.map_flatMap]
    apply List.flatMap_congr
    intro t _
    rw [List.map_filterMap]
    apply List.filterMap_congr
    intro s _
    exact (macro_part2 _ _).symm
  rw [e1, e2]
  exact flatMap_swap _ _ _

theorem vx_eq (m : Mom) : m.vx = vel m 0 := rfl

/-- the currents of all particles of the undivided grid, as a sum -/
theorem cur_sum2 {N : Fin 2 → Nat} (hN : ∀ a, 0 < N a) {d : Fin 2 → ℚ} (hd : ∀ a, 0 < d a) {dt : ℚ} (hdt : dt ≠ 0)
    {cl : List (Kind × List (Ptc 2))} (hv : ∀ s ∈ cl, ∀ p ∈ s.2, ∀ i : Fin 2, |vel p.mom i * dt| ≤ d i) (f : Fin 3)
    (c : Fin 2 → Int) : cur2 N d dt cl f c = (cl.map fun s => (s.2.map fun p =>
      closed2 ⟨N 0, d 0, 0⟩ ⟨N 1, d 1, 0⟩ dt ⟨s.1.q, p.pos 0, p.pos 1, p.mom⟩ f.castSucc fun a => c a % (N a : Int)).sum).sum := by
  have hall : ∀ m ∈ macros2 cl, |m.mom.vx * dt| ≤ d 0 ∧ |m.mom.vy * dt| ≤ d 1 := by
    intro m hm
    obtain ⟨s, hs, hm⟩ := List.mem_flatMap.mp hm
    obtain ⟨p, hp, rfl⟩ := List.mem_map.mp hm
    exact ⟨hv s hs p hp 0, hv s hs p hp 1⟩
  have hc : ∀ a, 0 ≤ c a % (N a : Int) ∧ c a % (N a : Int) < N a := fun a =>
    have : (0 : Int) < N a := by exact_mod_cast hN a
    ⟨Int.emod_nonneg _ this.ne', Int.emod_lt_of_pos _ this⟩
  unfold cur2
  rw [PicStep.undivided_whole2 hN hd hdt hall f.castSucc hc]
  unfold wholeJ2 macros2
  rw [List.map_flatMap]
  simp only [Int.emod_emod_of_dvd, dvd_refl, List.map_map]
  rw [List.flatMap_def, List.sum_flatten, List.map_map]
  rfl

theorem cur_congr2 {np n : Fin 2 → Nat} (hN : ∀ a, 0 < np a * n a) {d : Fin 2 → ℚ} (hd : ∀ a, 0 < d a) {dt : ℚ} (hdt : dt ≠ 0)
    {a b : List (Kind × List (Ptc 2))} (hab : SameCloud (len np n d) a b)
    (hv : ∀ s ∈ a, ∀ p ∈ s.2, ∀ i : Fin 2, |vel p.mom i * dt| ≤ d i) :
    cur2 (fun a => np a * n a) d dt a = cur2 (fun a => np a * n a) d dt b := by
  have hv' := hab.moms (P := fun m => ∀ i : Fin 2, |vel m i * dt| ≤ d i) hv
  funext f c
  rw [cur_sum2 hN hd hdt hv, cur_sum2 hN hd hdt hv']
  refine cloud_sum (h := fun κ p => closed2 ⟨np 0 * n 0, d 0, 0⟩ ⟨np 1 * n 1, d 1, 0⟩ dt ⟨κ.q, p.pos 0, p.pos 1, p.mom⟩ f.castSucc
    fun a => c a % ((np a * n a : Nat) : Int)) ?_ hab
  intro κ p q hpq
  obtain ⟨z0, h0⟩ := hpq.2 0
  obtain ⟨z1, h1⟩ := hpq.2 1
  have l : ∀ i, len np n d i = ((np i * n i : Nat) : ℚ) * d i := by intro i; unfold len; push_cast; ring
  rw [hpq.1, h0, h1, l, l]
  unfold closed2
  rw [axisOf_shift (hd 0).ne', axisOf_shift (hd 1).ne', wrapIdx_shift (hN 0), wrapIdx_shift (hN 1)]
  rfl

theorem cur_per2 {np n : Fin 2 → Nat} (d : Fin 2 → ℚ) (dt : ℚ) (cl : List (Kind × List (Ptc 2))) :
    Periodic np n (cur2 (fun a => np a * n a) d dt cl) := by
  intro f v w h
  unfold cur2
  congr 1
  funext a
  have := h a
  push_cast
  exact this

theorem currents2 (C : Conf 2) (hng : 1 ≤ C.ng) (hle : ∀ a, C.ng ≤ C.n a) (hd : ∀ a, 0 < C.d a) (hdt : C.dt ≠ 0)
    (hnp : ∀ a, 0 < C.np a) (σ : Dom 2) (parts : List (Species × (Nat → List (Slot 2)))) (acc : Nat → Acc 2)
    (rk : Nat → Nat) (f : Fin 3) (m' : Loc 2 → ℚ)
    (hacc : ∀ t, t < (sys2 C).npatches → acc t = depParts (fun sp => C.kern2 sp ((sys2 C).origin t) (σ t)) parts t)
    (hacc0 : ∀ t, ¬ t < (sys2 C).npatches → acc t = zeroAcc)
    (hfit : Fit (sys2 C).npatches ![C.n 0, C.n 1] C.ng C.place2.coord C.d C.dt parts)
    (hrun : CurrentExchange ((sys2 C).curLoc rk) ((sys2 C).curMpi rk) (fun l => field (acc l.1) f.castSucc l.2) m')
    {t : Nat} {v : Fin 2 → Int} (ht : t < (sys2 C).npatches) (hv : Own ![C.n 0, C.n 1] v) :
    m' (t, index ![C.n 0, C.n 1] C.ng v) = cur2 (fun a => C.np a * C.n a) C.d C.dt (cloudOf (sys2 C).npatches parts) f
      (globalCell ![C.n 0, C.n 1] (C.place2.coord t) v) := by
  obtain ⟨m'', h⟩ : ∃ m'', (syncCurrents2 (C.n 0) (C.n 1) C.ng (sys2 C).npatches C.nbr2).CurrentRun
      (fun l => field (acc l.1) f.castSucc l.2) m'' := ⟨_, _, Interleave.isSchedule_seq _ _, rfl⟩
  have hs := current2_shape (N := (sys2 C).npatches) (nbr := C.nbr2) (hle 0) (hle 1)
  have hg := nbrGeo2 (s := syncCurrents2 (C.n 0) (C.n 1) C.ng (sys2 C).npatches C.nbr2) (bx := perBC) (by' := perBC)
    rfl rfl (grid_createPatches2 (C.np 0) (C.np 1)) (fun _ h => h) (nodup_createPatches2 _ _) rfl rfl
  have e := current_ranks (rem := mpiCurrents2 (C.n 0) (C.n 1) C.ng (sys2 C).npatches (remoteNbr rk C.nbr2)) hs (hg.ok hs)
    (currentTab2_eq _ _ _) (mpiCurrents2_shape (hle 0) (hle 1)) rfl rfl rfl rfl hrun h t v ht (hv.inRange _)
  refine e.trans ?_
  have hacc' : ∀ t, acc t = patchDeposit2 ![C.n 0, C.n 1] C.ng C.d C.dt C.place2.coord (slots2 (sys2 C).npatches parts) t := by
    intro t
    by_cases ht : t < (sys2 C).npatches
    · rw [hacc t ht, depParts_all2 C hd hdt hnp σ parts ht]
    · rw [hacc0 t ht]
      unfold patchDeposit2 slots2
      rw [if_neg ht]
      rfl
  have hfit' : PicStep.AllFit2 ![C.n 0, C.n 1] C.ng C.d C.dt (sys2 C).npatches C.place2.coord (slots2 (sys2 C).npatches parts) := by
    intro t ht m hm
    unfold slots2 at hm
    rw [if_pos ht] at hm
    obtain ⟨s, hs, hm⟩ := List.mem_flatMap.mp hm
    obtain ⟨a, ha, rfl⟩ := List.mem_map.mp hs
    obtain ⟨p, hp, hm⟩ := List.mem_filterMap.mp hm
    obtain ⟨sl, hsl, rfl⟩ := List.mem_map.mp hp
    rw [macro_part2] at hm
    cases hpt : ptc sl with
    | none => rw [hpt] at hm; cases hm
    | some p =>
      rw [hpt] at hm
      injection hm with hm
      subst hm
      obtain ⟨h1, h2, h3⟩ := ptc_eq hpt
      obtain ⟨w, hw, hF⟩ := hfit a ha t ht sl hsl h1
      rw [h2] at hw
      injection hw with hw
      subst hw
      dsimp only
      rw [← h3]
      exact ⟨hF 0, hF 1⟩
  have key := PicStep.patches_transparent2 (npx := C.np 0) (npy := C.np 1) hng (hle 0) (hle 1) hd hdt
    (loc := createPatches2 (C.np 0) (C.np 1)) (fun _ h => h) (nodup_createPatches2 _ _)
    (slots2 (sys2 C).npatches parts) hfit' f.castSucc m'' (by simp only [hacc'] at h; exact h) t v ht hv
  refine key.trans ?_
  have hn : ∀ a, 0 < C.n a := fun a => lt_of_lt_of_le (by omega) (hle a)
  have hN : ∀ a, 0 < C.np a * C.n a := fun a => Nat.mul_pos (hnp a) (hn a)
  have hall : ∀ m ∈ everyone2 (sys2 C).npatches (slots2 (sys2 C).npatches parts),
      |m.mom.vx * C.dt| ≤ C.d 0 ∧ |m.mom.vy * C.dt| ≤ C.d 1 := by
    intro m hm
    obtain ⟨u, hu, hm⟩ := List.mem_flatMap.mp hm
    have := hfit' u (List.mem_range.mp hu) m hm
    exact ⟨this.1.1, this.2.1⟩
  have hpm := everyone_macros2 (sys2 C).npatches parts
  have hall' : ∀ m ∈ macros2 (cloudOf (sys2 C).npatches parts), |m.mom.vx * C.dt| ≤ C.d 0 ∧ |m.mom.vy * C.dt| ≤ C.d 1 :=
    fun m hm => hall m (hpm.mem_iff.mpr hm)
  have hc : ∀ a, 0 ≤ globalCell ![C.n 0, C.n 1] (C.place2.coord t) v a ∧
      globalCell ![C.n 0, C.n 1] (C.place2.coord t) v a < ((C.np a * C.n a : Nat) : Int) := fun a =>
    match a with
    | 0 => PicStep.globalCell_lt2 (npx := C.np 0) (npy := C.np 1) (fun _ h => h) ht hv 0
    | 1 => PicStep.globalCell_lt2 (npx := C.np 0) (npy := C.np 1) (fun _ h => h) ht hv 1
  unfold cur2
  have em : (fun a => globalCell ![C.n 0, C.n 1] (C.place2.coord t) v a % ((C.np a * C.n a : Nat) : Int))
      = globalCell ![C.n 0, C.n 1] (C.place2.coord t) v := funext fun a => Int.emod_eq_of_lt (hc a).1 (hc a).2
  rw [em, PicStep.undivided_whole2 (N := fun a => C.np a * C.n a) hN hd hdt hall' f.castSucc hc]
  refine (PicStep.undivided_whole2 (N := fun a => C.np a * C.n a) hN hd hdt hall f.castSucc hc).trans ?_
  exact (hpm.map _).sum_eq

/-! ## particle exchange -/

theorem exch2 (C : Conf 2) (hn : ∀ a, 0 < C.n a) (hd : ∀ a, 0 < C.d a) (hnp : ∀ a, 0 < C.np a)
    (ps : Nat → List (Slot 2)) (hps : ∀ t, t < (sys2 C).npatches → ∀ s ∈ ps t, s.dead = false → ∃ v, nums s.pos = some v ∧
      Nearby ![C.n 0, C.n 1] (C.place2.coord t) C.d v) (rk : Nat → Nat) {ord2 ord3 : List Nat} (blank : A2 (Mom × EB))
    (h2 : ord2.Perm (List.range (sys2 C).npatches)) (h3 : ord3.Perm (List.range (sys2 C).npatches)) :
    ∃ s', parSync ((sys2 C).geo blank) rk ord2 ord3 (fun t => (ps t).map (sys2 C).pack) = some s' ∧
      SameParticles (len C.np C.n C.d) (particles (sys2 C).npatches fun t => (s' t).map (sys2 C).unpack)
        (particles (sys2 C).npatches ps) ∧
      ∀ t, t < (sys2 C).npatches → ∀ s ∈ (s' t).map (sys2 C).unpack, s.dead = false → ∃ v, nums s.pos = some v ∧
        Ins ![C.n 0, C.n 1] (C.place2.coord t) C.d v := by
  have hx := axis_periodic' C 0 (hnp 0) (hn 0) (hd 0)
  have hy := axis_periodic' C 1 (hnp 1) (hn 1) (hd 1)
  have hsym := sym2_of_grid (bx := perBC) (by' := perBC) rfl rfl (grid_createPatches2 (C.np 0) (C.np 1))
    (fun _ h => h) (nodup_createPatches2 (C.np 0) (C.np 1))
  have coord : ∀ t pp, (createPatches2 (C.np 0) (C.np 1))[t]? = some pp → C.place2.coord t = ![pp.ix, pp.iy] := by
    intro t pp h
    show (match (createPatches2 (C.np 0) (C.np 1))[t]? with | some p => ![p.ix, p.iy] | none => ![0, 0]) = _
    rw [h]
  have land : ∀ x ∈ living (sys2 C).npatches (fun t => (ps t).map (sys2 C).pack), ∃ (q : Nat) (v w : Fin 2 → ℚ) (mo : Mom) (eb : EB),
      dest2 C.nbr2 ((C.axis 0).bnd fun ip => ((createPatches2 (C.np 0) (C.np 1))[ip]?.map P2.ix).getD 0)
        ((C.axis 1).bnd fun ip => ((createPatches2 (C.np 0) (C.np 1))[ip]?.map P2.iy).getD 0) x.1 x.2
        = some (q, ⟨.val (w 0), .val (w 1), (mo, eb)⟩) ∧ x.2 = ⟨.val (v 0), .val (v 1), (mo, eb)⟩ ∧
      (∀ i, ∃ z : ℤ, w i = v i + z * len C.np C.n C.d i) ∧ Ins ![C.n 0, C.n 1] (C.place2.coord q) C.d w := by
    intro x hxm
    obtain ⟨hlt, hmem⟩ := mem_living_iff.mp hxm
    obtain ⟨s, hs, e⟩ := List.mem_map.mp hmem
    have hpp : (createPatches2 (C.np 0) (C.np 1))[x.1]? = some (createPatches2 (C.np 0) (C.np 1))[x.1] :=
      List.getElem?_eq_getElem hlt
    have ed : s.dead = false := congrArg Exchange.Slot.dead e
    have ea : x.2 = ⟨s.pos 0, s.pos 1, (s.mom, s.eb)⟩ := (congrArg Exchange.Slot.a e).symm
    obtain ⟨v, hv, hnear⟩ := hps x.1 hlt s hs ed
    rw [coord _ _ hpp] at hnear
    have n0 : Near (C.axis 0) (createPatches2 (C.np 0) (C.np 1))[x.1].ix (v 0) := by
      unfold Near
      rw [axis_lo C 0 (hnp 0), axis_hi C 0 (hnp 0)]
      have e : C.d 0 ≤ C.n 0 * C.d 0 := le_mul_of_one_le_left (hd 0).le (by exact_mod_cast hn 0)
      obtain ⟨q1, q2⟩ := hnear 0
      exact ⟨(sub_le_sub_left e _).trans q1, q2.trans (add_le_add_right e _)⟩
    have n1 : Near (C.axis 1) (createPatches2 (C.np 0) (C.np 1))[x.1].iy (v 1) := by
      unfold Near
      rw [axis_lo C 1 (hnp 1), axis_hi C 1 (hnp 1)]
      have e : C.d 1 ≤ C.n 1 * C.d 1 := le_mul_of_one_le_left (hd 1).le (by exact_mod_cast hn 1)
      obtain ⟨q1, q2⟩ := hnear 1
      exact ⟨(sub_le_sub_left e _).trans q1, q2.trans (add_le_add_right e _)⟩
    obtain ⟨q, qq, hq, hdest, l0, u0, l1, u1⟩ := periodic2_lands_inside (R := Mom × EB) hx hy x.1 _ hpp (v 0) (v 1) (s.mom, s.eb) n0 n1
    have ep : x.2 = ⟨.val (v 0), .val (v 1), (s.mom, s.eb)⟩ := by
      rw [ea, nums_eq_some hv 0, nums_eq_some hv 1]
    refine ⟨q, v, ![foldBack (C.axis 0) (v 0), foldBack (C.axis 1) (v 1)], s.mom, s.eb, ?_, ep, ?_, ?_⟩
    · rw [ep]
      exact hdest
    · intro i
      match i with
      | 0 => exact axis_fold C 0 (v 0)
      | 1 => exact axis_fold C 1 (v 1)
    · rw [axis_lo C 0 (hnp 0)] at l0
      rw [axis_hi C 0 (hnp 0)] at u0
      rw [axis_lo C 1 (hnp 1)] at l1
      rw [axis_hi C 1 (hnp 1)] at u1
      rw [coord _ _ hq]
      intro i
      match i with
      | 0 => exact ⟨l0, u0⟩
      | 1 => exact ⟨l1, u1⟩
  have pv : ∀ (w : Fin 2 → ℚ) (mo : Mom) (eb : EB),
      ptcA (sys2 C).unpack ⟨.val (w 0), .val (w 1), (mo, eb)⟩ = some ⟨w, mo⟩ := by
    intro w mo eb
    have : nums (![.val (w 0), .val (w 1)] : Fin 2 → F64) = some w := by
      rw [nums2]
      show some ![w 0, w 1] = _
      rw [vec2]
    exact ptc_some (s := (sys2 C).unpack ⟨⟨.val (w 0), .val (w 1), (mo, eb)⟩, false⟩) rfl this
  obtain ⟨s', he, hp, _⟩ := MpiExchangeProps.ranks2_conserve rk
    ((C.axis 0).bnd fun ip => ((createPatches2 (C.np 0) (C.np 1))[ip]?.map P2.ix).getD 0)
    ((C.axis 1).bnd fun ip => ((createPatches2 (C.np 0) (C.np 1))[ip]?.map P2.iy).getD 0) blank
    (fun t => (ps t).map (sys2 C).pack) hsym h2 h3
    (fun x hxm => by
      obtain ⟨q, v, w, mo, eb, h, _⟩ := land x hxm
      exact MpiExchangeProps.offset_of_dest2 (by rw [show neighborIpatch2 _ _ _ _ _ _ = C.nbr2 from rfl, h]; rfl))
  have hback : ∀ t, ((ps t).map (sys2 C).pack).map (sys2 C).unpack = ps t := by
    intro t
    rw [List.map_map]
    refine (List.map_congr_left ?_).trans (List.map_id _)
    intro s _
    obtain ⟨pos, mom, eb, dd⟩ := s
    show (⟨![pos 0, pos 1], mom, eb, dd⟩ : Slot 2) = ⟨pos, mom, eb, dd⟩
    rw [vec2]
  refine ⟨s', he, ?_, ?_⟩
  · have := exchange_same (L := len C.np C.n C.d) (sys2 C).unpack (fun _ => rfl) hp (fun x hxm => by
      obtain ⟨q, v, w, mo, eb, h, hx2, hz, _⟩ := land x hxm
      refine ⟨_, ⟨v, mo⟩, ⟨w, mo⟩, h, pv w mo eb, by rw [hx2]; exact pv v mo eb, SamePtc.symm ⟨rfl, hz⟩⟩)
    simp only [hback] at this
    exact this
  · intro t ht s hs hdd
    obtain ⟨b, hb, rfl⟩ := List.mem_map.mp hs
    obtain ⟨a, dd⟩ := b
    have : dd = false := hdd
    subst this
    have hm : (t, a) ∈ living (sys2 C).npatches s' := mem_living_iff.mpr ⟨ht, hb⟩
    obtain ⟨x, hxm, hxd⟩ := List.mem_filterMap.mp (hp.mem_iff.mp hm)
    obtain ⟨q, v, w, mo, eb, h, _, _, hins⟩ := land x hxm
    rw [show neighborIpatch2 _ _ _ _ _ _ = C.nbr2 from rfl, h] at hxd
    injection hxd with hxd
    injection hxd with h1 h2
    subst h1 h2
    exact ⟨w, (ptc_eq (pv w mo eb)).2.1, hins⟩

/-! ## all together -/

theorem facts2 (C : Conf 2) (hng : 2 ≤ C.ng) (hle : ∀ a, C.ng ≤ C.n a) (hd : ∀ a, 0 < C.d a) (hdt : C.dt ≠ 0)
    (hnp : ∀ a, 0 < C.np a) : Facts (sys2 C) C.phys2 C.place2 C.d (fun _ => True) C.kern2 := by
  have hn : ∀ a, 0 < C.n a := fun a => lt_of_lt_of_le (by omega) (hle a)
  have hs := guard2_shape (N := (sys2 C).npatches) (nbr := C.nbr2) (hle 0) (hle 1)
  have hg := nbrGeo2 (s := (sys2 C).solver.sync) (bx := perBC) (by' := perBC)
    rfl rfl (grid_createPatches2 (C.np 0) (C.np 1)) (fun _ h => h) (nodup_createPatches2 _ _) rfl rfl
  have ha := allLocal2 (npx := C.np 0) (npy := C.np 1) (bx := perBC) (by' := perBC) rfl rfl (fun _ h => h)
    (s := (sys2 C).solver.sync) rfl
  have hk := kernel2 (C.n 0) (C.n 1) C.ng (sys2 C).npatches C.nbr2 C.par
  have hnpv : C.place2.np = C.np := vec2 C.np
  have hnv : (sys2 C).solver.sync.n = C.n := vec2 C.n
  constructor
  · constructor
    · intro sp Ps _ hl
      have hu : (sys2 C).push sp Ps = unified2 C.rs (C.runPar sp) Ps := by
        show pushSpecies2 sp.unified C.rs (C.runPar sp) Ps = _
        unfold pushSpecies2
        cases sp.unified with
        | true => rfl
        | false => exact (unified_eq_split2 C.rs (C.runPar sp) (hd 0).ne' (hd 1).ne' hdt Ps hl).symm
      rw [hu]
      unfold unified2
      apply List.map_congr_left
      intro P _
      dsimp only
      rw [unifiedPatch_eq _ _ _ stripSize (by decide)]
      rfl
    · intro sp t σ G v ht hrep _ hv
      exact interp_see2 C hng hd hnp sp ht hrep hv
    · intro σ parts acc rk c m' h1 h2 h3 h4 t v ht hv
      exact currents2 C (by omega) hle hd hdt hnp σ parts acc rk c m' h1 h2 h3 h4 ht hv
    · intro a b hab hv
      rw [hnpv, hnv] at hab
      exact cur_congr2 (fun a => Nat.mul_pos (hnp a) (hn a)) hd hdt hab hv
    · intro G x y hper h
      rw [hnpv, hnv] at hper
      simp only [hnpv, hnv] at h
      exact see_congr2 hd hper h
    · intro x y _; rfl
    · intro ps hps rk ord2 ord3 blank h2 h3
      rw [hnpv]
      simp only [List.filter_true]
      have := exch2 C hn hd hnp ps hps rk blank h2 h3
      rw [← hnv] at this
      exact this
    · intro rk m
      have hs' := current2_shape (N := (sys2 C).npatches) (nbr := C.nbr2) (hle 0) (hle 1)
      have hg' := nbrGeo2 (s := syncCurrents2 (C.n 0) (C.n 1) C.ng (sys2 C).npatches C.nbr2) (bx := perBC) (by' := perBC)
        rfl rfl (grid_createPatches2 (C.np 0) (C.np 1)) (fun _ h => h) (nodup_createPatches2 _ _) rfl rfl
      exact (exchange_exists _ _ (mpiCurrents2_shape (hle 0) (hle 1))
        (NbrOK.remote (rem := mpiCurrents2 (C.n 0) (C.n 1) C.ng (sys2 C).npatches (remoteNbr rk C.nbr2)) (hg'.ok hs') rk rfl rfl) m).2
    · exact ⟨⟨.nan, .nan, (⟨0, 0, 0, 0, 0⟩, ⟨0, 0, 0, 0, 0, 0⟩)⟩⟩
  · rfl
  · rfl
  · intro rk m m' hrun
    obtain ⟨m'', h⟩ : ∃ m'', (syncGuard2 (C.n 0) (C.n 1) C.ng (sys2 C).npatches C.nbr2).GuardRun m m'' :=
      ⟨_, _, Interleave.isSchedule_seq _ _, rfl⟩
    have e : m' = m'' := guard_ranks (rk := rk) (g := syncGuard2 (C.n 0) (C.n 1) C.ng (sys2 C).npatches C.nbr2)
      (rem := mpiGuard2 (C.n 0) (C.n 1) C.ng (sys2 C).npatches (remoteNbr rk C.nbr2)) hs (guardTab2_eq _ _ _)
      (mpiGuardTab2_eq _ _ _) (by intro b; show b ∈ B2.all; cases b <;> decide) rfl rfl rfl hrun h
    rw [e]
    exact h
  · intro G σ σ1 hper hrep ⟨τ, h1, h2⟩
    have r1 := stepE_sync hs hg (guardTab2_eq _ _ _) ha hk (localFE2 C.par) (by show 1 ≤ C.ng; omega) hper hrep _ h1
    have p1 := hper.stepE (localFE2 C.par) (1 / 2 * (sys2 C).dt)
    have r2 := stepB_sync hs hg (guardTab2_eq _ _ _) ha hk (localFB2 C.par) (by show 1 ≤ C.ng; omega) p1 r1 _ h2
    exact ⟨r2, p1.stepB (localFB2 C.par) (1 / 2 * (sys2 C).dt)⟩
  · intro G σ σ' J hper hrep hJ hst
    exact step_rep hs hg (guardTab2_eq _ _ _) ha hk (localFE2 C.par) (localFB2 C.par) (by show 1 ≤ C.ng; omega) hper hrep _ hJ hst
  · intro cl
    rw [hnpv, hnv]
    exact cur_per2 _ _ _
  · intro rk m
    exact ⟨_, _, List.Perm.refl _, rfl⟩

end Verif.WholeRun
