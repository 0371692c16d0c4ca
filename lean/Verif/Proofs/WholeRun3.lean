import Verif.Proofs.WholeRunParts
/-!
# Complete runs in three dimensions: what the general argument needs
-/
namespace Verif.WholeRun
open Verif.Maxwell Verif.SyncFields Verif.Pusher Verif.Deposit Verif.Geometry Verif.Neighbors Verif.PicSpec Verif.Shape
open Verif.MpiExchange Verif.PusherProps Verif.ExchangeProps Verif.DepositProps
open Verif.Exchange (alive living)
open Verif.PicStep (field zeroAcc undivided3 patchDeposit3 wholeJ3 closed3 dep3 dep3Fast)
open Verif.Particles (F64)

/-- the patches of a configuration -/
abbrev Conf.patches3 (C : Conf 3) : List P3 := createPatches3 (C.np 0) (C.np 1) (C.np 2)

/-- places of the patches of a configuration -/
def Conf.place3 (C : Conf 3) : Place 3 :=
  SyncFields.place3 (C.np 0) (C.np 1) (C.np 2) perBC perBC perBC C.patches3

/-- the laws of the undivided simulation of a configuration -/
noncomputable def Conf.phys3 (C : Conf 3) : Phys 3 :=
  WholeRun.phys3 (fun a => C.np a * C.n a) C.d C.c2 C.eps0 C.dt C.rs

/-- the kernels of a patch -/
def Conf.kern3 (C : Conf 3) (sp : Species) (o : Fin 3 → ℚ) (F : Fields 3) : Kern 3 :=
  kern3U ⟨C.n 0 + 2 * C.ng, C.d 0, o 0⟩ ⟨C.n 1 + 2 * C.ng, C.d 1, o 1⟩ ⟨C.n 2 + 2 * C.ng, C.d 2, o 2⟩ F sp.q C.dt

theorem vec3 {α : Type*} (f : Fin 3 → α) : ![f 0, f 1, f 2] = f := by
  funext a; match a with | 0 => rfl | 1 => rfl | 2 => rfl

/-! ## interpolation -/

/-- what a particle reads from the arrays of its patch is what it would read from the undivided grid -/
theorem see_cell3 {nx ny nz ng : Nat} {A : Arr 3} {H : (Fin 3 → Int) → ℚ} {c : Fin 3 → Nat} (hng : 2 ≤ ng)
    (hA : ∀ w, InRange ![nx, ny, nz] ng w → A (index ![nx, ny, nz] ng w) = H (globalCell ![nx, ny, nz] c w)) {X Y Z : ℚ}
    (hX : -1 ≤ X ∧ X ≤ nx) (hY : -1 ≤ Y ∧ Y ≤ ny) (hZ : -1 ≤ Z ∧ Z ≤ nz) {sx sy sz : ℚ} (hx : sx = 0 ∨ sx = 1 / 2)
    (hy : sy = 0 ∨ sy = 1 / 2) (hz : sz = 0 ∨ sz = 1 / 2)
    (gx gy gz : Grid1) (ex : gx.n = nx + 2 * ng) (ey : gy.n = ny + 2 * ng) (ez : gz.n = nz + 2 * ng) :
    sample3 sx sy sz X Y Z (stored3 gx gy gz A)
      = sample3 sx sy sz (X + ((c 0 * nx : Int) : ℚ)) (Y + ((c 1 * ny : Int) : ℚ)) (Z + ((c 2 * nz : Int) : ℚ))
          fun m n l => H ![m, n, l] := by
  rw [sample3_add]
  refine sample_congr fun m m1 m2 => sample_congr fun n n1 n2 => sample_congr fun l l1 l2 => ?_
  have r1 := near_range hng hX.1 hX.2 hx m1 m2
  have r2 := near_range hng hY.1 hY.2 hy n1 n2
  have r3 := near_range hng hZ.1 hZ.2 hz l1 l2
  have h := hA ![m, n, l] (fun a => match a with | 0 => r1 | 1 => r2 | 2 => r3)
  have e1 : index ![nx, ny, nz] ng ![m, n, l]
      = ![if 0 ≤ m then m else m + gx.n, if 0 ≤ n then n else n + gy.n, if 0 ≤ l then l else l + gz.n] := by
    funext a
    match a with
    | 0 => show wrapIx (nx + 2 * ng) m = _; rw [ex]; rfl
    | 1 => show wrapIx (ny + 2 * ng) n = _; rw [ey]; rfl
    | 2 => show wrapIx (nz + 2 * ng) l = _; rw [ez]; rfl
  have e2 : globalCell ![nx, ny, nz] c ![m, n, l] = ![m + c 0 * nx, n + c 1 * ny, l + c 2 * nz] := by
    funext a
    match a with
    | 0 => exact add_comm _ _
    | 1 => exact add_comm _ _
    | 2 => exact add_comm _ _
  unfold stored3
  dsimp only
  rw [← e1, h, e2]

theorem see_congr3 {np n : Fin 3 → Nat} {d : Fin 3 → ℚ} (hd : ∀ a, 0 < d a) {G : GF 3} {x y : Fin 3 → ℚ}
    (hper : G.Per np n) (h : ∀ i, ∃ z : ℤ, x i = y i + z * len np n d i) : see3 d G x = see3 d G y := by
  obtain ⟨z0, h0⟩ := h 0
  obtain ⟨z1, h1⟩ := h 1
  obtain ⟨z2, h2⟩ := h 2
  have key : ∀ (sx sy sz : ℚ) (V : V3 3) (f : Fin 3), Periodic np n V →
      sample3 sx sy sz (x 0 / d 0) (x 1 / d 1) (x 2 / d 2) (fun m n l => V f ![m, n, l])
        = sample3 sx sy sz (y 0 / d 0) (y 1 / d 1) (y 2 / d 2) fun m n l => V f ![m, n, l] := by
    intro sx sy sz V f hV
    rw [h0, h1, h2, len_div (hd 0).ne', len_div (hd 1).ne', len_div (hd 2).ne', sample3_add]
    congr 1
    funext m n' l'
    apply hV
    intro a
    match a with
    | 0 => exact Int.modEq_iff_dvd.mpr ⟨-z0, by show m - (m + z0 * _) = _; ring⟩
    | 1 => exact Int.modEq_iff_dvd.mpr ⟨-z1, by show n' - (n' + z1 * _) = _; ring⟩
    | 2 => exact Int.modEq_iff_dvd.mpr ⟨-z2, by show l' - (l' + z2 * _) = _; ring⟩
  unfold see3
  dsimp only
  rw [key _ _ _ _ _ hper.e, key _ _ _ _ _ hper.e, key _ _ _ _ _ hper.e, key _ _ _ _ _ hper.b, key _ _ _ _ _ hper.b,
    key _ _ _ _ _ hper.b]

theorem interp_see3 (C : Conf 3) (hng : 2 ≤ C.ng) (hd : ∀ a, 0 < C.d a) (hnp : ∀ a, 0 < C.np a) (sp : Species)
    {t : Nat} {σ : Dom 3} {G : GF 3} {v : Fin 3 → ℚ} (ht : t < (sys3 C).npatches)
    (hrep : Rep (sys3 C).solver C.place3 σ G)
    (hv : ∀ i, -1 ≤ v i / C.d i - C.place3.coord t i * (sys3 C).solver.sync.n i ∧
      v i / C.d i - C.place3.coord t i * (sys3 C).solver.sync.n i ≤ (sys3 C).solver.sync.n i) :
    (C.kern3 sp ((sys3 C).origin t) (σ t)).interp v = see3 C.d G v := by
  have o : ∀ a, (sys3 C).origin t a = C.place3.coord t a * C.n a * C.d a := fun a => axis_x0 C a (hnp a) _
  show interp3Unified _ _ _ (σ t) (v 0) (v 1) (v 2) = _
  rw [interp3Unified_eq]
  have hs := interp3_samples ⟨C.n 0 + 2 * C.ng, C.d 0, (sys3 C).origin t 0⟩ ⟨C.n 1 + 2 * C.ng, C.d 1, (sys3 C).origin t 1⟩
    ⟨C.n 2 + 2 * C.ng, C.d 2, (sys3 C).origin t 2⟩ (σ t) (v 0) (v 1) (v 2)
  have c0 : ∀ a, (v a - (sys3 C).origin t a) / C.d a = v a / C.d a - C.place3.coord t a * C.n a := by
    intro a
    have := (hd a).ne'
    rw [o a]; field_simp
  have b : ∀ a, v a / C.d a - C.place3.coord t a * C.n a + ((C.place3.coord t a * C.n a : Int) : ℚ) = v a / C.d a := by
    intro a; push_cast; ring
  have kk : ∀ (sx sy sz : ℚ) (A : Nat → Fin 3 → Arr 3) (V : V3 3) (f : Fin 3),
      Shows (sys3 C).solver.sync.n (sys3 C).solver.sync.ng (sys3 C).npatches C.place3
        (InRange (sys3 C).solver.sync.n (sys3 C).solver.sync.ng) A V →
      (sx = 0 ∨ sx = 1 / 2) → (sy = 0 ∨ sy = 1 / 2) → (sz = 0 ∨ sz = 1 / 2) → ∀ gx gy gz : Grid1,
      gx = ⟨C.n 0 + 2 * C.ng, C.d 0, (sys3 C).origin t 0⟩ → gy = ⟨C.n 1 + 2 * C.ng, C.d 1, (sys3 C).origin t 1⟩ →
      gz = ⟨C.n 2 + 2 * C.ng, C.d 2, (sys3 C).origin t 2⟩ →
      sample3 sx sy sz (cellCoord gx (v 0)) (cellCoord gy (v 1)) (cellCoord gz (v 2)) (stored3 gx gy gz (A t f))
        = sample3 sx sy sz (v 0 / C.d 0) (v 1 / C.d 1) (v 2 / C.d 2) fun m n l => V f ![m, n, l] := by
    rintro sx sy sz A V f hA hx hy hz _ _ _ rfl rfl rfl
    have := see_cell3 (c := C.place3.coord t) hng (fun w hw => hA t ht f w hw) (hv 0) (hv 1) (hv 2) hx hy hz
      ⟨C.n 0 + 2 * C.ng, C.d 0, (sys3 C).origin t 0⟩ ⟨C.n 1 + 2 * C.ng, C.d 1, (sys3 C).origin t 1⟩
      ⟨C.n 2 + 2 * C.ng, C.d 2, (sys3 C).origin t 2⟩ rfl rfl rfl
    unfold cellCoord
    dsimp only
    rw [c0 0, c0 1, c0 2]
    refine this.trans ?_
    congr 1
    · exact b 0
    · exact b 1
    · exact b 2
  have z : (0 : ℚ) = 0 ∨ (0 : ℚ) = 1 / 2 := Or.inl rfl
  have h : (1 / 2 : ℚ) = 0 ∨ (1 / 2 : ℚ) = 1 / 2 := Or.inr rfl
  obtain ⟨s1, s2, s3, s4, s5, s6⟩ := hs
  have t1 := s1.trans (kk _ _ _ _ _ 0 hrep.e h z z _ _ _ rfl rfl rfl)
  have t2 := s2.trans (kk _ _ _ _ _ 1 hrep.e z h z _ _ _ rfl rfl rfl)
  have t3 := s3.trans (kk _ _ _ _ _ 2 hrep.e z z h _ _ _ rfl rfl rfl)
  have t4 := s4.trans (kk _ _ _ _ _ 0 hrep.b z h h _ _ _ rfl rfl rfl)
  have t5 := s5.trans (kk _ _ _ _ _ 1 hrep.b h z h _ _ _ rfl rfl rfl)
  have t6 := s6.trans (kk _ _ _ _ _ 2 hrep.b h h z _ _ _ rfl rfl rfl)
  unfold see3
  dsimp only
  rw [← t1, ← t2, ← t3, ← t4, ← t5, ← t6]

/-! ## currents -/

/-- a slot as the deposition reads it -/
def part3 (s : Slot 3) : Part3 := ⟨s.pos 0, s.pos 1, s.pos 2, s.mom, s.dead⟩

/-- the slots of all species of every patch -/
def slots3 (N : Nat) (parts : List (Species × (Nat → List (Slot 3)))) (t : Nat) : List (ℚ × List Part3) :=
  if t < N then parts.map fun a => (a.1.q, (a.2 t).map part3) else []

theorem nums3 (pos : Fin 3 → F64) : nums pos = match pos 0, pos 1, pos 2 with
    | .val x, .val y, .val z => some ![x, y, z]
    | _, _, _ => none := by
  unfold nums
  cases h0 : pos 0 with
  | nan => rw [if_neg (fun h => h 0 h0)]
  | val x =>
    cases h1 : pos 1 with
    | nan => rw [if_neg (fun h => h 1 h1)]
    | val y =>
      cases h2 : pos 2 with
      | nan => rw [if_neg (fun h => h 2 h2)]
      | val z =>
        rw [if_pos (fun a => match a with | 0 => by rw [h0]; simp | 1 => by rw [h1]; simp | 2 => by rw [h2]; simp)]
        congr 1
        funext a
        match a with
        | 0 => simp only [h0]; rfl
        | 1 => simp only [h1]; rfl
        | 2 => simp only [h2]; rfl

theorem macro_part3 (q : ℚ) (s : Slot 3) :
    macro3 q (part3 s) = (ptc s).map fun p => ⟨q, p.pos 0, p.pos 1, p.pos 2, p.mom⟩ := by
  unfold macro3 ptc part3
  rw [nums3]
  obtain ⟨pos, mom, eb, dd⟩ := s
  cases dd with
  | true => rfl
  | false =>
    dsimp only
    cases h0 : pos 0 with
    | nan => rfl
    | val x => cases h1 : pos 1 with
      | nan => rfl
      | val y => cases h2 : pos 2 with
        | nan => rfl
        | val z => rfl

theorem dep_part3 (gx gy gz : Grid1) (dt : ℚ) (q : ℚ) (F : Fields 3) (ps : List (Slot 3)) (acc : Acc 3) :
    ps.foldl (depChecked (kern3U gx gy gz F q dt)) acc
      = ((ps.map part3).filterMap (macro3 q)).foldl (dep3Fast gx gy gz dt) acc := by
  induction ps generalizing acc with
  | nil => rfl
  | cons s ps ih =>
    rw [List.foldl_cons, ih, List.map_cons]
    obtain ⟨pos, mom, eb, dd⟩ := s
    have hn := nums3 pos
    have hm := macro_part3 q ⟨pos, mom, eb, dd⟩
    unfold depChecked depOne
    cases dd with
    | true =>
      have hm' : macro3 q (part3 ⟨pos, mom, eb, true⟩) = none := hm
      rw [List.filterMap_cons_none hm']
      rfl
    | false =>
      cases hv : nums pos with
      | none =>
        have hm' : macro3 q (part3 ⟨pos, mom, eb, false⟩) = none := by
          rw [hm]; unfold ptc; dsimp only; rw [hv]; rfl
        rw [List.filterMap_cons_none hm']
        rfl
      | some v =>
        have hm' : macro3 q (part3 ⟨pos, mom, eb, false⟩) = some ⟨q, v 0, v 1, v 2, mom⟩ := by
          rw [hm]; unfold ptc; dsimp only; rw [hv]; rfl
        rw [List.filterMap_cons_some hm', List.foldl_cons]
        rfl

theorem depParts_all3 (C : Conf 3) (σ : Dom 3)
    (parts : List (Species × (Nat → List (Slot 3)))) {t : Nat} (ht : t < (sys3 C).npatches) :
    depParts (fun sp => C.kern3 sp ((sys3 C).origin t) (σ t)) parts t
      = (living3 (slots3 (sys3 C).npatches parts t)).foldl (dep3Fast ⟨C.n 0 + 2 * C.ng, C.d 0, (sys3 C).origin t 0⟩
          ⟨C.n 1 + 2 * C.ng, C.d 1, (sys3 C).origin t 1⟩ ⟨C.n 2 + 2 * C.ng, C.d 2, (sys3 C).origin t 2⟩ C.dt) zeroAcc := by
  unfold depParts slots3
  rw [if_pos ht]
  generalize (zeroAcc : Acc 3) = acc
  induction parts generalizing acc with
  | nil => rfl
  | cons a parts ih =>
    rw [List.foldl_cons, ih]
    unfold living3
    rw [List.map_cons, List.flatMap_cons, List.foldl_append]
    unfold Conf.kern3
    rw [dep_part3]

theorem everyone_macros3 (N : Nat) (parts : List (Species × (Nat → List (Slot 3)))) :
    (everyone3 N (slots3 N parts)).Perm (macros3 (cloudOf N parts)) := by
  have e1 : everyone3 N (slots3 N parts) = (List.range N).flatMap fun t => parts.flatMap fun a =>
      (a.2 t).filterMap fun s => macro3 a.1.q (part3 s) := by
    unfold everyone3
    apply List.flatMap_congr
    intro t ht
    unfold living3 slots3
    rw [if_pos (List.mem_range.mp ht), List.flatMap_map]
    apply List.flatMap_congr
    intro a _
    dsimp only
    rw [List.filterMap_map]
    rfl
  have e2 : macros3 (cloudOf N parts) = parts.flatMap fun a => (List.range N).flatMap fun t =>
      (a.2 t).filterMap fun s => macro3 a.1.q (part3 s) := by
    unfold macros3 cloudOf
    rw [List.flatMap_map]
    apply List.flatMap_congr
    intro a _
    unfold particles
    dsimp only
    rw [List.map_flatMap]
    apply List.flatMap_congr
    intro t _
    rw [List.map_filterMap]
    apply List.filterMap_congr
    intro s _
    exact (macro_part3 _ _).symm
  rw [e1, e2]
  exact flatMap_swap _ _ _

/-- the currents of all particles of the undivided grid, as a sum -/
theorem cur_sum3 {N : Fin 3 → Nat} (hN : ∀ a, 2 ≤ N a) {d : Fin 3 → ℚ} (hd : ∀ a, 0 < d a) {dt : ℚ} (hdt : dt ≠ 0)
    {cl : List (Kind × List (Ptc 3))} (hv : ∀ s ∈ cl, ∀ p ∈ s.2, ∀ i : Fin 3, |vel p.mom i * dt| ≤ d i) (f : Fin 3)
    (c : Fin 3 → Int) : cur3 N d dt cl f c = (cl.map fun s => (s.2.map fun p =>
      closed3 ⟨N 0, d 0, 0⟩ ⟨N 1, d 1, 0⟩ ⟨N 2, d 2, 0⟩ dt ⟨s.1.q, p.pos 0, p.pos 1, p.pos 2, p.mom⟩ f.castSucc
        fun a => c a % (N a : Int)).sum).sum := by
  have hall : ∀ m ∈ macros3 cl, |m.mom.vx * dt| ≤ d 0 ∧ |m.mom.vy * dt| ≤ d 1 ∧ |m.mom.vz * dt| ≤ d 2 := by
    intro m hm
    obtain ⟨s, hs, hm⟩ := List.mem_flatMap.mp hm
    obtain ⟨p, hp, rfl⟩ := List.mem_map.mp hm
    exact ⟨hv s hs p hp 0, hv s hs p hp 1, hv s hs p hp 2⟩
  have hc : ∀ a, 0 ≤ c a % (N a : Int) ∧ c a % (N a : Int) < N a := fun a =>
    have : (0 : Int) < N a := by have := hN a; omega
    ⟨Int.emod_nonneg _ this.ne', Int.emod_lt_of_pos _ this⟩
  unfold cur3
  rw [PicStep.undivided_whole3 hN hd hdt hall f.castSucc hc]
  unfold wholeJ3 macros3
  rw [List.map_flatMap]
  simp only [Int.emod_emod_of_dvd, dvd_refl, List.map_map]
  rw [List.flatMap_def, List.sum_flatten, List.map_map]
  rfl

theorem cur_congr3 {np n : Fin 3 → Nat} (hN : ∀ a, 2 ≤ np a * n a) {d : Fin 3 → ℚ} (hd : ∀ a, 0 < d a) {dt : ℚ} (hdt : dt ≠ 0)
    {a b : List (Kind × List (Ptc 3))} (hab : SameCloud (len np n d) a b)
    (hv : ∀ s ∈ a, ∀ p ∈ s.2, ∀ i : Fin 3, |vel p.mom i * dt| ≤ d i) :
    cur3 (fun a => np a * n a) d dt a = cur3 (fun a => np a * n a) d dt b := by
  have hN' : ∀ a, 0 < np a * n a := fun a => lt_of_lt_of_le (by omega) (hN a)
  have hv' := hab.moms (P := fun m => ∀ i : Fin 3, |vel m i * dt| ≤ d i) hv
  funext f c
  rw [cur_sum3 hN hd hdt hv, cur_sum3 hN hd hdt hv']
  refine cloud_sum (h := fun κ p => closed3 ⟨np 0 * n 0, d 0, 0⟩ ⟨np 1 * n 1, d 1, 0⟩ ⟨np 2 * n 2, d 2, 0⟩ dt
    ⟨κ.q, p.pos 0, p.pos 1, p.pos 2, p.mom⟩ f.castSucc fun a => c a % ((np a * n a : Nat) : Int)) ?_ hab
  intro κ p q hpq
  obtain ⟨z0, h0⟩ := hpq.2 0
  obtain ⟨z1, h1⟩ := hpq.2 1
  obtain ⟨z2, h2⟩ := hpq.2 2
  have l : ∀ i, len np n d i = ((np i * n i : Nat) : ℚ) * d i := by intro i; unfold len; push_cast; ring
  rw [hpq.1, h0, h1, h2, l, l, l]
  unfold closed3
  rw [axisOf_shift (hd 0).ne', axisOf_shift (hd 1).ne', axisOf_shift (hd 2).ne', wrapIdx_shift (hN' 0), wrapIdx_shift (hN' 1),
    wrapIdx_shift (hN' 2)]
  rfl

theorem cur_per3 {np n : Fin 3 → Nat} (d : Fin 3 → ℚ) (dt : ℚ) (cl : List (Kind × List (Ptc 3))) :
    Periodic np n (cur3 (fun a => np a * n a) d dt cl) := by
  intro f v w h
  unfold cur3
  congr 1
  funext a
  have := h a
  push_cast
  exact this

theorem fit_slots3 {N ng : Nat} {n : Fin 3 → Nat} {coord : Nat → Fin 3 → Nat} {d : Fin 3 → ℚ} {dt : ℚ}
    {parts : List (Species × (Nat → List (Slot 3)))} (hfit : Fit N n ng coord d dt parts) :
    PicStep.AllFit3 n ng d dt N coord (slots3 N parts) := by
  intro t ht m hm
  unfold slots3 at hm
  rw [if_pos ht] at hm
  obtain ⟨s, hs, hm⟩ := List.mem_flatMap.mp hm
  obtain ⟨a, ha, rfl⟩ := List.mem_map.mp hs
  obtain ⟨p, hp, hm⟩ := List.mem_filterMap.mp hm
  obtain ⟨sl, hsl, rfl⟩ := List.mem_map.mp hp
  rw [macro_part3] at hm
  cases hpt : ptc sl with
  | none => rw [hpt] at hm; cases hm
  | some p =>
    rw [hpt] at hm
    injection hm with hm
    subst hm
    obtain ⟨h1, h2, h3⟩ := ptc_eq hpt
    obtain ⟨w, hw, hF⟩ := hfit a ha t ht sl hsl h1
    rw [h2] at hw
    injection hw with hw
    subst hw
    dsimp only
    rw [← h3]
    exact ⟨hF 0, hF 1, hF 2⟩

/-- the routine of the unified push stores the same values as the other routine -/
theorem field_eq3 (C : Conf 3) (hng : 2 ≤ C.ng) (hle : ∀ a, C.ng ≤ C.n a) (hd : ∀ a, 0 < C.d a) (hdt : C.dt ≠ 0)
    (hnp : ∀ a, 0 < C.np a) (σ : Dom 3) (parts : List (Species × (Nat → List (Slot 3))))
    (hfit : Fit (sys3 C).npatches ![C.n 0, C.n 1, C.n 2] C.ng C.place3.coord C.d C.dt parts) {t : Nat}
    (ht : t < (sys3 C).npatches) (f : Fin 4) (l : Fin 3 → Int) :
    field (depParts (fun sp => C.kern3 sp ((sys3 C).origin t) (σ t)) parts t) f l
      = field (patchDeposit3 ![C.n 0, C.n 1, C.n 2] C.ng C.d C.dt C.place3.coord (slots3 (sys3 C).npatches parts) t) f l := by
  have o : ∀ a, (sys3 C).origin t a = C.place3.coord t a * C.n a * C.d a := fun a => axis_x0 C a (hnp a) _
  have hF := fit_slots3 hfit t ht
  have hn : ∀ a, 0 < C.n a := fun a => lt_of_lt_of_le (by omega) (hle a)
  have hp : ∀ a, 0 < C.n a + 2 * C.ng := fun a => by have := hn a; omega
  have hp2 : ∀ a, 2 ≤ C.n a + 2 * C.ng := fun a => by have := hn a; omega
  have hng1 : 1 ≤ C.ng := by omega
  have e : ∀ a, (⟨C.n a + 2 * C.ng, C.d a, (sys3 C).origin t a⟩ : Grid1)
      = PicStep.patchAxis (C.n a) C.ng (C.d a) (C.place3.coord t a) := by
    intro a
    unfold PicStep.patchAxis
    rw [o a]
  rw [depParts_all3 C σ parts ht, e 0, e 1, e 2]
  unfold patchDeposit3
  rw [PicStep.depositAll3_fold]
  rw [PicStep.dep3_fold (gx := PicStep.patchAxis (C.n 0) C.ng (C.d 0) (C.place3.coord t 0))
      (gy := PicStep.patchAxis (C.n 1) C.ng (C.d 1) (C.place3.coord t 1))
      (gz := PicStep.patchAxis (C.n 2) C.ng (C.d 2) (C.place3.coord t 2)) (dt := C.dt)
      (D := dep3Fast (PicStep.patchAxis (C.n 0) C.ng (C.d 0) (C.place3.coord t 0))
        (PicStep.patchAxis (C.n 1) C.ng (C.d 1) (C.place3.coord t 1))
        (PicStep.patchAxis (C.n 2) C.ng (C.d 2) (C.place3.coord t 2)) C.dt) _
      (fun m hm => deposit3Fast_adds _ _ _ ⟨hp 0, hd 0⟩ ⟨hp 1, hd 1⟩ ⟨hp 2, hd 2⟩ (hp2 0) (hp2 1) (hp2 2) C.dt m.q m.x m.y m.z hdt m.mom
        (hF m hm).1.1 (hF m hm).2.1.1 (hF m hm).2.2.1)]
  symm
  exact PicStep.dep3_fold (gx := PicStep.patchAxis (C.n 0) C.ng (C.d 0) (C.place3.coord t 0))
      (gy := PicStep.patchAxis (C.n 1) C.ng (C.d 1) (C.place3.coord t 1))
      (gz := PicStep.patchAxis (C.n 2) C.ng (C.d 2) (C.place3.coord t 2)) (dt := C.dt)
      (D := dep3 (PicStep.patchAxis (C.n 0) C.ng (C.d 0) (C.place3.coord t 0))
        (PicStep.patchAxis (C.n 1) C.ng (C.d 1) (C.place3.coord t 1))
        (PicStep.patchAxis (C.n 2) C.ng (C.d 2) (C.place3.coord t 2)) C.dt) _
      (fun m hm => deposit3Ref_adds _ _ _ ⟨hp 0, hd 0⟩ ⟨hp 1, hd 1⟩ ⟨hp 2, hd 2⟩ C.dt m.q m.x m.y m.z m.mom
        (hF m hm).1.1 (hF m hm).2.1.1 (hF m hm).2.2.1
        (PicStep.fits_of (hn 0) hng1 (hd 0) (hF m hm).1) (PicStep.fits_of (hn 1) hng1 (hd 1) (hF m hm).2.1)
        (PicStep.fits_of (hn 2) hng1 (hd 2) (hF m hm).2.2)) _ _ _

theorem currents3 (C : Conf 3) (hng : 2 ≤ C.ng) (hle : ∀ a, C.ng ≤ C.n a) (hd : ∀ a, 0 < C.d a) (hdt : C.dt ≠ 0)
    (hnp : ∀ a, 0 < C.np a) (σ : Dom 3) (parts : List (Species × (Nat → List (Slot 3)))) (acc : Nat → Acc 3)
    (rk : Nat → Nat) (f : Fin 3) (m' : Loc 3 → ℚ)
    (hacc : ∀ t, t < (sys3 C).npatches → acc t = depParts (fun sp => C.kern3 sp ((sys3 C).origin t) (σ t)) parts t)
    (hacc0 : ∀ t, ¬ t < (sys3 C).npatches → acc t = zeroAcc)
    (hfit : Fit (sys3 C).npatches ![C.n 0, C.n 1, C.n 2] C.ng C.place3.coord C.d C.dt parts)
    (hrun : CurrentExchange ((sys3 C).curLoc rk) ((sys3 C).curMpi rk) (fun l => field (acc l.1) f.castSucc l.2) m')
    {t : Nat} {v : Fin 3 → Int} (ht : t < (sys3 C).npatches) (hv : Own ![C.n 0, C.n 1, C.n 2] v) :
    m' (t, index ![C.n 0, C.n 1, C.n 2] C.ng v) = cur3 (fun a => C.np a * C.n a) C.d C.dt (cloudOf (sys3 C).npatches parts) f
      (globalCell ![C.n 0, C.n 1, C.n 2] (C.place3.coord t) v) := by
  obtain ⟨m'', h⟩ : ∃ m'', (syncCurrents3 (C.n 0) (C.n 1) (C.n 2) C.ng (sys3 C).npatches C.nbr3).CurrentRun
      (fun l => field (acc l.1) f.castSucc l.2) m'' := ⟨_, _, Interleave.isSchedule_seq _ _, rfl⟩
  have hs := current3_shape (N := (sys3 C).npatches) (nbr := C.nbr3) (hle 0) (hle 1) (hle 2)
  have hg := nbrGeo3 (s := syncCurrents3 (C.n 0) (C.n 1) (C.n 2) C.ng (sys3 C).npatches C.nbr3) (bx := perBC) (by' := perBC) (bz := perBC)
    rfl rfl rfl (grid_createPatches3 (C.np 0) (C.np 1) (C.np 2)) (fun _ h => h) (nodup_createPatches3 _ _ _) rfl rfl
  have e := current_ranks (rem := mpiCurrents3 (C.n 0) (C.n 1) (C.n 2) C.ng (sys3 C).npatches (remoteNbr rk C.nbr3)) hs (hg.ok hs)
    (currentTab3_eq _ _ _ _) (mpiCurrents3_shape (hle 0) (hle 1) (hle 2)) rfl rfl rfl rfl hrun h t v ht (hv.inRange _)
  refine e.trans ?_
  have hacc' : ∀ t l, field (acc t) f.castSucc l = field (patchDeposit3 ![C.n 0, C.n 1, C.n 2] C.ng C.d C.dt C.place3.coord
      (slots3 (sys3 C).npatches parts) t) f.castSucc l := by
    intro t l
    by_cases ht : t < (sys3 C).npatches
    · rw [hacc t ht, field_eq3 C hng hle hd hdt hnp σ parts hfit ht]
    · rw [hacc0 t ht]
      unfold patchDeposit3 slots3
      rw [if_neg ht]
      rfl
  have hfit' := fit_slots3 hfit
  have key := PicStep.patches_transparent3 (npx := C.np 0) (npy := C.np 1) (npz := C.np 2) hng (hle 0) (hle 1) (hle 2) hd hdt
    (loc := createPatches3 (C.np 0) (C.np 1) (C.np 2)) (fun _ h => h) (nodup_createPatches3 _ _ _)
    (slots3 (sys3 C).npatches parts) hfit' f.castSucc m'' (by simp only [hacc'] at h; exact h) t v ht hv
  refine key.trans ?_
  have hn : ∀ a, 0 < C.n a := fun a => lt_of_lt_of_le (by omega) (hle a)
  have hN : ∀ a, 2 ≤ C.np a * C.n a := fun a => le_trans (le_trans hng (hle a)) (Nat.le_mul_of_pos_left _ (hnp a))
  have hall : ∀ m ∈ everyone3 (sys3 C).npatches (slots3 (sys3 C).npatches parts),
      |m.mom.vx * C.dt| ≤ C.d 0 ∧ |m.mom.vy * C.dt| ≤ C.d 1 ∧ |m.mom.vz * C.dt| ≤ C.d 2 := by
    intro m hm
    obtain ⟨u, hu, hm⟩ := List.mem_flatMap.mp hm
    have := hfit' u (List.mem_range.mp hu) m hm
    exact ⟨this.1.1, this.2.1.1, this.2.2.1⟩
  have hpm := everyone_macros3 (sys3 C).npatches parts
  have hall' : ∀ m ∈ macros3 (cloudOf (sys3 C).npatches parts), |m.mom.vx * C.dt| ≤ C.d 0 ∧ |m.mom.vy * C.dt| ≤ C.d 1 ∧ |m.mom.vz * C.dt| ≤ C.d 2 :=
    fun m hm => hall m (hpm.mem_iff.mpr hm)
  have hc : ∀ a, 0 ≤ globalCell ![C.n 0, C.n 1, C.n 2] (C.place3.coord t) v a ∧
      globalCell ![C.n 0, C.n 1, C.n 2] (C.place3.coord t) v a < ((C.np a * C.n a : Nat) : Int) := fun a =>
    match a with
    | 0 => PicStep.globalCell_lt3 (npx := C.np 0) (npy := C.np 1) (npz := C.np 2) (fun _ h => h) ht hv 0
    | 1 => PicStep.globalCell_lt3 (npx := C.np 0) (npy := C.np 1) (npz := C.np 2) (fun _ h => h) ht hv 1
    | 2 => PicStep.globalCell_lt3 (npx := C.np 0) (npy := C.np 1) (npz := C.np 2) (fun _ h => h) ht hv 2
  unfold cur3
  have em : (fun a => globalCell ![C.n 0, C.n 1, C.n 2] (C.place3.coord t) v a % ((C.np a * C.n a : Nat) : Int))
      = globalCell ![C.n 0, C.n 1, C.n 2] (C.place3.coord t) v := funext fun a => Int.emod_eq_of_lt (hc a).1 (hc a).2
  rw [em, PicStep.undivided_whole3 (N := fun a => C.np a * C.n a) hN hd hdt hall' f.castSucc hc]
  refine (PicStep.undivided_whole3 (N := fun a => C.np a * C.n a) hN hd hdt hall f.castSucc hc).trans ?_
  exact (hpm.map _).sum_eq

/-! ## particle exchange -/

theorem exch3 (C : Conf 3) (hn : ∀ a, 0 < C.n a) (hd : ∀ a, 0 < C.d a) (hnp : ∀ a, 0 < C.np a)
    (ps : Nat → List (Slot 3)) (hps : ∀ t, t < (sys3 C).npatches → ∀ s ∈ ps t, s.dead = false → ∃ v, nums s.pos = some v ∧
      Nearby ![C.n 0, C.n 1, C.n 2] (C.place3.coord t) C.d v) (rk : Nat → Nat) {ord2 ord3 : List Nat} (blank : A3 (Mom × EB))
    (h2 : ord2.Perm (List.range (sys3 C).npatches)) (h3 : ord3.Perm (List.range (sys3 C).npatches)) :
    ∃ s', parSync ((sys3 C).geo blank) rk ord2 ord3 (fun t => (ps t).map (sys3 C).pack) = some s' ∧
      SameParticles (len C.np C.n C.d) (particles (sys3 C).npatches fun t => (s' t).map (sys3 C).unpack)
        (particles (sys3 C).npatches ps) ∧
      ∀ t, t < (sys3 C).npatches → ∀ s ∈ (s' t).map (sys3 C).unpack, s.dead = false → ∃ v, nums s.pos = some v ∧
        Ins ![C.n 0, C.n 1, C.n 2] (C.place3.coord t) C.d v := by
  have hx := axis_periodic' C 0 (hnp 0) (hn 0) (hd 0)
  have hy := axis_periodic' C 1 (hnp 1) (hn 1) (hd 1)
  have hz := axis_periodic' C 2 (hnp 2) (hn 2) (hd 2)
  have hsym := sym3_of_grid (bx := perBC) (by' := perBC) (bz := perBC) rfl rfl rfl (grid_createPatches3 (C.np 0) (C.np 1) (C.np 2))
    (fun _ h => h) (nodup_createPatches3 (C.np 0) (C.np 1) (C.np 2))
  have coord : ∀ t pp, (createPatches3 (C.np 0) (C.np 1) (C.np 2))[t]? = some pp → C.place3.coord t = ![pp.ix, pp.iy, pp.iz] := by
    intro t pp h
    show (match (createPatches3 (C.np 0) (C.np 1) (C.np 2))[t]? with | some p => ![p.ix, p.iy, p.iz] | none => ![0, 0, 0]) = _
    rw [h]
  have land : ∀ x ∈ living (sys3 C).npatches (fun t => (ps t).map (sys3 C).pack), ∃ (q : Nat) (v w : Fin 3 → ℚ) (mo : Mom) (eb : EB),
      dest3 C.nbr3 ((C.axis 0).bnd fun ip => ((createPatches3 (C.np 0) (C.np 1) (C.np 2))[ip]?.map P3.ix).getD 0)
        ((C.axis 1).bnd fun ip => ((createPatches3 (C.np 0) (C.np 1) (C.np 2))[ip]?.map P3.iy).getD 0)
        ((C.axis 2).bnd fun ip => ((createPatches3 (C.np 0) (C.np 1) (C.np 2))[ip]?.map P3.iz).getD 0) x.1 x.2
        = some (q, ⟨.val (w 0), .val (w 1), .val (w 2), (mo, eb)⟩) ∧ x.2 = ⟨.val (v 0), .val (v 1), .val (v 2), (mo, eb)⟩ ∧
      (∀ i, ∃ z : ℤ, w i = v i + z * len C.np C.n C.d i) ∧ Ins ![C.n 0, C.n 1, C.n 2] (C.place3.coord q) C.d w := by
    intro x hxm
    obtain ⟨hlt, hmem⟩ := mem_living_iff.mp hxm
    obtain ⟨s, hs, e⟩ := List.mem_map.mp hmem
    have hpp : (createPatches3 (C.np 0) (C.np 1) (C.np 2))[x.1]? = some (createPatches3 (C.np 0) (C.np 1) (C.np 2))[x.1] :=
      List.getElem?_eq_getElem hlt
    have ed : s.dead = false := congrArg Exchange.Slot.dead e
    have ea : x.2 = ⟨s.pos 0, s.pos 1, s.pos 2, (s.mom, s.eb)⟩ := (congrArg Exchange.Slot.a e).symm
    obtain ⟨v, hv, hnear⟩ := hps x.1 hlt s hs ed
    rw [coord _ _ hpp] at hnear
    have n0 : Near (C.axis 0) (createPatches3 (C.np 0) (C.np 1) (C.np 2))[x.1].ix (v 0) := by
      unfold Near
      rw [axis_lo C 0 (hnp 0), axis_hi C 0 (hnp 0)]
      have e : C.d 0 ≤ C.n 0 * C.d 0 := le_mul_of_one_le_left (hd 0).le (by exact_mod_cast hn 0)
      obtain ⟨q1, q2⟩ := hnear 0
      exact ⟨(sub_le_sub_left e _).trans q1, q2.trans (add_le_add_right e _)⟩
    have n1 : Near (C.axis 1) (createPatches3 (C.np 0) (C.np 1) (C.np 2))[x.1].iy (v 1) := by
      unfold Near
      rw [axis_lo C 1 (hnp 1), axis_hi C 1 (hnp 1)]
      have e : C.d 1 ≤ C.n 1 * C.d 1 := le_mul_of_one_le_left (hd 1).le (by exact_mod_cast hn 1)
      obtain ⟨q1, q2⟩ := hnear 1
      exact ⟨(sub_le_sub_left e _).trans q1, q2.trans (add_le_add_right e _)⟩
    have n2 : Near (C.axis 2) (createPatches3 (C.np 0) (C.np 1) (C.np 2))[x.1].iz (v 2) := by
      unfold Near
      rw [axis_lo C 2 (hnp 2), axis_hi C 2 (hnp 2)]
      have e : C.d 2 ≤ C.n 2 * C.d 2 := le_mul_of_one_le_left (hd 2).le (by exact_mod_cast hn 2)
      obtain ⟨q1, q2⟩ := hnear 2
      exact ⟨(sub_le_sub_left e _).trans q1, q2.trans (add_le_add_right e _)⟩
    obtain ⟨q, qq, hq, hdest, l0, u0, l1, u1, l2, u2⟩ := periodic3_lands_inside (R := Mom × EB) hx hy hz x.1 _ hpp (v 0) (v 1) (v 2)
      (s.mom, s.eb) n0 n1 n2
    have ep : x.2 = ⟨.val (v 0), .val (v 1), .val (v 2), (s.mom, s.eb)⟩ := by
      rw [ea, nums_eq_some hv 0, nums_eq_some hv 1, nums_eq_some hv 2]
    refine ⟨q, v, ![foldBack (C.axis 0) (v 0), foldBack (C.axis 1) (v 1), foldBack (C.axis 2) (v 2)], s.mom, s.eb, ?_, ep, ?_, ?_⟩
    · rw [ep]
      exact hdest
    · intro i
      match i with
      | 0 => exact axis_fold C 0 (v 0)
      | 1 => exact axis_fold C 1 (v 1)
      | 2 => exact axis_fold C 2 (v 2)
    · rw [axis_lo C 0 (hnp 0)] at l0
      rw [axis_hi C 0 (hnp 0)] at u0
      rw [axis_lo C 1 (hnp 1)] at l1
      rw [axis_hi C 1 (hnp 1)] at u1
      rw [axis_lo C 2 (hnp 2)] at l2
      rw [axis_hi C 2 (hnp 2)] at u2
      rw [coord _ _ hq]
      intro i
      match i with
      | 0 => exact ⟨l0, u0⟩
      | 1 => exact ⟨l1, u1⟩
      | 2 => exact ⟨l2, u2⟩
  have pv : ∀ (w : Fin 3 → ℚ) (mo : Mom) (eb : EB),
      ptcA (sys3 C).unpack ⟨.val (w 0), .val (w 1), .val (w 2), (mo, eb)⟩ = some ⟨w, mo⟩ := by
    intro w mo eb
    have : nums (![.val (w 0), .val (w 1), .val (w 2)] : Fin 3 → F64) = some w := by
      rw [nums3]
      show some ![w 0, w 1, w 2] = _
      rw [vec3]
    exact ptc_some (s := (sys3 C).unpack ⟨⟨.val (w 0), .val (w 1), .val (w 2), (mo, eb)⟩, false⟩) rfl this
  obtain ⟨s', he, hp, _⟩ := MpiExchangeProps.ranks3_conserve rk
    ((C.axis 0).bnd fun ip => ((createPatches3 (C.np 0) (C.np 1) (C.np 2))[ip]?.map P3.ix).getD 0)
    ((C.axis 1).bnd fun ip => ((createPatches3 (C.np 0) (C.np 1) (C.np 2))[ip]?.map P3.iy).getD 0)
        ((C.axis 2).bnd fun ip => ((createPatches3 (C.np 0) (C.np 1) (C.np 2))[ip]?.map P3.iz).getD 0) blank
    (fun t => (ps t).map (sys3 C).pack) hsym h2 h3
    (fun x hxm => by
      obtain ⟨q, v, w, mo, eb, h, _⟩ := land x hxm
      exact MpiExchangeProps.offset_of_dest3 (by rw [show neighborIpatch3 _ _ _ _ _ _ _ _ = C.nbr3 from rfl, h]; rfl))
  have hback : ∀ t, ((ps t).map (sys3 C).pack).map (sys3 C).unpack = ps t := by
    intro t
    rw [List.map_map]
    refine (List.map_congr_left ?_).trans (List.map_id _)
    intro s _
    obtain ⟨pos, mom, eb, dd⟩ := s
    show (⟨![pos 0, pos 1, pos 2], mom, eb, dd⟩ : Slot 3) = ⟨pos, mom, eb, dd⟩
    rw [vec3]
  refine ⟨s', he, ?_, ?_⟩
  · have := exchange_same (L := len C.np C.n C.d) (sys3 C).unpack (fun _ => rfl) hp (fun x hxm => by
      obtain ⟨q, v, w, mo, eb, h, hx2, hz, _⟩ := land x hxm
      refine ⟨_, ⟨v, mo⟩, ⟨w, mo⟩, h, pv w mo eb, by rw [hx2]; exact pv v mo eb, SamePtc.symm ⟨rfl, hz⟩⟩)
    simp only [hback] at this
    exact this
  · intro t ht s hs hdd
    obtain ⟨b, hb, rfl⟩ := List.mem_map.mp hs
    obtain ⟨a, dd⟩ := b
    have : dd = false := hdd
    subst this
    have hm : (t, a) ∈ living (sys3 C).npatches s' := mem_living_iff.mpr ⟨ht, hb⟩
    obtain ⟨x, hxm, hxd⟩ := List.mem_filterMap.mp (hp.mem_iff.mp hm)
    obtain ⟨q, v, w, mo, eb, h, _, _, hins⟩ := land x hxm
    rw [show neighborIpatch3 _ _ _ _ _ _ _ _ = C.nbr3 from rfl, h] at hxd
    injection hxd with hxd
    injection hxd with h1 h2
    subst h1 h2
    exact ⟨w, (ptc_eq (pv w mo eb)).2.1, hins⟩

/-! ## all together -/

theorem facts3 (C : Conf 3) (hng : 2 ≤ C.ng) (hle : ∀ a, C.ng ≤ C.n a) (hd : ∀ a, 0 < C.d a) (hdt : C.dt ≠ 0)
    (hnp : ∀ a, 0 < C.np a) : Facts (sys3 C) C.phys3 C.place3 C.d (fun sp => sp.unified = true) C.kern3 := by
  have hn : ∀ a, 0 < C.n a := fun a => lt_of_lt_of_le (by omega) (hle a)
  have hs := guard3_shape (N := (sys3 C).npatches) (nbr := C.nbr3) (hle 0) (hle 1) (hle 2)
  have hg := nbrGeo3 (s := (sys3 C).solver.sync) (bx := perBC) (by' := perBC) (bz := perBC)
    rfl rfl rfl (grid_createPatches3 (C.np 0) (C.np 1) (C.np 2)) (fun _ h => h) (nodup_createPatches3 _ _ _) rfl rfl
  have ha := allLocal3 (npx := C.np 0) (npy := C.np 1) (npz := C.np 2) (bx := perBC) (by' := perBC) (bz := perBC) rfl rfl rfl (fun _ h => h)
    (s := (sys3 C).solver.sync) rfl
  have hk := kernel3 (C.n 0) (C.n 1) (C.n 2) C.ng (sys3 C).npatches C.nbr3 C.par
  have hnpv : C.place3.np = C.np := vec3 C.np
  have hnv : (sys3 C).solver.sync.n = C.n := vec3 C.n
  constructor
  · constructor
    · intro sp Ps hun hl
      have hu : (sys3 C).push sp Ps = unified3 C.rs (C.runPar sp) Ps := by
        show pushSpecies3 sp.unified C.rs (C.runPar sp) Ps = _
        unfold pushSpecies3
        rw [hun]
        rfl
      rw [hu]
      unfold unified3
      apply List.map_congr_left
      intro P _
      dsimp only
      rw [unifiedPatch_eq _ _ _ stripSize (by decide)]
      rfl
    · intro sp t σ G v ht hrep _ hv
      exact interp_see3 C hng hd hnp sp ht hrep hv
    · intro σ parts acc rk c m' h1 h2 h3 h4 t v ht hv
      exact currents3 C hng hle hd hdt hnp σ parts acc rk c m' h1 h2 h3 h4 ht hv
    · intro a b hab hv
      rw [hnpv, hnv] at hab
      exact cur_congr3 (fun a => le_trans (le_trans hng (hle a)) (Nat.le_mul_of_pos_left _ (hnp a))) hd hdt hab hv
    · intro G x y hper h
      rw [hnpv, hnv] at hper
      simp only [hnpv, hnv] at h
      exact see_congr3 hd hper h
    · intro x y _; rfl
    · intro ps hps rk ord2 ord3 blank h2 h3
      rw [hnpv]
      simp only [List.filter_true]
      have := exch3 C hn hd hnp ps hps rk blank h2 h3
      rw [← hnv] at this
      exact this
    · intro rk m
      have hs' := current3_shape (N := (sys3 C).npatches) (nbr := C.nbr3) (hle 0) (hle 1) (hle 2)
      have hg' := nbrGeo3 (s := syncCurrents3 (C.n 0) (C.n 1) (C.n 2) C.ng (sys3 C).npatches C.nbr3) (bx := perBC) (by' := perBC) (bz := perBC)
        rfl rfl rfl (grid_createPatches3 (C.np 0) (C.np 1) (C.np 2)) (fun _ h => h) (nodup_createPatches3 _ _ _) rfl rfl
      exact (exchange_exists _ _ (mpiCurrents3_shape (hle 0) (hle 1) (hle 2))
        (NbrOK.remote (rem := mpiCurrents3 (C.n 0) (C.n 1) (C.n 2) C.ng (sys3 C).npatches (remoteNbr rk C.nbr3)) (hg'.ok hs') rk rfl rfl) m).2
    · exact ⟨⟨.nan, .nan, .nan, (⟨0, 0, 0, 0, 0⟩, ⟨0, 0, 0, 0, 0, 0⟩)⟩⟩
  · rfl
  · rfl
  · intro rk m m' hrun
    obtain ⟨m'', h⟩ : ∃ m'', (syncGuard3 (C.n 0) (C.n 1) (C.n 2) C.ng (sys3 C).npatches C.nbr3).GuardRun m m'' :=
      ⟨_, _, Interleave.isSchedule_seq _ _, rfl⟩
    have e : m' = m'' := guard_ranks (rk := rk) (g := syncGuard3 (C.n 0) (C.n 1) (C.n 2) C.ng (sys3 C).npatches C.nbr3)
      (rem := mpiGuard3 (C.n 0) (C.n 1) (C.n 2) C.ng (sys3 C).npatches (remoteNbr rk C.nbr3)) hs (guardTab3_eq _ _ _ _)
      (mpiGuardTab3_eq _ _ _ _) (by intro b; show b ∈ B3.all; cases b <;> decide) rfl rfl rfl hrun h
    rw [e]
    exact h
  · intro G σ σ1 hper hrep ⟨τ, h1, h2⟩
    have r1 := stepE_sync hs hg (guardTab3_eq _ _ _ _) ha hk (localFE3 C.par) (by show 1 ≤ C.ng; omega) hper hrep _ h1
    have p1 := hper.stepE (localFE3 C.par) (1 / 2 * (sys3 C).dt)
    have r2 := stepB_sync hs hg (guardTab3_eq _ _ _ _) ha hk (localFB3 C.par) (by show 1 ≤ C.ng; omega) p1 r1 _ h2
    exact ⟨r2, p1.stepB (localFB3 C.par) (1 / 2 * (sys3 C).dt)⟩
  · intro G σ σ' J hper hrep hJ hst
    exact step_rep hs hg (guardTab3_eq _ _ _ _) ha hk (localFE3 C.par) (localFB3 C.par) (by show 1 ≤ C.ng; omega) hper hrep _ hJ hst
  · intro cl
    rw [hnpv, hnv]
    exact cur_per3 _ _ _
  · intro rk m
    exact ⟨_, _, List.Perm.refl _, rfl⟩

end Verif.WholeRun
