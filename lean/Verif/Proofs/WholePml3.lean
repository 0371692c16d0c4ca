import Verif.Proofs.WholePml2
import Verif.Proofs.WholeRun3
/-!
# What the 3D program supplies for complete runs with absorbing layers
-/
namespace Verif.WholePml
open Verif.Maxwell Verif.SyncFields Verif.Pusher Verif.Deposit Verif.Geometry Verif.Neighbors Verif.PicSpec Verif.Shape
open Verif.MpiExchange Verif.PusherProps Verif.ExchangeProps Verif.DepositProps Verif.MpiExchangeProps
open Verif.Exchange (alive living)
open Verif.PicStep (field zeroAcc undivided3 patchDeposit3 wholeJ3 closed3 FoldAxis sel)
open Verif.Particles (F64)
open Verif.Cpml (PConf PDom PSys axisBC pmlSys2 pmlSys3 Whole Grid axisBC_paired)
open Verif.WholeRun

variable {k : Nat}

theorem Fit.mono {N m m' : Nat} (h : m ≤ m') {n : Fin k → Nat} {coord : Nat → Fin k → Nat} {d : Fin k → ℚ} {dt : ℚ}
    {parts : List (Species × (Nat → List (Slot k)))} (hf : Fit N n m coord d dt parts) : Fit N n m' coord d dt parts := by
  intro a ha t ht s hs hdd
  obtain ⟨w, hw, hF⟩ := hf a ha t ht s hs hdd
  exact ⟨w, hw, fun i => fits_mono h (hF i)⟩

/-! ## what particles see -/

theorem see_open3 {W : Whole 3} {np n : Fin 3 → Nat} (hN : ∀ a, W.N a = np a * n a) {d : Fin 3 → ℚ} (hd : ∀ a, 0 < d a) {G : GF 3}
    {x y : Fin 3 → ℚ} (he : W.Periodic G.e) (hb : W.Periodic G.b) (h : ∀ i, ∃ z : ℤ, x i = y i + z * period np n d W.pml i) :
    see3 d G x = see3 d G y := by
  have hz : ∀ i, ∃ Z : ℤ, x i / d i = y i / d i + (Z : ℚ) ∧ (W.pml i = true → Z = 0) ∧ ∃ z : ℤ, Z = z * (np i * n i : Int) := by
    intro i
    obtain ⟨z, hz⟩ := h i
    unfold period at hz
    by_cases hp : W.pml i = true
    · rw [if_pos hp] at hz
      exact ⟨0, by rw [hz]; simp, fun _ => rfl, 0, by simp⟩
    · rw [if_neg hp] at hz
      exact ⟨z * (np i * n i : Int), by rw [hz, len_div (hd i).ne'], fun h => absurd h hp, z, rfl⟩
  obtain ⟨Z0, h0, p0, z0, c0⟩ := hz 0
  obtain ⟨Z1, h1, p1, z1, c1⟩ := hz 1
  obtain ⟨Z2, h2, p2, z2, c2⟩ := hz 2
  have key : ∀ (sx sy sz : ℚ) (V : V3 3) (f : Fin 3), W.Periodic V →
      sample3 sx sy sz (x 0 / d 0) (x 1 / d 1) (x 2 / d 2) (fun m n l => V f ![m, n, l])
        = sample3 sx sy sz (y 0 / d 0) (y 1 / d 1) (y 2 / d 2) fun m n l => V f ![m, n, l] := by
    intro sx sy sz V f hV
    rw [h0, h1, h2, sample3_add]
    congr 1
    funext m n' l'
    apply hV
    intro a
    match a with
    | 0 =>
      split
      · next hp => show m + Z0 = m; rw [p0 hp]; ring
      · rw [hN 0]; exact Int.modEq_iff_dvd.mpr ⟨-z0, by show m - (m + Z0) = _; rw [c0]; push_cast; ring⟩
    | 1 =>
      split
      · next hp => show n' + Z1 = n'; rw [p1 hp]; ring
      · rw [hN 1]; exact Int.modEq_iff_dvd.mpr ⟨-z1, by show n' - (n' + Z1) = _; rw [c1]; push_cast; ring⟩
    | 2 =>
      split
      · next hp => show l' + Z2 = l'; rw [p2 hp]; ring
      · rw [hN 2]; exact Int.modEq_iff_dvd.mpr ⟨-z2, by show l' - (l' + Z2) = _; rw [c2]; push_cast; ring⟩
  unfold see3
  dsimp only
  rw [key _ _ _ _ _ he, key _ _ _ _ _ he, key _ _ _ _ _ he, key _ _ _ _ _ hb, key _ _ _ _ _ hb, key _ _ _ _ _ hb]

/-! ## currents -/

theorem curOpen_congr3 {W : Whole 3} {np n : Fin 3 → Nat} (hN : ∀ a, W.N a = np a * n a) (hN0 : ∀ a, 2 ≤ W.N a)
    (hd : ∀ a, 0 < W.par.d a) {dt : ℚ} (hdt : dt ≠ 0) {a b : List (Kind × List (Ptc 3))}
    (hab : SameCloud (period np n W.par.d W.pml) a b)
    (hv : ∀ s ∈ a, ∀ p ∈ s.2, ∀ i : Fin 3, |vel p.mom i * dt| ≤ W.par.d i) : curOpen3 W dt a = curOpen3 W dt b := by
  have h' : SameCloud (len (fun _ => 1) (room W) W.par.d) a b := by
    refine SameCloud.mono (fun i => ?_) hab
    unfold period
    by_cases hp : W.pml i = true
    · exact ⟨0, by rw [if_pos hp]; simp⟩
    · refine ⟨1, ?_⟩
      rw [if_neg hp]
      unfold len room
      rw [if_neg hp, hN]
      push_cast
      ring
  have := cur_congr3 (np := fun _ => 1) (n := room W) (fun a => by rw [one_mul]; exact le_trans (hN0 a) (Nat.le_add_right _ _)) hd hdt h' hv
  simp only [one_mul] at this
  exact this

theorem curOpen_per3 (W : Whole 3) (dt : ℚ) (cl : List (Kind × List (Ptc 3))) : W.Periodic (curOpen3 W dt cl) := by
  intro f v w h
  unfold curOpen3
  congr 1
  funext a
  have := h a
  unfold room
  split at this
  · rw [this]
  · next hp => rw [if_neg hp, add_zero]; exact this

theorem open_fold3 {npx npy npz nx ny nz ng : Nat} (hng : 3 ≤ ng) (hngx : ng ≤ nx) (hngy : ng ≤ ny) (hngz : ng ≤ nz) {d : Fin 3 → ℚ}
    (hd : ∀ a, 0 < d a) {dt : ℚ} {pml : Fin 3 → Bool} {loc : List P3} (hsub : ∀ p ∈ loc, p ∈ createPatches3 npx npy npz)
    (hnd : loc.Nodup) (cloud : Nat → List (ℚ × List Part3)) :
    let n := ![nx, ny, nz]
    let g := place3 npx npy npz (axisBC (pml 0)) (axisBC (pml 1)) (axisBC (pml 2)) loc
    let M : Fin 3 → Nat := fun a => g.np a * n a + if pml a = true then 6 else 0
    let s := syncCurrents3 nx ny nz ng loc.length
      (neighborIpatch3 npx npy npz (axisBC (pml 0)) (axisBC (pml 1)) (axisBC (pml 2)) (createPatches3 npx npy npz) loc)
    PicStep.AllFit3 n 3 d dt loc.length g.coord cloud →
    ∀ (f : Fin 4) (m' : Loc 3 → ℚ),
      s.CurrentRun (fun l => field (patchDeposit3 n ng d dt g.coord cloud l.1) f l.2) m' →
    ∀ t v, t < loc.length → Own n v →
      m' (t, index n ng v) = wholeJ3 M d dt (everyone3 loc.length cloud) f (globalCell n (g.coord t) v) := by
  intro n g M s hfit f m' hrun t v ht hv
  have h := (current_exchange3 hngx hngy hngz (axisBC_paired (pml 0)) (axisBC_paired (pml 1)) (axisBC_paired (pml 2)) hsub hnd hrun).1
    t v ht hv
  have hn : ∀ a, 0 < n a := fun a => match a with
    | 0 => by show 0 < nx; omega
    | 1 => by show 0 < ny; omega
    | 2 => by show 0 < nz; omega
  refine h.trans ?_
  have hbc : ∀ a, g.bc a = axisBC (pml a) := fun a => match a with
    | 0 => rfl
    | 1 => rfl
    | 2 => rfl
  have hval : ∀ u, u < loc.length → ∀ l, field (patchDeposit3 n ng d dt g.coord cloud u) f l
      = ((living3 (cloud u)).map fun m => closed3 (PicStep.patchAxis (n 0) ng (d 0) (g.coord u 0))
          (PicStep.patchAxis (n 1) ng (d 1) (g.coord u 1)) (PicStep.patchAxis (n 2) ng (d 2) (g.coord u 2)) dt m f l).sum := by
    intro u hu l
    unfold patchDeposit3
    have hng1 : 1 ≤ ng := by omega
    have hp : ∀ a, 0 < n a + 2 * ng := fun a => by have := hn a; omega
    rw [PicStep.depositAll3_fold, PicStep.dep3_fold (gx := PicStep.patchAxis (n 0) ng (d 0) (g.coord u 0))
      (gy := PicStep.patchAxis (n 1) ng (d 1) (g.coord u 1)) (gz := PicStep.patchAxis (n 2) ng (d 2) (g.coord u 2)) (dt := dt)
      (D := PicStep.dep3 (PicStep.patchAxis (n 0) ng (d 0) (g.coord u 0)) (PicStep.patchAxis (n 1) ng (d 1) (g.coord u 1))
        (PicStep.patchAxis (n 2) ng (d 2) (g.coord u 2)) dt) _
      (fun m hm => deposit3Ref_adds _ _ _ ⟨hp 0, hd 0⟩ ⟨hp 1, hd 1⟩ ⟨hp 2, hd 2⟩ dt m.q m.x m.y m.z m.mom
        (hfit u hu m hm).1.1 (hfit u hu m hm).2.1.1 (hfit u hu m hm).2.2.1
        (PicStep.fits_of (hn 0) hng1 (hd 0) (fits_mono hng (hfit u hu m hm).1))
        (PicStep.fits_of (hn 1) hng1 (hd 1) (fits_mono hng (hfit u hu m hm).2.1))
        (PicStep.fits_of (hn 2) hng1 (hd 2) (fits_mono hng (hfit u hu m hm).2.2))), PicStep.zero_field, zero_add]
  have step : ∀ u ∈ Finset.range loc.length, (∑ w ∈ allCells n ng, if g.Same n u w t v then
      at' n ng (fun l => field (patchDeposit3 n ng d dt g.coord cloud l.1) f l.2) u w else 0)
      = ((living3 (cloud u)).map fun m => closed3 ⟨M 0, d 0, 0⟩ ⟨M 1, d 1, 0⟩ ⟨M 2, d 2, 0⟩ dt m f
          (fun a => globalCell n (g.coord t) v a % (M a : Int))).sum := by
    intro u hu
    have hu' := Finset.mem_range.mp hu
    show (∑ w ∈ allCells n ng, if g.Same n u w t v then
      (field (patchDeposit3 n ng d dt g.coord cloud u) f) (index n ng w) else 0) = _
    rw [PicStep.same_fold, funext (hval u hu')]
    refine PicStep.foldTo_list _ _ _ fun m hm => ?_
    have hF : ∀ a, FoldAxis (n a) ng (if pml a = true then 3 else ng) (M a) (g.coord u a * n a)
        (globalCell n (g.coord t) v a % (M a : Int)) (sel g n u t v a) := fun a =>
      sel_mixed (hbc a) (hn a) hng (PicStep.coord_lt3 hsub hu' a) (PicStep.coord_lt3 hsub ht a) (hv a)
    have hm3 : ∀ a, 3 ≤ (if pml a = true then 3 else ng) := by intro a; split <;> omega
    exact PicStep.fold_closed3 hF hd (fits_mono (hm3 0) (hfit u hu' m hm).1) (fits_mono (hm3 1) (hfit u hu' m hm).2.1)
      (fits_mono (hm3 2) (hfit u hu' m hm).2.2) f
  refine (Finset.sum_congr rfl step).trans ?_
  rw [← PicStep.sum_everyone loc.length (fun u => living3 (cloud u))]
  rfl

theorem open_currents3 (C : LConf 3) (hng : 3 ≤ C.ng) (hle : ∀ a, C.ng ≤ C.n a) (hd : ∀ a, 0 < C.par.d a) (hdt : C.dt ≠ 0)
    (hnp : ∀ a, 0 < C.np a) (σ : Dom 3) (parts : List (Species × (Nat → List (Slot 3)))) (acc : Nat → Acc 3)
    (rk : Nat → Nat) (f : Fin 3) (m' : Loc 3 → ℚ)
    (hacc : ∀ t, t < (lsys3 C).npatches → acc t = depParts (fun sp => C.conf.kern3 sp ((lsys3 C).origin t) (σ t)) parts t)
    (hacc0 : ∀ t, ¬ t < (lsys3 C).npatches → acc t = zeroAcc)
    (hfit : Fit (lsys3 C).npatches ![C.n 0, C.n 1, C.n 2] 3 C.place3.coord C.par.d C.dt parts)
    (hrun : CurrentExchange ((lsys3 C).curLoc rk) ((lsys3 C).curMpi rk) (fun l => field (acc l.1) f.castSucc l.2) m')
    {t : Nat} {v : Fin 3 → Int} (ht : t < (lsys3 C).npatches) (hv : Own ![C.n 0, C.n 1, C.n 2] v) :
    m' (t, index ![C.n 0, C.n 1, C.n 2] C.ng v) = curOpen3 C.whole C.dt (cloudOf (lsys3 C).npatches parts) f
      (globalCell ![C.n 0, C.n 1, C.n 2] (C.place3.coord t) v) := by
  obtain ⟨m'', h⟩ : ∃ m'', (syncCurrents3 (C.n 0) (C.n 1) (C.n 2) C.ng (lsys3 C).npatches C.nbr3).CurrentRun
      (fun l => field (acc l.1) f.castSucc l.2) m'' := ⟨_, _, Interleave.isSchedule_seq _ _, rfl⟩
  have hs := current3_shape (N := (lsys3 C).npatches) (nbr := C.nbr3) (hle 0) (hle 1) (hle 2)
  have hg := nbrGeo3 (s := syncCurrents3 (C.n 0) (C.n 1) (C.n 2) C.ng (lsys3 C).npatches C.nbr3) (axisBC_paired (C.pml 0))
    (axisBC_paired (C.pml 1)) (axisBC_paired (C.pml 2)) (grid_createPatches3 (C.np 0) (C.np 1) (C.np 2)) (fun _ h => h) (nodup_createPatches3 _ _ _) rfl rfl
  have e := current_ranks (rem := mpiCurrents3 (C.n 0) (C.n 1) (C.n 2) C.ng (lsys3 C).npatches (remoteNbr rk C.nbr3)) hs (hg.ok hs)
    (currentTab3_eq _ _ _ _) (mpiCurrents3_shape (hle 0) (hle 1) (hle 2)) rfl rfl rfl rfl hrun h t v ht (hv.inRange _)
  refine e.trans ?_
  have hacc' : ∀ t l, field (acc t) f.castSucc l = field (patchDeposit3 ![C.n 0, C.n 1, C.n 2] C.ng C.par.d C.dt C.place3.coord
      (slots3 (lsys3 C).npatches parts) t) f.castSucc l := by
    intro t l
    by_cases ht : t < (lsys3 C).npatches
    · rw [hacc t ht]
      exact field_eq3 C.conf (by show 2 ≤ C.ng; omega) hle hd hdt hnp σ parts (Fit.mono hng hfit) ht _ _
    · rw [hacc0 t ht]
      unfold patchDeposit3 slots3
      rw [if_neg ht]
      rfl
  have hfit' := fit_slots3 hfit
  have key := open_fold3 (npx := C.np 0) (npy := C.np 1) (npz := C.np 2) hng (hle 0) (hle 1) (hle 2) hd (pml := C.pml)
    (loc := createPatches3 (C.np 0) (C.np 1) (C.np 2)) (fun _ h => h) (nodup_createPatches3 _ _ _)
    (slots3 (lsys3 C).npatches parts) hfit' f.castSucc m'' (by simp only [hacc'] at h; exact h) t v ht hv
  refine key.trans ?_
  have hn : ∀ a, 0 < C.n a := fun a => lt_of_lt_of_le (by omega) (hle a)
  have hN : ∀ a, 2 ≤ room C.whole a := fun a => le_trans (le_trans (by omega : 2 ≤ C.ng) (hle a))
    (le_trans (Nat.le_mul_of_pos_left _ (hnp a)) (Nat.le_add_right _ _))
  have hpm := everyone_macros3 (lsys3 C).npatches parts
  have hall' : ∀ m ∈ macros3 (cloudOf (lsys3 C).npatches parts), |m.mom.vx * C.dt| ≤ C.par.d 0 ∧ |m.mom.vy * C.dt| ≤ C.par.d 1 ∧
      |m.mom.vz * C.dt| ≤ C.par.d 2 := by
    intro m hm
    obtain ⟨u, hu, hm⟩ := List.mem_flatMap.mp (hpm.mem_iff.mpr hm)
    have := hfit' u (List.mem_range.mp hu) m hm
    exact ⟨this.1.1, this.2.1.1, this.2.2.1⟩
  have hM : (fun a => (place3 (C.np 0) (C.np 1) (C.np 2) (axisBC (C.pml 0)) (axisBC (C.pml 1)) (axisBC (C.pml 2)) (createPatches3 (C.np 0) (C.np 1) (C.np 2))).np a
      * ![C.n 0, C.n 1, C.n 2] a + if C.pml a = true then 6 else 0) = room C.whole := by
    funext a
    match a with
    | 0 => rfl
    | 1 => rfl
    | 2 => rfl
  rw [hM]
  refine Eq.trans ?_ (PicStep.undivided_whole3 (N := room C.whole) hN hd hdt hall' f.castSucc
    (c := fun a => globalCell ![C.n 0, C.n 1, C.n 2] (C.place3.coord t) v a % (room C.whole a : Int)) fun a =>
    have : (0 : Int) < room C.whole a := by have := hN a; omega
    ⟨Int.emod_nonneg _ this.ne', Int.emod_lt_of_pos _ this⟩).symm
  unfold wholeJ3
  simp only [Int.emod_emod_of_dvd, dvd_refl]
  exact (hpm.map _).sum_eq

/-! ## particle exchange -/

theorem open_exch3 (C : LConf 3) (hn : ∀ a, 0 < C.n a) (hd : ∀ a, 0 < C.par.d a) (hnp : ∀ a, 0 < C.np a)
    (hth : ∀ a, C.pml a = true → 0 < C.thick ∧ C.thick < C.n a)
    (ps : Nat → List (Slot 3)) (hps : ∀ t, t < (lsys3 C).npatches → ∀ s ∈ ps t, s.dead = false → ∃ v, nums s.pos = some v ∧
      Nearby ![C.n 0, C.n 1, C.n 2] (C.place3.coord t) C.par.d v) (rk : Nat → Nat) {ord2 ord3 : List Nat} (blank : A3 (Mom × EB))
    (h2 : ord2.Perm (List.range (lsys3 C).npatches)) (h3 : ord3.Perm (List.range (lsys3 C).npatches)) :
    ∃ s', parSync ((lsys3 C).geo blank) rk ord2 ord3 (fun t => (ps t).map (lsys3 C).pack) = some s' ∧
      SameParticles (period C.np C.n C.par.d C.pml) (particles (lsys3 C).npatches fun t => (s' t).map (lsys3 C).unpack)
        ((particles (lsys3 C).npatches ps).filter fun p => decide (Free C.whole p.pos)) ∧
      ∀ t, t < (lsys3 C).npatches → ∀ s ∈ (s' t).map (lsys3 C).unpack, s.dead = false → ∃ v, nums s.pos = some v ∧
        Ins ![C.n 0, C.n 1, C.n 2] (C.place3.coord t) C.par.d v := by
  have hsym := sym3_of_grid (axisBC_paired (C.pml 0)) (axisBC_paired (C.pml 1)) (axisBC_paired (C.pml 2)) (grid_createPatches3 (C.np 0) (C.np 1) (C.np 2))
    (fun _ h => h) (nodup_createPatches3 (C.np 0) (C.np 1) (C.np 2))
  have coord : ∀ t pp, (createPatches3 (C.np 0) (C.np 1) (C.np 2))[t]? = some pp → C.place3.coord t = ![pp.ix, pp.iy, pp.iz] := by
    intro t pp h
    show (match (createPatches3 (C.np 0) (C.np 1) (C.np 2))[t]? with | some p => ![p.ix, p.iy, p.iz] | none => ![0, 0, 0]) = _
    rw [h]
  have land : ∀ x ∈ living (lsys3 C).npatches (fun t => (ps t).map (lsys3 C).pack), ∃ (v : Fin 3 → ℚ) (mo : Mom) (eb : EB),
      x.2 = ⟨.val (v 0), .val (v 1), .val (v 2), (mo, eb)⟩ ∧
      (Free C.whole v → ∃ (q : Nat) (w : Fin 3 → ℚ),
        dest3 C.nbr3 ((C.axis 0).bnd fun ip => ((createPatches3 (C.np 0) (C.np 1) (C.np 2))[ip]?.map P3.ix).getD 0)
          ((C.axis 1).bnd fun ip => ((createPatches3 (C.np 0) (C.np 1) (C.np 2))[ip]?.map P3.iy).getD 0)
          ((C.axis 2).bnd fun ip => ((createPatches3 (C.np 0) (C.np 1) (C.np 2))[ip]?.map P3.iz).getD 0) x.1 x.2
          = some (q, ⟨.val (w 0), .val (w 1), .val (w 2), (mo, eb)⟩) ∧
        (∀ i, ∃ z : ℤ, w i = v i + z * period C.np C.n C.par.d C.pml i) ∧ Ins ![C.n 0, C.n 1, C.n 2] (C.place3.coord q) C.par.d w) ∧
      (¬ Free C.whole v →
        dest3 C.nbr3 ((C.axis 0).bnd fun ip => ((createPatches3 (C.np 0) (C.np 1) (C.np 2))[ip]?.map P3.ix).getD 0)
          ((C.axis 1).bnd fun ip => ((createPatches3 (C.np 0) (C.np 1) (C.np 2))[ip]?.map P3.iy).getD 0)
          ((C.axis 2).bnd fun ip => ((createPatches3 (C.np 0) (C.np 1) (C.np 2))[ip]?.map P3.iz).getD 0) x.1 x.2 = none ∧
        OneStep3 C.nbr3 ((C.axis 0).bnd fun ip => ((createPatches3 (C.np 0) (C.np 1) (C.np 2))[ip]?.map P3.ix).getD 0)
          ((C.axis 1).bnd fun ip => ((createPatches3 (C.np 0) (C.np 1) (C.np 2))[ip]?.map P3.iy).getD 0)
          ((C.axis 2).bnd fun ip => ((createPatches3 (C.np 0) (C.np 1) (C.np 2))[ip]?.map P3.iz).getD 0) x.1 x.2) := by
    intro x hxm
    obtain ⟨hlt, hmem⟩ := mem_living_iff.mp hxm
    obtain ⟨s, hs, e⟩ := List.mem_map.mp hmem
    have hpp : (createPatches3 (C.np 0) (C.np 1) (C.np 2))[x.1]? = some (createPatches3 (C.np 0) (C.np 1) (C.np 2))[x.1] :=
      List.getElem?_eq_getElem hlt
    have hbd := (grid_createPatches3 (C.np 0) (C.np 1) (C.np 2)).bound _ (List.getElem_mem hlt)
    have ed : s.dead = false := congrArg Exchange.Slot.dead e
    have ea : x.2 = ⟨s.pos 0, s.pos 1, s.pos 2, (s.mom, s.eb)⟩ := (congrArg Exchange.Slot.a e).symm
    obtain ⟨v, hv, hnear⟩ := hps x.1 hlt s hs ed
    rw [coord _ _ hpp] at hnear
    have ep : x.2 = ⟨.val (v 0), .val (v 1), .val (v 2), (s.mom, s.eb)⟩ := by
      rw [ea, nums_eq_some hv 0, nums_eq_some hv 1, nums_eq_some hv 2]
    have hL := lands3 (R := Mom × EB) (ax := C.axis 0) (ay := C.axis 1) (az := C.axis 2) (axisBC_paired (C.pml 0))
      (axisBC_paired (C.pml 1)) (axisBC_paired (C.pml 2)) x.1 _ hpp (v 0) (v 1) (v 2) (s.mom, s.eb)
      (axis_lands C 0 (hnp 0) (hn 0) (hd 0) (hth 0) hbd.1 (hnear 0).1 (hnear 0).2)
      (axis_lands C 1 (hnp 1) (hn 1) (hd 1) (hth 1) hbd.2.1 (hnear 1).1 (hnear 1).2)
      (axis_lands C 2 (hnp 2) (hn 2) (hd 2) (hth 2) hbd.2.2 (hnear 2).1 (hnear 2).2)
    refine ⟨v, s.mom, s.eb, ep, fun hf => ?_, fun hf => ?_⟩
    · obtain ⟨q, qq, wx, wy, wz, hq, hdest, b0, b1, b2, z0, z1, z2⟩ := hL.1 ⟨hf 0, hf 1, hf 2⟩
      refine ⟨q, ![wx, wy, wz], ?_, ?_, ?_⟩
      · rw [ep]
        exact hdest
      · intro i
        match i with
        | 0 => exact z0
        | 1 => exact z1
        | 2 => exact z2
      · rw [coord _ _ hq]
        intro i
        match i with
        | 0 => exact axis_within C 0 (hnp 0) (hd 0) b0.1 b0.2
        | 1 => exact axis_within C 1 (hnp 1) (hd 1) b1.1 b1.2
        | 2 => exact axis_within C 2 (hnp 2) (hd 2) b2.1 b2.2
    · rw [ep]
      exact hL.2 fun h => hf fun a => match a with
        | 0 => h.1
        | 1 => h.2.1
        | 2 => h.2.2
  have pv : ∀ (w : Fin 3 → ℚ) (mo : Mom) (eb : EB),
      ptcA (lsys3 C).unpack ⟨.val (w 0), .val (w 1), .val (w 2), (mo, eb)⟩ = some ⟨w, mo⟩ := by
    intro w mo eb
    have : nums (![.val (w 0), .val (w 1), .val (w 2)] : Fin 3 → F64) = some w := by
      rw [nums3]
      show some ![w 0, w 1, w 2] = _
      rw [WholeRun.vec3]
    exact ptc_some (s := (lsys3 C).unpack ⟨⟨.val (w 0), .val (w 1), .val (w 2), (mo, eb)⟩, false⟩) rfl this
  obtain ⟨s', he, hp, _⟩ := MpiExchangeProps.ranks3_conserve rk
    ((C.axis 0).bnd fun ip => ((createPatches3 (C.np 0) (C.np 1) (C.np 2))[ip]?.map P3.ix).getD 0)
    ((C.axis 1).bnd fun ip => ((createPatches3 (C.np 0) (C.np 1) (C.np 2))[ip]?.map P3.iy).getD 0)
          ((C.axis 2).bnd fun ip => ((createPatches3 (C.np 0) (C.np 1) (C.np 2))[ip]?.map P3.iz).getD 0) blank
    (fun t => (ps t).map (lsys3 C).pack) hsym h2 h3
    (fun x hxm => by
      obtain ⟨v, mo, eb, hx3, k1, k2⟩ := land x hxm
      by_cases hf : Free C.whole v
      · obtain ⟨q, w, h, _⟩ := k1 hf
        exact MpiExchangeProps.offset_of_dest3 (by rw [show neighborIpatch3 _ _ _ _ _ _ _ _ = C.nbr3 from rfl, h]; rfl)
      · exact (k2 hf).2)
  have hback : ∀ t, ((ps t).map (lsys3 C).pack).map (lsys3 C).unpack = ps t := by
    intro t
    rw [List.map_map]
    refine (List.map_congr_left ?_).trans (List.map_id _)
    intro s _
    obtain ⟨pos, mom, eb, dd⟩ := s
    show (⟨![pos 0, pos 1, pos 2], mom, eb, dd⟩ : Slot 3) = ⟨pos, mom, eb, dd⟩
    rw [WholeRun.vec3]
  refine ⟨s', he, ?_, ?_⟩
  · have := exchange_filter (L := period C.np C.n C.par.d C.pml) (keep := fun x => decide (Free C.whole x)) (lsys3 C).unpack (fun _ => rfl) hp
      (fun x hxm => by
        obtain ⟨v, mo, eb, hx3, k1, k2⟩ := land x hxm
        refine ⟨⟨v, mo⟩, by rw [hx3]; exact pv v mo eb, fun hk => ?_, fun hk => ?_⟩
        · obtain ⟨q, w, h, hz, _⟩ := k1 (of_decide_eq_true hk)
          exact ⟨_, ⟨w, mo⟩, h, pv w mo eb, SamePtc.symm ⟨rfl, hz⟩⟩
        · exact (k2 (of_decide_eq_false hk)).1)
    simp only [hback] at this
    exact this
  · intro t ht s hs hdd
    obtain ⟨b, hb, rfl⟩ := List.mem_map.mp hs
    obtain ⟨a, dd⟩ := b
    have : dd = false := hdd
    subst this
    have hm : (t, a) ∈ living (lsys3 C).npatches s' := mem_living_iff.mpr ⟨ht, hb⟩
    obtain ⟨x, hxm, hxd⟩ := List.mem_filterMap.mp (hp.mem_iff.mp hm)
    obtain ⟨v, mo, eb, hx3, k1, k2⟩ := land x hxm
    by_cases hf : Free C.whole v
    · obtain ⟨q, w, h, _, hins⟩ := k1 hf
      rw [show neighborIpatch3 _ _ _ _ _ _ _ _ = C.nbr3 from rfl, h] at hxd
      injection hxd with hxd
      injection hxd with h1 h2
      subst h1 h2
      exact ⟨w, (ptc_eq (pv w mo eb)).2.1, hins⟩
    · rw [show neighborIpatch3 _ _ _ _ _ _ _ _ = C.nbr3 from rfl, (k2 hf).1] at hxd
      cases hxd

/-! ## all together -/

/-- what particles do in the undivided simulation of a run that is set up with `C` -/
noncomputable def LConf.phys3 (C : LConf 3) : Phys 3 := lphys3 C.whole C.dt C.rs

theorem pushFacts3 (C : LConf 3) (hng : 3 ≤ C.ng) (hle : ∀ a, C.ng ≤ C.n a) (hd : ∀ a, 0 < C.par.d a) (hdt : C.dt ≠ 0)
    (hnp : ∀ a, 0 < C.np a) (hth : ∀ a, C.pml a = true → 0 < C.thick ∧ C.thick < C.n a) :
    PushFacts (lsys3 C) C.phys3 C.place3 C.par.d 3 (period C.np C.n C.par.d C.pml)
      (fun G => C.whole.Periodic G.e ∧ C.whole.Periodic G.b) (fun x => decide (Free C.whole x)) (fun sp => sp.unified = true) C.conf.kern3 := by
  have hn : ∀ a, 0 < C.n a := fun a => lt_of_lt_of_le (by omega) (hle a)
  have hnpv : C.place3.np = C.np := WholeRun.vec3 C.np
  have hnv : (lsys3 C).solver.sync.n = C.n := WholeRun.vec3 C.n
  have Fc := facts3 C.conf (by show 2 ≤ C.ng; omega) hle hd hdt hnp
  constructor
  · exact Fc.push_eq
  · intro sp t σ G v ht hrep _ hv
    exact interp_see3 C.conf (by show 2 ≤ C.ng; omega) hd hnp sp ht ⟨hrep.e, hrep.b, hrep.j⟩ hv
  · intro σ parts acc rk c m' h1 h2 h3 h4 t v ht hv
    exact open_currents3 C hng hle hd hdt hnp σ parts acc rk c m' h1 h2 h3 h4 ht hv
  · intro a b hab hv
    exact curOpen_congr3 (W := C.whole) (fun _ => rfl) (fun a => le_trans (le_trans (by omega : 2 ≤ C.ng) (hle a)) (Nat.le_mul_of_pos_left _ (hnp a))) hd hdt hab hv
  · intro G x y hper h
    exact see_open3 (W := C.whole) (fun _ => rfl) hd hper.1 hper.2 h
  · intro x y h
    refine decide_eq_decide.mpr (forall_congr' fun a => imp_congr_right fun hp => ?_)
    obtain ⟨z, hz⟩ := h a
    unfold period at hz
    rw [if_pos (show C.pml a = true from hp), mul_zero, add_zero] at hz
    rw [hz]
  · intro ps hps rk ord2 ord3 blank h2 h3
    have := open_exch3 C hn hd hnp hth ps hps rk blank h2 h3
    exact this
  · intro rk m
    have hs' := current3_shape (N := (lsys3 C).npatches) (nbr := C.nbr3) (hle 0) (hle 1) (hle 2)
    have hg' := nbrGeo3 (s := syncCurrents3 (C.n 0) (C.n 1) (C.n 2) C.ng (lsys3 C).npatches C.nbr3) (axisBC_paired (C.pml 0))
      (axisBC_paired (C.pml 1)) (axisBC_paired (C.pml 2)) (grid_createPatches3 (C.np 0) (C.np 1) (C.np 2)) (fun _ h => h) (nodup_createPatches3 _ _ _) rfl rfl
    exact (exchange_exists _ _ (mpiCurrents3_shape (hle 0) (hle 1) (hle 2))
      (NbrOK.remote (rem := mpiCurrents3 (C.n 0) (C.n 1) (C.n 2) C.ng (lsys3 C).npatches (remoteNbr rk C.nbr3)) (hg'.ok hs') rk rfl rfl) m).2
  · exact Fc.blank

end Verif.WholePml
