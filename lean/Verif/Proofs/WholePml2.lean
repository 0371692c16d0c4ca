import Verif.Spec.WholePml
import Verif.Proofs.WholePmlParts
import Verif.Proofs.WholeRun2
import Verif.Proofs.CpmlRun
import Verif.Props.PicStep
/-!
# What the 2D program supplies for complete runs with absorbing layers
-/
namespace Verif.WholePml
open Verif.Maxwell Verif.SyncFields Verif.Pusher Verif.Deposit Verif.Geometry Verif.Neighbors Verif.PicSpec Verif.Shape
open Verif.MpiExchange Verif.PusherProps Verif.ExchangeProps Verif.DepositProps Verif.MpiExchangeProps
open Verif.Exchange (alive living)
open Verif.PicStep (field zeroAcc undivided2 patchDeposit2 wholeJ2 closed2 FoldAxis sel)
open Verif.Particles (F64)
open Verif.Cpml (PConf PDom PSys axisBC pmlSys2 pmlSys3 Whole Grid axisBC_paired)
open Verif.WholeRun

variable {k : Nat}

/-- the lengths after which positions are the same: nothing on absorbing axes -/
def period (np n : Fin k → Nat) (d : Fin k → ℚ) (pml : Fin k → Bool) (a : Fin k) : ℚ := if pml a = true then 0 else len np n d a

theorem SamePtc.mono {L L' : Fin k → ℚ} (h : ∀ i, ∃ z : ℤ, L i = z * L' i) {p q : Ptc k} (hpq : SamePtc L p q) : SamePtc L' p q := by
  refine ⟨hpq.1, fun i => ?_⟩
  obtain ⟨z, hz⟩ := hpq.2 i
  obtain ⟨y, hy⟩ := h i
  exact ⟨z * y, by rw [hz, hy]; push_cast; ring⟩

theorem SameCloud.mono {L L' : Fin k → ℚ} (h : ∀ i, ∃ z : ℤ, L i = z * L' i) {a b : List (Kind × List (Ptc k))}
    (hab : SameCloud L a b) : SameCloud L' a b :=
  List.Forall₂.imp (fun _ _ hs => ⟨hs.1, by
    obtain ⟨b', hb, hf⟩ := hs.2
    exact ⟨b', hb, List.Forall₂.imp (fun _ _ => SamePtc.mono h) hf⟩⟩) hab

/-- if every living particle that is kept goes to a place where it is the same particle, and the others are removed, then the
kept particles are the same -/
theorem exchange_filter {A : Type} (unpack : Exchange.Slot A → Slot k) {L : Fin k → ℚ} (hdead : ∀ a, (unpack ⟨a, true⟩).dead = true)
    {N : Nat} {s s' : Nat → List (Exchange.Slot A)} {dest : Nat × A → Option (Nat × A)} {keep : (Fin k → ℚ) → Bool}
    (hp : (living N s').Perm ((living N s).filterMap dest))
    (hd : ∀ x ∈ living N s, ∃ p, ptcA unpack x.2 = some p ∧ (keep p.pos = true → ∃ y p', dest x = some y ∧
      ptcA unpack y.2 = some p' ∧ SamePtc L p p') ∧ (keep p.pos = false → dest x = none)) :
    SameParticles L (particles N fun t => (s' t).map unpack)
      ((particles N fun t => (s t).map unpack).filter fun p => keep p.pos) := by
  rw [particles_living unpack hdead, particles_living unpack hdead]
  refine SameParticles.trans (SameParticles.of_perm (hp.filterMap _)) (SameParticles.symm ?_)
  refine ⟨_, List.Perm.refl _, ?_⟩
  generalize living N s = l at hd
  induction l with
  | nil => exact .nil
  | cons x l ih =>
    obtain ⟨p, e3, h1, h2⟩ := hd x List.mem_cons_self
    have ih := ih fun z hz => hd z (List.mem_cons_of_mem _ hz)
    rw [List.filterMap_cons_some (f := fun x : Nat × A => ptcA unpack x.2) e3]
    cases hk : keep p.pos with
    | true =>
      obtain ⟨y, p', e1, e2, h⟩ := h1 hk
      rw [List.filterMap_cons_some e1, List.filterMap_cons_some (f := fun x : Nat × A => ptcA unpack x.2) e2,
        List.filter_cons_of_pos (by simpa using hk)]
      exact .cons h ih
    | false =>
      rw [List.filterMap_cons_none (h2 hk), List.filter_cons_of_neg (by simp [hk])]
      exact ih

theorem fits_mono {n m m' c : Nat} (h : m ≤ m') {d dt x v : ℚ} (hf : FitsAxis n m c d dt x v) : FitsAxis n m' c d dt x v := by
  have hc : ∀ y, Covered n m c d y → Covered n m' c d y := by
    intro y ⟨h1, h2⟩
    refine ⟨?_, ?_⟩ <;> omega
  exact ⟨hf.1, hc _ hf.2.1, hc _ hf.2.2⟩

theorem axisBC_periodic (p : Bool) : (axisBC p).lo = .periodic ↔ p = false := by
  cases p <;> simp [axisBC]

/-- what an axis with or without layers does with a coordinate within a cell of a patch -/
theorem axis_lands (C : LConf k) (a : Fin k) (hnp : 0 < C.np a) (hn : 0 < C.n a) (hd : 0 < C.par.d a)
    (ht : C.pml a = true → 0 < C.thick ∧ C.thick < C.n a) {i : Nat} (hi : i < C.np a) {v : ℚ}
    (h1 : i * C.n a * C.par.d a - C.par.d a / 2 - C.par.d a ≤ v)
    (h2 : v ≤ i * C.n a * C.par.d a + C.n a * C.par.d a - C.par.d a / 2 + C.par.d a) :
    Lands (C.axis a) i v (period C.np C.n C.par.d C.pml a)
      (C.pml a = true → C.thick * C.par.d a - C.par.d a / 2 ≤ v ∧
        v ≤ (C.whole.N a - C.thick) * C.par.d a - C.par.d a / 2) := by
  unfold period
  cases hp : C.pml a with
  | false =>
    have hper : PeriodicAxis (C.axis a) :=
      ⟨hnp, hn, hd, by show (axisBC (C.pml a)).lo = _; rw [hp]; rfl, by show (axisBC (C.pml a)).hi = _; rw [hp]; rfl⟩
    have hlo := Axis.lo_periodic (C.axis a) hnp hper.lo i
    have hhi := Axis.hi_periodic (C.axis a) hnp hper.hi i
    have hlo' : (C.axis a).lo i = i * C.n a * C.par.d a - C.par.d a / 2 := hlo
    have hhi' : (C.axis a).hi i = i * C.n a * C.par.d a + C.n a * C.par.d a - C.par.d a / 2 :=
      hhi.trans (by show ((i : ℚ) + 1) * C.n a * C.par.d a - C.par.d a / 2 = _; ring)
    have e : C.par.d a ≤ C.n a * C.par.d a := le_mul_of_one_le_left hd.le (by exact_mod_cast hn)
    refine lands_periodic hper hi ⟨?_, ?_⟩ ?_ (fun h => by cases h)
    · rw [hlo']; show _ - (C.n a : ℚ) * C.par.d a ≤ v; linarith
    · rw [hhi']; show v ≤ _ + (C.n a : ℚ) * C.par.d a; linarith
    · rw [if_neg (by decide)]
      have e : (C.axis a).L = len C.np C.n C.par.d a := by
        show ((C.np a * C.n a : Nat) : ℚ) * C.par.d a = C.np a * C.n a * C.par.d a
        push_cast; ring
      unfold foldBack
      split
      · exact ⟨1, by rw [e]; push_cast; ring⟩
      · split
        · exact ⟨-1, by rw [e]; push_cast; ring⟩
        · exact ⟨0, by push_cast; ring⟩
  | true =>
    have h := lands_open (a := C.axis a) hnp hd (ht hp).1 (ht hp).2 (by show (axisBC (C.pml a)).lo = _; rw [hp]; rfl)
      (by show (axisBC (C.pml a)).hi = _; rw [hp]; rfl) hi h1 h2
    rw [if_pos rfl]
    have en : (C.whole.N a : ℚ) = C.np a * C.n a := by
      show ((C.np a * C.n a : Nat) : ℚ) = _
      push_cast; rfl
    rw [en]
    refine ⟨fun hk => h.stay (hk rfl), fun hk => h.gone fun hk' => hk fun _ => hk'⟩

/-- the bounds of a patch lie within the patch -/
theorem axis_within (C : LConf k) (a : Fin k) (hnp : 0 < C.np a) (hd : 0 < C.par.d a) {i : Nat} {w : ℚ}
    (h1 : (C.axis a).lo i ≤ w) (h2 : w ≤ (C.axis a).hi i) :
    i * C.n a * C.par.d a - C.par.d a / 2 ≤ w ∧ w ≤ i * C.n a * C.par.d a + C.n a * C.par.d a - C.par.d a / 2 := by
  have ht : (0 : ℚ) ≤ C.thick * C.par.d a := by positivity
  have x0 : (C.axis a).x0 i = i * C.n a * C.par.d a := Axis.x0_eq (C.axis a) hnp i
  have l1 : (C.axis a).x0 i ≤ (C.axis a).pmin i := by
    unfold Axis.pmin
    split
    · exact le_add_of_nonneg_right ht
    · exact le_rfl
  have l2 : (C.axis a).pmax i ≤ (C.axis a).x0 i + ((C.n a : ℚ) - 1) * C.par.d a := by
    unfold Axis.pmax
    split
    · exact sub_le_self _ ht
    · exact le_rfl
  have e1 : (C.axis a).lo i = (C.axis a).pmin i - C.par.d a / 2 := rfl
  have e2 : (C.axis a).hi i = (C.axis a).pmax i + C.par.d a / 2 := rfl
  rw [e1] at h1
  rw [e2] at h2
  rw [x0] at l1 l2
  constructor
  · linarith
  · have : ((C.n a : ℚ) - 1) * C.par.d a = C.n a * C.par.d a - C.par.d a := by ring
    linarith

/-! ## what particles see -/

theorem see_open2 {W : Whole 2} {np n : Fin 2 → Nat} (hN : ∀ a, W.N a = np a * n a) {d : Fin 2 → ℚ} (hd : ∀ a, 0 < d a) {G : GF 2}
    {x y : Fin 2 → ℚ} (he : W.Periodic G.e) (hb : W.Periodic G.b) (h : ∀ i, ∃ z : ℤ, x i = y i + z * period np n d W.pml i) :
    see2 d G x = see2 d G y := by
  have hz : ∀ i, ∃ Z : ℤ, x i / d i = y i / d i + (Z : ℚ) ∧ (W.pml i = true → Z = 0) ∧ ∃ z : ℤ, Z = z * (np i * n i : Int) := by
    intro i
    obtain ⟨z, hz⟩ := h i
    unfold period at hz
    by_cases hp : W.pml i = true
    · rw [if_pos hp] at hz
      exact ⟨0, by rw [hz]; simp, fun _ => rfl, 0, by simp⟩
    · rw [if_neg hp] at hz
      exact ⟨z * (np i * n i : Int), by rw [hz, len_div (hd i).ne'], fun h => absurd h hp, z, rfl⟩
  obtain ⟨Z0, h0, p0, z0, c0⟩ := hz 0
  obtain ⟨Z1, h1, p1, z1, c1⟩ := hz 1
  have key : ∀ (sx sy : ℚ) (V : V3 2) (f : Fin 3), W.Periodic V →
      sample2 sx sy (x 0 / d 0) (x 1 / d 1) (fun m n => V f ![m, n])
        = sample2 sx sy (y 0 / d 0) (y 1 / d 1) fun m n => V f ![m, n] := by
    intro sx sy V f hV
    rw [h0, h1, sample2_add]
    congr 1
    funext m n'
    apply hV
    intro a
    match a with
    | 0 =>
      split
      · next hp => show m + Z0 = m; rw [p0 hp]; ring
      · rw [hN 0]; exact Int.modEq_iff_dvd.mpr ⟨-z0, by show m - (m + Z0) = _; rw [c0]; push_cast; ring⟩
    | 1 =>
      split
      · next hp => show n' + Z1 = n'; rw [p1 hp]; ring
      · rw [hN 1]; exact Int.modEq_iff_dvd.mpr ⟨-z1, by show n' - (n' + Z1) = _; rw [c1]; push_cast; ring⟩
  unfold see2
  dsimp only
  rw [key _ _ _ _ he, key _ _ _ _ he, key _ _ _ _ he, key _ _ _ _ hb, key _ _ _ _ hb, key _ _ _ _ hb]

/-! ## currents -/

theorem room_pos {W : Whole k} (hN : ∀ a, 0 < W.N a) (a : Fin k) : 0 < room W a := Nat.add_pos_left (hN a) _

theorem curOpen_congr2 {W : Whole 2} {np n : Fin 2 → Nat} (hN : ∀ a, W.N a = np a * n a) (hN0 : ∀ a, 0 < W.N a)
    (hd : ∀ a, 0 < W.par.d a) {dt : ℚ} (hdt : dt ≠ 0) {a b : List (Kind × List (Ptc 2))}
    (hab : SameCloud (period np n W.par.d W.pml) a b)
    (hv : ∀ s ∈ a, ∀ p ∈ s.2, ∀ i : Fin 2, |vel p.mom i * dt| ≤ W.par.d i) : curOpen2 W dt a = curOpen2 W dt b := by
  have h' : SameCloud (len (fun _ => 1) (room W) W.par.d) a b := by
    refine SameCloud.mono (fun i => ?_) hab
    unfold period
    by_cases hp : W.pml i = true
    · exact ⟨0, by rw [if_pos hp]; simp⟩
    · refine ⟨1, ?_⟩
      rw [if_neg hp]
      unfold len room
      rw [if_neg hp, hN]
      push_cast
      ring
  have := cur_congr2 (np := fun _ => 1) (n := room W) (fun a => by rw [one_mul]; exact room_pos hN0 a) hd hdt h' hv
  simp only [one_mul] at this
  exact this

theorem curOpen_per2 (W : Whole 2) (dt : ℚ) (cl : List (Kind × List (Ptc 2))) : W.Periodic (curOpen2 W dt cl) := by
  intro f v w h
  unfold curOpen2
  congr 1
  funext a
  have := h a
  unfold room
  split at this
  · rw [this]
  · next hp => rw [if_neg hp, add_zero]; exact this

/-- the axis of an exchange of currents, periodic or absorbing -/
theorem sel_mixed {n : Fin k → Nat} {ng : Nat} {g : Place k} {u t : Nat} {v : Fin k → Int} {a : Fin k} {p : Bool}
    (hb : g.bc a = axisBC p) (hn : 0 < n a) (hng : 3 ≤ ng) (hu : g.coord u a < g.np a) (ht : g.coord t a < g.np a)
    (hv : 0 ≤ v a ∧ v a < n a) :
    FoldAxis (n a) ng (if p = true then 3 else ng) (g.np a * n a + if p = true then 6 else 0) (g.coord u a * n a)
      (globalCell n (g.coord t) v a % ((g.np a * n a + (if p = true then 6 else 0) : Nat) : Int)) (sel g n u t v a) := by
  have hnp : 0 < g.np a := by omega
  cases p with
  | false => exact PicStep.sel_ring (by rw [hb]; rfl) hn hnp
  | true =>
    have h2 : ((g.coord t a : Int) + 1) * n a ≤ g.np a * n a :=
      mul_le_mul_of_nonneg_right (by omega) (by omega)
    have h3 : (0 : Int) ≤ (g.coord t a : Int) * n a := by positivity
    have e : globalCell n (g.coord t) v a = g.coord t a * n a + v a := rfl
    refine PicStep.sel_open (m := 3) (by rw [hb]; intro h; cases h) hn hng hu ?_ ?_
    · rw [e]; push_cast; omega
    · rw [e]; push_cast; nlinarith

theorem open_fold2 {npx npy nx ny ng : Nat} (hng : 3 ≤ ng) (hngx : ng ≤ nx) (hngy : ng ≤ ny) {d : Fin 2 → ℚ} (hd : ∀ a, 0 < d a)
    {dt : ℚ} (hdt : dt ≠ 0) {pml : Fin 2 → Bool} {loc : List P2} (hsub : ∀ p ∈ loc, p ∈ createPatches2 npx npy) (hnd : loc.Nodup)
    (cloud : Nat → List (ℚ × List Part2)) :
    let n := ![nx, ny]
    let g := place2 npx npy (axisBC (pml 0)) (axisBC (pml 1)) loc
    let M : Fin 2 → Nat := fun a => g.np a * n a + if pml a = true then 6 else 0
    let s := syncCurrents2 nx ny ng loc.length
      (neighborIpatch2 npx npy (axisBC (pml 0)) (axisBC (pml 1)) (createPatches2 npx npy) loc)
    PicStep.AllFit2 n 3 d dt loc.length g.coord cloud →
    ∀ (f : Fin 4) (m' : Loc 2 → ℚ),
      s.CurrentRun (fun l => field (patchDeposit2 n ng d dt g.coord cloud l.1) f l.2) m' →
    ∀ t v, t < loc.length → Own n v →
      m' (t, index n ng v) = wholeJ2 M d dt (everyone2 loc.length cloud) f (globalCell n (g.coord t) v) := by
  intro n g M s hfit f m' hrun t v ht hv
  have h := (current_exchange2 hngx hngy (axisBC_paired (pml 0)) (axisBC_paired (pml 1)) hsub hnd hrun).1 t v ht hv
  have hn : ∀ a, 0 < n a := fun a => match a with
    | 0 => by show 0 < nx; omega
    | 1 => by show 0 < ny; omega
  refine h.trans ?_
  have hbc : ∀ a, g.bc a = axisBC (pml a) := fun a => match a with
    | 0 => rfl
    | 1 => rfl
  have hval : ∀ u, u < loc.length → ∀ l, field (patchDeposit2 n ng d dt g.coord cloud u) f l
      = ((living2 (cloud u)).map fun m => closed2 (PicStep.patchAxis (n 0) ng (d 0) (g.coord u 0))
          (PicStep.patchAxis (n 1) ng (d 1) (g.coord u 1)) dt m f l).sum := by
    intro u hu l
    unfold patchDeposit2
    rw [PicStep.depositAll2_fold, PicStep.dep2_fold ⟨by show 0 < n 0 + 2 * ng; omega, hd 0⟩ ⟨by show 0 < n 1 + 2 * ng; omega, hd 1⟩ hdt _
      (fun m hm => ⟨(hfit u hu m hm).1.1, (hfit u hu m hm).2.1⟩), PicStep.zero_field, zero_add]
  have step : ∀ u ∈ Finset.range loc.length, (∑ w ∈ allCells n ng, if g.Same n u w t v then
      at' n ng (fun l => field (patchDeposit2 n ng d dt g.coord cloud l.1) f l.2) u w else 0)
      = ((living2 (cloud u)).map fun m => closed2 ⟨M 0, d 0, 0⟩ ⟨M 1, d 1, 0⟩ dt m f
          (fun a => globalCell n (g.coord t) v a % (M a : Int))).sum := by
    intro u hu
    have hu' := Finset.mem_range.mp hu
    show (∑ w ∈ allCells n ng, if g.Same n u w t v then
      (field (patchDeposit2 n ng d dt g.coord cloud u) f) (index n ng w) else 0) = _
    rw [PicStep.same_fold, funext (hval u hu')]
    refine PicStep.foldTo_list _ _ _ fun m hm => ?_
    have hF : ∀ a, FoldAxis (n a) ng (if pml a = true then 3 else ng) (M a) (g.coord u a * n a)
        (globalCell n (g.coord t) v a % (M a : Int)) (sel g n u t v a) := fun a =>
      sel_mixed (hbc a) (hn a) hng (PicStep.coord_lt2 hsub hu' a) (PicStep.coord_lt2 hsub ht a) (hv a)
    have hm3 : ∀ a, 3 ≤ (if pml a = true then 3 else ng) := by intro a; split <;> omega
    exact PicStep.fold_closed2 hF hd (fits_mono (hm3 0) (hfit u hu' m hm).1) (fits_mono (hm3 1) (hfit u hu' m hm).2) f
  refine (Finset.sum_congr rfl step).trans ?_
  rw [← PicStep.sum_everyone loc.length (fun u => living2 (cloud u))]
  rfl

theorem open_currents2 (C : LConf 2) (hng : 3 ≤ C.ng) (hle : ∀ a, C.ng ≤ C.n a) (hd : ∀ a, 0 < C.par.d a) (hdt : C.dt ≠ 0)
    (hnp : ∀ a, 0 < C.np a) (σ : Dom 2) (parts : List (Species × (Nat → List (Slot 2)))) (acc : Nat → Acc 2)
    (rk : Nat → Nat) (f : Fin 3) (m' : Loc 2 → ℚ)
    (hacc : ∀ t, t < (lsys2 C).npatches → acc t = depParts (fun sp => C.conf.kern2 sp ((lsys2 C).origin t) (σ t)) parts t)
    (hacc0 : ∀ t, ¬ t < (lsys2 C).npatches → acc t = zeroAcc)
    (hfit : Fit (lsys2 C).npatches ![C.n 0, C.n 1] 3 C.place2.coord C.par.d C.dt parts)
    (hrun : CurrentExchange ((lsys2 C).curLoc rk) ((lsys2 C).curMpi rk) (fun l => field (acc l.1) f.castSucc l.2) m')
    {t : Nat} {v : Fin 2 → Int} (ht : t < (lsys2 C).npatches) (hv : Own ![C.n 0, C.n 1] v) :
    m' (t, index ![C.n 0, C.n 1] C.ng v) = curOpen2 C.whole C.dt (cloudOf (lsys2 C).npatches parts) f
      (globalCell ![C.n 0, C.n 1] (C.place2.coord t) v) := by
  obtain ⟨m'', h⟩ : ∃ m'', (syncCurrents2 (C.n 0) (C.n 1) C.ng (lsys2 C).npatches C.nbr2).CurrentRun
      (fun l => field (acc l.1) f.castSucc l.2) m'' := ⟨_, _, Interleave.isSchedule_seq _ _, rfl⟩
  have hs := current2_shape (N := (lsys2 C).npatches) (nbr := C.nbr2) (hle 0) (hle 1)
  have hg := nbrGeo2 (s := syncCurrents2 (C.n 0) (C.n 1) C.ng (lsys2 C).npatches C.nbr2) (axisBC_paired (C.pml 0))
    (axisBC_paired (C.pml 1)) (grid_createPatches2 (C.np 0) (C.np 1)) (fun _ h => h) (nodup_createPatches2 _ _) rfl rfl
  have e := current_ranks (rem := mpiCurrents2 (C.n 0) (C.n 1) C.ng (lsys2 C).npatches (remoteNbr rk C.nbr2)) hs (hg.ok hs)
    (currentTab2_eq _ _ _) (mpiCurrents2_shape (hle 0) (hle 1)) rfl rfl rfl rfl hrun h t v ht (hv.inRange _)
  refine e.trans ?_
  have hacc' : ∀ t, acc t = patchDeposit2 ![C.n 0, C.n 1] C.ng C.par.d C.dt C.place2.coord (slots2 (lsys2 C).npatches parts) t := by
    intro t
    by_cases ht : t < (lsys2 C).npatches
    · rw [hacc t ht]
      exact depParts_all2 C.conf hd hdt hnp σ parts ht
    · rw [hacc0 t ht]
      unfold patchDeposit2 slots2
      rw [if_neg ht]
      rfl
  have hfit' : PicStep.AllFit2 ![C.n 0, C.n 1] 3 C.par.d C.dt (lsys2 C).npatches C.place2.coord (slots2 (lsys2 C).npatches parts) := by
    intro t ht m hm
    unfold slots2 at hm
    rw [if_pos ht] at hm
    obtain ⟨s, hs, hm⟩ := List.mem_flatMap.mp hm
    obtain ⟨a, ha, rfl⟩ := List.mem_map.mp hs
    obtain ⟨p, hp, hm⟩ := List.mem_filterMap.mp hm
    obtain ⟨sl, hsl, rfl⟩ := List.mem_map.mp hp
    rw [macro_part2] at hm
    cases hpt : ptc sl with
    | none => rw [hpt] at hm; cases hm
    | some p =>
      rw [hpt] at hm
      injection hm with hm
      subst hm
      obtain ⟨h1, h2, h3⟩ := ptc_eq hpt
      obtain ⟨w, hw, hF⟩ := hfit a ha t ht sl hsl h1
      rw [h2] at hw
      injection hw with hw
      subst hw
      dsimp only
      rw [← h3]
      exact ⟨hF 0, hF 1⟩
  have key := open_fold2 (npx := C.np 0) (npy := C.np 1) hng (hle 0) (hle 1) hd hdt (pml := C.pml)
    (loc := createPatches2 (C.np 0) (C.np 1)) (fun _ h => h) (nodup_createPatches2 _ _)
    (slots2 (lsys2 C).npatches parts) hfit' f.castSucc m'' (by simp only [hacc'] at h; exact h) t v ht hv
  refine key.trans ?_
  have hn : ∀ a, 0 < C.n a := fun a => lt_of_lt_of_le (by omega) (hle a)
  have hN : ∀ a, 0 < room C.whole a := room_pos fun a => Nat.mul_pos (hnp a) (hn a)
  have hpm := everyone_macros2 (lsys2 C).npatches parts
  have hall' : ∀ m ∈ macros2 (cloudOf (lsys2 C).npatches parts), |m.mom.vx * C.dt| ≤ C.par.d 0 ∧ |m.mom.vy * C.dt| ≤ C.par.d 1 := by
    intro m hm
    obtain ⟨u, hu, hm⟩ := List.mem_flatMap.mp (hpm.mem_iff.mpr hm)
    have := hfit' u (List.mem_range.mp hu) m hm
    exact ⟨this.1.1, this.2.1⟩
  have hM : (fun a => (place2 (C.np 0) (C.np 1) (axisBC (C.pml 0)) (axisBC (C.pml 1)) (createPatches2 (C.np 0) (C.np 1))).np a
      * ![C.n 0, C.n 1] a + if C.pml a = true then 6 else 0) = room C.whole := by
    funext a
    match a with
    | 0 => rfl
    | 1 => rfl
  rw [hM]
  refine Eq.trans ?_ (PicStep.undivided_whole2 (N := room C.whole) hN hd hdt hall' f.castSucc
    (c := fun a => globalCell ![C.n 0, C.n 1] (C.place2.coord t) v a % (room C.whole a : Int)) fun a =>
    have : (0 : Int) < room C.whole a := by exact_mod_cast hN a
    ⟨Int.emod_nonneg _ this.ne', Int.emod_lt_of_pos _ this⟩).symm
  unfold wholeJ2
  simp only [Int.emod_emod_of_dvd, dvd_refl]
  exact (hpm.map _).sum_eq

/-! ## particle exchange -/

theorem open_exch2 (C : LConf 2) (hn : ∀ a, 0 < C.n a) (hd : ∀ a, 0 < C.par.d a) (hnp : ∀ a, 0 < C.np a)
    (hth : ∀ a, C.pml a = true → 0 < C.thick ∧ C.thick < C.n a)
    (ps : Nat → List (Slot 2)) (hps : ∀ t, t < (lsys2 C).npatches → ∀ s ∈ ps t, s.dead = false → ∃ v, nums s.pos = some v ∧
      Nearby ![C.n 0, C.n 1] (C.place2.coord t) C.par.d v) (rk : Nat → Nat) {ord2 ord3 : List Nat} (blank : A2 (Mom × EB))
    (h2 : ord2.Perm (List.range (lsys2 C).npatches)) (h3 : ord3.Perm (List.range (lsys2 C).npatches)) :
    ∃ s', parSync ((lsys2 C).geo blank) rk ord2 ord3 (fun t => (ps t).map (lsys2 C).pack) = some s' ∧
      SameParticles (period C.np C.n C.par.d C.pml) (particles (lsys2 C).npatches fun t => (s' t).map (lsys2 C).unpack)
        ((particles (lsys2 C).npatches ps).filter fun p => decide (Free C.whole p.pos)) ∧
      ∀ t, t < (lsys2 C).npatches → ∀ s ∈ (s' t).map (lsys2 C).unpack, s.dead = false → ∃ v, nums s.pos = some v ∧
        Ins ![C.n 0, C.n 1] (C.place2.coord t) C.par.d v := by
  have hsym := sym2_of_grid (axisBC_paired (C.pml 0)) (axisBC_paired (C.pml 1)) (grid_createPatches2 (C.np 0) (C.np 1))
    (fun _ h => h) (nodup_createPatches2 (C.np 0) (C.np 1))
  have coord : ∀ t pp, (createPatches2 (C.np 0) (C.np 1))[t]? = some pp → C.place2.coord t = ![pp.ix, pp.iy] := by
    intro t pp h
    show (match (createPatches2 (C.np 0) (C.np 1))[t]? with | some p => ![p.ix, p.iy] | none => ![0, 0]) = _
    rw [h]
  have land : ∀ x ∈ living (lsys2 C).npatches (fun t => (ps t).map (lsys2 C).pack), ∃ (v : Fin 2 → ℚ) (mo : Mom) (eb : EB),
      x.2 = ⟨.val (v 0), .val (v 1), (mo, eb)⟩ ∧
      (Free C.whole v → ∃ (q : Nat) (w : Fin 2 → ℚ),
        dest2 C.nbr2 ((C.axis 0).bnd fun ip => ((createPatches2 (C.np 0) (C.np 1))[ip]?.map P2.ix).getD 0)
          ((C.axis 1).bnd fun ip => ((createPatches2 (C.np 0) (C.np 1))[ip]?.map P2.iy).getD 0) x.1 x.2
          = some (q, ⟨.val (w 0), .val (w 1), (mo, eb)⟩) ∧
        (∀ i, ∃ z : ℤ, w i = v i + z * period C.np C.n C.par.d C.pml i) ∧ Ins ![C.n 0, C.n 1] (C.place2.coord q) C.par.d w) ∧
      (¬ Free C.whole v →
        dest2 C.nbr2 ((C.axis 0).bnd fun ip => ((createPatches2 (C.np 0) (C.np 1))[ip]?.map P2.ix).getD 0)
          ((C.axis 1).bnd fun ip => ((createPatches2 (C.np 0) (C.np 1))[ip]?.map P2.iy).getD 0) x.1 x.2 = none ∧
        OneStep2 C.nbr2 ((C.axis 0).bnd fun ip => ((createPatches2 (C.np 0) (C.np 1))[ip]?.map P2.ix).getD 0)
          ((C.axis 1).bnd fun ip => ((createPatches2 (C.np 0) (C.np 1))[ip]?.map P2.iy).getD 0) x.1 x.2) := by
    intro x hxm
    obtain ⟨hlt, hmem⟩ := mem_living_iff.mp hxm
    obtain ⟨s, hs, e⟩ := List.mem_map.mp hmem
    have hpp : (createPatches2 (C.np 0) (C.np 1))[x.1]? = some (createPatches2 (C.np 0) (C.np 1))[x.1] :=
      List.getElem?_eq_getElem hlt
    have hbd := (grid_createPatches2 (C.np 0) (C.np 1)).bound _ (List.getElem_mem hlt)
    have ed : s.dead = false := congrArg Exchange.Slot.dead e
    have ea : x.2 = ⟨s.pos 0, s.pos 1, (s.mom, s.eb)⟩ := (congrArg Exchange.Slot.a e).symm
    obtain ⟨v, hv, hnear⟩ := hps x.1 hlt s hs ed
    rw [coord _ _ hpp] at hnear
    have ep : x.2 = ⟨.val (v 0), .val (v 1), (s.mom, s.eb)⟩ := by
      rw [ea, nums_eq_some hv 0, nums_eq_some hv 1]
    have hL := lands2 (R := Mom × EB) (ax := C.axis 0) (ay := C.axis 1) (axisBC_paired (C.pml 0)) (axisBC_paired (C.pml 1)) x.1 _ hpp
      (v 0) (v 1) (s.mom, s.eb)
      (axis_lands C 0 (hnp 0) (hn 0) (hd 0) (hth 0) hbd.1 (hnear 0).1 (hnear 0).2)
      (axis_lands C 1 (hnp 1) (hn 1) (hd 1) (hth 1) hbd.2 (hnear 1).1 (hnear 1).2)
    refine ⟨v, s.mom, s.eb, ep, fun hf => ?_, fun hf => ?_⟩
    · obtain ⟨q, qq, wx, wy, hq, hdest, b0, b1, z0, z1⟩ := hL.1 ⟨hf 0, hf 1⟩
      refine ⟨q, ![wx, wy], ?_, ?_, ?_⟩
      · rw [ep]
        exact hdest
      · intro i
        match i with
        | 0 => exact z0
        | 1 => exact z1
      · rw [coord _ _ hq]
        intro i
        match i with
        | 0 => exact axis_within C 0 (hnp 0) (hd 0) b0.1 b0.2
        | 1 => exact axis_within C 1 (hnp 1) (hd 1) b1.1 b1.2
    · rw [ep]
      exact hL.2 fun h => hf fun a => match a with
        | 0 => h.1
        | 1 => h.2
  have pv : ∀ (w : Fin 2 → ℚ) (mo : Mom) (eb : EB),
      ptcA (lsys2 C).unpack ⟨.val (w 0), .val (w 1), (mo, eb)⟩ = some ⟨w, mo⟩ := by
    intro w mo eb
    have : nums (![.val (w 0), .val (w 1)] : Fin 2 → F64) = some w := by
      rw [nums2]
      show some ![w 0, w 1] = _
      rw [WholeRun.vec2]
    exact ptc_some (s := (lsys2 C).unpack ⟨⟨.val (w 0), .val (w 1), (mo, eb)⟩, false⟩) rfl this
  obtain ⟨s', he, hp, _⟩ := MpiExchangeProps.ranks2_conserve rk
    ((C.axis 0).bnd fun ip => ((createPatches2 (C.np 0) (C.np 1))[ip]?.map P2.ix).getD 0)
    ((C.axis 1).bnd fun ip => ((createPatches2 (C.np 0) (C.np 1))[ip]?.map P2.iy).getD 0) blank
    (fun t => (ps t).map (lsys2 C).pack) hsym h2 h3
    (fun x hxm => by
      obtain ⟨v, mo, eb, hx2, k1, k2⟩ := land x hxm
      by_cases hf : Free C.whole v
      · obtain ⟨q, w, h, _⟩ := k1 hf
        exact MpiExchangeProps.offset_of_dest2 (by rw [show neighborIpatch2 _ _ _ _ _ _ = C.nbr2 from rfl, h]; rfl)
      · exact (k2 hf).2)
  have hback : ∀ t, ((ps t).map (lsys2 C).pack).map (lsys2 C).unpack = ps t := by
    intro t
    rw [List.map_map]
    refine (List.map_congr_left ?_).trans (List.map_id _)
    intro s _
    obtain ⟨pos, mom, eb, dd⟩ := s
    show (⟨![pos 0, pos 1], mom, eb, dd⟩ : Slot 2) = ⟨pos, mom, eb, dd⟩
    rw [WholeRun.vec2]
  refine ⟨s', he, ?_, ?_⟩
  · have := exchange_filter (L := period C.np C.n C.par.d C.pml) (keep := fun x => decide (Free C.whole x)) (lsys2 C).unpack (fun _ => rfl) hp
      (fun x hxm => by
        obtain ⟨v, mo, eb, hx2, k1, k2⟩ := land x hxm
        refine ⟨⟨v, mo⟩, by rw [hx2]; exact pv v mo eb, fun hk => ?_, fun hk => ?_⟩
        · obtain ⟨q, w, h, hz, _⟩ := k1 (of_decide_eq_true hk)
          exact ⟨_, ⟨w, mo⟩, h, pv w mo eb, SamePtc.symm ⟨rfl, hz⟩⟩
        · exact (k2 (of_decide_eq_false hk)).1)
    simp only [hback] at this
    exact this
  · intro t ht s hs hdd
    obtain ⟨b, hb, rfl⟩ := List.mem_map.mp hs
    obtain ⟨a, dd⟩ := b
    have : dd = false := hdd
    subst this
    have hm : (t, a) ∈ living (lsys2 C).npatches s' := mem_living_iff.mpr ⟨ht, hb⟩
    obtain ⟨x, hxm, hxd⟩ := List.mem_filterMap.mp (hp.mem_iff.mp hm)
    obtain ⟨v, mo, eb, hx2, k1, k2⟩ := land x hxm
    by_cases hf : Free C.whole v
    · obtain ⟨q, w, h, _, hins⟩ := k1 hf
      rw [show neighborIpatch2 _ _ _ _ _ _ = C.nbr2 from rfl, h] at hxd
      injection hxd with hxd
      injection hxd with h1 h2
      subst h1 h2
      exact ⟨w, (ptc_eq (pv w mo eb)).2.1, hins⟩
    · rw [show neighborIpatch2 _ _ _ _ _ _ = C.nbr2 from rfl, (k2 hf).1] at hxd
      cases hxd

/-! ## all together -/

/-- what particles do in the undivided simulation of a run that is set up with `C` -/
noncomputable def LConf.phys2 (C : LConf 2) : Phys 2 := lphys2 C.whole C.dt C.rs

theorem pushFacts2 (C : LConf 2) (hng : 3 ≤ C.ng) (hle : ∀ a, C.ng ≤ C.n a) (hd : ∀ a, 0 < C.par.d a) (hdt : C.dt ≠ 0)
    (hnp : ∀ a, 0 < C.np a) (hth : ∀ a, C.pml a = true → 0 < C.thick ∧ C.thick < C.n a) :
    PushFacts (lsys2 C) C.phys2 C.place2 C.par.d 3 (period C.np C.n C.par.d C.pml)
      (fun G => C.whole.Periodic G.e ∧ C.whole.Periodic G.b) (fun x => decide (Free C.whole x)) (fun _ => True) C.conf.kern2 := by
  have hn : ∀ a, 0 < C.n a := fun a => lt_of_lt_of_le (by omega) (hle a)
  have hnpv : C.place2.np = C.np := WholeRun.vec2 C.np
  have hnv : (lsys2 C).solver.sync.n = C.n := WholeRun.vec2 C.n
  have Fc := facts2 C.conf (by show 2 ≤ C.ng; omega) hle hd hdt hnp
  constructor
  · exact Fc.push_eq
  · intro sp t σ G v ht hrep _ hv
    exact interp_see2 C.conf (by show 2 ≤ C.ng; omega) hd hnp sp ht ⟨hrep.e, hrep.b, hrep.j⟩ hv
  · intro σ parts acc rk c m' h1 h2 h3 h4 t v ht hv
    exact open_currents2 C hng hle hd hdt hnp σ parts acc rk c m' h1 h2 h3 h4 ht hv
  · intro a b hab hv
    exact curOpen_congr2 (W := C.whole) (fun _ => rfl) (fun a => Nat.mul_pos (hnp a) (hn a)) hd hdt hab hv
  · intro G x y hper h
    exact see_open2 (W := C.whole) (fun _ => rfl) hd hper.1 hper.2 h
  · intro x y h
    refine decide_eq_decide.mpr (forall_congr' fun a => imp_congr_right fun hp => ?_)
    obtain ⟨z, hz⟩ := h a
    unfold period at hz
    rw [if_pos (show C.pml a = true from hp), mul_zero, add_zero] at hz
    rw [hz]
  · intro ps hps rk ord2 ord3 blank h2 h3
    have := open_exch2 C hn hd hnp hth ps hps rk blank h2 h3
    exact this
  · intro rk m
    have hs' := current2_shape (N := (lsys2 C).npatches) (nbr := C.nbr2) (hle 0) (hle 1)
    have hg' := nbrGeo2 (s := syncCurrents2 (C.n 0) (C.n 1) C.ng (lsys2 C).npatches C.nbr2) (axisBC_paired (C.pml 0))
      (axisBC_paired (C.pml 1)) (grid_createPatches2 (C.np 0) (C.np 1)) (fun _ h => h) (nodup_createPatches2 _ _) rfl rfl
    exact (exchange_exists _ _ (mpiCurrents2_shape (hle 0) (hle 1))
      (NbrOK.remote (rem := mpiCurrents2 (C.n 0) (C.n 1) C.ng (lsys2 C).npatches (remoteNbr rk C.nbr2)) (hg'.ok hs') rk rfl rfl) m).2
  · exact Fc.blank

end Verif.WholePml
