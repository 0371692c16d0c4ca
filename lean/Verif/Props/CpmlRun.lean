import Verif.Proofs.CpmlRun
/-!
# C67: absorbing layers do not depend on how the domain is cut

A simulation whose axes are periodic or end in absorbing layers, cut into patches and spread over ranks, has the E and B of one undivided grid with
one layer at every absorbing end (`Verif.Spec.CpmlRun`).
-/
namespace Verif.Cpml
open SyncFields Maxwell Neighbors

/-- a run of `M` time steps: `x m` is the state before step `m`, `mid m` the state after its particle part; the ranks of the patches may be
different in every step, and change within it -/
def PSys.Run {k : Nat} {D : Type} (Y : PSys k D) (dt : ℚ) (M : Nat) (x mid : Nat → PDom k) : Prop :=
  ∃ rk rk' : Nat → Nat → Nat, ∀ m, m < M → Y.Step (rk m) (rk' m) dt (x m) (mid m) (x (m + 1))

theorem rep2 {C : PConf 2} {x : PDom 2} {G : Grid 2} (hi : Inits2 C x.lay) (hs : C.whole.Starts G)
    (he : ShowsEB C (pmlSys2 C).npatches C.coord2 x G) (hj : ShowsJ C (pmlSys2 C).npatches C.coord2 x G.j) :
    PRep C.sync2 C.place2 C.whole order2 x G := by
  have hnv : C.sync2.n = C.n := nvec2 C.n
  have hnpv : C.place2.np = C.np := nvec2 C.np
  refine ⟨?_, ?_, ?_, ?_⟩
  · rw [hnv]; intro t ht d v hv; rw [place2_coord]; exact (he t ht d v hv).1
  · rw [hnv]; intro t ht d v hv; rw [place2_coord]; exact (he t ht d v hv).2
  · rw [hnv]; intro t ht d v hv; rw [place2_coord]; exact hj t ht d v hv
  · intro t ht
    rw [hnv, hnpv, place2_coord]
    exact lay_start (W := C.whole) hs.psiE hs.psiB addPml2_eq (hi t ht)

theorem rep3 {C : PConf 3} {x : PDom 3} {G : Grid 3} (hi : Inits3 C x.lay) (hs : C.whole.Starts G)
    (he : ShowsEB C (pmlSys3 C).npatches C.coord3 x G) (hj : ShowsJ C (pmlSys3 C).npatches C.coord3 x G.j) :
    PRep C.sync3 C.place3 C.whole order3 x G := by
  have hnv : C.sync3.n = C.n := nvec3 C.n
  have hnpv : C.place3.np = C.np := nvec3 C.np
  refine ⟨?_, ?_, ?_, ?_⟩
  · rw [hnv]; intro t ht d v hv; rw [place3_coord]; exact (he t ht d v hv).1
  · rw [hnv]; intro t ht d v hv; rw [place3_coord]; exact (he t ht d v hv).2
  · rw [hnv]; intro t ht d v hv; rw [place3_coord]; exact hj t ht d v hv
  · intro t ht
    rw [hnv, hnpv, place3_coord]
    exact lay_start (W := C.whole) hs.psiE hs.psiB addPml3_eq (hi t ht)

theorem Whole.Starts.per {k : Nat} {W : Whole k} {G : Grid k} (h : W.Starts G) : W.Per G :=
  ⟨h.e, h.b, h.j, fun s d v w _ => by rw [h.psiE, h.psiE], fun s d v w _ => by rw [h.psiB, h.psiB]⟩

/-- **C67** in 2D, after any number of steps, E and B of all patches (guard cells included) are those of one undivided grid with one layer at every
absorbing end, for every cut into patches that `_init_pml` accepts, every layout of the ranks in every step, and every order of the copies -/
theorem cpml_run_undivided2 (C : PConf 2) (hng : 1 ≤ C.ng) (hle : ∀ a, C.ng ≤ C.n a) (hnp : ∀ a, 0 < C.np a) (dt : ℚ) (M : Nat)
    (x mid : Nat → PDom 2) (J : Nat → V3 2) (G : Grid 2) (hrun : (pmlSys2 C).Run dt M x mid) (hinit : Inits2 C (x 0).lay) (hG : C.whole.Starts G)
    (hx : ShowsEB C (pmlSys2 C).npatches C.coord2 (x 0) G) (hj : ShowsJ C (pmlSys2 C).npatches C.coord2 (x 0) G.j)
    (hJ : ∀ m, m < M → C.whole.Periodic (J m) ∧ ShowsJ C (pmlSys2 C).npatches C.coord2 (mid m) (J m)) :
    ∀ m, m ≤ M → ShowsEB C (pmlSys2 C).npatches C.coord2 (x m) (C.whole.run dt J G m) := by
  obtain ⟨rk, rk', hst⟩ := hrun
  have hnv : C.sync2.n = C.n := nvec2 C.n
  intro m hm
  have F := facts2 C hng hle (two2 C hnp hinit)
  obtain ⟨r, _⟩ := run_whole F hG.per (rep2 hinit hG hx hj) (fun m h => (hJ m h).1) hst (fun m h => by
    rw [hnv]; intro t ht d v hv; rw [place2_coord]; exact (hJ m h).2 t ht d v hv) m hm
  intro t ht d v hv
  have h1 := r.e
  have h2 := r.b
  rw [hnv] at h1 h2
  have h3 := h1 t ht d v hv
  have h4 := h2 t ht d v hv
  rw [place2_coord] at h3 h4
  exact ⟨h3, h4⟩

/-- **C67** (3D) the same if every absorbing axis has at least two patches. Missing: absorbing axes with a single patch, where the code loses `kappa`
(`cpml_single_patch3_fails`) -/
theorem cpml_run_undivided3_partial (C : PConf 3) (hng : 1 ≤ C.ng) (hle : ∀ a, C.ng ≤ C.n a) (hnp : ∀ a, 0 < C.np a)
    (htwo : ∀ a, C.pml a = true → 2 ≤ C.np a) (dt : ℚ) (M : Nat)
    (x mid : Nat → PDom 3) (J : Nat → V3 3) (G : Grid 3) (hrun : (pmlSys3 C).Run dt M x mid) (hinit : Inits3 C (x 0).lay) (hG : C.whole.Starts G)
    (hx : ShowsEB C (pmlSys3 C).npatches C.coord3 (x 0) G) (hj : ShowsJ C (pmlSys3 C).npatches C.coord3 (x 0) G.j)
    (hJ : ∀ m, m < M → C.whole.Periodic (J m) ∧ ShowsJ C (pmlSys3 C).npatches C.coord3 (mid m) (J m)) :
    ∀ m, m ≤ M → ShowsEB C (pmlSys3 C).npatches C.coord3 (x m) (C.whole.run dt J G m) := by
  obtain ⟨rk, rk', hst⟩ := hrun
  have hnv : C.sync3.n = C.n := nvec3 C.n
  intro m hm
  have hfit : ∀ a, C.pml a = true → ∀ a, C.thick < C.n a := by
    intro a hp
    obtain ⟨u, hu, hc⟩ := place3_full C (fun _ => 0) hnp
    exact thick_fits (W := C.whole) addPml3_eq (by decide) (hinit u hu) (fun b => by rw [hc]) hp
  have F := facts3 C hng hle fun a hp => ⟨hfit a hp, htwo a hp⟩
  obtain ⟨r, _⟩ := run_whole F hG.per (rep3 hinit hG hx hj) (fun m h => (hJ m h).1) hst (fun m h => by
    rw [hnv]; intro t ht d v hv; rw [place3_coord]; exact (hJ m h).2 t ht d v hv) m hm
  intro t ht d v hv
  have h1 := r.e
  have h2 := r.b
  rw [hnv] at h1 h2
  have h3 := h1 t ht d v hv
  have h4 := h2 t ht d v hv
  rw [place3_coord] at h3 h4
  exact ⟨h3, h4⟩

/-- **C67** two runs of the same 2D domain with different cuts, ranks and orders, and the same start and currents, have the same E and B in the same
cell of the domain after every step -/
theorem cpml_cuts_agree2 (C C' : PConf 2) (hng : 1 ≤ C.ng) (hle : ∀ a, C.ng ≤ C.n a) (hnp : ∀ a, 0 < C.np a)
    (hng' : 1 ≤ C'.ng) (hle' : ∀ a, C'.ng ≤ C'.n a) (hnp' : ∀ a, 0 < C'.np a) (hsame : C.whole = C'.whole) (dt : ℚ) (M : Nat)
    (x mid x' mid' : Nat → PDom 2) (J : Nat → V3 2) (G : Grid 2)
    (hrun : (pmlSys2 C).Run dt M x mid) (hinit : Inits2 C (x 0).lay)
    (hrun' : (pmlSys2 C').Run dt M x' mid') (hinit' : Inits2 C' (x' 0).lay) (hG : C.whole.Starts G)
    (hx : ShowsEB C (pmlSys2 C).npatches C.coord2 (x 0) G) (hj : ShowsJ C (pmlSys2 C).npatches C.coord2 (x 0) G.j)
    (hx' : ShowsEB C' (pmlSys2 C').npatches C'.coord2 (x' 0) G) (hj' : ShowsJ C' (pmlSys2 C').npatches C'.coord2 (x' 0) G.j)
    (hJ : ∀ m, m < M → C.whole.Periodic (J m) ∧ ShowsJ C (pmlSys2 C).npatches C.coord2 (mid m) (J m))
    (hJ' : ∀ m, m < M → ShowsJ C' (pmlSys2 C').npatches C'.coord2 (mid' m) (J m))
    {m t t' : Nat} (hm : m ≤ M) (ht : t < (pmlSys2 C).npatches) (ht' : t' < (pmlSys2 C').npatches) {v v' : Fin 2 → Int}
    (hv : Own C.n v) (hv' : Own C'.n v') (hc : globalCell C.n (C.coord2 t) v = globalCell C'.n (C'.coord2 t') v') (d : Fin 3) :
    ((x m).fld t).e d (index C.n C.ng v) = ((x' m).fld t').e d (index C'.n C'.ng v') ∧
    ((x m).fld t).b d (index C.n C.ng v) = ((x' m).fld t').b d (index C'.n C'.ng v') := by
  have h1 := cpml_run_undivided2 C hng hle hnp dt M x mid J G hrun hinit hG hx hj hJ m hm t ht d v (hv.inRange _)
  have h2 := cpml_run_undivided2 C' hng' hle' hnp' dt M x' mid' J G hrun' hinit' (hsame ▸ hG) hx' hj'
    (fun m h => ⟨hsame ▸ (hJ m h).1, hJ' m h⟩) m hm t' ht' d v' (hv'.inRange _)
  rw [← hsame, ← hc] at h2
  exact ⟨h1.1.trans h2.1.symm, h1.2.trans h2.2.symm⟩

/-- **C67** two runs of the same 3D domain with at least two patches on every absorbing axis, and the same start and currents, have the same E and B in the same
cell of the domain after every step -/
theorem cpml_cuts_agree3_partial (C C' : PConf 3) (hng : 1 ≤ C.ng) (hle : ∀ a, C.ng ≤ C.n a) (hnp : ∀ a, 0 < C.np a)
    (hng' : 1 ≤ C'.ng) (hle' : ∀ a, C'.ng ≤ C'.n a) (hnp' : ∀ a, 0 < C'.np a) (htwo : ∀ a, C.pml a = true → 2 ≤ C.np a) (htwo' : ∀ a, C'.pml a = true → 2 ≤ C'.np a)
    (hsame : C.whole = C'.whole) (dt : ℚ) (M : Nat)
    (x mid x' mid' : Nat → PDom 3) (J : Nat → V3 3) (G : Grid 3)
    (hrun : (pmlSys3 C).Run dt M x mid) (hinit : Inits3 C (x 0).lay)
    (hrun' : (pmlSys3 C').Run dt M x' mid') (hinit' : Inits3 C' (x' 0).lay) (hG : C.whole.Starts G)
    (hx : ShowsEB C (pmlSys3 C).npatches C.coord3 (x 0) G) (hj : ShowsJ C (pmlSys3 C).npatches C.coord3 (x 0) G.j)
    (hx' : ShowsEB C' (pmlSys3 C').npatches C'.coord3 (x' 0) G) (hj' : ShowsJ C' (pmlSys3 C').npatches C'.coord3 (x' 0) G.j)
    (hJ : ∀ m, m < M → C.whole.Periodic (J m) ∧ ShowsJ C (pmlSys3 C).npatches C.coord3 (mid m) (J m))
    (hJ' : ∀ m, m < M → ShowsJ C' (pmlSys3 C').npatches C'.coord3 (mid' m) (J m))
    {m t t' : Nat} (hm : m ≤ M) (ht : t < (pmlSys3 C).npatches) (ht' : t' < (pmlSys3 C').npatches) {v v' : Fin 3 → Int}
    (hv : Own C.n v) (hv' : Own C'.n v') (hc : globalCell C.n (C.coord3 t) v = globalCell C'.n (C'.coord3 t') v') (d : Fin 3) :
    ((x m).fld t).e d (index C.n C.ng v) = ((x' m).fld t').e d (index C'.n C'.ng v') ∧
    ((x m).fld t).b d (index C.n C.ng v) = ((x' m).fld t').b d (index C'.n C'.ng v') := by
  have h1 := cpml_run_undivided3_partial C hng hle hnp htwo dt M x mid J G hrun hinit hG hx hj hJ m hm t ht d v (hv.inRange _)
  have h2 := cpml_run_undivided3_partial C' hng' hle' hnp' htwo' dt M x' mid' J G hrun' hinit' (hsame ▸ hG) hx' hj'
    (fun m h => ⟨hsame ▸ (hJ m h).1, hJ' m h⟩) m hm t' ht' d v' (hv'.inRange _)
  rw [← hsame, ← hc] at h2
  exact ⟨h1.1.trans h2.1.symm, h1.2.trans h2.2.symm⟩

/-! ### runs exist -/

section
variable {k : Nat} {D : Type}

theorem exists_syncE (Y : PSys k D) (rk : Nat → Nat) (x : PDom k) : ∃ x', Y.SyncE rk x x' :=
  ⟨⟨fun t => { x.fld t with e := fun c l => Interleave.run ((((List.range (Y.guardLoc rk).npatches).flatMap (Y.guardLoc rk).pairs ++
      (List.range (Y.guardMpi rk).npatches).flatMap (Y.guardMpi rk).guardPairs)).map copyStep) (fun l => (x.fld l.1).e c l.2) (t, l) }, x.lay⟩,
    fun _ => ⟨_, List.Perm.refl _, rfl⟩, fun _ => ⟨rfl, rfl⟩, rfl⟩

theorem exists_syncB (Y : PSys k D) (rk : Nat → Nat) (x : PDom k) : ∃ x', Y.SyncB rk x x' :=
  ⟨⟨fun t => { x.fld t with b := fun c l => Interleave.run ((((List.range (Y.guardLoc rk).npatches).flatMap (Y.guardLoc rk).pairs ++
      (List.range (Y.guardMpi rk).npatches).flatMap (Y.guardMpi rk).guardPairs)).map copyStep) (fun l => (x.fld l.1).b c l.2) (t, l) }, x.lay⟩,
    fun _ => ⟨_, List.Perm.refl _, rfl⟩, fun _ => ⟨rfl, rfl⟩, rfl⟩

theorem exists_step (Y : PSys k D) (rk rk' : Nat → Nat) (dt : ℚ) (x : PDom k) (A : Nat → Fin 3 → Arr k) :
    ∃ mid x', Y.Step rk rk' dt x mid x' ∧ ∀ t, (mid.fld t).j = A t := by
  obtain ⟨x1, h1⟩ := exists_syncE Y rk (Y.stepE (1 / 2 * dt) x)
  obtain ⟨x2, h2⟩ := exists_syncB Y rk (Y.stepB (1 / 2 * dt) x1)
  let mid : PDom k := ⟨fun t => { x2.fld t with j := A t }, x2.lay⟩
  obtain ⟨x3, h3⟩ := exists_syncB Y rk' (Y.stepB (1 / 2 * dt) mid)
  obtain ⟨x4, h4⟩ := exists_syncE Y rk' (Y.stepE (1 / 2 * dt) x3)
  exact ⟨mid, x4, ⟨x1, x2, x3, h1, h2, ⟨fun _ => ⟨rfl, rfl⟩, rfl⟩, h3, h4⟩, fun _ => rfl⟩

/-- from every state, with every currents of the particle part and every layout of the ranks, there is a run -/
theorem exists_run (Y : PSys k D) (rk rk' : Nat → Nat → Nat) (dt : ℚ) (M : Nat) (x0 : PDom k) (A : Nat → Nat → Fin 3 → Arr k) :
    ∃ x mid, Y.Run dt M x mid ∧ x 0 = x0 ∧ ∀ m t, ((mid m).fld t).j = A m t := by
  choose md nx h hA using fun (m : Nat) (x : PDom k) => exists_step Y (rk m) (rk' m) dt x (A m)
  let x : Nat → PDom k := fun m => Nat.rec x0 (fun m y => nx m y) m
  exact ⟨x, fun m => md m (x m), ⟨rk, rk', fun m _ => h m (x m)⟩, rfl, fun m t => hA m (x m) t⟩

open Classical in
/-- arrays that show a field of the grid -/
theorem exists_arr (n : Fin k → Nat) (ng : Nat) (c : Fin k → Nat) (g : V3 k) :
    ∃ A : Fin 3 → Arr k, ∀ d v, InRange n ng v → A d (index n ng v) = g d (globalCell n c v) := by
  refine ⟨fun d l => if h : ∃ v, InRange n ng v ∧ index n ng v = l then g d (globalCell n c h.choose) else 0, fun d v hv => ?_⟩
  have h : ∃ w, InRange n ng w ∧ index n ng w = index n ng v := ⟨v, hv, rfl⟩
  dsimp only
  rw [dif_pos h, index_inj h.choose_spec.1 hv h.choose_spec.2]
end

/-- every start and every currents that repeat themselves on the periodic axes have a run that meets the hypotheses of `cpml_run_undivided2` -/
theorem cpml_run_exists2 (C : PConf 2) {lay : Nat → List (Layer 2)} (hinit : Inits2 C lay) (G : Grid 2) (J : Nat → V3 2) (rk rk' : Nat → Nat → Nat)
    (dt : ℚ) (M : Nat) : ∃ x mid, (pmlSys2 C).Run dt M x mid ∧ Inits2 C (x 0).lay ∧ ShowsEB C (pmlSys2 C).npatches C.coord2 (x 0) G ∧
      ShowsJ C (pmlSys2 C).npatches C.coord2 (x 0) G.j ∧ ∀ m, ShowsJ C (pmlSys2 C).npatches C.coord2 (mid m) (J m) := by
  choose E hE using fun t => exists_arr C.n C.ng (C.coord2 t) G.e
  choose B hB using fun t => exists_arr C.n C.ng (C.coord2 t) G.b
  choose J0 hJ0 using fun t => exists_arr C.n C.ng (C.coord2 t) G.j
  choose A hA using fun m t => exists_arr C.n C.ng (C.coord2 t) (J m)
  obtain ⟨x, mid, h, h0, hm⟩ := exists_run (pmlSys2 C) rk rk' dt M ⟨fun t => ⟨E t, B t, J0 t⟩, lay⟩ A
  refine ⟨x, mid, h, by rw [h0]; exact hinit, ?_, ?_, ?_⟩
  · rw [h0]; exact fun t _ d v hv => ⟨hE t d v hv, hB t d v hv⟩
  · rw [h0]; exact fun t _ d v hv => hJ0 t d v (hv.inRange _)
  · intro m t _ d v hv
    rw [hm m t]
    exact hA m t d v (hv.inRange _)

/-- every start and every currents that repeat themselves on the periodic axes have a run that meets the hypotheses of `cpml_run_undivided3_partial` -/
theorem cpml_run_exists3 (C : PConf 3) {lay : Nat → List (Layer 3)} (hinit : Inits3 C lay) (G : Grid 3) (J : Nat → V3 3) (rk rk' : Nat → Nat → Nat)
    (dt : ℚ) (M : Nat) : ∃ x mid, (pmlSys3 C).Run dt M x mid ∧ Inits3 C (x 0).lay ∧ ShowsEB C (pmlSys3 C).npatches C.coord3 (x 0) G ∧
      ShowsJ C (pmlSys3 C).npatches C.coord3 (x 0) G.j ∧ ∀ m, ShowsJ C (pmlSys3 C).npatches C.coord3 (mid m) (J m) := by
  choose E hE using fun t => exists_arr C.n C.ng (C.coord3 t) G.e
  choose B hB using fun t => exists_arr C.n C.ng (C.coord3 t) G.b
  choose J0 hJ0 using fun t => exists_arr C.n C.ng (C.coord3 t) G.j
  choose A hA using fun m t => exists_arr C.n C.ng (C.coord3 t) (J m)
  obtain ⟨x, mid, h, h0, hm⟩ := exists_run (pmlSys3 C) rk rk' dt M ⟨fun t => ⟨E t, B t, J0 t⟩, lay⟩ A
  refine ⟨x, mid, h, by rw [h0]; exact hinit, ?_, ?_, ?_⟩
  · rw [h0]; exact fun t _ d v hv => ⟨hE t d v hv, hB t d v hv⟩
  · rw [h0]; exact fun t _ d v hv => hJ0 t d v (hv.inRange _)
  · intro m t _ d v hv
    rw [hm m t]
    exact hA m t d v (hv.inRange _)

/-- a domain of 12 x 6 cells, absorbing along x and periodic along y, cut into 2 x 1, 3 x 2 and 4 x 1 patches -/
def exConf (npx npy : Nat) : PConf 2 := ⟨![npx, npy], ![12 / npx, 6 / npy], 2, ![true, false], 2, 3, ⟨![1, 2], 9, 1⟩, fun q => 1 / (1 + q * q)⟩
/-- the layers of a run that succeeds -/
def exLay (C : PConf 2) (t : Nat) : List (Layer 2) := (initPml2 C.np C.n (C.coord2 t) (fun a _ => C.pml a) C.thick C.smax).getD []

theorem exInits (C : PConf 2) (h : ∀ t, t < (pmlSys2 C).npatches → (initPml2 C.np C.n (C.coord2 t) (fun a _ => C.pml a) C.thick C.smax).isSome = true) :
    Inits2 C (exLay C) := by
  intro t ht
  unfold exLay
  have := h t ht
  cases e : initPml2 C.np C.n (C.coord2 t) (fun a _ => C.pml a) C.thick C.smax with
  | none => rw [e] at this; cases this
  | some r => rfl

example : Inits2 (exConf 2 1) (exLay (exConf 2 1)) := exInits _ (by decide +kernel)
example : Inits2 (exConf 3 2) (exLay (exConf 3 2)) := exInits _ (by decide +kernel)
example : (exConf 2 1).whole = (exConf 3 2).whole := by
  unfold exConf PConf.whole
  congr 1
  funext a
  match a with
  | 0 => rfl
  | 1 => rfl
/-- one patch on an absorbing axis is refused in 2D -/
example : ¬ ∃ lay, Inits2 (exConf 1 1) lay := by
  rintro ⟨lay, h⟩
  exact absurd (two2 (exConf 1 1) (by decide) h 0 rfl).2 (by decide)
/-- a start that is not trivial -/
def exGrid : Grid 2 := ⟨fun d v => if d = 2 then v 0 * v 0 else 0, fun d v => if d = 1 then v 0 else 0, fun _ _ => 0, fun _ _ _ => 0, fun _ _ _ => 0⟩
theorem exStarts (npx npy : Nat) : (exConf npx npy).whole.Starts exGrid := by
  have h0 : ∀ {v w : Fin 2 → Int}, (∀ a, if (exConf npx npy).whole.pml a = true then v a = w a else v a ≡ w a [ZMOD ((exConf npx npy).whole.N a : Int)]) →
      v 0 = w 0 := fun h => by exact (if_pos (c := (exConf npx npy).whole.pml 0 = true) rfl).mp (h 0)
  refine ⟨?_, ?_, fun _ _ _ _ => rfl, fun _ _ _ => rfl, fun _ _ _ => rfl⟩
  · intro d v w h; show (if d = 2 then ((v 0 : ℚ) * v 0) else 0) = if d = 2 then ((w 0 : ℚ) * w 0) else 0; rw [h0 h]
  · intro d v w h; show (if d = 1 then (v 0 : ℚ) else 0) = if d = 1 then (w 0 : ℚ) else 0; rw [h0 h]
/-- two runs of 100 steps of this domain with different cuts and ranks agree -/
example : ∃ x mid x' mid', (pmlSys2 (exConf 2 1)).Run (1 / 10) 100 x mid ∧ (pmlSys2 (exConf 3 2)).Run (1 / 10) 100 x' mid' ∧
    ShowsEB (exConf 2 1) 2 (exConf 2 1).coord2 (x 100) ((exConf 2 1).whole.run (1 / 10) (fun _ _ _ => 0) exGrid 100) ∧
    ShowsEB (exConf 3 2) 6 (exConf 3 2).coord2 (x' 100) ((exConf 3 2).whole.run (1 / 10) (fun _ _ _ => 0) exGrid 100) := by
  have hi1 : Inits2 (exConf 2 1) (exLay (exConf 2 1)) := exInits _ (by decide +kernel)
  have hi2 : Inits2 (exConf 3 2) (exLay (exConf 3 2)) := exInits _ (by decide +kernel)
  obtain ⟨x, mid, h1, h2, h3, h4, h5⟩ := cpml_run_exists2 _ hi1 exGrid (fun _ _ _ => 0) (fun m t => (m + t) % 2) (fun _ _ => 0) (1 / 10) 100
  obtain ⟨x', mid', k1, k2, k3, k4, k5⟩ := cpml_run_exists2 _ hi2 exGrid (fun _ _ _ => 0) (fun _ t => t) (fun m t => (m + t) % 3) (1 / 10) 100
  exact ⟨x, mid, x', mid', h1, k1,
    cpml_run_undivided2 _ (by decide) (by decide) (by decide) _ _ x mid _ _ h1 h2 (exStarts 2 1) h3 h4 (fun m _ => ⟨fun _ _ _ _ => rfl, h5 m⟩) 100 le_rfl,
    cpml_run_undivided2 _ (by decide) (by decide) (by decide) _ _ x' mid' _ _ k1 k2 (exStarts 3 2) k3 k4 (fun m _ => ⟨fun _ _ _ _ => rfl, k5 m⟩) 100 le_rfl⟩
/-- the grid does change: E in the layer at the lower end after the first half step -/
example : ((exConf 2 1).whole.stepE (1 / 20) exGrid).e 2 ![1, 0] ≠ exGrid.e 2 ![1, 0] := by decide +kernel

/-! ### one patch on an absorbing axis in 3D -/

/-- 2 x 2 x 6 cells, absorbing along z, cut into `npz` patches along z -/
def exConf3 (npz : Nat) : PConf 3 :=
  ⟨![1, 1, npz], ![2, 2, 6 / npz], 1, ![false, false, true], 1, 3, ⟨![1, 1, 1], 1, 1⟩, fun q => 1 / (1 + q * q)⟩
/-- `By` in the cells with z = 0 -/
def exGrid3 : Grid 3 := ⟨fun _ _ => 0, fun d v => if d = 1 ∧ v 2 = 0 then 1 else 0, fun _ _ => 0, fun _ _ _ => 0, fun _ _ _ => 0⟩
/-- the same in one patch -/
def exDom3 : PDom 3 := ⟨fun _ => ⟨fun _ _ => 0, fun d c => if d = 1 ∧ c 2 = 0 then 1 else 0, fun _ _ => 0⟩,
  fun t => (initPml3 (exConf3 1).np (exConf3 1).n ((exConf3 1).coord3 t) (fun a _ => (exConf3 1).pml a) 1 3).getD []⟩

theorem exStarts3 (npz : Nat) : (exConf3 npz).whole.Starts exGrid3 := by
  refine ⟨fun _ _ _ _ => rfl, ?_, fun _ _ _ _ => rfl, fun _ _ _ => rfl, fun _ _ _ => rfl⟩
  intro d v w h
  have h2 : v 2 = w 2 := pml_eq h (a := 2) rfl
  show (if d = 1 ∧ v 2 = 0 then (1 : ℚ) else 0) = if d = 1 ∧ w 2 = 0 then 1 else 0
  rw [h2]

/-- **C67** fails in 3D with a single patch on an absorbing axis: `_init_pml` accepts the set-up, the patch starts with the fields of the grid, and
after the first update `Ex` in the layer is not that of the undivided grid. With two patches along z it is, by `cpml_run_undivided3_partial`, so the
result depends on the cut -/
theorem cpml_single_patch3_fails : Inits3 (exConf3 1) exDom3.lay ∧ (exConf3 1).whole.Starts exGrid3 ∧
    ShowsEB (exConf3 1) (pmlSys3 (exConf3 1)).npatches (exConf3 1).coord3 exDom3 exGrid3 ∧ (exConf3 1).whole = (exConf3 2).whole ∧
    ∀ rk x', (pmlSys3 (exConf3 1)).SyncE rk ((pmlSys3 (exConf3 1)).stepE 1 exDom3) x' →
      (x'.fld 0).e 0 (index (exConf3 1).n 1 ![0, 0, 0]) ≠ ((exConf3 1).whole.stepE 1 exGrid3).e 0 (globalCell (exConf3 1).n ((exConf3 1).coord3 0) ![0, 0, 0]) := by
  refine ⟨?_, exStarts3 1, ?_, ?_, ?_⟩
  · intro t ht
    have : ∀ t, t < (pmlSys3 (exConf3 1)).npatches →
        (initPml3 (exConf3 1).np (exConf3 1).n ((exConf3 1).coord3 t) (fun a _ => (exConf3 1).pml a) 1 3).isSome = true := by decide +kernel
    have := this t ht
    show initPml3 (exConf3 1).np (exConf3 1).n ((exConf3 1).coord3 t) (fun a _ => (exConf3 1).pml a) 1 3 =
      some ((initPml3 (exConf3 1).np (exConf3 1).n ((exConf3 1).coord3 t) (fun a _ => (exConf3 1).pml a) 1 3).getD [])
    cases e : initPml3 (exConf3 1).np (exConf3 1).n ((exConf3 1).coord3 t) (fun a _ => (exConf3 1).pml a) 1 3 with
    | none => rw [e] at this; cases this
    | some r => rfl
  · intro t ht d v hv
    refine ⟨rfl, ?_⟩
    have hc : ∀ t, t < (pmlSys3 (exConf3 1)).npatches → (exConf3 1).coord3 t 2 = 0 := by decide +kernel
    have h1 : globalCell (exConf3 1).n ((exConf3 1).coord3 t) v 2 = v 2 := by
      unfold globalCell
      rw [hc t ht]
      simp
    have h2 : index (exConf3 1).n (exConf3 1).ng v 2 = 0 ↔ v 2 = 0 := by
      have h3 : -(1 : Int) ≤ v 2 ∧ v 2 < 6 + 1 := hv 2
      show wrapIx (6 + 2 * 1) (v 2) = 0 ↔ v 2 = 0
      unfold wrapIx
      split <;> omega
    show (if d = 1 ∧ index (exConf3 1).n (exConf3 1).ng v 2 = 0 then (1 : ℚ) else 0) =
      if d = 1 ∧ globalCell (exConf3 1).n ((exConf3 1).coord3 t) v 2 = 0 then 1 else 0
    rw [h1]
    simp only [h2]
  · unfold exConf3 PConf.whole
    congr 1
    funext a
    match a with
    | 0 => rfl
    | 1 => rfl
    | 2 => rfl
  · intro rk x' hs
    have hsh : Shape (exConf3 1).sync3 off3 B3.opp := guard3_shape (by decide) (by decide) (by decide)
    obtain ⟨m'', h⟩ : ∃ m'', (exConf3 1).sync3.GuardRun (fun l => (((pmlSys3 (exConf3 1)).stepE 1 exDom3).fld l.1).e 0 l.2) m'' :=
      ⟨_, _, Interleave.isSchedule_seq _ _, rfl⟩
    have e : (fun l : Loc 3 => (x'.fld l.1).e 0 l.2) = m'' := guard_ranks (rk := rk) (g := (exConf3 1).sync3) (rem := (pmlSys3 (exConf3 1)).guardMpi rk) hsh
      (guardTab3_eq _ _ _ _) (mpiGuardTab3_eq _ _ _ _) (by intro b; show b ∈ B3.all; cases b <;> decide) rfl rfl rfl (hs.1 0) h
    have hgeo := nbrGeo3 (s := (exConf3 1).sync3) (axisBC_paired ((exConf3 1).pml 0)) (axisBC_paired ((exConf3 1).pml 1)) (axisBC_paired ((exConf3 1).pml 2))
      (grid_createPatches3 1 1 1) (fun _ h => h) (nodup_createPatches3 _ _ _) rfl rfl
    rw [← e] at h
    have := (guard_global hsh hgeo (guardTab3_eq _ _ _ _) h).1 0 ![0, 0, 0] (by decide +kernel) (by unfold Own; decide +kernel)
    dsimp only at this
    have hval : (((pmlSys3 (exConf3 1)).stepE 1 exDom3).fld 0).e 0 (index (exConf3 1).n 1 ![0, 0, 0]) ≠
        ((exConf3 1).whole.stepE 1 exGrid3).e 0 (globalCell (exConf3 1).n ((exConf3 1).coord3 0) ![0, 0, 0]) := by decide +kernel
    intro hcon
    exact hval (this.symm.trans hcon)

/-- two patches along z meet the hypotheses of `cpml_run_undivided3_partial` -/
example : ∃ x mid, (pmlSys3 (exConf3 2)).Run (1 / 10) 50 x mid ∧
    ShowsEB (exConf3 2) 2 (exConf3 2).coord3 (x 50) ((exConf3 2).whole.run (1 / 10) (fun _ _ _ => 0) exGrid3 50) := by
  have hs : ∀ t, t < (pmlSys3 (exConf3 2)).npatches →
      (initPml3 (exConf3 2).np (exConf3 2).n ((exConf3 2).coord3 t) (fun a _ => (exConf3 2).pml a) (exConf3 2).thick (exConf3 2).smax).isSome = true := by
    decide +kernel
  have hi : Inits3 (exConf3 2) fun t =>
      (initPml3 (exConf3 2).np (exConf3 2).n ((exConf3 2).coord3 t) (fun a _ => (exConf3 2).pml a) (exConf3 2).thick (exConf3 2).smax).getD [] :=
    fun t ht => by
      obtain ⟨r, hr⟩ := Option.isSome_iff_exists.mp (hs t ht)
      dsimp only
      rw [hr]
      rfl
  obtain ⟨x, mid, h1, h2, h3, h4, h5⟩ := cpml_run_exists3 _ hi exGrid3 (fun _ _ _ => 0) (fun m t => (m + t) % 2) (fun _ _ => 0) (1 / 10) 50
  exact ⟨x, mid, h1, cpml_run_undivided3_partial _ (by decide) (by decide) (by decide) (by decide) _ _ x mid _ _ h1 h2 (exStarts3 2) h3 h4
    (fun m _ => ⟨fun _ _ _ _ => rfl, h5 m⟩) 50 le_rfl⟩

end Verif.Cpml
