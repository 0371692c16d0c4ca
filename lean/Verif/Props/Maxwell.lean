import Verif.Proofs.Maxwell
import Mathlib.Tactic.FieldSimp
/-!
# C15, C16, C17 — the field solver

Specification vocabulary (`Verif/Proofs/Maxwell.lean`): `dn a v`/`up a v` is the cell one down/up along
axis `a`; `yeeE2, yeeB2, yeeE3, yeeB3` are the increments of the Yee scheme; `GF.run … n` is the result
of `n` leap-frog steps on the undivided grid; `Rep S g σ G` says that every array of every patch, guard
cells included, shows the global field `G` (currents: own cells); `Periodic np n g` says `g` has period
`np * n` cells on each axis.
-/
namespace Verif.Maxwell
open SyncFields Neighbors

theorem allLocal2 {npx npy : Nat} {bx by' : AxisBC} (hx : bx.lo = .periodic) (hy : by'.lo = .periodic)
    {loc : List P2} (hfull : ∀ p, p ∈ createPatches2 npx npy → p ∈ loc) {s : Sync 2 B2}
    (hN : s.npatches = loc.length) : AllLocal s (place2 npx npy bx by' loc) := by
  constructor
  · intro a
    match a with
    | 0 => exact hx
    | 1 => exact hy
  · intro c hc
    obtain ⟨p, hp, h1, h2⟩ := full_createPatches2 npx npy (c 0) (hc 0) (c 1) (hc 1)
    obtain ⟨u, hu, e⟩ := List.mem_iff_getElem.mp (hfull p hp)
    refine ⟨u, by rw [hN]; exact hu, ?_⟩
    show (match loc[u]? with
      | some p => ![p.ix, p.iy]
      | none => ![0, 0]) = _
    rw [List.getElem?_eq_getElem hu, e]
    funext a
    match a with
    | 0 => exact h1
    | 1 => exact h2

theorem allLocal3 {npx npy npz : Nat} {bx by' bz : AxisBC} (hx : bx.lo = .periodic)
    (hy : by'.lo = .periodic) (hz : bz.lo = .periodic)
    {loc : List P3} (hfull : ∀ p, p ∈ createPatches3 npx npy npz → p ∈ loc) {s : Sync 3 B3}
    (hN : s.npatches = loc.length) : AllLocal s (place3 npx npy npz bx by' bz loc) := by
  constructor
  · intro a
    match a with
    | 0 => exact hx
    | 1 => exact hy
    | 2 => exact hz
  · intro c hc
    obtain ⟨p, hp, h1, h2, h3⟩ := full_createPatches3 npx npy npz (c 0) (hc 0) (c 1) (hc 1) (c 2) (hc 2)
    obtain ⟨u, hu, e⟩ := List.mem_iff_getElem.mp (hfull p hp)
    refine ⟨u, by rw [hN]; exact hu, ?_⟩
    show (match loc[u]? with
      | some p => ![p.ix, p.iy, p.iz]
      | none => ![0, 0, 0]) = _
    rw [List.getElem?_eq_getElem hu, e]
    funext a
    match a with
    | 0 => exact h1
    | 1 => exact h2
    | 2 => exact h3

/-- both ends of the axis periodic -/
abbrev per : AxisBC := ⟨.periodic, .periodic⟩

/-- **C15 (2D).** Any patch grid, patches in any order, any patch size not below the guard width
(itself at least 1), any initial fields, any currents, any `dt`, cell sizes and constants, every thread
schedule of every exchange: after any number of time steps every own and guard cell of every patch
holds the value of the undivided periodic grid after as many steps. -/
theorem decomposition2 {npx npy nx ny ng : Nat} (hng : 1 ≤ ng) (hngx : ng ≤ nx) (hngy : ng ≤ ny)
    {loc : List P2} (hmem : ∀ p, p ∈ loc ↔ p ∈ createPatches2 npx npy) (hnd : loc.Nodup)
    (P : Par 2) (dt : ℚ) {σ : Nat → Dom 2} {G : GF 2} {J : Nat → V3 2}
    (hper : G.Per ![npx, npy] ![nx, ny]) (hJ : ∀ i, Periodic ![npx, npy] ![nx, ny] (J i)) :
    let S := solver2 nx ny ng loc.length
      (neighborIpatch2 npx npy per per (createPatches2 npx npy) loc) P
    let g := place2 npx npy per per loc
    Rep S g (σ 0) G → (∀ i, StepWith S g dt (J i) (σ i) (σ (i + 1))) →
    ∀ n, Rep S g (σ n) (GF.run (yeeE2 P) (yeeB2 P) dt J G n) := by
  intro S g hrep hstep n
  exact (run_rep (guard2_shape hngx hngy)
    (nbrGeo2 (bx := per) (by' := per) rfl rfl (grid_createPatches2 npx npy) (fun p hp => (hmem p).mp hp) hnd rfl rfl)
    (guardTab2_eq nx ny ng) (allLocal2 rfl rfl (fun p hp => (hmem p).mpr hp) rfl) (kernel2 nx ny ng _ _ P)
    (localFE2 P) (localFB2 P) hng hper hrep dt hJ hstep n).1

/-- **C15 (3D).** -/
theorem decomposition3 {npx npy npz nx ny nz ng : Nat} (hng : 1 ≤ ng) (hngx : ng ≤ nx) (hngy : ng ≤ ny)
    (hngz : ng ≤ nz) {loc : List P3} (hmem : ∀ p, p ∈ loc ↔ p ∈ createPatches3 npx npy npz)
    (hnd : loc.Nodup) (P : Par 3) (dt : ℚ) {σ : Nat → Dom 3} {G : GF 3} {J : Nat → V3 3}
    (hper : G.Per ![npx, npy, npz] ![nx, ny, nz])
    (hJ : ∀ i, Periodic ![npx, npy, npz] ![nx, ny, nz] (J i)) :
    let S := solver3 nx ny nz ng loc.length
      (neighborIpatch3 npx npy npz per per per (createPatches3 npx npy npz) loc) P
    let g := place3 npx npy npz per per per loc
    Rep S g (σ 0) G → (∀ i, StepWith S g dt (J i) (σ i) (σ (i + 1))) →
    ∀ n, Rep S g (σ n) (GF.run (yeeE3 P) (yeeB3 P) dt J G n) := by
  intro S g hrep hstep n
  exact (run_rep (guard3_shape hngx hngy hngz)
    (nbrGeo3 (bx := per) (by' := per) (bz := per) rfl rfl rfl (grid_createPatches3 npx npy npz) (fun p hp => (hmem p).mp hp) hnd rfl rfl)
    (guardTab3_eq nx ny nz ng) (allLocal3 rfl rfl rfl (fun p hp => (hmem p).mpr hp) rfl)
    (kernel3 nx ny nz ng _ _ P) (localFE3 P) (localFB3 P) hng hper hrep dt hJ hstep n).1

/-! ### divergences -/

/-- Specification: discrete divergence of B at cell `v` (2D) -/
def divB2 (P : Par 2) (b : V3 2) (v : Fin 2 → Int) : ℚ :=
  (b 0 (up 0 v) - b 0 v) / P.d 0 + (b 1 (up 1 v) - b 1 v) / P.d 1
/-- Specification: discrete divergence of B at cell `v` (3D) -/
def divB3 (P : Par 3) (b : V3 3) (v : Fin 3 → Int) : ℚ :=
  (b 0 (up 0 v) - b 0 v) / P.d 0 + (b 1 (up 1 v) - b 1 v) / P.d 1 + (b 2 (up 2 v) - b 2 v) / P.d 2
/-- Specification: discrete divergence of E or J at node `v` (2D) -/
def divE2 (P : Par 2) (e : V3 2) (v : Fin 2 → Int) : ℚ :=
  (e 0 v - e 0 (dn 0 v)) / P.d 0 + (e 1 v - e 1 (dn 1 v)) / P.d 1
/-- Specification: discrete divergence of E or J at node `v` (3D) -/
def divE3 (P : Par 3) (e : V3 3) (v : Fin 3 → Int) : ℚ :=
  (e 0 v - e 0 (dn 0 v)) / P.d 0 + (e 1 v - e 1 (dn 1 v)) / P.d 1 + (e 2 v - e 2 (dn 2 v)) / P.d 2

theorem up_comm {k : Nat} (x y : Fin k) (h : x ≠ y) (v : Fin k → Int) : up x (up y v) = up y (up x v) := by
  funext a; unfold up
  by_cases h1 : a = x <;> by_cases h2 : a = y
  · exact absurd (h1.symm.trans h2) h
  · simp [h1, h2, h]
  · simp [h1, h2, Ne.symm h]
  · simp [h1, h2]
theorem dn_comm {k : Nat} (x y : Fin k) (h : x ≠ y) (v : Fin k → Int) : dn x (dn y v) = dn y (dn x v) := by
  funext a; unfold dn
  by_cases h1 : a = x <;> by_cases h2 : a = y
  · exact absurd (h1.symm.trans h2) h
  · simp [h1, h2, h]
  · simp [h1, h2, Ne.symm h]
  · simp [h1, h2]

theorem divB2_stepB (P : Par 2) (dt : ℚ) (G : GF 2) (v) :
    divB2 P (G.stepB (yeeB2 P) dt).b v = divB2 P G.b v := by
  show (G.b 0 (up 0 v) + -(dt * ((G.e 2 (up 1 (up 0 v)) - G.e 2 (up 0 v)) / P.d 1))
      - (G.b 0 v + -(dt * ((G.e 2 (up 1 v) - G.e 2 v) / P.d 1)))) / P.d 0
    + (G.b 1 (up 1 v) + -(dt * (-(G.e 2 (up 0 (up 1 v)) - G.e 2 (up 1 v)) / P.d 0))
      - (G.b 1 v + -(dt * (-(G.e 2 (up 0 v) - G.e 2 v) / P.d 0)))) / P.d 1 = _
  rw [up_comm 1 0 (by decide)]
  unfold divB2
  ring

theorem divB3_stepB (P : Par 3) (dt : ℚ) (G : GF 3) (v) :
    divB3 P (G.stepB (yeeB3 P) dt).b v = divB3 P G.b v := by
  show (G.b 0 (up 0 v) + -(dt * ((G.e 2 (up 1 (up 0 v)) - G.e 2 (up 0 v)) / P.d 1
        - (G.e 1 (up 2 (up 0 v)) - G.e 1 (up 0 v)) / P.d 2))
      - (G.b 0 v + -(dt * ((G.e 2 (up 1 v) - G.e 2 v) / P.d 1 - (G.e 1 (up 2 v) - G.e 1 v) / P.d 2)))) / P.d 0
    + (G.b 1 (up 1 v) + -(dt * ((G.e 0 (up 2 (up 1 v)) - G.e 0 (up 1 v)) / P.d 2
        - (G.e 2 (up 0 (up 1 v)) - G.e 2 (up 1 v)) / P.d 0))
      - (G.b 1 v + -(dt * ((G.e 0 (up 2 v) - G.e 0 v) / P.d 2 - (G.e 2 (up 0 v) - G.e 2 v) / P.d 0)))) / P.d 1
    + (G.b 2 (up 2 v) + -(dt * ((G.e 1 (up 0 (up 2 v)) - G.e 1 (up 2 v)) / P.d 0
        - (G.e 0 (up 1 (up 2 v)) - G.e 0 (up 2 v)) / P.d 1))
      - (G.b 2 v + -(dt * ((G.e 1 (up 0 v) - G.e 1 v) / P.d 0 - (G.e 0 (up 1 v) - G.e 0 v) / P.d 1)))) / P.d 2
    = _
  rw [up_comm 1 0 (by decide), up_comm 2 0 (by decide), up_comm 2 1 (by decide)]
  unfold divB3
  ring

theorem divE2_stepE (P : Par 2) (dt : ℚ) (G : GF 2) (v) :
    divE2 P (G.stepE (yeeE2 P) dt).e v = divE2 P G.e v - dt / P.eps0 * divE2 P G.j v := by
  show (G.e 0 v + (dt * P.c2 * ((G.b 2 v - G.b 2 (dn 1 v)) / P.d 1) - dt / P.eps0 * G.j 0 v)
      - (G.e 0 (dn 0 v) + (dt * P.c2 * ((G.b 2 (dn 0 v) - G.b 2 (dn 1 (dn 0 v))) / P.d 1)
        - dt / P.eps0 * G.j 0 (dn 0 v)))) / P.d 0
    + (G.e 1 v + (dt * P.c2 * (-(G.b 2 v - G.b 2 (dn 0 v)) / P.d 0) - dt / P.eps0 * G.j 1 v)
      - (G.e 1 (dn 1 v) + (dt * P.c2 * (-(G.b 2 (dn 1 v) - G.b 2 (dn 0 (dn 1 v))) / P.d 0)
        - dt / P.eps0 * G.j 1 (dn 1 v)))) / P.d 1 = _
  rw [dn_comm 1 0 (by decide)]
  unfold divE2
  ring

theorem divE3_stepE (P : Par 3) (dt : ℚ) (G : GF 3) (v) :
    divE3 P (G.stepE (yeeE3 P) dt).e v = divE3 P G.e v - dt / P.eps0 * divE3 P G.j v := by
  show (G.e 0 v + (dt * P.c2 * ((G.b 2 v - G.b 2 (dn 1 v)) / P.d 1 - (G.b 1 v - G.b 1 (dn 2 v)) / P.d 2)
        - dt / P.eps0 * G.j 0 v)
      - (G.e 0 (dn 0 v) + (dt * P.c2 * ((G.b 2 (dn 0 v) - G.b 2 (dn 1 (dn 0 v))) / P.d 1
        - (G.b 1 (dn 0 v) - G.b 1 (dn 2 (dn 0 v))) / P.d 2) - dt / P.eps0 * G.j 0 (dn 0 v)))) / P.d 0
    + (G.e 1 v + (dt * P.c2 * ((G.b 0 v - G.b 0 (dn 2 v)) / P.d 2 - (G.b 2 v - G.b 2 (dn 0 v)) / P.d 0)
        - dt / P.eps0 * G.j 1 v)
      - (G.e 1 (dn 1 v) + (dt * P.c2 * ((G.b 0 (dn 1 v) - G.b 0 (dn 2 (dn 1 v))) / P.d 2
        - (G.b 2 (dn 1 v) - G.b 2 (dn 0 (dn 1 v))) / P.d 0) - dt / P.eps0 * G.j 1 (dn 1 v)))) / P.d 1
    + (G.e 2 v + (dt * P.c2 * ((G.b 1 v - G.b 1 (dn 0 v)) / P.d 0 - (G.b 0 v - G.b 0 (dn 1 v)) / P.d 1)
        - dt / P.eps0 * G.j 2 v)
      - (G.e 2 (dn 2 v) + (dt * P.c2 * ((G.b 1 (dn 2 v) - G.b 1 (dn 0 (dn 2 v))) / P.d 0
        - (G.b 0 (dn 2 v) - G.b 0 (dn 1 (dn 2 v))) / P.d 1) - dt / P.eps0 * G.j 2 (dn 2 v)))) / P.d 2 = _
  rw [dn_comm 1 0 (by decide), dn_comm 2 0 (by decide), dn_comm 2 1 (by decide)]
  unfold divE3
  ring

theorem divB2_run (P : Par 2) (dt : ℚ) (J : Nat → V3 2) (G : GF 2) (n : Nat) (v) :
    divB2 P (GF.run (yeeE2 P) (yeeB2 P) dt J G n).b v = divB2 P G.b v := by
  induction n with
  | zero => rfl
  | succ n ih =>
    rw [← ih]
    exact (divB2_stepB P (1 / 2 * dt) _ v).trans (divB2_stepB P (1 / 2 * dt) _ v)

theorem divB3_run (P : Par 3) (dt : ℚ) (J : Nat → V3 3) (G : GF 3) (n : Nat) (v) :
    divB3 P (GF.run (yeeE3 P) (yeeB3 P) dt J G n).b v = divB3 P G.b v := by
  induction n with
  | zero => rfl
  | succ n ih =>
    rw [← ih]
    exact (divB3_stepB P (1 / 2 * dt) _ v).trans (divB3_stepB P (1 / 2 * dt) _ v)

/-- divergence of B computed from the arrays of one patch -/
theorem divB2_shows {S : Solver 2 B2} {g : Place 2} {σ : Dom 2} {G : GF 2} (P : Par 2)
    (hng : 1 ≤ S.sync.ng) (h : Rep S g σ G) {t : Nat} (ht : t < S.sync.npatches) {v : Fin 2 → Int}
    (hv : Own S.sync.n v) : divB2 P (cellsOf S.sync.n S.sync.ng (σ t).b) v =
      divB2 P G.b (globalCell S.sync.n (g.coord t) v) := by
  have hup : ∀ a, up a (globalCell S.sync.n (g.coord t) v) = globalCell S.sync.n (g.coord t) (up a v) :=
    fun a => up_shift a _ v
  have h1 : ∀ d, cellsOf S.sync.n S.sync.ng (σ t).b d v = _ := fun d => h.b t ht d v (hv.inRange _)
  have h2 : ∀ d a, cellsOf S.sync.n S.sync.ng (σ t).b d (up a v) = _ :=
    fun d a => h.b t ht d (up a v) (up_inRange hng hv a)
  unfold divB2
  rw [h1, h1, h2, h2, hup, hup]

theorem divB3_shows {S : Solver 3 B3} {g : Place 3} {σ : Dom 3} {G : GF 3} (P : Par 3)
    (hng : 1 ≤ S.sync.ng) (h : Rep S g σ G) {t : Nat} (ht : t < S.sync.npatches) {v : Fin 3 → Int}
    (hv : Own S.sync.n v) : divB3 P (cellsOf S.sync.n S.sync.ng (σ t).b) v =
      divB3 P G.b (globalCell S.sync.n (g.coord t) v) := by
  have hup : ∀ a, up a (globalCell S.sync.n (g.coord t) v) = globalCell S.sync.n (g.coord t) (up a v) :=
    fun a => up_shift a _ v
  have h1 : ∀ d, cellsOf S.sync.n S.sync.ng (σ t).b d v = _ := fun d => h.b t ht d v (hv.inRange _)
  have h2 : ∀ d a, cellsOf S.sync.n S.sync.ng (σ t).b d (up a v) = _ :=
    fun d a => h.b t ht d (up a v) (up_inRange hng hv a)
  unfold divB3
  rw [h1, h1, h1, h2, h2, h2, hup, hup, hup]

theorem divE2_shows {S : Solver 2 B2} {g : Place 2} {σ : Dom 2} {G : GF 2} (P : Par 2)
    (hng : 1 ≤ S.sync.ng) (h : Rep S g σ G) {t : Nat} (ht : t < S.sync.npatches) {v : Fin 2 → Int}
    (hv : Own S.sync.n v) : divE2 P (cellsOf S.sync.n S.sync.ng (σ t).e) v =
      divE2 P G.e (globalCell S.sync.n (g.coord t) v) := by
  have hup : ∀ a, dn a (globalCell S.sync.n (g.coord t) v) = globalCell S.sync.n (g.coord t) (dn a v) :=
    fun a => dn_shift a _ v
  have h1 : ∀ d, cellsOf S.sync.n S.sync.ng (σ t).e d v = _ := fun d => h.e t ht d v (hv.inRange _)
  have h2 : ∀ d a, cellsOf S.sync.n S.sync.ng (σ t).e d (dn a v) = _ :=
    fun d a => h.e t ht d (dn a v) (dn_inRange hng hv a)
  unfold divE2
  rw [h1, h1, h2, h2, hup, hup]

theorem divE3_shows {S : Solver 3 B3} {g : Place 3} {σ : Dom 3} {G : GF 3} (P : Par 3)
    (hng : 1 ≤ S.sync.ng) (h : Rep S g σ G) {t : Nat} (ht : t < S.sync.npatches) {v : Fin 3 → Int}
    (hv : Own S.sync.n v) : divE3 P (cellsOf S.sync.n S.sync.ng (σ t).e) v =
      divE3 P G.e (globalCell S.sync.n (g.coord t) v) := by
  have hup : ∀ a, dn a (globalCell S.sync.n (g.coord t) v) = globalCell S.sync.n (g.coord t) (dn a v) :=
    fun a => dn_shift a _ v
  have h1 : ∀ d, cellsOf S.sync.n S.sync.ng (σ t).e d v = _ := fun d => h.e t ht d v (hv.inRange _)
  have h2 : ∀ d a, cellsOf S.sync.n S.sync.ng (σ t).e d (dn a v) = _ :=
    fun d a => h.e t ht d (dn a v) (dn_inRange hng hv a)
  unfold divE3
  rw [h1, h1, h1, h2, h2, h2, hup, hup, hup]

/-- **C16, one update, any patch (2D).** `update_bfield` leaves the divergence of B unchanged at every
own cell whose upper neighbours are own cells, whatever E, B and `dt` are. -/
theorem divB_update2 (nx ny ng : Nat) (P : Par 2) (dt : ℚ) (f : Fields 2) (v : Fin 2 → Int)
    (h0 : 0 ≤ v 0 ∧ v 0 + 1 < nx) (h1 : 0 ≤ v 1 ∧ v 1 + 1 < ny) :
    divB2 P (cellsOf ![nx, ny] ng (updateB2 nx ny ng P dt f).b) v = divB2 P (cellsOf ![nx, ny] ng f.b) v := by
  have hk := (kernel2 nx ny ng 0 (fun _ _ => none) P).bB dt f
  have hown : ∀ w : Fin 2 → Int, (0 ≤ w 0 ∧ w 0 < nx) → (0 ≤ w 1 ∧ w 1 < ny) → Own ![nx, ny] w := by
    intro w a b x
    match x with
    | 0 => exact a
    | 1 => exact b
  have u00 : up 0 v 0 = v 0 + 1 := rfl
  have u01 : up 0 v 1 = v 1 := rfl
  have u10 : up 1 v 0 = v 0 := rfl
  have u11 : up 1 v 1 = v 1 + 1 := rfl
  have e : ∀ d w, Own ![nx, ny] w → cellsOf ![nx, ny] ng (updateB2 nx ny ng P dt f).b d w =
      cellsOf ![nx, ny] ng f.b d w + yeeB2 P dt (cellsOf ![nx, ny] ng f.e) d w := fun d w hw => hk d w hw
  have key := divB2_stepB P dt ⟨cellsOf ![nx, ny] ng f.e, cellsOf ![nx, ny] ng f.b, fun _ _ => 0⟩ v
  rw [← key]
  unfold divB2
  rw [e 0 v (hown _ (by omega) (by omega)), e 1 v (hown _ (by omega) (by omega)),
    e 0 _ (hown (up 0 v) (by omega) (by omega)), e 1 _ (hown (up 1 v) (by omega) (by omega))]
  rfl

/-- **C16, one update, any patch (3D).** -/
theorem divB_update3 (nx ny nz ng : Nat) (P : Par 3) (dt : ℚ) (f : Fields 3) (v : Fin 3 → Int)
    (h0 : 0 ≤ v 0 ∧ v 0 + 1 < nx) (h1 : 0 ≤ v 1 ∧ v 1 + 1 < ny) (h2 : 0 ≤ v 2 ∧ v 2 + 1 < nz) :
    divB3 P (cellsOf ![nx, ny, nz] ng (updateB3 nx ny nz ng P dt f).b) v =
      divB3 P (cellsOf ![nx, ny, nz] ng f.b) v := by
  have hk := (kernel3 nx ny nz ng 0 (fun _ _ => none) P).bB dt f
  have hown : ∀ w : Fin 3 → Int, (0 ≤ w 0 ∧ w 0 < nx) → (0 ≤ w 1 ∧ w 1 < ny) → (0 ≤ w 2 ∧ w 2 < nz) →
      Own ![nx, ny, nz] w := by
    intro w a b c x
    match x with
    | 0 => exact a
    | 1 => exact b
    | 2 => exact c
  have u00 : up 0 v 0 = v 0 + 1 := rfl
  have u01 : up 0 v 1 = v 1 := rfl
  have u02 : up 0 v 2 = v 2 := rfl
  have u10 : up 1 v 0 = v 0 := rfl
  have u11 : up 1 v 1 = v 1 + 1 := rfl
  have u12 : up 1 v 2 = v 2 := rfl
  have u20 : up 2 v 0 = v 0 := rfl
  have u21 : up 2 v 1 = v 1 := rfl
  have u22 : up 2 v 2 = v 2 + 1 := rfl
  have e : ∀ d w, Own ![nx, ny, nz] w → cellsOf ![nx, ny, nz] ng (updateB3 nx ny nz ng P dt f).b d w =
      cellsOf ![nx, ny, nz] ng f.b d w + yeeB3 P dt (cellsOf ![nx, ny, nz] ng f.e) d w :=
    fun d w hw => hk d w hw
  have key := divB3_stepB P dt ⟨cellsOf ![nx, ny, nz] ng f.e, cellsOf ![nx, ny, nz] ng f.b, fun _ _ => 0⟩ v
  rw [← key]
  unfold divB3
  rw [e 0 v (hown _ (by omega) (by omega) (by omega)), e 1 v (hown _ (by omega) (by omega) (by omega)),
    e 2 v (hown _ (by omega) (by omega) (by omega)),
    e 0 _ (hown (up 0 v) (by omega) (by omega) (by omega)),
    e 1 _ (hown (up 1 v) (by omega) (by omega) (by omega)),
    e 2 _ (hown (up 2 v) (by omega) (by omega) (by omega))]
  rfl

/-- **C16, whole run (2D).** In a periodic run on any patch grid, the divergence of B computed from the
arrays of any patch, at any own cell (upper neighbours possibly in the guard), after any number of
steps is the initial one. In particular a divergence-free B stays so. -/
theorem divB_run2 {npx npy nx ny ng : Nat} (hng : 1 ≤ ng) (hngx : ng ≤ nx) (hngy : ng ≤ ny)
    {loc : List P2} (hmem : ∀ p, p ∈ loc ↔ p ∈ createPatches2 npx npy) (hnd : loc.Nodup)
    (P : Par 2) (dt : ℚ) {σ : Nat → Dom 2} {G : GF 2} {J : Nat → V3 2}
    (hper : G.Per ![npx, npy] ![nx, ny]) (hJ : ∀ i, Periodic ![npx, npy] ![nx, ny] (J i)) :
    let S := solver2 nx ny ng loc.length
      (neighborIpatch2 npx npy per per (createPatches2 npx npy) loc) P
    let g := place2 npx npy per per loc
    Rep S g (σ 0) G → (∀ i, StepWith S g dt (J i) (σ i) (σ (i + 1))) →
    ∀ n t v, t < loc.length → Own ![nx, ny] v →
      divB2 P (cellsOf ![nx, ny] ng (σ n t).b) v = divB2 P (cellsOf ![nx, ny] ng (σ 0 t).b) v := by
  intro S g hrep hstep n t v ht hv
  have h := decomposition2 hng hngx hngy hmem hnd P dt hper hJ hrep hstep n
  have e1 := divB2_shows P hng h ht hv
  have e2 := divB2_shows P hng hrep ht hv
  exact e1.trans ((divB2_run P dt J G n _).trans e2.symm)

/-- **C16, whole run (3D).** -/
theorem divB_run3 {npx npy npz nx ny nz ng : Nat} (hng : 1 ≤ ng) (hngx : ng ≤ nx) (hngy : ng ≤ ny)
    (hngz : ng ≤ nz) {loc : List P3} (hmem : ∀ p, p ∈ loc ↔ p ∈ createPatches3 npx npy npz)
    (hnd : loc.Nodup) (P : Par 3) (dt : ℚ) {σ : Nat → Dom 3} {G : GF 3} {J : Nat → V3 3}
    (hper : G.Per ![npx, npy, npz] ![nx, ny, nz])
    (hJ : ∀ i, Periodic ![npx, npy, npz] ![nx, ny, nz] (J i)) :
    let S := solver3 nx ny nz ng loc.length
      (neighborIpatch3 npx npy npz per per per (createPatches3 npx npy npz) loc) P
    let g := place3 npx npy npz per per per loc
    Rep S g (σ 0) G → (∀ i, StepWith S g dt (J i) (σ i) (σ (i + 1))) →
    ∀ n t v, t < loc.length → Own ![nx, ny, nz] v →
      divB3 P (cellsOf ![nx, ny, nz] ng (σ n t).b) v = divB3 P (cellsOf ![nx, ny, nz] ng (σ 0 t).b) v := by
  intro S g hrep hstep n t v ht hv
  have h := decomposition3 hng hngx hngy hngz hmem hnd P dt hper hJ hrep hstep n
  have e1 := divB3_shows P hng h ht hv
  have e2 := divB3_shows P hng hrep ht hv
  exact e1.trans ((divB3_run P dt J G n _).trans e2.symm)

/-! ### Gauss's law -/

/-- **C17, one update, any patch (2D).** A full E update with a current that satisfies continuity,
`(rho' - rho)/dt + div J = 0`, leaves `div E - rho/eps0` unchanged at every own node whose lower
neighbours are own nodes, whatever the fields are. -/
theorem gauss_update2 (nx ny ng : Nat) (P : Par 2) (dt : ℚ) (hdt : dt ≠ 0) (f : Fields 2) (v : Fin 2 → Int)
    (h0 : 1 ≤ v 0 ∧ v 0 < nx) (h1 : 1 ≤ v 1 ∧ v 1 < ny) (rho rho' : ℚ)
    (hcont : (rho' - rho) / dt + divE2 P (cellsOf ![nx, ny] ng f.j) v = 0) :
    divE2 P (cellsOf ![nx, ny] ng (updateE2 nx ny ng P dt f).e) v - rho' / P.eps0 =
      divE2 P (cellsOf ![nx, ny] ng f.e) v - rho / P.eps0 := by
  have hk := (kernel2 nx ny ng 0 (fun _ _ => none) P).eE dt f
  have hown : ∀ w : Fin 2 → Int, (0 ≤ w 0 ∧ w 0 < nx) → (0 ≤ w 1 ∧ w 1 < ny) → Own ![nx, ny] w := by
    intro w a b x
    match x with
    | 0 => exact a
    | 1 => exact b
  have u00 : dn 0 v 0 = v 0 - 1 := rfl
  have u01 : dn 0 v 1 = v 1 := rfl
  have u10 : dn 1 v 0 = v 0 := rfl
  have u11 : dn 1 v 1 = v 1 - 1 := rfl
  have e : ∀ d w, Own ![nx, ny] w → cellsOf ![nx, ny] ng (updateE2 nx ny ng P dt f).e d w =
      cellsOf ![nx, ny] ng f.e d w +
        yeeE2 P dt (cellsOf ![nx, ny] ng f.b) (cellsOf ![nx, ny] ng f.j) d w := fun d w hw => hk d w hw
  have key := divE2_stepE P dt
    ⟨cellsOf ![nx, ny] ng f.e, cellsOf ![nx, ny] ng f.b, cellsOf ![nx, ny] ng f.j⟩ v
  have hd : divE2 P (cellsOf ![nx, ny] ng (updateE2 nx ny ng P dt f).e) v =
      divE2 P (cellsOf ![nx, ny] ng f.e) v - dt / P.eps0 * divE2 P (cellsOf ![nx, ny] ng f.j) v := by
    rw [← key]
    unfold divE2
    rw [e 0 v (hown _ (by omega) (by omega)), e 1 v (hown _ (by omega) (by omega)),
      e 0 _ (hown (dn 0 v) (by omega) (by omega)), e 1 _ (hown (dn 1 v) (by omega) (by omega))]
    rfl
  rw [hd]
  have hj : divE2 P (cellsOf ![nx, ny] ng f.j) v = -((rho' - rho) / dt) := by linarith
  rw [hj]
  field_simp
  ring

/-- **C17, one update, any patch (3D).** -/
theorem gauss_update3 (nx ny nz ng : Nat) (P : Par 3) (dt : ℚ) (hdt : dt ≠ 0) (f : Fields 3)
    (v : Fin 3 → Int) (h0 : 1 ≤ v 0 ∧ v 0 < nx) (h1 : 1 ≤ v 1 ∧ v 1 < ny) (h2 : 1 ≤ v 2 ∧ v 2 < nz)
    (rho rho' : ℚ) (hcont : (rho' - rho) / dt + divE3 P (cellsOf ![nx, ny, nz] ng f.j) v = 0) :
    divE3 P (cellsOf ![nx, ny, nz] ng (updateE3 nx ny nz ng P dt f).e) v - rho' / P.eps0 =
      divE3 P (cellsOf ![nx, ny, nz] ng f.e) v - rho / P.eps0 := by
  have hk := (kernel3 nx ny nz ng 0 (fun _ _ => none) P).eE dt f
  have hown : ∀ w : Fin 3 → Int, (0 ≤ w 0 ∧ w 0 < nx) → (0 ≤ w 1 ∧ w 1 < ny) → (0 ≤ w 2 ∧ w 2 < nz) →
      Own ![nx, ny, nz] w := by
    intro w a b c x
    match x with
    | 0 => exact a
    | 1 => exact b
    | 2 => exact c
  have u00 : dn 0 v 0 = v 0 - 1 := rfl
  have u01 : dn 0 v 1 = v 1 := rfl
  have u02 : dn 0 v 2 = v 2 := rfl
  have u10 : dn 1 v 0 = v 0 := rfl
  have u11 : dn 1 v 1 = v 1 - 1 := rfl
  have u12 : dn 1 v 2 = v 2 := rfl
  have u20 : dn 2 v 0 = v 0 := rfl
  have u21 : dn 2 v 1 = v 1 := rfl
  have u22 : dn 2 v 2 = v 2 - 1 := rfl
  have e : ∀ d w, Own ![nx, ny, nz] w → cellsOf ![nx, ny, nz] ng (updateE3 nx ny nz ng P dt f).e d w =
      cellsOf ![nx, ny, nz] ng f.e d w +
        yeeE3 P dt (cellsOf ![nx, ny, nz] ng f.b) (cellsOf ![nx, ny, nz] ng f.j) d w :=
    fun d w hw => hk d w hw
  have key := divE3_stepE P dt
    ⟨cellsOf ![nx, ny, nz] ng f.e, cellsOf ![nx, ny, nz] ng f.b, cellsOf ![nx, ny, nz] ng f.j⟩ v
  have hd : divE3 P (cellsOf ![nx, ny, nz] ng (updateE3 nx ny nz ng P dt f).e) v =
      divE3 P (cellsOf ![nx, ny, nz] ng f.e) v - dt / P.eps0 * divE3 P (cellsOf ![nx, ny, nz] ng f.j) v := by
    rw [← key]
    unfold divE3
    rw [e 0 v (hown _ (by omega) (by omega) (by omega)), e 1 v (hown _ (by omega) (by omega) (by omega)),
      e 2 v (hown _ (by omega) (by omega) (by omega)),
      e 0 _ (hown (dn 0 v) (by omega) (by omega) (by omega)),
      e 1 _ (hown (dn 1 v) (by omega) (by omega) (by omega)),
      e 2 _ (hown (dn 2 v) (by omega) (by omega) (by omega))]
    rfl
  rw [hd]
  have hj : divE3 P (cellsOf ![nx, ny, nz] ng f.j) v = -((rho' - rho) / dt) := by linarith
  rw [hj]
  field_simp
  ring

/-- E and B on the undivided grid in the middle of step `n` (after its first field half, when the
particles are pushed) -/
def GF.mid {k : Nat} (FE : ℚ → V3 k → V3 k → V3 k) (FB : ℚ → V3 k → V3 k) (dt : ℚ) (J : Nat → V3 k)
    (G : GF k) (n : Nat) : GF k :=
  ((GF.run FE FB dt J G n).stepE FE (1 / 2 * dt)).stepB FB (1 / 2 * dt)

theorem run_j_succ {k : Nat} (FE : ℚ → V3 k → V3 k → V3 k) (FB : ℚ → V3 k → V3 k) (dt : ℚ) (J : Nat → V3 k)
    (G : GF k) (n : Nat) : (GF.run FE FB dt J G (n + 1)).j = J n := rfl

theorem gauss_global2 (P : Par 2) (dt : ℚ) (J : Nat → V3 2) (rho : Nat → (Fin 2 → Int) → ℚ) (G : GF 2)
    (hdt : dt ≠ 0) (hcont : ∀ n v, (rho (n + 1) v - rho n v) / dt + divE2 P (J n) v = 0) (n : Nat) (v) :
    divE2 P (GF.mid (yeeE2 P) (yeeB2 P) dt J G n).e v - rho n v / P.eps0 =
      divE2 P (GF.mid (yeeE2 P) (yeeB2 P) dt J G 0).e v - rho 0 v / P.eps0 := by
  induction n with
  | zero => rfl
  | succ n ih =>
    rw [← ih]
    have e1 : divE2 P (GF.mid (yeeE2 P) (yeeB2 P) dt J G (n + 1)).e v = _ :=
      divE2_stepE P (1 / 2 * dt) (GF.run (yeeE2 P) (yeeB2 P) dt J G (n + 1)) v
    have e2 : divE2 P (GF.run (yeeE2 P) (yeeB2 P) dt J G (n + 1)).e v =
        divE2 P (GF.mid (yeeE2 P) (yeeB2 P) dt J G n).e v - 1 / 2 * dt / P.eps0 * divE2 P (J n) v :=
      divE2_stepE P (1 / 2 * dt)
        (({ GF.mid (yeeE2 P) (yeeB2 P) dt J G n with j := J n } : GF 2).stepB (yeeB2 P) (1 / 2 * dt)) v
    rw [e1, e2, run_j_succ]
    have hj : divE2 P (J n) v = -((rho (n + 1) v - rho n v) / dt) := by linarith [hcont n v]
    rw [hj]
    field_simp
    ring

theorem gauss_global3 (P : Par 3) (dt : ℚ) (J : Nat → V3 3) (rho : Nat → (Fin 3 → Int) → ℚ) (G : GF 3)
    (hdt : dt ≠ 0) (hcont : ∀ n v, (rho (n + 1) v - rho n v) / dt + divE3 P (J n) v = 0) (n : Nat) (v) :
    divE3 P (GF.mid (yeeE3 P) (yeeB3 P) dt J G n).e v - rho n v / P.eps0 =
      divE3 P (GF.mid (yeeE3 P) (yeeB3 P) dt J G 0).e v - rho 0 v / P.eps0 := by
  induction n with
  | zero => rfl
  | succ n ih =>
    rw [← ih]
    have e1 : divE3 P (GF.mid (yeeE3 P) (yeeB3 P) dt J G (n + 1)).e v = _ :=
      divE3_stepE P (1 / 2 * dt) (GF.run (yeeE3 P) (yeeB3 P) dt J G (n + 1)) v
    have e2 : divE3 P (GF.run (yeeE3 P) (yeeB3 P) dt J G (n + 1)).e v =
        divE3 P (GF.mid (yeeE3 P) (yeeB3 P) dt J G n).e v - 1 / 2 * dt / P.eps0 * divE3 P (J n) v :=
      divE3_stepE P (1 / 2 * dt)
        (({ GF.mid (yeeE3 P) (yeeB3 P) dt J G n with j := J n } : GF 3).stepB (yeeB3 P) (1 / 2 * dt)) v
    rw [e1, e2, run_j_succ]
    have hj : divE3 P (J n) v = -((rho (n + 1) v - rho n v) / dt) := by linarith [hcont n v]
    rw [hj]
    field_simp
    ring

/-- **C17, whole run (2D).** Periodic run on any patch grid; `J n` is the current deposited in step `n`
and `rho n` the charge density when its particles are pushed. If every step satisfies continuity,
`div E - rho/eps0` computed from the arrays of any patch at the push of step `n` (state `τ`) equals its
value at the first push. -/
theorem gauss_run2 {npx npy nx ny ng : Nat} (hng : 1 ≤ ng) (hngx : ng ≤ nx) (hngy : ng ≤ ny)
    {loc : List P2} (hmem : ∀ p, p ∈ loc ↔ p ∈ createPatches2 npx npy) (hnd : loc.Nodup)
    (P : Par 2) (dt : ℚ) (hdt : dt ≠ 0) {σ : Nat → Dom 2} {G : GF 2} {J : Nat → V3 2}
    {rho : Nat → (Fin 2 → Int) → ℚ}
    (hper : G.Per ![npx, npy] ![nx, ny]) (hJ : ∀ i, Periodic ![npx, npy] ![nx, ny] (J i))
    (hcont : ∀ n v, (rho (n + 1) v - rho n v) / dt + divE2 P (J n) v = 0) :
    let S := solver2 nx ny ng loc.length
      (neighborIpatch2 npx npy per per (createPatches2 npx npy) loc) P
    let g := place2 npx npy per per loc
    Rep S g (σ 0) G → (∀ i, StepWith S g dt (J i) (σ i) (σ (i + 1))) →
    ∀ n t v τ τ0, t < loc.length → Own ![nx, ny] v → S.Half1 dt (σ n) τ → S.Half1 dt (σ 0) τ0 →
      divE2 P (cellsOf ![nx, ny] ng (τ t).e) v - rho n (globalCell ![nx, ny] (g.coord t) v) / P.eps0 =
      divE2 P (cellsOf ![nx, ny] ng (τ0 t).e) v - rho 0 (globalCell ![nx, ny] (g.coord t) v) / P.eps0 := by
  intro S g hrep hstep n t v τ τ0 ht hv h1 h10
  have hs := guard2_shape (N := loc.length)
    (nbr := neighborIpatch2 npx npy per per (createPatches2 npx npy) loc) hngx hngy
  have hg : NbrGeo S.sync g off2 :=
    nbrGeo2 (bx := per) (by' := per) rfl rfl (grid_createPatches2 npx npy) (fun p hp => (hmem p).mp hp) hnd rfl rfl
  have hal : AllLocal S.sync g := allLocal2 rfl rfl (fun p hp => (hmem p).mpr hp) rfl
  have hmid : ∀ n τ, S.Half1 dt (σ n) τ → Rep S g τ (GF.mid (yeeE2 P) (yeeB2 P) dt J G n) := by
    rintro n τ ⟨ρ, a1, a2⟩
    obtain ⟨r, p⟩ := run_rep hs hg (guardTab2_eq nx ny ng) hal (kernel2 nx ny ng _ _ P)
      (localFE2 P) (localFB2 P) hng hper hrep dt hJ hstep n
    have r1 := stepE_sync hs hg (guardTab2_eq nx ny ng) hal (kernel2 nx ny ng _ _ P) (localFE2 P) hng p r _ a1
    exact stepB_sync hs hg (guardTab2_eq nx ny ng) hal (kernel2 nx ny ng _ _ P) (localFB2 P) hng
      (p.stepE (localFE2 P) _) r1 _ a2
  have e1 := divE2_shows P hng (hmid n τ h1) ht hv
  have e2 := divE2_shows P hng (hmid 0 τ0 h10) ht hv
  have := gauss_global2 P dt J rho G hdt hcont n (globalCell ![nx, ny] (g.coord t) v)
  exact (congrArg (· - _) e1).trans (this.trans (congrArg (· - _) e2.symm))

/-- **C17, whole run (3D).** -/
theorem gauss_run3 {npx npy npz nx ny nz ng : Nat} (hng : 1 ≤ ng) (hngx : ng ≤ nx) (hngy : ng ≤ ny)
    (hngz : ng ≤ nz) {loc : List P3} (hmem : ∀ p, p ∈ loc ↔ p ∈ createPatches3 npx npy npz)
    (hnd : loc.Nodup) (P : Par 3) (dt : ℚ) (hdt : dt ≠ 0) {σ : Nat → Dom 3} {G : GF 3} {J : Nat → V3 3}
    {rho : Nat → (Fin 3 → Int) → ℚ}
    (hper : G.Per ![npx, npy, npz] ![nx, ny, nz])
    (hJ : ∀ i, Periodic ![npx, npy, npz] ![nx, ny, nz] (J i))
    (hcont : ∀ n v, (rho (n + 1) v - rho n v) / dt + divE3 P (J n) v = 0) :
    let S := solver3 nx ny nz ng loc.length
      (neighborIpatch3 npx npy npz per per per (createPatches3 npx npy npz) loc) P
    let g := place3 npx npy npz per per per loc
    Rep S g (σ 0) G → (∀ i, StepWith S g dt (J i) (σ i) (σ (i + 1))) →
    ∀ n t v τ τ0, t < loc.length → Own ![nx, ny, nz] v → S.Half1 dt (σ n) τ → S.Half1 dt (σ 0) τ0 →
      divE3 P (cellsOf ![nx, ny, nz] ng (τ t).e) v
        - rho n (globalCell ![nx, ny, nz] (g.coord t) v) / P.eps0 =
      divE3 P (cellsOf ![nx, ny, nz] ng (τ0 t).e) v
        - rho 0 (globalCell ![nx, ny, nz] (g.coord t) v) / P.eps0 := by
  intro S g hrep hstep n t v τ τ0 ht hv h1 h10
  have hs := guard3_shape (N := loc.length)
    (nbr := neighborIpatch3 npx npy npz per per per (createPatches3 npx npy npz) loc) hngx hngy hngz
  have hg : NbrGeo S.sync g off3 :=
    nbrGeo3 (bx := per) (by' := per) (bz := per) rfl rfl rfl (grid_createPatches3 npx npy npz) (fun p hp => (hmem p).mp hp) hnd rfl rfl
  have hal : AllLocal S.sync g := allLocal3 rfl rfl rfl (fun p hp => (hmem p).mpr hp) rfl
  have hmid : ∀ n τ, S.Half1 dt (σ n) τ → Rep S g τ (GF.mid (yeeE3 P) (yeeB3 P) dt J G n) := by
    rintro n τ ⟨ρ, a1, a2⟩
    obtain ⟨r, p⟩ := run_rep hs hg (guardTab3_eq nx ny nz ng) hal (kernel3 nx ny nz ng _ _ P)
      (localFE3 P) (localFB3 P) hng hper hrep dt hJ hstep n
    have r1 := stepE_sync hs hg (guardTab3_eq nx ny nz ng) hal (kernel3 nx ny nz ng _ _ P) (localFE3 P)
      hng p r _ a1
    exact stepB_sync hs hg (guardTab3_eq nx ny nz ng) hal (kernel3 nx ny nz ng _ _ P) (localFB3 P) hng
      (p.stepE (localFE3 P) _) r1 _ a2
  have e1 := divE3_shows P hng (hmid n τ h1) ht hv
  have e2 := divE3_shows P hng (hmid 0 τ0 h10) ht hv
  have := gauss_global3 P dt J rho G hdt hcont n (globalCell ![nx, ny, nz] (g.coord t) v)
  exact (congrArg (· - _) e1).trans (this.trans (congrArg (· - _) e2.symm))

/-! ### the hypotheses can be met, for every global field and every sequence of currents -/

section Witness
variable {k : Nat} {D : Type} (S : Solver k D) (g : Place k)

/-- arrays that show a given global field -/
theorem shows_exists (G : V3 k) : ∃ A : Nat → Fin 3 → Arr k,
    Shows S.sync.n S.sync.ng S.sync.npatches g (InRange S.sync.n S.sync.ng) A G := by
  classical
  refine ⟨fun t d i => if h : ∃ v, InRange S.sync.n S.sync.ng v ∧ index S.sync.n S.sync.ng v = i
    then G d (globalCell S.sync.n (g.coord t) h.choose) else 0, fun t _ d v hv => ?_⟩
  have h : ∃ w, InRange S.sync.n S.sync.ng w ∧ index S.sync.n S.sync.ng w = index S.sync.n S.sync.ng v :=
    ⟨v, hv, rfl⟩
  dsimp only
  rw [dif_pos h, index_inj h.choose_spec.1 hv h.choose_spec.2]

theorem rep_exists (G : GF k) : ∃ σ, Rep S g σ G := by
  obtain ⟨A, hA⟩ := shows_exists S g G.e
  obtain ⟨B, hB⟩ := shows_exists S g G.b
  obtain ⟨C, hC⟩ := shows_exists S g G.j
  exact ⟨fun t => ⟨A t, B t, C t⟩, hA, hB, fun t ht d v hv => hC t ht d v (hv.inRange _)⟩

theorem syncE_exists (σ : Dom k) : ∃ σ', S.SyncE σ σ' :=
  let sched := (List.range S.sync.npatches).flatMap fun t => (S.sync.guardProg t).map fun f => (t, f)
  ⟨fun t => { σ t with e := fun c i => Interleave.run (sched.map Prod.snd) (fun l => (σ l.1).e c l.2) (t, i) },
    fun _ => ⟨_, Interleave.isSchedule_seq _ _, rfl⟩, fun _ => ⟨rfl, rfl⟩⟩

theorem syncB_exists (σ : Dom k) : ∃ σ', S.SyncB σ σ' :=
  let sched := (List.range S.sync.npatches).flatMap fun t => (S.sync.guardProg t).map fun f => (t, f)
  ⟨fun t => { σ t with b := fun c i => Interleave.run (sched.map Prod.snd) (fun l => (σ l.1).b c l.2) (t, i) },
    fun _ => ⟨_, Interleave.isSchedule_seq _ _, rfl⟩, fun _ => ⟨rfl, rfl⟩⟩

theorem stepWith_exists (dt : ℚ) (J : V3 k) (σ : Dom k) : ∃ σ', StepWith S g dt J σ σ' := by
  obtain ⟨σ1, h1⟩ := syncE_exists S (S.stepE (1 / 2 * dt) σ)
  obtain ⟨σ2, h2⟩ := syncB_exists S (S.stepB (1 / 2 * dt) σ1)
  obtain ⟨C, hC⟩ := shows_exists S g J
  let σ3 : Dom k := fun t => { σ2 t with j := C t }
  obtain ⟨σ4, h4⟩ := syncB_exists S (S.stepB (1 / 2 * dt) σ3)
  obtain ⟨σ5, h5⟩ := syncE_exists S (S.stepE (1 / 2 * dt) σ4)
  exact ⟨σ5, σ2, σ3, ⟨σ1, h1, h2⟩, fun _ => ⟨rfl, rfl⟩,
    fun t ht d v hv => hC t ht d v (hv.inRange _), σ4, h4, h5⟩

/-- from every global field and for every sequence of currents there is a run that starts with it -/
theorem run_exists (dt : ℚ) (J : Nat → V3 k) (G : GF k) : ∃ σ : Nat → Dom k,
    Rep S g (σ 0) G ∧ ∀ i, StepWith S g dt (J i) (σ i) (σ (i + 1)) := by
  classical
  obtain ⟨σ0, h0⟩ := rep_exists S g G
  let σ : Nat → Dom k := fun n => n.rec σ0 fun i s => (stepWith_exists S g dt (J i) s).choose
  exact ⟨σ, h0, fun i => (stepWith_exists S g dt (J i) (σ i)).choose_spec⟩
end Witness

/-- a field with period 6 × 4 that is not constant -/
def wave : V3 2 := fun d v => if d = 1 ∧ v 0 % 6 = 2 ∧ v 1 % 4 = 1 then 5 else 0

theorem wave_periodic : Periodic ![3, 2] ![2, 2] wave := by
  intro d v w h
  have h0 : v 0 % 6 = w 0 % 6 := h 0
  have h1 : v 1 % 4 = w 1 % 4 := h 1
  unfold wave
  rw [h0, h1]

/-- the hypotheses of `decomposition2`, `divB_run2` and `gauss_run2` together, on a 3 × 2 grid of
patches of 2 × 2 cells with guard width 2 and currents that change the charge density -/
example : ∃ (σ : Nat → Dom 2) (rho : Nat → (Fin 2 → Int) → ℚ),
    let P : Par 2 := ⟨![1, 1/2], 9, 1⟩
    let G : GF 2 := ⟨wave, wave, wave⟩
    let J : Nat → V3 2 := fun _ => wave
    let loc := createPatches2 3 2
    let S := solver2 2 2 2 loc.length (neighborIpatch2 3 2 per per (createPatches2 3 2) loc) P
    let g := place2 3 2 per per loc
    (∀ p, p ∈ loc ↔ p ∈ createPatches2 3 2) ∧ loc.Nodup ∧ G.Per ![3, 2] ![2, 2] ∧
    (∀ i, Periodic ![3, 2] ![2, 2] (J i)) ∧ Rep S g (σ 0) G ∧
    (∀ i, StepWith S g (1/10) (J i) (σ i) (σ (i + 1))) ∧
    (∀ n v, (rho (n + 1) v - rho n v) / (1/10) + divE2 P (J n) v = 0) ∧
    rho 1 ![2, 1] ≠ rho 0 ![2, 1] := by
  obtain ⟨σ, h⟩ := run_exists
    (solver2 2 2 2 (createPatches2 3 2).length
      (neighborIpatch2 3 2 per per (createPatches2 3 2) (createPatches2 3 2)) ⟨![1, 1/2], 9, 1⟩)
    (place2 3 2 per per (createPatches2 3 2)) (1/10) (fun _ => wave) ⟨wave, wave, wave⟩
  refine ⟨σ, fun n v => -(n : ℚ) * (1/10) * divE2 ⟨![1, 1/2], 9, 1⟩ wave v, ?_⟩
  refine ⟨fun _ => Iff.rfl, nodup_createPatches2 3 2, ⟨wave_periodic, wave_periodic, wave_periodic⟩,
    fun _ => wave_periodic, h.1, h.2, ?_, ?_⟩
  · intro n v
    push_cast
    ring
  · decide +kernel

end Verif.Maxwell
