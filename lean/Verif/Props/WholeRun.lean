import Verif.Proofs.WholeRun2
import Verif.Proofs.WholeRun3
/-!
# C66 — complete runs do not depend on patches, ranks, thread schedules, sorting and the path of the push

Specification vocabulary: `Verif/Spec/WholeRun.lean` (the undivided simulation `World.run`, the particles a state of the
program shows), and below (`Admissible`, `Agrees`, `Inside`, `Starts`).
-/
namespace Verif.WholeRun
open Verif.Maxwell Verif.SyncFields Verif.Pusher Verif.Deposit Verif.Geometry Verif.Neighbors Verif.MpiExchange
open Verif.PicStep (field zeroAcc)

/-- Specification: the limits of a configuration. `β` bounds the speeds the momentum update can compute, in units of the
speed of light (its `1/sqrt` may be inexact); with `β = 1` the last line is the Courant condition along each axis. -/
structure Admissible {k : Nat} (C : Conf k) (β : ℚ) : Prop where
  patches : ∀ a, 0 < C.np a
  guard : 3 ≤ C.ng
  wide : ∀ a, C.ng ≤ C.n a
  cell : ∀ a, 0 < C.d a
  step : C.dt ≠ 0
  speed : 0 ≤ β
  root : ∀ s, 1 ≤ s → C.rs s ^ 2 * s ≤ β ^ 2
  courant : ∀ a, lightSpeed * |C.dt| * β ≤ C.d a

/-- Specification: the cell of the undivided grid on which cell `v` of a patch at place `c` lies (guard cells have negative
numbers or numbers from `n` on) -/
def onGrid {k : Nat} (n c : Fin k → Nat) (v : Fin k → Int) : Fin k → Int := fun a => c a * n a + v a

/-- Specification: cell `v` is one of the stored cells of a patch, guard cells included -/
def Stored {k : Nat} (n : Fin k → Nat) (ng : Nat) (v : Fin k → Int) : Prop := ∀ a, -(ng : Int) ≤ v a ∧ v a < n a + ng

/-- Specification: the program shows the undivided simulation: every stored cell of `E` and `B` of every patch, and every
own cell of the currents, holds the value of the undivided grid there; every species has the same particles, up to their
order and whole lengths of the domain -/
structure Agrees {k : Nat} (C : Conf k) (N : Nat) (coord : Nat → Fin k → Nat) (x : St k) (W : World k) : Prop where
  e : ∀ t, t < N → ∀ f v, Stored C.n C.ng v → (x.fld t).e f (index C.n C.ng v) = W.fld.e f (onGrid C.n (coord t) v)
  b : ∀ t, t < N → ∀ f v, Stored C.n C.ng v → (x.fld t).b f (index C.n C.ng v) = W.fld.b f (onGrid C.n (coord t) v)
  j : ∀ t, t < N → ∀ f v, Stored C.n 0 v → (x.fld t).j f (index C.n C.ng v) = W.fld.j f (onGrid C.n (coord t) v)
  species : SameCloud (fun i => C.np i * C.n i * C.d i) (cloudOf N x.parts) W.cloud

/-- Specification: every living particle has coordinates, lies in the patch that stores it (cells are centred on the grid
points) and is not faster than `β` -/
def Inside {k : Nat} (C : Conf k) (N : Nat) (coord : Nat → Fin k → Nat) (β : ℚ) (x : St k) : Prop :=
  ∀ a ∈ x.parts, ∀ t, t < N → ∀ s ∈ a.2 t, s.dead = false → ∃ v, nums s.pos = some v ∧
    (∀ i, coord t i * C.n i * C.d i - C.d i / 2 ≤ v i ∧ v i ≤ coord t i * C.n i * C.d i + C.n i * C.d i - C.d i / 2) ∧
    ∀ i : Fin k, |s.mom.invGamma * uAt s.mom i| ≤ β

/-- Specification: the fields repeat after the length of the domain -/
def Repeats {k : Nat} (C : Conf k) (G : GF k) : Prop :=
  ∀ v w : Fin k → Int, (∀ a, v a ≡ w a [ZMOD (C.np a * C.n a : Int)]) →
    ∀ f, G.e f v = G.e f w ∧ G.b f v = G.b f w ∧ G.j f v = G.j f w

/-- Specification: a state and the undivided simulation it begins with -/
structure Starts {k : Nat} (C : Conf k) (N : Nat) (coord : Nat → Fin k → Nat) (β : ℚ) (x : St k) (W : World k) : Prop where
  agrees : Agrees C N coord x W
  inside : Inside C N coord β x
  period : Repeats C W.fld

section Gen
variable {k : Nat}

theorem Repeats.per {C : Conf k} {G : GF k} (h : Repeats C G) : G.Per C.np C.n :=
  ⟨fun f v w hv => (h v w hv f).1, fun f v w hv => (h v w hv f).2.1, fun f v w hv => (h v w hv f).2.2⟩

theorem stored_zero {n : Fin k → Nat} {v : Fin k → Int} : Stored n 0 v ↔ Own n v := by
  constructor
  · intro h a; have := h a; constructor <;> omega
  · intro h a; have := h a; constructor <;> omega

/-- what the general argument uses and what the properties say -/
theorem follows_iff {D A : Type} {Y : Sys k D A} {g : Place k} {C : Conf k} {UN : Species → Prop} {β : ℚ} {x : St k}
    {W : World k} (hn : Y.solver.sync.n = C.n) (hg : Y.solver.sync.ng = C.ng) (hN : Y.solver.sync.npatches = Y.npatches)
    (hp : g.np = C.np) : Follows Y g C.d UN β x W ↔
      Starts C Y.npatches g.coord β x W ∧ ∀ a ∈ x.parts, UN a.1 := by
  constructor
  · rintro ⟨⟨e, b, j⟩, p, c, gd, un⟩
    rw [hn, hg, hN] at e b
    rw [hn, hg, hN] at j
    rw [hn, hp] at c p
    rw [hn] at gd
    exact ⟨⟨⟨e, b, fun t ht f v hv => j t ht f v (stored_zero.mp hv), c⟩, gd,
      fun v w h f => ⟨p.e f v w h, p.b f v w h, p.j f v w h⟩⟩, un⟩
  · rintro ⟨⟨⟨e, b, j, c⟩, gd, p⟩, un⟩
    refine ⟨⟨?_, ?_, ?_⟩, ?_, ?_, ?_, un⟩
    · rw [hn, hg, hN]; exact e
    · rw [hn, hg, hN]; exact b
    · rw [hn, hg, hN]; exact fun t ht f v hv => j t ht f v (stored_zero.mpr hv)
    · rw [hn, hp]; exact p.per
    · rw [hn, hp]; exact c
    · rw [hn]; exact gd

theorem Admissible.bounds {C : Conf k} {β : ℚ} (h : Admissible C β) : Bounds C.n C.ng C.d C.rs C.dt β :=
  ⟨h.guard, fun i => le_trans (le_trans (by decide) h.guard) (h.wide i), h.cell, h.speed, h.root, h.courant⟩

/-- two states that show the same undivided simulation on different patches show the same -/
theorem agree_agree {C C' : Conf k} {N N' : Nat} {co co' : Nat → Fin k → Nat} {x x' : St k} {W : World k}
    (h : Agrees C N co x W) (h' : Agrees C' N' co' x' W) (hr : Repeats C W.fld)
    (hN : ∀ a, C.np a * C.n a = C'.np a * C'.n a) (hd : C'.d = C.d) :
    (∀ t, t < N → ∀ t', t' < N' → ∀ v v', Stored C.n C.ng v → Stored C'.n C'.ng v' →
      (∀ a, onGrid C.n (co t) v a ≡ onGrid C'.n (co' t') v' a [ZMOD (C.np a * C.n a : Int)]) → ∀ f,
      (x.fld t).e f (index C.n C.ng v) = (x'.fld t').e f (index C'.n C'.ng v') ∧
      (x.fld t).b f (index C.n C.ng v) = (x'.fld t').b f (index C'.n C'.ng v')) ∧
    SameCloud (fun i => C.np i * C.n i * C.d i) (cloudOf N x.parts) (cloudOf N' x'.parts) := by
  refine ⟨?_, ?_⟩
  · intro t ht t' ht' v v' hv hv' he f
    obtain ⟨r1, r2, _⟩ := hr _ _ he f
    exact ⟨by rw [h.e t ht f v hv, h'.e t' ht' f v' hv', r1], by rw [h.b t ht f v hv, h'.b t' ht' f v' hv', r2]⟩
  · have h2 := h'.species
    have : (fun i => (C'.np i * C'.n i * C'.d i : ℚ)) = fun i => C.np i * C.n i * C.d i := by
      funext i
      have := hN i
      rw [hd]
      rw [← Nat.cast_mul, ← Nat.cast_mul, this]
    rw [this] at h2
    exact h.species.trans h2.symm

/-- a run from any state that follows an undivided simulation -/
theorem run_exists {D A : Type} [DecidableEq D] {Y : Sys k D A} {Φ : Phys k} {g : Place k} {d : Fin k → ℚ}
    {UN : Species → Prop} {K : Species → (Fin k → ℚ) → Fields k → Kern k} (F : Facts Y Φ g d UN K) {β : ℚ}
    (B : Bounds Y.solver.sync.n Y.solver.sync.ng d Φ.rs Φ.dt β) {x0 : St k} {W : World k}
    (h : Follows Y g d UN β x0 W) (rk : Nat → Nat → Nat) : ∃ x, x 0 = x0 ∧ Run Y rk x := by
  have key : ∀ i (y : {y : St k // ∃ V, Follows Y g d UN β y V}),
      ∃ z : {y : St k // ∃ V, Follows Y g d UN β y V}, Step Y (rk i) (rk (i + 1)) y.1 z.1 := by
    rintro i ⟨y, V, hy⟩
    obtain ⟨z, hz⟩ := step_exists F B hy (rk i) (rk (i + 1))
    exact ⟨⟨z, _, step_follows F B hy hz⟩, hz⟩
  choose nx hnx using key
  exact ⟨fun i => (Nat.rec (motive := fun _ => {y : St k // ∃ V, Follows Y g d UN β y V}) ⟨x0, W, h⟩ (fun i y => nx i y) i).1,
    rfl, fun i => hnx i _⟩
end Gen

/-! ## two dimensions -/

/-- Specification: the undivided 2D simulation with the parameters of a configuration -/
noncomputable def undividedRun2 (C : Conf 2) (W : World 2) : Nat → World 2 :=
  World.run (phys2 (fun a => C.np a * C.n a) C.d C.c2 C.eps0 C.dt C.rs) W

theorem follows2 {C : Conf 2} {β : ℚ} {x : St 2} {W : World 2} :
    Follows (sys2 C) C.place2 C.d (fun _ => True) β x W ↔ Starts C (sys2 C).npatches C.coord2 β x W := by
  rw [follows_iff (Y := sys2 C) (C := C) (vec2 C.n) rfl rfl (vec2 C.np)]
  exact and_iff_left fun _ _ => trivial

theorem Admissible.facts2 {C : Conf 2} {β : ℚ} (h : Admissible C β) :
    Facts (sys2 C) C.phys2 C.place2 C.d (fun _ => True) C.kern2 :=
  WholeRun.facts2 C (le_trans (by decide) h.guard) h.wide h.cell h.step h.patches

theorem Admissible.bounds2 {C : Conf 2} {β : ℚ} (h : Admissible C β) :
    Bounds (sys2 C).solver.sync.n (sys2 C).solver.sync.ng C.d C.phys2.rs C.phys2.dt β := by
  have hb := h.bounds
  rw [← (vec2 C.n : (sys2 C).solver.sync.n = C.n)] at hb
  exact hb

/-- C66: in every run of the 2D program, on any patches, any rank layout that may change in every step, with any
schedule of the exchanges, any order the sorters leave and either path of the push for each species, every state shows
the undivided simulation after the same number of steps, and every particle is stored by the patch it lies in. -/
theorem run_is_undivided2 {C : Conf 2} {β : ℚ} (hC : Admissible C β) {W : World 2} {rk : Nat → Nat → Nat}
    {x : Nat → St 2} (h0 : Starts C (sys2 C).npatches C.coord2 β (x 0) W) (hrun : Run (sys2 C) rk x) (i : Nat) :
    Agrees C (sys2 C).npatches C.coord2 (x i) (undividedRun2 C W i) ∧ Inside C (sys2 C).npatches C.coord2 β (x i) := by
  have h := follows2.mp (run_follows hC.facts2 hC.bounds2 (follows2.mpr h0) hrun i)
  exact ⟨h.agrees, h.inside⟩

/-- C66: two runs of the 2D program that begin with the same fields and particles, with different patches, guard cells,
rank layouts, schedules, orders and paths of the push, agree after every number of steps: cells on the same place of the
domain hold the same fields, and the particles are the same up to order and whole lengths of the domain. -/
theorem decomposition_independent2 {C C' : Conf 2} {β : ℚ} (hC : Admissible C β) (hC' : Admissible C' β)
    (hN : ∀ a, C.np a * C.n a = C'.np a * C'.n a) (hd : C'.d = C.d) (hc : C'.c2 = C.c2) (he : C'.eps0 = C.eps0)
    (ht : C'.dt = C.dt) (hs : C'.rs = C.rs) {W : World 2} {rk rk' : Nat → Nat → Nat} {x x' : Nat → St 2}
    (h0 : Starts C (sys2 C).npatches C.coord2 β (x 0) W) (h0' : Starts C' (sys2 C').npatches C'.coord2 β (x' 0) W)
    (hrun : Run (sys2 C) rk x) (hrun' : Run (sys2 C') rk' x') (i : Nat) :
    (∀ t, t < (sys2 C).npatches → ∀ t', t' < (sys2 C').npatches → ∀ v v', Stored C.n C.ng v → Stored C'.n C'.ng v' →
      (∀ a, onGrid C.n (C.coord2 t) v a ≡ onGrid C'.n (C'.coord2 t') v' a [ZMOD (C.np a * C.n a : Int)]) → ∀ f,
      ((x i).fld t).e f (index C.n C.ng v) = ((x' i).fld t').e f (index C'.n C'.ng v') ∧
      ((x i).fld t).b f (index C.n C.ng v) = ((x' i).fld t').b f (index C'.n C'.ng v')) ∧
    SameCloud (fun a => C.np a * C.n a * C.d a) (cloudOf (sys2 C).npatches (x i).parts)
      (cloudOf (sys2 C').npatches (x' i).parts) := by
  have h := follows2.mp (run_follows hC.facts2 hC.bounds2 (follows2.mpr h0) hrun i)
  have h' := (run_is_undivided2 hC' h0' hrun' i).1
  have e : undividedRun2 C' W i = undividedRun2 C W i := by
    unfold undividedRun2
    rw [hd, hc, he, ht, hs]
    have : (fun a => C'.np a * C'.n a) = fun a => C.np a * C.n a := funext fun a => (hN a).symm
    rw [this]
  rw [e] at h'
  exact agree_agree h.agrees h' h.period hN hd

/-- C66: no run of the 2D program gets stuck: from every state it reaches there is a next one, whatever ranks the balancer
chooses; and whatever the schedules, the sorters and the orders of the particle exchange, no particle index leaves its
array and no particle is lost between ranks. -/
theorem run_continues2 {C : Conf 2} {β : ℚ} (hC : Admissible C β) {W : World 2} {rk : Nat → Nat → Nat}
    {x : Nat → St 2} (h0 : Starts C (sys2 C).npatches C.coord2 β (x 0) W) (hrun : Run (sys2 C) rk x) (i : Nat) :
    (∀ r r', ∃ y, Step (sys2 C) r r' (x i) y) ∧
    ∀ r σ1 σ2 parts1, GuardE (sys2 C) r ((sys2 C).solver.stepE (1 / 2 * C.dt) (x i).fld) σ1 →
      GuardB (sys2 C) r ((sys2 C).solver.stepB (1 / 2 * C.dt) σ1) σ2 → Sorted (x i).parts parts1 →
      ∀ a ∈ (speciesLoop (sys2 C) σ2 parts1 fun _ => zeroAcc).1, ∀ ord2 ord3 blank,
        ord2.Perm (List.range (sys2 C).npatches) → ord3.Perm (List.range (sys2 C).npatches) →
        parSync ((sys2 C).geo blank) r ord2 ord3 (fun t => (a.2 t).map (sys2 C).pack) ≠ none := by
  have h := run_follows hC.facts2 hC.bounds2 (follows2.mpr h0) hrun i
  refine ⟨fun r r' => step_exists hC.facts2 hC.bounds2 h r r', ?_⟩
  intro r σ1 σ2 parts1 a1 a2 a3 a ha o2 o3 bl p2 p3
  obtain ⟨s', hs⟩ := exchange_defined hC.facts2 hC.bounds2 h a1 a2 a3 a ha o2 o3 bl p2 p3
  rw [hs]
  simp

/-- there are runs from every such state, for every sequence of rank layouts -/
theorem runs2 {C : Conf 2} {β : ℚ} (hC : Admissible C β) {x0 : St 2} {W : World 2}
    (h0 : Starts C (sys2 C).npatches C.coord2 β x0 W) (rk : Nat → Nat → Nat) : ∃ x, x 0 = x0 ∧ Run (sys2 C) rk x :=
  run_exists hC.facts2 hC.bounds2 (follows2.mpr h0) rk

/-! ## three dimensions

In 3D the code's split path does not move particles (`Verif.PusherProps.split3_frozen`,
`Verif.PusherProps.callback_does_not_change_push3_fails`), so the properties hold for species on the unified path. -/

/-- Specification: the undivided 3D simulation with the parameters of a configuration -/
noncomputable def undividedRun3 (C : Conf 3) (W : World 3) : Nat → World 3 :=
  World.run (phys3 (fun a => C.np a * C.n a) C.d C.c2 C.eps0 C.dt C.rs) W

theorem follows3 {C : Conf 3} {β : ℚ} {x : St 3} {W : World 3} :
    Follows (sys3 C) C.place3 C.d (fun sp => sp.unified = true) β x W ↔
      Starts C (sys3 C).npatches C.coord3 β x W ∧ ∀ a ∈ x.parts, a.1.unified = true :=
  follows_iff (Y := sys3 C) (C := C) (vec3 C.n) rfl rfl (vec3 C.np)

theorem Admissible.facts3 {C : Conf 3} {β : ℚ} (h : Admissible C β) :
    Facts (sys3 C) C.phys3 C.place3 C.d (fun sp => sp.unified = true) C.kern3 :=
  WholeRun.facts3 C (le_trans (by decide) h.guard) h.wide h.cell h.step h.patches

theorem Admissible.bounds3 {C : Conf 3} {β : ℚ} (h : Admissible C β) :
    Bounds (sys3 C).solver.sync.n (sys3 C).solver.sync.ng C.d C.phys3.rs C.phys3.dt β := by
  have hb := h.bounds
  rw [← (vec3 C.n : (sys3 C).solver.sync.n = C.n)] at hb
  exact hb

/-- C66 in 3D, for species on the unified path. Missing for the full property: species on the split path, which the code
does not move in 3D. -/
theorem run_is_undivided3_partial {C : Conf 3} {β : ℚ} (hC : Admissible C β) {W : World 3} {rk : Nat → Nat → Nat}
    {x : Nat → St 3} (h0 : Starts C (sys3 C).npatches C.coord3 β (x 0) W) (hu : ∀ a ∈ (x 0).parts, a.1.unified = true)
    (hrun : Run (sys3 C) rk x) (i : Nat) :
    Agrees C (sys3 C).npatches C.coord3 (x i) (undividedRun3 C W i) ∧ Inside C (sys3 C).npatches C.coord3 β (x i) := by
  have h := (follows3.mp (run_follows hC.facts3 hC.bounds3 (follows3.mpr ⟨h0, hu⟩) hrun i)).1
  exact ⟨h.agrees, h.inside⟩

/-- C66 in 3D, for species on the unified path: two runs with different patches, guard cells, rank layouts, schedules and
orders agree after every number of steps. Missing for the full property: species on the split path. -/
theorem decomposition_independent3_partial {C C' : Conf 3} {β : ℚ} (hC : Admissible C β) (hC' : Admissible C' β)
    (hN : ∀ a, C.np a * C.n a = C'.np a * C'.n a) (hd : C'.d = C.d) (hc : C'.c2 = C.c2) (he : C'.eps0 = C.eps0)
    (ht : C'.dt = C.dt) (hs : C'.rs = C.rs) {W : World 3} {rk rk' : Nat → Nat → Nat} {x x' : Nat → St 3}
    (h0 : Starts C (sys3 C).npatches C.coord3 β (x 0) W) (h0' : Starts C' (sys3 C').npatches C'.coord3 β (x' 0) W)
    (hu : ∀ a ∈ (x 0).parts, a.1.unified = true) (hu' : ∀ a ∈ (x' 0).parts, a.1.unified = true)
    (hrun : Run (sys3 C) rk x) (hrun' : Run (sys3 C') rk' x') (i : Nat) :
    (∀ t, t < (sys3 C).npatches → ∀ t', t' < (sys3 C').npatches → ∀ v v', Stored C.n C.ng v → Stored C'.n C'.ng v' →
      (∀ a, onGrid C.n (C.coord3 t) v a ≡ onGrid C'.n (C'.coord3 t') v' a [ZMOD (C.np a * C.n a : Int)]) → ∀ f,
      ((x i).fld t).e f (index C.n C.ng v) = ((x' i).fld t').e f (index C'.n C'.ng v') ∧
      ((x i).fld t).b f (index C.n C.ng v) = ((x' i).fld t').b f (index C'.n C'.ng v')) ∧
    SameCloud (fun a => C.np a * C.n a * C.d a) (cloudOf (sys3 C).npatches (x i).parts)
      (cloudOf (sys3 C').npatches (x' i).parts) := by
  have h := (follows3.mp (run_follows hC.facts3 hC.bounds3 (follows3.mpr ⟨h0, hu⟩) hrun i)).1
  have h' := (run_is_undivided3_partial hC' h0' hu' hrun' i).1
  have e : undividedRun3 C' W i = undividedRun3 C W i := by
    unfold undividedRun3
    rw [hd, hc, he, ht, hs]
    have : (fun a => C'.np a * C'.n a) = fun a => C.np a * C.n a := funext fun a => (hN a).symm
    rw [this]
  rw [e] at h'
  exact agree_agree h.agrees h' h.period hN hd

/-- C66 in 3D, for species on the unified path: no run gets stuck. Missing for the full property: species on the split
path. -/
theorem run_continues3_partial {C : Conf 3} {β : ℚ} (hC : Admissible C β) {W : World 3} {rk : Nat → Nat → Nat}
    {x : Nat → St 3} (h0 : Starts C (sys3 C).npatches C.coord3 β (x 0) W) (hu : ∀ a ∈ (x 0).parts, a.1.unified = true)
    (hrun : Run (sys3 C) rk x) (i : Nat) :
    (∀ r r', ∃ y, Step (sys3 C) r r' (x i) y) ∧
    ∀ r σ1 σ2 parts1, GuardE (sys3 C) r ((sys3 C).solver.stepE (1 / 2 * C.dt) (x i).fld) σ1 →
      GuardB (sys3 C) r ((sys3 C).solver.stepB (1 / 2 * C.dt) σ1) σ2 → Sorted (x i).parts parts1 →
      ∀ a ∈ (speciesLoop (sys3 C) σ2 parts1 fun _ => zeroAcc).1, ∀ ord2 ord3 blank,
        ord2.Perm (List.range (sys3 C).npatches) → ord3.Perm (List.range (sys3 C).npatches) →
        parSync ((sys3 C).geo blank) r ord2 ord3 (fun t => (a.2 t).map (sys3 C).pack) ≠ none := by
  have h := run_follows hC.facts3 hC.bounds3 (follows3.mpr ⟨h0, hu⟩) hrun i
  refine ⟨fun r r' => step_exists hC.facts3 hC.bounds3 h r r', ?_⟩
  intro r σ1 σ2 parts1 a1 a2 a3 a ha o2 o3 bl p2 p3
  obtain ⟨s', hs⟩ := exchange_defined hC.facts3 hC.bounds3 h a1 a2 a3 a ha o2 o3 bl p2 p3
  rw [hs]
  simp

/-- there are runs from every such state, for every sequence of rank layouts -/
theorem runs3 {C : Conf 3} {β : ℚ} (hC : Admissible C β) {x0 : St 3} {W : World 3}
    (h0 : Starts C (sys3 C).npatches C.coord3 β x0 W) (hu : ∀ a ∈ x0.parts, a.1.unified = true) (rk : Nat → Nat → Nat) :
    ∃ x, x 0 = x0 ∧ Run (sys3 C) rk x :=
  run_exists hC.facts3 hC.bounds3 (follows3.mpr ⟨h0, hu⟩) rk

/-! ## cases that meet the hypotheses -/

/-- `k` axes: two patches along the first axis, or none but one twice as long; an electron at cell (1, 1, …) that moves in
a field along `y`; `1/sqrt(s)` replaced by `1/s` -/
def exConf (k : Nat) (np n : Fin k → Nat) : Conf k := ⟨np, n, 3, fun _ => 1, lightSpeed ^ 2, 1, 1 / (2 * lightSpeed), fun s => 1 / s⟩

theorem exConf_ok {k : Nat} {np n : Fin k → Nat} (hp : ∀ a, 0 < np a) (hn : ∀ a, 3 ≤ n a) : Admissible (exConf k np n) 1 where
  patches := hp
  guard := le_refl _
  wide := hn
  cell := fun _ => one_pos
  step := by show (1 / (2 * lightSpeed) : ℚ) ≠ 0; unfold lightSpeed; norm_num
  speed := by norm_num
  root := by
    intro s hs
    show (1 / s) ^ 2 * s ≤ 1 ^ 2
    have h0 : 0 < s := by linarith
    have : (1 / s) ^ 2 * s = 1 / s := by field_simp
    rw [this, one_pow]
    exact (div_le_one h0).mpr hs
  courant := by
    intro a
    show lightSpeed * |1 / (2 * lightSpeed)| * 1 ≤ 1
    unfold lightSpeed
    rw [abs_of_pos (by norm_num)]
    norm_num

def exMom : Mom := ⟨3/4, 0, 0, 4/5, 1⟩
def exWorld (k : Nat) (q : ℚ := -1) : World k :=
  ⟨⟨fun f _ => if f = 1 then 5 else 0, fun _ _ => 0, fun _ _ => 0⟩, [(⟨q, 1⟩, [⟨fun _ => 1, exMom⟩])]⟩
def exState (k : Nat) (un : Bool) (q : ℚ := -1) : St k :=
  ⟨fun _ => ⟨fun f _ => if f = 1 then 5 else 0, fun _ _ => 0, fun _ _ => 0⟩,
   [(⟨⟨q, 1⟩, un⟩, fun t => if t = 0 then [⟨fun _ => .nan, exMom, ⟨0, 0, 0, 0, 0, 0⟩, true⟩, ⟨fun _ => .val 1, exMom, ⟨0, 0, 0, 0, 0, 0⟩, false⟩] else [])]⟩

theorem exNums (k : Nat) : nums (fun _ : Fin k => Particles.F64.val 1) = some fun _ => 1 := by
  unfold nums
  rw [if_pos (fun _ => by simp)]

theorem exSpecies {k N : Nat} (hN : 0 < N) (L : Fin k → ℚ) (un : Bool) (q : ℚ := -1) :
    SameCloud L (cloudOf N (exState k un q).parts) (exWorld k q).cloud := by
  refine .cons ⟨rfl, ?_⟩ .nil
  apply SameParticles.of_perm
  show (particles N fun t => if t = 0 then _ else []).Perm _
  obtain ⟨M, rfl⟩ : ∃ M, N = M + 1 := ⟨N - 1, by omega⟩
  unfold particles
  rw [List.range_succ_eq_map, List.flatMap_cons, List.flatMap_map]
  have : (List.range M).flatMap (fun t => List.filterMap ptc (if t.succ = 0 then
      [(⟨fun _ => .nan, exMom, ⟨0, 0, 0, 0, 0, 0⟩, true⟩ : Slot k), ⟨fun _ => .val 1, exMom, ⟨0, 0, 0, 0, 0, 0⟩, false⟩] else []))
      = [] := by
    rw [List.flatMap_eq_nil_iff]
    intro t _
    rw [if_neg (Nat.succ_ne_zero t)]
    rfl
  dsimp only
  rw [this, if_pos rfl, List.append_nil, List.filterMap_cons_none rfl,
    List.filterMap_cons_some (b := ⟨fun _ => 1, exMom⟩) (by unfold ptc; rw [exNums]; rfl)]
  exact .refl _

theorem exStarts {k : Nat} {np n : Fin k → Nat} {N : Nat} {co : Nat → Fin k → Nat} (hn : ∀ a, 3 ≤ n a) (hN : 0 < N)
    (hc : co 0 = fun _ => 0) (un : Bool) (q : ℚ := -1) : Starts (exConf k np n) N co 1 (exState k un q) (exWorld k q) where
  agrees := ⟨fun _ _ _ _ _ => rfl, fun _ _ _ _ _ => rfl, fun _ _ _ _ _ => rfl, exSpecies hN _ un q⟩
  inside := by
    intro a ha t ht s hs hd
    rcases List.mem_singleton.mp ha with rfl
    dsimp only at hs
    split at hs
    · rename_i h0
      subst h0
      rcases List.mem_cons.mp hs with rfl | hs
      · cases hd
      · rcases List.mem_singleton.mp hs with rfl
        refine ⟨_, exNums k, ?_, ?_⟩
        · intro i
          rw [hc]
          show ((0 : Nat) : ℚ) * n i * 1 - 1 / 2 ≤ 1 ∧ (1 : ℚ) ≤ ((0 : Nat) : ℚ) * n i * 1 + n i * 1 - 1 / 2
          have : (3 : ℚ) ≤ n i := by exact_mod_cast hn i
          constructor
          · norm_num
          · push_cast; linarith
        · intro i
          show |(4 / 5 : ℚ) * uAt exMom i| ≤ 1
          have : ∀ j : Nat, |(4 / 5 : ℚ) * uAt exMom j| ≤ 1 := by
            intro j
            match j with
            | 0 =>
              have : (4 / 5 : ℚ) * uAt exMom 0 = 3 / 5 := by norm_num [uAt, exMom]
              rw [this, abs_of_pos (by norm_num)]; norm_num
            | 1 => norm_num [uAt, exMom]
            | (j + 2) =>
              have : (4 / 5 : ℚ) * uAt exMom (j + 2) = 0 := by show (4 / 5 : ℚ) * 0 = 0; norm_num
              rw [this]; norm_num
          exact this i
    · cases hs
  period := fun _ _ _ _ => ⟨rfl, rfl, rfl⟩

/-- 2D: a run on two patches that change their rank in every step, with the split path, and a run on one patch with the
unified path, from the same world, meet the hypotheses -/
example : ∃ x x' : Nat → St 2,
    Admissible (exConf 2 ![2, 1] ![4, 3]) 1 ∧ Admissible (exConf 2 ![1, 1] ![8, 3]) 1 ∧
    (∀ a, (![2, 1] : Fin 2 → Nat) a * (![4, 3] : Fin 2 → Nat) a = (![1, 1] : Fin 2 → Nat) a * (![8, 3] : Fin 2 → Nat) a) ∧
    Starts (exConf 2 ![2, 1] ![4, 3]) (sys2 (exConf 2 ![2, 1] ![4, 3])).npatches (exConf 2 ![2, 1] ![4, 3]).coord2 1 (x 0) (exWorld 2) ∧
    Starts (exConf 2 ![1, 1] ![8, 3]) (sys2 (exConf 2 ![1, 1] ![8, 3])).npatches (exConf 2 ![1, 1] ![8, 3]).coord2 1 (x' 0) (exWorld 2) ∧
    Run (sys2 (exConf 2 ![2, 1] ![4, 3])) (fun i t => (i + t) % 2) x ∧
    Run (sys2 (exConf 2 ![1, 1] ![8, 3])) (fun _ _ => 0) x' := by
  have a1 : Admissible (exConf 2 ![2, 1] ![4, 3]) 1 :=
    exConf_ok (fun a => match a with | 0 => by decide | 1 => by decide) (fun a => match a with | 0 => by decide | 1 => by decide)
  have a2 : Admissible (exConf 2 ![1, 1] ![8, 3]) 1 :=
    exConf_ok (fun a => match a with | 0 => by decide | 1 => by decide) (fun a => match a with | 0 => by decide | 1 => by decide)
  have s1 := exStarts (np := ![2, 1]) (n := ![4, 3]) (N := (sys2 (exConf 2 ![2, 1] ![4, 3])).npatches)
    (co := (exConf 2 ![2, 1] ![4, 3]).coord2) (fun a => match a with | 0 => by decide | 1 => by decide) (by decide)
    (by funext a; match a with | 0 => rfl | 1 => rfl) false
  have s2 := exStarts (np := ![1, 1]) (n := ![8, 3]) (N := (sys2 (exConf 2 ![1, 1] ![8, 3])).npatches)
    (co := (exConf 2 ![1, 1] ![8, 3]).coord2) (fun a => match a with | 0 => by decide | 1 => by decide) (by decide)
    (by funext a; match a with | 0 => rfl | 1 => rfl) true
  obtain ⟨x, e1, r1⟩ := runs2 a1 s1 (fun i t => (i + t) % 2)
  obtain ⟨x', e2, r2⟩ := runs2 a2 s2 (fun _ _ => 0)
  exact ⟨x, x', a1, a2, fun a => match a with | 0 => rfl | 1 => rfl, e1 ▸ s1, e2 ▸ s2, r1, r2⟩

/-- 3D: the same with two patches on two ranks, on the unified path -/
example : ∃ x : Nat → St 3, Admissible (exConf 3 ![2, 1, 1] ![4, 3, 3]) 1 ∧
    Starts (exConf 3 ![2, 1, 1] ![4, 3, 3]) (sys3 (exConf 3 ![2, 1, 1] ![4, 3, 3])).npatches
      (exConf 3 ![2, 1, 1] ![4, 3, 3]).coord3 1 (x 0) (exWorld 3) ∧
    (∀ a ∈ (x 0).parts, a.1.unified = true) ∧
    Run (sys3 (exConf 3 ![2, 1, 1] ![4, 3, 3])) (fun _ t => t) x := by
  have a1 : Admissible (exConf 3 ![2, 1, 1] ![4, 3, 3]) 1 :=
    exConf_ok (fun a => match a with | 0 => by decide | 1 => by decide | 2 => by decide)
      (fun a => match a with | 0 => by decide | 1 => by decide | 2 => by decide)
  have s1 := exStarts (np := ![2, 1, 1]) (n := ![4, 3, 3]) (N := (sys3 (exConf 3 ![2, 1, 1] ![4, 3, 3])).npatches)
    (co := (exConf 3 ![2, 1, 1] ![4, 3, 3]).coord3) (fun a => match a with | 0 => by decide | 1 => by decide | 2 => by decide)
    (by decide) (by funext a; match a with | 0 => rfl | 1 => rfl | 2 => rfl) true
  have hu : ∀ a ∈ (exState 3 true).parts, a.1.unified = true := by
    intro a ha
    rcases List.mem_singleton.mp ha with rfl
    rfl
  obtain ⟨x, e1, r1⟩ := runs3 a1 s1 hu (fun _ t => t)
  exact ⟨x, a1, e1 ▸ s1, e1 ▸ hu, r1⟩

end Verif.WholeRun
