import Verif.Proofs.Scale
import Verif.Props.Reverse
/-!
# C99 — simulations that differ only in scale are the same simulation

Specification vocabulary: `Scale`, its factors and `Scale.cloud` of `Verif/Spec/Scale.lean`, and `Scaled` below (two states
of the program); `Admissible`, `Starts`, `Inside` of C66.
-/
namespace Verif.Scale
open Verif.Maxwell Verif.SyncFields Verif.Pusher Verif.Deposit Verif.Shape Verif.WholeRun Verif.PicStep Verif.Symmetry Verif.Reverse

variable {k : Nat}

/-- Specification: the configuration in the other scale: the same patches and cells, with cell sizes and time step
multiplied by the factor of the lengths -/
def Scale.conf (S : Scale) (C : Conf k) : Conf k := { C with d := fun a => S.len * C.d a, dt := S.len * C.dt }

/-- Specification: state `x'` is state `x` in the other scale: E and B in every stored cell, the currents in the own cells,
and the particles, in any order and up to whole lengths of the domain -/
structure Scaled (S : Scale) (C : Conf k) (N : Nat) (x x' : St k) : Prop where
  e : ∀ t, t < N → ∀ f v, Stored C.n C.ng v → (x'.fld t).e f (index C.n C.ng v) = S.eb * (x.fld t).e f (index C.n C.ng v)
  b : ∀ t, t < N → ∀ f v, Stored C.n C.ng v → (x'.fld t).b f (index C.n C.ng v) = S.eb * (x.fld t).b f (index C.n C.ng v)
  j : ∀ t, t < N → ∀ f v, Stored C.n 0 v → (x'.fld t).j f (index C.n C.ng v) = S.j * (x.fld t).j f (index C.n C.ng v)
  species : SameCloud (fun i => S.len * (C.np i * C.n i * C.d i)) (cloudOf N x'.parts) (S.cloud (cloudOf N x.parts))

theorem forall₂_map' {α β : Type*} {R : α → α → Prop} {Q : β → β → Prop} {f : α → β} (h : ∀ a b, R a b → Q (f a) (f b)) {a b : List α}
    (hab : List.Forall₂ R a b) : List.Forall₂ Q (a.map f) (b.map f) := by
  induction hab with
  | nil => exact .nil
  | cons h1 _ ih => exact .cons (h _ _ h1) ih

theorem same_scaled (S : Scale) {L : Fin k → ℚ} {a b : List (Kind × List (Ptc k))} (h : SameCloud L a b) :
    SameCloud (fun i => S.len * L i) (S.cloud a) (S.cloud b) := by
  refine forall₂_map' (fun s s' hs => ⟨congrArg S.kind hs.1, ?_⟩) h
  obtain ⟨b', p, f⟩ := hs.2
  refine ⟨b'.map S.ptc, p.map _, forall₂_map' (fun p q hp => ⟨?_, fun i => ?_⟩) f⟩
  · show Mom.mk p.mom.ux p.mom.uy p.mom.uz p.mom.invGamma _ = Mom.mk q.mom.ux q.mom.uy q.mom.uz q.mom.invGamma _
    rw [hp.1]
  · obtain ⟨z, hz⟩ := hp.2 i
    refine ⟨z, ?_⟩
    show S.len * p.pos i = S.len * q.pos i + z * (S.len * L i)
    rw [hz]; ring

theorem lengths (S : Scale) (C : Conf k) : (fun i => ((S.conf C).np i : ℚ) * (S.conf C).n i * (S.conf C).d i)
    = fun i => S.len * (C.np i * C.n i * C.d i) := by
  funext i
  show (C.np i : ℚ) * C.n i * (S.len * C.d i) = _
  ring

/-- C99: a configuration the theorems of C66 speak about stays one in another scale -/
theorem scaled_admissible {S : Scale} (hS : S.Ok) {C : Conf k} {β : ℚ} (hC : Admissible C β) : Admissible (S.conf C) β where
  patches := hC.patches
  guard := hC.guard
  wide := hC.wide
  cell := fun a => mul_pos hS.len (hC.cell a)
  step := mul_ne_zero hS.len.ne' hC.step
  speed := hC.speed
  root := hC.root
  courant := fun a => by
    show lightSpeed * |S.len * C.dt| * β ≤ S.len * C.d a
    rw [abs_mul, abs_of_pos hS.len]
    have := mul_le_mul_of_nonneg_left (hC.courant a) hS.len.le
    calc _ = S.len * (lightSpeed * |C.dt| * β) := by ring
      _ ≤ _ := this

theorem starts_scaled {S : Scale} {C : Conf k} {N : Nat} {co : Nat → Fin k → Nat} {β : ℚ} {x x' : St k} {V : World k}
    (hV : Agrees C N co x V) (hr : Repeats C V.fld) (ht : Scaled S C N x x') (hi : Inside (S.conf C) N co β x') :
    Starts (S.conf C) N co β x' (S.world V) where
  agrees := ⟨fun t h f v hv => by
      have := ht.e t h f v hv
      rw [hV.e t h f v hv] at this
      exact this,
    fun t h f v hv => by
      have := ht.b t h f v hv
      rw [hV.b t h f v hv] at this
      exact this,
    fun t h f v hv => by
      have := ht.j t h f v hv
      rw [hV.j t h f v hv] at this
      exact this, by rw [lengths]; exact ht.species.trans (same_scaled S hV.species)⟩
  inside := hi
  period := fun v w h f => ⟨congrArg (S.eb * ·) (hr v w h f).1, congrArg (S.eb * ·) (hr v w h f).2.1, congrArg (S.j * ·) (hr v w h f).2.2⟩

theorem scaled_of {S : Scale} {C : Conf k} {N : Nat} {co : Nat → Fin k → Nat} {x x' : St k} {U : World k} (h : Agrees C N co x U)
    (h' : Agrees (S.conf C) N co x' (S.world U)) : Scaled S C N x x' where
  e t ht f v hv := by rw [h.e t ht f v hv]; exact h'.e t ht f v hv
  b t ht f v hv := by rw [h.b t ht f v hv]; exact h'.b t ht f v hv
  j t ht f v hv := by rw [h.j t ht f v hv]; exact h'.j t ht f v hv
  species := by
    have := h'.species
    rw [lengths] at this
    exact this.trans (same_scaled S h.species).symm

/-- C99: two 2D runs, on whatever ranks, schedules, orders and paths of the push, that begin with the same state in two
scales, show the same state in two scales after every number of steps: lengths and times multiplied by one factor, charges
by a second, masses by a third, E, B, the densities and the currents by the powers of these that the laws of motion and
Maxwell's equations ask for, and momenta not at all. -/
theorem scaled_run2 {S : Scale} (hS : S.Ok) {C : Conf 2} {β : ℚ} (hC : Admissible C β) {W : World 2} {rk rk' : Nat → Nat → Nat}
    {x x' : Nat → St 2} (h0 : Starts C (sys2 C).npatches C.coord2 β (x 0) W) (hrun : Run (sys2 C) rk x)
    (ht : Scaled S C (sys2 C).npatches (x 0) (x' 0)) (hi : Inside (S.conf C) (sys2 C).npatches C.coord2 β (x' 0))
    (hrun' : Run (sys2 (S.conf C)) rk' x') (i : Nat) : Scaled S C (sys2 C).npatches (x i) (x' i) := by
  have h' := (run_is_undivided2 (scaled_admissible hS hC) (starts_scaled h0.agrees h0.period ht hi) hrun' i).1
  have e : undividedRun2 (S.conf C) (S.world W) i = S.world (undividedRun2 C W i) :=
    (scales2 hS (cells_pos hC) hC.cell hC.step).run hS (phys_slow2 hC) W i
  rw [e] at h'
  exact scaled_of (run_is_undivided2 hC h0 hrun i).1 h'

/-- C99 in 3D, for species on the unified path. Missing for the full property: species on the split path, which the code
does not move in 3D (C24). -/
theorem scaled_run3_partial {S : Scale} (hS : S.Ok) {C : Conf 3} {β : ℚ} (hC : Admissible C β) {W : World 3} {rk rk' : Nat → Nat → Nat}
    {x x' : Nat → St 3} (h0 : Starts C (sys3 C).npatches C.coord3 β (x 0) W) (hu : ∀ a ∈ (x 0).parts, a.1.unified = true)
    (hrun : Run (sys3 C) rk x)
    (ht : Scaled S C (sys3 C).npatches (x 0) (x' 0)) (hi : Inside (S.conf C) (sys3 C).npatches C.coord3 β (x' 0))
    (hu' : ∀ a ∈ (x' 0).parts, a.1.unified = true)
    (hrun' : Run (sys3 (S.conf C)) rk' x') (i : Nat) : Scaled S C (sys3 C).npatches (x i) (x' i) := by
  have h' := (run_is_undivided3_partial (scaled_admissible hS hC) (starts_scaled h0.agrees h0.period ht hi) hu' hrun' i).1
  have e : undividedRun3 (S.conf C) (S.world W) i = S.world (undividedRun3 C W i) :=
    (scales3 hS (Reverse.cells_two hC) hC.cell hC.step).run hS (phys_slow3 hC) W i
  rw [e] at h'
  exact scaled_of (run_is_undivided3_partial hC h0 hu hrun i).1 h'

/-! ## cases that meet the hypotheses -/

/-- a coordinate in the other scale -/
def scaleF (l : ℚ) (v : Particles.F64) : Particles.F64 := match v with | .nan => .nan | .val a => .val (l * a)
/-- a slot in the other scale -/
def Scale.slot (S : Scale) (s : Slot k) : Slot k :=
  ⟨fun i => scaleF S.len (s.pos i), ⟨s.mom.ux, s.mom.uy, s.mom.uz, s.mom.invGamma, S.w k * s.mom.w⟩, s.eb, s.dead⟩
/-- a state put into the other scale in place -/
def Scale.state (S : Scale) (x : St k) : St k :=
  ⟨fun t => ⟨fun f i => S.eb * (x.fld t).e f i, fun f i => S.eb * (x.fld t).b f i, fun f i => S.j * (x.fld t).j f i⟩,
    x.parts.map fun a => (⟨S.kind a.1.toKind, a.1.unified⟩, fun t => (a.2 t).map S.slot)⟩

theorem nums_scale (l : ℚ) (pos : Fin k → Particles.F64) :
    nums (fun i => scaleF l (pos i)) = (nums pos).map fun v i => l * v i := by
  have h : (∀ i, scaleF l (pos i) ≠ .nan) ↔ ∀ i, pos i ≠ .nan := forall_congr' fun i => by
    cases pos i <;> simp [scaleF]
  unfold nums
  by_cases hp : ∀ i, pos i ≠ .nan
  · rw [if_pos hp, if_pos (h.mpr hp)]
    show some _ = some _
    congr 1
    funext i
    have := hp i
    dsimp only
    generalize pos i = a at this
    cases a with
    | nan => exact absurd rfl this
    | val a => rfl
  · rw [if_neg hp, if_neg (mt h.mp hp)]
    rfl

/-- C99: every state can be put into another scale, and its particles stay in their patches -/
theorem can_scale {S : Scale} (hS : S.Ok) {C : Conf k} {N : Nat} {co : Nat → Fin k → Nat} {β : ℚ} {x : St k} (h : Inside C N co β x) :
    Scaled S C N x (S.state x) ∧ Inside (S.conf C) N co β (S.state x) := by
  refine ⟨⟨fun _ _ _ _ _ => rfl, fun _ _ _ _ _ => rfl, fun _ _ _ _ _ => rfl, ?_⟩, ?_⟩
  · have : cloudOf N (S.state x).parts = S.cloud (cloudOf N x.parts) := by
      unfold cloudOf Scale.cloud Scale.state
      rw [List.map_map, List.map_map]
      refine List.map_congr_left fun a _ => ?_
      show (S.kind a.1.toKind, particles N fun t => (a.2 t).map S.slot) = (S.kind a.1.toKind, (particles N a.2).map S.ptc)
      unfold particles
      rw [List.map_flatMap]
      congr 2
      funext t
      rw [List.filterMap_map, List.map_filterMap]
      congr 1
      funext s
      show ptc (S.slot s) = (ptc s).map S.ptc
      unfold ptc Scale.slot
      dsimp only
      rw [nums_scale]
      split
      · rfl
      · cases nums s.pos <;> rfl
    rw [this]
    exact List.forall₂_same.mpr fun s _ => ⟨rfl, .of_perm (.refl _)⟩
  · intro a ha t ht s hs hd
    obtain ⟨a0, ha0, rfl⟩ := List.mem_map.mp ha
    obtain ⟨s0, hs0, rfl⟩ := List.mem_map.mp hs
    obtain ⟨v, h1, h2, h3⟩ := h a0 ha0 t ht s0 hs0 hd
    refine ⟨fun i => S.len * v i, ?_, fun i => ?_, fun i => ?_⟩
    · show nums (fun i => scaleF S.len (s0.pos i)) = _
      rw [nums_scale, h1]
      rfl
    · show (co t i : ℚ) * C.n i * (S.len * C.d i) - S.len * C.d i / 2 ≤ S.len * v i ∧
        S.len * v i ≤ co t i * C.n i * (S.len * C.d i) + C.n i * (S.len * C.d i) - S.len * C.d i / 2
      have a1 := mul_le_mul_of_nonneg_left (h2 i).1 hS.len.le
      have a2 := mul_le_mul_of_nonneg_left (h2 i).2 hS.len.le
      constructor
      · calc _ = S.len * (co t i * C.n i * C.d i - C.d i / 2) := by ring
          _ ≤ _ := a1
      · calc _ ≤ S.len * (co t i * C.n i * C.d i + C.n i * C.d i - C.d i / 2) := a2
          _ = _ := by ring
    · have : uAt (S.slot s0).mom i = uAt s0.mom i := by
        show uAt ⟨s0.mom.ux, s0.mom.uy, s0.mom.uz, s0.mom.invGamma, _⟩ i = _
        unfold uAt; split <;> rfl
      rw [this]
      exact h3 i

/-- a tenth of the lengths, with protons instead of electrons -/
def exScale : Scale := ⟨1 / 10, -1, 1836⟩
theorem exScale_ok : exScale.Ok := ⟨by norm_num [exScale], by norm_num [exScale], by norm_num [exScale]⟩

/-- 2D: a run of two patches on changing ranks with the split path, and the run of the same state in another scale on one
rank -/
example : ∃ (x x' : Nat → St 2) (W : World 2),
    Admissible (exConf 2 ![2, 1] ![4, 3]) 1 ∧
    Starts (exConf 2 ![2, 1] ![4, 3]) (sys2 (exConf 2 ![2, 1] ![4, 3])).npatches (exConf 2 ![2, 1] ![4, 3]).coord2 1 (x 0) W ∧
    Run (sys2 (exConf 2 ![2, 1] ![4, 3])) (fun i t => (i + t) % 2) x ∧
    Scaled exScale (exConf 2 ![2, 1] ![4, 3]) (sys2 (exConf 2 ![2, 1] ![4, 3])).npatches (x 0) (x' 0) ∧
    Inside (exScale.conf (exConf 2 ![2, 1] ![4, 3])) (sys2 (exConf 2 ![2, 1] ![4, 3])).npatches (exConf 2 ![2, 1] ![4, 3]).coord2 1 (x' 0) ∧
    Run (sys2 (exScale.conf (exConf 2 ![2, 1] ![4, 3]))) (fun _ _ => 0) x' := by
  have a1 : Admissible (exConf 2 ![2, 1] ![4, 3]) 1 :=
    exConf_ok (fun a => match a with | 0 => by decide | 1 => by decide) (fun a => match a with | 0 => by decide | 1 => by decide)
  have s1 := exStarts (np := ![2, 1]) (n := ![4, 3]) (N := (sys2 (exConf 2 ![2, 1] ![4, 3])).npatches)
    (co := (exConf 2 ![2, 1] ![4, 3]).coord2) (fun a => match a with | 0 => by decide | 1 => by decide) (by decide)
    (by funext a; match a with | 0 => rfl | 1 => rfl) false
  obtain ⟨x, e1, r1⟩ := runs2 a1 s1 (fun i t => (i + t) % 2)
  have s1' := e1 ▸ s1
  obtain ⟨t0, i0⟩ := can_scale exScale_ok s1'.inside
  obtain ⟨x', e2, r2⟩ := runs2 (scaled_admissible exScale_ok a1) (starts_scaled s1'.agrees s1'.period t0 i0) (fun _ _ => 0)
  exact ⟨x, x', _, a1, s1', r1, e2 ▸ t0, e2 ▸ i0, r2⟩

/-- 3D, on the unified path -/
example : ∃ x x' : Nat → St 3, Admissible (exConf 3 ![2, 1, 1] ![4, 3, 3]) 1 ∧
    Starts (exConf 3 ![2, 1, 1] ![4, 3, 3]) (sys3 (exConf 3 ![2, 1, 1] ![4, 3, 3])).npatches
      (exConf 3 ![2, 1, 1] ![4, 3, 3]).coord3 1 (x 0) (exWorld 3) ∧
    (∀ a ∈ (x 0).parts, a.1.unified = true) ∧
    Run (sys3 (exConf 3 ![2, 1, 1] ![4, 3, 3])) (fun _ t => t) x ∧
    Scaled exScale (exConf 3 ![2, 1, 1] ![4, 3, 3]) (sys3 (exConf 3 ![2, 1, 1] ![4, 3, 3])).npatches (x 0) (x' 0) ∧
    Inside (exScale.conf (exConf 3 ![2, 1, 1] ![4, 3, 3])) (sys3 (exConf 3 ![2, 1, 1] ![4, 3, 3])).npatches
      (exConf 3 ![2, 1, 1] ![4, 3, 3]).coord3 1 (x' 0) ∧
    (∀ a ∈ (x' 0).parts, a.1.unified = true) ∧
    Run (sys3 (exScale.conf (exConf 3 ![2, 1, 1] ![4, 3, 3]))) (fun _ t => t) x' := by
  have a1 : Admissible (exConf 3 ![2, 1, 1] ![4, 3, 3]) 1 :=
    exConf_ok (fun a => match a with | 0 => by decide | 1 => by decide | 2 => by decide)
      (fun a => match a with | 0 => by decide | 1 => by decide | 2 => by decide)
  have s1 := exStarts (np := ![2, 1, 1]) (n := ![4, 3, 3]) (N := (sys3 (exConf 3 ![2, 1, 1] ![4, 3, 3])).npatches)
    (co := (exConf 3 ![2, 1, 1] ![4, 3, 3]).coord3) (fun a => match a with | 0 => by decide | 1 => by decide | 2 => by decide)
    (by decide) (by funext a; match a with | 0 => rfl | 1 => rfl | 2 => rfl) true
  have hu : ∀ a ∈ (exState 3 true).parts, a.1.unified = true := by
    intro a ha
    rcases List.mem_singleton.mp ha with rfl
    rfl
  obtain ⟨x, e1, r1⟩ := runs3 a1 s1 hu (fun _ t => t)
  have s1' := e1 ▸ s1
  have hu1 : ∀ a ∈ (x 0).parts, a.1.unified = true := e1 ▸ hu
  obtain ⟨t0, i0⟩ := can_scale exScale_ok s1'.inside
  have ub : ∀ a ∈ (exScale.state (x 0)).parts, a.1.unified = true := by
    intro a ha
    obtain ⟨a0, ha0, rfl⟩ := List.mem_map.mp ha
    exact hu1 a0 ha0
  obtain ⟨x', e2, r2⟩ := runs3 (scaled_admissible exScale_ok a1) (starts_scaled s1'.agrees s1'.period t0 i0) ub (fun _ t => t)
  exact ⟨x, x', a1, s1', hu1, r1, e2 ▸ t0, e2 ▸ i0, e2 ▸ ub, r2⟩

end Verif.Scale
