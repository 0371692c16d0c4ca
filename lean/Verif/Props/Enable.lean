import Verif.Proofs.Enable
import Verif.Props.Kicks
/-!
# C90 — enabling and disabling species and the parts of the push

Specification vocabulary: `Verif/Spec/Enable.lean` (the undivided simulation with some species enabled), that of C66 and
C68, and `setting` below.
-/
namespace Verif.Enable
open Verif.Maxwell Verif.SyncFields Verif.Pusher Verif.Deposit Verif.Geometry Verif.Neighbors Verif.WholeRun Verif.PicSpec
open Verif.PicStep (field zeroAcc)

/-! ## the flag -/

/-- Specification: what a call sets -/
def setting : Call → Option Bool
  | .enable => some true
  | .disable => some false
  | .isEnabled => none

/-- **C90.** After any history of calls, `is_enabled` answers with what the last `enable` or `disable` set, and `True` if
there was none. -/
theorem flag_is_last_call (hist : List Call) :
    (isEnabled (hist.foldl call none)).1 = ((hist.filterMap setting).getLast?).getD true := by
  induction hist using List.reverseRecOn with
  | nil => rfl
  | append_singleton l c ih =>
    rw [List.foldl_append, List.filterMap_append]
    cases c with
    | enable => simp [call, isEnabled, setting]
    | disable => simp [call, isEnabled, setting]
    | isEnabled => simpa [call, isEnabled, setting] using ih

example : (isEnabled ([.isEnabled, .disable, .isEnabled].foldl call none)).1 = false := by decide

/-! ## runs -/

theorem loopOn_true {k : Nat} {D A : Type} (Y : Sys k D A) (σ : Dom k) (parts : List (Species × (Nat → List (Slot k))))
    (acc : Nat → Acc k) : speciesLoopOn Y σ (fun _ => true) parts acc = speciesLoop Y σ parts acc := by
  induction parts generalizing acc with
  | nil => rfl
  | cons a rest ih =>
    unfold speciesLoopOn speciesLoop
    simp only [if_true, ih]

/-- **C90.** With all species enabled, runs are those of C66. -/
theorem all_enabled {k : Nat} {D A : Type} [DecidableEq D] (Y : Sys k D A) (rk : Nat → Nat → Nat) (x : Nat → St k) :
    FlagRun Y (fun _ _ => true) rk x ↔ Run Y rk x := by
  unfold FlagRun Run FlagStep Step
  simp only [loopOn_true]

theorem runOn_succ {k : Nat} (Φ : Phys k) (on : Nat → Nat → Bool) (W : World k) (i : Nat) :
    W.runOn Φ on (i + 1) = (W.runOn Φ on i).stepOn Φ (on i) := rfl

theorem mapOn_off {α : Type*} {f : α → α} {on : Nat → Bool} {l : List α} {s : Nat} (h : on s = false) :
    (mapOn f on l)[s]? = l[s]? := by
  induction l generalizing on s with
  | nil => rfl
  | cons a l ih =>
    cases s with
    | zero => simp [mapOn, h]
    | succ s => simpa [mapOn] using ih (on := fun i => on (i + 1)) h

/-- species that are disabled all the time might as well not exist -/
theorem runOn_absent {k : Nat} (Φ : Phys k) (on : Nat → Bool) (W : World k) (i : Nat) :
    (W.runOn Φ (fun _ => on) i).fld = (World.run Φ ⟨W.fld, chosen on W.cloud⟩ i).fld ∧
    chosen on (W.runOn Φ (fun _ => on) i).cloud = (World.run Φ ⟨W.fld, chosen on W.cloud⟩ i).cloud := by
  induction i with
  | zero => exact ⟨rfl, rfl⟩
  | succ i ih =>
    rw [runOn_succ]
    show _ = (World.step Φ (World.run Φ _ i)).fld ∧ _ = (World.step Φ (World.run Φ _ i)).cloud
    unfold World.stepOn World.step
    dsimp only
    rw [chosen_mapOn, ih.1, ih.2]
    exact ⟨rfl, rfl⟩

/-- additive quantities of a step with flags -/
theorem mapOn_add {α : Type*} (D : List α → ℚ) (D1 : α → ℚ) (h0 : D [] = 0) (hD : ∀ a l, D (a :: l) = D1 a + D l)
    (f : α → α) (on : Nat → Bool) (l : List α) :
    D (mapOn f on l) - D l = D ((chosen on l).map f) - D (chosen on l) := by
  induction l generalizing on with
  | nil => rfl
  | cons a l ih =>
    have := ih (fun i => on (i + 1))
    unfold mapOn chosen
    split
    · rw [List.map_cons, hD, hD, hD, hD]
      linarith
    · rw [hD, hD]
      linarith

section Two
variable {C : Conf 2} {β : ℚ} (hC : Admissible C β) {W : World 2} {on : Nat → Nat → Bool} {rk : Nat → Nat → Nat}
  {x : Nat → St 2} (h0 : Starts C (sys2 C).npatches C.coord2 β (x 0) W) (hrun : FlagRun (sys2 C) on rk x)
include hC h0 hrun

/-- **C90 (2D).** In every run of the 2D program in which species are enabled and disabled at will between the steps, on
any patches, ranks that may change in every step, schedules and orders, and with either path of the push, every state
shows the undivided simulation in which in each step the enabled species move and make currents and the others rest and
make none, and every particle is stored by the patch it lies in. -/
theorem flags_undivided2 (i : Nat) :
    Agrees C (sys2 C).npatches C.coord2 (x i) (W.runOn C.phys2 on i) ∧ Inside C (sys2 C).npatches C.coord2 β (x i) := by
  have h := follows2.mp (flagRun_follows hC.facts2 hC.bounds2 (follows2.mpr h0) hrun i)
  exact ⟨h.agrees, h.inside⟩

/-- **C90 (2D).** A species that is disabled in a step has the same particles with the same positions and momenta after
it. -/
theorem disabled_rests2 (i : Nat) {s : Nat} (hs : on i s = false) {a a' : Species × (Nat → List (Slot 2))}
    (ha : (x i).parts[s]? = some a) (ha' : (x (i + 1)).parts[s]? = some a') :
    SameParticles (fun c => C.np c * C.n c * C.d c) (particles (sys2 C).npatches a.2) (particles (sys2 C).npatches a'.2) := by
  have h1 := (flags_undivided2 hC h0 hrun i).1.species
  have h2 := (flags_undivided2 hC h0 hrun (i + 1)).1.species
  rw [runOn_succ] at h2
  have e : ((W.runOn C.phys2 on i).stepOn C.phys2 (on i)).cloud[s]? = (W.runOn C.phys2 on i).cloud[s]? := mapOn_off hs
  obtain ⟨l1, g1⟩ := List.forall₂_iff_get.mp h1
  obtain ⟨l2, g2⟩ := List.forall₂_iff_get.mp h2
  obtain ⟨k1, hk1⟩ := List.getElem?_eq_some_iff.mp ha
  obtain ⟨k2, hk2⟩ := List.getElem?_eq_some_iff.mp ha'
  have n1 : s < (cloudOf (sys2 C).npatches (x i).parts).length := by unfold cloudOf; rwa [List.length_map]
  have n2 : s < (cloudOf (sys2 C).npatches (x (i + 1)).parts).length := by unfold cloudOf; rwa [List.length_map]
  have r1 := (g1 s n1 (l1 ▸ n1)).2
  have r2 := (g2 s n2 (l2 ▸ n2)).2
  have e' : (((W.runOn C.phys2 on i).stepOn C.phys2 (on i)).cloud.get ⟨s, l2 ▸ n2⟩)
      = (W.runOn C.phys2 on i).cloud.get ⟨s, l1 ▸ n1⟩ := by
    rw [List.get_eq_getElem, List.get_eq_getElem]
    rw [List.getElem?_eq_getElem (l2 ▸ n2), List.getElem?_eq_getElem (l1 ▸ n1)] at e
    exact Option.some.inj e
  rw [e'] at r2
  have := r1.trans r2.symm
  simpa [cloudOf, hk1, hk2] using this

/-- **C90 (2D).** div E - ρ/ε₀ where the particles are pushed stays in every cell what it was, whatever species are
enabled and disabled when: so Gauss's law holds after every step if it holds at the beginning. -/
theorem gauss_flags2 (i : Nat) {r r0 : Nat → Nat} {τ τ0 : Dom 2} (hτ : AtPush (sys2 C) r (x i).fld τ)
    (hτ0 : AtPush (sys2 C) r0 (x 0).fld τ0) {t : Nat} (ht : t < (sys2 C).npatches) {v : Fin 2 → Int} (hv : Own C.n v) :
    gaussError2 C (x i) τ t v = gaussError2 C (x 0) τ0 t v := by
  rw [gaussError_world2 hC (flagRun_follows hC.facts2 hC.bounds2 (follows2.mpr h0) hrun i) hτ ht hv,
    gaussError_world2 hC (follows2.mpr h0) hτ0 ht hv]
  clear hτ
  induction i with
  | zero => rfl
  | succ i ih =>
    rw [← ih, runOn_succ]
    generalize W.runOn C.phys2 on i = V
    have hN : ∀ a, 0 < C.np a * C.n a := fun a =>
      Nat.mul_pos (hC.patches a) (lt_of_lt_of_le (lt_of_lt_of_le (by decide) hC.guard) (hC.wide a))
    have key := gauss_world2 (N := fun a => C.np a * C.n a) (c2 := C.c2) (eps0 := C.eps0) hN hC.step hC.bounds
      ⟨V.fld, chosen (on i) V.cloud⟩ 1 (onGrid C.n (C.coord2 t) v)
    dsimp only at key
    change divE2 C.par (midField C.phys2 (World.step C.phys2 ⟨V.fld, chosen (on i) V.cloud⟩).fld).e (onGrid C.n (C.coord2 t) v)
      - chargeDensity2 (fun a => C.np a * C.n a) C.d (C.dt / 2) (macros2 (World.step C.phys2 ⟨V.fld, chosen (on i) V.cloud⟩).cloud)
        (onGrid C.n (C.coord2 t) v) / C.eps0 = divE2 C.par (midField C.phys2 V.fld).e (onGrid C.n (C.coord2 t) v)
      - chargeDensity2 (fun a => C.np a * C.n a) C.d (C.dt / 2) (macros2 (chosen (on i) V.cloud)) (onGrid C.n (C.coord2 t) v) / C.eps0
      at key
    have hf : (V.stepOn C.phys2 (on i)).fld = (World.step C.phys2 ⟨V.fld, chosen (on i) V.cloud⟩).fld := by
      unfold World.stepOn World.step
      dsimp only
      rw [chosen_mapOn]
    have hd := mapOn_add (fun cl => chargeDensity2 (fun a => C.np a * C.n a) C.d (C.dt / 2) (macros2 cl) (onGrid C.n (C.coord2 t) v))
      (fun s => chargeDensity2 (fun a => C.np a * C.n a) C.d (C.dt / 2) (macros2 [s]) (onGrid C.n (C.coord2 t) v))
      (by simp [chargeDensity2, macros2]) (fun a l => by simp [chargeDensity2, macros2])
      (fun s => (s.1, s.2.map (pushed C.phys2 s.1 (midField C.phys2 V.fld)))) (on i) V.cloud
    rw [hf]
    have hd' : chargeDensity2 (fun a => C.np a * C.n a) C.d (C.dt / 2) (macros2 (V.stepOn C.phys2 (on i)).cloud) (onGrid C.n (C.coord2 t) v)
        = chargeDensity2 (fun a => C.np a * C.n a) C.d (C.dt / 2) (macros2 V.cloud) (onGrid C.n (C.coord2 t) v)
        + (chargeDensity2 (fun a => C.np a * C.n a) C.d (C.dt / 2) (macros2 (World.step C.phys2 ⟨V.fld, chosen (on i) V.cloud⟩).cloud)
            (onGrid C.n (C.coord2 t) v)
          - chargeDensity2 (fun a => C.np a * C.n a) C.d (C.dt / 2) (macros2 (chosen (on i) V.cloud)) (onGrid C.n (C.coord2 t) v)) :=
      sub_eq_iff_eq_add'.mp hd
    rw [hd', add_div, sub_div]
    linear_combination key

end Two

/-- **C90 (2D).** Two runs that begin with the same fields and particles and enable and disable the same species in the
same steps agree after every number of steps, whatever their patches, guard cells, rank layouts, schedules, orders and
paths of the push. -/
theorem flags_independent2 {C C' : Conf 2} {β : ℚ} (hC : Admissible C β) (hC' : Admissible C' β)
    (hN : ∀ a, C.np a * C.n a = C'.np a * C'.n a) (hd : C'.d = C.d) (hc : C'.c2 = C.c2) (he : C'.eps0 = C.eps0)
    (ht : C'.dt = C.dt) (hs : C'.rs = C.rs) {W : World 2} {on : Nat → Nat → Bool} {rk rk' : Nat → Nat → Nat}
    {x x' : Nat → St 2} (h0 : Starts C (sys2 C).npatches C.coord2 β (x 0) W)
    (h0' : Starts C' (sys2 C').npatches C'.coord2 β (x' 0) W)
    (hrun : FlagRun (sys2 C) on rk x) (hrun' : FlagRun (sys2 C') on rk' x') (i : Nat) :
    (∀ t, t < (sys2 C).npatches → ∀ t', t' < (sys2 C').npatches → ∀ v v', Stored C.n C.ng v → Stored C'.n C'.ng v' →
      (∀ a, onGrid C.n (C.coord2 t) v a ≡ onGrid C'.n (C'.coord2 t') v' a [ZMOD (C.np a * C.n a : Int)]) → ∀ f,
      ((x i).fld t).e f (index C.n C.ng v) = ((x' i).fld t').e f (index C'.n C'.ng v') ∧
      ((x i).fld t).b f (index C.n C.ng v) = ((x' i).fld t').b f (index C'.n C'.ng v')) ∧
    SameCloud (fun a => C.np a * C.n a * C.d a) (cloudOf (sys2 C).npatches (x i).parts)
      (cloudOf (sys2 C').npatches (x' i).parts) := by
  have h := follows2.mp (flagRun_follows hC.facts2 hC.bounds2 (follows2.mpr h0) hrun i)
  have h' := (flags_undivided2 hC' h0' hrun' i).1
  have e : C'.phys2 = C.phys2 := by
    unfold Conf.phys2
    rw [hd, hc, he, ht, hs]
    have : (fun a => C'.np a * C'.n a) = fun a => C.np a * C.n a := funext fun a => (hN a).symm
    rw [this]
  rw [e] at h'
  exact agree_agree h.agrees h' h.period hN hd

/-- **C90 (2D).** Species that are disabled in all steps might as well not exist: the fields, and the particles of the
others, are those of the undivided simulation without them. -/
theorem disabled_is_absent2 {C : Conf 2} {β : ℚ} (hC : Admissible C β) {W : World 2} {on : Nat → Bool}
    {rk : Nat → Nat → Nat} {x : Nat → St 2} (h0 : Starts C (sys2 C).npatches C.coord2 β (x 0) W)
    (hrun : FlagRun (sys2 C) (fun _ => on) rk x) (i : Nat) :
    Agrees C (sys2 C).npatches C.coord2 ⟨(x i).fld, chosen on (x i).parts⟩
      (undividedRun2 C ⟨W.fld, chosen on W.cloud⟩ i) := by
  obtain ⟨e, b, j, s⟩ := (flags_undivided2 hC h0 hrun i).1
  obtain ⟨r1, r2⟩ := runOn_absent C.phys2 on W i
  rw [r1] at e b j
  refine ⟨e, b, j, ?_⟩
  have := forall₂_chosen (on := on) s
  rw [r2] at this
  unfold cloudOf at this ⊢
  rw [chosen_map] at this
  exact this

/-- there are runs from every such state, for every sequence of rank layouts and flags -/
theorem flagRuns2 {C : Conf 2} {β : ℚ} (hC : Admissible C β) {x0 : St 2} {W : World 2}
    (h0 : Starts C (sys2 C).npatches C.coord2 β x0 W) (on : Nat → Nat → Bool) (rk : Nat → Nat → Nat) :
    ∃ x, x 0 = x0 ∧ FlagRun (sys2 C) on rk x :=
  flagRun_exists hC.facts2 hC.bounds2 (follows2.mpr h0) on rk

section Three
variable {C : Conf 3} {β : ℚ} (hC : Admissible C β) {W : World 3} {on : Nat → Nat → Bool} {rk : Nat → Nat → Nat}
  {x : Nat → St 3} (h0 : Starts C (sys3 C).npatches C.coord3 β (x 0) W) (hu : ∀ a ∈ (x 0).parts, a.1.unified = true)
  (hrun : FlagRun (sys3 C) on rk x)
include hC h0 hu hrun

/-- **C90 (3D)**, for species on the unified path. Missing for the full property: species on the split path, which the
code does not move in 3D. -/
theorem flags_undivided3_partial (i : Nat) :
    Agrees C (sys3 C).npatches C.coord3 (x i) (W.runOn C.phys3 on i) ∧ Inside C (sys3 C).npatches C.coord3 β (x i) := by
  have h := (follows3.mp (flagRun_follows hC.facts3 hC.bounds3 (follows3.mpr ⟨h0, hu⟩) hrun i)).1
  exact ⟨h.agrees, h.inside⟩

/-- **C90 (3D), Gauss's law**, for species on the unified path. -/
theorem gauss_flags3_partial (i : Nat) {r r0 : Nat → Nat} {τ τ0 : Dom 3} (hτ : AtPush (sys3 C) r (x i).fld τ)
    (hτ0 : AtPush (sys3 C) r0 (x 0).fld τ0) {t : Nat} (ht : t < (sys3 C).npatches) {v : Fin 3 → Int} (hv : Own C.n v) :
    gaussError3 C (x i) τ t v = gaussError3 C (x 0) τ0 t v := by
  rw [gaussError_world3 hC (flagRun_follows hC.facts3 hC.bounds3 (follows3.mpr ⟨h0, hu⟩) hrun i) hτ ht hv,
    gaussError_world3 hC (follows3.mpr ⟨h0, hu⟩) hτ0 ht hv]
  clear hτ
  induction i with
  | zero => rfl
  | succ i ih =>
    rw [← ih, runOn_succ]
    generalize W.runOn C.phys3 on i = V
    have hN : ∀ a, 2 ≤ C.np a * C.n a := fun a => by
      have h1 := hC.patches a
      have h2 : 3 ≤ C.n a := le_trans hC.guard (hC.wide a)
      nlinarith
    have key := gauss_world3 (N := fun a => C.np a * C.n a) (c2 := C.c2) (eps0 := C.eps0) hN hC.step hC.bounds
      ⟨V.fld, chosen (on i) V.cloud⟩ 1 (onGrid C.n (C.coord3 t) v)
    dsimp only at key
    change divE3 C.par (midField C.phys3 (World.step C.phys3 ⟨V.fld, chosen (on i) V.cloud⟩).fld).e (onGrid C.n (C.coord3 t) v)
      - chargeDensity3 (fun a => C.np a * C.n a) C.d (C.dt / 2) (macros3 (World.step C.phys3 ⟨V.fld, chosen (on i) V.cloud⟩).cloud)
        (onGrid C.n (C.coord3 t) v) / C.eps0 = divE3 C.par (midField C.phys3 V.fld).e (onGrid C.n (C.coord3 t) v)
      - chargeDensity3 (fun a => C.np a * C.n a) C.d (C.dt / 2) (macros3 (chosen (on i) V.cloud)) (onGrid C.n (C.coord3 t) v) / C.eps0
      at key
    have hf : (V.stepOn C.phys3 (on i)).fld = (World.step C.phys3 ⟨V.fld, chosen (on i) V.cloud⟩).fld := by
      unfold World.stepOn World.step
      dsimp only
      rw [chosen_mapOn]
    have hd := mapOn_add (fun cl => chargeDensity3 (fun a => C.np a * C.n a) C.d (C.dt / 2) (macros3 cl) (onGrid C.n (C.coord3 t) v))
      (fun s => chargeDensity3 (fun a => C.np a * C.n a) C.d (C.dt / 2) (macros3 [s]) (onGrid C.n (C.coord3 t) v))
      (by simp [chargeDensity3, macros3]) (fun a l => by simp [chargeDensity3, macros3])
      (fun s => (s.1, s.2.map (pushed C.phys3 s.1 (midField C.phys3 V.fld)))) (on i) V.cloud
    rw [hf]
    have hd' : chargeDensity3 (fun a => C.np a * C.n a) C.d (C.dt / 2) (macros3 (V.stepOn C.phys3 (on i)).cloud) (onGrid C.n (C.coord3 t) v)
        = chargeDensity3 (fun a => C.np a * C.n a) C.d (C.dt / 2) (macros3 V.cloud) (onGrid C.n (C.coord3 t) v)
        + (chargeDensity3 (fun a => C.np a * C.n a) C.d (C.dt / 2) (macros3 (World.step C.phys3 ⟨V.fld, chosen (on i) V.cloud⟩).cloud)
            (onGrid C.n (C.coord3 t) v)
          - chargeDensity3 (fun a => C.np a * C.n a) C.d (C.dt / 2) (macros3 (chosen (on i) V.cloud)) (onGrid C.n (C.coord3 t) v)) :=
      sub_eq_iff_eq_add'.mp hd
    rw [hd', add_div, sub_div]
    linear_combination key

end Three

/-- **C90 (3D)**: disabled species might as well not exist, for species on the unified path. -/
theorem disabled_is_absent3_partial {C : Conf 3} {β : ℚ} (hC : Admissible C β) {W : World 3} {on : Nat → Bool}
    {rk : Nat → Nat → Nat} {x : Nat → St 3} (h0 : Starts C (sys3 C).npatches C.coord3 β (x 0) W)
    (hu : ∀ a ∈ (x 0).parts, a.1.unified = true) (hrun : FlagRun (sys3 C) (fun _ => on) rk x) (i : Nat) :
    Agrees C (sys3 C).npatches C.coord3 ⟨(x i).fld, chosen on (x i).parts⟩
      (undividedRun3 C ⟨W.fld, chosen on W.cloud⟩ i) := by
  obtain ⟨e, b, j, s⟩ := (flags_undivided3_partial hC h0 hu hrun i).1
  obtain ⟨r1, r2⟩ := runOn_absent C.phys3 on W i
  rw [r1] at e b j
  refine ⟨e, b, j, ?_⟩
  have := forall₂_chosen (on := on) s
  rw [r2] at this
  unfold cloudOf at this ⊢
  rw [chosen_map] at this
  exact this

/-- a plasma whose electrons are disabled in the odd steps: the hypotheses of the theorems above are met -/
example : ∃ x : Nat → St 2, FlagRun (sys2 plasmaConf) (fun i s => decide (s = 1 ∨ i % 2 = 0)) (fun i t => (i + t) % 2) x ∧
    cloudOf (sys2 plasmaConf).npatches (x 0).parts = plasmaCloud (fun _ => 1) [fast] [fast] ∧
    ∀ i r τ, AtPush (sys2 plasmaConf) r (x i).fld τ → ∀ t v, t < (sys2 plasmaConf).npatches → Own plasmaConf.n v →
      gaussError2 plasmaConf (x i) τ t v = 0 := by
  have hst := plasma_starts [fast] [fast] (by
    intro m hm i
    simp only [List.cons_append, List.nil_append, List.mem_cons, List.not_mem_nil, or_false] at hm
    rcases hm with rfl | rfl <;> match i with
      | 0 => norm_num [fast, uAt, abs_le]
      | 1 => norm_num [fast, uAt])
  obtain ⟨x, e0, hrun⟩ := flagRuns2 plasmaConf_ok hst (fun i s => decide (s = 1 ∨ i % 2 = 0)) (fun i t => (i + t) % 2)
  rw [← e0] at hst
  refine ⟨x, hrun, by rw [e0]; exact cloud_plasma _ _, fun i r τ hτ t v ht hv => ?_⟩
  obtain ⟨σ1, τ0, _, _, _, a1, a2, _⟩ := hrun 0
  rw [gauss_flags2 plasmaConf_ok hst hrun i hτ ⟨σ1, a1, a2⟩ ht hv, plasma_gauss hst ⟨σ1, a1, a2⟩ ht hv]

/-! ## disabling the parts of the push -/

theorem ifEnabled_on {α : Type} {f : Flag} (h : (isEnabled f).1 = true) (m : α → α) (a : α) : ifEnabled f m a = m a := if_pos h
theorem ifEnabled_off {α : Type} {f : Flag} (h : (isEnabled f).1 = false) (m : α → α) (a : α) : ifEnabled f m a = a :=
  if_neg (by rw [h]; decide)

/-- **C90.** With all parts enabled, the push is the one of C24. -/
theorem parts_enabled (f : Flags) (h1 : (isEnabled f.pusher).1 = true) (h2 : (isEnabled f.interp).1 = true)
    (h3 : (isEnabled f.depositor).1 = true) (u : Bool) (rs : ℚ → ℚ) (R : RunPar 2) (Ps : List (PatchSt 2)) :
    pushFlags2 f u rs R Ps = pushSpecies2 u rs R Ps := by
  unfold pushFlags2 pushSpecies2 splitFlags split2 split
  simp only [ifEnabled_on h1, ifEnabled_on h2, ifEnabled_on h3]

/-- **C90.** A disabled pusher leaves every particle where it is, on both paths (the fields interpolated to the particles
may change). -/
theorem pusher_disabled_rests (f : Flags) (h : (isEnabled f.pusher).1 = false) (u : Bool) (rs : ℚ → ℚ) (R : RunPar 2)
    (Ps : List (PatchSt 2)) :
    (pushFlags2 f u rs R Ps).map (fun P => P.parts.map fun s => (s.pos, s.mom, s.dead))
      = Ps.map fun P => P.parts.map fun s => (s.pos, s.mom, s.dead) := by
  unfold pushFlags2
  cases u with
  | true => rw [if_pos rfl, ifEnabled_off h]
  | false =>
    rw [if_neg (by decide)]
    unfold splitFlags
    simp only [ifEnabled_off h]
    have hi : ∀ (K : Kern 2) (l : List (Slot 2)), (splitInterp K l).map (fun s => (s.pos, s.mom, s.dead))
        = l.map fun s => (s.pos, s.mom, s.dead) := by
      intro K l
      unfold splitInterp
      rw [List.map_map]
      refine List.map_congr_left fun s _ => ?_
      show ((skipDeadNan (storeInterp K) s).pos, (skipDeadNan (storeInterp K) s).mom, (skipDeadNan (storeInterp K) s).dead) = _
      unfold skipDeadNan
      split
      · rfl
      · split
        · rfl
        · obtain ⟨a, b, c⟩ := storeInterp_pos K s
          rw [a, b, c]
    unfold ifEnabled
    split <;> split <;> simp only [List.map_map, Function.comp_def, hi]

/-- **C90.** A disabled current depositor leaves the currents of all patches as they are, on the split path. Missing for
the full property: the unified path (`depositor_disable_fails`). -/
theorem depositor_disabled_partial (f : Flags) (h : (isEnabled f.depositor).1 = false) (rs : ℚ → ℚ) (R : RunPar 2)
    (Ps : List (PatchSt 2)) : (pushFlags2 f false rs R Ps).map PatchSt.acc = Ps.map PatchSt.acc := by
  unfold pushFlags2
  rw [if_neg (by decide)]
  unfold splitFlags
  simp only [ifEnabled_off h]
  unfold ifEnabled
  split <;> split <;> simp only [List.map_map, Function.comp_def]

/-- a patch of 8 × 8 cells with one moving particle, and no fields and currents -/
def onePatch : PatchSt 2 :=
  ⟨[⟨fun _ => .val 4, ⟨1 / 2, 0, 0, 1, 1⟩, ⟨0, 0, 0, 0, 0, 0⟩, false⟩], ⟨fun _ _ => 0, fun _ _ => 0, fun _ _ => 0⟩, zeroAcc, fun _ => 0⟩
def oneRun : RunPar 2 := ⟨fun _ => 8, fun _ => 1, 1, 1, 1 / 299792458⟩

/-- **C90 fails: disabling the current depositor.** On the unified path it does nothing: the particle still makes a
current, while on the split path it makes none. -/
theorem depositor_disable_fails : ∃ (f : Flags) (rs : ℚ → ℚ) (R : RunPar 2) (P : PatchSt 2),
    (isEnabled f.depositor).1 = false ∧ P.acc = zeroAcc ∧
    (pushFlags2 f false rs R [P]).map PatchSt.acc = [zeroAcc] ∧ (pushFlags2 f true rs R [P]).map PatchSt.acc ≠ [zeroAcc] := by
  refine ⟨⟨none, none, some false⟩, fun _ => 1, oneRun, onePatch, rfl, rfl,
    depositor_disabled_partial ⟨none, none, some false⟩ rfl _ _ _, fun h => ?_⟩
  have h1 := congrArg (List.map fun a : Acc 2 => a.jx ![4, 4]) h
  revert h1
  decide +kernel

/-- **C90 fails: disabling a pusher.** On the unified path the particle rests and makes no current. On the split path it
rests, but the code deposits the current of a motion it does not make. -/
theorem pusher_disable_fails : ∃ (f : Flags) (rs : ℚ → ℚ) (R : RunPar 2) (P : PatchSt 2),
    (isEnabled f.pusher).1 = false ∧ P.acc = zeroAcc ∧
    (pushFlags2 f true rs R [P]).map PatchSt.acc = [zeroAcc] ∧ (pushFlags2 f false rs R [P]).map PatchSt.acc ≠ [zeroAcc] := by
  refine ⟨⟨some false, none, none⟩, fun _ => 1, oneRun, onePatch, rfl, rfl, rfl, fun h => ?_⟩
  have h1 := congrArg (List.map fun a : Acc 2 => a.jx ![4, 4]) h
  revert h1
  decide +kernel

end Verif.Enable
