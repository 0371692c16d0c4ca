import Verif.Proofs.WholeGauss
/-!
# C68 — Gauss's law and div B in complete runs, on any patches, ranks and schedules

C17 and C65 are about one process and given motion. Here the particles move in the fields they see, on any number of
ranks, with the push of the code. The divergences `divE2`, `divB2`, … are those of `Verif/Props/Maxwell.lean`, the
charge density that of `Verif/Spec/PicStep.lean`, runs and the particles of a state those of C66.
-/
namespace Verif.WholeRun
open Verif.Maxwell Verif.SyncFields Verif.Pusher Verif.Deposit Verif.Geometry Verif.Neighbors Verif.PicSpec
open Verif.PicStep (field zeroAcc)

/-- Specification: `τ` are the fields in the middle of a step that begins with the fields `σ` on ranks `rk`: E and B have
done half a step and exchanged their guard cells. The particles see these fields. -/
def AtPush {k : Nat} {D A : Type} (Y : Sys k D A) [DecidableEq D] (rk : Nat → Nat) (σ τ : Dom k) : Prop :=
  ∃ σ1, GuardE Y rk (Y.solver.stepE (1 / 2 * Y.dt) σ) σ1 ∧ GuardB Y rk (Y.solver.stepB (1 / 2 * Y.dt) σ1) τ

/-- Specification: div E - ρ/ε₀ in own cell `v` of patch `t`: E from the arrays `τ` of the patch at the push, ρ from all
living particles of all species in all patches of `x`, advanced by half a step with their velocities -/
noncomputable def gaussError2 (C : Conf 2) (x : St 2) (τ : Dom 2) (t : Nat) (v : Fin 2 → Int) : ℚ :=
  divE2 C.par (cellsOf C.n C.ng (τ t).e) v
    - chargeDensity2 (fun a => C.np a * C.n a) C.d (C.dt / 2) (macros2 (cloudOf (sys2 C).npatches x.parts))
        (onGrid C.n (C.coord2 t) v) / C.eps0
/-- the same in 3D -/
noncomputable def gaussError3 (C : Conf 3) (x : St 3) (τ : Dom 3) (t : Nat) (v : Fin 3 → Int) : ℚ :=
  divE3 C.par (cellsOf C.n C.ng (τ t).e) v
    - chargeDensity3 (fun a => C.np a * C.n a) C.d (C.dt / 2) (macros3 (cloudOf (sys3 C).npatches x.parts))
        (onGrid C.n (C.coord3 t) v) / C.eps0

/-! ## two dimensions -/

theorem gaussError_world2 {C : Conf 2} {β : ℚ} (hC : Admissible C β) {x : St 2} {W : World 2}
    (h : Follows (sys2 C) C.place2 C.d (fun _ => True) β x W) {rk : Nat → Nat} {τ : Dom 2} (hτ : AtPush (sys2 C) rk x.fld τ)
    {t : Nat} (ht : t < (sys2 C).npatches) {v : Fin 2 → Int} (hv : Own C.n v) :
    gaussError2 C x τ t v = divE2 C.par (midField C.phys2 W.fld).e (onGrid C.n (C.coord2 t) v)
      - chargeDensity2 (fun a => C.np a * C.n a) C.d (C.dt / 2) (macros2 W.cloud) (onGrid C.n (C.coord2 t) v) / C.eps0 := by
  obtain ⟨σ1, a1, a2⟩ := hτ
  have hnv : (sys2 C).solver.sync.n = C.n := vec2 C.n
  have hnpv : C.place2.np = C.np := vec2 C.np
  have r := (hC.facts2.mid _ _ _ h.per h.rep ⟨σ1, guardE_sync hC.facts2 a1, guardB_sync hC.facts2 a2⟩).1
  have e1 := divE2_shows C.par (S := (sys2 C).solver) (le_trans (by decide) hC.guard) r ht (v := v) (by rw [hnv]; exact hv)
  rw [hnv] at e1
  have hc := h.cloud
  rw [hnv, hnpv] at hc
  have e2 := density_congr2 (N := fun a => C.np a * C.n a) hC.cell (C.dt / 2)
    (by intro a; unfold len; push_cast; ring) hc (onGrid C.n (C.coord2 t) v)
  unfold gaussError2
  rw [e2]
  exact congrArg (· - _) e1

/-- **C68 (2D).** In every run of the 2D program, on any patches, any ranks that may change in every step, with any
schedule of the exchanges, any order the sorters leave and either path of the push: in every cell, the difference
between div E and the charge density of the particles over ε₀, taken where the particles are pushed, is the same in
every step. -/
theorem gauss_whole2 {C : Conf 2} {β : ℚ} (hC : Admissible C β) {W : World 2} {rk : Nat → Nat → Nat} {x : Nat → St 2}
    (h0 : Starts C (sys2 C).npatches C.coord2 β (x 0) W) (hrun : Run (sys2 C) rk x) (i : Nat) {r r0 : Nat → Nat}
    {τ τ0 : Dom 2} (hτ : AtPush (sys2 C) r (x i).fld τ) (hτ0 : AtPush (sys2 C) r0 (x 0).fld τ0)
    {t : Nat} (ht : t < (sys2 C).npatches) {v : Fin 2 → Int} (hv : Own C.n v) :
    gaussError2 C (x i) τ t v = gaussError2 C (x 0) τ0 t v := by
  have hi := run_follows hC.facts2 hC.bounds2 (follows2.mpr h0) hrun i
  rw [gaussError_world2 hC hi hτ ht hv, gaussError_world2 hC (follows2.mpr h0) hτ0 ht hv]
  have hN : ∀ a, 0 < C.np a * C.n a := fun a =>
    Nat.mul_pos (hC.patches a) (lt_of_lt_of_le (lt_of_lt_of_le (by decide) hC.guard) (hC.wide a))
  exact gauss_world2 (N := fun a => C.np a * C.n a) hN hC.step hC.bounds W i _

/-- **C68 (2D), Gauss's law.** If div E = ρ/ε₀ holds in every cell where the particles are first pushed, it holds in
every step. -/
theorem gauss_law2 {C : Conf 2} {β : ℚ} (hC : Admissible C β) {W : World 2} {rk : Nat → Nat → Nat} {x : Nat → St 2}
    (h0 : Starts C (sys2 C).npatches C.coord2 β (x 0) W) (hrun : Run (sys2 C) rk x)
    (hini : ∀ τ0, AtPush (sys2 C) (rk 0) (x 0).fld τ0 → ∀ t v, t < (sys2 C).npatches → Own C.n v →
      divE2 C.par (cellsOf C.n C.ng (τ0 t).e) v = chargeDensity2 (fun a => C.np a * C.n a) C.d (C.dt / 2)
        (macros2 (cloudOf (sys2 C).npatches (x 0).parts)) (onGrid C.n (C.coord2 t) v) / C.eps0)
    (i : Nat) {r : Nat → Nat} {τ : Dom 2} (hτ : AtPush (sys2 C) r (x i).fld τ) {t : Nat} (ht : t < (sys2 C).npatches)
    {v : Fin 2 → Int} (hv : Own C.n v) :
    divE2 C.par (cellsOf C.n C.ng (τ t).e) v = chargeDensity2 (fun a => C.np a * C.n a) C.d (C.dt / 2)
      (macros2 (cloudOf (sys2 C).npatches (x i).parts)) (onGrid C.n (C.coord2 t) v) / C.eps0 := by
  obtain ⟨σ1, τ0, _, _, _, a1, a2, _⟩ := hrun 0
  have hτ0 : AtPush (sys2 C) (rk 0) (x 0).fld τ0 := ⟨σ1, a1, a2⟩
  have h := gauss_whole2 hC h0 hrun i hτ hτ0 ht hv
  unfold gaussError2 at h
  rw [hini τ0 hτ0 t v ht hv, sub_self] at h
  exact sub_eq_zero.mp h

theorem divB_world2 {C : Conf 2} (W : World 2) (i : Nat) (v : Fin 2 → Int) :
    divB2 C.par (W.run C.phys2 i).fld.b v = divB2 C.par W.fld.b v := by
  induction i with
  | zero => rfl
  | succ i ih =>
    rw [← ih]
    let G := (W.run C.phys2 i).fld
    let G1 : GF 2 := { midField C.phys2 G with j := C.phys2.cur (W.run C.phys2 (i + 1)).cloud }
    exact (divB2_stepB C.par (1 / 2 * C.dt) G1 v).trans
      (divB2_stepB C.par (1 / 2 * C.dt) (G.stepE (yeeE2 C.par) (1 / 2 * C.dt)) v)

/-- **C68 (2D), div B.** In every run of the 2D program div B is the same in every cell after every step. -/
theorem divB_whole2 {C : Conf 2} {β : ℚ} (hC : Admissible C β) {W : World 2} {rk : Nat → Nat → Nat} {x : Nat → St 2}
    (h0 : Starts C (sys2 C).npatches C.coord2 β (x 0) W) (hrun : Run (sys2 C) rk x) (i : Nat)
    {t : Nat} (ht : t < (sys2 C).npatches) {v : Fin 2 → Int} (hv : Own C.n v) :
    divB2 C.par (cellsOf C.n C.ng ((x i).fld t).b) v = divB2 C.par (cellsOf C.n C.ng ((x 0).fld t).b) v := by
  have hnv : (sys2 C).solver.sync.n = C.n := vec2 C.n
  have key : ∀ i, divB2 C.par (cellsOf C.n C.ng ((x i).fld t).b) v
      = divB2 C.par (W.run C.phys2 i).fld.b (globalCell C.n (C.place2.coord t) v) := by
    intro i
    have hi := run_follows hC.facts2 hC.bounds2 (follows2.mpr h0) hrun i
    have e := divB2_shows C.par (S := (sys2 C).solver) (le_trans (by decide) hC.guard) hi.rep ht (v := v) (by rw [hnv]; exact hv)
    rw [hnv] at e
    exact e
  rw [key i, key 0, divB_world2]
  rfl

/-! ## three dimensions

Species on the unified path; on the split path the code does not move particles in 3D but deposits the current of their
motion (`split_run3_frozen`, `Verif/Props/WholeSplit.lean`). -/

theorem gaussError_world3 {C : Conf 3} {β : ℚ} (hC : Admissible C β) {x : St 3} {W : World 3}
    (h : Follows (sys3 C) C.place3 C.d (fun sp => sp.unified = true) β x W) {rk : Nat → Nat} {τ : Dom 3}
    (hτ : AtPush (sys3 C) rk x.fld τ) {t : Nat} (ht : t < (sys3 C).npatches) {v : Fin 3 → Int} (hv : Own C.n v) :
    gaussError3 C x τ t v = divE3 C.par (midField C.phys3 W.fld).e (onGrid C.n (C.coord3 t) v)
      - chargeDensity3 (fun a => C.np a * C.n a) C.d (C.dt / 2) (macros3 W.cloud) (onGrid C.n (C.coord3 t) v) / C.eps0 := by
  obtain ⟨σ1, a1, a2⟩ := hτ
  have hnv : (sys3 C).solver.sync.n = C.n := vec3 C.n
  have hnpv : C.place3.np = C.np := vec3 C.np
  have r := (hC.facts3.mid _ _ _ h.per h.rep ⟨σ1, guardE_sync hC.facts3 a1, guardB_sync hC.facts3 a2⟩).1
  have e1 := divE3_shows C.par (S := (sys3 C).solver) (le_trans (by decide) hC.guard) r ht (v := v) (by rw [hnv]; exact hv)
  rw [hnv] at e1
  have hc := h.cloud
  rw [hnv, hnpv] at hc
  have e2 := density_congr3 (N := fun a => C.np a * C.n a) hC.cell (C.dt / 2)
    (by intro a; unfold len; push_cast; ring) hc (onGrid C.n (C.coord3 t) v)
  unfold gaussError3
  rw [e2]
  exact congrArg (· - _) e1

/-- **C68 (3D).** For species on the unified path: div E - ρ/ε₀ where the particles are pushed is in every cell the same
in every step. Missing for the full property: species on the split path, which the code does not move
in 3D. -/
theorem gauss_whole3_partial {C : Conf 3} {β : ℚ} (hC : Admissible C β) {W : World 3} {rk : Nat → Nat → Nat} {x : Nat → St 3}
    (h0 : Starts C (sys3 C).npatches C.coord3 β (x 0) W) (hu : ∀ a ∈ (x 0).parts, a.1.unified = true)
    (hrun : Run (sys3 C) rk x) (i : Nat) {r r0 : Nat → Nat}
    {τ τ0 : Dom 3} (hτ : AtPush (sys3 C) r (x i).fld τ) (hτ0 : AtPush (sys3 C) r0 (x 0).fld τ0)
    {t : Nat} (ht : t < (sys3 C).npatches) {v : Fin 3 → Int} (hv : Own C.n v) :
    gaussError3 C (x i) τ t v = gaussError3 C (x 0) τ0 t v := by
  have hi := run_follows hC.facts3 hC.bounds3 (follows3.mpr ⟨h0, hu⟩) hrun i
  rw [gaussError_world3 hC hi hτ ht hv, gaussError_world3 hC (follows3.mpr ⟨h0, hu⟩) hτ0 ht hv]
  have hN : ∀ a, 2 ≤ C.np a * C.n a := fun a => by
    have h1 := hC.patches a
    have h2 := le_trans hC.guard (hC.wide a)
    nlinarith
  exact gauss_world3 (N := fun a => C.np a * C.n a) hN hC.step hC.bounds W i _

/-- **C68 (3D), Gauss's law**, for species on the unified path. Missing for the full property: species on the split
path. -/
theorem gauss_law3_partial {C : Conf 3} {β : ℚ} (hC : Admissible C β) {W : World 3} {rk : Nat → Nat → Nat} {x : Nat → St 3}
    (h0 : Starts C (sys3 C).npatches C.coord3 β (x 0) W) (hu : ∀ a ∈ (x 0).parts, a.1.unified = true)
    (hrun : Run (sys3 C) rk x)
    (hini : ∀ τ0, AtPush (sys3 C) (rk 0) (x 0).fld τ0 → ∀ t v, t < (sys3 C).npatches → Own C.n v →
      divE3 C.par (cellsOf C.n C.ng (τ0 t).e) v = chargeDensity3 (fun a => C.np a * C.n a) C.d (C.dt / 2)
        (macros3 (cloudOf (sys3 C).npatches (x 0).parts)) (onGrid C.n (C.coord3 t) v) / C.eps0)
    (i : Nat) {r : Nat → Nat} {τ : Dom 3} (hτ : AtPush (sys3 C) r (x i).fld τ) {t : Nat} (ht : t < (sys3 C).npatches)
    {v : Fin 3 → Int} (hv : Own C.n v) :
    divE3 C.par (cellsOf C.n C.ng (τ t).e) v = chargeDensity3 (fun a => C.np a * C.n a) C.d (C.dt / 2)
      (macros3 (cloudOf (sys3 C).npatches (x i).parts)) (onGrid C.n (C.coord3 t) v) / C.eps0 := by
  obtain ⟨σ1, τ0, _, _, _, a1, a2, _⟩ := hrun 0
  have hτ0 : AtPush (sys3 C) (rk 0) (x 0).fld τ0 := ⟨σ1, a1, a2⟩
  have h := gauss_whole3_partial hC h0 hu hrun i hτ hτ0 ht hv
  unfold gaussError3 at h
  rw [hini τ0 hτ0 t v ht hv, sub_self] at h
  exact sub_eq_zero.mp h

/-- the fields of every state of a 3D run lie on one undivided grid on which div B has not changed -/
theorem divB_follows3 {C : Conf 3} {β : ℚ} (hC : Admissible C β) {W : World 3} {rk : Nat → Nat → Nat} {x : Nat → St 3}
    (h0 : Starts C (sys3 C).npatches C.coord3 β (x 0) W) (hrun : Run (sys3 C) rk x) (i : Nat) :
    ∃ G : GF 3, Rep (sys3 C).solver C.place3 (x i).fld G ∧ G.Per C.place3.np (sys3 C).solver.sync.n ∧
      ∀ v, divB3 C.par G.b v = divB3 C.par W.fld.b v := by
  have hg := nbrGeo3 (s := (sys3 C).solver.sync) (bx := perBC) (by' := perBC) (bz := perBC)
    rfl rfl rfl (grid_createPatches3 (C.np 0) (C.np 1) (C.np 2)) (fun _ h => h) (nodup_createPatches3 _ _ _) rfl rfl
  have hnv : (sys3 C).solver.sync.n = C.n := vec3 C.n
  have hnpv : C.place3.np = C.np := vec3 C.np
  induction i with
  | zero =>
    refine ⟨W.fld, ⟨?_, ?_, ?_⟩, ?_, fun _ => rfl⟩
    · rw [hnv]; exact h0.agrees.e
    · rw [hnv]; exact h0.agrees.b
    · rw [hnv]; exact fun t ht f v hv => h0.agrees.j t ht f v (stored_zero.mpr hv)
    · rw [hnv, hnpv]; exact h0.period.per
  | succ i ih =>
    obtain ⟨G, r, p, hB⟩ := ih
    obtain ⟨J, r', p'⟩ := fields_step hC.facts3 hg.bound hg.inj r p (hrun i)
    refine ⟨_, r', p', fun v => ?_⟩
    rw [← hB v]
    let G1 : GF 3 := { midField C.phys3 G with j := J }
    exact (divB3_stepB C.par (1 / 2 * C.dt) G1 v).trans
      (divB3_stepB C.par (1 / 2 * C.dt) (G.stepE (yeeE3 C.par) (1 / 2 * C.dt)) v)

/-- **C68 (3D), div B.** In every run of the 3D program, on either path of the push, div B is the same in every cell
after every step. -/
theorem divB_whole3 {C : Conf 3} {β : ℚ} (hC : Admissible C β) {W : World 3} {rk : Nat → Nat → Nat} {x : Nat → St 3}
    (h0 : Starts C (sys3 C).npatches C.coord3 β (x 0) W) (hrun : Run (sys3 C) rk x) (i : Nat)
    {t : Nat} (ht : t < (sys3 C).npatches) {v : Fin 3 → Int} (hv : Own C.n v) :
    divB3 C.par (cellsOf C.n C.ng ((x i).fld t).b) v = divB3 C.par (cellsOf C.n C.ng ((x 0).fld t).b) v := by
  have hnv : (sys3 C).solver.sync.n = C.n := vec3 C.n
  have key : ∀ i, divB3 C.par (cellsOf C.n C.ng ((x i).fld t).b) v
      = divB3 C.par W.fld.b (globalCell C.n (C.place3.coord t) v) := by
    intro i
    obtain ⟨G, r, p, hB⟩ := divB_follows3 hC h0 hrun i
    have e := divB3_shows C.par (S := (sys3 C).solver) (le_trans (by decide) hC.guard) r ht (v := v) (by rw [hnv]; exact hv)
    rw [hnv, hB] at e
    exact e
  rw [key i, key 0]

/-! ## cases that meet the hypotheses -/

/-- a state with the species of two -/
theorem Starts.append {k : Nat} {C : Conf k} {N : Nat} {co : Nat → Fin k → Nat} {β : ℚ} {σ : Dom k} {G : GF k}
    {p p' : List (Species × (Nat → List (Slot k)))} {c c' : List (Kind × List (Ptc k))}
    (h : Starts C N co β ⟨σ, p⟩ ⟨G, c⟩) (h' : Starts C N co β ⟨σ, p'⟩ ⟨G, c'⟩) :
    Starts C N co β ⟨σ, p ++ p'⟩ ⟨G, c ++ c'⟩ where
  agrees := ⟨h.agrees.e, h.agrees.b, h.agrees.j, by
    have := List.rel_append h.agrees.species h'.agrees.species
    show SameCloud _ (cloudOf N (p ++ p')) _
    unfold cloudOf
    rw [List.map_append]
    exact this⟩
  inside := by
    intro a ha
    rcases List.mem_append.mp ha with ha | ha
    · exact h.inside a ha
    · exact h'.inside a ha
  period := h.period

/-- an electron and a positron at the same place with the same momentum, in a field along `y` that separates them -/
def pairWorld (k : Nat) : World k := ⟨(exWorld k).fld, (exWorld k).cloud ++ (exWorld k 1).cloud⟩
def pairState (k : Nat) (un : Bool) : St k := ⟨(exState k un).fld, (exState k un).parts ++ (exState k un 1).parts⟩

/-- 2D: two patches that change their rank in every step, on the split path; Gauss's law holds at the first push -/
example : ∃ (rk : Nat → Nat → Nat) (x : Nat → St 2), let C := exConf 2 ![2, 1] ![4, 3]
    Admissible C 1 ∧ Starts C (sys2 C).npatches C.coord2 1 (x 0) (pairWorld 2) ∧ Run (sys2 C) rk x ∧
    (∃ i r τ, AtPush (sys2 C) r (x i).fld τ) ∧
    ∀ τ0, AtPush (sys2 C) (rk 0) (x 0).fld τ0 → ∀ t v, t < (sys2 C).npatches → Own C.n v →
      divE2 C.par (cellsOf C.n C.ng (τ0 t).e) v = chargeDensity2 (fun a => C.np a * C.n a) C.d (C.dt / 2)
        (macros2 (cloudOf (sys2 C).npatches (x 0).parts)) (onGrid C.n (C.coord2 t) v) / C.eps0 := by
  have a1 : Admissible (exConf 2 ![2, 1] ![4, 3]) 1 :=
    exConf_ok (fun a => match a with | 0 => by decide | 1 => by decide) (fun a => match a with | 0 => by decide | 1 => by decide)
  have s1 : ∀ q, Starts (exConf 2 ![2, 1] ![4, 3]) (sys2 (exConf 2 ![2, 1] ![4, 3])).npatches (exConf 2 ![2, 1] ![4, 3]).coord2 1
      (exState 2 false q) (exWorld 2 q) := fun q =>
    exStarts (np := ![2, 1]) (n := ![4, 3]) (fun a => match a with | 0 => by decide | 1 => by decide) (by decide)
      (by funext a; match a with | 0 => rfl | 1 => rfl) false q
  have s2 : Starts (exConf 2 ![2, 1] ![4, 3]) (sys2 (exConf 2 ![2, 1] ![4, 3])).npatches (exConf 2 ![2, 1] ![4, 3]).coord2 1
      (pairState 2 false) (pairWorld 2) := (s1 (-1)).append (s1 1)
  obtain ⟨x, e, r⟩ := runs2 a1 s2 (fun i t => (i + t) % 2)
  refine ⟨_, x, a1, e ▸ s2, r, ?_, ?_⟩
  · obtain ⟨σ1, τ0, _, _, _, b1, b2, _⟩ := r 0
    exact ⟨0, _, τ0, σ1, b1, b2⟩
  · intro τ0 hτ t v ht hv
    have h := gaussError_world2 a1 (follows2.mpr (e ▸ s2)) hτ ht hv
    have e1 : ∀ c, divE2 (exConf 2 ![2, 1] ![4, 3]).par (midField (exConf 2 ![2, 1] ![4, 3]).phys2 (pairWorld 2).fld).e c = 0 := by
      intro c
      refine (divE2_stepE (exConf 2 ![2, 1] ![4, 3]).par _ (pairWorld 2).fld c).trans ?_
      simp [divE2, pairWorld, exWorld]
    have e2 : ∀ N d s c, chargeDensity2 N d s (macros2 (pairWorld 2).cloud) c = 0 := by
      intro N d s c
      simp only [chargeDensity2, macros2, pairWorld, exWorld, List.cons_append, List.nil_append, List.flatMap_cons,
        List.flatMap_nil, List.map_cons, List.map_nil, List.append_nil, List.sum_cons, List.sum_nil]
      ring
    rw [e1, e2] at h
    unfold gaussError2 at h
    rw [zero_div, sub_zero] at h
    exact sub_eq_zero.mp h

/-- 3D: the same with two patches on two ranks, on the unified path -/
example : ∃ (rk : Nat → Nat → Nat) (x : Nat → St 3), let C := exConf 3 ![2, 1, 1] ![4, 3, 3]
    Admissible C 1 ∧ Starts C (sys3 C).npatches C.coord3 1 (x 0) (pairWorld 3) ∧ (∀ a ∈ (x 0).parts, a.1.unified = true) ∧
    Run (sys3 C) rk x ∧ (∃ i r τ, AtPush (sys3 C) r (x i).fld τ) ∧
    ∀ τ0, AtPush (sys3 C) (rk 0) (x 0).fld τ0 → ∀ t v, t < (sys3 C).npatches → Own C.n v →
      divE3 C.par (cellsOf C.n C.ng (τ0 t).e) v = chargeDensity3 (fun a => C.np a * C.n a) C.d (C.dt / 2)
        (macros3 (cloudOf (sys3 C).npatches (x 0).parts)) (onGrid C.n (C.coord3 t) v) / C.eps0 := by
  have a1 : Admissible (exConf 3 ![2, 1, 1] ![4, 3, 3]) 1 :=
    exConf_ok (fun a => match a with | 0 => by decide | 1 => by decide | 2 => by decide)
      (fun a => match a with | 0 => by decide | 1 => by decide | 2 => by decide)
  have s1 : ∀ q, Starts (exConf 3 ![2, 1, 1] ![4, 3, 3]) (sys3 (exConf 3 ![2, 1, 1] ![4, 3, 3])).npatches
      (exConf 3 ![2, 1, 1] ![4, 3, 3]).coord3 1 (exState 3 true q) (exWorld 3 q) := fun q =>
    exStarts (np := ![2, 1, 1]) (n := ![4, 3, 3]) (fun a => match a with | 0 => by decide | 1 => by decide | 2 => by decide) (by decide)
      (by funext a; match a with | 0 => rfl | 1 => rfl | 2 => rfl) true q
  have s2 : Starts (exConf 3 ![2, 1, 1] ![4, 3, 3]) (sys3 (exConf 3 ![2, 1, 1] ![4, 3, 3])).npatches
      (exConf 3 ![2, 1, 1] ![4, 3, 3]).coord3 1 (pairState 3 true) (pairWorld 3) := (s1 (-1)).append (s1 1)
  have hu : ∀ a ∈ (pairState 3 true).parts, a.1.unified = true := by
    intro a ha
    rcases List.mem_append.mp ha with ha | ha
    · rcases List.mem_singleton.mp ha with rfl
      rfl
    · rcases List.mem_singleton.mp ha with rfl
      rfl
  obtain ⟨x, e, r⟩ := runs3 a1 s2 hu (fun _ t => t)
  refine ⟨_, x, a1, e ▸ s2, e ▸ hu, r, ?_, ?_⟩
  · obtain ⟨σ1, τ0, _, _, _, b1, b2, _⟩ := r 0
    exact ⟨0, _, τ0, σ1, b1, b2⟩
  · intro τ0 hτ t v ht hv
    have h := gaussError_world3 a1 (follows3.mpr ⟨e ▸ s2, e ▸ hu⟩) hτ ht hv
    have e1 : ∀ c, divE3 (exConf 3 ![2, 1, 1] ![4, 3, 3]).par (midField (exConf 3 ![2, 1, 1] ![4, 3, 3]).phys3 (pairWorld 3).fld).e c = 0 := by
      intro c
      refine (divE3_stepE (exConf 3 ![2, 1, 1] ![4, 3, 3]).par _ (pairWorld 3).fld c).trans ?_
      simp [divE3, pairWorld, exWorld]
    have e2 : ∀ N d s c, chargeDensity3 N d s (macros3 (pairWorld 3).cloud) c = 0 := by
      intro N d s c
      simp only [chargeDensity3, macros3, pairWorld, exWorld, List.cons_append, List.nil_append, List.flatMap_cons,
        List.flatMap_nil, List.map_cons, List.map_nil, List.append_nil, List.sum_cons, List.sum_nil]
      ring
    rw [e1, e2] at h
    unfold gaussError3 at h
    rw [zero_div, sub_zero] at h
    exact sub_eq_zero.mp h

end Verif.WholeRun
