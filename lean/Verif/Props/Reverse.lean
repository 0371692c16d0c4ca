import Verif.Proofs.Reverse
import Verif.Props.Symmetry
/-!
# C98 — a simulation can be run backwards

Specification vocabulary: `turnedCloud` of `Verif/Spec/Reverse.lean` (the particles with opposite momenta) and
`TurnedBack` below (two states of the program); `Admissible`, `Starts`, `Inside` of C66.
-/
namespace Verif.Reverse
open Verif.Maxwell Verif.SyncFields Verif.Pusher Verif.Deposit Verif.Shape Verif.WholeRun Verif.PicStep Verif.Symmetry

variable {k : Nat}

/-- Specification: state `x'` is state `x` turned back in time: the same E in every stored cell of every patch, the
opposite B, the opposite currents in the own cells of the patches, and the same particles with opposite momenta, in any
order and up to whole lengths of the domain -/
structure TurnedBack (C : Conf k) (N : Nat) (x x' : St k) : Prop where
  e : ∀ t, t < N → ∀ f v, Stored C.n C.ng v → (x'.fld t).e f (index C.n C.ng v) = (x.fld t).e f (index C.n C.ng v)
  b : ∀ t, t < N → ∀ f v, Stored C.n C.ng v → (x'.fld t).b f (index C.n C.ng v) = -(x.fld t).b f (index C.n C.ng v)
  j : ∀ t, t < N → ∀ f v, Stored C.n 0 v → (x'.fld t).j f (index C.n C.ng v) = -(x.fld t).j f (index C.n C.ng v)
  species : SameCloud (fun i => C.np i * C.n i * C.d i) (cloudOf N x'.parts) (turnedCloud (cloudOf N x.parts))

/-- Specification: the stored `1/γ` of every living particle belongs to its momentum -/
def GammasFit (C : Conf k) (N : Nat) (x : St k) : Prop :=
  ∀ s ∈ cloudOf N x.parts, ∀ p ∈ s.2, p.mom.invGamma = C.rs (1 + p.mom.ux * p.mom.ux + p.mom.uy * p.mom.uy + p.mom.uz * p.mom.uz)

theorem same_turned {L : Fin k → ℚ} {a b : List (Kind × List (Ptc k))} (h : SameCloud L a b) :
    SameCloud L (turnedCloud a) (turnedCloud b) :=
  SameCloud.map (f := fun _ p => ⟨p.pos, opposite p.mom⟩) (fun _ _ _ h => ⟨by rw [show _ = _ from h.1], h.2⟩) h

theorem starts_turned {C : Conf k} {N : Nat} {co : Nat → Fin k → Nat} {β : ℚ} {x x' : St k} {V : World k} (hV : Agrees C N co x V)
    (hr : Repeats C V.fld) (ht : TurnedBack C N x x') (hi : Inside C N co β x') : Starts C N co β x' (turned V) where
  agrees := ⟨fun t h f v hv => by rw [ht.e t h f v hv]; exact hV.e t h f v hv,
    fun t h f v hv => by rw [ht.b t h f v hv, hV.b t h f v hv]; rfl,
    fun t h f v hv => by rw [ht.j t h f v hv, hV.j t h f v hv]; rfl, ht.species.trans (same_turned hV.species)⟩
  inside := hi
  period := fun v w h f => ⟨(hr v w h f).1, congrArg (- ·) (hr v w h f).2.1, congrArg (- ·) (hr v w h f).2.2⟩

theorem turned_of {C : Conf k} {N : Nat} {co : Nat → Fin k → Nat} {x x' : St k} {U : World k} (h : Agrees C N co x U)
    (h' : Agrees C N co x' (turned U)) : TurnedBack C N x x' where
  e t ht f v hv := by rw [h.e t ht f v hv, h'.e t ht f v hv]; rfl
  b t ht f v hv := by rw [h.b t ht f v hv, h'.b t ht f v hv]; rfl
  j t ht f v hv := by rw [h.j t ht f v hv, h'.j t ht f v hv]; rfl
  species := h'.species.trans (same_turned h.species).symm

/-- the momenta of the particles a state shows are those of its slots -/
theorem slot_of {N : Nat} {x : St k} {P : Mom → Prop}
    (h : ∀ a ∈ x.parts, ∀ t, t < N → ∀ s ∈ a.2 t, s.dead = false → P s.mom) : ∀ s ∈ cloudOf N x.parts, ∀ p ∈ s.2, P p.mom := by
  intro s hs p hp
  obtain ⟨a, ha, rfl⟩ := List.mem_map.mp hs
  obtain ⟨t, ht, hp⟩ := List.mem_flatMap.mp hp
  obtain ⟨sl, hsl, he⟩ := List.mem_filterMap.mp hp
  unfold ptc at he
  split at he
  · cases he
  · rename_i hd
    obtain ⟨v, _, rfl⟩ := Option.map_eq_some_iff.mp he
    exact h a ha t (List.mem_range.mp ht) sl hsl (by simpa using hd)

theorem slow_start {C : Conf k} {N : Nat} {co : Nat → Fin k → Nat} {β : ℚ} (hC : Admissible C β) {x : St k} {W : World k}
    (h : Starts C N co β x W) : Slow C.d C.dt W.cloud := by
  have := SameCloud.moms h.agrees.species (P := fun m => ∀ i : Fin k, |m.invGamma * uAt m i| ≤ β)
    (slot_of (P := fun m => ∀ i : Fin k, |m.invGamma * uAt m i| ≤ β) fun a ha t ht s hs hd => (h.inside a ha t ht s hs hd).choose_spec.2.2)
  exact fun s hs p hp i => vel_dt (hC.courant i) (this s hs p hp i)

/-- how E depends on the currents -/
theorem current_part2 (d : Fin 2 → ℚ) (c2 eps0 h : ℚ) (b j J : V3 2) (f : Fin 3) (c : Fin 2 → Int) :
    yeeE2 ⟨d, c2, eps0⟩ h b j f c - yeeE2 ⟨d, c2, eps0⟩ h b J f c = -(h / eps0 * (j f c - J f c)) := by
  match f with
  | 0 =>
    show h * c2 * ((b 2 c - b 2 (dn 1 c)) / d 1) - h / eps0 * j 0 c - (h * c2 * ((b 2 c - b 2 (dn 1 c)) / d 1) - h / eps0 * J 0 c) = _
    ring
  | 1 =>
    show h * c2 * (-(b 2 c - b 2 (dn 0 c)) / d 0) - h / eps0 * j 1 c - (h * c2 * (-(b 2 c - b 2 (dn 0 c)) / d 0) - h / eps0 * J 1 c) = _
    ring
  | 2 =>
    show h * c2 * ((b 1 c - b 1 (dn 0 c)) / d 0 - (b 0 c - b 0 (dn 1 c)) / d 1) - h / eps0 * j 2 c
      - (h * c2 * ((b 1 c - b 1 (dn 0 c)) / d 0 - (b 0 c - b 0 (dn 1 c)) / d 1) - h / eps0 * J 2 c) = _
    ring

theorem current_part3 (d : Fin 3 → ℚ) (c2 eps0 h : ℚ) (b j J : V3 3) (f : Fin 3) (c : Fin 3 → Int) :
    yeeE3 ⟨d, c2, eps0⟩ h b j f c - yeeE3 ⟨d, c2, eps0⟩ h b J f c = -(h / eps0 * (j f c - J f c)) := by
  match f with
  | 0 =>
    show h * c2 * ((b 2 c - b 2 (dn 1 c)) / d 1 - (b 1 c - b 1 (dn 2 c)) / d 2) - h / eps0 * j 0 c
      - (h * c2 * ((b 2 c - b 2 (dn 1 c)) / d 1 - (b 1 c - b 1 (dn 2 c)) / d 2) - h / eps0 * J 0 c) = _
    ring
  | 1 =>
    show h * c2 * ((b 0 c - b 0 (dn 2 c)) / d 2 - (b 2 c - b 2 (dn 0 c)) / d 0) - h / eps0 * j 1 c
      - (h * c2 * ((b 0 c - b 0 (dn 2 c)) / d 2 - (b 2 c - b 2 (dn 0 c)) / d 0) - h / eps0 * J 1 c) = _
    ring
  | 2 =>
    show h * c2 * ((b 1 c - b 1 (dn 0 c)) / d 0 - (b 0 c - b 0 (dn 1 c)) / d 1) - h / eps0 * j 2 c
      - (h * c2 * ((b 1 c - b 1 (dn 0 c)) / d 0 - (b 0 c - b 0 (dn 1 c)) / d 1) - h / eps0 * J 2 c) = _
    ring

/-! ## two dimensions -/

theorem phys_slow2 {C : Conf 2} {β : ℚ} (hC : Admissible C β) (W : World 2) :
    Slow C.d C.dt (W.step (phys2 (fun a => C.np a * C.n a) C.d C.c2 C.eps0 C.dt C.rs)).cloud :=
  Lim.slow (Φ := phys2 (fun a => C.np a * C.n a) C.d C.c2 C.eps0 C.dt C.rs) (lim_of hC) W

/-- C98: if a 2D run is stopped after `n` steps, turned back in time and continued, on whatever ranks, schedules, orders
and paths of the push, then `i` steps later it shows what the first run showed `i` steps before it was stopped, turned back:
all fields, currents and particles, exactly. -/
theorem retraced2 {C : Conf 2} {β : ℚ} (hC : Admissible C β) {W : World 2} {rk rk' : Nat → Nat → Nat} {x x' : Nat → St 2}
    (h0 : Starts C (sys2 C).npatches C.coord2 β (x 0) W) (hrun : Run (sys2 C) rk x) (n : Nat)
    (ht : TurnedBack C (sys2 C).npatches (x n) (x' 0)) (hi : Inside C (sys2 C).npatches C.coord2 β (x' 0))
    (hrun' : Run (sys2 C) rk' x') (i : Nat) (hn : i < n) : TurnedBack C (sys2 C).npatches (x (n - i)) (x' i) := by
  have h := follows2.mp (run_follows hC.facts2 hC.bounds2 (follows2.mpr h0) hrun n)
  have h' := (run_is_undivided2 hC (starts_turned h.agrees h.period ht hi) hrun' i).1
  have e : undividedRun2 C (turned (undividedRun2 C W n)) i = turned (undividedRun2 C W (n - i)) :=
    run_back (undoes2 (cells_pos hC) hC.cell hC.step) (phys_slow2 hC) W n i hn
  have e' : undividedRun2 C (turned (World.run C.phys2 W n)) i = turned (undividedRun2 C W (n - i)) := e
  rw [e'] at h'
  exact turned_of (run_is_undivided2 hC h0 hrun (n - i)).1 h'

/-- C98: turned back after `n` steps and continued for `n` steps, the particles are where they started, with the opposite
momenta; B is the opposite of that of the start; and E is that of the start but for the currents the first half step used,
which were not yet those of the particles: without them, or if they were, E is that of the start. -/
theorem back_to_start2 {C : Conf 2} {β : ℚ} (hC : Admissible C β) {W : World 2} {rk rk' : Nat → Nat → Nat} {x x' : Nat → St 2}
    (h0 : Starts C (sys2 C).npatches C.coord2 β (x 0) W) (hg : GammasFit C (sys2 C).npatches (x 0)) (hrun : Run (sys2 C) rk x)
    (n : Nat) (hn : 0 < n) (ht : TurnedBack C (sys2 C).npatches (x n) (x' 0))
    (hi : Inside C (sys2 C).npatches C.coord2 β (x' 0)) (hrun' : Run (sys2 C) rk' x') :
    SameCloud (fun i => C.np i * C.n i * C.d i) (cloudOf (sys2 C).npatches (x' n).parts)
      (turnedCloud (cloudOf (sys2 C).npatches (x 0).parts)) ∧
    (∀ t, t < (sys2 C).npatches → ∀ f v, Stored C.n C.ng v →
      ((x' n).fld t).b f (index C.n C.ng v) = -((x 0).fld t).b f (index C.n C.ng v)) ∧
    ∀ t, t < (sys2 C).npatches → ∀ f v, Stored C.n 0 v →
      ((x' n).fld t).e f (index C.n C.ng v) = ((x 0).fld t).e f (index C.n C.ng v)
        - C.dt / (2 * C.eps0) * (((x 0).fld t).j f (index C.n C.ng v) + ((x' n).fld t).j f (index C.n C.ng v)) := by
  have h := follows2.mp (run_follows hC.facts2 hC.bounds2 (follows2.mpr h0) hrun n)
  have h' := (run_is_undivided2 hC (starts_turned h.agrees h.period ht hi) hrun' n).1
  have hfit : ∀ s ∈ W.cloud, ∀ p ∈ s.2, Fits C.rs p.mom := SameCloud.moms h0.agrees.species hg
  have U := undoes2 (c2 := C.c2) (eps0 := C.eps0) (rs := C.rs) (cells_pos hC) hC.cell hC.step
  obtain ⟨e1, e2, e3⟩ := run_back_all U (phys_slow2 hC) W hfit (slow_start hC h0) n hn
  have hj : (undividedRun2 C (turned (World.run C.phys2 W n)) n).fld.j
      = fun f c => -cur2 (fun a => C.np a * C.n a) C.d C.dt W.cloud f c := by
    obtain ⟨m, rfl⟩ : ∃ m, n = m + 1 := ⟨n - 1, by omega⟩
    have e1' : (undividedRun2 C (turned (World.run C.phys2 W (m + 1))) (m + 1)).cloud = turnedCloud W.cloud := e1
    show cur2 (fun a => C.np a * C.n a) C.d C.dt (undividedRun2 C (turned (World.run C.phys2 W (m + 1))) (m + 1)).cloud = _
    rw [e1']
    exact U.cur _ (slow_start hC h0)
  have e1' : (undividedRun2 C (turned (World.run C.phys2 W n)) n).cloud = turnedCloud W.cloud := e1
  have e2' : (undividedRun2 C (turned (World.run C.phys2 W n)) n).fld.b = fun f c => -W.fld.b f c := e2
  refine ⟨?_, ?_, ?_⟩
  · have := h'.species
    rw [e1'] at this
    exact this.trans (same_turned h0.agrees.species).symm
  · intro t ht f v hv
    rw [h'.b t ht f v hv, h0.agrees.b t ht f v hv, e2']
  · intro t ht f v hv
    have hv' : Stored C.n C.ng v := fun a => by have := hv a; constructor <;> omega
    rw [h'.e t ht f v hv', h'.j t ht f v hv, hj, h0.agrees.e t ht f v hv', h0.agrees.j t ht f v hv]
    refine (e3 f _).trans ?_
    generalize onGrid C.n (C.coord2 t) v = c
    generalize hJ : cur2 (fun a => C.np a * C.n a) C.d C.dt W.cloud = J
    show W.fld.e f c + yeeE2 ⟨C.d, C.c2, C.eps0⟩ (1 / 2 * C.dt) W.fld.b W.fld.j f c
      - yeeE2 ⟨C.d, C.c2, C.eps0⟩ (1 / 2 * C.dt) W.fld.b (cur2 (fun a => C.np a * C.n a) C.d C.dt W.cloud) f c
      = W.fld.e f c - C.dt / (2 * C.eps0) * (W.fld.j f c + -J f c)
    rw [hJ, add_sub_assoc, current_part2]
    ring

/-- C98: after the first step the stored `1/γ` of all particles belongs to their momenta, so every state a run reaches is a
start from which it can be brought back -/
theorem gammas_fit2 {C : Conf 2} {β : ℚ} (hC : Admissible C β) {W : World 2} {rk : Nat → Nat → Nat} {x : Nat → St 2}
    (h0 : Starts C (sys2 C).npatches C.coord2 β (x 0) W) (hrun : Run (sys2 C) rk x) (i : Nat) (hi : 0 < i) :
    GammasFit C (sys2 C).npatches (x i) := by
  obtain ⟨m, rfl⟩ : ∃ m, i = m + 1 := ⟨i - 1, by omega⟩
  have h := (run_is_undivided2 hC h0 hrun (m + 1)).1.species.symm
  exact SameCloud.moms h (P := Fits C.rs)
    (step_fits (Φ := phys2 (fun a => C.np a * C.n a) C.d C.c2 C.eps0 C.dt C.rs) (undividedRun2 C W m))

/-! ## three dimensions -/

theorem cells_two {C : Conf k} {β : ℚ} (h : Admissible C β) (a : Fin k) : 2 ≤ C.np a * C.n a := by
  have h1 := h.patches a
  have h2 := h.wide a
  have h3 := h.guard
  calc 2 ≤ 1 * C.n a := by omega
    _ ≤ C.np a * C.n a := Nat.mul_le_mul_right _ h1

theorem phys_slow3 {C : Conf 3} {β : ℚ} (hC : Admissible C β) (W : World 3) :
    Slow C.d C.dt (W.step (phys3 (fun a => C.np a * C.n a) C.d C.c2 C.eps0 C.dt C.rs)).cloud :=
  Lim.slow (Φ := phys3 (fun a => C.np a * C.n a) C.d C.c2 C.eps0 C.dt C.rs) (lim_of hC) W

/-- C98 in 3D, for species on the unified path. Missing for the full property: species on the split path, which the code
does not move in 3D (C24). -/
theorem retraced3_partial {C : Conf 3} {β : ℚ} (hC : Admissible C β) {W : World 3} {rk rk' : Nat → Nat → Nat} {x x' : Nat → St 3}
    (h0 : Starts C (sys3 C).npatches C.coord3 β (x 0) W) (hu : ∀ a ∈ (x 0).parts, a.1.unified = true)
    (hrun : Run (sys3 C) rk x) (n : Nat) (ht : TurnedBack C (sys3 C).npatches (x n) (x' 0))
    (hi : Inside C (sys3 C).npatches C.coord3 β (x' 0)) (hu' : ∀ a ∈ (x' 0).parts, a.1.unified = true)
    (hrun' : Run (sys3 C) rk' x') (i : Nat) (hn : i < n) : TurnedBack C (sys3 C).npatches (x (n - i)) (x' i) := by
  have h := (follows3.mp (run_follows hC.facts3 hC.bounds3 (follows3.mpr ⟨h0, hu⟩) hrun n)).1
  have h' := (run_is_undivided3_partial hC (starts_turned h.agrees h.period ht hi) hu' hrun' i).1
  have e : undividedRun3 C (turned (undividedRun3 C W n)) i = turned (undividedRun3 C W (n - i)) :=
    run_back (undoes3 (cells_two hC) hC.cell hC.step) (phys_slow3 hC) W n i hn
  have e' : undividedRun3 C (turned (World.run C.phys3 W n)) i = turned (undividedRun3 C W (n - i)) := e
  rw [e'] at h'
  exact turned_of (run_is_undivided3_partial hC h0 hu hrun (n - i)).1 h'

/-- C98 in 3D, back to the start, for species on the unified path. Missing for the full property: species on the split
path. -/
theorem back_to_start3_partial {C : Conf 3} {β : ℚ} (hC : Admissible C β) {W : World 3} {rk rk' : Nat → Nat → Nat} {x x' : Nat → St 3}
    (h0 : Starts C (sys3 C).npatches C.coord3 β (x 0) W) (hu : ∀ a ∈ (x 0).parts, a.1.unified = true)
    (hg : GammasFit C (sys3 C).npatches (x 0)) (hrun : Run (sys3 C) rk x)
    (n : Nat) (hn : 0 < n) (ht : TurnedBack C (sys3 C).npatches (x n) (x' 0))
    (hi : Inside C (sys3 C).npatches C.coord3 β (x' 0)) (hu' : ∀ a ∈ (x' 0).parts, a.1.unified = true) (hrun' : Run (sys3 C) rk' x') :
    SameCloud (fun i => C.np i * C.n i * C.d i) (cloudOf (sys3 C).npatches (x' n).parts)
      (turnedCloud (cloudOf (sys3 C).npatches (x 0).parts)) ∧
    (∀ t, t < (sys3 C).npatches → ∀ f v, Stored C.n C.ng v →
      ((x' n).fld t).b f (index C.n C.ng v) = -((x 0).fld t).b f (index C.n C.ng v)) ∧
    ∀ t, t < (sys3 C).npatches → ∀ f v, Stored C.n 0 v →
      ((x' n).fld t).e f (index C.n C.ng v) = ((x 0).fld t).e f (index C.n C.ng v)
        - C.dt / (2 * C.eps0) * (((x 0).fld t).j f (index C.n C.ng v) + ((x' n).fld t).j f (index C.n C.ng v)) := by
  have h := (follows3.mp (run_follows hC.facts3 hC.bounds3 (follows3.mpr ⟨h0, hu⟩) hrun n)).1
  have h' := (run_is_undivided3_partial hC (starts_turned h.agrees h.period ht hi) hu' hrun' n).1
  have hfit : ∀ s ∈ W.cloud, ∀ p ∈ s.2, Fits C.rs p.mom := SameCloud.moms h0.agrees.species hg
  have U := undoes3 (c2 := C.c2) (eps0 := C.eps0) (rs := C.rs) (cells_two hC) hC.cell hC.step
  obtain ⟨e1, e2, e3⟩ := run_back_all U (phys_slow3 hC) W hfit (slow_start hC h0) n hn
  have hj : (undividedRun3 C (turned (World.run C.phys3 W n)) n).fld.j
      = fun f c => -cur3 (fun a => C.np a * C.n a) C.d C.dt W.cloud f c := by
    obtain ⟨m, rfl⟩ : ∃ m, n = m + 1 := ⟨n - 1, by omega⟩
    have e1' : (undividedRun3 C (turned (World.run C.phys3 W (m + 1))) (m + 1)).cloud = turnedCloud W.cloud := e1
    show cur3 (fun a => C.np a * C.n a) C.d C.dt (undividedRun3 C (turned (World.run C.phys3 W (m + 1))) (m + 1)).cloud = _
    rw [e1']
    exact U.cur _ (slow_start hC h0)
  have e1' : (undividedRun3 C (turned (World.run C.phys3 W n)) n).cloud = turnedCloud W.cloud := e1
  have e2' : (undividedRun3 C (turned (World.run C.phys3 W n)) n).fld.b = fun f c => -W.fld.b f c := e2
  refine ⟨?_, ?_, ?_⟩
  · have := h'.species
    rw [e1'] at this
    exact this.trans (same_turned h0.agrees.species).symm
  · intro t ht f v hv
    rw [h'.b t ht f v hv, h0.agrees.b t ht f v hv, e2']
  · intro t ht f v hv
    have hv' : Stored C.n C.ng v := fun a => by have := hv a; constructor <;> omega
    rw [h'.e t ht f v hv', h'.j t ht f v hv, hj, h0.agrees.e t ht f v hv', h0.agrees.j t ht f v hv]
    refine (e3 f _).trans ?_
    generalize onGrid C.n (C.coord3 t) v = c
    generalize hJ : cur3 (fun a => C.np a * C.n a) C.d C.dt W.cloud = J
    show W.fld.e f c + yeeE3 ⟨C.d, C.c2, C.eps0⟩ (1 / 2 * C.dt) W.fld.b W.fld.j f c
      - yeeE3 ⟨C.d, C.c2, C.eps0⟩ (1 / 2 * C.dt) W.fld.b (cur3 (fun a => C.np a * C.n a) C.d C.dt W.cloud) f c
      = W.fld.e f c - C.dt / (2 * C.eps0) * (W.fld.j f c + -J f c)
    rw [hJ, add_sub_assoc, current_part3]
    ring

/-- C98: after the first step the stored `1/γ` of all particles belongs to their momenta, so every state a run reaches is a
start from which a 3D run, on the unified path, can be brought back -/
theorem gammas_fit3 {C : Conf 3} {β : ℚ} (hC : Admissible C β) {W : World 3} {rk : Nat → Nat → Nat} {x : Nat → St 3}
    (h0 : Starts C (sys3 C).npatches C.coord3 β (x 0) W) (hu : ∀ a ∈ (x 0).parts, a.1.unified = true) (hrun : Run (sys3 C) rk x) (i : Nat) (hi : 0 < i) :
    GammasFit C (sys3 C).npatches (x i) := by
  obtain ⟨m, rfl⟩ : ∃ m, i = m + 1 := ⟨i - 1, by omega⟩
  have h := (run_is_undivided3_partial hC h0 hu hrun (m + 1)).1.species.symm
  exact SameCloud.moms h (P := Fits C.rs)
    (step_fits (Φ := phys3 (fun a => C.np a * C.n a) C.d C.c2 C.eps0 C.dt C.rs) (undividedRun3 C W m))

/-! ## cases that meet the hypotheses -/

/-- a slot with the opposite momentum -/
def backSlot (s : Slot k) : Slot k := { s with mom := opposite s.mom }
/-- a state turned back in place -/
def backState (x : St k) : St k :=
  ⟨fun t => ⟨(x.fld t).e, fun f i => -(x.fld t).b f i, fun f i => -(x.fld t).j f i⟩, x.parts.map fun a => (a.1, fun t => (a.2 t).map backSlot)⟩

/-- C98: every state can be turned back, and its particles stay in their patches -/
theorem can_turn {C : Conf k} {N : Nat} {co : Nat → Fin k → Nat} {β : ℚ} {x : St k} (h : Inside C N co β x) :
    TurnedBack C N x (backState x) ∧ Inside C N co β (backState x) := by
  refine ⟨⟨fun _ _ _ _ _ => rfl, fun _ _ _ _ _ => rfl, fun _ _ _ _ _ => rfl, ?_⟩, ?_⟩
  · have : cloudOf N (backState x).parts = turnedCloud (cloudOf N x.parts) := by
      unfold cloudOf turnedCloud backState
      rw [List.map_map, List.map_map]
      refine List.map_congr_left fun a _ => ?_
      show (a.1.toKind, particles N fun t => (a.2 t).map backSlot) = (a.1.toKind, (particles N a.2).map _)
      unfold particles
      rw [List.map_flatMap]
      congr 2
      funext t
      rw [List.filterMap_map, List.map_filterMap]
      congr 1
      funext s
      show ptc (backSlot s) = (ptc s).map _
      unfold ptc backSlot
      dsimp only
      split
      · rfl
      · cases nums s.pos <;> rfl
    rw [this]
    exact List.forall₂_same.mpr fun s _ => ⟨rfl, .of_perm (.refl _)⟩
  · intro a ha t ht s hs hd
    obtain ⟨a0, ha0, rfl⟩ := List.mem_map.mp ha
    obtain ⟨s0, hs0, rfl⟩ := List.mem_map.mp hs
    obtain ⟨v, h1, h2, h3⟩ := h a0 ha0 t ht s0 hs0 hd
    refine ⟨v, h1, h2, fun i => ?_⟩
    have : uAt (opposite s0.mom) i = -uAt s0.mom i := by unfold uAt; split <;> rfl
    show |s0.mom.invGamma * uAt (opposite s0.mom) i| ≤ β
    rw [this, mul_neg, abs_neg]
    exact h3 i

/-- 2D: a run of two patches on changing ranks, looked at from its first step on, turned back after five more steps and
continued on one rank -/
example : ∃ (x x' : Nat → St 2) (W : World 2),
    Admissible (exConf 2 ![2, 1] ![4, 3]) 1 ∧
    Starts (exConf 2 ![2, 1] ![4, 3]) (sys2 (exConf 2 ![2, 1] ![4, 3])).npatches (exConf 2 ![2, 1] ![4, 3]).coord2 1 (x 0) W ∧
    GammasFit (exConf 2 ![2, 1] ![4, 3]) (sys2 (exConf 2 ![2, 1] ![4, 3])).npatches (x 0) ∧
    Run (sys2 (exConf 2 ![2, 1] ![4, 3])) (fun i t => (i + 1 + t) % 2) x ∧
    TurnedBack (exConf 2 ![2, 1] ![4, 3]) (sys2 (exConf 2 ![2, 1] ![4, 3])).npatches (x 5) (x' 0) ∧
    Inside (exConf 2 ![2, 1] ![4, 3]) (sys2 (exConf 2 ![2, 1] ![4, 3])).npatches (exConf 2 ![2, 1] ![4, 3]).coord2 1 (x' 0) ∧
    Run (sys2 (exConf 2 ![2, 1] ![4, 3])) (fun _ _ => 0) x' := by
  have a1 : Admissible (exConf 2 ![2, 1] ![4, 3]) 1 :=
    exConf_ok (fun a => match a with | 0 => by decide | 1 => by decide) (fun a => match a with | 0 => by decide | 1 => by decide)
  have s1 := exStarts (np := ![2, 1]) (n := ![4, 3]) (N := (sys2 (exConf 2 ![2, 1] ![4, 3])).npatches)
    (co := (exConf 2 ![2, 1] ![4, 3]).coord2) (fun a => match a with | 0 => by decide | 1 => by decide) (by decide)
    (by funext a; match a with | 0 => rfl | 1 => rfl) false
  obtain ⟨x, e1, r1⟩ := runs2 a1 s1 (fun i t => (i + t) % 2)
  have s1' := e1 ▸ s1
  have h1 := follows2.mp (run_follows a1.facts2 a1.bounds2 (follows2.mpr s1') r1 1)
  have h6 := follows2.mp (run_follows a1.facts2 a1.bounds2 (follows2.mpr s1') r1 6)
  obtain ⟨t6, i6⟩ := can_turn h6.inside
  obtain ⟨x', e2, r2⟩ := runs2 a1 (starts_turned h6.agrees h6.period t6 i6) (fun _ _ => 0)
  exact ⟨fun i => x (i + 1), x', _, a1, h1, gammas_fit2 a1 s1' r1 1 (by decide), fun i => r1 (i + 1), e2 ▸ t6, e2 ▸ i6, r2⟩

/-- 3D, on the unified path -/
example : ∃ x x' : Nat → St 3, Admissible (exConf 3 ![2, 1, 1] ![4, 3, 3]) 1 ∧
    Starts (exConf 3 ![2, 1, 1] ![4, 3, 3]) (sys3 (exConf 3 ![2, 1, 1] ![4, 3, 3])).npatches
      (exConf 3 ![2, 1, 1] ![4, 3, 3]).coord3 1 (x 0) (exWorld 3) ∧
    (∀ a ∈ (x 0).parts, a.1.unified = true) ∧
    Run (sys3 (exConf 3 ![2, 1, 1] ![4, 3, 3])) (fun _ t => t) x ∧
    TurnedBack (exConf 3 ![2, 1, 1] ![4, 3, 3]) (sys3 (exConf 3 ![2, 1, 1] ![4, 3, 3])).npatches (x 5) (x' 0) ∧
    Inside (exConf 3 ![2, 1, 1] ![4, 3, 3]) (sys3 (exConf 3 ![2, 1, 1] ![4, 3, 3])).npatches (exConf 3 ![2, 1, 1] ![4, 3, 3]).coord3 1 (x' 0) ∧
    (∀ a ∈ (x' 0).parts, a.1.unified = true) ∧
    Run (sys3 (exConf 3 ![2, 1, 1] ![4, 3, 3])) (fun _ t => t) x' := by
  have a1 : Admissible (exConf 3 ![2, 1, 1] ![4, 3, 3]) 1 :=
    exConf_ok (fun a => match a with | 0 => by decide | 1 => by decide | 2 => by decide)
      (fun a => match a with | 0 => by decide | 1 => by decide | 2 => by decide)
  have s1 := exStarts (np := ![2, 1, 1]) (n := ![4, 3, 3]) (N := (sys3 (exConf 3 ![2, 1, 1] ![4, 3, 3])).npatches)
    (co := (exConf 3 ![2, 1, 1] ![4, 3, 3]).coord3) (fun a => match a with | 0 => by decide | 1 => by decide | 2 => by decide)
    (by decide) (by funext a; match a with | 0 => rfl | 1 => rfl | 2 => rfl) true
  have hu : ∀ a ∈ (exState 3 true).parts, a.1.unified = true := by
    intro a ha
    rcases List.mem_singleton.mp ha with rfl
    rfl
  obtain ⟨x, e1, r1⟩ := runs3 a1 s1 hu (fun _ t => t)
  have s1' := e1 ▸ s1
  have hu1 : ∀ a ∈ (x 0).parts, a.1.unified = true := e1 ▸ hu
  obtain ⟨h5, u5⟩ := follows3.mp (run_follows a1.facts3 a1.bounds3 (follows3.mpr ⟨s1', hu1⟩) r1 5)
  obtain ⟨t5, i5⟩ := can_turn h5.inside
  have ub : ∀ a ∈ (backState (x 5)).parts, a.1.unified = true := by
    intro a ha
    obtain ⟨a0, ha0, rfl⟩ := List.mem_map.mp ha
    exact u5 a0 ha0
  obtain ⟨x', e2, r2⟩ := runs3 a1 (starts_turned h5.agrees h5.period t5 i5) ub (fun _ t => t)
  exact ⟨x, x', a1, s1', hu1, r1, e2 ▸ t5, e2 ▸ i5, e2 ▸ ub, r2⟩

end Verif.Reverse
