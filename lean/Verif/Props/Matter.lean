import Verif.Proofs.Matter
import Verif.Props.Reverse
/-!
# C102 — a run depends on the matter that the macro particles stand for, not on how it is cut into macro particles

Specification vocabulary: `Verif/Spec/Matter.lean` (`amount`, `SameMatter`), `Alike` below (two states of the program);
`Admissible`, `Starts`, `Inside` of C66.
-/
namespace Verif.Matter
open Verif.Maxwell Verif.SyncFields Verif.Pusher Verif.Deposit Verif.Shape Verif.WholeRun Verif.PicStep Verif.Symmetry

variable {k : Nat}

/-- Specification: two states of the program show the same fields, and their macro particles stand for the same matter: E and B in
every stored cell and the currents in the own cells are equal, and the living particles of all species have the same total of
every quantity -/
structure Alike (C : Conf k) (N : Nat) (x x' : St k) : Prop where
  e : ∀ t, t < N → ∀ f v, Stored C.n C.ng v → (x'.fld t).e f (index C.n C.ng v) = (x.fld t).e f (index C.n C.ng v)
  b : ∀ t, t < N → ∀ f v, Stored C.n C.ng v → (x'.fld t).b f (index C.n C.ng v) = (x.fld t).b f (index C.n C.ng v)
  j : ∀ t, t < N → ∀ f v, Stored C.n 0 v → (x'.fld t).j f (index C.n C.ng v) = (x.fld t).j f (index C.n C.ng v)
  matter : SameMatter (fun i => C.np i * C.n i * C.d i) (cloudOf N x.parts) (cloudOf N x'.parts)

/-- the undivided simulation a like state begins with -/
theorem starts_alike {C : Conf k} {N : Nat} {co : Nat → Fin k → Nat} {β : ℚ} {x x' : St k} {W : World k} (h : Starts C N co β x W)
    (ht : Alike C N x x') (hi : Inside C N co β x') : Starts C N co β x' ⟨W.fld, cloudOf N x'.parts⟩ where
  agrees := ⟨fun t h1 f v hv => (ht.e t h1 f v hv).trans (h.agrees.e t h1 f v hv),
    fun t h1 f v hv => (ht.b t h1 f v hv).trans (h.agrees.b t h1 f v hv),
    fun t h1 f v hv => (ht.j t h1 f v hv).trans (h.agrees.j t h1 f v hv), List.forall₂_same.mpr fun s _ => ⟨rfl, .of_perm (.refl _)⟩⟩
  inside := hi
  period := h.period

theorem alike_of {C : Conf k} {N : Nat} {co : Nat → Fin k → Nat} {x x' : St k} {U U' : World k} (h : Agrees C N co x U)
    (h' : Agrees C N co x' U') (hf : U'.fld = U.fld) (hm : SameMatter (fun i => C.np i * C.n i * C.d i) U.cloud U'.cloud) : Alike C N x x' where
  e t ht f v hv := by rw [h.e t ht f v hv, h'.e t ht f v hv, hf]
  b t ht f v hv := by rw [h.b t ht f v hv, h'.b t ht f v hv, hf]
  j t ht f v hv := by rw [h.j t ht f v hv, h'.j t ht f v hv, hf]
  matter := (SameMatter.of_same h.species).trans (hm.trans (SameMatter.of_same h'.species).symm)

theorem species_of {L : Fin k → ℚ} {a b : List (Kind × List (Ptc k))} (h : SameCloud L a b) {r : Nat} {s : Kind × List (Ptc k)} (hs : a[r]? = some s) :
    ∃ t, b[r]? = some t ∧ s.1 = t.1 ∧ SameParticles L s.2 t.2 := by
  unfold SameCloud at h
  induction h generalizing r with
  | nil => cases hs
  | @cons x y _ _ h1 _ ih =>
    cases r with
    | zero =>
      have : x = s := by simpa using hs
      subst this
      exact ⟨y, rfl, h1⟩
    | succ r => exact ih (by simpa using hs)

theorem species_to {L : Fin k → ℚ} {a b : List (Kind × List (Ptc k))} (h : SameCloud L a b) {r : Nat} {t : Kind × List (Ptc k)} (ht : b[r]? = some t) :
    ∃ s, a[r]? = some s ∧ s.1 = t.1 ∧ SameParticles L s.2 t.2 := by
  obtain ⟨s, h1, h2, h3⟩ := species_of h.symm ht
  exact ⟨s, h1, h2.symm, h3.symm⟩

/-- Specification: species number `r` of state `x` and number `r'` of state `x'` have the same charge and mass and the same
particles with the same weights, in any order and up to whole lengths of the domain -/
def SameSpecies (C : Conf k) (N : Nat) (x : St k) (r : Nat) (x' : St k) (r' : Nat) : Prop :=
  ∃ s s', (cloudOf N x.parts)[r]? = some s ∧ (cloudOf N x'.parts)[r']? = some s' ∧ s.1 = s'.1 ∧
    SameParticles (fun i => C.np i * C.n i * C.d i) s.2 s'.2

/-- C102: two 2D runs, on whatever ranks, schedules, orders and paths of the push, that begin with the same fields and with macro
particles that stand for the same matter (in other numbers, of other weights, in other species of the same charge and mass) show
the same fields and the same matter after every number of steps. -/
theorem same_matter2 {C : Conf 2} {β : ℚ} (hC : Admissible C β) {W : World 2} {rk rk' : Nat → Nat → Nat} {x x' : Nat → St 2}
    (h0 : Starts C (sys2 C).npatches C.coord2 β (x 0) W) (hrun : Run (sys2 C) rk x) (ht : Alike C (sys2 C).npatches (x 0) (x' 0))
    (hi : Inside C (sys2 C).npatches C.coord2 β (x' 0)) (hrun' : Run (sys2 C) rk' x') (i : Nat) : Alike C (sys2 C).npatches (x i) (x' i) := by
  have h := fun i => follows2.mp (run_follows hC.facts2 hC.bounds2 (follows2.mpr h0) hrun i)
  have h' := fun i => follows2.mp (run_follows hC.facts2 hC.bounds2 (follows2.mpr (starts_alike h0 ht hi)) hrun' i)
  have r := (weighs2 (np := C.np) (n := C.n) (c2 := C.c2) (eps0 := C.eps0) (fun a => lt_of_lt_of_le (by omega) (Reverse.cells_two hC a))
    hC.cell hC.step C.rs).run (W := W) (W' := ⟨W.fld, cloudOf (sys2 C).npatches (x' 0).parts⟩) (fun i => (h i).period.per) rfl
    (fun i => Reverse.slow_start hC (h i)) (fun i => Reverse.slow_start hC (h' i))
    ((SameMatter.of_same h0.agrees.species).symm.trans ht.matter) i
  exact alike_of (h i).agrees (h' i).agrees r.1 r.2

/-- C102: and a species that both runs begin with, has the same particles in both at every step, whatever the other species are cut
into. In particular, particles of weight zero are carried along by the fields of a run and change nothing in it. -/
theorem same_species2 {C : Conf 2} {β : ℚ} (hC : Admissible C β) {W : World 2} {rk rk' : Nat → Nat → Nat} {x x' : Nat → St 2}
    (h0 : Starts C (sys2 C).npatches C.coord2 β (x 0) W) (hrun : Run (sys2 C) rk x) (ht : Alike C (sys2 C).npatches (x 0) (x' 0))
    (hi : Inside C (sys2 C).npatches C.coord2 β (x' 0)) (hrun' : Run (sys2 C) rk' x') {r r' : Nat}
    (hs : SameSpecies C (sys2 C).npatches (x 0) r (x' 0) r') (i : Nat) : SameSpecies C (sys2 C).npatches (x i) r (x' i) r' := by
  have h := fun i => follows2.mp (run_follows hC.facts2 hC.bounds2 (follows2.mpr h0) hrun i)
  have h' := fun i => follows2.mp (run_follows hC.facts2 hC.bounds2 (follows2.mpr (starts_alike h0 ht hi)) hrun' i)
  have w := weighs2 (np := C.np) (n := C.n) (c2 := C.c2) (eps0 := C.eps0) (fun a => lt_of_lt_of_le (by omega) (Reverse.cells_two hC a))
    hC.cell hC.step C.rs
  have g := fun i => (w.run (W := W) (W' := ⟨W.fld, cloudOf (sys2 C).npatches (x' 0).parts⟩) (fun i => (h i).period.per) rfl
    (fun i => Reverse.slow_start hC (h i)) (fun i => Reverse.slow_start hC (h' i))
    ((SameMatter.of_same h0.agrees.species).symm.trans ht.matter) i).1
  obtain ⟨s, s', e, e', k1, p1⟩ := hs
  obtain ⟨t, et, k2, p2⟩ := species_of h0.agrees.species e
  obtain ⟨u, u', eu, eu', k3, p3⟩ := w.run_species (fun i => (h i).period.per) g et e' (k2.symm.trans k1) (p2.symm.trans p1) i
  obtain ⟨y, ey, k4, p4⟩ := species_to (h i).agrees.species eu
  obtain ⟨y', ey', k5, p5⟩ := species_to (h' i).agrees.species eu'
  exact ⟨y, y', ey, ey', k4.trans (k3.trans k5.symm), p4.trans (p3.trans p5.symm)⟩

/-- C102 in 3D for species on the unified path. Missing for the full property: species on the split path, which the code does not
move in 3D (C24). -/
theorem same_matter3_partial {C : Conf 3} {β : ℚ} (hC : Admissible C β) {W : World 3} {rk rk' : Nat → Nat → Nat} {x x' : Nat → St 3}
    (h0 : Starts C (sys3 C).npatches C.coord3 β (x 0) W) (hu : ∀ a ∈ (x 0).parts, a.1.unified = true) (hrun : Run (sys3 C) rk x)
    (ht : Alike C (sys3 C).npatches (x 0) (x' 0)) (hi : Inside C (sys3 C).npatches C.coord3 β (x' 0))
    (hu' : ∀ a ∈ (x' 0).parts, a.1.unified = true) (hrun' : Run (sys3 C) rk' x') (i : Nat) : Alike C (sys3 C).npatches (x i) (x' i) := by
  have h := fun i => follows3.mp (run_follows hC.facts3 hC.bounds3 (follows3.mpr ⟨h0, hu⟩) hrun i)
  have h' := fun i => follows3.mp (run_follows hC.facts3 hC.bounds3 (follows3.mpr ⟨starts_alike h0 ht hi, hu'⟩) hrun' i)
  have r := (weighs3 (np := C.np) (n := C.n) (c2 := C.c2) (eps0 := C.eps0) (Reverse.cells_two hC)
    hC.cell hC.step C.rs).run (W := W) (W' := ⟨W.fld, cloudOf (sys3 C).npatches (x' 0).parts⟩) (fun i => (h i).1.period.per) rfl
    (fun i => Reverse.slow_start hC (h i).1) (fun i => Reverse.slow_start hC (h' i).1)
    ((SameMatter.of_same h0.agrees.species).symm.trans ht.matter) i
  exact alike_of (h i).1.agrees (h' i).1.agrees r.1 r.2

/-- C102 in 3D for species on the unified path, for a species that both runs begin with. Missing for the full property: species on
the split path, which the code does not move in 3D (C24). -/
theorem same_species3_partial {C : Conf 3} {β : ℚ} (hC : Admissible C β) {W : World 3} {rk rk' : Nat → Nat → Nat} {x x' : Nat → St 3}
    (h0 : Starts C (sys3 C).npatches C.coord3 β (x 0) W) (hu : ∀ a ∈ (x 0).parts, a.1.unified = true) (hrun : Run (sys3 C) rk x)
    (ht : Alike C (sys3 C).npatches (x 0) (x' 0)) (hi : Inside C (sys3 C).npatches C.coord3 β (x' 0))
    (hu' : ∀ a ∈ (x' 0).parts, a.1.unified = true) (hrun' : Run (sys3 C) rk' x') {r r' : Nat}
    (hs : SameSpecies C (sys3 C).npatches (x 0) r (x' 0) r') (i : Nat) : SameSpecies C (sys3 C).npatches (x i) r (x' i) r' := by
  have h := fun i => follows3.mp (run_follows hC.facts3 hC.bounds3 (follows3.mpr ⟨h0, hu⟩) hrun i)
  have h' := fun i => follows3.mp (run_follows hC.facts3 hC.bounds3 (follows3.mpr ⟨starts_alike h0 ht hi, hu'⟩) hrun' i)
  have w := weighs3 (np := C.np) (n := C.n) (c2 := C.c2) (eps0 := C.eps0) (Reverse.cells_two hC) hC.cell hC.step C.rs
  have g := fun i => (w.run (W := W) (W' := ⟨W.fld, cloudOf (sys3 C).npatches (x' 0).parts⟩) (fun i => (h i).1.period.per) rfl
    (fun i => Reverse.slow_start hC (h i).1) (fun i => Reverse.slow_start hC (h' i).1)
    ((SameMatter.of_same h0.agrees.species).symm.trans ht.matter) i).1
  obtain ⟨s, s', e, e', k1, p1⟩ := hs
  obtain ⟨t, et, k2, p2⟩ := species_of h0.agrees.species e
  obtain ⟨u, u', eu, eu', k3, p3⟩ := w.run_species (fun i => (h i).1.period.per) g et e' (k2.symm.trans k1) (p2.symm.trans p1) i
  obtain ⟨y, ey, k4, p4⟩ := species_to (h i).1.agrees.species eu
  obtain ⟨y', ey', k5, p5⟩ := species_to (h' i).1.agrees.species eu'
  exact ⟨y, y', ey, ey', k4.trans (k3.trans k5.symm), p4.trans (p3.trans p5.symm)⟩

/-! ## ways to cut the same matter -/

/-- a slot with the fraction `r` of its weight -/
def part (r : ℚ) (s : Slot k) : Slot k := ⟨s.pos, ⟨s.mom.ux, s.mom.uy, s.mom.uz, s.mom.invGamma, r * s.mom.w⟩, s.eb, s.dead⟩

/-- every macro particle replaced by two at the same place, with the fractions `r` and `1 - r` of its weight, and a species of macro
particles of weight zero added -/
def recut (r : ℚ) (tr : Species × (Nat → List (Slot k))) (x : St k) : St k :=
  ⟨x.fld, (x.parts.map fun a => (a.1, fun t => (a.2 t).flatMap fun s => [part r s, part (1 - r) s])) ++ [(tr.1, fun t => (tr.2 t).map (part 0))]⟩

theorem ptc_part (r : ℚ) (s : Slot k) :
    ptc (part r s) = (ptc s).map fun p => ⟨p.pos, ⟨p.mom.ux, p.mom.uy, p.mom.uz, p.mom.invGamma, r * p.mom.w⟩⟩ := by
  unfold ptc part
  dsimp only
  split
  · rfl
  · cases nums s.pos <;> rfl

/-- C102: a state can be recut: splitting all macro particles and adding a species of weightless ones gives a like state, with all
particles in their patches -/
theorem can_recut (r : ℚ) {tr : Species × (Nat → List (Slot k))} {C : Conf k} {N : Nat} {co : Nat → Fin k → Nat} {β : ℚ} {x : St k}
    (h : Inside C N co β x) (htr : Inside C N co β ⟨x.fld, [tr]⟩) : Alike C N x (recut r tr x) ∧ Inside C N co β (recut r tr x) := by
  refine ⟨⟨fun _ _ _ _ _ => rfl, fun _ _ _ _ _ => rfl, fun _ _ _ _ _ => rfl, ?_⟩, ?_⟩
  · intro F _
    have key : ∀ (κ : Kind) (l : List (Slot k)), ((l.flatMap fun s => [part r s, part (1 - r) s]).filterMap ptc |>.map fun p =>
        p.mom.w * F κ p.pos (motion p)).sum = ((l.filterMap ptc).map fun p => p.mom.w * F κ p.pos (motion p)).sum := by
      intro κ l
      induction l with
      | nil => rfl
      | cons s l ih =>
        rw [List.flatMap_cons, List.filterMap_append, List.map_append, List.sum_append, ih, List.filterMap_cons]
        rw [List.filterMap_cons, List.filterMap_cons, ptc_part, ptc_part]
        cases ptc s with
        | none => simp
        | some p =>
          simp only [Option.map_some, List.filterMap_nil, List.map_cons, List.map_nil, List.sum_cons, List.sum_nil]
          show r * p.mom.w * F κ p.pos (motion p) + ((1 - r) * p.mom.w * F κ p.pos (motion p) + 0) + _ = _
          ring
    have zero : ∀ (κ : Kind) (l : List (Slot k)), (((l.map (part 0)).filterMap ptc).map fun p =>
        p.mom.w * F κ p.pos (motion p)).sum = 0 := by
      intro κ l
      induction l with
      | nil => rfl
      | cons s l ih =>
        rw [List.map_cons, List.filterMap_cons, ptc_part]
        cases ptc s with
        | none => exact ih
        | some p =>
          simp only [Option.map_some, List.map_cons, List.sum_cons, ih]
          ring
    have glue : ∀ (κ : Kind) (ps : Nat → List (Slot k)) , ((particles N ps).map fun p => p.mom.w * F κ p.pos (motion p)).sum
        = ((List.range N).map fun t => (((ps t).filterMap ptc).map fun p => p.mom.w * F κ p.pos (motion p)).sum).sum := by
      intro κ ps
      unfold particles
      rw [List.map_flatMap, List.flatMap_def, List.sum_flatten, List.map_map]
      rfl
    unfold amount cloudOf recut
    dsimp only
    rw [List.map_append, List.map_append, List.sum_append, List.map_map, List.map_map, List.map_map]
    have e2 : ((List.map (fun s : Kind × List (Ptc k) => (s.2.map fun p => p.mom.w * F s.1 p.pos (motion p)).sum)
        (List.map (fun s : Species × (Nat → List (Slot k)) => (s.1.toKind, particles N s.2)) [(tr.1, fun t => (tr.2 t).map (part 0))]))).sum = 0 := by
      rw [List.map_singleton, List.map_singleton, List.sum_singleton]
      dsimp only
      rw [glue]
      simp only [zero]
      simp
    rw [e2, add_zero]
    congr 1
    refine List.map_congr_left fun a _ => ?_
    show ((particles N a.2).map _).sum = ((particles N fun t => (a.2 t).flatMap fun s => [part r s, part (1 - r) s]).map _).sum
    rw [glue, glue]
    congr 1
    exact List.map_congr_left fun t _ => (key _ _).symm
  · intro a ha t ht s hs hd
    have uA : ∀ (q : ℚ) (s0 : Slot k) (i : Nat), uAt (part q s0).mom i = uAt s0.mom i := by
      intro q s0 i
      show uAt ⟨s0.mom.ux, s0.mom.uy, s0.mom.uz, s0.mom.invGamma, _⟩ i = _
      unfold uAt; split <;> rfl
    have go : ∀ (q : ℚ) (s0 : Slot k), (∃ v, nums s0.pos = some v ∧
        (∀ i, co t i * C.n i * C.d i - C.d i / 2 ≤ v i ∧ v i ≤ co t i * C.n i * C.d i + C.n i * C.d i - C.d i / 2) ∧
        ∀ i : Fin k, |s0.mom.invGamma * uAt s0.mom i| ≤ β) → ∃ v, nums (part q s0).pos = some v ∧
        (∀ i, co t i * C.n i * C.d i - C.d i / 2 ≤ v i ∧ v i ≤ co t i * C.n i * C.d i + C.n i * C.d i - C.d i / 2) ∧
        ∀ i : Fin k, |(part q s0).mom.invGamma * uAt (part q s0).mom i| ≤ β := by
      rintro q s0 ⟨v, h1, h2, h3⟩
      refine ⟨v, h1, h2, fun i => ?_⟩
      rw [uA]
      exact h3 i
    rcases List.mem_append.mp ha with ha | ha
    · obtain ⟨a0, ha0, rfl⟩ := List.mem_map.mp ha
      obtain ⟨s0, hs0, hs⟩ := List.mem_flatMap.mp hs
      rcases List.mem_cons.mp hs with rfl | hs
      · exact go _ _ (h a0 ha0 t ht s0 hs0 hd)
      · rcases List.mem_singleton.mp hs with rfl
        exact go _ _ (h a0 ha0 t ht s0 hs0 hd)
    · rcases List.mem_singleton.mp ha with rfl
      obtain ⟨s0, hs0, rfl⟩ := List.mem_map.mp hs
      exact go _ _ (htr tr List.mem_cons_self t ht s0 hs0 hd)

/-! ## cases that meet the hypotheses -/

/-- 2D: a run of two patches on changing ranks with the split path, and a run in which every macro particle is cut into a third and
two thirds, with a species of weightless particles -/
example : ∃ (x x' : Nat → St 2) (W : World 2),
    Admissible (exConf 2 ![2, 1] ![4, 3]) 1 ∧
    Starts (exConf 2 ![2, 1] ![4, 3]) (sys2 (exConf 2 ![2, 1] ![4, 3])).npatches (exConf 2 ![2, 1] ![4, 3]).coord2 1 (x 0) W ∧
    Run (sys2 (exConf 2 ![2, 1] ![4, 3])) (fun i t => (i + t) % 2) x ∧
    Alike (exConf 2 ![2, 1] ![4, 3]) (sys2 (exConf 2 ![2, 1] ![4, 3])).npatches (x 0) (x' 0) ∧
    Inside (exConf 2 ![2, 1] ![4, 3]) (sys2 (exConf 2 ![2, 1] ![4, 3])).npatches (exConf 2 ![2, 1] ![4, 3]).coord2 1 (x' 0) ∧
    Run (sys2 (exConf 2 ![2, 1] ![4, 3])) (fun _ _ => 0) x' ∧ (x' 0).parts.length = (x 0).parts.length + 1 := by
  have a1 : Admissible (exConf 2 ![2, 1] ![4, 3]) 1 :=
    exConf_ok (fun a => match a with | 0 => by decide | 1 => by decide) (fun a => match a with | 0 => by decide | 1 => by decide)
  have s1 := exStarts (np := ![2, 1]) (n := ![4, 3]) (N := (sys2 (exConf 2 ![2, 1] ![4, 3])).npatches)
    (co := (exConf 2 ![2, 1] ![4, 3]).coord2) (fun a => match a with | 0 => by decide | 1 => by decide) (by decide)
    (by funext a; match a with | 0 => rfl | 1 => rfl) false
  have s2 := exStarts (np := ![2, 1]) (n := ![4, 3]) (N := (sys2 (exConf 2 ![2, 1] ![4, 3])).npatches)
    (co := (exConf 2 ![2, 1] ![4, 3]).coord2) (fun a => match a with | 0 => by decide | 1 => by decide) (by decide)
    (by funext a; match a with | 0 => rfl | 1 => rfl) true 1
  obtain ⟨x, e1, r1⟩ := runs2 a1 s1 (fun i t => (i + t) % 2)
  have s1' := e1 ▸ s1
  obtain ⟨tr, htr⟩ : ∃ tr, (exState 2 true 1).parts = [tr] := ⟨_, rfl⟩
  have i2 : Inside (exConf 2 ![2, 1] ![4, 3]) (sys2 (exConf 2 ![2, 1] ![4, 3])).npatches (exConf 2 ![2, 1] ![4, 3]).coord2 1
      ⟨(x 0).fld, [tr]⟩ := by
    have := s2.inside
    unfold Inside at this
    rw [htr] at this
    exact this
  obtain ⟨t0, i0⟩ := can_recut (1 / 3) s1'.inside i2
  obtain ⟨x', e2, r2⟩ := runs2 a1 (starts_alike s1' t0 i0) (fun _ _ => 0)
  refine ⟨x, x', _, a1, s1', r1, e2 ▸ t0, e2 ▸ i0, r2, ?_⟩
  rw [e2]
  simp [recut]

/-- 3D, on the unified path -/
example : ∃ x x' : Nat → St 3, Admissible (exConf 3 ![2, 1, 1] ![4, 3, 3]) 1 ∧
    Starts (exConf 3 ![2, 1, 1] ![4, 3, 3]) (sys3 (exConf 3 ![2, 1, 1] ![4, 3, 3])).npatches
      (exConf 3 ![2, 1, 1] ![4, 3, 3]).coord3 1 (x 0) (exWorld 3) ∧
    (∀ a ∈ (x 0).parts, a.1.unified = true) ∧
    Run (sys3 (exConf 3 ![2, 1, 1] ![4, 3, 3])) (fun _ t => t) x ∧
    Alike (exConf 3 ![2, 1, 1] ![4, 3, 3]) (sys3 (exConf 3 ![2, 1, 1] ![4, 3, 3])).npatches (x 0) (x' 0) ∧
    Inside (exConf 3 ![2, 1, 1] ![4, 3, 3]) (sys3 (exConf 3 ![2, 1, 1] ![4, 3, 3])).npatches
      (exConf 3 ![2, 1, 1] ![4, 3, 3]).coord3 1 (x' 0) ∧
    (∀ a ∈ (x' 0).parts, a.1.unified = true) ∧
    Run (sys3 (exConf 3 ![2, 1, 1] ![4, 3, 3])) (fun _ t => t) x' := by
  have a1 : Admissible (exConf 3 ![2, 1, 1] ![4, 3, 3]) 1 :=
    exConf_ok (fun a => match a with | 0 => by decide | 1 => by decide | 2 => by decide)
      (fun a => match a with | 0 => by decide | 1 => by decide | 2 => by decide)
  have s1 := exStarts (np := ![2, 1, 1]) (n := ![4, 3, 3]) (N := (sys3 (exConf 3 ![2, 1, 1] ![4, 3, 3])).npatches)
    (co := (exConf 3 ![2, 1, 1] ![4, 3, 3]).coord3) (fun a => match a with | 0 => by decide | 1 => by decide | 2 => by decide)
    (by decide) (by funext a; match a with | 0 => rfl | 1 => rfl | 2 => rfl) true
  have hu : ∀ a ∈ (exState 3 true).parts, a.1.unified = true := by
    intro a ha
    rcases List.mem_singleton.mp ha with rfl
    rfl
  obtain ⟨x, e1, r1⟩ := runs3 a1 s1 hu (fun _ t => t)
  have s1' := e1 ▸ s1
  have hu1 : ∀ a ∈ (x 0).parts, a.1.unified = true := e1 ▸ hu
  obtain ⟨tr, htr⟩ : ∃ tr, (exState 3 true).parts = [tr] := ⟨_, rfl⟩
  have i2 : Inside (exConf 3 ![2, 1, 1] ![4, 3, 3]) (sys3 (exConf 3 ![2, 1, 1] ![4, 3, 3])).npatches
      (exConf 3 ![2, 1, 1] ![4, 3, 3]).coord3 1 ⟨(x 0).fld, [tr]⟩ := by
    have := s1.inside
    unfold Inside at this
    rw [htr] at this
    exact this
  obtain ⟨t0, i0⟩ := can_recut (1 / 3) s1'.inside i2
  have ub : ∀ a ∈ (recut (1 / 3) tr (x 0)).parts, a.1.unified = true := by
    intro a ha
    rcases List.mem_append.mp ha with ha | ha
    · obtain ⟨a0, ha0, rfl⟩ := List.mem_map.mp ha
      exact hu1 a0 ha0
    · rcases List.mem_singleton.mp ha with rfl
      exact hu tr (htr ▸ List.mem_cons_self)
  obtain ⟨x', e2, r2⟩ := runs3 a1 (starts_alike s1' t0 i0) ub (fun _ t => t)
  exact ⟨x, x', a1, s1', hu1, r1, e2 ▸ t0, e2 ▸ i0, e2 ▸ ub, r2⟩

end Verif.Matter
