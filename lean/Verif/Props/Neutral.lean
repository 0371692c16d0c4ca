import Verif.Proofs.Neutral
import Verif.Props.Matter
/-!
# C106 — neutral particles are passengers: they change nothing for the fields and for charged particles

Specification vocabulary: `Verif/Spec/Neutral.lean` (`SameCharged`), `SameSpecies` of C102, `AlikeCharged` below (two states of the
program); `Admissible`, `Starts`, `Inside` of C66.
-/
namespace Verif.Neutral
open Verif.Maxwell Verif.SyncFields Verif.Pusher Verif.Deposit Verif.Shape Verif.WholeRun Verif.PicStep Verif.Symmetry Verif.Matter

variable {k : Nat}

/-- Specification: two states of the program show the same fields, and their macro particles stand for the same charged matter: E and
B in every stored cell and the currents in the own cells are equal, and the living particles of all species have the same total of
every quantity that only charged particles have -/
structure AlikeCharged (C : Conf k) (N : Nat) (x x' : St k) : Prop where
  e : ∀ t, t < N → ∀ f v, Stored C.n C.ng v → (x'.fld t).e f (index C.n C.ng v) = (x.fld t).e f (index C.n C.ng v)
  b : ∀ t, t < N → ∀ f v, Stored C.n C.ng v → (x'.fld t).b f (index C.n C.ng v) = (x.fld t).b f (index C.n C.ng v)
  j : ∀ t, t < N → ∀ f v, Stored C.n 0 v → (x'.fld t).j f (index C.n C.ng v) = (x.fld t).j f (index C.n C.ng v)
  matter : SameCharged (fun i => C.np i * C.n i * C.d i) (cloudOf N x.parts) (cloudOf N x'.parts)

/-- the undivided simulation a like state begins with -/
theorem starts_charged {C : Conf k} {N : Nat} {co : Nat → Fin k → Nat} {β : ℚ} {x x' : St k} {W : World k} (h : Starts C N co β x W)
    (ht : AlikeCharged C N x x') (hi : Inside C N co β x') : Starts C N co β x' ⟨W.fld, cloudOf N x'.parts⟩ where
  agrees := ⟨fun t h1 f v hv => (ht.e t h1 f v hv).trans (h.agrees.e t h1 f v hv),
    fun t h1 f v hv => (ht.b t h1 f v hv).trans (h.agrees.b t h1 f v hv),
    fun t h1 f v hv => (ht.j t h1 f v hv).trans (h.agrees.j t h1 f v hv), List.forall₂_same.mpr fun s _ => ⟨rfl, .of_perm (.refl _)⟩⟩
  inside := hi
  period := h.period

theorem charged_of {C : Conf k} {N : Nat} {co : Nat → Fin k → Nat} {x x' : St k} {U U' : World k} (h : Agrees C N co x U)
    (h' : Agrees C N co x' U') (hf : U'.fld = U.fld) (hm : SameCharged (fun i => C.np i * C.n i * C.d i) U.cloud U'.cloud) : AlikeCharged C N x x' where
  e t ht f v hv := by rw [h.e t ht f v hv, h'.e t ht f v hv, hf]
  b t ht f v hv := by rw [h.b t ht f v hv, h'.b t ht f v hv, hf]
  j t ht f v hv := by rw [h.j t ht f v hv, h'.j t ht f v hv, hf]
  matter := (SameCharged.of_matter (SameMatter.of_same h.species)).trans (hm.trans (SameCharged.of_matter (SameMatter.of_same h'.species)).symm)

/-- C106: two 2D runs, on whatever ranks, schedules, orders and paths of the push, that begin with the same fields and with macro
particles that stand for the same charged matter show the same fields and the same charged matter after every number of steps,
whatever neutral or weightless particles one of them has and the other has not. And a species that both begin with, neutral or not,
has the same particles in both at every step. -/
theorem passengers2 {C : Conf 2} {β : ℚ} (hC : Admissible C β) {W : World 2} {rk rk' : Nat → Nat → Nat} {x x' : Nat → St 2}
    (h0 : Starts C (sys2 C).npatches C.coord2 β (x 0) W) (hrun : Run (sys2 C) rk x) (ht : AlikeCharged C (sys2 C).npatches (x 0) (x' 0))
    (hi : Inside C (sys2 C).npatches C.coord2 β (x' 0)) (hrun' : Run (sys2 C) rk' x') (i : Nat) :
    AlikeCharged C (sys2 C).npatches (x i) (x' i) ∧
      ∀ r r', SameSpecies C (sys2 C).npatches (x 0) r (x' 0) r' → SameSpecies C (sys2 C).npatches (x i) r (x' i) r' := by
  have h := fun i => follows2.mp (run_follows hC.facts2 hC.bounds2 (follows2.mpr h0) hrun i)
  have h' := fun i => follows2.mp (run_follows hC.facts2 hC.bounds2 (follows2.mpr (starts_charged h0 ht hi)) hrun' i)
  have w := weighs2 (np := C.np) (n := C.n) (c2 := C.c2) (eps0 := C.eps0) (fun a => lt_of_lt_of_le (by omega) (Reverse.cells_two hC a)) hC.cell hC.step C.rs
  have g := run_charged w (fun a b hab ha hb => cur_charged2 (np := C.np) (n := C.n) (fun a => lt_of_lt_of_le (by omega) (Reverse.cells_two hC a)) hC.cell hC.step a b hab ha hb)
    (W := W) (W' := ⟨W.fld, cloudOf (sys2 C).npatches (x' 0).parts⟩) (fun i => (h i).period.per) rfl
    (fun i => Reverse.slow_start hC (h i)) (fun i => Reverse.slow_start hC (h' i))
    ((SameCharged.of_matter (SameMatter.of_same h0.agrees.species)).symm.trans ht.matter)
  refine ⟨charged_of (h i).agrees (h' i).agrees (g i).1 (g i).2, ?_⟩
  rintro r r' ⟨s, s', e, e', k1, p1⟩
  obtain ⟨t, et, k2, p2⟩ := species_of h0.agrees.species e
  obtain ⟨u, u', eu, eu', k3, p3⟩ := w.run_species (fun i => (h i).period.per) (fun i => (g i).1) et e' (k2.symm.trans k1) (p2.symm.trans p1) i
  obtain ⟨y, ey, k4, p4⟩ := species_to (h i).agrees.species eu
  obtain ⟨y', ey', k5, p5⟩ := species_to (h' i).agrees.species eu'
  exact ⟨y, y', ey, ey', k4.trans (k3.trans k5.symm), p4.trans (p3.trans p5.symm)⟩

/-- C106 in 3D for species on the unified path. Missing for the full property: species on the split path, which the code does not
move in 3D (C24). -/
theorem passengers3_partial {C : Conf 3} {β : ℚ} (hC : Admissible C β) {W : World 3} {rk rk' : Nat → Nat → Nat} {x x' : Nat → St 3}
    (h0 : Starts C (sys3 C).npatches C.coord3 β (x 0) W) (hu : ∀ a ∈ (x 0).parts, a.1.unified = true) (hrun : Run (sys3 C) rk x) (ht : AlikeCharged C (sys3 C).npatches (x 0) (x' 0))
    (hi : Inside C (sys3 C).npatches C.coord3 β (x' 0))
    (hu' : ∀ a ∈ (x' 0).parts, a.1.unified = true) (hrun' : Run (sys3 C) rk' x') (i : Nat) :
    AlikeCharged C (sys3 C).npatches (x i) (x' i) ∧
      ∀ r r', SameSpecies C (sys3 C).npatches (x 0) r (x' 0) r' → SameSpecies C (sys3 C).npatches (x i) r (x' i) r' := by
  have h := fun i => follows3.mp (run_follows hC.facts3 hC.bounds3 (follows3.mpr ⟨h0, hu⟩) hrun i)
  have h' := fun i => follows3.mp (run_follows hC.facts3 hC.bounds3 (follows3.mpr ⟨starts_charged h0 ht hi, hu'⟩) hrun' i)
  have w := weighs3 (np := C.np) (n := C.n) (c2 := C.c2) (eps0 := C.eps0) (Reverse.cells_two hC) hC.cell hC.step C.rs
  have g := run_charged w (fun a b hab ha hb => cur_charged3 (np := C.np) (n := C.n) (Reverse.cells_two hC) hC.cell hC.step a b hab ha hb)
    (W := W) (W' := ⟨W.fld, cloudOf (sys3 C).npatches (x' 0).parts⟩) (fun i => (h i).1.period.per) rfl
    (fun i => Reverse.slow_start hC (h i).1) (fun i => Reverse.slow_start hC (h' i).1)
    ((SameCharged.of_matter (SameMatter.of_same h0.agrees.species)).symm.trans ht.matter)
  refine ⟨charged_of (h i).1.agrees (h' i).1.agrees (g i).1 (g i).2, ?_⟩
  rintro r r' ⟨s, s', e, e', k1, p1⟩
  obtain ⟨t, et, k2, p2⟩ := species_of h0.agrees.species e
  obtain ⟨u, u', eu, eu', k3, p3⟩ := w.run_species (fun i => (h i).1.period.per) (fun i => (g i).1) et e' (k2.symm.trans k1) (p2.symm.trans p1) i
  obtain ⟨y, ey, k4, p4⟩ := species_to (h i).1.agrees.species eu
  obtain ⟨y', ey', k5, p5⟩ := species_to (h' i).1.agrees.species eu'
  exact ⟨y, y', ey, ey', k4.trans (k3.trans k5.symm), p4.trans (p3.trans p5.symm)⟩

/-! ## adding a neutral species -/

/-- a state with one more species -/
def withSpecies (x : St k) (tr : Species × (Nat → List (Slot k))) : St k := ⟨x.fld, x.parts ++ [tr]⟩

/-- C106: a state with one more species of charge zero, whose particles lie in their patches, is alike, and all other species are the same -/
theorem can_add_neutral {tr : Species × (Nat → List (Slot k))} (hq : tr.1.q = 0) {C : Conf k} {N : Nat} {co : Nat → Fin k → Nat} {β : ℚ}
    {x : St k} (h : Inside C N co β x) (htr : Inside C N co β ⟨x.fld, [tr]⟩) :
    AlikeCharged C N x (withSpecies x tr) ∧ Inside C N co β (withSpecies x tr) ∧
      ∀ r, r < x.parts.length → SameSpecies C N x r (withSpecies x tr) r := by
  refine ⟨⟨fun _ _ _ _ _ => rfl, fun _ _ _ _ _ => rfl, fun _ _ _ _ _ => rfl, ?_⟩, ?_, ?_⟩
  · intro F _ h0
    unfold amount cloudOf withSpecies
    dsimp only
    rw [List.map_append, List.map_append, List.sum_append, List.map_singleton, List.map_singleton, List.sum_singleton]
    have : ((particles N tr.2).map fun p => p.mom.w * F tr.1.toKind p.pos (motion p)).sum = 0 := by
      refine List.sum_eq_zero fun y hy => ?_
      obtain ⟨p, _, rfl⟩ := List.mem_map.mp hy
      rw [h0 _ _ _ hq, mul_zero]
    dsimp only
    rw [this, add_zero]
  · intro a ha
    rcases List.mem_append.mp ha with ha | ha
    · exact h a ha
    · exact htr a ha
  · intro r hr
    have e : (cloudOf N (withSpecies x tr).parts)[r]? = (cloudOf N x.parts)[r]? := by
      unfold cloudOf withSpecies
      dsimp only
      rw [List.map_append, List.getElem?_append_left (by rw [List.length_map]; exact hr)]
    obtain ⟨s, hs⟩ : ∃ s, (cloudOf N x.parts)[r]? = some s := by
      refine ⟨_, List.getElem?_eq_getElem ?_⟩
      unfold cloudOf
      rw [List.length_map]
      exact hr
    exact ⟨s, s, hs, e.trans hs, rfl, .of_perm (.refl _)⟩

/-! ## cases that meet the hypotheses -/

/-- a species with its particles, made neutral -/
def neutralised (a : Species × (Nat → List (Slot k))) : Species × (Nat → List (Slot k)) := ({ a.1 with q := 0 }, a.2)

/-- 2D: a run of two patches on changing ranks with the split path, and a run that has one more, neutral species -/
example : ∃ (x x' : Nat → St 2) (W : World 2),
    Admissible (exConf 2 ![2, 1] ![4, 3]) 1 ∧
    Starts (exConf 2 ![2, 1] ![4, 3]) (sys2 (exConf 2 ![2, 1] ![4, 3])).npatches (exConf 2 ![2, 1] ![4, 3]).coord2 1 (x 0) W ∧
    Run (sys2 (exConf 2 ![2, 1] ![4, 3])) (fun i t => (i + t) % 2) x ∧
    AlikeCharged (exConf 2 ![2, 1] ![4, 3]) (sys2 (exConf 2 ![2, 1] ![4, 3])).npatches (x 0) (x' 0) ∧
    Inside (exConf 2 ![2, 1] ![4, 3]) (sys2 (exConf 2 ![2, 1] ![4, 3])).npatches (exConf 2 ![2, 1] ![4, 3]).coord2 1 (x' 0) ∧
    SameSpecies (exConf 2 ![2, 1] ![4, 3]) (sys2 (exConf 2 ![2, 1] ![4, 3])).npatches (x 0) 0 (x' 0) 0 ∧
    Run (sys2 (exConf 2 ![2, 1] ![4, 3])) (fun _ _ => 0) x' ∧ (x' 0).parts.length = (x 0).parts.length + 1 := by
  have a1 : Admissible (exConf 2 ![2, 1] ![4, 3]) 1 :=
    exConf_ok (fun a => match a with | 0 => by decide | 1 => by decide) (fun a => match a with | 0 => by decide | 1 => by decide)
  have s1 := exStarts (np := ![2, 1]) (n := ![4, 3]) (N := (sys2 (exConf 2 ![2, 1] ![4, 3])).npatches)
    (co := (exConf 2 ![2, 1] ![4, 3]).coord2) (fun a => match a with | 0 => by decide | 1 => by decide) (by decide)
    (by funext a; match a with | 0 => rfl | 1 => rfl) false
  obtain ⟨x, e1, r1⟩ := runs2 a1 s1 (fun i t => (i + t) % 2)
  have s1' := e1 ▸ s1
  obtain ⟨tr, htr⟩ : ∃ tr, (exState 2 false).parts = [tr] := ⟨_, rfl⟩
  have i2 : Inside (exConf 2 ![2, 1] ![4, 3]) (sys2 (exConf 2 ![2, 1] ![4, 3])).npatches (exConf 2 ![2, 1] ![4, 3]).coord2 1
      ⟨(x 0).fld, [neutralised tr]⟩ := by
    have := s1.inside
    unfold Inside at this
    rw [htr] at this
    intro a ha
    rcases List.mem_singleton.mp ha with rfl
    exact this tr List.mem_cons_self
  obtain ⟨t0, i0, c0⟩ := can_add_neutral (tr := neutralised tr) rfl s1'.inside i2
  obtain ⟨x', e2, r2⟩ := runs2 a1 (starts_charged s1' t0 i0) (fun _ _ => 0)
  refine ⟨x, x', _, a1, s1', r1, e2 ▸ t0, e2 ▸ i0, e2 ▸ c0 0 ?_, r2, ?_⟩
  · rw [e1, htr]
    exact Nat.one_pos
  · rw [e2]
    simp [withSpecies]

/-- 3D, on the unified path -/
example : ∃ x x' : Nat → St 3, Admissible (exConf 3 ![2, 1, 1] ![4, 3, 3]) 1 ∧
    Starts (exConf 3 ![2, 1, 1] ![4, 3, 3]) (sys3 (exConf 3 ![2, 1, 1] ![4, 3, 3])).npatches
      (exConf 3 ![2, 1, 1] ![4, 3, 3]).coord3 1 (x 0) (exWorld 3) ∧
    (∀ a ∈ (x 0).parts, a.1.unified = true) ∧
    Run (sys3 (exConf 3 ![2, 1, 1] ![4, 3, 3])) (fun _ t => t) x ∧
    AlikeCharged (exConf 3 ![2, 1, 1] ![4, 3, 3]) (sys3 (exConf 3 ![2, 1, 1] ![4, 3, 3])).npatches (x 0) (x' 0) ∧
    Inside (exConf 3 ![2, 1, 1] ![4, 3, 3]) (sys3 (exConf 3 ![2, 1, 1] ![4, 3, 3])).npatches
      (exConf 3 ![2, 1, 1] ![4, 3, 3]).coord3 1 (x' 0) ∧
    (∀ a ∈ (x' 0).parts, a.1.unified = true) ∧
    Run (sys3 (exConf 3 ![2, 1, 1] ![4, 3, 3])) (fun _ t => t) x' := by
  have a1 : Admissible (exConf 3 ![2, 1, 1] ![4, 3, 3]) 1 :=
    exConf_ok (fun a => match a with | 0 => by decide | 1 => by decide | 2 => by decide)
      (fun a => match a with | 0 => by decide | 1 => by decide | 2 => by decide)
  have s1 := exStarts (np := ![2, 1, 1]) (n := ![4, 3, 3]) (N := (sys3 (exConf 3 ![2, 1, 1] ![4, 3, 3])).npatches)
    (co := (exConf 3 ![2, 1, 1] ![4, 3, 3]).coord3) (fun a => match a with | 0 => by decide | 1 => by decide | 2 => by decide)
    (by decide) (by funext a; match a with | 0 => rfl | 1 => rfl | 2 => rfl) true
  have hu : ∀ a ∈ (exState 3 true).parts, a.1.unified = true := by
    intro a ha
    rcases List.mem_singleton.mp ha with rfl
    rfl
  obtain ⟨x, e1, r1⟩ := runs3 a1 s1 hu (fun _ t => t)
  have s1' := e1 ▸ s1
  have hu1 : ∀ a ∈ (x 0).parts, a.1.unified = true := e1 ▸ hu
  obtain ⟨tr, htr⟩ : ∃ tr, (exState 3 true).parts = [tr] := ⟨_, rfl⟩
  have i2 : Inside (exConf 3 ![2, 1, 1] ![4, 3, 3]) (sys3 (exConf 3 ![2, 1, 1] ![4, 3, 3])).npatches
      (exConf 3 ![2, 1, 1] ![4, 3, 3]).coord3 1 ⟨(x 0).fld, [neutralised tr]⟩ := by
    have := s1.inside
    unfold Inside at this
    rw [htr] at this
    intro a ha
    rcases List.mem_singleton.mp ha with rfl
    exact this tr List.mem_cons_self
  obtain ⟨t0, i0, _⟩ := can_add_neutral (tr := neutralised tr) rfl s1'.inside i2
  have ub : ∀ a ∈ (withSpecies (x 0) (neutralised tr)).parts, a.1.unified = true := by
    intro a ha
    rcases List.mem_append.mp ha with ha | ha
    · exact hu1 a ha
    · rcases List.mem_singleton.mp ha with rfl
      exact hu tr (htr ▸ List.mem_cons_self)
  obtain ⟨x', e2, r2⟩ := runs3 a1 (starts_charged s1' t0 i0) ub (fun _ t => t)
  exact ⟨x, x', a1, s1', hu1, r1, e2 ▸ t0, e2 ▸ i0, e2 ▸ ub, r2⟩

end Verif.Neutral
