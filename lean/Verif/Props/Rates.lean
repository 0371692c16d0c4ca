import Verif.Proofs.Rates
import Verif.Props.Qed
import Mathlib.Algebra.BigOperators.Group.Finset.Basic
/-!
# C91: random events of a particle follow the tabulated rates in the course of a run
-/
namespace Verif.Rates
open MeasureTheory Set
open scoped ENNReal

/-! ## Specification -/

/-- What the events of a run should be: there is no memory. In every step in which the particle is active it has an event
with probability `1 - exp (-lam)`, whatever happened before, and the fraction of an event is drawn from the table with a
new random number; `ideal E K n w` is the mean of `K` at the end of `n` such steps from `w`. -/
noncomputable def ideal {Ω : Type} (E : Env Ω) (K : Ω → ℝ≥0∞) : Nat → Ω → ℝ≥0∞
  | 0, w => K w
  | n + 1, w =>
    if E.active w then
      ENNReal.ofReal (1 - Real.exp (-E.lam w)) * (draw fun v => ideal E K n (E.hit w (E.sample w v)))
        + ENNReal.ofReal (Real.exp (-E.lam w)) * ideal E K n (E.quiet w)
    else ideal E K n (E.quiet w)

/-! ## Proofs -/

section
variable {Ω : Type} [MeasurableSpace Ω] {E : Env Ω} (hE : E.Ok) {fires : ℝ → Bool} (hf : Measurable fires)
  (hneg : ∀ t, t < 0 → fires t = true) (hpos : ∀ t, 0 < t → fires t = false)

include hE hf hneg hpos in
theorem afterSet_ideal {K : Ω → ℝ≥0∞} (hK : Measurable K) (n : Nat) (w : Ω)
    (ih : ∀ w, (drawDepth fun t => run E fires K n w t) = ideal E K n w) :
    (drawDepth fun t => afterSet E fires (run E fires K n) w t)
      = ENNReal.ofReal (1 - Real.exp (-E.lam w)) * (draw fun v => ideal E K n (E.hit w (E.sample w v)))
        + ENNReal.ofReal (Real.exp (-E.lam w)) * ideal E K n (E.quiet w) := by
  rw [drawDepth_split (hE.pos w) (draw fun v => ideal E K n (E.hit w (E.sample w v))) _ (fun t => run E fires K n (E.quiet w) t)
    (fun t _ h => ?_) (fun t h => ?_), ih]
  · unfold afterSet
    dsimp only
    rw [hneg _ (by linarith : t - E.lam w < 0), if_pos rfl, draws_swap hE hf hK]
    congr 1
    funext v
    exact ih _
  · unfold afterSet
    dsimp only
    rw [hpos _ (by linarith : 0 < t - E.lam w)]
    rfl

include hE hf hneg hpos in
theorem drawDepth_run {K : Ω → ℝ≥0∞} (hK : Measurable K) (n : Nat) :
    ∀ w, (drawDepth fun t => run E fires K n w t) = ideal E K n w := by
  induction n with
  | zero => intro w; exact draw_const _
  | succ n ih =>
    intro w
    have e : (drawDepth fun t => run E fires K (n + 1) w t)
        = drawDepth fun t => if E.active w then afterSet E fires (run E fires K n) w t else run E fires K n (E.quiet w) t := by
      refine drawDepth_congr fun t ht => ?_
      show oneStep E fires (run E fires K n) w t = _
      unfold oneStep
      rw [if_neg ht.ne']
    rw [e]
    show _ = ite _ _ _
    by_cases ha : E.active w = true
    · simp only [ha, if_true]
      exact afterSet_ideal hE hf hneg hpos hK n w ih
    · simp only [ha]
      exact ih _

include hE hf hneg hpos in
theorem run_unset {K : Ω → ℝ≥0∞} (hK : Measurable K) (n : Nat) : ∀ w, run E fires K n w 0 = ideal E K n w := by
  induction n with
  | zero => intro w; rfl
  | succ n ih =>
    intro w
    show oneStep E fires (run E fires K n) w 0 = ite _ _ _
    unfold oneStep
    by_cases ha : E.active w = true
    · simp only [ha, if_true]
      exact afterSet_ideal hE hf hneg hpos hK n w (drawDepth_run hE hf hneg hpos hK n)
    · simp only [ha]
      exact ih _
end

theorem firesE_measurable : Measurable firesE := by
  have e : firesE ⁻¹' {true} = Iio 0 := by ext t; simp [firesE]
  exact measurable_to_bool (e ▸ measurableSet_Iio)

theorem firesGamma_measurable : Measurable firesGamma := by
  have e : firesGamma ⁻¹' {true} = Iic 0 := by ext t; simp [firesGamma]
  exact measurable_to_bool (e ▸ measurableSet_Iic)

/-! ## Theorems -/

section
variable {Ω : Type} [MeasurableSpace Ω] {E : Env Ω} (hE : E.Ok)

include hE in
/-- **C91**, electrons and positrons: from an optical depth that is not set, everything that can be observed of `n` steps has
the mean it has if in every step an event happens with probability `1 - exp (-rate * dt / gamma)` whatever happened before,
and the energy fraction of every event is drawn anew. What the particle meets may depend on its earlier events. -/
theorem electron_events_follow_rates {K : Ω → ℝ≥0∞} (hK : Measurable K) (n : Nat) (w : Ω) :
    run E firesE K n w 0 = ideal E K n w :=
  run_unset hE firesE_measurable
    (fun t h => by simpa [firesE] using h) (fun t h => by simpa [firesE] using h.le) hK n w

include hE in
/-- **C91**, photons -/
theorem photon_events_follow_rates {K : Ω → ℝ≥0∞} (hK : Measurable K) (n : Nat) (w : Ω) :
    run E firesGamma K n w 0 = ideal E K n w :=
  run_unset hE firesGamma_measurable
    (fun t h => by simpa [firesGamma] using h.le) (fun t h => by simpa [firesGamma] using h) hK n w

/-- the same particle with a counter of its events beside it -/
def counted {Ω : Type} (E : Env Ω) : Env (Ω × ℕ) where
  active p := E.active p.1
  lam p := E.lam p.1
  sample p v := E.sample p.1 v
  quiet p := (E.quiet p.1, p.2)
  hit p d := (E.hit p.1 d, p.2 + 1)

include hE in
theorem counted_ok : (counted E).Ok where
  active := hE.active.comp measurable_fst
  lam := hE.lam.comp measurable_fst
  sample := hE.sample.comp ((measurable_fst.comp measurable_fst).prodMk measurable_snd)
  quiet := (hE.quiet.comp measurable_fst).prodMk measurable_snd
  hit := (hE.hit.comp ((measurable_fst.comp measurable_fst).prodMk measurable_snd)).prodMk
    ((Measurable.of_discrete (f := fun n : ℕ => n + 1)).comp (measurable_snd.comp measurable_fst))
  pos := fun p => hE.pos p.1

/-- 1 if there was no event, 0 if there was one: its mean is the probability that there was none -/
noncomputable def noEvent {Ω : Type} (p : Ω × ℕ) : ℝ≥0∞ := if p.2 = 0 then 1 else 0

theorem noEvent_measurable : Measurable (noEvent (Ω := Ω)) :=
  (Measurable.of_discrete (f := fun n : ℕ => if n = 0 then (1 : ℝ≥0∞) else 0)).comp measurable_snd

theorem ideal_had {Ω : Type} (E : Env Ω) (n : Nat) : ∀ (w : Ω) (c : ℕ), ideal (counted E) noEvent n (w, c + 1) = 0 := by
  induction n with
  | zero => intro w c; simp [ideal, noEvent]
  | succ n ih =>
    intro w c
    have e : (draw fun v => ideal (counted E) noEvent n ((counted E).hit (w, c + 1) ((counted E).sample (w, c + 1) v))) = 0 :=
      (congrArg draw (funext fun v => ih _ _)).trans (draw_const 0)
    have e2 : ideal (counted E) noEvent n ((counted E).quiet (w, c + 1)) = 0 := ih _ _
    show ite _ _ _ = _
    rw [e, e2]
    simp

/-- the sum of `rate * dt / gamma` over `n` steps without events from `w` on -/
noncomputable def depthUsed {Ω : Type} (E : Env Ω) : Nat → Ω → ℝ
  | 0, _ => 0
  | n + 1, w => (if E.active w then E.lam w else 0) + depthUsed E n (E.quiet w)

theorem ideal_none {Ω : Type} (E : Env Ω) (n : Nat) :
    ∀ w : Ω, ideal (counted E) noEvent n (w, 0) = ENNReal.ofReal (Real.exp (-depthUsed E n w)) := by
  induction n with
  | zero => intro w; simp [ideal, noEvent, depthUsed]
  | succ n ih =>
    intro w
    have e : (draw fun v => ideal (counted E) noEvent n ((counted E).hit (w, 0) ((counted E).sample (w, 0) v))) = 0 :=
      (congrArg draw (funext fun v => ideal_had E n _ _)).trans (draw_const 0)
    have e2 : ideal (counted E) noEvent n ((counted E).quiet (w, 0)) = ENNReal.ofReal (Real.exp (-depthUsed E n (E.quiet w))) :=
      ih _
    show ite _ _ _ = _
    rw [e, e2]
    have ea : (counted E).active (w, 0) = E.active w := rfl
    have el : (counted E).lam (w, 0) = E.lam w := rfl
    rw [ea, el]
    rw [show depthUsed E (n + 1) w = (if E.active w then E.lam w else 0) + depthUsed E n (E.quiet w) from rfl]
    by_cases ha : E.active w = true
    · simp only [ha, if_true, mul_zero, zero_add]
      rw [← ENNReal.ofReal_mul (Real.exp_pos _).le, ← Real.exp_add, neg_add]
    · simp [ha]

include hE in
/-- **C91**: the probability that a particle has no event in `n` steps is `exp` of minus its rate, summed over these steps -/
theorem survival (n : Nat) (w : Ω) :
    run (counted E) firesE noEvent n (w, 0) 0 = ENNReal.ofReal (Real.exp (-depthUsed E n w))
      ∧ run (counted E) firesGamma noEvent n (w, 0) 0 = ENNReal.ofReal (Real.exp (-depthUsed E n w)) :=
  ⟨(electron_events_follow_rates (counted_ok hE) noEvent_measurable n _).trans (ideal_none E n w),
    (photon_events_follow_rates (counted_ok hE) noEvent_measurable n _).trans (ideal_none E n w)⟩
end

/-- a particle whose rate depends on the step only -/
noncomputable def clock (lam : ℕ → ℝ) : Env ℕ where
  active _ := true
  lam i := lam i
  sample _ v := v
  quiet i := i + 1
  hit i _ := i + 1

theorem clock_ok {lam : ℕ → ℝ} (h : ∀ i, 0 ≤ lam i) : (clock lam).Ok where
  active := Measurable.of_discrete
  lam := Measurable.of_discrete
  sample := measurable_snd
  quiet := Measurable.of_discrete
  hit := (Measurable.of_discrete (f := fun n : ℕ => n + 1)).comp measurable_fst
  pos := h

/-- the number of events -/
noncomputable def number {Ω : Type} (p : Ω × ℕ) : ℝ≥0∞ := (p.2 : ℝ≥0∞)

theorem number_measurable {Ω : Type} [MeasurableSpace Ω] : Measurable (number (Ω := Ω)) :=
  (Measurable.of_discrete (f := fun n : ℕ => (n : ℝ≥0∞))).comp measurable_snd

theorem ideal_number {lam : ℕ → ℝ} (hl : ∀ i, 0 ≤ lam i) (n : Nat) : ∀ i c : ℕ,
    ideal (counted (clock lam)) number n (i, c)
      = c + ∑ k ∈ Finset.range n, ENNReal.ofReal (1 - Real.exp (-lam (i + k))) := by
  induction n with
  | zero => intro i c; simp [ideal, number]
  | succ n ih =>
    intro i c
    have e : (draw fun v => ideal (counted (clock lam)) number n
        ((counted (clock lam)).hit (i, c) ((counted (clock lam)).sample (i, c) v)))
        = ((c + 1 : ℕ) : ℝ≥0∞) + ∑ k ∈ Finset.range n, ENNReal.ofReal (1 - Real.exp (-lam (i + 1 + k))) :=
      (congrArg draw (funext fun v => ih (i + 1) (c + 1))).trans (draw_const _)
    have e2 : ideal (counted (clock lam)) number n ((counted (clock lam)).quiet (i, c))
        = (c : ℝ≥0∞) + ∑ k ∈ Finset.range n, ENNReal.ofReal (1 - Real.exp (-lam (i + 1 + k))) := ih (i + 1) c
    show ite _ _ _ = _
    rw [e, e2]
    have ea : (counted (clock lam)).active (i, c) = true := rfl
    have el : (counted (clock lam)).lam (i, c) = lam i := rfl
    rw [ea, el, if_pos rfl, Finset.sum_range_succ']
    have hs : ∑ k ∈ Finset.range n, ENNReal.ofReal (1 - Real.exp (-lam (i + (k + 1))))
        = ∑ k ∈ Finset.range n, ENNReal.ofReal (1 - Real.exp (-lam (i + 1 + k))) :=
      Finset.sum_congr rfl fun k _ => by rw [show i + (k + 1) = i + 1 + k by ring]
    rw [hs]
    set S := ∑ k ∈ Finset.range n, ENNReal.ofReal (1 - Real.exp (-lam (i + 1 + k)))
    have hone : ENNReal.ofReal (1 - Real.exp (-lam i)) + ENNReal.ofReal (Real.exp (-lam i)) = 1 := by
      have h1 : Real.exp (-lam i) ≤ 1 := Real.exp_le_one_iff.mpr (by linarith [hl i])
      rw [← ENNReal.ofReal_add (by linarith) (Real.exp_pos _).le]
      simp
    push_cast
    rw [add_zero]
    calc ENNReal.ofReal (1 - Real.exp (-lam i)) * (c + 1 + S) + ENNReal.ofReal (Real.exp (-lam i)) * (c + S)
        = (ENNReal.ofReal (1 - Real.exp (-lam i)) + ENNReal.ofReal (Real.exp (-lam i))) * (c + S)
            + ENNReal.ofReal (1 - Real.exp (-lam i)) := by ring
      _ = _ := by rw [hone]; ring

/-- **C91**: the mean number of events of a particle in `n` steps is the sum of `1 - exp (-rate * dt / gamma)` -/
theorem mean_events {lam : ℕ → ℝ} (hl : ∀ i, 0 ≤ lam i) (n : Nat) :
    run (counted (clock lam)) firesE number n (0, 0) 0 = ∑ k ∈ Finset.range n, ENNReal.ofReal (1 - Real.exp (-lam k))
      ∧ run (counted (clock lam)) firesGamma number n (0, 0) 0
        = ∑ k ∈ Finset.range n, ENNReal.ofReal (1 - Real.exp (-lam k)) := by
  have h := ideal_number hl n 0 0
  simp only [zero_add, Nat.cast_zero] at h
  exact ⟨(electron_events_follow_rates (counted_ok (clock_ok hl)) number_measurable n _).trans h,
    (photon_events_follow_rates (counted_ok (clock_ok hl)) number_measurable n _).trans h⟩

/-- **C91** fails by the length of the step: if the rate is positive, the mean number of events in a step is below rate times
length of the step. A particle has at most one event in a step. -/
theorem step_number_fails {lam : ℝ} (hl : 0 < lam) :
    run (counted (clock fun _ => lam)) firesE number 1 (0, 0) 0 < ENNReal.ofReal lam := by
  rw [(mean_events (fun _ => hl.le) 1).1, Finset.sum_range_one, ENNReal.ofReal_lt_ofReal_iff hl]
  have := Real.add_one_lt_exp (by linarith : -lam ≠ 0)
  linarith

/-- the hypotheses are met: a particle with rates that change from step to step, and a case with numbers -/
example : (counted (clock fun i => (i : ℝ) / 10)).Ok := counted_ok (clock_ok fun i => by positivity)
example : run (counted (clock fun _ => 1)) firesE noEvent 3 ((0 : ℕ), 0) 0 = ENNReal.ofReal (Real.exp (-3)) := by
  rw [(survival (clock_ok fun _ => zero_le_one) 3 0).1]
  norm_num [depthUsed, clock]

/-! ## new particles -/

/-- every slot of `old` is still there, with the optical depth it had -/
def SameDepths (old new : List Qed.Part) : Prop :=
  ∀ (j : Nat) (p : Qed.Part), old[j]? = some p → ∃ q, new[j]? = some q ∧ q.tau = p.tau

theorem SameDepths.refl (l : List Qed.Part) : SameDepths l l := fun _ p h => ⟨p, h, rfl⟩

theorem SameDepths.trans {a b c : List Qed.Part} (h : SameDepths a b) (h' : SameDepths b c) : SameDepths a c := by
  intro j p hp
  obtain ⟨q, hq, e⟩ := h j p hp
  obtain ⟨r, hr, e'⟩ := h' j q hq
  exact ⟨r, hr, e'.trans e⟩

theorem SameDepths.modify (l : List Qed.Part) (j : Nat) (f : Qed.Part → Qed.Part) (hf : ∀ p, (f p).tau = p.tau) :
    SameDepths l (l.modify j f) := by
  intro i p hp
  rw [List.getElem?_modify, hp]
  by_cases h : j = i
  · exact ⟨f p, by simp [h], hf p⟩
  · exact ⟨p, by simp [h], rfl⟩

theorem SameDepths.grow (blank : Nat → Qed.Part) (src l : List Qed.Part) : SameDepths l (Qed.grow blank src l) := by
  intro j p hp
  unfold Qed.grow
  dsimp only
  split
  · exact ⟨p, by rw [List.getElem?_append_left (List.getElem?_eq_some_iff.mp hp).1]; exact hp, rfl⟩
  · exact ⟨p, hp, rfl⟩

theorem createLoop_depths (f : Nat → Qed.Part → Qed.Part) (hf : ∀ k p, (f k p).tau = p.tau) (ks : List Nat) :
    ∀ (i : Nat) (l l' : List Qed.Part), Qed.createLoop f ks i l = some l' → SameDepths l l' := by
  induction ks with
  | nil => intro i l l' h; cases h; exact .refl _
  | cons k ks ih =>
    intro i l l' h
    unfold Qed.createLoop at h
    split at h
    · cases h
    · exact (SameDepths.modify l _ (f k) (hf k)).trans (ih _ _ _ h)

theorem createLoop2_depths (f g : Nat → Qed.Part → Qed.Part) (hf : ∀ k p, (f k p).tau = p.tau)
    (hg : ∀ k p, (g k p).tau = p.tau) (ks : List Nat) :
    ∀ (i : Nat) (l : List Qed.Part) (i' : Nat) (m l' m' : List Qed.Part),
      Qed.createLoop2 f g ks i l i' m = some (l', m') → SameDepths l l' ∧ SameDepths m m' := by
  induction ks with
  | nil => intro i l i' m l' m' h; cases h; exact ⟨.refl _, .refl _⟩
  | cons k ks ih =>
    intro i l i' m l' m' h
    unfold Qed.createLoop2 at h
    split at h
    · cases h
    · split at h
      · cases h
      · obtain ⟨a, b⟩ := ih _ _ _ _ _ _ h
        exact ⟨(SameDepths.modify l _ (f k) (hf k)).trans a, (SameDepths.modify m _ (g k) (hg k)).trans b⟩

/-- **C91** fails for new particles: emission and pair creation leave the optical depth of every slot of the target as it
was. A new particle in a slot that was dead starts with the depth that the particle before it has left. -/
theorem new_particle_depth_fails (rsqrt : ℚ → ℚ) (dim3 : Bool) (blank blank' : Nat → Qed.Part) :
    (∀ pho ele pos pho' ele' pos' : List Qed.Part,
      Qed.pairCreation rsqrt dim3 blank blank' pho ele pos = some (pho', ele', pos') →
        SameDepths ele ele' ∧ SameDepths pos pos')
      ∧ ∀ ele pho ele' pho' : List Qed.Part, Qed.emission rsqrt dim3 blank ele pho = some (ele', pho') → SameDepths pho pho' := by
  constructor
  · intro pho ele pos pho' ele' pos' h
    unfold Qed.pairCreation at h
    dsimp only at h
    split at h
    · cases h
    · split at h
      · cases h
      · rename_i hl
        cases h
        obtain ⟨a, b⟩ := createLoop2_depths _ _ (by intro _ _; rfl) (by intro _ _; rfl) _ _ _ _ _ _ _ hl
        exact ⟨(SameDepths.grow _ _ _).trans a, (SameDepths.grow _ _ _).trans b⟩
  · intro ele pho ele' pho' h
    unfold Qed.emission at h
    dsimp only at h
    split at h
    · cases h
    · split at h
      · cases h
      · rename_i hl
        cases h
        exact (SameDepths.grow _ _ _).trans (createLoop_depths _ (by intro _ _; rfl) _ _ _ _ hl)

/-- such a slot: the electron of a pair in the slot of one that has left with depth 5 -/
example : (Qed.pairCreation (fun _ => 1) true (fun _ => Qed.blankSlot) (fun _ => Qed.blankSlot) [Qed.shooter]
    [{ Qed.blankSlot with tau := .val 5 }] [Qed.blankSlot]).map (fun r => r.2.1.map fun p => (p.dead, p.tau))
      = some [(false, .val 5)] := by
  decide +kernel

/-- **C91** fails for two particles with the same optical depth, such as one that has gone to another patch and a new one in
the slot it has left: the probability that both have an event in their next step is not the product of the two
probabilities. -/
theorem same_depth_fails {lam : ℝ} (hl : 0 < lam) :
    (drawDepth fun t => (if firesE (t - lam) then 1 else 0) * if firesE (t - lam) then 1 else 0)
        = ENNReal.ofReal (1 - Real.exp (-lam))
      ∧ (drawDepth fun t => if firesE (t - lam) then 1 else 0) = ENNReal.ofReal (1 - Real.exp (-lam))
      ∧ ENNReal.ofReal (1 - Real.exp (-lam))
        ≠ ENNReal.ofReal (1 - Real.exp (-lam)) * ENNReal.ofReal (1 - Real.exp (-lam)) := by
  have h1 : Real.exp (-lam) < 1 := by rw [Real.exp_lt_one_iff]; linarith
  have key : (drawDepth fun t => if firesE (t - lam) then 1 else 0) = ENNReal.ofReal (1 - Real.exp (-lam)) := by
    rw [drawDepth_split hl.le 1 _ (fun _ => 0) (fun t _ h => ?_) (fun t h => ?_)]
    · have : drawDepth (fun _ => (0 : ℝ≥0∞)) = 0 := draw_const 0
      rw [this]; simp
    · simp [firesE, h]
    · simp [firesE, h.le]
  refine ⟨?_, key, ?_⟩
  · rw [← key]
    congr 1
    funext t
    split <;> simp
  · rw [← ENNReal.ofReal_mul (by linarith)]
    intro h
    rw [ENNReal.ofReal_eq_ofReal_iff (by linarith) (by nlinarith)] at h
    have := Real.exp_pos (-lam)
    nlinarith

end Verif.Rates
