import Verif.Model.Rates
import Mathlib.MeasureTheory.Function.JacobianOneDim
import Mathlib.MeasureTheory.Measure.Prod
import Mathlib.Analysis.SpecialFunctions.ExpDeriv
import Mathlib.MeasureTheory.Constructions.BorelSpace.Basic
import Mathlib.MeasureTheory.Function.SpecialFunctions.Basic
/-!
# Random events of a particle: lemmas
-/
namespace Verif.Rates
open MeasureTheory Set
open scoped ENNReal

theorem expimage (a b : ℝ) : (fun t => 1 - Real.exp (-t)) '' Ioo a b = Ioo (1 - Real.exp (-a)) (1 - Real.exp (-b)) := by
  ext u
  constructor
  · rintro ⟨t, ⟨h1, h2⟩, rfl⟩
    exact ⟨by simpa using h1, by simpa using h2⟩
  · rintro ⟨h1, h2⟩
    have hu : 0 < 1 - u := by have := Real.exp_pos (-b); linarith
    refine ⟨-Real.log (1 - u), ⟨?_, ?_⟩, ?_⟩
    · have : Real.log (1 - u) < -a := (Real.log_lt_iff_lt_exp hu).mpr (by linarith)
      linarith
    · have : -b < Real.log (1 - u) := (Real.lt_log_iff_exp_lt hu).mpr (by linarith)
      linarith
    · simp [Real.exp_log hu]

theorem expimage' : (fun t => 1 - Real.exp (-t)) '' Ioi 0 = Ioo 0 1 := by
  ext u
  constructor
  · rintro ⟨t, h1, rfl⟩
    exact ⟨by simpa using h1, by simp [Real.exp_pos]⟩
  · rintro ⟨h1, h2⟩
    have hu : 0 < 1 - u := by linarith
    refine ⟨-Real.log (1 - u), ?_, by simp [Real.exp_log hu]⟩
    have : Real.log (1 - u) < 0 := Real.log_neg hu (by linarith)
    rw [mem_Ioi]
    linarith

theorem expder (t : ℝ) (s : Set ℝ) : HasDerivWithinAt (fun t => 1 - Real.exp (-t)) (Real.exp (-t)) s t := by
  have h := ((hasDerivAt_neg t).exp.const_sub 1).hasDerivWithinAt (s := s)
  simpa using h

theorem expinj (s : Set ℝ) : InjOn (fun t => 1 - Real.exp (-t)) s := by
  intro a _ b _ h
  have : Real.exp (-a) = Real.exp (-b) := by simpa using h
  simpa using Real.exp_injective this

theorem draw_eq (K : ℝ → ℝ≥0∞) : draw K = ∫⁻ u in Ioo (0 : ℝ) 1, K u := setLIntegral_congr Ioo_ae_eq_Ico.symm

theorem draw_const (c : ℝ≥0∞) : draw (fun _ => c) = c := by
  unfold draw
  simp

/-- the depth is exponentially distributed -/
theorem drawDepth_eq (K : ℝ → ℝ≥0∞) : drawDepth K = ∫⁻ t in Ioi (0 : ℝ), ENNReal.ofReal (Real.exp (-t)) * K t := by
  unfold drawDepth
  rw [draw_eq, ← expimage', lintegral_image_eq_lintegral_abs_deriv_mul measurableSet_Ioi (fun t _ => expder t _) (expinj _)]
  refine lintegral_congr fun t => ?_
  rw [abs_of_pos (Real.exp_pos _)]
  simp

theorem drawDepth_congr {K K' : ℝ → ℝ≥0∞} (h : ∀ t, 0 < t → K t = K' t) : drawDepth K = drawDepth K' := by
  rw [drawDepth_eq, drawDepth_eq]
  exact setLIntegral_congr_fun measurableSet_Ioi fun t ht => by rw [h t ht]

/-- memorylessness -/
theorem drawDepth_split {lam : ℝ} (hl : 0 ≤ lam) (c : ℝ≥0∞) (K' K : ℝ → ℝ≥0∞) (h1 : ∀ t, 0 < t → t < lam → K' t = c)
    (h2 : ∀ t, lam < t → K' t = K (t - lam)) :
    drawDepth K' = ENNReal.ofReal (1 - Real.exp (-lam)) * c + ENNReal.ofReal (Real.exp (-lam)) * drawDepth K := by
  have hs : Ioi (0 : ℝ) =ᵐ[volume] (Ioo 0 lam ∪ Ioi lam : Set ℝ) := by
    have e : Ioi (0 : ℝ) =ᵐ[volume] (Ioc 0 lam ∪ Ioi lam : Set ℝ) := by
      rw [Ioc_union_Ioi_eq_Ioi hl]
      exact ae_eq_refl _
    exact e.trans (Ioo_ae_eq_Ioc.symm.union (ae_eq_refl _))
  rw [drawDepth_eq, setLIntegral_congr hs, lintegral_union measurableSet_Ioi
    (by rw [Set.disjoint_left]; intro t ht ht'; exact lt_asymm ht.2 ht')]
  congr 1
  · have e : ∫⁻ t in Ioo 0 lam, ENNReal.ofReal (Real.exp (-t)) * K' t
        = ∫⁻ t in Ioo 0 lam, ENNReal.ofReal |Real.exp (-t)| * (fun _ => c) ((fun t => 1 - Real.exp (-t)) t) :=
      setLIntegral_congr_fun measurableSet_Ioo fun t ht => by
        show _ * K' t = _
        rw [h1 t ht.1 ht.2, abs_of_pos (Real.exp_pos _)]
    rw [e, ← lintegral_image_eq_lintegral_abs_deriv_mul measurableSet_Ioo (fun t _ => expder t _) (expinj _) (fun _ => c),
      expimage]
    simp [mul_comm]
  · have hi : (fun t => t + lam) '' Ioi 0 = Ioi lam := by simp
    rw [← hi, lintegral_image_eq_lintegral_abs_deriv_mul measurableSet_Ioi (f' := fun _ => 1)
      (fun t _ => by simpa using ((hasDerivAt_id t).add_const lam).hasDerivWithinAt) (by intro a _ b _ h; simpa using h),
      drawDepth_eq, ← lintegral_const_mul' _ _ ENNReal.ofReal_ne_top]
    refine setLIntegral_congr_fun measurableSet_Ioi fun t ht => ?_
    have ht : 0 < t := ht
    rw [h2 _ (by linarith), add_sub_cancel_right, neg_add, Real.exp_add, ENNReal.ofReal_mul (Real.exp_pos _).le]
    simp only [abs_one, ENNReal.ofReal_one, one_mul]
    ring

/-- Specification of what an environment may be: everything depends on the state in a measurable way, and rates are not
negative -/
structure Env.Ok {Ω : Type} [MeasurableSpace Ω] (E : Env Ω) : Prop where
  active : Measurable E.active
  lam : Measurable E.lam
  sample : Measurable fun p : Ω × ℝ => E.sample p.1 p.2
  quiet : Measurable E.quiet
  hit : Measurable fun p : Ω × ℝ => E.hit p.1 p.2
  pos : ∀ w, 0 ≤ E.lam w

variable {Ω : Type} [MeasurableSpace Ω] {E : Env Ω} (hE : E.Ok) {fires : ℝ → Bool} (hf : Measurable fires)
  (hneg : ∀ t, t < 0 → fires t = true) (hpos : ∀ t, 0 < t → fires t = false)

theorem measurable_draw {α : Type} [MeasurableSpace α] {K : α → ℝ → ℝ≥0∞} (h : Measurable fun p : α × ℝ => K p.1 p.2) :
    Measurable fun a => draw (K a) := Measurable.lintegral_prod_right' h

theorem measurable_drawDepth {α : Type} [MeasurableSpace α] {K : α → ℝ → ℝ≥0∞} (h : Measurable fun p : α × ℝ => K p.1 p.2) :
    Measurable fun a => drawDepth (K a) := by
  unfold drawDepth
  refine measurable_draw ?_
  exact h.comp (measurable_fst.prodMk (Real.measurable_log.comp (measurable_const.sub measurable_snd)).neg)

include hE hf in
theorem measurable_afterSet {next : Ω → ℝ → ℝ≥0∞} (h : Measurable fun p : Ω × ℝ => next p.1 p.2) :
    Measurable fun p : Ω × ℝ => afterSet E fires next p.1 p.2 := by
  unfold afterSet
  have ht : Measurable fun p : Ω × ℝ => p.2 - E.lam p.1 := measurable_snd.sub (hE.lam.comp measurable_fst)
  refine Measurable.ite ((hf.comp ht) (measurableSet_singleton true)) ?_ ?_
  · refine measurable_drawDepth (K := fun (p : Ω × ℝ) t' => draw fun v => next (E.hit p.1 (E.sample p.1 v)) t') ?_
    refine measurable_draw (K := fun (q : (Ω × ℝ) × ℝ) v => next (E.hit q.1.1 (E.sample q.1.1 v)) q.2) ?_
    have hw : Measurable fun q : ((Ω × ℝ) × ℝ) × ℝ => q.1.1.1 := measurable_fst.comp (measurable_fst.comp measurable_fst)
    exact h.comp ((hE.hit.comp (hw.prodMk (hE.sample.comp (hw.prodMk measurable_snd)))).prodMk
      (measurable_snd.comp measurable_fst))
  · exact h.comp ((hE.quiet.comp measurable_fst).prodMk ht)

include hE hf in
theorem measurable_run {K : Ω → ℝ≥0∞} (hK : Measurable K) (n : Nat) :
    Measurable fun p : Ω × ℝ => run E fires K n p.1 p.2 := by
  induction n with
  | zero => exact hK.comp measurable_fst
  | succ n ih =>
    have ha := measurable_afterSet hE hf ih
    show Measurable fun p : Ω × ℝ => oneStep E fires (run E fires K n) p.1 p.2
    unfold oneStep
    refine Measurable.ite ((hE.active.comp measurable_fst) (measurableSet_singleton true)) ?_ ?_
    · refine Measurable.ite (measurable_snd (measurableSet_singleton 0)) ?_ ha
      refine measurable_drawDepth (K := fun (p : Ω × ℝ) t0 => afterSet E fires (run E fires K n) p.1 t0) ?_
      exact ha.comp ((measurable_fst.comp measurable_fst).prodMk measurable_snd)
    · exact ih.comp ((hE.quiet.comp measurable_fst).prodMk measurable_snd)

include hE hf in
/-- the order of the two draws of an event does not matter -/
theorem draws_swap {K : Ω → ℝ≥0∞} (hK : Measurable K) (n : Nat) (w : Ω) :
    (drawDepth fun t' => draw fun v => run E fires K n (E.hit w (E.sample w v)) t')
      = draw fun v => drawDepth fun t' => run E fires K n (E.hit w (E.sample w v)) t' := by
  unfold drawDepth draw
  have hm : Measurable fun p : ℝ × ℝ => run E fires K n (E.hit w (E.sample w p.2)) (-Real.log (1 - p.1)) :=
    (measurable_run hE hf hK n).comp ((hE.hit.comp (measurable_const.prodMk (hE.sample.comp
      (measurable_const.prodMk measurable_snd)))).prodMk (Real.measurable_log.comp (measurable_const.sub measurable_fst)).neg)
  exact lintegral_lintegral_swap hm.aemeasurable

end Verif.Rates
