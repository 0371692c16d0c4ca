import Verif.Model.Juttner
import Mathlib.Analysis.SpecificLimits.Basic
/-!
# Rejection sampling: the loop ends, and its numbers are independent draws from the law of the accepted ones
-/
namespace Verif.Juttner
open MeasureTheory Filter
open scoped ENNReal Topology

/-- the probability to accept the proposal `x` is `a x` -/
structure Accepts (T : Trial) (a : ℝ → ℝ≥0∞) : Prop where
  prob : T.prop Set.univ = 1
  meas : Measurable a
  le : ∀ x, a x ≤ 1
  ok : ∀ᵐ x ∂T.prop, ∀ k kn : ℝ≥0∞, (open Classical in ∫⁻ v, (if T.ok x v then k else kn) ∂T.vlaw) = a x * k + (1 - a x) * kn

variable {T : Trial} {a : ℝ → ℝ≥0∞}

/-- the probability to accept a proposal -/
noncomputable def yes (T : Trial) (a : ℝ → ℝ≥0∞) : ℝ≥0∞ := ∫⁻ x, a x ∂T.prop
/-- the probability to reject a proposal -/
noncomputable def no (T : Trial) (a : ℝ → ℝ≥0∞) : ℝ≥0∞ := ∫⁻ x, (1 - a x) ∂T.prop
/-- the law of the accepted numbers -/
noncomputable def accepted (T : Trial) (a : ℝ → ℝ≥0∞) : Measure ℝ := (yes T a)⁻¹ • T.prop.withDensity a

theorem yes_no (h : Accepts T a) : yes T a + no T a = 1 := by
  unfold yes no
  rw [← lintegral_add_left h.meas]
  have : ∀ x, a x + (1 - a x) = 1 := fun x => add_tsub_cancel_of_le (h.le x)
  simp [this, h.prob]

theorem trial_eq (h : Accepts T a) (K : ℝ → ℝ≥0∞) (kn : ℝ≥0∞) :
    trial T K kn = (∫⁻ x, a x * K x ∂T.prop) + no T a * kn := by
  unfold trial no
  have e : (∫⁻ x, ∫⁻ v, (open Classical in if T.ok x v then K x else kn) ∂T.vlaw ∂T.prop)
      = ∫⁻ x, (a x * K x + (1 - a x) * kn) ∂T.prop :=
    lintegral_congr_ae (h.ok.mono fun x hx => hx (K x) kn)
  have hm : Measurable fun x => 1 - a x := measurable_const.sub h.meas
  have hm' : Measurable fun x => (1 - a x) * kn := hm.mul_const kn
  rw [e, lintegral_add_right _ hm', lintegral_mul_const _ hm]

theorem accepted_mean (h : Accepts T a) (hy : yes T a ≠ 0) (K : ℝ → ℝ≥0∞) :
    yes T a * ∫⁻ x, K x ∂accepted T a = ∫⁻ x, a x * K x ∂T.prop := by
  have hle : yes T a ≤ 1 := (yes_no h) ▸ le_self_add
  have hfin : yes T a ≠ ∞ := (hle.trans_lt ENNReal.one_lt_top).ne
  unfold accepted
  rw [lintegral_smul_measure, smul_eq_mul, ← mul_assoc, ENNReal.mul_inv_cancel hy hfin, one_mul]
  exact lintegral_withDensity_eq_lintegral_mul_non_measurable _ h.meas
    (ae_of_all _ fun x => (h.le x).trans_lt ENNReal.one_lt_top) K

theorem round_mono (n : Nat) : ∀ {K K' : List ℝ → ℝ≥0∞}, (∀ l, K l ≤ K' l) → round T n K ≤ round T n K' := by
  induction n with
  | zero => intro K K' h; exact h _
  | succ n ih =>
    intro K K' h
    show trial T _ _ ≤ trial T _ _
    unfold trial
    refine lintegral_mono fun x => lintegral_mono fun v => ?_
    dsimp only
    split
    · exact ih fun l => h _
    · exact ih h

/-- independent draws from the law of the accepted numbers do not change if a round of proposals is made first -/
theorem round_iid (h : Accepts T a) (hy : yes T a ≠ 0) (n : Nat) : ∀ (m : Nat) (K : List ℝ → ℝ≥0∞), n ≤ m →
    (round T n fun l => iid (accepted T a) (m - l.length) fun l' => K (l ++ l')) = iid (accepted T a) m K := by
  induction n with
  | zero => intro m K _; rfl
  | succ n ih =>
    intro m K hm
    obtain ⟨m', rfl⟩ : ∃ m', m = m' + 1 := ⟨m - 1, by omega⟩
    have e1 : ∀ x, (round T n fun l => iid (accepted T a) (m' + 1 - (x :: l).length) fun l' => K ((x :: l) ++ l'))
        = iid (accepted T a) m' fun l' => K (x :: l') := by
      intro x
      rw [← ih m' (fun l' => K (x :: l')) (by omega)]
      congr 1
      funext l
      rw [List.length_cons, Nat.add_sub_add_right]
      rfl
    have e2 := ih (m' + 1) K (by omega)
    show trial T (fun x => round T n fun l => iid (accepted T a) (m' + 1 - (x :: l).length) fun l' => K ((x :: l) ++ l'))
      (round T n fun l => iid (accepted T a) (m' + 1 - l.length) fun l' => K (l ++ l')) = _
    rw [e2, trial_eq h]
    simp only [e1]
    rw [← accepted_mean h hy (fun x => iid (accepted T a) m' fun l' => K (x :: l'))]
    show yes T a * iid (accepted T a) (m' + 1) K + no T a * iid (accepted T a) (m' + 1) K = _
    rw [← add_mul, yes_no h, one_mul]

/-- a function of the number of accepted numbers may be split off -/
theorem round_add (h : Accepts T a) (n : Nat) : ∀ (K : List ℝ → ℝ≥0∞) (B : Nat → ℝ≥0∞),
    (round T n fun l => K l + B l.length) = round T n K + round T n fun l => B l.length := by
  induction n with
  | zero => intro K B; rfl
  | succ n ih =>
    intro K B
    show trial T (fun x => round T n fun l => K (x :: l) + B (l.length + 1)) (round T n fun l => K l + B l.length)
      = trial T (fun x => round T n fun l => K (x :: l)) (round T n K)
        + trial T (fun x => round T n fun l => B (l.length + 1)) (round T n fun l => B l.length)
    rw [trial_eq h, trial_eq h, trial_eq h, ih K B]
    have e : ∀ x, (round T n fun l => K (x :: l) + B (l.length + 1))
        = (round T n fun l => K (x :: l)) + round T n fun l => B (l.length + 1) :=
      fun x => ih (fun l => K (x :: l)) fun k => B (k + 1)
    simp only [e, mul_add]
    have hm : Measurable fun x => a x * round T n fun l => B (l.length + 1) := h.meas.mul_const _
    rw [lintegral_add_right _ hm]
    ring

theorem round_mul (h : Accepts T a) (c : ℝ≥0∞) (hc : c ≠ ∞) (n : Nat) : ∀ (B : Nat → ℝ≥0∞),
    (round T n fun l => c * B l.length) = c * round T n fun l => B l.length := by
  induction n with
  | zero => intro B; rfl
  | succ n ih =>
    intro B
    show trial T (fun x => round T n fun l => c * B (l.length + 1)) (round T n fun l => c * B l.length)
      = c * trial T (fun x => round T n fun l => B (l.length + 1)) (round T n fun l => B l.length)
    rw [trial_eq h, trial_eq h, ih B, ih fun k => B (k + 1), mul_add, ← lintegral_const_mul' _ _ hc]
    have e : ∀ x, a x * (c * round T n fun l => B (l.length + 1)) = c * (a x * round T n fun l => B (l.length + 1)) :=
      fun x => by ring
    simp only [e]
    ring

/-- the mean number of rejected proposals -/
theorem round_left (h : Accepts T a) (n : Nat) : ∀ k : Nat,
    (round T n fun l => ((k + n - l.length : ℕ) : ℝ≥0∞)) = k + n * no T a := by
  induction n with
  | zero => intro k; simp [round]
  | succ n ih =>
    intro k
    have e1 : ∀ x : ℝ, (round T n fun l => ((k + (n + 1) - (x :: l).length : ℕ) : ℝ≥0∞)) = k + n * no T a := by
      intro x
      rw [← ih k]
      congr 1
      funext l
      rw [List.length_cons, ← add_assoc, Nat.add_sub_add_right]
    have e2 : (round T n fun l => ((k + (n + 1) - l.length : ℕ) : ℝ≥0∞)) = (k + 1 : ℕ) + n * no T a := by
      rw [← ih (k + 1)]
      congr 1
      funext l
      rw [show k + (n + 1) = k + 1 + n by ring]
    show trial T (fun x => round T n fun l => ((k + (n + 1) - (x :: l).length : ℕ) : ℝ≥0∞))
      (round T n fun l => ((k + (n + 1) - l.length : ℕ) : ℝ≥0∞)) = _
    rw [e2, trial_eq h]
    simp only [e1]
    rw [lintegral_mul_const _ h.meas]
    show yes T a * (k + n * no T a) + no T a * ((k + 1 : ℕ) + n * no T a) = _
    calc yes T a * (k + n * no T a) + no T a * ((k + 1 : ℕ) + n * no T a)
        = (yes T a + no T a) * (k + n * no T a) + no T a := by push_cast; ring
      _ = _ := by rw [yes_no h]; push_cast; ring

theorem no_ne_top (h : Accepts T a) : no T a ≠ ∞ :=
  ((show no T a ≤ 1 from (yes_no h) ▸ le_add_self).trans_lt ENNReal.one_lt_top).ne

/-- the loop is never ahead of independent draws, and behind them by at most the share of loops that have not ended -/
theorem loop_between (h : Accepts T a) (hy : yes T a ≠ 0) (C : ℝ≥0∞) (hC : C ≠ ∞) (f : Nat) :
    ∀ (m : Nat) (K : List ℝ → ℝ≥0∞), (∀ l, K l ≤ C) → loop T f m K ≤ iid (accepted T a) m K
      ∧ iid (accepted T a) m K ≤ loop T f m K + C * no T a ^ f * m := by
  have hone : (accepted T a) Set.univ = 1 := by
    have := accepted_mean h hy fun _ => 1
    simp only [mul_one, lintegral_const, one_mul] at this
    have hfin : yes T a ≠ ∞ := ((show yes T a ≤ 1 from (yes_no h) ▸ le_self_add).trans_lt ENNReal.one_lt_top).ne
    have hh : yes T a * (accepted T a) Set.univ = yes T a * 1 := by rw [this, mul_one]; rfl
    exact (ENNReal.mul_right_inj hy hfin).mp hh
  have hbound : ∀ (m : Nat) (K : List ℝ → ℝ≥0∞), (∀ l, K l ≤ C) → iid (accepted T a) m K ≤ C := by
    intro m
    induction m with
    | zero => intro K hK; exact hK _
    | succ m ih =>
      intro K hK
      calc iid (accepted T a) (m + 1) K ≤ ∫⁻ _, C ∂accepted T a := lintegral_mono fun x => ih _ fun l => hK _
        _ = C := by rw [lintegral_const, hone, mul_one]
  induction f with
  | zero =>
    intro m K hK
    show ite _ _ _ ≤ _ ∧ _ ≤ ite _ _ _ + _
    by_cases hm : m = 0
    · subst hm
      simp [iid]
    · simp only [hm, if_false, zero_le, true_and, pow_zero, mul_one, zero_add]
      refine (hbound m K hK).trans ?_
      have : (1 : ℝ≥0∞) ≤ m := by exact_mod_cast Nat.one_le_iff_ne_zero.mpr hm
      calc C = C * 1 := (mul_one C).symm
        _ ≤ C * m := by gcongr
  | succ f ih =>
    intro m K hK
    show ite _ _ _ ≤ _ ∧ _ ≤ ite _ _ _ + _
    by_cases hm : m = 0
    · subst hm
      simp [iid]
    · simp only [hm, if_false]
      rw [← round_iid h hy m m K le_rfl]
      constructor
      · exact round_mono m fun l => (ih _ _ fun l' => hK _).1
      · calc (round T m fun l => iid (accepted T a) (m - l.length) fun l' => K (l ++ l'))
            ≤ round T m fun l => (loop T f (m - l.length) fun l' => K (l ++ l')) + C * no T a ^ f * ((m - l.length : ℕ) : ℝ≥0∞) :=
              round_mono m fun l => (ih _ _ fun l' => hK _).2
          _ = (round T m fun l => loop T f (m - l.length) fun l' => K (l ++ l'))
              + round T m fun l => C * no T a ^ f * ((m - l.length : ℕ) : ℝ≥0∞) :=
              round_add h m (fun l => loop T f (m - l.length) fun l' => K (l ++ l'))
                fun k => C * no T a ^ f * ((m - k : ℕ) : ℝ≥0∞)
          _ = _ := by
              congr 1
              have hr := round_left h m 0
              simp only [zero_add, Nat.cast_zero] at hr
              rw [round_mul h _ (ENNReal.mul_ne_top hC (ENNReal.pow_ne_top (no_ne_top h))) m fun k => ((m - k : ℕ) : ℝ≥0∞), hr,
                pow_succ]
              ring

/-- the loop ends with probability one, with independent draws from the law of the accepted numbers -/
theorem loop_law (h : Accepts T a) (hy : yes T a ≠ 0) (C : ℝ≥0∞) (hC : C ≠ ∞) (m : Nat) (K : List ℝ → ℝ≥0∞)
    (hK : ∀ l, K l ≤ C) : Tendsto (fun f => loop T f m K) atTop (𝓝 (iid (accepted T a) m K)) := by
  have hno : no T a < 1 := by
    have h1 := yes_no h
    have h2 : no T a ≤ 1 := h1 ▸ le_add_self
    refine lt_of_le_of_ne h2 fun e => hy ?_
    rw [e] at h1
    have : yes T a + 1 = 0 + 1 := by rw [h1, zero_add]
    exact (ENNReal.add_left_inj ENNReal.one_ne_top).mp this
  have hsmall : Tendsto (fun f => C * no T a ^ f * (m : ℝ≥0∞)) atTop (𝓝 0) := by
    have h0 := ENNReal.tendsto_pow_atTop_nhds_zero_of_lt_one hno
    have h1 := ENNReal.Tendsto.const_mul (a := C) h0 (.inr hC)
    have h2 := ENNReal.Tendsto.mul_const (b := (m : ℝ≥0∞)) h1 (.inr (ENNReal.natCast_ne_top m))
    simpa using h2
  have hb := fun f => loop_between h hy C hC f m K hK
  have hlow : Tendsto (fun f => iid (accepted T a) m K - C * no T a ^ f * (m : ℝ≥0∞)) atTop (𝓝 (iid (accepted T a) m K)) := by
    have := ENNReal.Tendsto.sub (tendsto_const_nhds (x := iid (accepted T a) m K) (f := atTop (α := ℕ))) hsmall (.inr ENNReal.zero_ne_top)
    simpa using this
  exact tendsto_of_tendsto_of_tendsto_of_le_of_le hlow tendsto_const_nhds (fun f => tsub_le_iff_right.mpr (hb f).2) fun f => (hb f).1

end Verif.Juttner
