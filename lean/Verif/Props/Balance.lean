import Verif.Model.Balance
import Mathlib.Analysis.Complex.ExponentialBounds
import Mathlib.Analysis.Real.Pi.Bounds
import Mathlib.Algebra.BigOperators.Group.List.Basic
import Mathlib.Algebra.Order.BigOperators.Group.List
import Mathlib.Data.List.Nodup
import Mathlib.Tactic.Linarith
import Mathlib.Tactic.Positivity
import Mathlib.Tactic.Ring
import Mathlib.Tactic.NormNum
/-! # C85 — the load balancer over a run: same decision on all ranks, bounded threshold, finitely many retries -/
namespace Verif.Balance

/-! ## Specification -/

/-- the load of a rank -/
def total (loads : Nat → List ℝ) (r : Nat) : ℝ := (loads r).sum

/-- some rank carries more than another by more than `t` times the average load -/
def Exceeds (R : Nat) (t : ℝ) (loads : Nat → List ℝ) : Prop :=
  ∃ a < R, ∃ b < R, total loads a - total loads b > t * (((List.range R).map (total loads)).sum / R)

/-- loads a run can have: every rank owns a patch, no patch has a negative load, some patch has a positive one -/
structure Good (R : Nat) (loads : Nat → List ℝ) : Prop where
  own : ∀ r < R, loads r ≠ []
  nonneg : ∀ r < R, ∀ x ∈ loads r, 0 ≤ x
  pos : ∃ r < R, ∃ x ∈ loads r, 0 < x

/-- the factors of the code (load_balancer.py 52-53) -/
noncomputable def incF : ℝ := Real.exp 1 / 2

noncomputable def decF : ℝ := 3 / Real.pi

theorem inc_gt : 1 < incF := by unfold incF; linarith [Real.exp_one_gt_d9]

theorem dec_pos : 0 < decF := by unfold decF; exact div_pos (by norm_num) Real.pi_pos

theorem dec_lt : decF < 1 := by
  unfold decF; rw [div_lt_one Real.pi_pos]; exact Real.pi_gt_three

/-! ## The decision -/

theorem foldl_max_ge (l : List ℝ) (x : ℝ) : (∀ y ∈ l, y ≤ l.foldl max x) ∧ (l.foldl max x = x ∨ l.foldl max x ∈ l) := by
  have : ∀ (l : List ℝ) (x : ℝ), x ≤ l.foldl max x ∧ (∀ y ∈ l, y ≤ l.foldl max x) ∧ (l.foldl max x = x ∨ l.foldl max x ∈ l) := by
    intro l
    induction l with
    | nil => intro x; exact ⟨le_refl _, by simp, Or.inl rfl⟩
    | cons a l ih =>
      intro x
      obtain ⟨h1, h2, h3⟩ := ih (max x a)
      rw [List.foldl_cons]
      refine ⟨le_trans (le_max_left _ _) h1, ?_, ?_⟩
      · intro y hy
        rcases List.mem_cons.mp hy with rfl | hy
        · exact le_trans (le_max_right _ _) h1
        · exact h2 y hy
      · rcases h3 with h3 | h3
        · rw [h3]
          rcases max_choice x a with h | h
          · exact Or.inl h
          · exact Or.inr (by rw [h]; exact List.mem_cons_self)
        · exact Or.inr (List.mem_cons_of_mem _ h3)
  exact (this l x).2

theorem foldl_min_le (l : List ℝ) (x : ℝ) : (∀ y ∈ l, l.foldl min x ≤ y) ∧ (l.foldl min x = x ∨ l.foldl min x ∈ l) := by
  have : ∀ (l : List ℝ) (x : ℝ), l.foldl min x ≤ x ∧ (∀ y ∈ l, l.foldl min x ≤ y) ∧ (l.foldl min x = x ∨ l.foldl min x ∈ l) := by
    intro l
    induction l with
    | nil => intro x; exact ⟨le_refl _, by simp, Or.inl rfl⟩
    | cons a l ih =>
      intro x
      obtain ⟨h1, h2, h3⟩ := ih (min x a)
      rw [List.foldl_cons]
      refine ⟨le_trans h1 (min_le_left _ _), ?_, ?_⟩
      · intro y hy
        rcases List.mem_cons.mp hy with rfl | hy
        · exact le_trans h1 (min_le_right _ _)
        · exact h2 y hy
      · rcases h3 with h3 | h3
        · rw [h3]
          rcases min_choice x a with h | h
          · exact Or.inl h
          · exact Or.inr (by rw [h]; exact List.mem_cons_self)
        · exact Or.inr (List.mem_cons_of_mem _ h3)
  exact (this l x).2

theorem total_nonneg {R : Nat} {loads : Nat → List ℝ} (h : Good R loads) (r : Nat) (hr : r < R) : 0 ≤ total loads r :=
  List.sum_nonneg (h.nonneg r hr)

theorem sum_pos {R : Nat} {loads : Nat → List ℝ} (h : Good R loads) : 0 < ((List.range R).map (total loads)).sum := by
  obtain ⟨r, hr, x, hx, h0⟩ := h.pos
  have h1 : x ≤ total loads r := List.single_le_sum (h.nonneg r hr) x hx
  have h2 : total loads r ≤ ((List.range R).map (total loads)).sum := by
    refine List.single_le_sum ?_ _ (List.mem_map.mpr ⟨r, List.mem_range.mpr hr, rfl⟩)
    intro y hy
    obtain ⟨s, hs, rfl⟩ := List.mem_map.mp hy
    exact total_nonneg h s (List.mem_range.mp hs)
  linarith

theorem decision_iff {R : Nat} (hR : 0 < R) {loads : Nat → List ℝ} (h : Good R loads) (t : ℝ) :
    decision t ((List.range R).map fun r => (loads r).sum) = true ↔ Exceeds R t loads := by
  have hpos := sum_pos h
  have hl : ((List.range R).map fun r => (loads r).sum).length = R := by simp
  have hR' : (0 : ℝ) < R := by exact_mod_cast hR
  unfold Exceeds
  rw [show ((List.range R).map (total loads)) = (List.range R).map fun r => (loads r).sum from rfl] at *
  have hmem : ∀ y, y ∈ ((List.range R).map fun r => (loads r).sum) ↔ ∃ a < R, total loads a = y := by
    intro y; simp [total]
  generalize (List.range R).map (fun r => (loads r).sum) = l at *
  have hne : l ≠ [] := by rintro rfl; simp at hpos
  obtain ⟨x, m, rfl⟩ := List.exists_cons_of_ne_nil hne
  obtain ⟨m2, m3⟩ := foldl_max_ge (x :: m) x
  obtain ⟨n2, n3⟩ := foldl_min_le (x :: m) x
  have mm : (x :: m).foldl max x ∈ x :: m := by
    rcases m3 with h | h
    · rw [h]; exact List.mem_cons_self
    · exact h
  have nn : (x :: m).foldl min x ∈ x :: m := by
    rcases n3 with h | h
    · rw [h]; exact List.mem_cons_self
    · exact h
  have havg : 0 < (x :: m).sum / ((x :: m).length : ℝ) := by rw [hl]; exact div_pos hpos hR'
  have e : decision t (x :: m) = decide (((x :: m).foldl max x - (x :: m).foldl min x) /
      ((x :: m).sum / ((x :: m).length : ℝ)) > t) := by
    unfold decision
    dsimp only [List.headD_cons]
    rw [if_neg havg.ne']
  rw [e, decide_eq_true_iff, gt_iff_lt, lt_div_iff₀ havg, hl]
  constructor
  · intro h
    obtain ⟨a, ha, ea⟩ := (hmem _).mp mm
    obtain ⟨b, hb, eb⟩ := (hmem _).mp nn
    exact ⟨a, ha, b, hb, by rw [ea, eb]; exact h⟩
  · rintro ⟨a, ha, b, hb, h⟩
    have := m2 _ ((hmem _).mpr ⟨a, ha, rfl⟩)
    have := n2 _ ((hmem _).mpr ⟨b, hb, rfl⟩)
    linarith

/-- an imbalance is never more than the number of ranks -/
theorem exceeds_lt {R : Nat} (hR : 0 < R) {loads : Nat → List ℝ} (h : Good R loads) {t : ℝ} (he : Exceeds R t loads) : t < R := by
  obtain ⟨a, ha, b, hb, hlt⟩ := he
  have hpos := sum_pos h
  have hR' : (0 : ℝ) < R := by exact_mod_cast hR
  have h1 : total loads a ≤ ((List.range R).map (total loads)).sum := by
    refine List.single_le_sum ?_ _ (List.mem_map.mpr ⟨a, List.mem_range.mpr ha, rfl⟩)
    intro y hy
    obtain ⟨s, hs, rfl⟩ := List.mem_map.mp hy
    exact total_nonneg h s (List.mem_range.mp hs)
  have h2 := total_nonneg h b hb
  generalize ((List.range R).map (total loads)).sum = S at *
  by_contra hc
  have : (R : ℝ) * (S / R) ≤ t * (S / R) := mul_le_mul_of_nonneg_right (not_lt.mp hc) (div_nonneg hpos.le hR'.le)
  rw [mul_div_cancel₀ _ hR'.ne'] at this
  linarith

theorem should_eq {R : Nat} (hR : 0 < R) {loads : Nat → List ℝ} (h : Good R loads) (thr : Nat → ℝ) :
    shouldRebalance R thr loads = some fun r => decision (thr r) ((List.range R).map fun r => (loads r).sum) := by
  unfold shouldRebalance
  rw [if_neg, if_neg]
  · simp only [List.any_eq_true, List.mem_range, List.isEmpty_iff, not_exists, not_and]
    exact h.own
  · simp only [List.all_eq_true, List.mem_range, List.isEmpty_iff, not_forall]
    exact ⟨0, hR, h.own 0 hR⟩

/-! ## One step -/

/-- what the balancer should do in a step, when all ranks have the threshold `t` -/
noncomputable def next (R : Nat) (inc dec init t : ℝ) (before after : Nat → List ℝ) : ℝ × Outcome :=
  open Classical in
  if R ≤ 1 ∨ ¬ Exceeds R t before then (t, .keep)
  else if Exceeds R t after then (t * inc, .unbalanced)
  else (if t > init then t * dec else t, .balanced)

theorem step_eq {R : Nat} (hR : 0 < R) (inc dec init t : ℝ) {before after : Nat → List ℝ} (hb : Good R before) (ha : Good R after) :
    step R inc dec init (fun _ => t) before after =
      some (fun _ => (next R inc dec init t before after).1, (next R inc dec init t before after).2) := by
  unfold step next
  by_cases h1 : R ≤ 1
  · simp [h1]
  · simp only [h1, if_false, false_or, should_eq hR hb, should_eq hR ha, Option.bind_eq_bind, Option.bind_some]
    by_cases h2 : Exceeds R t before
    · have d1 := (decision_iff hR hb t).mpr h2
      simp only [h2, not_true_eq_false, d1]
      rw [if_neg (by simp only [Bool.not_true, List.all_eq_true, List.mem_range, not_forall]; exact ⟨0, hR, by simp⟩)]
      rw [if_pos (by simp)]
      by_cases h3 : Exceeds R t after
      · have d2 := (decision_iff hR ha t).mpr h3
        simp [h1, h3, d2]
      · have d2 : decision t ((List.range R).map fun r => (after r).sum) = false := by
          rw [← Bool.not_eq_true, decision_iff hR ha t]; exact h3
        simp [h1, h3, d2]
    · have d1 : decision t ((List.range R).map fun r => (before r).sum) = false := by
        rw [← Bool.not_eq_true, decision_iff hR hb t]; exact h2
      simp [h2, d1]

/-! ## Runs -/

/-- the histories in which every rank owns a patch at any time -/
def GoodRun (R : Nat) (h : List ((Nat → List ℝ) × (Nat → List ℝ))) : Prop := ∀ x ∈ h, Good R x.1 ∧ Good R x.2

/-- the thresholds and outcomes step by step -/
noncomputable def expected (R : Nat) (inc dec init : ℝ) : ℝ → List ((Nat → List ℝ) × (Nat → List ℝ)) → ℝ × List Outcome
  | t, [] => (t, [])
  | t, (b, a) :: rest =>
    let (t1, o) := next R inc dec init t b a
    ((expected R inc dec init t1 rest).1, o :: (expected R inc dec init t1 rest).2)

theorem run_eq {R : Nat} (hR : 0 < R) (inc dec init : ℝ) : ∀ (h : List ((Nat → List ℝ) × (Nat → List ℝ))) (t : ℝ), GoodRun R h →
    run R inc dec init (fun _ => t) h = some (fun _ => (expected R inc dec init t h).1, (expected R inc dec init t h).2) := by
  intro h
  induction h with
  | nil => intro t _; rfl
  | cons x rest ih =>
    obtain ⟨b, a⟩ := x
    intro t hg
    have h1 := hg (b, a) List.mem_cons_self
    unfold run
    rw [step_eq hR inc dec init t h1.1 h1.2]
    simp only [Option.bind_eq_bind, Option.bind_some]
    rw [ih _ fun y hy => hg y (List.mem_cons_of_mem _ hy)]
    rfl

/-- **C85** (no deadlock). With any number of ranks, any threshold and any loads in any number of steps, as long as every rank owns
a patch: no rank ever waits for another in vain, all ranks have the same threshold at any time, and at each step patches are moved
exactly if two ranks differ by more than that threshold times the average load.

Partial: a rank without patches leaves the others waiting (`rebalance_decision_hangs_fails`), and the threshold is not the
configured one (`threshold_fails`). -/
theorem ranks_agree_partial (R : Nat) (hR : 0 < R) (init : ℝ) (h : List ((Nat → List ℝ) × (Nat → List ℝ))) (hg : GoodRun R h) :
    ∃ t os, start R incF decF init h = some (fun _ => t, os) ∧ os.length = h.length ∧
      ∀ n (hn : n < h.length), ∃ t' os', start R incF decF init (h.take n) = some (fun _ => t', os') ∧ os' = os.take n ∧
        (os[n]? ≠ some .keep ↔ 1 < R ∧ Exceeds R t' h[n].1) := by
  unfold start
  generalize init = t0 at *
  refine ⟨_, _, run_eq hR _ _ _ h t0 hg, ?_, ?_⟩
  · have : ∀ (h : List ((Nat → List ℝ) × (Nat → List ℝ))) t, (expected R incF decF t0 t h).2.length = h.length := by
      intro h
      induction h with
      | nil => intro t; rfl
      | cons x rest ih => intro t; simp [expected, ih]
    exact this h t0
  · have gen : ∀ (h : List ((Nat → List ℝ) × (Nat → List ℝ))) (t : ℝ) (n : Nat) (hn : n < h.length),
        (expected R incF decF t0 t (h.take n)).2 = (expected R incF decF t0 t h).2.take n ∧
        ((expected R incF decF t0 t h).2[n]? ≠ some .keep ↔ 1 < R ∧ Exceeds R (expected R incF decF t0 t (h.take n)).1 h[n].1) := by
      intro h
      induction h with
      | nil => intro t n hn; simp at hn
      | cons x rest ih =>
        obtain ⟨b, a⟩ := x
        intro t n hn
        cases n with
        | zero =>
          refine ⟨rfl, ?_⟩
          simp only [expected, List.getElem?_cons_zero, ne_eq, Option.some.injEq, List.take_zero, List.getElem_cons_zero]
          unfold next
          by_cases h1 : R ≤ 1
          · simp [h1]
          · by_cases h2 : Exceeds R t b
            · by_cases h3 : Exceeds R t a <;> simp [h1, h2, h3] <;> omega
            · simp [h2]
        | succ n =>
          obtain ⟨e1, e2⟩ := ih (next R incF decF t0 t b a).1 n (by simpa using hn)
          constructor
          · simp only [List.take_succ_cons, expected]; rw [e1]
          · simpa only [expected, List.getElem?_cons_succ, List.take_succ_cons, List.getElem_cons_succ] using e2
    intro n hn
    exact ⟨_, _, run_eq hR _ _ _ (h.take n) t0 fun y hy => hg y (List.mem_of_mem_take hy), (gen h t0 n hn).1, (gen h t0 n hn).2⟩

theorem next_bounds {R : Nat} (hR : 0 < R) (init t : ℝ) (hi : 0 < init) {before after : Nat → List ℝ}
    (ha : Good R after) (h : init * decF ≤ t ∧ t ≤ max init (R * incF)) :
    init * decF ≤ (next R incF decF init t before after).1 ∧ (next R incF decF init t before after).1 ≤ max init (R * incF) := by
  have t0 : 0 < t := lt_of_lt_of_le (mul_pos hi dec_pos) h.1
  unfold next
  split
  · exact h
  · split
    · rename_i h3
      have := exceeds_lt hR ha h3
      refine ⟨le_trans h.1 (le_mul_of_one_le_right t0.le inc_gt.le), le_trans ?_ (le_max_right _ _)⟩
      exact mul_le_mul_of_nonneg_right this.le (by linarith [inc_gt])
    · dsimp only
      split
      · rename_i h4
        exact ⟨mul_le_mul_of_nonneg_right h4.le dec_pos.le, le_trans (mul_le_of_le_one_right t0.le dec_lt.le) h.2⟩
      · exact h

/-- number of steps with a given outcome -/
def times (o : Outcome) (os : List Outcome) : Nat := os.count o

theorem expected_bounds {R : Nat} (hR : 0 < R) (init : ℝ) (hi : 0 < init) : ∀ (h : List ((Nat → List ℝ) × (Nat → List ℝ))) (t : ℝ),
    GoodRun R h → init * decF ≤ t ∧ t ≤ max init (R * incF) →
    (init * decF ≤ (expected R incF decF init t h).1 ∧ (expected R incF decF init t h).1 ≤ max init (R * incF)) ∧
    t * incF ^ times .unbalanced (expected R incF decF init t h).2 * decF ^ times .balanced (expected R incF decF init t h).2 ≤
      (expected R incF decF init t h).1 := by
  intro h
  induction h with
  | nil => intro t _ ht; exact ⟨ht, by simp [expected, times]⟩
  | cons x rest ih =>
    obtain ⟨b, a⟩ := x
    intro t hg ht
    have h1 := hg (b, a) List.mem_cons_self
    obtain ⟨i1, i2⟩ := ih (next R incF decF init t b a).1 (fun y hy => hg y (List.mem_cons_of_mem _ hy))
      (next_bounds hR init t hi h1.2 ht)
    refine ⟨i1, ?_⟩
    have t0 : 0 < t := lt_of_lt_of_le (mul_pos hi dec_pos) ht.1
    refine le_trans ?_ i2
    have P : ∀ n m : Nat, 0 < incF ^ n * decF ^ m := fun n m => mul_pos (pow_pos (by linarith [inc_gt]) _) (pow_pos dec_pos _)
    simp only [expected]
    generalize (expected R incF decF init (next R incF decF init t b a).1 rest).2 = os
    unfold next
    split
    · simp [times]
    · split
      · simp only [times, List.count_cons_self, pow_succ]
        rw [List.count_cons_of_ne (by decide)]
        exact le_of_eq (by ring)
      · simp only [times, List.count_cons_self, pow_succ]
        rw [List.count_cons_of_ne (by decide)]
        have q := P (List.count Outcome.unbalanced os) (List.count Outcome.balanced os)
        split
        · exact le_of_eq (by ring)
        · have := mul_le_mul_of_nonneg_left dec_lt.le (mul_pos t0 q).le
          nlinarith

/-- **C85** (threshold and retries). In every run in which every rank owns a patch, the threshold never falls below `3/π` of the
configured one and never rises above the larger of the configured one and `e/2` times the number of ranks. So the number of
redistributions that leave the load unbalanced is bounded by those that do not: with `f` failed and `s` successful ones,
`(e/2)^f (3/π)^s` is bounded; a distribution that cannot be improved is not tried for ever. -/
theorem threshold_bounds (R : Nat) (hR : 0 < R) (init : ℝ) (hi : 0 < init) (h : List ((Nat → List ℝ) × (Nat → List ℝ)))
    (hg : GoodRun R h) :
    ∃ t os, start R incF decF init h = some (fun _ => t, os) ∧ init * (3 / Real.pi) ≤ t ∧ t ≤ max init (R * (Real.exp 1 / 2)) ∧
      init * (Real.exp 1 / 2) ^ times .unbalanced os * (3 / Real.pi) ^ times .balanced os ≤ max init (R * (Real.exp 1 / 2)) := by
  have s0 : init * decF ≤ init ∧ init ≤ max init (R * incF) := ⟨mul_le_of_le_one_right hi.le dec_lt.le, le_max_left _ _⟩
  obtain ⟨b1, b2⟩ := expected_bounds hR init hi h init hg s0
  exact ⟨_, _, run_eq hR _ _ _ h init hg, b1.1, b1.2, le_trans b2 b1.2⟩

/-! ## The loads -/

theorem foldl_set_other (l : List (ℝ × Nat)) : ∀ (g : List ℝ) (i : Nat), i ∉ l.map (·.2) →
    (l.foldl (fun g y => g.set y.2 y.1) g)[i]? = g[i]? := by
  induction l with
  | nil => intro g i _; rfl
  | cons y ys ih =>
    intro g i hi
    simp only [List.map_cons, List.mem_cons, not_or] at hi
    rw [List.foldl_cons, ih _ _ hi.2, List.getElem?_set_ne (Ne.symm hi.1)]

theorem foldl_set_mem (l : List (ℝ × Nat)) : ∀ (g : List ℝ) (x : ℝ) (i : Nat), (l.map (·.2)).Nodup → (x, i) ∈ l → i < g.length →
    (l.foldl (fun g y => g.set y.2 y.1) g)[i]? = some x := by
  induction l with
  | nil => intro g x i _ h; simp at h
  | cons y ys ih =>
    intro g x i hn hm hi
    rw [List.map_cons, List.nodup_cons] at hn
    rw [List.foldl_cons]
    rcases List.mem_cons.mp hm with e | e
    · subst e
      rw [foldl_set_other _ _ _ hn.1, List.getElem?_set_self hi]
    · exact ih _ _ _ hn.2 e (by simpa using hi)

/-- **C85** (weights). The weights rank 0 uses for the new distribution: whatever the distribution of the patches `0..n-1` over the
ranks, patch `i` gets the load its owner computed for it. -/
theorem gathered_loads (all : List (List ℝ × List Nat)) (hl : ∀ x ∈ all, x.1.length = x.2.length)
    (hp : (all.flatMap (·.2)).Perm (List.range (all.flatMap (·.2)).length)) (x : List ℝ × List Nat) (hx : x ∈ all) (k i : Nat)
    (w : ℝ) (hi : x.2[k]? = some i) (hw : x.1[k]? = some w) : (gather all)[i]? = some w := by
  have e : gather all = ((all.flatMap fun x => x.1.zip x.2).foldl (fun g y => g.set y.2 y.1)
      (List.replicate ((all.map fun x => x.1.length).sum) 0)) := by
    unfold gather
    rw [List.foldl_flatMap]
  have m : ((all.flatMap fun x => x.1.zip x.2).map (·.2)) = all.flatMap (·.2) := by
    rw [List.map_flatMap]
    refine List.flatMap_congr fun y hy => ?_
    rw [List.map_snd_zip (by rw [hl y hy])]
  have mem : (w, i) ∈ all.flatMap fun x => x.1.zip x.2 := by
    refine List.mem_flatMap.mpr ⟨x, hx, ?_⟩
    refine List.mem_of_getElem? (i := k) ?_
    rw [List.getElem?_zip_eq_some]
    exact ⟨hw, hi⟩
  rw [e]
  refine foldl_set_mem _ _ _ _ ?_ mem ?_
  · rw [m]; exact hp.nodup_iff.mpr List.nodup_range
  · have : i ∈ all.flatMap (·.2) := List.mem_flatMap.mpr ⟨x, hx, List.mem_of_getElem? hi⟩
    have := List.mem_range.mp (hp.mem_iff.mp this)
    rw [List.length_flatMap] at this
    rw [List.length_replicate, List.map_congr_left hl]
    exact this

/-- the default load of a patch: all its living particles, as published, and half its cells -/
theorem default_load (alive : List Nat) (cells : Nat) : defaultLoad alive cells = (alive.sum : Nat) + (cells : ℝ) / 2 := by
  have : ∀ (l : List Nat) (x : ℝ), l.foldl (fun (l : ℝ) (n : Nat) => l + (n : ℝ)) x = x + (l.sum : Nat) := by
    intro l
    induction l with
    | nil => intro x; simp
    | cons a l ih => intro x; rw [List.foldl_cons, ih]; push_cast [List.sum_cons]; ring
  unfold defaultLoad
  rw [this, zero_add]

/-! ## Two ranks with two loads -/

/-- two ranks with one patch each -/
def two (a b : ℝ) : Nat → List ℝ := fun r => if r = 0 then [a] else [b]

theorem two_good {a b : ℝ} (ha : 0 < a) (hb : 0 < b) : Good 2 (two a b) where
  own := by intro r _; unfold two; split <;> simp
  nonneg := by intro r _ x hx; unfold two at hx; split at hx <;> simp at hx <;> rw [hx] <;> linarith
  pos := ⟨0, by norm_num, a, by simp [two], ha⟩

theorem two_exceeds {a b t : ℝ} (hab : b ≤ a) : Exceeds 2 t (two a b) ↔ a - b > t * ((a + b) / 2) ∨ 0 > t * ((a + b) / 2) := by
  have e : ((List.range 2).map (total (two a b))).sum = a + b := by simp [total, two, List.range_succ]
  unfold Exceeds
  rw [e]
  constructor
  · rintro ⟨i, hi, j, hj, h⟩
    have : total (two a b) i - total (two a b) j ≤ a - b ∨ total (two a b) i - total (two a b) j ≤ 0 := by
      simp only [total, two]
      split <;> split <;> simp [hab]
    push_cast at h
    rcases this with h1 | h1
    · left; linarith
    · right; linarith
  · rintro (h | h)
    · exact ⟨0, by norm_num, 1, by norm_num, by simpa [total, two] using h⟩
    · exact ⟨0, by norm_num, 0, by norm_num, by simpa using h⟩

/-- a history: one redistribution that fails, then seven that succeed -/
noncomputable def wearing : List ((Nat → List ℝ) × (Nat → List ℝ)) :=
  (two 2 1, two 2 1) :: List.replicate 7 (two 2 1, two 1 1)

theorem wearing_good : GoodRun 2 wearing := by
  intro x hx
  rcases List.mem_cons.mp hx with rfl | hx
  · exact ⟨two_good (by norm_num) (by norm_num), two_good (by norm_num) (by norm_num)⟩
  · rw [List.eq_of_mem_replicate hx]
    exact ⟨two_good (by norm_num) (by norm_num), two_good (by norm_num) (by norm_num)⟩

/-- the configured threshold is not kept: with a threshold of 0.1, after one failed and seven successful redistributions the ranks
move patches at an imbalance of 0.099 -/
theorem threshold_fails : ∃ t os, start 2 incF decF (1 / 10) wearing = some (fun _ => t, os) ∧
    Exceeds 2 t (two 2099 1901) ∧ ¬ Exceeds 2 (1 / 10) (two 2099 1901) := by
  have i1 := Real.exp_one_gt_d9
  have i2 := Real.exp_one_lt_d9
  have d1 : (3 / 3.15 : ℝ) < decF := by
    unfold decF; exact div_lt_div_of_pos_left (by norm_num) Real.pi_pos Real.pi_lt_d2
  have d2 : decF < (3 / 3.14 : ℝ) := by
    unfold decF; exact div_lt_div_of_pos_left (by norm_num) (by norm_num) Real.pi_gt_d2
  have I1 : (1.359 : ℝ) < incF := by unfold incF; linarith
  have I2 : incF < (1.35915 : ℝ) := by unfold incF; linarith
  have up : ∀ k, k ≤ 6 → (1 : ℝ) < incF * decF ^ k := by
    intro k hk
    have h1 : decF ^ 6 ≤ decF ^ k := pow_le_pow_of_le_one dec_pos.le dec_lt.le hk
    have h2 : (3 / 3.15 : ℝ) ^ 6 ≤ decF ^ 6 := pow_le_pow_left₀ (by norm_num) d1.le 6
    calc (1 : ℝ) < 1.359 * (3 / 3.15) ^ 6 := by norm_num
      _ ≤ incF * decF ^ k := mul_le_mul I1.le (le_trans h2 h1) (by positivity) (by linarith)
  have lo : incF * decF ^ 7 < 0.988 := by
    have h2 : decF ^ 7 ≤ (3 / 3.14 : ℝ) ^ 7 := pow_le_pow_left₀ dec_pos.le d2.le 7
    calc incF * decF ^ 7 ≤ 1.35915 * (3 / 3.14) ^ 7 := mul_le_mul I2.le h2 (pow_nonneg dec_pos.le _) (by norm_num)
      _ < 0.988 := by norm_num
  -- the first step
  have s1 : next 2 incF decF (1 / 10) (1 / 10) (two 2 1) (two 2 1) = (1 / 10 * incF, .unbalanced) := by
    have : Exceeds 2 (1 / 10) (two 2 1) := (two_exceeds (by norm_num)).mpr (.inl (by norm_num))
    unfold next; rw [if_neg (by simp only [this, not_true_eq_false, or_false]; norm_num), if_pos this]
  -- the others
  have s2 : ∀ t : ℝ, 1 / 10 < t → t < 1 / 2 → next 2 incF decF (1 / 10) t (two 2 1) (two 1 1) = (t * decF, .balanced) := by
    intro t h1 h2
    have e1 : Exceeds 2 t (two 2 1) := (two_exceeds (by norm_num)).mpr (.inl (by linarith))
    have e2 : ¬ Exceeds 2 t (two 1 1) := by
      rw [two_exceeds (le_refl _)]; intro h; rcases h with h | h <;> linarith
    unfold next; rw [if_neg (by simp [e1]), if_neg e2, if_pos h1]
  have s3 : ∀ n k, k + n = 7 → (expected 2 incF decF (1 / 10) (1 / 10 * incF * decF ^ k)
      (List.replicate n (two 2 1, two 1 1))).1 = 1 / 10 * incF * decF ^ 7 := by
    intro n
    induction n with
    | zero => intro k hk; simp only [Nat.add_zero] at hk; subst hk; rfl
    | succ n ih =>
      intro k hk
      have h1 := up k (by omega)
      have h2 : decF ^ k ≤ 1 := pow_le_one₀ dec_pos.le dec_lt.le
      have h3 : incF * decF ^ k ≤ incF * 1 := mul_le_mul_of_nonneg_left h2 (by linarith)
      rw [List.replicate_succ]
      simp only [expected]
      rw [s2 _ (by linarith) (by linarith)]
      simp only
      rw [show 1 / 10 * incF * decF ^ k * decF = 1 / 10 * incF * decF ^ (k + 1) from by ring]
      exact ih (k + 1) (by omega)
  refine ⟨_, _, run_eq (by norm_num) _ _ _ wearing (1 / 10) wearing_good, ?_, ?_⟩
  · have e : (expected 2 incF decF (1 / 10) (1 / 10) wearing).1 = 1 / 10 * incF * decF ^ 7 := by
      unfold wearing
      simp only [expected]
      rw [s1]
      simpa using s3 7 0 rfl
    rw [e, two_exceeds (by norm_num)]
    left
    linarith
  · rw [two_exceeds (by norm_num)]
    intro h
    rcases h with h | h <;> norm_num at h

/-- the hypotheses hold for a run that moves patches -/
example : GoodRun 2 wearing ∧ Exceeds 2 (1 / 10) (two 2 1) :=
  ⟨wearing_good, (two_exceeds (by norm_num)).mpr (.inl (by norm_num))⟩

/-- three patches on two ranks -/
example : ∃ all : List (List ℝ × List Nat), (∀ x ∈ all, x.1.length = x.2.length) ∧
    (all.flatMap (·.2)).Perm (List.range (all.flatMap (·.2)).length) ∧ all = [([5, 7], [2, 0]), ([3], [1])] :=
  ⟨_, by intro x hx; simp at hx; rcases hx with rfl | rfl <;> rfl, by decide, rfl⟩

end Verif.Balance
