import Verif.Model.Progress
import Verif.Props.RunLoop
import Mathlib.Tactic.NormNum
/-!
# C107 — what a run reports of its progress

`reports o now t0 terminal slurm rank itime total` is all that a call of `run` writes on rank `rank` when `itime` steps had been
done before and the run goes to step `total`; `o` says when somebody stops it. `stepsOf r` (C31) are the steps the run starts.
-/
namespace Verif.Progress
open RunLoop

/-! ## specification -/

/-- the counts of the lines of the log, in order -/
def counts : List Said → List Int
  | [] => []
  | ⟨_, .line k _ _⟩ :: l => k :: counts l
  | ⟨_, .comment _⟩ :: l => counts l

/-- counts grow, by at most `w` from line to line -/
def Regular (w : Int) : Int → List Int → Prop
  | _, [] => True
  | a, k :: l => a < k ∧ k ≤ a + w ∧ Regular w k l

/-- the last count, `a` if there is no line -/
def lastCount (a : Int) (l : List Int) : Int := l.getLastD a

/-- the percentage written is that of the count, and the count is that of the steps carried out, or includes the step that is
just beginning -/
def Faithful (total : Int) (s : Said) : Prop :=
  match s.out with
  | .line k t p => t = total ∧ p = 100 * k / total ∧ (k = s.done ∨ k = s.done + 1)
  | .comment p => ∃ k : Int, p = 100 * k / total ∧ (k = s.done ∨ k = s.done + 1)

/-! ## lemmas -/

theorem counts_append (a b : List Said) : counts (a ++ b) = counts a ++ counts b := by
  induction a with
  | nil => rfl
  | cons s a ih =>
    obtain ⟨d, o⟩ := s
    cases o <;> simp [counts, ih]

theorem steps_cons (c : Config) (dt : ℚ) (o : Nat → Oracle) (left istep : Nat) (k : Clock) :
    stepsOf (loop c dt o (left + 1) istep k) =
      istep :: (if ((o istep).dump || (o istep).stop) = true then []
        else stepsOf (loop c dt o left (istep + 1) ⟨k.itime + 1, k.time + dt⟩)) := by
  have hs := step_start c (o istep) istep k
  rw [loop]
  unfold stepsOf
  by_cases hd : (o istep).dump = true
  · simp only [hd, if_true, Bool.true_or]; exact hs
  · by_cases hp : (o istep).stop = true
    · simp only [hd, hp, if_true, Bool.or_true]; exact hs
    · simp only [hd, hp, Bool.or_self]
      simp only [Bool.false_eq_true, if_false, List.filterMap_append, hs]
      rfl

theorem emit_true {b : Bar} (ht : b.terminal = false) (h0 : b.total ≠ 0) (d : Nat)
    (hd : b.n = d ∨ b.n = d + 1) :
    ∃ out, emit b true = some out ∧ counts (out.map (Said.mk d)) = [b.n] ∧
      ∀ s ∈ out.map (Said.mk d), Faithful b.total s := by
  have hp : percent b = some (100 * (b.n : ℚ) / (b.total : ℚ)) := if_neg h0
  cases hs : b.slurm
  · refine ⟨[.line b.n b.total (100 * b.n / b.total)], by simp [emit, ht, hs, hp], rfl, ?_⟩
    intro s h
    simp only [List.map_cons, List.map_nil, List.mem_singleton] at h
    subst h
    exact ⟨rfl, rfl, hd⟩
  · refine ⟨[.line b.n b.total (100 * b.n / b.total), .comment (100 * b.n / b.total)], by simp [emit, ht, hs, hp], rfl, ?_⟩
    intro s h
    simp only [List.map_cons, List.map_nil, List.mem_cons, List.not_mem_nil, or_false] at h
    rcases h with rfl | rfl
    · exact ⟨rfl, rfl, hd⟩
    · exact ⟨b.n, rfl, hd⟩

theorem emit_line {b : Bar} (ht : b.terminal = false) (h0 : b.total ≠ 0) :
    ∃ tail, emit b true = some (.line b.n b.total (100 * (b.n : ℚ) / (b.total : ℚ)) :: tail) := by
  have hp : percent b = some (100 * (b.n : ℚ) / (b.total : ℚ)) := if_neg h0
  exact ⟨if b.slurm then [.comment (100 * (b.n : ℚ) / (b.total : ℚ))] else [], by simp [emit, ht, hp]⟩

theorem emit_false {b : Bar} (h0 : b.total ≠ 0) (d : Nat) (hd : b.n = d ∨ b.n = d + 1) :
    ∃ out, emit b false = some out ∧ counts (out.map (Said.mk d)) = [] ∧
      ∀ s ∈ out.map (Said.mk d), Faithful b.total s := by
  have hp : percent b = some (100 * (b.n : ℚ) / (b.total : ℚ)) := if_neg h0
  cases hs : b.slurm
  · exact ⟨[], by simp [emit, hs], rfl, by simp⟩
  · refine ⟨[.comment (100 * b.n / b.total)], by simp [emit, hs, hp], rfl, ?_⟩
    intro s h
    simp only [List.map_cons, List.map_nil, List.mem_singleton] at h
    subst h
    exact ⟨b.n, rfl, hd⟩

theorem close_facts {b : Bar} (hd : b.disabled = false) (ht : b.terminal = false) (h0 : b.total ≠ 0) {d : Nat}
    (hn : b.n = d) (hl : b.last ≤ b.n) (hb : b.n < b.last + b.interval) :
    ∃ out, close b = some out ∧ Regular b.interval b.last (counts (out.map (Said.mk d))) ∧
      lastCount b.last (counts (out.map (Said.mk d))) = b.n ∧ ∀ s ∈ out.map (Said.mk d), Faithful b.total s := by
  by_cases h : b.last < b.n
  · obtain ⟨out, h1, h2, h3⟩ := emit_true ht h0 d (.inl hn)
    refine ⟨out, by simp [close, hd, h, h1], ?_, ?_, h3⟩
    · rw [h2]; exact ⟨h, by omega, trivial⟩
    · rw [h2]; rfl
  · obtain ⟨out, h1, h2, h3⟩ := emit_false h0 d (.inl hn)
    refine ⟨out, by simp [close, hd, h, h1], ?_, ?_, h3⟩
    · rw [h2]; trivial
    · rw [h2]; show b.last = b.n; omega

/-- the claims about the rest of a run that starts with step `istep`, `m` steps of which are begun -/
structure Good (now : Nat → ℚ) (b : Bar) (istep m : Nat) (said : List Said) : Prop where
  regular : Regular b.interval b.last (counts said)
  last : lastCount b.last (counts said) = (istep + m : Nat)
  faithful : ∀ s ∈ said, Faithful b.total s
  prompt : ∀ j < m, ((istep + j + 1 : Nat) : Int) ∈ counts said ∨ now (istep + j) - b.lastTime < 60 ∨
    ∃ i < j, ((istep + i + 1 : Nat) : Int) ∈ counts said ∧ now (istep + j) - now (istep + i) < 60

theorem lastCount_cons (a k : Int) (l : List Int) : lastCount a (k :: l) = lastCount k l := by
  cases l <;> simp [lastCount, List.getLastD]

theorem update_enabled {b : Bar} (hd : b.disabled = false) (now : ℚ) :
    update b now = if b.interval ≤ b.n + 1 - b.last ∨ maxInterval ≤ now - b.lastTime then
      (emit { b with n := b.n + 1 } true).map fun out => ({ b with n := b.n + 1, last := b.n + 1, lastTime := now }, out)
    else some ({ b with n := b.n + 1 }, []) :=
  if_neg (by rw [hd]; exact Bool.false_ne_true)

/-- one more step in front -/
theorem Good.cons {o : Nat → Oracle} {now : Nat → ℚ} {b : Bar} {istep m : Nat} (hd : b.disabled = false)
    (ht : b.terminal = false) (h0 : b.total ≠ 0) (hn : b.n = istep) (hl : b.last ≤ b.n) (hi : 1 ≤ b.interval)
    (hb : b.n < b.last + b.interval) :
    ∃ b1 out, update b (now istep) = some (b1, out) ∧ b1.disabled = false ∧ b1.terminal = false ∧ b1.total = b.total ∧
      b1.interval = b.interval ∧ b1.n = (istep + 1 : Nat) ∧ b1.last ≤ b1.n ∧ b1.n < b1.last + b1.interval ∧
      ∀ said, Good now b1 (istep + 1) m said → Good now b istep (m + 1) (out.map (Said.mk istep) ++ said) := by
  by_cases hc : b.interval ≤ b.n + 1 - b.last ∨ maxInterval ≤ now istep - b.lastTime
  · obtain ⟨out, h1, h2, h3⟩ := emit_true (b := { b with n := b.n + 1 }) ht h0 istep (.inr (by simp [hn]))
    refine ⟨{ b with n := b.n + 1, last := b.n + 1, lastTime := now istep }, out, ?_, hd, ht, rfl, rfl, ?_, le_refl _, ?_, ?_⟩
    · rw [update_enabled hd, if_pos hc, h1]; rfl
    · show b.n + 1 = _; rw [hn]; push_cast; rfl
    · show b.n + 1 < b.n + 1 + b.interval; omega
    · intro said g
      have hk : counts (out.map (Said.mk istep) ++ said) = (b.n + 1) :: counts said := by rw [counts_append, h2]; rfl
      refine ⟨?_, ?_, ?_, ?_⟩
      · rw [hk]; exact ⟨by omega, by omega, g.regular⟩
      · rw [hk, lastCount_cons]; exact g.last.trans (by push_cast; ring)
      · intro s hs
        rcases List.mem_append.mp hs with hs | hs
        · exact h3 s hs
        · exact g.faithful s hs
      · intro j hj
        rw [hk]
        rcases j with _ | j
        · left; rw [hn]; push_cast; exact List.mem_cons_self
        · have e : istep + 1 + j = istep + (j + 1) := by omega
          rcases g.prompt j (by omega) with h | h | ⟨i, hi', h, h'⟩
          · left; rw [← e]; exact List.mem_cons_of_mem _ h
          · right; right
            refine ⟨0, by omega, ?_, ?_⟩
            · rw [hn]; push_cast; simp
            · rw [← e]; exact h
          · right; right
            refine ⟨i + 1, by omega, ?_, ?_⟩
            · rw [← show istep + 1 + i = istep + (i + 1) by omega]; exact List.mem_cons_of_mem _ h
            · rw [← e, ← show istep + 1 + i = istep + (i + 1) by omega]; exact h'
  · refine ⟨{ b with n := b.n + 1 }, [], ?_, hd, ht, rfl, rfl, ?_, ?_, ?_, ?_⟩
    · rw [update_enabled hd, if_neg hc]
    · show b.n + 1 = _; rw [hn]; push_cast; rfl
    · show b.last ≤ b.n + 1; omega
    · show b.n + 1 < b.last + b.interval
      by_contra h
      exact hc (.inl (by omega))
    · intro said g
      refine ⟨g.regular, g.last.trans (by push_cast; ring), g.faithful, ?_⟩
      intro j hj
      rcases j with _ | j
      · right; left
        by_contra h
        exact hc (.inr (by show (60 : ℚ) ≤ _; simpa using h))
      · have e : istep + 1 + j = istep + (j + 1) := by omega
        rcases g.prompt j (by omega) with h | h | ⟨i, hi', h, h'⟩
        · left; rw [← e]; exact h
        · right; left; rw [← e]; exact h
        · right; right
          refine ⟨i + 1, by omega, ?_, ?_⟩
          · rw [← show istep + 1 + i = istep + (i + 1) by omega]; exact h
          · rw [← e, ← show istep + 1 + i = istep + (i + 1) by omega]; exact h'

theorem good_close {now : Nat → ℚ} {b : Bar} {istep : Nat} (hd : b.disabled = false) (ht : b.terminal = false)
    (h0 : b.total ≠ 0) (hn : b.n = istep) (hl : b.last ≤ b.n) (hb : b.n < b.last + b.interval) :
    ∃ out, close b = some out ∧ Good now b istep 0 (out.map (Said.mk istep)) := by
  obtain ⟨out, h1, h2, h3, h4⟩ := close_facts hd ht h0 hn hl hb
  exact ⟨out, h1, h2, h3.trans hn, h4, fun j hj => absurd hj (Nat.not_lt_zero j)⟩

theorem steps_good (c : Config) (dt : ℚ) (o : Nat → Oracle) (now : Nat → ℚ) (left : Nat) :
    ∀ (istep : Nat) (k : Clock) (b : Bar), b.disabled = false → b.terminal = false → b.total ≠ 0 → b.n = istep →
      b.last ≤ b.n → 1 ≤ b.interval → b.n < b.last + b.interval →
      ∃ said, steps o now left istep b = some said ∧
        Good now b istep (stepsOf (loop c dt o left istep k)).length said := by
  induction left with
  | zero =>
    intro istep k b hd ht h0 hn hl hi hb
    obtain ⟨out, h1, h2⟩ := good_close (now := now) hd ht h0 hn hl hb
    exact ⟨_, by rw [steps, h1]; rfl, h2⟩
  | succ left ih =>
    intro istep k b hd ht h0 hn hl hi hb
    by_cases hq : ((o istep).dump || (o istep).stop) = true
    · obtain ⟨b1, out, h1, d1, t1, e1, i1, n1, l1, w1, g⟩ := Good.cons (o := o) (now := now) (m := 0) hd ht h0 hn hl hi hb
      obtain ⟨out2, h2, g2⟩ := good_close (now := now) d1 t1 (by rw [e1]; exact h0) n1 l1 w1
      refine ⟨out.map (Said.mk istep) ++ out2.map (Said.mk (istep + 1)), ?_, ?_⟩
      · rw [steps, h1]
        simp only [Option.bind_some, hq, if_true, h2, Option.map_some]
      · rw [steps_cons, if_pos hq]
        exact g _ g2
    · obtain ⟨b1, out, h1, d1, t1, e1, i1, n1, l1, w1, g⟩ := Good.cons (o := o) (now := now)
        (m := (stepsOf (loop c dt o left (istep + 1) ⟨k.itime + 1, k.time + dt⟩)).length) hd ht h0 hn hl hi hb
      obtain ⟨said, h2, g2⟩ := ih (istep + 1) ⟨k.itime + 1, k.time + dt⟩ b1 d1 t1 (by rw [e1]; exact h0) n1 l1
        (by rw [i1]; exact hi) w1
      refine ⟨out.map (Said.mk istep) ++ said, ?_, ?_⟩
      · rw [steps, h1]
        simp only [Option.bind_some, hq, h2, Option.map_some]
        rfl
      · rw [steps_cons, if_neg hq]
        exact g _ g2

/-! ## theorems -/

/-- **C107, lines of the log.** On rank 0, without a terminal, whatever the clock shows and however the run ends: the run reports
without an error; the counts of the lines start after the steps done before, grow, and leave out fewer than 100 steps (a tenth of
the total, if that is less); the last line names the last step that was started; a step without a line comes less than 60 seconds
after the previous line or the start; each percentage is that of its count, and a count names a step that is beginning or done. -/
theorem report_lines_partial {c : Config} {dt : ℚ} {cfgN : Option Int} {cfgT : Option ℚ} {o : Nat → Oracle}
    {nsteps : Option Int} {simTime : Option ℚ} {k : Clock} {r : Result} {total : Int} (now : Nat → ℚ) (t0 : ℚ) (slurm : Bool)
    (hr : run c dt cfgN cfgT o nsteps simTime k = some r)
    (ht : handleNsteps cfgN cfgT dt k.itime nsteps simTime = some total) (h0 : total ≠ 0) :
    ∃ said, reports o now t0 false slurm 0 k.itime total = some said ∧
      Regular (min 100 (max 1 (total / 10))) k.itime (counts said) ∧
      lastCount k.itime (counts said) = k.itime + (stepsOf r).length ∧
      (∀ s ∈ said, Faithful total s) ∧
      ∀ j < (stepsOf r).length, ((k.itime + j + 1 : Nat) : Int) ∈ counts said ∨ now (k.itime + j) - t0 < 60 ∨
        ∃ i < j, ((k.itime + i + 1 : Nat) : Int) ∈ counts said ∧ now (k.itime + j) - now (k.itime + i) < 60 := by
  obtain ⟨total', h1, h2, _, _⟩ := stepsOf_run hr
  have e : total' = total := by rw [h1] at ht; exact Option.some.inj ht
  subst e
  obtain ⟨said, hs, g⟩ := steps_good c dt o now (total' - (k.itime : Int)).toNat k.itime k
    (make total' k.itime false (decide (0 < 0)) slurm t0) rfl rfl h0 rfl (le_refl _)
    (by show 1 ≤ min 100 (max 1 (total' / 10)); omega)
    (by show (k.itime : Int) < k.itime + min 100 (max 1 (total' / 10)); omega)
  rw [← h2] at g
  exact ⟨said, hs, g.regular, g.last.trans (by push_cast; rfl), g.faithful, g.prompt⟩

/-- **C107, other ranks.** They write nothing. -/
theorem other_ranks_silent (o : Nat → Oracle) (now : Nat → ℚ) (t0 : ℚ) (terminal slurm : Bool) {rank : Nat} (h : 0 < rank)
    (itime : Nat) (total : Int) : reports o now t0 terminal slurm rank itime total = some [] := by
  have key : ∀ (left istep : Nat) (b : Bar), b.disabled = true → steps o now left istep b = some [] := by
    intro left
    induction left with
    | zero => intro istep b hb; simp [steps, close, hb]
    | succ left ih =>
      intro istep b hb
      rw [steps, show update b (now istep) = some ({ b with n := b.n + 1 }, []) from if_pos hb]
      simp only [Option.bind_some]
      by_cases hq : ((o istep).dump || (o istep).stop) = true
      · simp [hq, close, hb]
      · rw [if_neg hq, ih _ _ (by exact hb)]; rfl
  exact key _ _ _ (by show decide (0 < rank) = true; simpa using h)

/-- **C107 is false for what is done**: every run with fewer than 20 steps that nobody stops says that all steps are done,
`total/total (100%)`, before the last one is carried out. -/
theorem done_too_early_fails {o : Nat → Oracle} (ho : Quiet o) (now : Nat → ℚ) (t0 : ℚ) (slurm : Bool) {total : Nat}
    (h1 : 0 < total) (h2 : total < 20) :
    ∃ said, reports o now t0 false slurm 0 0 total = some said ∧ ⟨total - 1, .line total total 100⟩ ∈ said := by
  have key : ∀ (left istep : Nat) (b : Bar), b.disabled = false → b.terminal = false → b.interval = 1 → b.n = istep → b.last = istep →
      b.total = total → istep + left = total → 0 < left →
      ∃ said, steps o now left istep b = some said ∧ (⟨total - 1, .line total total 100⟩ : Said) ∈ said := by
    intro left
    induction left with
    | zero => intro _ _ _ _ _ _ _ _ _ h; exact absurd h (lt_irrefl _)
    | succ left ih =>
      intro istep b hd ht hi hn hl htot hsum _
      have hne : b.total ≠ 0 := by rw [htot]; exact_mod_cast h1.ne'
      have hc : b.interval ≤ b.n + 1 - b.last ∨ maxInterval ≤ now istep - b.lastTime := .inl (by omega)
      obtain ⟨tail, hu⟩ : ∃ tail, update b (now istep) = some ({ b with n := b.n + 1, last := b.n + 1, lastTime := now istep },
          .line (b.n + 1) b.total (100 * ((b.n + 1 : Int) : ℚ) / b.total) :: tail) := by
        obtain ⟨tail, he⟩ := emit_line (b := { b with n := b.n + 1 }) ht hne
        exact ⟨tail, by rw [update_enabled hd, if_pos hc, he]; rfl⟩
      have hq : ¬ ((o istep).dump || (o istep).stop) = true := by rw [(ho istep).1, (ho istep).2]; decide
      rcases Nat.eq_zero_or_pos left with h | h
      · subst h
        obtain ⟨out, hclose, _⟩ := close_facts (b := { b with n := b.n + 1, last := b.n + 1, lastTime := now istep })
          hd ht hne (d := istep + 1) (by show b.n + 1 = _; rw [hn]; push_cast; rfl) (le_refl _)
          (by show b.n + 1 < b.n + 1 + b.interval; omega)
        refine ⟨_, by rw [steps, hu, Option.bind_some, if_neg hq, steps, hclose]; rfl, ?_⟩
        have e1 : b.n + 1 = total := by omega
        have e2 : istep = total - 1 := by omega
        have e3 : (100 * ((b.n + 1 : Int) : ℚ) / b.total) = 100 := by
          rw [e1, htot]
          have : ((total : Int) : ℚ) ≠ 0 := by exact_mod_cast h1.ne'
          field_simp
        rw [e3, e1, htot, e2]
        simp
      · obtain ⟨said, hs, hm⟩ := ih (istep + 1) { b with n := b.n + 1, last := b.n + 1, lastTime := now istep } hd ht hi
          (by show b.n + 1 = _; rw [hn]; push_cast; rfl) (by show b.n + 1 = _; rw [hn]; push_cast; rfl) htot (by omega) h
        refine ⟨_, by rw [steps, hu, Option.bind_some, if_neg hq, hs]; rfl, ?_⟩
        exact List.mem_append_right _ hm
  have hw : min 100 (max 1 ((total : Int) / 10)) = 1 := by omega
  exact key total 0 (make total 0 false (decide (0 < 0)) slurm t0) rfl rfl hw rfl rfl rfl (Nat.zero_add _) h1

/-- **C107 is false in SLURM jobs for runs to step 0**: `run(sim_time=t)` with `t` shorter than a step, on a new simulation, does
nothing and then ends with a division by zero. -/
theorem no_step_fails (o : Nat → Oracle) (now : Nat → ℚ) (t0 : ℚ) (terminal : Bool) {dt t : ℚ} (ht : 0 ≤ t) (hd : t < dt) :
    handleNsteps none none dt 0 none (some t) = some 0 ∧ reports o now t0 terminal true 0 0 0 = none := by
  have hdt : 0 < dt := lt_of_le_of_lt ht hd
  refine ⟨?_, ?_⟩
  · show some (truncDiv t dt) = some 0
    have h1 : 0 ≤ t / dt := div_nonneg ht hdt.le
    have h2 : t / dt < 1 := (div_lt_one hdt).mpr hd
    rw [truncDiv, if_pos h1]
    congr 1
    exact Int.floor_eq_iff.mpr ⟨by simpa using h1, by simpa using h2⟩
  · simp [reports, steps, make, close, emit, percent]

/-- without SLURM such a run ends well and writes nothing -/
theorem no_step_silent (o : Nat → Oracle) (now : Nat → ℚ) (t0 : ℚ) (terminal : Bool) :
    reports o now t0 terminal false 0 0 0 = some [] := by
  simp [reports, steps, make, close, emit]

/-! ## examples -/

/-- a run of 25 steps has a line every second step and one for the last -/
example : (reports (fun _ => ⟨fun _ => true, fun _ => true, fun _ => true, false, false, false⟩) (fun _ => 0) 0 false false 0 0 25).map
    counts = some [2, 4, 6, 8, 10, 12, 14, 16, 18, 20, 22, 24, 25] := by decide +kernel

/-- stopped after the third step, with a slow second step -/
example : (reports (fun i => ⟨fun _ => true, fun _ => true, fun _ => true, false, false, i == 12⟩)
    (fun i => if 11 ≤ i then 100 else 0) 0 false true 0 10 1000).map counts = some [12, 13] := by decide +kernel

end Verif.Progress
