import Verif.Model.RunLoop
import Mathlib.Tactic.Linarith
import Mathlib.Tactic.Ring
import Mathlib.Tactic.FieldSimp
import Mathlib.Tactic.Positivity
/-!
# C31, C32 — steps, time and callbacks

`run c dt cfgN cfgT o nsteps simTime k` is a call of `run` on a simulation whose clock is `k`; `o` are the answers
of the world at each step. `stepsOf r` are the values of the loop variable, in the order the steps are executed.
-/
namespace Verif.RunLoop

/-- the steps a run starts, in order: the loop variable at each `start` event -/
def stepsOf (r : Result) : List Nat :=
  r.trace.filterMap fun e => if e.op = .stage .start none then some e.istep else none

/-- nobody asks to dump or to stop -/
def Quiet (o : Nat → Oracle) : Prop := ∀ i, (o i).dump = false ∧ (o i).stop = false

/-- the clock shows `itime * dt` -/
def InSync (dt : ℚ) (k : Clock) : Prop := k.time = k.itime * dt

theorem species_no_start (c : Config) (i : Nat) : Op.stage .start none ∉ speciesOps c i := by
  unfold speciesOps
  by_cases h1 : c.unified i <;> by_cases h2 : c.radiation i <;> by_cases h3 : c.pairs i <;>
    simp [h1, h2, h3]

theorem create_no_start (c : Config) (i : Nat) (s : Stage) (j : Option Nat) : Op.stage s j ∉ createOps c i := by
  unfold createOps
  by_cases h2 : c.radiation i <;> by_cases h3 : c.pairs i <;> simp [h2, h3]

theorem step_start (c : Config) (o : Oracle) (i : Nat) (k : Clock) :
    ((stepOps c o).map fun op => Ev.mk i k op).filterMap
      (fun e => if e.op = .stage .start none then some e.istep else none) = [i] := by
  rw [List.filterMap_map]
  have key : ∀ l : List Op, Op.stage .start none ∉ l → l.filterMap ((fun e : Ev =>
      if e.op = .stage .start none then some e.istep else none) ∘ fun op => Ev.mk i k op) = [] := by
    intro l hl
    rw [List.filterMap_eq_nil_iff]
    intro a ha
    have : a ≠ .stage .start none := fun e => hl (e ▸ ha)
    simp [this]
  unfold stepOps
  simp only [List.filterMap_append]
  rw [key (List.map _ _), key (if c.collision then _ else _), key [.resetCurrents], key (List.flatMap (speciesOps c) _),
    key [.syncCurrentsStart], key (List.flatMap (createOps c) _), key [.mpiParticles, .syncParticles, .syncCurrentsWait],
    key (if o.rebalance then _ else _)]
  · simp
  · by_cases h : o.rebalance <;> simp [h]
  · simp
  · rw [List.mem_flatMap]
    rintro ⟨j, _, h⟩
    exact create_no_start c j _ _ h
  · simp
  · rw [List.mem_flatMap]
    rintro ⟨j, _, h⟩
    exact species_no_start c j h
  · simp
  · by_cases h : c.collision <;> simp [h]
  · simp

/-- the steps of the loop: consecutive from `istep`; all of them unless the world dumps or stops -/
theorem loop_steps (c : Config) (dt : ℚ) (o : Nat → Oracle) (left istep : Nat) (k : Clock) :
    ∃ n, n ≤ left ∧ stepsOf (loop c dt o left istep k) = (List.range n).map (istep + ·) ∧
      ((loop c dt o left istep k).outcome = .done → n = left ∧
        (loop c dt o left istep k).clock = ⟨k.itime + n, k.time + n * dt⟩) ∧
      ((loop c dt o left istep k).outcome = .stopped → 0 < n ∧ (o (istep + n - 1)).stop = true ∧
        (loop c dt o left istep k).clock = ⟨k.itime + n, k.time + n * dt⟩) ∧
      ((loop c dt o left istep k).outcome = .dumped → 0 < n ∧ (o (istep + n - 1)).dump = true ∧
        (loop c dt o left istep k).clock = ⟨k.itime + n - 1, k.time + (n - 1 : Nat) * dt⟩) ∧
      (∀ j, j + 1 < n → (o (istep + j)).dump = false ∧ (o (istep + j)).stop = false) := by
  induction left generalizing istep k with
  | zero =>
    refine ⟨0, le_refl _, rfl, ?_, ?_, ?_, ?_⟩
    · intro _; refine ⟨rfl, ?_⟩; show k = _; simp
    · intro h; cases h
    · intro h; cases h
    · intro j h; omega
  | succ left ih =>
    by_cases hd : (o istep).dump = true
    · have e : loop c dt o (left + 1) istep k =
          ⟨(stepOps c (o istep)).map fun op => Ev.mk istep k op, k, .dumped⟩ := by
        rw [loop]; exact if_pos hd
      rw [e]
      refine ⟨1, by omega, ?_, by rintro ⟨⟩, by rintro ⟨⟩, fun _ => ⟨by omega, by simpa using hd, by simp⟩,
        fun j h => by omega⟩
      show List.filterMap _ _ = _
      rw [step_start]; simp
    · have hd' : (o istep).dump = false := by simpa using hd
      by_cases hs : (o istep).stop = true
      · have e : loop c dt o (left + 1) istep k =
            ⟨(stepOps c (o istep)).map fun op => Ev.mk istep k op, ⟨k.itime + 1, k.time + dt⟩, .stopped⟩ := by
          rw [loop]; exact (if_neg hd).trans (if_pos hs)
        rw [e]
        refine ⟨1, by omega, ?_, by rintro ⟨⟩, fun _ => ⟨by omega, by simpa using hs, by simp⟩, by rintro ⟨⟩,
          fun j h => by omega⟩
        show List.filterMap _ _ = _
        rw [step_start]; simp
      · have hs' : (o istep).stop = false := by simpa using hs
        have e : loop c dt o (left + 1) istep k =
            ⟨((stepOps c (o istep)).map fun op => Ev.mk istep k op) ++
              (loop c dt o left (istep + 1) ⟨k.itime + 1, k.time + dt⟩).trace,
              (loop c dt o left (istep + 1) ⟨k.itime + 1, k.time + dt⟩).clock,
              (loop c dt o left (istep + 1) ⟨k.itime + 1, k.time + dt⟩).outcome⟩ := by
          rw [loop]; exact (if_neg hd).trans (if_neg hs)
        obtain ⟨n, h1, h2, h3, h4, h5, h6⟩ := ih (istep + 1) ⟨k.itime + 1, k.time + dt⟩
        rw [e]
        refine ⟨n + 1, by omega, ?_, ?_, ?_, ?_, ?_⟩
        · show List.filterMap _ (_ ++ _) = _
          rw [List.filterMap_append, step_start]
          unfold stepsOf at h2
          rw [h2, List.range_succ_eq_map, List.map_cons, List.map_map]
          simp only [Nat.add_zero, List.singleton_append, List.cons.injEq, true_and]
          apply List.map_congr_left
          intro a _
          show istep + 1 + a = istep + (a + 1)
          omega
        · intro h
          obtain ⟨a, b⟩ := h3 h
          refine ⟨by omega, ?_⟩
          show (loop c dt o left (istep + 1) ⟨k.itime + 1, k.time + dt⟩).clock = _
          rw [b]
          simp only [Clock.mk.injEq]
          exact ⟨by omega, by push_cast; ring⟩
        · intro h
          obtain ⟨a, b, d⟩ := h4 h
          refine ⟨by omega, ?_, ?_⟩
          · have : istep + (n + 1) - 1 = istep + 1 + n - 1 := by omega
            rw [this]; exact b
          · show (loop c dt o left (istep + 1) ⟨k.itime + 1, k.time + dt⟩).clock = _
            rw [d]
            simp only [Clock.mk.injEq]
            exact ⟨by omega, by push_cast; ring⟩
        · intro h
          obtain ⟨a, b, d⟩ := h5 h
          refine ⟨by omega, ?_, ?_⟩
          · have : istep + (n + 1) - 1 = istep + 1 + n - 1 := by omega
            rw [this]; exact b
          · show (loop c dt o left (istep + 1) ⟨k.itime + 1, k.time + dt⟩).clock = _
            rw [d]
            simp only [Clock.mk.injEq]
            refine ⟨by omega, ?_⟩
            have hc : ((n - 1 : Nat) : ℚ) = (n : ℚ) - 1 := by
              rw [Nat.cast_sub (by omega)]; simp
            have hc' : ((n + 1 - 1 : Nat) : ℚ) = (n : ℚ) := by simp
            rw [hc, hc']; ring
        · intro j hj
          cases j with
          | zero => exact ⟨hd', hs'⟩
          | succ j =>
            have := h6 j (by omega)
            rw [show istep + (j + 1) = istep + 1 + j by omega]
            exact this

theorem loop_quiet {o : Nat → Oracle} (ho : Quiet o) (c : Config) (dt : ℚ) (left istep : Nat) (k : Clock) :
    (loop c dt o left istep k).outcome = .done := by
  induction left generalizing istep k with
  | zero => rfl
  | succ left ih =>
    rw [loop]
    have h := ho istep
    exact (congrArg Result.outcome ((if_neg (by rw [h.1]; exact Bool.false_ne_true)).trans
      (if_neg (by rw [h.2]; exact Bool.false_ne_true)))).trans (ih (istep + 1) ⟨k.itime + 1, k.time + dt⟩)

theorem stepsOf_run {c : Config} {dt : ℚ} {cfgN : Option Int} {cfgT : Option ℚ} {o : Nat → Oracle}
    {nsteps : Option Int} {simTime : Option ℚ} {k : Clock} {r : Result}
    (h : run c dt cfgN cfgT o nsteps simTime k = some r) :
    ∃ total, handleNsteps cfgN cfgT dt k.itime nsteps simTime = some total ∧
      stepsOf r = stepsOf (loop c dt o (total - (k.itime : Int)).toNat k.itime k) ∧
      r.clock = (loop c dt o (total - (k.itime : Int)).toNat k.itime k).clock ∧
      r.outcome = (loop c dt o (total - (k.itime : Int)).toNat k.itime k).outcome := by
  unfold run at h
  obtain ⟨total, h1, h2⟩ := Option.map_eq_some_iff.mp h
  refine ⟨total, h1, ?_⟩
  rw [← h2]
  refine ⟨?_, rfl, rfl⟩
  unfold stepsOf
  dsimp only
  rw [List.cons_append, List.filterMap_cons_none (by simp), List.filterMap_append]
  conv_rhs => rw [← List.append_nil (List.filterMap _ _)]
  congr 1
  rw [List.filterMap_eq_nil_iff]
  intro e he
  split at he
  · rw [List.mem_singleton] at he; subst he; simp
  · simp at he

/-- **C31, number of steps.** When nobody dumps or stops, `run(nsteps=n)` executes exactly the `n` steps that
follow the ones already done, and advances the clock by `n` steps. -/
theorem run_nsteps (c : Config) (dt : ℚ) (cfgN : Option Int) (cfgT : Option ℚ) {o : Nat → Oracle} (ho : Quiet o)
    (n : Nat) (k : Clock) :
    ∃ r, run c dt cfgN cfgT o (some n) none k = some r ∧ r.outcome = .done ∧
      stepsOf r = (List.range n).map (k.itime + ·) ∧ r.clock = ⟨k.itime + n, k.time + n * dt⟩ := by
  obtain ⟨r, hr⟩ : ∃ r, run c dt cfgN cfgT o (some n) none k = some r := ⟨_, rfl⟩
  obtain ⟨total, h1, h2, h3, h4⟩ := stepsOf_run hr
  have ht : total = (n : Int) + k.itime := by
    have : some ((n : Int) + k.itime) = some total := h1
    injection this with this; exact this.symm
  have hl : (total - (k.itime : Int)).toNat = n := by omega
  rw [hl] at h2 h3 h4
  obtain ⟨m, _, g2, g3, _⟩ := loop_steps c dt o n k.itime k
  have hq := loop_quiet ho c dt n k.itime k
  obtain ⟨e1, e2⟩ := g3 hq
  subst e1
  exact ⟨r, hr, h4.trans hq, h2.trans g2, h3.trans e2⟩

/-- **C31, simulated time.** `run(sim_time=T)` executes the steps that are missing up to `floor(T/dt)` steps in
total, none when they are all done. -/
theorem run_sim_time (c : Config) {dt : ℚ} (hdt : 0 < dt) (cfgN : Option Int) (cfgT : Option ℚ) {o : Nat → Oracle}
    (ho : Quiet o) {T : ℚ} (hT : 0 ≤ T) (k : Clock) :
    ∃ r, run c dt cfgN cfgT o none (some T) k = some r ∧ r.outcome = .done ∧
      stepsOf r = (List.range (⌊T / dt⌋.toNat - k.itime)).map (k.itime + ·) ∧
      r.clock.itime = max k.itime ⌊T / dt⌋.toNat := by
  obtain ⟨r, hr⟩ : ∃ r, run c dt cfgN cfgT o none (some T) k = some r := ⟨_, rfl⟩
  obtain ⟨total, h1, h2, h3, h4⟩ := stepsOf_run hr
  have hnn : 0 ≤ T / dt := by positivity
  have ht : total = ⌊T / dt⌋ := by
    have : some (truncDiv T dt) = some total := h1
    injection this with this
    rw [← this]; exact if_pos hnn
  have hf : 0 ≤ ⌊T / dt⌋ := Int.floor_nonneg.mpr hnn
  have hl : (total - (k.itime : Int)).toNat = ⌊T / dt⌋.toNat - k.itime := by omega
  rw [hl] at h2 h3 h4
  obtain ⟨m, _, g2, g3, _⟩ := loop_steps c dt o (⌊T / dt⌋.toNat - k.itime) k.itime k
  have hq := loop_quiet ho c dt (⌊T / dt⌋.toNat - k.itime) k.itime k
  obtain ⟨e1, e2⟩ := g3 hq
  subst e1
  refine ⟨r, hr, h4.trans hq, h2.trans g2, ?_⟩
  rw [h3, e2]
  show k.itime + (⌊T / dt⌋.toNat - k.itime) = _
  omega

/-- **C31, both or neither.** Giving both limits is an error; giving none uses the ones of the constructor, and is
an error without any. -/
theorem run_errors (c : Config) (dt : ℚ) (cfgN : Option Int) (cfgT : Option ℚ) (o : Nat → Oracle) (nsteps : Option Int)
    (simTime : Option ℚ) (k : Clock) :
    run c dt cfgN cfgT o nsteps simTime k = none ↔
      (nsteps.isSome ∧ simTime.isSome) ∨ (nsteps = none ∧ simTime = none ∧ cfgN = none ∧ cfgT = none) := by
  unfold run
  rw [Option.map_eq_none_iff]
  cases nsteps <;> cases simTime <;> cases cfgN <;> cases cfgT <;> simp [handleNsteps]

/-! ### histories of calls -/

/-- what a user can do: call `run`, or continue from the checkpoint a requested dump left -/
inductive Call
  | run (nsteps : Option Int) (simTime : Option ℚ) (o : Nat → Oracle)
  | resume

/-- the clock, the steps executed so far in order, and the checkpoint of the last requested dump while it has not
been loaded -/
structure History where
  clock : Clock
  steps : List Nat
  dumped : Option Clock

/-- the effect of one call; a failing call changes nothing -/
def History.call (c : Config) (dt : ℚ) (cfgN : Option Int) (cfgT : Option ℚ) (h : History) : Call → History
  | .run nsteps simTime o =>
    match RunLoop.run c dt cfgN cfgT o nsteps simTime h.clock with
    | none => h
    | some r => ⟨r.clock, h.steps ++ stepsOf r, if r.outcome = .dumped then some r.clock else none⟩
  | .resume =>
    match h.dumped with
    | none => h
    | some k => ⟨load dt k, h.steps, none⟩

/-- after a requested dump the user resumes before running again -/
def Proper (c : Config) (dt : ℚ) (cfgN : Option Int) (cfgT : Option ℚ) : History → List Call → Prop
  | _, [] => True
  | h, .resume :: cs => Proper c dt cfgN cfgT (h.call c dt cfgN cfgT .resume) cs
  | h, .run n t o :: cs => h.dumped = none ∧ Proper c dt cfgN cfgT (h.call c dt cfgN cfgT (.run n t o)) cs

/-- the invariant: steps so far are `0, 1, 2, …` without gap or repetition, and the clock agrees -/
structure Consistent (dt : ℚ) (h : History) : Prop where
  time : InSync dt h.clock
  steps : h.dumped = none → h.steps = List.range h.clock.itime
  dumped : ∀ k, h.dumped = some k → InSync dt k ∧ h.steps = List.range (k.itime + 1)

theorem range_append_map (a n : Nat) : List.range a ++ (List.range n).map (a + ·) = List.range (a + n) := by
  rw [List.range_add]

theorem Consistent.call {c : Config} {dt : ℚ} {cfgN : Option Int} {cfgT : Option ℚ} {h : History}
    (hc : Consistent dt h) {x : Call} (hx : (∃ n t o, x = .run n t o) → h.dumped = none) :
    Consistent dt (h.call c dt cfgN cfgT x) := by
  cases x with
  | resume =>
    cases hd : h.dumped with
    | none =>
      have : h.call c dt cfgN cfgT .resume = h := by show (match h.dumped with | none => h | some k => _) = h; rw [hd]
      rw [this]; exact hc
    | some k =>
      have : h.call c dt cfgN cfgT .resume = ⟨load dt k, h.steps, none⟩ := by
        show (match h.dumped with | none => h | some k => _) = _; rw [hd]
      rw [this]
      obtain ⟨h1, h2⟩ := hc.dumped k hd
      refine ⟨?_, fun _ => h2, by rintro _ ⟨⟩⟩
      show (load dt k).time = _
      rfl
  | run n t o =>
    have hd := hx ⟨n, t, o, rfl⟩
    cases hr : RunLoop.run c dt cfgN cfgT o n t h.clock with
    | none =>
      have : h.call c dt cfgN cfgT (.run n t o) = h := by
        show (match RunLoop.run c dt cfgN cfgT o n t h.clock with | none => h | some r => _) = h; rw [hr]
      rw [this]; exact hc
    | some r =>
      have e : h.call c dt cfgN cfgT (.run n t o) =
          ⟨r.clock, h.steps ++ stepsOf r, if r.outcome = .dumped then some r.clock else none⟩ := by
        show (match RunLoop.run c dt cfgN cfgT o n t h.clock with | none => h | some r => _) = _; rw [hr]
      rw [e]
      obtain ⟨total, _, h2, h3, h4⟩ := stepsOf_run hr
      generalize (total - (h.clock.itime : Int)).toNat = left at *
      obtain ⟨m, _, g2, g3, g4, g5, _⟩ := loop_steps c dt o left h.clock.itime h.clock
      have hT : h.clock.time = h.clock.itime * dt := hc.time
      have hS := hc.steps hd
      rw [h2, g2, hS, range_append_map]
      cases ho : (loop c dt o left h.clock.itime h.clock).outcome with
      | done =>
        rw [h4, ho, if_neg (by decide)]
        obtain ⟨e1, e2⟩ := g3 ho
        refine ⟨?_, fun _ => ?_, by rintro _ ⟨⟩⟩
        · show r.clock.time = _
          rw [h3, e2, hT]; push_cast; ring
        · show _ = List.range r.clock.itime
          rw [h3, e2]
      | stopped =>
        rw [h4, ho, if_neg (by decide)]
        obtain ⟨_, _, e2⟩ := g4 ho
        refine ⟨?_, fun _ => ?_, by rintro _ ⟨⟩⟩
        · show r.clock.time = _
          rw [h3, e2, hT]; push_cast; ring
        · show _ = List.range r.clock.itime
          rw [h3, e2]
      | dumped =>
        rw [h4, ho, if_pos rfl]
        obtain ⟨e1, _, e2⟩ := g5 ho
        have hsync : InSync dt r.clock := by
          show r.clock.time = _
          rw [h3, e2, hT]
          have : ((h.clock.itime + m - 1 : Nat) : ℚ) = (h.clock.itime : ℚ) + ((m - 1 : Nat) : ℚ) := by
            rw [show h.clock.itime + m - 1 = h.clock.itime + (m - 1) by omega]; push_cast; ring
          rw [this]; ring
        refine ⟨hsync, by rintro ⟨⟩, ?_⟩
        rintro k hk
        injection hk with hk
        subst hk
        refine ⟨hsync, ?_⟩
        show List.range (h.clock.itime + m) = _
        rw [h3, e2]
        show _ = List.range (h.clock.itime + m - 1 + 1)
        congr 1
        omega

/-- **C31, histories.** Whatever sequence of `run` calls, stops, requested dumps and resumptions a user goes
through: the steps executed are `0, 1, 2, …` in order, none left out and none repeated, their number is the
value of `itime` (one more right after a dump, before it is loaded), and `time` is always `itime * dt`. In
particular splitting a run into several calls executes the same steps. -/
theorem history_consecutive (c : Config) (dt : ℚ) (cfgN : Option Int) (cfgT : Option ℚ) (calls : List Call)
    (hp : Proper c dt cfgN cfgT ⟨⟨0, 0⟩, [], none⟩ calls) :
    ∀ h, h = calls.foldl (History.call c dt cfgN cfgT) ⟨⟨0, 0⟩, [], none⟩ →
      h.clock.time = h.clock.itime * dt ∧ (∃ n, h.steps = List.range n) ∧
      (h.dumped = none → h.steps.length = h.clock.itime) := by
  have main : ∀ (calls : List Call) (h : History), Consistent dt h → Proper c dt cfgN cfgT h calls →
      Consistent dt (calls.foldl (History.call c dt cfgN cfgT) h) := by
    intro calls
    induction calls with
    | nil => intro h hc _; exact hc
    | cons x xs ih =>
      intro h hc hp
      rw [List.foldl_cons]
      cases x with
      | resume =>
        exact ih _ (hc.call (by rintro ⟨_, _, _, h⟩; cases h)) hp
      | run n t o =>
        exact ih _ (hc.call fun _ => hp.1) hp.2
  rintro h rfl
  have hc := main calls ⟨⟨0, 0⟩, [], none⟩ ⟨by show (0 : ℚ) = (0 : Nat) * dt; simp, fun _ => rfl, by rintro _ ⟨⟩⟩ hp
  refine ⟨hc.time, ?_, ?_⟩
  · cases hd : (calls.foldl (History.call c dt cfgN cfgT) ⟨⟨0, 0⟩, [], none⟩).dumped with
    | none => exact ⟨_, hc.steps hd⟩
    | some k => exact ⟨_, (hc.dumped k hd).2⟩
  · intro hd
    rw [hc.steps hd, List.length_range]

/-- **C31, split runs.** Two runs of `n` and `m` steps execute the same steps as one run of `n + m`, and leave
the same clock. -/
theorem split_run (c : Config) (dt : ℚ) (cfgN : Option Int) (cfgT : Option ℚ) {o : Nat → Oracle} (ho : Quiet o)
    (n m : Nat) (k : Clock) :
    ∃ r1 r2 r, run c dt cfgN cfgT o (some n) none k = some r1 ∧
      run c dt cfgN cfgT o (some m) none r1.clock = some r2 ∧
      run c dt cfgN cfgT o (some ((n + m : Nat) : Int)) none k = some r ∧
      stepsOf r = stepsOf r1 ++ stepsOf r2 ∧ r.clock = r2.clock := by
  obtain ⟨r1, h1, _, h2, h3⟩ := run_nsteps c dt cfgN cfgT ho n k
  obtain ⟨r2, g1, _, g2, g3⟩ := run_nsteps c dt cfgN cfgT ho m r1.clock
  obtain ⟨r, f1, _, f2, f3⟩ := run_nsteps c dt cfgN cfgT ho (n + m) k
  refine ⟨r1, r2, r, h1, g1, f1, ?_, ?_⟩
  · rw [f2, h2, g2, h3, List.range_add, List.map_append, List.map_map]
    congr 1
    apply List.map_congr_left
    intro a _
    show k.itime + (n + a) = k.itime + n + a
    omega
  · rw [f3, g3, h3]
    simp only [Clock.mk.injEq]
    exact ⟨by omega, by push_cast; ring⟩

/-- a world in which a dump is requested during step 2 of a run -/
def dumpAt2 (i : Nat) : Oracle := ⟨fun _ => true, fun _ => true, fun _ => true, false, decide (i = 2), false⟩

/-- **C31 needs the reload.** After a requested dump, calling `run` again in the same process executes the
dumped step a second time, although its fields and particles were already advanced. -/
theorem dump_without_reload_repeats_step_fails :
    ∃ r1 r2, run ⟨1, fun _ => true, fun _ => false, fun _ => false, false⟩ 1 none none dumpAt2 (some 5) none ⟨0, 0⟩ =
        some r1 ∧
      run ⟨1, fun _ => true, fun _ => false, fun _ => false, false⟩ 1 none none dumpAt2 (some 5) none r1.clock = some r2 ∧
      stepsOf r1 = [0, 1, 2] ∧ stepsOf r2 = [2] :=
  ⟨_, _, rfl, rfl, by decide +kernel, by decide +kernel⟩

/-- the hypotheses are met: three steps, a stop request, a dump request in step 2, resumption, and a further
run -/
example : ∃ calls, Proper ⟨1, fun _ => true, fun _ => false, fun _ => false, false⟩ 1 none none ⟨⟨0, 0⟩, [], none⟩ calls ∧
    (calls.foldl (History.call ⟨1, fun _ => true, fun _ => false, fun _ => false, false⟩ 1 none none)
      ⟨⟨0, 0⟩, [], none⟩).steps = [0, 1, 2, 3, 4] :=
  ⟨[.run (some 5) none dumpAt2, .resume, .run none (some (11/2)) fun _ => ⟨fun _ => true, fun _ => true, fun _ => true, false, false, false⟩],
    ⟨rfl, ⟨by decide +kernel, trivial⟩⟩, by decide +kernel⟩

end Verif.RunLoop
