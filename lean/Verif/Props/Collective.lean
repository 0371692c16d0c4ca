import Verif.Proofs.Collective
import Verif.Props.RunLoop
import Mathlib.Tactic.IntervalCases
/-!
# C64 — a run on several ranks ends on all of them together

Every rank executes its own copy of `run`; the ranks wait for each other in barriers, other collective calls and
halo exchanges. Two things are decided by each rank alone: whether a signal has asked it for a checkpoint
(`dump r i`), and what its `stop_callback` returns (`stop r i`). The theorems say when the ranks come to their end,
for every number of ranks, every neighbourhood of the ranks, all callbacks, and every interleaving.
-/
namespace Verif.Collective
open RunLoop

/-- however the ranks are scheduled, they come to the end of their programs: executions are finite, and one that is
not at its end can go on -/
def AlwaysFinishes (J : Job) : Prop :=
  ∃ N, ∀ n s, J.Reach n s → n ≤ N ∧ (J.Done s ∨ ∃ s', J.Step s s')

/-- in no execution do all the ranks come to their end; as executions are finite (`executions_finite`), in all of
them some rank waits for ever -/
def NeverFinishes (J : Job) : Prop := ∀ n s, J.Reach n s → ¬ J.Done s

/-- the run of rank `r` taken by itself -/
def rankRun (c : Config) (dt : ℚ) (base : Nat → Oracle) (dump stop : Nat → Nat → Bool) (n : Nat) (k : Clock)
    (r : Nat) : Option Result :=
  run c dt none none (oracle base dump stop r) (some n) none k

/-- no execution goes on for ever -/
theorem executions_finite (J : Job) : ∃ N, ∀ n s, J.Reach n s → n ≤ N :=
  ⟨_, fun n s h => reach_bounded J n s h⟩

theorem loop_congr (c : Config) (dt : ℚ) (o o' : Nat → Oracle) (h : ∀ i, o i = o' i) (left istep : Nat) (k : Clock) :
    loop c dt o left istep k = loop c dt o' left istep k := by
  rw [show o = o' from funext h]

/-- **Ranks that take the same decisions finish.** If at every step the signal has been seen by all the ranks or by
none, and `stop_callback` gives all of them the same answer, no interleaving of the ranks hangs. Missing: the case in
which the ranks do not see the signal in the same step, in which the claim is false (`signal_checkpoint_fails`). -/
theorem same_decisions_finish_partial (R : Nat) (peer : Tag → Nat → Nat → Nat → Prop) (w : World) (c : Config) (dt : ℚ)
    (base : Nat → Oracle) (dump stop : Nat → Nat → Bool) (n : Nat) (k : Clock)
    (h : ∀ r, r < R → ∀ i, dump r i = dump 0 i ∧ stop r i = stop 0 i) :
    AlwaysFinishes (job R peer w c dt base dump stop n k) := by
  refine ⟨_, fun m s hs => ⟨reach_bounded _ m s hs, ?_⟩⟩
  refine progress _ ((job R peer w c dt base dump stop n k).prog 0) ?_ (Neutral.balanced (neutral_prog R peer w c dt base dump stop n k 0)) m s hs
  intro r hr
  have : oracle base dump stop r = oracle base dump stop 0 := by
    funext i
    obtain ⟨h1, h2⟩ := h r hr i
    simp [oracle, h1, h2]
  rw [prog_eq, prog_eq, this]

theorem stepsOf_loop_succ (c : Config) (dt : ℚ) (o : Nat → Oracle) (left istep : Nat) (k : Clock) :
    stepsOf (loop c dt o (left + 1) istep k) = istep ::
      if (o istep).dump || (o istep).stop then [] else stepsOf (loop c dt o left (istep + 1) ⟨k.itime + 1, k.time + dt⟩) := by
  simp only [stepsOf, loop]
  by_cases h1 : (o istep).dump
  · simp only [h1, if_true, Bool.true_or]
    exact step_start c _ _ _
  · by_cases h2 : (o istep).stop
    · simp only [h1, h2, if_true, Bool.or_true]
      exact step_start c _ _ _
    · rw [if_neg h1, if_neg h2, if_neg (by simp [h1, h2]), List.filterMap_append, step_start]
      rfl

theorem stepsOf_run (c : Config) (dt : ℚ) (o : Nat → Oracle) (n : Nat) (k : Clock) (res : Result)
    (h : run c dt none none o (some n) none k = some res) :
    stepsOf res = stepsOf (loop c dt o n k.itime k) ∧ res.outcome = (loop c dt o n k.itime k).outcome := by
  rw [run_eq] at h
  simp only [Option.some.injEq] at h
  subst h
  refine ⟨?_, rfl⟩
  simp only [stepsOf, List.filterMap_append, List.cons_append, List.filterMap_cons]
  by_cases e : (loop c dt o n k.itime k).outcome = .done <;> simp [e]

theorem stepOps_shared (c : Config) (base : Nat → Oracle) (dump stop : Nat → Nat → Bool) (r q i : Nat) :
    stepOps c (oracle base dump stop r i) = stepOps c (oracle base dump stop q i) := rfl

/-- equal collective calls: the same steps, and the same way out unless the steps asked for were all run -/
theorem colls_loop (w : World) (c : Config) (dt : ℚ) (base : Nat → Oracle) (dump stop : Nat → Nat → Bool) (r q : Nat)
    (left istep : Nat) (k : Clock)
    (h : colls .base (loopCalls w c dt (oracle base dump stop r) left istep k) =
      colls .base (loopCalls w c dt (oracle base dump stop q) left istep k)) :
    stepsOf (loop c dt (oracle base dump stop r) left istep k) =
      stepsOf (loop c dt (oracle base dump stop q) left istep k) ∧
    ((stepsOf (loop c dt (oracle base dump stop r) left istep k)).length < left →
      (loop c dt (oracle base dump stop r) left istep k).outcome =
        (loop c dt (oracle base dump stop q) left istep k).outcome) := by
  induction left generalizing istep k with
  | zero => exact ⟨rfl, fun _ => rfl⟩
  | succ left ih =>
    rw [loopCalls_succ, loopCalls_succ, stepOps_shared c base dump stop r q istep, colls_append, colls_append] at h
    have h' := List.append_cancel_left h
    have none3 : Kind.allgather ∉ colls .base (endCalls .dumped) := by decide
    have none0 : Kind.allgather ∉ colls .base [] := by decide
    have ends : ∀ x : Nat, ((oracle base dump stop x istep).dump || (oracle base dump stop x istep).stop) = true →
        ∀ l, Kind.allgather ∉ colls .base (if (oracle base dump stop x istep).dump then endCalls .dumped
          else if (oracle base dump stop x istep).stop then [] else l) := by
      intro x hx l
      by_cases h1 : (oracle base dump stop x istep).dump
      · rw [if_pos h1]; exact none3
      · have h2 : (oracle base dump stop x istep).stop = true := by simpa [h1] using hx
        rw [if_neg h1, if_pos h2]; exact none0
    rw [stepsOf_loop_succ, stepsOf_loop_succ]
    by_cases hr : ((oracle base dump stop r istep).dump || (oracle base dump stop r istep).stop) = true
    · by_cases hq : ((oracle base dump stop q istep).dump || (oracle base dump stop q istep).stop) = true
      · refine ⟨by rw [if_pos hr, if_pos hq], fun _ => ?_⟩
        simp only [loop]
        by_cases a : (oracle base dump stop r istep).dump <;> by_cases b : (oracle base dump stop q istep).dump
        · simp [a, b]
        · have b2 : (oracle base dump stop q istep).stop = true := by simpa [b] using hq
          rw [if_pos a, if_neg b, if_pos b2] at h'
          simp [endCalls, colls] at h'
        · have a2 : (oracle base dump stop r istep).stop = true := by simpa [a] using hr
          rw [if_neg a, if_pos b, if_pos a2] at h'
          simp [endCalls, colls] at h'
        · have b2 : (oracle base dump stop q istep).stop = true := by simpa [b] using hq
          have a2 : (oracle base dump stop r istep).stop = true := by simpa [a] using hr
          simp [a, b, a2, b2]
      · -- the other rank goes on
        have hq' : (oracle base dump stop q istep).dump = false ∧ (oracle base dump stop q istep).stop = false := by
          simpa using hq
        have hn := ends r hr (loopCalls w c dt (oracle base dump stop r) left (istep + 1) ⟨k.itime + 1, k.time + dt⟩)
        rw [h', hq'.1, hq'.2] at hn
        cases left with
        | succ left => exact absurd (allgather_loop w c dt _ left _ _) hn
        | zero =>
          rw [if_pos hr, if_neg hq]
          exact ⟨rfl, fun hl => by simp at hl⟩
    · have hr' : (oracle base dump stop r istep).dump = false ∧ (oracle base dump stop r istep).stop = false := by
        simpa using hr
      by_cases hq : ((oracle base dump stop q istep).dump || (oracle base dump stop q istep).stop) = true
      · have hn := ends q hq (loopCalls w c dt (oracle base dump stop q) left (istep + 1) ⟨k.itime + 1, k.time + dt⟩)
        rw [← h', hr'.1, hr'.2] at hn
        cases left with
        | succ left => exact absurd (allgather_loop w c dt _ left _ _) hn
        | zero =>
          rw [if_neg hr, if_pos hq]
          exact ⟨rfl, fun hl => by simp [stepsOf, loop] at hl⟩
      · have hq' : (oracle base dump stop q istep).dump = false ∧ (oracle base dump stop q istep).stop = false := by
          simpa using hq
        rw [hr'.1, hr'.2, hq'.1, hq'.2] at h'
        obtain ⟨i1, i2⟩ := ih (istep + 1) ⟨k.itime + 1, k.time + dt⟩ h'
        rw [if_neg hr, if_neg hq]
        refine ⟨by rw [i1], fun hl => ?_⟩
        simp only [List.length_cons] at hl
        have := i2 (by omega)
        simpa [loop, hr'.1, hr'.2, hq'.1, hq'.2] using this

/-- **Ranks that finish have run the same steps.** Whatever signals and `stop_callback`s say on the different ranks: if
all the ranks come to their end, they have started the same steps; and if these are fewer than the caller asked for,
they all ended the same way, by a checkpoint or by `stop_callback`. -/
theorem finished_same_steps (R : Nat) (peer : Tag → Nat → Nat → Nat → Prop) (w : World) (c : Config) (dt : ℚ)
    (base : Nat → Oracle) (dump stop : Nat → Nat → Bool) (n : Nat) (k : Clock) (m : Nat) (s : State)
    (h : (job R peer w c dt base dump stop n k).Reach m s) (hd : (job R peer w c dt base dump stop n k).Done s)
    (r q : Nat) (hr : r < R) (hq : q < R) (res res' : Result) (e : rankRun c dt base dump stop n k r = some res)
    (e' : rankRun c dt base dump stop n k q = some res') :
    stepsOf res = stepsOf res' ∧ ((stepsOf res).length < n → res.outcome = res'.outcome) := by
  have hc := done_colls _ m s h hd r q hr hq .base
  rw [prog_eq, prog_eq, colls_append, colls_append] at hc
  obtain ⟨h1, h2⟩ := colls_loop w c dt base dump stop r q n k.itime k (List.append_cancel_left hc)
  obtain ⟨a1, a2⟩ := stepsOf_run c dt _ n k res e
  obtain ⟨b1, b2⟩ := stepsOf_run c dt _ n k res' e'
  rw [a1, a2, b1, b2]
  exact ⟨h1, h2⟩

/-- the steps of a rank whose handler is seen at the end of step `a`: up to and including that one -/
theorem signalled_steps (c : Config) (dt : ℚ) (base : Nat → Oracle) (seen : Nat → Nat) (r left istep : Nat) (k : Clock)
    (h1 : istep ≤ seen r) (h2 : seen r < istep + left) :
    (stepsOf (loop c dt (oracle base (signalled seen) (fun _ _ => false) r) left istep k)).length = seen r - istep + 1 := by
  induction left generalizing istep k with
  | zero => omega
  | succ left ih =>
    rw [stepsOf_loop_succ]
    by_cases e : seen r = istep
    · have : (oracle base (signalled seen) (fun _ _ => false) r istep).dump = true := by simp [oracle, signalled, e]
      simp [this, e]
    · have d1 : (oracle base (signalled seen) (fun _ _ => false) r istep).dump = false := by
        simp only [oracle, signalled, decide_eq_false_iff_not]; omega
      have d2 : (oracle base (signalled seen) (fun _ _ => false) r istep).stop = false := rfl
      rw [d1, d2, if_neg (by simp), List.length_cons, ih (istep + 1) _ (by omega) (by omega)]
      omega

/-- **A checkpoint on a signal needs all the ranks to see it in the same step.** Every rank is sent a signal listed in
`dump_signals`; `seen r` is the step at whose end rank `r` first finds the flag set, some step of the run. The ranks
write the checkpoint and return if and only if that step is the same for all of them. Nothing in the code makes it
so: each rank looks at its own flag, and between two looks the ranks are not at the same point. -/
theorem signal_checkpoint_iff (R : Nat) (peer : Tag → Nat → Nat → Nat → Prop) (w : World) (c : Config) (dt : ℚ)
    (base : Nat → Oracle) (seen : Nat → Nat) (n : Nat) (k : Clock)
    (hs : ∀ r, r < R → k.itime ≤ seen r ∧ seen r < k.itime + n) :
    (AlwaysFinishes (job R peer w c dt base (signalled seen) (fun _ _ => false) n k) ↔
      ∀ r q, r < R → q < R → seen r = seen q) ∧
    ((∃ r q, r < R ∧ q < R ∧ seen r ≠ seen q) →
      NeverFinishes (job R peer w c dt base (signalled seen) (fun _ _ => false) n k)) := by
  have never : ∀ m s, (job R peer w c dt base (signalled seen) (fun _ _ => false) n k).Reach m s →
      (job R peer w c dt base (signalled seen) (fun _ _ => false) n k).Done s →
      ∀ r q, r < R → q < R → seen r = seen q := by
    intro m s h hd r q hr hq
    have hc := done_colls _ m s h hd r q hr hq .base
    rw [prog_eq, prog_eq, colls_append, colls_append] at hc
    obtain ⟨h1, _⟩ := colls_loop w c dt base _ _ r q n k.itime k (List.append_cancel_left hc)
    have l1 := signalled_steps c dt base seen r n k.itime k (hs r hr).1 (hs r hr).2
    have l2 := signalled_steps c dt base seen q n k.itime k (hs q hq).1 (hs q hq).2
    rw [h1, l2] at l1
    have := (hs r hr).1
    have := (hs q hq).1
    omega
  refine ⟨⟨?_, ?_⟩, ?_⟩
  · rintro ⟨N, hN⟩
    -- follow an execution to its end
    have : ∀ j, (∃ m s, (job R peer w c dt base (signalled seen) (fun _ _ => false) n k).Reach m s ∧
        (job R peer w c dt base (signalled seen) (fun _ _ => false) n k).Done s) ∨
        ∃ s, (job R peer w c dt base (signalled seen) (fun _ _ => false) n k).Reach j s := by
      intro j
      induction j with
      | zero => exact Or.inr ⟨_, .start⟩
      | succ j ih =>
        rcases ih with h | ⟨s, hr⟩
        · exact Or.inl h
        · rcases (hN j s hr).2 with hd | ⟨s', hs'⟩
          · exact Or.inl ⟨j, s, hr, hd⟩
          · exact Or.inr ⟨s', hr.step hs'⟩
    rcases this (N + 1) with ⟨m, s, h, hd⟩ | ⟨s, h⟩
    · exact never m s h hd
    · have := (hN _ s h).1
      omega
  · intro h
    refine same_decisions_finish_partial R peer w c dt base _ _ n k ?_
    intro r hr i
    refine ⟨?_, rfl⟩
    simp only [signalled, h r 0 hr (by omega)]
  · rintro ⟨r, q, hr, hq, hne⟩ m s h hd
    exact hne (never m s h hd r q hr hq)

/-- **A signal can hang the run.** Two ranks, ten steps, no callbacks, no species: the scheduler's signal reaches rank 0
before the end of step 3 and rank 1 just after it. Rank 0 waits in the first barrier of the checkpoint, rank 1 in the
barrier of step 4; rank 0 then waits in the second barrier while rank 1 waits in `allgather`: the checkpoint is never
completed, whatever the interleaving. -/
theorem signal_checkpoint_fails : ∃ seen : Nat → Nat, (∀ r, r < 2 → seen r < 10) ∧
    NeverFinishes (job 2 (fun _ _ _ _ => False) ⟨fun _ _ _ _ => [], fun _ => true⟩
      ⟨0, fun _ => false, fun _ => false, fun _ => false, false⟩ 1
      (fun _ => ⟨fun _ => true, fun _ => true, fun _ => true, false, false, false⟩) (signalled seen)
      (fun _ _ => false) 10 ⟨0, 0⟩) := by
  refine ⟨fun r => if r = 0 then 3 else 4, ?_, ?_⟩
  · intro r hr
    interval_cases r <;> decide
  · refine (signal_checkpoint_iff 2 _ _ _ _ _ (fun r => if r = 0 then 3 else 4) 10 ⟨0, 0⟩ ?_).2 ⟨0, 1, by decide⟩
    intro r hr
    interval_cases r <;> decide

/-- the hypotheses of `same_decisions_finish_partial` and `signal_checkpoint_iff` with three ranks that all see the signal in
step 5, while callbacks with barriers run in every step -/
example : AlwaysFinishes (job 3 (fun _ _ _ _ => True)
    ⟨fun _ _ s _ => if s = .end_ then [.gather, .barrier] else [], fun _ => true⟩
    ⟨2, fun _ => true, fun _ => false, fun _ => false, true⟩ 1
    (fun i => ⟨fun _ => true, fun _ => true, fun _ => true, decide (i = 4), false, false⟩) (signalled fun _ => 5)
    (fun _ _ => false) 10 ⟨0, 0⟩) :=
  (signal_checkpoint_iff 3 _ _ _ _ _ (fun _ => 5) 10 ⟨0, 0⟩ (fun _ _ => by simp)).1.mpr fun _ _ _ _ => rfl

end Verif.Collective
