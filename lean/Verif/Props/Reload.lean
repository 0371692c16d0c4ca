import Verif.Model.Reload
import Mathlib.Tactic.Linarith
/-!
# C75 — the `autoreload` command

The file system behaves (`Disk`): times of modification never go back, and a script that changes gets a later one. Reads happen one after the other
(`InOrder`).
-/
namespace Verif.Reload

/-- times of modification do not go back, and equal times mean equal scripts -/
structure Disk (F : Nat → File) : Prop where
  mono : ∀ a b, a ≤ b → (F a).mtime ≤ (F b).mtime
  same : ∀ a b, a ≤ b → (F a).mtime = (F b).mtime → (F a).text = (F b).text

/-- the moments of a round follow each other: reload, steps, check -/
structure InOrder1 (now : Nat) (o : Round) : Prop where
  reload : now ≤ o.reloadAt
  first : ∀ d m, o.tick d = .step m → o.reloadAt ≤ m
  next : ∀ d e m k, d ≤ e → o.tick d = .step m → o.tick e = .step k → m ≤ k
  last : ∀ d m, o.tick d = .step m → m ≤ o.checkAt
  check : o.reloadAt ≤ o.checkAt

/-- the rounds follow each other -/
def InOrder : Nat → List Round → Prop
  | _, [] => True
  | now, o :: os => InOrder1 now o ∧ InOrder o.checkAt os

/-- the scripts that are reloaded do not fail before they have defined their simulation -/
def Sound (F : Nat → File) (os : List Round) : Prop := ∀ o ∈ os, (F o.reloadAt).text.broken ≠ some false

/-- what holds between two rounds at moment `now` -/
structure Inv (F : Nat → File) (now : Nat) (s : State) : Prop where
  time : s.lastModified ≤ (F now).mtime
  sim : ∀ x, s.sim = some x → ∃ r ≤ now, x.text = (F r).text ∧ x.text.sim = some x.nsteps ∧
    (s.modified = false → s.lastModified ≤ (F r).mtime)
  zero : s.modified = false → s.finished = false → ∀ x, s.sim = some x → x.itime = 0

/-- what a run does with the file: it goes on only while the script is the one it runs -/
structure Honest (F : Nat → File) (o : Round) (run : Run) : Prop where
  start : run.start = 0
  text : ∀ d < run.steps, ∃ m, o.tick d = .step m ∧ ((F m).text = run.text ∨ (d + 1 = run.steps ∧ run.ending = .stopped))
  finished : run.ending = .finished → run.text.sim = some run.steps

theorem check_cases (F : Nat → File) (m : Nat) (s : State) :
    (s.lastModified < (F m).mtime ∧ check F m s = (true, { s with modified := true, lastModified := (F m).mtime })) ∨
    ((F m).mtime ≤ s.lastModified ∧ check F m s = (false, s)) := by
  unfold check
  by_cases h : s.lastModified < (F m).mtime
  · exact Or.inl ⟨h, if_pos h⟩
  · exact Or.inr ⟨not_lt.mp h, if_neg h⟩

/-- the loop of a run -/
theorem steps_spec {F : Nat → File} (hF : Disk F) (tick : Nat → Tick) {r : Nat} {s : State} (hr : s.lastModified ≤ (F r).mtime)
    (hfirst : ∀ d m, tick d = .step m → r ≤ m) :
    ∀ (k d : Nat) (s' : State), s'.lastModified = s.lastModified → s'.modified = s.modified → s'.sim = s.sim →
      ∃ d' e s'', steps F tick k d s' = (d', e, s'') ∧ d ≤ d' ∧ d' ≤ d + k ∧ s''.sim = s.sim ∧
        (∀ i, d ≤ i → i < d' → ∃ m, tick i = .step m ∧ ((F m).text = (F r).text ∨ (i + 1 = d' ∧ e = .stopped))) ∧
        (e = .finished → d' = d + k) ∧
        ((e = .stopped ∧ s''.modified = true ∧ ∃ i m, tick i = .step m ∧ s''.lastModified = (F m).mtime) ∨
          (e ≠ .stopped ∧ s''.modified = s.modified ∧ s''.lastModified = s.lastModified))
  | 0, d, s', h1, h2, h3 => ⟨d, .finished, s', rfl, le_rfl, by omega, h3, fun i a b => by omega, fun _ => by omega, Or.inr ⟨by decide, h2, h1⟩⟩
  | k + 1, d, s', h1, h2, h3 => by
    rw [steps]
    cases ht : tick d with
    | error => exact ⟨d, .error, s', rfl, le_rfl, by omega, h3, fun i a b => by omega, fun h => (by cases h), Or.inr ⟨by decide, h2, h1⟩⟩
    | dump => exact ⟨d, .dumped, s', rfl, le_rfl, by omega, h3, fun i a b => by omega, fun h => (by cases h), Or.inr ⟨by decide, h2, h1⟩⟩
    | step m =>
      dsimp only
      rcases check_cases F m s' with ⟨hlt, hc⟩ | ⟨hle, hc⟩
      · rw [hc]
        refine ⟨d + 1, .stopped, _, rfl, by omega, by omega, h3, fun i a b => ⟨m, ?_, Or.inr ⟨by omega, rfl⟩⟩, fun h => (by cases h),
          Or.inl ⟨rfl, rfl, d, m, ht, rfl⟩⟩
        rw [show i = d by omega]; exact ht
      · rw [hc]
        dsimp only
        obtain ⟨d', e, s'', e1, e2, e3, e4, e5, e6, e7⟩ := steps_spec hF tick hr hfirst k (d + 1) s' h1 h2 h3
        refine ⟨d', e, s'', e1, by omega, by omega, e4, fun i a b => ?_, fun h => by have := e6 h; omega, e7⟩
        by_cases hi : i = d
        · subst hi
          have hrm := hfirst i m ht
          refine ⟨m, ht, Or.inl (hF.same r m hrm (le_antisymm (hF.mono r m hrm) ?_)).symm⟩
          rw [h1] at hle
          exact hle.trans hr
        · exact e5 i (by omega) b

theorem inv_check {F : Nat → File} (hF : Disk F) {now m : Nat} (hm : now ≤ m) {s : State} (h : Inv F now s) : Inv F m (check F m s).2 := by
  rcases check_cases F m s with ⟨hlt, hc⟩ | ⟨hle, hc⟩
  · rw [hc]
    refine ⟨le_rfl, fun x hx => ?_, fun h' => (by cases h')⟩
    obtain ⟨r, hr, e1, e2, _⟩ := h.sim x hx
    exact ⟨r, hr.trans hm, e1, e2, fun h' => (by cases h')⟩
  · rw [hc]
    refine ⟨h.time.trans (hF.mono _ _ hm), fun x hx => ?_, h.zero⟩
    obtain ⟨r, hr, e⟩ := h.sim x hx
    exact ⟨r, hr.trans hm, e⟩

/-- one round keeps the invariant and its run is honest -/
theorem round_spec {F : Nat → File} (hF : Disk F) (e1 e2 : Bool) {now : Nat} {o : Round} (ho : InOrder1 now o)
    (hs : (F o.reloadAt).text.broken ≠ some false) {s : State} (h : Inv F now s) :
    ∃ s' run ex, round F e1 e2 o s = (s', run, ex) ∧ (∀ x, run = some x → Honest F o x) ∧ (ex = none → Inv F o.checkAt s') ∧
      (ex = some .finish → ∃ x, run = some x ∧ (x.ending = .finished ∨ x.ending = .dumped)) ∧
      (ex = some .raised → e1 = true ∧ (run = none ∨ ∃ x, run = some x ∧ x.ending = .error)) := by
  -- the state after a possible reload, at the moment of the reload
  have h1 : ∃ s1, (if s.modified then { reload F o.reloadAt s with modified := false, finished := false } else s) = s1 ∧ Inv F o.reloadAt s1 ∧
      s1.modified = false := by
    by_cases hm : s.modified = true
    · refine ⟨_, if_pos hm, ⟨h.time.trans (hF.mono _ _ ho.reload), fun x hx => ⟨o.reloadAt, le_rfl, ?_⟩, fun _ _ x hx => ?_⟩, rfl⟩
      · have hb : bound (F o.reloadAt).text s.sim = some x := hx
        unfold bound at hb
        rw [if_neg hs] at hb
        obtain ⟨n, hn, rfl⟩ := Option.map_eq_some_iff.mp hb
        exact ⟨rfl, hn, fun _ => h.time.trans (hF.mono _ _ ho.reload)⟩
      · have hb : bound (F o.reloadAt).text s.sim = some x := hx
        unfold bound at hb
        rw [if_neg hs] at hb
        obtain ⟨n, hn, rfl⟩ := Option.map_eq_some_iff.mp hb
        rfl
    · refine ⟨s, if_neg hm, ⟨h.time.trans (hF.mono _ _ ho.reload), fun x hx => ?_, h.zero⟩, by simpa using hm⟩
      obtain ⟨r, hr, e⟩ := h.sim x hx
      exact ⟨r, hr.trans ho.reload, e⟩
  obtain ⟨s1, hs1, hi1, hm1⟩ := h1
  unfold round
  dsimp only
  rw [hs1]
  by_cases hfin : s1.finished = true
  · rw [if_pos hfin]
    exact ⟨_, _, _, rfl, fun x hx => (by cases hx), fun _ => inv_check hF ho.check hi1, fun hx => (by cases hx), fun hx => (by cases hx)⟩
  · rw [if_neg hfin]
    have hfin' : s1.finished = false := by simpa using hfin
    -- the run
    have ha : ∃ run e s2, attempt F o s1 = (run, e, s2) ∧ (∀ x, run = some x → Honest F o x ∧ x.ending = e) ∧ (e ≠ .error → run ≠ none) ∧
        (∀ fin, Inv F o.checkAt (check F o.checkAt { s2 with modified := true, finished := fin }).2) ∧
        (e = .stopped → s2.modified = true) ∧
        (e = .finished ∨ e = .dumped → Inv F o.checkAt (check F o.checkAt { s2 with finished := true }).2) := by
      unfold attempt
      cases hsim : s1.sim with
      | none =>
        refine ⟨none, .error, s1, rfl, fun x hx => (by cases hx), fun h => absurd rfl h, fun fin => ?_, fun h => (by cases h), fun h => (by rcases h with h | h <;> cases h)⟩
        refine inv_check hF ho.check ⟨hi1.time, fun x hx => ?_, fun h' => (by cases h')⟩
        have hx' : s1.sim = some x := hx
        rw [hsim] at hx'; cases hx'
      | some x =>
        dsimp only
        obtain ⟨r, hr, t1, t2, t3⟩ := hi1.sim x hsim
        have hz := hi1.zero hm1 hfin' x hsim
        by_cases hset : o.setUpFails = true
        · rw [if_pos hset]
          refine ⟨_, _, _, rfl, fun y hy => ?_, fun h => absurd rfl h, fun fin => ?_, fun h => (by cases h), fun h => (by rcases h with h | h <;> cases h)⟩
          · cases hy
            exact ⟨⟨hz, fun d hd => absurd hd (Nat.not_lt_zero _), fun h => (by cases h)⟩, rfl⟩
          · refine inv_check hF ho.check ⟨hi1.time, fun y hy => ?_, fun h' => (by cases h')⟩
            obtain ⟨r, hr, e⟩ := hi1.sim y hy
            exact ⟨r, hr, e.1, e.2.1, fun h' => (by cases h')⟩
        · rw [if_neg hset]
          obtain ⟨d', e, s2, q1, q2, q3, q4, q5, q6, q7⟩ := steps_spec hF o.tick (r := r) (s := s1) (t3 hm1)
            (fun d m hm => hr.trans (ho.first d m hm)) (x.nsteps - x.itime) 0 s1 rfl rfl rfl
          rw [q1]
          refine ⟨_, _, _, rfl, fun y hy => ?_, fun _ h => (by cases h), fun fin => ?_, fun h => ?_, fun h => ?_⟩
          · cases hy
            refine ⟨⟨hz, fun d hd => ?_, fun hf => ?_⟩, rfl⟩
            · rw [t1]; exact q5 d (Nat.zero_le d) hd
            · have := q6 hf
              rw [hz] at this
              dsimp only
              rw [t2, this]
              simp
          · have ht : s2.lastModified ≤ (F o.checkAt).mtime := by
              rcases q7 with ⟨_, _, i, m, hm, hl⟩ | ⟨_, _, hl⟩
              · rw [hl]; exact hF.mono _ _ (ho.last i m hm)
              · rw [hl]; exact hi1.time.trans (hF.mono _ _ ho.check)
            have key : Inv F o.checkAt { { s2 with sim := some { x with itime := x.itime + d' } } with modified := true, finished := fin } := by
              refine ⟨ht, fun y hy => ?_, fun h' => (by cases h')⟩
              cases hy
              exact ⟨r, hr.trans ho.check, t1, t2, fun h' => (by cases h')⟩
            exact inv_check hF le_rfl key
          · rcases q7 with ⟨_, hmod, _⟩ | ⟨hne, _⟩
            · exact hmod
            · exact absurd h hne
          · have hne : e ≠ .stopped := by rintro rfl; rcases h with h | h <;> cases h
            rcases q7 with ⟨hst, _⟩ | ⟨_, hmod, hl⟩
            · exact absurd hst hne
            · have key : Inv F o.checkAt { { s2 with sim := some { x with itime := x.itime + d' } } with finished := true } := by
                refine ⟨?_, fun y hy => ?_, fun _ h' => (by cases h')⟩
                · exact (le_of_eq hl).trans (hi1.time.trans (hF.mono _ _ ho.check))
                · cases hy
                  exact ⟨r, hr.trans ho.check, t1, t2, fun _ => (le_of_eq hl).trans (t3 hm1)⟩
              exact inv_check hF le_rfl key
    obtain ⟨run, e, s2, q1, q2, q3, q4, q5, q6⟩ := ha
    rw [q1]
    dsimp only
    have same : s2.modified = true → ∀ fin, ({ s2 with finished := fin } : State) = { s2 with modified := true, finished := fin } := by
      intro h fin
      cases s2
      simp_all
    cases e with
    | finished =>
      dsimp only
      cases e2 with
      | false => exact ⟨_, _, _, rfl, fun x hx => (q2 x hx).1, fun _ => q6 (Or.inl rfl), fun h => (by cases h), fun h => (by cases h)⟩
      | true =>
        refine ⟨_, _, _, rfl, fun x hx => (q2 x hx).1, fun h => (by cases h), fun _ => ?_, fun h => (by cases h)⟩
        obtain ⟨x, hx⟩ := Option.ne_none_iff_exists'.mp (q3 (by decide))
        exact ⟨x, hx, Or.inl (q2 x hx).2⟩
    | dumped =>
      dsimp only
      cases e2 with
      | false => exact ⟨_, _, _, rfl, fun x hx => (q2 x hx).1, fun _ => q6 (Or.inr rfl), fun h => (by cases h), fun h => (by cases h)⟩
      | true =>
        refine ⟨_, _, _, rfl, fun x hx => (q2 x hx).1, fun h => (by cases h), fun _ => ?_, fun h => (by cases h)⟩
        obtain ⟨x, hx⟩ := Option.ne_none_iff_exists'.mp (q3 (by decide))
        exact ⟨x, hx, Or.inr (q2 x hx).2⟩
    | stopped =>
      refine ⟨_, _, _, rfl, fun x hx => (q2 x hx).1, fun _ => ?_, fun h => (by cases h), fun h => (by cases h)⟩
      rw [same (q5 rfl)]
      exact q4 false
    | error =>
      dsimp only
      cases e1 with
      | false =>
        refine ⟨_, _, _, rfl, fun x hx => (q2 x hx).1, fun _ => ?_, fun h => (by cases h), fun h => (by cases h)⟩
        exact q4 s2.finished
      | true =>
        refine ⟨_, _, _, rfl, fun x hx => (q2 x hx).1, fun h => (by cases h), fun h => (by cases h), fun _ => ⟨rfl, ?_⟩⟩
        cases run with
        | none => exact Or.inl rfl
        | some x => exact Or.inr ⟨x, rfl, (q2 x rfl).2⟩

/-- **C75 (partial).** As long as no reloaded script fails before it has defined its simulation: every run starts at step 0; it makes a further step only
if the script on disk is still the one that runs; a finished run made all the steps of its script; the command leaves by itself only after a run that was
finished or gave way to a requested checkpoint, or with an error that it was told to pass on. Missing: scripts that fail before (see
`half_run_fails`). -/
theorem reload_partial (F : Nat → File) (hF : Disk F) (e1 e2 : Bool) (m r : Nat) (hmr : m ≤ r) (s : State) (hst : start F m r = some s)
    (os : List Round) (hord : InOrder r os) (hs : Sound F os) :
    (∀ run ∈ (loop F e1 e2 os s).2.1, ∃ o ∈ os, Honest F o run) ∧
    ((loop F e1 e2 os s).2.2 = some .finish → ∃ run, (loop F e1 e2 os s).2.1.getLast? = some run ∧ (run.ending = .finished ∨ run.ending = .dumped)) ∧
    ((loop F e1 e2 os s).2.2 = some .raised → e1 = true) := by
  have h0 : Inv F r s := by
    unfold start at hst
    split at hst
    · rename_i hb
      cases hst
      refine ⟨hF.mono _ _ hmr, fun x hx => ⟨r, le_rfl, ?_⟩, fun _ _ x hx => ?_⟩
      · have hx' : bound (F r).text none = some x := hx
        unfold bound at hx'
        rw [if_neg (by rw [hb]; decide)] at hx'
        obtain ⟨n, hn, rfl⟩ := Option.map_eq_some_iff.mp hx'
        exact ⟨rfl, hn, fun _ => hF.mono _ _ hmr⟩
      · have hx' : bound (F r).text none = some x := hx
        unfold bound at hx'
        rw [if_neg (by rw [hb]; decide)] at hx'
        obtain ⟨n, hn, rfl⟩ := Option.map_eq_some_iff.mp hx'
        rfl
    · cases hst
  clear hst
  induction os generalizing r s with
  | nil => simp [loop]
  | cons o os ih =>
    obtain ⟨ho, hos⟩ := hord
    obtain ⟨s', run, ex, q1, q2, q3, q4, q5⟩ := round_spec hF e1 e2 ho (hs o (by simp)) h0
    rw [loop, q1]
    dsimp only
    cases ex with
    | some x =>
      dsimp only
      refine ⟨fun y hy => ⟨o, by simp, q2 y (by simpa using hy)⟩, fun hx => ?_, fun hx => (q5 hx).1⟩
      obtain ⟨y, hy, he⟩ := q4 hx
      exact ⟨y, by rw [hy]; rfl, he⟩
    | none =>
      dsimp only
      have hmr' : m ≤ o.checkAt := hmr.trans (ho.reload.trans ho.check)
      obtain ⟨i1, i2, i3⟩ := ih o.checkAt hmr' s' hos (fun x hx => hs x (by simp [hx])) (q3 rfl)
      refine ⟨fun y hy => ?_, fun hx => ?_, i3⟩
      · rcases List.mem_append.mp hy with hy | hy
        · exact ⟨o, by simp, q2 y (by simpa using hy)⟩
        · obtain ⟨o', ho', hh⟩ := i1 y hy
          exact ⟨o', by simp [ho'], hh⟩
      · obtain ⟨y, hy, he⟩ := i2 hx
        refine ⟨y, ?_, he⟩
        rw [List.getLast?_append, hy]
        rfl

/-- a script of `n` steps that is saved with a mistake at moment 1 -/
def exFile (n : Nat) : Nat → File := fun m => if m = 0 then ⟨⟨0, some n, none⟩, 0⟩ else ⟨⟨1, none, some false⟩, 1⟩

theorem exFile_disk (n : Nat) : Disk (exFile n) := by
  constructor
  · intro a b hab
    unfold exFile
    split <;> split <;> simp_all
  · intro a b hab h
    unfold exFile at *
    split at h <;> split at h <;> simp_all

theorem steps_quiet {F : Nat → File} {s : State} {m : Nat} (h : (F m).mtime ≤ s.lastModified) (tick : Nat → Tick) :
    ∀ (k d : Nat), (∀ i, d ≤ i → i < d + k → tick i = .step m) → steps F tick k d s = (d + k, .finished, s)
  | 0, d, _ => rfl
  | k + 1, d, ht => by
    rw [steps, ht d le_rfl (by omega)]
    dsimp only
    rcases check_cases F m s with ⟨hlt, _⟩ | ⟨_, hc⟩
    · exact absurd hlt (not_lt.mpr h)
    · rw [hc]
      dsimp only
      rw [if_neg (by simp), steps_quiet h tick k (d + 1) fun i a b => ht i (by omega) (by omega)]
      congr 1
      omega

theorem steps_stop {F : Nat → File} {s : State} {m m' : Nat} (h : (F m).mtime ≤ s.lastModified) (h' : s.lastModified < (F m').mtime) (tick : Nat → Tick) :
    ∀ (j k d : Nat), j < k → (∀ i, d ≤ i → i < d + j → tick i = .step m) → tick (d + j) = .step m' →
      steps F tick k d s = (d + j + 1, .stopped, { s with modified := true, lastModified := (F m').mtime })
  | 0, k + 1, d, _, _, ht => by
    rw [Nat.add_zero] at ht
    rw [steps, ht]
    dsimp only
    rcases check_cases F m' s with ⟨_, hc⟩ | ⟨hle, _⟩
    · rw [hc]; rfl
    · exact absurd h' (not_lt.mpr hle)
  | j + 1, k + 1, d, hj, ht, he => by
    rw [steps, ht d le_rfl (by omega)]
    dsimp only
    rcases check_cases F m s with ⟨hlt, _⟩ | ⟨_, hc⟩
    · exact absurd hlt (not_lt.mpr h)
    · rw [hc]
      dsimp only
      rw [if_neg (by simp), steps_stop h h' tick j k (d + 1) (by omega) (fun i a b => ht i (by omega) (by omega)) (by rw [← he]; congr 1; omega)]
      congr 1
      omega

/-- the moments of the example: a save after step `k`, then nothing -/
def exRounds (k : Nat) : List Round :=
  [⟨0, false, fun d => .step (if d + 1 < k then 0 else 1), 1⟩, ⟨1, false, fun _ => .step 1, 1⟩]

theorem exRounds_order (k : Nat) : InOrder 0 (exRounds k) := by
  refine ⟨⟨le_rfl, fun _ _ _ => Nat.zero_le _, fun d e m m' hde h1 h2 => ?_, fun d m h => ?_, Nat.zero_le 1⟩, ⟨le_rfl, fun d m h => ?_, fun d e m m' _ h1 h2 => ?_, fun d m h => ?_, le_rfl⟩, trivial⟩
  · simp only [Tick.step.injEq] at h1 h2
    split at h1 <;> split at h2 <;> omega
  · simp only [Tick.step.injEq] at h
    dsimp only
    split at h <;> omega
  all_goals simp_all

/-- **C75 is not met**: if the script is saved with a mistake in it while step `k` of `n` is made, the simulation is set up anew from its initial state, but
the run begins at step `k` and makes only the remaining `n - k` steps; the command then leaves as if all had gone well. -/
theorem half_run_fails (n k : Nat) (hk : 0 < k) (hn : k < n) (e1 : Bool) :
    Disk (exFile n) ∧ InOrder 0 (exRounds k) ∧ ∃ s, start (exFile n) 0 0 = some s ∧
      (loop (exFile n) e1 true (exRounds k) s).2 =
        ([⟨⟨0, some n, none⟩, 0, k, .stopped⟩, ⟨⟨0, some n, none⟩, k, n - k, .finished⟩], some .finish) := by
  refine ⟨exFile_disk n, exRounds_order k, ⟨0, false, some ⟨⟨0, some n, none⟩, n, 0⟩, false⟩, by simp [start, exFile, bound], ?_⟩
  have f0 : (exFile n 0).mtime = 0 := rfl
  have f1 : (exFile n 1).mtime = 1 := rfl
  have st1 := steps_stop (F := exFile n) (s := ⟨0, false, some ⟨⟨0, some n, none⟩, n, 0⟩, false⟩) (m := 0) (m' := 1) (by rw [f0]) (by rw [f1]; norm_num)
    (fun d => .step (if d + 1 < k then 0 else 1)) (k - 1) n 0 (by omega) (fun i _ hi => by rw [if_pos (by omega)]) (by rw [if_neg (by omega)])
  have hk1 : 0 + (k - 1) + 1 = k := by omega
  rw [hk1, f1] at st1
  have st2 := steps_quiet (F := exFile n) (s := ⟨1, false, some ⟨⟨0, some n, none⟩, n, k⟩, false⟩) (m := 1) (by rw [f1])
    (fun _ => .step 1) (n - k) 0 (fun _ _ _ => rfl)
  have r1 : round (exFile n) e1 true ⟨0, false, fun d => .step (if d + 1 < k then 0 else 1), 1⟩ ⟨0, false, some ⟨⟨0, some n, none⟩, n, 0⟩, false⟩ =
      (⟨1, true, some ⟨⟨0, some n, none⟩, n, k⟩, false⟩, some ⟨⟨0, some n, none⟩, 0, k, .stopped⟩, none) := by
    unfold round attempt
    simp [st1, check, f1]
  have r2 : round (exFile n) e1 true ⟨1, false, fun _ => .step 1, 1⟩ ⟨1, true, some ⟨⟨0, some n, none⟩, n, k⟩, false⟩ =
      (⟨1, false, some ⟨⟨0, some n, none⟩, n, k + (n - k)⟩, true⟩, some ⟨⟨0, some n, none⟩, k, n - k, .finished⟩, some .finish) := by
    unfold round attempt reload bound
    have hb : (exFile n 1).text.broken = some false := rfl
    simp [st2, hb]
  unfold exRounds
  rw [loop, r1]
  dsimp only
  rw [loop, r2]
  rfl

/-- the hypotheses of `reload_partial` are met by a script that is changed once, during step 2, and then finished -/
def exGood : Nat → File := fun m => if m = 0 then ⟨⟨0, some 5, none⟩, 0⟩ else ⟨⟨1, some 3, none⟩, 1⟩

example : Disk exGood ∧ InOrder 0 (exRounds 2) ∧ Sound exGood (exRounds 2) ∧ ∃ s, start exGood 0 0 = some s ∧
    (loop exGood false true (exRounds 2) s).2 = ([⟨⟨0, some 5, none⟩, 0, 2, .stopped⟩, ⟨⟨1, some 3, none⟩, 0, 3, .finished⟩], some .finish) := by
  refine ⟨⟨fun a b hab => ?_, fun a b hab h => ?_⟩, exRounds_order 2, fun o ho => ?_, _, rfl, ?_⟩
  · unfold exGood; split <;> split <;> simp_all
  · unfold exGood at *; split at h <;> split at h <;> simp_all
  · simp only [exRounds, List.mem_cons, List.not_mem_nil, or_false] at ho
    rcases ho with rfl | rfl <;> decide
  · decide +kernel

end Verif.Reload
