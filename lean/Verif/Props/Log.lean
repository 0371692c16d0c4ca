import Verif.Proofs.Log
import Verif.Props.Stat
/-!
# C112 — log files, timer files and the statistics made of them

A simulation made with `log_file=f` and `enable_timer=True` on every rank has the lines its ranks log in `f`, the lines of its timers
in the timer file of `f`, and `lambdapic timer-stat f` adds the latter up.
-/
namespace Verif.Log

variable {level : Nat} {shown : ℚ → ℚ}

/-- specification: the lines of a history that belong into the log file — texts of the set level or above, in order -/
def mainLines (level : Nat) (h : List (Nat × Event)) : List Line :=
  h.filterMap fun e => match e.2 with
    | .log l s => if level ≤ l ∧ l ≠ timer then some ⟨e.1, l, .text s⟩ else none
    | _ => none

/-- specification: the lines of a history that belong into the timer file — timers above 0.1 ms, and texts logged as `TIMER` -/
def timerLines (shown : ℚ → ℚ) (h : List (Nat × Event)) : List Line :=
  h.filterMap fun e => match e.2 with
    | .log l s => if l = timer then some ⟨e.1, l, .text s⟩ else none
    | .timed n t => if 1 / 10 < t then some ⟨e.1, timer, body shown n t⟩ else none
    | .make _ => none

/-- specification: the lines rank `r` shows on its console -/
def consoleLines (r : Nat) (h : List (Nat × Event)) : List Line :=
  h.filterMap fun e => match e.2 with
    | .log l s => if e.1 = r ∧ info ≤ l ∧ l ≠ timer then some ⟨e.1, l, .text s⟩ else none
    | _ => none

/-- specification: name and time of the timers a statistics can count -/
def counted (h : List (Nat × Event)) : List (String × ℚ) :=
  h.filterMap fun e => match e.2 with
    | .timed n t => if 1 / 10 < t ∧ '|' ∉ n.toList ∧ n ≠ "" then some (n, t) else none
    | _ => none

/-- no simulation is made in a history -/
def NoMake (h : List (Nat × Event)) : Prop := ∀ e ∈ h, ∀ c, e.2 ≠ .make c

/-- every simulation made in a history has the same configuration -/
def OnlyMake (c : Conf) (h : List (Nat × Event)) : Prop := ∀ e ∈ h, ∀ c', e.2 = .make c' → c' = c

/-- the ranks that have made their simulation are set up for it, and the files are there -/
structure Ready (level : Nat) (f : String) (cut : Bool) (A : Nat → Prop) (w : World) : Prop where
  sinks : ∀ r, A r → w.sinks r = sinksOf level ⟨some f, cut, true⟩
  timers : ∀ r, A r → w.timers r = true
  main : (∃ r, A r) → ∃ c, w.files f = some c
  timer : (∃ r, A r) → ∃ c, w.files (timerPath f) = some c

theorem step_exists (w : World) (e : Nat × Event) (h : ∀ c, e.2 ≠ .make c) (q : String) {c : List Line} (hq : w.files q = some c) :
    ∃ x, (step level shown w e).files q = some (c ++ x) := by
  obtain ⟨r, ev⟩ := e
  cases ev with
  | make c => exact absurd rfl (h c)
  | log l s => exact ⟨_, by show (w.log _).files q = _; rw [log_file, hq]; rfl⟩
  | timed n t =>
    unfold step
    dsimp only
    split
    · exact ⟨_, by rw [log_file, hq]; rfl⟩
    · exact ⟨[], by rw [hq, List.append_nil]⟩

theorem Ready.step {f : String} {cut : Bool} {A : Nat → Prop} {w : World} (hw : Ready level f cut A w) (e : Nat × Event)
    (he : ∀ c', e.2 = .make c' → c' = ⟨some f, cut, true⟩) :
    Ready level f cut (fun r => A r ∨ (r, Event.make ⟨some f, cut, true⟩) = e) (step level shown w e) := by
  obtain ⟨r, ev⟩ := e
  by_cases hm : ∃ c, ev = .make c
  · obtain ⟨c, rfl⟩ := hm
    obtain rfl := he c rfl
    have hs : ∀ s, (w.configure level r ⟨some f, cut, true⟩).sinks s =
        if s = r then sinksOf level ⟨some f, cut, true⟩ else w.sinks s := fun _ => rfl
    have ht : ∀ s, (w.configure level r ⟨some f, cut, true⟩).timers s = if s = r then true else w.timers s := fun _ => rfl
    refine ⟨?_, ?_, ?_, ?_⟩
    · intro s h
      refine (hs s).trans ?_
      by_cases e : s = r
      · exact if_pos e
      · refine (if_neg e).trans (hw.sinks s (h.resolve_right fun h => e ?_))
        exact (Prod.mk.inj h).1
    · intro s h
      refine (ht s).trans ?_
      by_cases e : s = r
      · exact if_pos e
      · refine (if_neg e).trans (hw.timers s (h.resolve_right fun h => e ?_))
        exact (Prod.mk.inj h).1
    · intro _
      exact ⟨_, (configure_file w r f cut f).trans (if_pos (Or.inl rfl))⟩
    · intro _
      exact ⟨_, (configure_file w r f cut (timerPath f)).trans (if_pos (Or.inr rfl))⟩
  · have hm' : ∀ c, ev ≠ .make c := fun c h => hm ⟨c, h⟩
    have hA : ∀ s, (A s ∨ (s, Event.make ⟨some f, cut, true⟩) = (r, ev)) → A s :=
      fun s h => h.resolve_right fun h => hm' _ (Prod.mk.inj h).2.symm
    obtain ⟨h1, h2⟩ := step_sinks (level := level) (shown := shown) w (r, ev) hm'
    refine ⟨?_, ?_, ?_, ?_⟩
    · intro s h; rw [h1]; exact hw.sinks s (hA s h)
    · intro s h; rw [h2]; exact hw.timers s (hA s h)
    · rintro ⟨s, h⟩
      obtain ⟨c, hc⟩ := hw.main ⟨s, hA s h⟩
      obtain ⟨x, hx⟩ := step_exists (level := level) (shown := shown) w (r, ev) hm' f hc
      exact ⟨_, hx⟩
    · rintro ⟨s, h⟩
      obtain ⟨c, hc⟩ := hw.timer ⟨s, hA s h⟩
      obtain ⟨x, hx⟩ := step_exists (level := level) (shown := shown) w (r, ev) hm' (timerPath f) hc
      exact ⟨_, hx⟩

theorem Ready.run {f : String} {cut : Bool} (h : List (Nat × Event)) (hm : OnlyMake ⟨some f, cut, true⟩ h) :
    ∀ {A : Nat → Prop} {w : World}, Ready level f cut A w →
      Ready level f cut (fun r => A r ∨ (r, Event.make ⟨some f, cut, true⟩) ∈ h) (run level shown w h) := by
  induction h with
  | nil =>
    intro A w hw
    exact ⟨fun r h => hw.sinks r (h.resolve_right (by simp)), fun r h => hw.timers r (h.resolve_right (by simp)),
      fun ⟨r, h⟩ => hw.main ⟨r, h.resolve_right (by simp)⟩, fun ⟨r, h⟩ => hw.timer ⟨r, h.resolve_right (by simp)⟩⟩
  | cons e h ih =>
    intro A w hw
    have key := ih (fun e' he' => hm e' (List.mem_cons_of_mem _ he'))
      (hw.step (shown := shown) e (hm e List.mem_cons_self))
    have hc : ∀ r, (A r ∨ (r, Event.make ⟨some f, cut, true⟩) ∈ e :: h) →
        (A r ∨ (r, Event.make ⟨some f, cut, true⟩) = e) ∨ (r, Event.make ⟨some f, cut, true⟩) ∈ h := by
      intro r hr
      rcases hr with hr | hr
      · exact Or.inl (Or.inl hr)
      · rcases List.mem_cons.mp hr with hr | hr
        · exact Or.inl (Or.inr hr)
        · exact Or.inr hr
    exact ⟨fun r h => key.sinks r (hc r h), fun r h => key.timers r (hc r h),
      fun ⟨r, h⟩ => key.main ⟨r, hc r h⟩, fun ⟨r, h⟩ => key.timer ⟨r, hc r h⟩⟩

/-- what one line does when the rank is set up -/
theorem log_ready {f : String} {cut : Bool} {A : Nat → Prop} {w : World} (hw : Ready level f cut A w) (l : Line) (hl : A l.rank) :
    (w.log l).files f = (w.files f).map (· ++ if level ≤ l.level ∧ l.level ≠ timer then [l] else []) ∧
      (w.log l).files (timerPath f) = (w.files (timerPath f)).map (· ++ if l.level = timer then [l] else []) ∧
      (∀ q, q ≠ f → q ≠ timerPath f → (w.log l).files q = w.files q) ∧
      ∀ r, (w.log l).console r = w.console r ++ if l.rank = r ∧ info ≤ l.level ∧ l.level ≠ timer then [l] else [] := by
  refine ⟨?_, ?_, ?_, ?_⟩
  · rw [log_file, hw.sinks _ hl, main_sinks]
  · rw [log_file, hw.sinks _ hl, timer_sinks]
  · intro q h1 h2
    rw [log_file, hw.sinks _ hl]
    have : ((sinksOf level ⟨some f, cut, true⟩).filter fun s => s.takes l.level).filter (fun s => s.place = .file q) = [] := by
      rw [List.filter_eq_nil_iff]
      intro s hs
      have := List.mem_of_mem_filter hs
      rw [sinksOf_both] at this
      simp only [List.mem_cons, List.not_mem_nil, or_false] at this
      rcases this with rfl | rfl | rfl
      · simpa using Ne.symm h1
      · simpa using Ne.symm h2
      · simp
    rw [this]
    cases w.files q <;> simp
  · intro r
    rw [log_console, hw.sinks _ hl, console_sinks]
    by_cases h : l.rank = r
    · simp [h]
    · simp [h]

theorem step_ready {f : String} {cut : Bool} {A : Nat → Prop} {w : World} (hw : Ready level f cut A w) (e : Nat × Event) (hl : A e.1)
    (hm : ∀ c, e.2 ≠ .make c) :
    (step level shown w e).files f = (w.files f).map (· ++ mainLines level [e]) ∧
      (step level shown w e).files (timerPath f) = (w.files (timerPath f)).map (· ++ timerLines shown [e]) ∧
      (∀ q, q ≠ f → q ≠ timerPath f → (step level shown w e).files q = w.files q) ∧
      ∀ r, (step level shown w e).console r = w.console r ++ consoleLines r [e] := by
  obtain ⟨r, ev⟩ := e
  cases ev with
  | make c => exact absurd rfl (hm c)
  | log l s =>
    obtain ⟨h1, h2, h3, h4⟩ := log_ready hw ⟨r, l, .text s⟩ hl
    refine ⟨?_, ?_, h3, fun r' => ?_⟩
    · refine h1.trans ?_
      by_cases h : level ≤ l ∧ l ≠ timer
      · simp [mainLines, h]
      · simp only [mainLines, List.filterMap_cons, if_neg h, List.filterMap_nil]
    · refine h2.trans ?_
      by_cases h : l = timer
      · simp [timerLines, h]
      · simp only [timerLines, List.filterMap_cons, if_neg h, List.filterMap_nil]
    · refine (h4 r').trans ?_
      by_cases h : r = r' ∧ info ≤ l ∧ l ≠ timer
      · simp only [consoleLines, List.filterMap_cons, if_pos h, List.filterMap_nil]
      · simp only [consoleLines, List.filterMap_cons, if_neg h, List.filterMap_nil]
  | timed n t =>
    have hs : step level shown w (r, .timed n t) = if 1 / 10 < t then w.log ⟨r, timer, body shown n t⟩ else w := by
      unfold step
      dsimp only
      rw [hw.timers r hl]
      simp
    by_cases ht : 1 / 10 < t
    · rw [hs, if_pos ht]
      obtain ⟨h1, h2, h3, h4⟩ := log_ready hw ⟨r, timer, body shown n t⟩ hl
      refine ⟨?_, ?_, h3, fun r' => ?_⟩
      · refine h1.trans ?_
        simp [mainLines]
      · refine h2.trans ?_
        simp only [timerLines, List.filterMap_cons, if_pos ht, List.filterMap_nil, if_true]
      · refine (h4 r').trans ?_
        simp [consoleLines]
    · rw [hs, if_neg ht]
      refine ⟨?_, ?_, fun _ _ _ => rfl, fun r' => ?_⟩
      · simp [mainLines]
      · simp only [timerLines, List.filterMap_cons, if_neg ht, List.filterMap_nil, List.append_nil]
        cases w.files (timerPath f) <;> rfl
      · simp [consoleLines]

theorem run_ready {f : String} {cut : Bool} {A : Nat → Prop} (h : List (Nat × Event)) (hA : ∀ e ∈ h, A e.1) (hm : NoMake h) :
    ∀ {w : World}, Ready level f cut A w →
    (run level shown w h).files f = (w.files f).map (· ++ mainLines level h) ∧
      (run level shown w h).files (timerPath f) = (w.files (timerPath f)).map (· ++ timerLines shown h) ∧
      (∀ q, q ≠ f → q ≠ timerPath f → (run level shown w h).files q = w.files q) ∧
      ∀ r, (run level shown w h).console r = w.console r ++ consoleLines r h := by
  induction h with
  | nil =>
    intro w hw
    refine ⟨?_, ?_, fun _ _ _ => rfl, fun r => (List.append_nil _).symm⟩
    · show w.files f = _
      cases w.files f <;> simp [mainLines]
    · show w.files (timerPath f) = _
      cases w.files (timerPath f) <;> simp [timerLines]
  | cons e h ih =>
    intro w hw
    have he := hm e List.mem_cons_self
    have hr : Ready level f cut A (step level shown w e) := by
      have := hw.step (shown := shown) e (fun c' h' => absurd h' (he c'))
      exact ⟨fun r h => this.sinks r (Or.inl h), fun r h => this.timers r (Or.inl h), fun ⟨r, h⟩ => this.main ⟨r, Or.inl h⟩,
        fun ⟨r, h⟩ => this.timer ⟨r, Or.inl h⟩⟩
    obtain ⟨a1, a2, a3, a4⟩ := step_ready (shown := shown) hw e (hA e List.mem_cons_self) he
    obtain ⟨b1, b2, b3, b4⟩ := ih (fun e' h' => hA e' (List.mem_cons_of_mem _ h'))
      (fun e' h' => hm e' (List.mem_cons_of_mem _ h')) hr
    have s1 : mainLines level (e :: h) = mainLines level [e] ++ mainLines level h := by
      unfold mainLines; rw [← List.filterMap_append]; rfl
    have s2 : timerLines shown (e :: h) = timerLines shown [e] ++ timerLines shown h := by
      unfold timerLines; rw [← List.filterMap_append]; rfl
    have s3 : ∀ r, consoleLines r (e :: h) = consoleLines r [e] ++ consoleLines r h := by
      intro r; unfold consoleLines; rw [← List.filterMap_append]; rfl
    refine ⟨b1.trans ?_, b2.trans ?_, fun q h1 h2 => (b3 q h1 h2).trans (a3 q h1 h2), fun r => (b4 r).trans ?_⟩
    · rw [a1, s1]; cases w.files f <;> simp
    · rw [a2, s2]; cases w.files (timerPath f) <;> simp
    · rw [a4, s3, List.append_assoc]

/-- **C112 (files).** Ranks `0 … n - 1` make simulations with log file `f` and timers, in a history `h₁` in which anything else may
happen; in the history `h₂` that follows they log and time in any interleaving. Then `f` and the timer file of `f`, which is another
file, end with exactly the lines that belong there, every line once and in the order in which they were logged; no other file changes;
every rank shows its own lines from `INFO` on.
Partial: lines logged before the last rank has made its simulation may be lost (`late_rank_fails`), times up to 0.1 ms are left out
(`short_fails`), and a further simulation in the same process takes the lines away (`second_fails`). -/
theorem lines_partial {f : String} {cut : Bool} {n : Nat} (hn : 0 < n) (w : World) (h₁ h₂ : List (Nat × Event))
    (hsame : OnlyMake ⟨some f, cut, true⟩ h₁) (hall : ∀ r < n, (r, Event.make ⟨some f, cut, true⟩) ∈ h₁)
    (hmake : NoMake h₂) (hranks : ∀ e ∈ h₂, e.1 < n) :
    timerPath f ≠ f ∧
    ∃ a b, (run level shown w h₁).files f = some a ∧ (run level shown w h₁).files (timerPath f) = some b ∧
      (run level shown w (h₁ ++ h₂)).files f = some (a ++ mainLines level h₂) ∧
      (run level shown w (h₁ ++ h₂)).files (timerPath f) = some (b ++ timerLines shown h₂) ∧
      (∀ q, q ≠ f → q ≠ timerPath f → (run level shown w (h₁ ++ h₂)).files q = (run level shown w h₁).files q) ∧
      ∀ r, (run level shown w (h₁ ++ h₂)).console r = (run level shown w h₁).console r ++ consoleLines r h₂ := by
  have h0 : Ready level f cut (fun _ => False) w := ⟨fun _ h => h.elim, fun _ h => h.elim, fun ⟨_, h⟩ => h.elim, fun ⟨_, h⟩ => h.elim⟩
  have h1 := h0.run (shown := shown) h₁ hsame
  have h2 : Ready level f cut (· < n) (run level shown w h₁) :=
    ⟨fun r h => h1.sinks r (Or.inr (hall r h)), fun r h => h1.timers r (Or.inr (hall r h)),
      fun ⟨r, h⟩ => h1.main ⟨r, Or.inr (hall r h)⟩, fun ⟨r, h⟩ => h1.timer ⟨r, Or.inr (hall r h)⟩⟩
  obtain ⟨a, ha⟩ := h2.main ⟨0, hn⟩
  obtain ⟨b, hb⟩ := h2.timer ⟨0, hn⟩
  obtain ⟨c1, c2, c3, c4⟩ := run_ready (shown := shown) h₂ hranks hmake h2
  refine ⟨timerPath_ne f, a, b, ha, hb, ?_, ?_, ?_, ?_⟩
  · rw [run_append, c1, ha]; rfl
  · rw [run_append, c2, hb]; rfl
  · rw [run_append]; exact c3
  · rw [run_append]; exact c4

/-- **C112 (appending).** With `truncate_log=False` no line is ever removed from a file, whichever simulations are made with whichever
files, by whichever ranks. -/
theorem append_keeps (w : World) (h : List (Nat × Event)) (hcut : ∀ e ∈ h, ∀ c, e.2 = .make c → c.truncate = false)
    (q : String) (a : List Line) (ha : w.files q = some a) :
    ∃ b, (run level shown w h).files q = some (a ++ b) := by
  induction h generalizing w a with
  | nil => exact ⟨[], by rw [List.append_nil]; exact ha⟩
  | cons e h ih =>
    have hstep : ∃ x, (step level shown w e).files q = some (a ++ x) := by
      by_cases hm : ∃ c, e.2 = .make c
      · obtain ⟨c, hc⟩ := hm
        have hf := hcut e List.mem_cons_self c hc
        obtain ⟨r, ev⟩ := e
        dsimp only at hc
        subst hc
        obtain ⟨lf, tr, en⟩ := c
        dsimp only at hf
        subst hf
        have ho : ∀ (w : World) (p : String), w.files q = some a → (w.openFile p false).files q = some a := by
          intro w p hw
          rw [openFile_file]
          by_cases hq : q = p
          · subst hq
            rw [if_pos rfl, hw]
            rfl
          · rw [if_neg hq, hw]
        refine ⟨[], ?_⟩
        rw [List.append_nil]
        have hc : (step level shown w (r, .make ⟨lf, false, en⟩)).files = (w.configure level r ⟨lf, false, en⟩).files := rfl
        rw [hc]
        cases lf with
        | none => rw [configure_none]; exact ha
        | some f =>
          cases en with
          | false => rw [configure_main]; exact ho w f ha
          | true => rw [configure_both]; exact ho _ _ (ho w f ha)
      · exact step_exists w e (fun c h => hm ⟨c, h⟩) q ha
    obtain ⟨x, hx⟩ := hstep
    obtain ⟨b, hb⟩ := ih _ (fun e' h' => hcut e' (List.mem_cons_of_mem _ h')) _ hx
    exact ⟨x ++ b, by rw [← List.append_assoc]; exact hb⟩

/-- at first nothing is logged into files -/
def Blank (w : World) : Prop := ∀ r, ∀ s ∈ w.sinks r, s.place = .console

/-- the sinks of a rank are those of the simulation or write to the console only -/
def Mine (level : Nat) (c : Conf) (w : World) : Prop := ∀ r, (∀ s ∈ w.sinks r, s.place = .console) ∨ w.sinks r = sinksOf level c

theorem Mine.step {c : Conf} {w : World} (hw : Mine level c w) (e : Nat × Event) (he : ∀ c', e.2 = .make c' → c' = c) :
    Mine level c (step level shown w e) := by
  intro s
  by_cases hm : ∃ c', e.2 = .make c'
  · obtain ⟨c', hc⟩ := hm
    obtain rfl := he c' hc
    obtain ⟨r, ev⟩ := e
    dsimp only at hc
    subst hc
    have hs : (Log.step level shown w (r, .make c')).sinks s = if s = r then sinksOf level c' else w.sinks s := rfl
    rw [hs]
    by_cases h : s = r
    · exact Or.inr (if_pos h)
    · rw [if_neg h]; exact hw s
  · rw [(step_sinks w e fun c' h => hm ⟨c', h⟩).1]
    exact hw s

theorem quiet_step {f : String} {w : World} (hw : Mine level ⟨some f, true, true⟩ w) (e : Nat × Event)
    (he : ∀ c', e.2 = .make c' → c' = ⟨some f, true, true⟩) (ht : timerLines shown [e] = [])
    (h : w.files (timerPath f) = some [] ∨ ∃ r, (r, Event.make ⟨some f, true, true⟩) = e) :
    (step level shown w e).files (timerPath f) = some [] := by
  obtain ⟨r, ev⟩ := e
  cases ev with
  | make c =>
    obtain rfl := he c rfl
    refine (configure_file w r f true (timerPath f)).trans ((if_pos (Or.inr rfl)).trans ?_)
    cases w.files (timerPath f) <;> rfl
  | log l s =>
    have h := h.resolve_right (by rintro ⟨r', h'⟩; exact absurd (Prod.mk.inj h').2 (by simp))
    have hl : l ≠ timer := by
      rintro rfl
      simp [timerLines] at ht
    show (w.log _).files _ = _
    rw [log_file, h]
    rcases hw r with hc | hc
    · have : ((w.sinks r).filter fun s => s.takes l).filter (fun s => s.place = .file (timerPath f)) = [] := by
        rw [List.filter_eq_nil_iff]
        intro s hs
        rw [hc s (List.mem_of_mem_filter hs)]
        simp
      dsimp only
      rw [this]
      rfl
    · dsimp only
      rw [hc, timer_sinks, if_neg hl]
      rfl
  | timed n t =>
    have h := h.resolve_right (by rintro ⟨r', h'⟩; exact absurd (Prod.mk.inj h').2 (by simp))
    have hl : ¬ 1 / 10 < t := by
      intro h'
      simp only [timerLines, List.filterMap_cons, if_pos h'] at ht
      exact absurd ht (by simp)
    have : Log.step level shown w (r, .timed n t) = w := by
      unfold Log.step
      dsimp only
      rw [if_neg fun h' => hl h'.2]
    rw [this]
    exact h

theorem quiet_run {f : String} (h : List (Nat × Event)) (hm : OnlyMake ⟨some f, true, true⟩ h) (ht : timerLines shown h = []) :
    ∀ {w : World}, Mine level ⟨some f, true, true⟩ w →
      (w.files (timerPath f) = some [] ∨ ∃ r, (r, Event.make ⟨some f, true, true⟩) ∈ h) →
      (run level shown w h).files (timerPath f) = some [] := by
  induction h with
  | nil => intro w _ h; exact h.resolve_right (by simp)
  | cons e h ih =>
    intro w hw hf
    have s2 : timerLines shown (e :: h) = timerLines shown [e] ++ timerLines shown h := by
      unfold timerLines; rw [← List.filterMap_append]; rfl
    rw [s2, List.append_eq_nil_iff] at ht
    have he := hm e List.mem_cons_self
    refine ih (fun e' h' => hm e' (List.mem_cons_of_mem _ h')) ht.2 (hw.step e he) ?_
    rcases hf with hf | ⟨r, hr⟩
    · exact Or.inl (quiet_step hw e he ht.1 (Or.inl hf))
    · rcases List.mem_cons.mp hr with hr | hr
      · exact Or.inl (quiet_step hw e he ht.1 (Or.inr ⟨r, hr⟩))
      · exact Or.inr ⟨r, hr⟩

/-- what the statistics finds in the lines of a history -/
theorem entries_counted (h : List (Nat × Event)) :
    (timerLines shown h).filterMap entry = Stat.ofRecords ((counted h).map fun r => (r.1, shown r.2)) := by
  unfold Stat.ofRecords timerLines counted
  rw [List.map_map, List.filterMap_filterMap, List.map_filterMap]
  congr 1
  funext e
  obtain ⟨r, ev⟩ := e
  cases ev with
  | make c => rfl
  | log l s =>
    dsimp only
    by_cases h : l = timer
    · rw [if_pos h, Option.bind_some, entry]
      split <;> rfl
    · rw [if_neg h]; rfl
  | timed n t =>
    dsimp only
    by_cases h1 : 1 / 10 < t
    · rw [if_pos h1, Option.bind_some]
      unfold entry body
      dsimp only
      rw [if_pos rfl]
      by_cases h2 : n = ""
      · rw [if_pos h2, if_neg (fun h => h.2.2 h2)]; rfl
      · rw [if_neg h2]
        dsimp only
        by_cases h3 : '|' ∈ n.toList
        · rw [if_pos h3, if_neg (fun h => h.2.1 h3)]; rfl
        · rw [if_neg h3, if_pos ⟨h1, h3, h2⟩]; rfl
    · rw [if_neg h1, if_neg (fun h => h1 h.1)]; rfl

/-- the statistics of a job whose ranks time nothing before all have made their simulation -/
theorem stat_eq {f : String} {n : Nat} (hn : 0 < n) (w : World) (hw : Blank w) (h₁ h₂ : List (Nat × Event))
    (hsame : OnlyMake ⟨some f, true, true⟩ h₁) (hall : ∀ r < n, (r, Event.make ⟨some f, true, true⟩) ∈ h₁)
    (hquiet : timerLines shown h₁ = []) (hmake : NoMake h₂) (hranks : ∀ e ∈ h₂, e.1 < n) :
    stat (run level shown w (h₁ ++ h₂)) f = Stat.report (Stat.ofRecords ((counted h₂).map fun r => (r.1, shown r.2))) := by
  obtain ⟨_, a, b, _, hb, _, h2, _⟩ := lines_partial (level := level) (shown := shown) hn w h₁ h₂ hsame hall hmake hranks
  have hq := quiet_run (level := level) h₁ hsame hquiet (w := w) (fun r => Or.inl (hw r)) (Or.inr ⟨0, hall 0 hn⟩)
  obtain rfl : b = [] := by
    have := hb.symm.trans hq
    exact Option.some.inj this
  unfold stat
  rw [h2]
  dsimp only
  rw [List.nil_append, entries_counted]

theorem sum_shown (hs : ∀ t, |shown t - t| ≤ 1 / 20) (l : List (String × ℚ)) :
    |(l.map fun r => shown r.2).sum - (l.map (·.2)).sum| ≤ l.length / 20 := by
  induction l with
  | nil => simp
  | cons r l ih =>
    rw [List.map_cons, List.map_cons, List.sum_cons, List.sum_cons, List.length_cons]
    have h1 := abs_le.mp (hs r.2)
    have h2 := abs_le.mp ih
    push_cast
    exact abs_le.mpr ⟨by linarith [h1.1, h2.1], by linarith [h1.2, h2.2]⟩

/-- **C112 (statistics).** If the files are cut (`truncate_log=True`) and no rank times anything before all have made their
simulation, `lambdapic timer-stat f` afterwards has one line for every name timed, percentages that are the shares of the names, the
mean of the times of a name as its average, and as total the sum of the times as they are shown, which differs from the sum of the times
by at most 0.05 ms per timer. This is about the timers above 0.1 ms whose names have no `|`.
Partial: the others are missing (`short_fails`, `bar_fails`), the statistics may be that of an older run (`stale_fails`), and the number
of timer events is wrong (`events_fails`). -/
theorem stat_partial {f : String} {n : Nat} (hn : 0 < n) (w : World) (hw : Blank w) (h₁ h₂ : List (Nat × Event))
    (hsame : OnlyMake ⟨some f, true, true⟩ h₁) (hall : ∀ r < n, (r, Event.make ⟨some f, true, true⟩) ∈ h₁)
    (hquiet : timerLines shown h₁ = []) (hmake : NoMake h₂) (hranks : ∀ e ∈ h₂, e.1 < n)
    (hs : ∀ t, |shown t - t| ≤ 1 / 20) :
    ∃ lines total, stat (run level shown w (h₁ ++ h₂)) f = some (lines, total) ∧
      |total - ((counted h₂).map (·.2)).sum| ≤ (counted h₂).length / 20 ∧
      (lines.map (·.category)).Nodup ∧ (∀ c, c ∈ lines.map (·.category) ↔ c ∈ (counted h₂).map (·.1)) ∧
      (∀ l ∈ lines,
        |l.percentage * total / 100 - (((counted h₂).filter fun r => r.1 = l.category).map (·.2)).sum| ≤
          ((counted h₂).filter fun r => r.1 = l.category).length / 20 ∧
        |l.average * ((counted h₂).filter fun r => r.1 = l.category).length -
            (((counted h₂).filter fun r => r.1 = l.category).map (·.2)).sum| ≤
          ((counted h₂).filter fun r => r.1 = l.category).length / 20) ∧
      (0 < total → (lines.map (·.percentage)).sum = 100) := by
  have hpos : ∀ r ∈ (counted h₂).map fun r => (r.1, shown r.2), 0 ≤ r.2 := by
    intro r hr
    obtain ⟨q, hq, rfl⟩ := List.mem_map.mp hr
    obtain ⟨e, _, he⟩ := List.mem_filterMap.mp hq
    have : 1 / 10 < q.2 := by
      obtain ⟨r, ev⟩ := e
      cases ev with
      | make c => simp at he
      | log l s => simp at he
      | timed n t =>
        dsimp only at he
        split at he
        · rename_i h
          rw [← Option.some.inj he]
          exact h.1
        · simp at he
    have h1 := (abs_le.mp (hs q.2)).1
    dsimp only
    linarith
  obtain ⟨lines, total, h1, h2, h3, h4, h5, h6, _⟩ := Stat.report_adds_up _ hpos
  have hof : ∀ c, Stat.timesOf ((counted h₂).map fun r => (r.1, shown r.2)) c =
      ((counted h₂).filter fun r => r.1 = c).map fun r => shown r.2 := by
    intro c
    unfold Stat.timesOf
    rw [List.filter_map, List.map_map]
    rfl
  refine ⟨lines, total, (stat_eq hn w hw h₁ h₂ hsame hall hquiet hmake hranks).trans h1, ?_, h3, ?_, ?_, h6⟩
  · rw [h2, List.map_map]
    exact sum_shown hs _
  · intro c
    rw [h4 c, List.map_map]
    rfl
  · intro l hl
    obtain ⟨_, g2, g3⟩ := h5 l hl
    rw [hof] at g2 g3
    have b := sum_shown hs ((counted h₂).filter fun r => r.1 = l.category)
    constructor
    · rw [g2]
      have : (100 : ℚ) * (((counted h₂).filter fun r => r.1 = l.category).map fun r => shown r.2).sum / 100 =
          (((counted h₂).filter fun r => r.1 = l.category).map fun r => shown r.2).sum := by ring
      rw [this]
      exact b
    · rw [List.length_map] at g3
      rw [g3]
      exact b

/-! ## What does not hold -/

/-- the statistics of a rank that makes its simulation and then logs and times -/
theorem stat_one (f : String) (w : World) (hw : Blank w) (h : List (Nat × Event)) (hmake : NoMake h) (hranks : ∀ e ∈ h, e.1 = 0) :
    stat (run level shown w ((0, .make ⟨some f, true, true⟩) :: h)) f =
      Stat.report (Stat.ofRecords ((counted h).map fun r => (r.1, shown r.2))) :=
  stat_eq (n := 1) Nat.one_pos w hw [(0, .make ⟨some f, true, true⟩)] h
    (by intro e he c hc; rw [List.mem_singleton.mp he] at hc; exact (Event.make.inj hc).symm)
    (by intro r hr; obtain rfl : r = 0 := by omega
        exact List.mem_singleton.mpr rfl) rfl hmake
    (by intro e he; rw [hranks e he]; exact Nat.one_pos)

/-- **C112 fails for short times:** however often something of 0.1 ms is timed, the statistics has neither a line nor any time for
it. -/
theorem short_fails (f : String) (w : World) (hw : Blank w) (name : String) (k : Nat) :
    stat (run level shown w ((0, .make ⟨some f, true, true⟩) :: List.replicate k (0, .timed name (1 / 10)))) f = some ([], 0) := by
  rw [stat_one f w hw]
  · have : counted (List.replicate k (0, Event.timed name (1 / 10))) = [] := by
      unfold counted
      rw [List.filterMap_eq_nil_iff]
      intro e he
      rw [List.eq_of_mem_replicate he]
      dsimp only
      rw [if_neg (by simp)]
    rw [this]
    rfl
  · intro e he c
    rw [List.eq_of_mem_replicate he]
    simp
  · intro e he
    rw [List.eq_of_mem_replicate he]

/-- **C112 fails for names with a bar:** the statistics leaves a timer of 5 ms out although it is in the file. -/
theorem bar_fails (f : String) (w : World) (hw : Blank w) :
    (run level id w ((0, .make ⟨some f, true, true⟩) :: [(0, .timed "push e|p" 5)])).files (timerPath f) =
        some [⟨0, timer, .took "push e|p" 5⟩] ∧
      stat (run level id w ((0, .make ⟨some f, true, true⟩) :: [(0, .timed "push e|p" 5)])) f = some ([], 0) := by
  have hm : NoMake [(0, Event.timed "push e|p" 5)] := by
    intro e he c; rw [List.mem_singleton.mp he]; simp
  have hr : ∀ e ∈ [((0 : Nat), Event.timed "push e|p" 5)], e.1 = 0 := by
    intro e he; rw [List.mem_singleton.mp he]
  constructor
  · have hsame : OnlyMake ⟨some f, true, true⟩ [(0, .make ⟨some f, true, true⟩)] := by
      intro e he c hc; rw [List.mem_singleton.mp he] at hc; exact (Event.make.inj hc).symm
    have hall : ∀ r < 1, (r, Event.make ⟨some f, true, true⟩) ∈ [((0 : Nat), Event.make ⟨some f, true, true⟩)] := by
      intro r hr; obtain rfl : r = 0 := by omega
      exact List.mem_singleton.mpr rfl
    obtain ⟨_, a, b, _, hb, _, h2, _⟩ := lines_partial (level := level) (shown := id) (n := 1) Nat.one_pos w
      [(0, .make ⟨some f, true, true⟩)] [(0, .timed "push e|p" 5)] hsame hall hm (by intro e he; rw [hr e he]; exact Nat.one_pos)
    have hq := quiet_run (level := level) (shown := id) [(0, .make ⟨some f, true, true⟩)] hsame rfl (w := w)
      (fun r => Or.inl (hw r)) (Or.inr ⟨0, List.mem_singleton.mpr rfl⟩)
    obtain rfl : b = [] := Option.some.inj (hb.symm.trans hq)
    refine h2.trans ?_
    decide +kernel
  · rw [stat_one f w hw _ hm hr]
    have : counted [(0, Event.timed "push e|p" 5)] = [] := by decide +kernel
    rw [this]
    rfl

/-- **C112 fails for the number of events:** two timers of the same name are shown as one timer event. -/
theorem events_fails (f : String) (w : World) (hw : Blank w) :
    statEvents (run level id w ((0, .make ⟨some f, true, true⟩) :: [(0, .timed "push" 5), (0, .timed "push" 7)])) f = some 1 := by
  unfold statEvents
  rw [stat_one f w hw]
  · have : counted [(0, Event.timed "push" 5), (0, Event.timed "push" 7)] = [("push", 5), ("push", 7)] := by decide +kernel
    rw [this]
    decide +kernel
  · intro e he c
    simp only [List.mem_cons, List.not_mem_nil, or_false] at he
    rcases he with rfl | rfl <;> simp
  · intro e he
    simp only [List.mem_cons, List.not_mem_nil, or_false] at he
    rcases he with rfl | rfl <;> rfl

/-- **C112 fails for a run without timers after one with timers:** `timer-stat f` shows the times of the older run. -/
theorem stale_fails (f : String) (w : World) (h : List (Nat × Event)) :
    stat (run level shown w (h ++ [(0, .make ⟨some f, true, false⟩)])) f = match (run level shown w h).files (timerPath f) with
      | some ls => Stat.report (ls.filterMap entry)
      | none => some ([], 0) := by
  rw [run_append]
  generalize run level shown w h = w'
  have hf : ∀ q, (run level shown w' [(0, .make ⟨some f, true, false⟩)]).files q = (w'.openFile f true).files q := by
    intro q
    show (w'.configure level 0 ⟨some f, true, false⟩).files q = _
    rw [configure_main]
  unfold stat
  rw [hf, hf, openFile_file, openFile_file, if_neg (timerPath_ne f), if_pos rfl]
  cases w'.files (timerPath f) with
  | some ls => rfl
  | none =>
    dsimp only
    cases w'.files f <;> rfl

/-- **C112 fails for lines logged before the last rank has made its simulation:** that rank removes them. -/
theorem late_rank_fails (f : String) (w : World) (h : List (Nat × Event)) (r : Nat) :
    (run level shown w (h ++ [(r, .make ⟨some f, true, true⟩)])).files f = some [] := by
  rw [run_append]
  refine (configure_file _ r f true f).trans ((if_pos (Or.inl rfl)).trans ?_)
  cases (run level shown w h).files f <;> rfl

/-- **C112 fails for two simulations in one process:** after the second is made nothing is logged into the file of the first. -/
theorem second_fails (f g : String) (h1 : f ≠ g) (h2 : f ≠ timerPath g) (w : World) (h : List (Nat × Event)) (hmake : NoMake h)
    (hranks : ∀ e ∈ h, e.1 = 0) :
    (run level shown w ([(0, .make ⟨some f, true, true⟩), (0, .make ⟨some g, true, true⟩)] ++ h)).files f = some [] := by
  have e1 : (run level shown w [(0, .make ⟨some f, true, true⟩)]).files f = some [] :=
    late_rank_fails f w [] 0
  have e2 : run level shown w ([(0, .make ⟨some f, true, true⟩), (0, .make ⟨some g, true, true⟩)] ++ h) =
      run level shown (run level shown (run level shown w [(0, .make ⟨some f, true, true⟩)]) [(0, .make ⟨some g, true, true⟩)]) h := by
    rw [← run_append, ← run_append]
    rfl
  rw [e2]
  generalize run level shown w [(0, .make ⟨some f, true, true⟩)] = w1 at e1
  have h0 : Ready level g true (fun _ => False) w1 :=
    ⟨fun _ h => h.elim, fun _ h => h.elim, fun ⟨_, h⟩ => h.elim, fun ⟨_, h⟩ => h.elim⟩
  have hr := h0.run (shown := shown) [(0, .make ⟨some g, true, true⟩)]
    (by intro e he c hc; rw [List.mem_singleton.mp he] at hc; exact (Event.make.inj hc).symm)
  have e3 : (run level shown w1 [(0, .make ⟨some g, true, true⟩)]).files f = some [] := by
    show (w1.configure level 0 ⟨some g, true, true⟩).files f = some []
    rw [configure_file, if_neg (fun h => h.elim h1 h2), e1]
  generalize run level shown w1 [(0, .make ⟨some g, true, true⟩)] = w2 at hr e3
  have hA : ∀ e ∈ h, False ∨ (e.1, Event.make ⟨some g, true, true⟩) ∈ [((0 : Nat), Event.make ⟨some g, true, true⟩)] := by
    intro e he
    rw [hranks e he]
    exact Or.inr (List.mem_singleton.mpr rfl)
  exact ((run_ready (shown := shown) h hA hmake hr).2.2.1 f h1 h2).trans e3

/-! ## A case -/

def exWorld : World := ⟨fun q => if q = "old.txt" then some [] else none, fun _ => [], fun _ => [⟨.console, debug, false⟩], fun _ => false⟩
def exMake : Event := .make ⟨some "run/log.txt", true, true⟩
def exFirst : List (Nat × Event) := [(1, exMake), (1, .log info "created"), (0, exMake)]
def exThen : List (Nat × Event) :=
  [(0, .log info "start"), (1, .timed "push" 5), (0, .timed "push" (7 / 2)), (1, .log debug "detail"), (0, .timed "sync" (1 / 20)),
    (1, .log warning "late")]

/-- the hypotheses of `lines_partial` and `stat_partial` are met by two ranks of which each logs and times -/
example : Blank exWorld ∧ OnlyMake ⟨some "run/log.txt", true, true⟩ exFirst ∧
    (∀ r < 2, (r, Event.make ⟨some "run/log.txt", true, true⟩) ∈ exFirst) ∧ timerLines id exFirst = [] ∧
    NoMake exThen ∧ (∀ e ∈ exThen, e.1 < 2) ∧ (∀ t : ℚ, |id t - t| ≤ 1 / 20) := by
  refine ⟨?_, ?_, ?_, ?_, ?_, ?_, ?_⟩
  · intro r s hs
    obtain rfl : s = ⟨.console, debug, false⟩ := List.mem_singleton.mp hs
    rfl
  · intro e he c hc
    simp only [exFirst, exMake, List.mem_cons, List.not_mem_nil, or_false] at he
    rcases he with rfl | rfl | rfl
    · exact (Event.make.inj hc).symm
    · exact absurd hc (by simp)
    · exact (Event.make.inj hc).symm
  · intro r hr
    obtain rfl | rfl : r = 0 ∨ r = 1 := by omega
    · simp [exFirst, exMake]
    · simp [exFirst, exMake]
  · decide +kernel
  · intro e he c
    simp only [exThen, List.mem_cons, List.not_mem_nil, or_false] at he
    rcases he with rfl | rfl | rfl | rfl | rfl | rfl <;> simp
  · decide +kernel
  · intro t
    simp

/-- and this is what comes out -/
example : timerPath "run/log.txt" = "run/log.timer.txt" ∧
    (run info id exWorld (exFirst ++ exThen)).files "run/log.txt" =
      some [⟨0, info, .text "start"⟩, ⟨1, warning, .text "late"⟩] ∧
    (run info id exWorld (exFirst ++ exThen)).files "run/log.timer.txt" =
      some [⟨1, timer, .took "push" 5⟩, ⟨0, timer, .took "push" (7 / 2)⟩] ∧
    (run info id exWorld (exFirst ++ exThen)).console 1 = [⟨1, info, .text "created"⟩, ⟨1, warning, .text "late"⟩] ∧
    counted exThen = [("push", 5), ("push", 7 / 2)] := by
  decide +kernel

/-- the timer file of a name without a suffix, of a hidden file, of a name that ends with a dot -/
example : timerPath "log" = "log.timer" ∧ timerPath ".log" = ".log.timer" ∧ timerPath "a.b/log" = "a.b/log.timer" ∧
    timerPath "log." = "log..timer" := by decide +kernel

end Verif.Log
