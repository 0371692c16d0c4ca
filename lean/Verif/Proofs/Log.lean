import Verif.Model.Log
import Mathlib.Tactic.Ring
import Mathlib.Tactic.Linarith
/-! # Lemmas about log files and timers -/
namespace Verif.Log

variable {level : Nat} {shown : ℚ → ℚ}

theorem splitName_append (n : List Char) : (splitName n).1 ++ (splitName n).2 = n := by
  unfold splitName
  dsimp only
  split
  · rename_i h
    obtain ⟨h1, h2, h3⟩ := h
    dsimp only
    have e : n.reverse = n.reverse.takeWhile (· ≠ '.') ++ n.reverse.dropWhile (· ≠ '.') := (List.takeWhile_append_dropWhile).symm
    obtain ⟨r, hr⟩ : ∃ r, n.reverse.dropWhile (· ≠ '.') = '.' :: r := by
      cases hd : n.reverse.dropWhile (· ≠ '.') with
      | nil =>
        exfalso
        rw [hd, List.append_nil] at e
        rw [← e] at h1
        simp at h1
      | cons a r =>
        have := List.head?_dropWhile_not (· ≠ '.') n.reverse
        rw [hd] at this
        simp at this
        exact ⟨r, by rw [this]⟩
    rw [hr] at e
    have e2 : n = r.reverse ++ '.' :: (n.reverse.takeWhile (· ≠ '.')).reverse := by
      have := congrArg List.reverse e
      rw [List.reverse_reverse, List.reverse_append] at this
      exact this.trans (by rw [List.reverse_cons, List.append_assoc]; rfl)
    have hl : n.length - (n.reverse.takeWhile (· ≠ '.')).reverse.length - 1 = r.reverse.length := by
      have := congrArg List.length e2
      rw [List.length_append, List.length_cons] at this
      omega
    rw [hl]
    conv_lhs => enter [1, 2]; rw [e2]
    rw [List.take_left]
    exact e2.symm
  · exact List.append_nil n

theorem splitPath_append (p : List Char) : (splitPath p).1 ++ (splitPath p).2 = p := by
  unfold splitPath
  dsimp only
  have e : p = (p.reverse.dropWhile (· ≠ '/')).reverse ++ (p.reverse.takeWhile (· ≠ '/')).reverse := by
    rw [← List.reverse_append, List.takeWhile_append_dropWhile, List.reverse_reverse]
  have hl : p.length - (p.reverse.takeWhile (· ≠ '/')).reverse.length = (p.reverse.dropWhile (· ≠ '/')).reverse.length := by
    have := congrArg List.length e
    rw [List.length_append] at this
    omega
  rw [hl]
  conv_lhs => enter [1, 2]; rw [e]
  rw [List.take_left]
  exact e.symm

theorem timerPath_length (p : String) : (timerPath p).toList.length = p.toList.length + 6 := by
  have h1 := congrArg List.length (splitPath_append p.toList)
  have h2 := congrArg List.length (splitName_append (splitPath p.toList).2)
  rw [List.length_append] at h1 h2
  unfold timerPath
  dsimp only
  rw [String.toList_ofList]
  simp only [List.length_append]
  have : ".timer".toList.length = 6 := by decide
  omega

theorem timerPath_ne (p : String) : timerPath p ≠ p := by
  intro h
  have := timerPath_length p
  rw [h] at this
  omega

theorem write_sinks (w : World) (p : Place) (l : Line) : (w.write p l).sinks = w.sinks ∧ (w.write p l).timers = w.timers := by
  cases p with
  | console => exact ⟨rfl, rfl⟩
  | file q =>
    unfold World.write
    dsimp only
    cases w.files q <;> exact ⟨rfl, rfl⟩

theorem foldl_sinks (l : Line) (ss : List Sink) (w : World) :
    (ss.foldl (fun w s => w.write s.place l) w).sinks = w.sinks ∧
      (ss.foldl (fun w s => w.write s.place l) w).timers = w.timers := by
  induction ss generalizing w with
  | nil => exact ⟨rfl, rfl⟩
  | cons s ss ih =>
    rw [List.foldl_cons, (ih _).1, (ih _).2]
    exact write_sinks w s.place l

theorem log_sinks (w : World) (l : Line) : (w.log l).sinks = w.sinks ∧ (w.log l).timers = w.timers := foldl_sinks l _ w

theorem write_file (w : World) (p : Place) (l : Line) (q : String) :
    (w.write p l).files q = if p = .file q then (w.files q).map (· ++ [l]) else w.files q := by
  cases p with
  | console => simp [World.write]
  | file q' =>
    unfold World.write
    dsimp only
    by_cases h : q' = q
    · subst h
      rw [if_pos rfl]
      cases hq : w.files q' with
      | none => dsimp only; rw [hq]; rfl
      | some c => simp [World.setFile]
    · rw [if_neg (by simpa using h)]
      cases hq : w.files q' with
      | none => rfl
      | some c => simp [World.setFile, Ne.symm h]

/-- a file gets a copy of the line for every sink that takes it and writes there -/
theorem foldl_file (l : Line) (ss : List Sink) (w : World) (q : String) :
    (ss.foldl (fun w s => w.write s.place l) w).files q =
      (w.files q).map (· ++ (ss.filter fun s => s.place = .file q).map fun _ => l) := by
  induction ss generalizing w with
  | nil => simp
  | cons s ss ih =>
    rw [List.foldl_cons, ih, write_file]
    by_cases h : s.place = .file q
    · rw [if_pos h, List.filter_cons_of_pos (by simpa using h)]
      cases w.files q <;> simp
    · rw [if_neg h, List.filter_cons_of_neg (by simpa using h)]

theorem log_file (w : World) (l : Line) (q : String) :
    (w.log l).files q =
      (w.files q).map (· ++ (((w.sinks l.rank).filter fun s => s.takes l.level).filter fun s => s.place = .file q).map fun _ => l) :=
  foldl_file l _ w q

theorem foldl_console (l : Line) (ss : List Sink) (w : World) (r : Nat) :
    (ss.foldl (fun w s => w.write s.place l) w).console r =
      w.console r ++ (if l.rank = r then (ss.filter fun s => s.place = .console).map fun _ => l else []) := by
  induction ss generalizing w with
  | nil => simp
  | cons s ss ih =>
    rw [List.foldl_cons, ih]
    cases hp : s.place with
    | console =>
      rw [List.filter_cons_of_pos (by simpa using hp)]
      by_cases h : l.rank = r
      · simp [World.write, h]
      · simp [World.write, h, Ne.symm h]
    | file q =>
      rw [List.filter_cons_of_neg (by simp [hp])]
      unfold World.write
      dsimp only
      cases w.files q <;> rfl

theorem log_console (w : World) (l : Line) (r : Nat) :
    (w.log l).console r = w.console r ++
      (if l.rank = r then (((w.sinks l.rank).filter fun s => s.takes l.level).filter fun s => s.place = .console).map fun _ => l
        else []) := foldl_console l _ w r

/-- the sinks of a simulation with a log file and timers -/
theorem sinksOf_both (f : String) (cut : Bool) :
    sinksOf level ⟨some f, cut, true⟩ =
      [⟨.file f, level, false⟩, ⟨.file (timerPath f), timer, true⟩, ⟨.console, info, false⟩] := rfl

theorem takes_eq (p : Place) (a : Nat) (b : Bool) (n : Nat) :
    Sink.takes ⟨p, a, b⟩ n = (decide (a ≤ n) && (b == decide (n = timer))) := rfl

theorem main_sinks (f : String) (cut : Bool) (n : Nat) (l : Line) :
    (((sinksOf level ⟨some f, cut, true⟩).filter fun s => s.takes n).filter fun s => s.place = .file f).map (fun _ => l) =
      if level ≤ n ∧ n ≠ timer then [l] else [] := by
  rw [sinksOf_both]
  have := timerPath_ne f
  by_cases h1 : level ≤ n <;> by_cases h2 : n = timer <;> by_cases h3 : info ≤ n <;>
    simp [takes_eq, h1, h2, h3, this, List.filter_cons]

theorem timer_sinks (f : String) (cut : Bool) (n : Nat) (l : Line) :
    (((sinksOf level ⟨some f, cut, true⟩).filter fun s => s.takes n).filter fun s => s.place = .file (timerPath f)).map (fun _ => l) =
      if n = timer then [l] else [] := by
  rw [sinksOf_both]
  have := (timerPath_ne f).symm
  by_cases h1 : level ≤ n <;> by_cases h2 : n = timer <;> by_cases h3 : info ≤ n <;>
    simp [takes_eq, h1, h2, h3, this, List.filter_cons]

theorem console_sinks (f : String) (cut : Bool) (n : Nat) (l : Line) :
    (((sinksOf level ⟨some f, cut, true⟩).filter fun s => s.takes n).filter fun s => s.place = .console).map (fun _ => l) =
      if info ≤ n ∧ n ≠ timer then [l] else [] := by
  rw [sinksOf_both]
  by_cases h1 : level ≤ n <;> by_cases h2 : n = timer <;> by_cases h3 : info ≤ n <;>
    simp [takes_eq, h1, h2, h3, List.filter_cons]

theorem run_append (w : World) (a b : List (Nat × Event)) :
    run level shown w (a ++ b) = run level shown (run level shown w a) b := List.foldl_append

/-- sinks and switches change only when a rank makes a simulation -/
theorem step_sinks (w : World) (e : Nat × Event) (h : ∀ c, e.2 ≠ .make c) :
    (step level shown w e).sinks = w.sinks ∧ (step level shown w e).timers = w.timers := by
  obtain ⟨r, ev⟩ := e
  cases ev with
  | make c => exact absurd rfl (h c)
  | log l s => exact log_sinks w _
  | timed n t =>
    unfold step
    dsimp only
    split
    · exact log_sinks w _
    · exact ⟨rfl, rfl⟩

theorem openFile_file (w : World) (p : String) (cut : Bool) (q : String) :
    (w.openFile p cut).files q =
      if q = p then some (match w.files p with | some c => if cut then [] else c | none => []) else w.files q := by
  rfl

theorem configure_none (w : World) (r : Nat) (cut en : Bool) : (w.configure level r ⟨none, cut, en⟩).files = w.files := rfl

theorem configure_main (w : World) (r : Nat) (f : String) (cut : Bool) :
    (w.configure level r ⟨some f, cut, false⟩).files = (w.openFile f cut).files := by
  unfold World.configure
  simp only [Bool.false_eq_true, if_false]

theorem configure_both (w : World) (r : Nat) (f : String) (cut : Bool) :
    (w.configure level r ⟨some f, cut, true⟩).files = ((w.openFile f cut).openFile (timerPath f) cut).files := by
  unfold World.configure
  simp only [if_true]

theorem configure_file (w : World) (r : Nat) (f : String) (cut : Bool) (q : String) :
    (w.configure level r ⟨some f, cut, true⟩).files q =
      if q = f ∨ q = timerPath f then some (match w.files q with | some c => if cut then [] else c | none => []) else w.files q := by
  have e : (w.configure level r ⟨some f, cut, true⟩).files q = ((w.openFile f cut).openFile (timerPath f) cut).files q := by
    unfold World.configure
    simp only [if_true]
  rw [e]
  rw [openFile_file, openFile_file, openFile_file]
  have := timerPath_ne f
  by_cases h1 : q = timerPath f
  · subst h1
    rw [if_pos rfl, if_neg this, if_pos (Or.inr rfl)]
  · rw [if_neg h1]
    by_cases h2 : q = f
    · subst h2
      rw [if_pos rfl, if_pos (Or.inl rfl)]
    · rw [if_neg h2, if_neg (fun h => h.elim h2 h1)]

end Verif.Log
