import Verif.Model.Stat
import Mathlib.Data.String.Basic
/-!
# Log files and timers

Models core/utils/logger.py 14-133 (`configure_logger`, `timer_sink_path`), core/utils/timer.py 7-96 (`Timer`), the calls of them in
simulation/simulation.py 248-255, and the reading of a timer file by cli/stat.py 8-38 and cli/main.py 68-75.

A world has files, the console of every process, and in every process (rank) the sinks of its logger and the switch of its timers;
the ranks share the files. Simplified: a line is its rank, level and message, the time stamp and the place in the program are left
out; writing a line is atomic and a file that is cut is written at its new end by all (loguru opens its files to append); a timer is
one event (entering and leaving it are not separated); `:.1f` is a function `shown` of the measured time; levels are their numbers.
-/
namespace Verif.Log

/-- the levels used by the program (logger.py 61-72 and those of loguru) -/
def debug : Nat := 10
def info : Nat := 20
def timer : Nat := 22
def warning : Nat := 30

/-- a message: a text, or that of a timer, `Rank r name took x ms` (timer.py 84-93) -/
inductive Body where
  | text (s : String)
  | took (name : String) (ms : ℚ)
deriving DecidableEq

structure Line where
  rank : Nat
  level : Nat
  body : Body
deriving DecidableEq

/-- where a sink writes -/
inductive Place where
  | console
  | file (path : String)
deriving DecidableEq

/-- a sink of a logger: place, smallest level, and whether it takes the level TIMER only or all levels but TIMER -/
structure Sink where
  place : Place
  level : Nat
  timers : Bool
deriving DecidableEq

/-- loguru hands a record to a sink if its level is not below that of the sink and the filter accepts it
(logger.py 91-92, 108-109, 120-121) -/
def Sink.takes (s : Sink) (l : Nat) : Bool := decide (s.level ≤ l) && (s.timers == decide (l = timer))

/-- `with_name(stem + ".timer" + suffix)` for a name given as its characters (logger.py 24-25). pathlib: the suffix starts at the last
dot unless this is the first or the last character. -/
def splitName (name : List Char) : List Char × List Char :=
  let ext := (name.reverse.takeWhile (· ≠ '.')).reverse
  let stem := name.take (name.length - ext.length - 1)
  if ext.length < name.length ∧ ext ≠ [] ∧ stem ≠ [] then (stem, '.' :: ext) else (name, [])

/-- the directory part of a path, with its last `/`, and the name -/
def splitPath (p : List Char) : List Char × List Char :=
  let name := (p.reverse.takeWhile (· ≠ '/')).reverse
  (p.take (p.length - name.length), name)

/-- `timer_sink_path` (logger.py 14-25); paths are taken as pathlib writes them (no `//`, no `/` at the end) -/
def timerPath (p : String) : String :=
  let d := splitPath p.toList
  let s := splitName d.2
  String.ofList (d.1 ++ s.1 ++ ".timer".toList ++ s.2)

/-- the arguments of a simulation that matter here (simulation.py 62-73, 248-252) -/
structure Conf where
  logFile : Option String
  truncate : Bool
  enableTimer : Bool

structure World where
  files : String → Option (List Line)
  console : Nat → List Line
  sinks : Nat → List Sink
  timers : Nat → Bool

def World.setFile (w : World) (p : String) (c : List Line) : World :=
  { w with files := fun q => if q = p then some c else w.files q }

/-- a file sink is added: an existing file is cut if asked for, then the file is opened to append, which creates it
(logger.py 85-97, 102-114) -/
def World.openFile (w : World) (p : String) (cut : Bool) : World :=
  w.setFile p (match w.files p with | some c => if cut then [] else c | none => [])

/-- the sinks made for a configuration; `level` is that of LAMBDAPIC_LOG_LEVEL if it names a level, else INFO (logger.py 78-80) -/
def sinksOf (level : Nat) (c : Conf) : List Sink :=
  (match c.logFile with
    | none => []
    | some f => ⟨.file f, level, false⟩ :: (if c.enableTimer then [⟨.file (timerPath f), timer, true⟩] else [])) ++
  [⟨.console, info, false⟩]

/-- `configure_logger` and `set_timer_enabled` when rank `r` makes a simulation (logger.py 58-126, simulation.py 248-253): all sinks of
the process are removed, the files are opened, the new sinks and the switch replace the old ones -/
def World.configure (level : Nat) (w : World) (r : Nat) (c : Conf) : World :=
  let w1 := match c.logFile with
    | none => w
    | some f =>
      let w' := w.openFile f c.truncate
      if c.enableTimer then w'.openFile (timerPath f) c.truncate else w'
  { w1 with
    sinks := fun s => if s = r then sinksOf level c else w.sinks s
    timers := fun s => if s = r then c.enableTimer else w.timers s }

/-- a line is written to a place; a file that was removed stays removed -/
def World.write (w : World) (p : Place) (l : Line) : World :=
  match p with
  | .console => { w with console := fun r => if r = l.rank then w.console r ++ [l] else w.console r }
  | .file q => match w.files q with | some c => w.setFile q (c ++ [l]) | none => w

/-- a record goes to every sink of its process that takes it, in their order -/
def World.log (w : World) (l : Line) : World :=
  ((w.sinks l.rank).filter fun s => s.takes l.level).foldl (fun w s => w.write s.place l) w

/-- what a rank does -/
inductive Event where
  /-- it makes a simulation -/
  | make (c : Conf)
  /-- it logs a text -/
  | log (level : Nat) (s : String)
  /-- it leaves a `Timer(name)` after so many milliseconds -/
  | timed (name : String) (ms : ℚ)

/-- the name a timer logs: an empty name gives `Completed in …`, which has no ` took ` (timer.py 84-93) -/
def body (shown : ℚ → ℚ) (name : String) (ms : ℚ) : Body :=
  if name = "" then .text "Completed" else .took name (shown ms)

/-- one event. A timer logs if timers are on and the time is above 0.1 ms (timer.py 47-49, 77-96) -/
def step (level : Nat) (shown : ℚ → ℚ) (w : World) (e : Nat × Event) : World :=
  match e.2 with
  | .make c => w.configure level e.1 c
  | .log l s => w.log ⟨e.1, l, .text s⟩
  | .timed n t => if w.timers e.1 ∧ 1 / 10 < t then w.log ⟨e.1, timer, body shown n t⟩ else w

/-- a history: events of the ranks in the order in which they happen -/
def run (level : Nat) (shown : ℚ → ℚ) (w : World) (h : List (Nat × Event)) : World := h.foldl (step level shown) w

/-- what `parse_log_file` finds in a line (stat.py 17-29): a line of level TIMER, its text after the last `|`, `Rank \d+ ` and then the
name up to ` took `. With a `|` in the name the part with `Rank` is lost. Simplified: names are taken not to contain ` took ` or a line
break, texts not to look like the line of a timer, and only lines of the level TIMER to have `TIMER` in them. -/
def entry (l : Line) : Option (String × Option ℚ) :=
  if l.level = timer then
    match l.body with
    | .took n t => if '|' ∈ n.toList then none else some (n, some t)
    | .text _ => none
  else none

/-- `lambdapic timer-stat file` (cli/main.py 68-75): the timer file that belongs to the named file is read if it exists, else the
named file; `none`: error exit -/
def stat (w : World) (f : String) : Option (List (Stat.Line String) × ℚ) :=
  match w.files (timerPath f) with
  | some ls => Stat.report (ls.filterMap entry)
  | none => match w.files f with
    | some ls => Stat.report (ls.filterMap entry)
    | none => none

/-- `Total TIMER events` as printed (cli/main.py 89): the number of categories -/
def statEvents (w : World) (f : String) : Option Nat := (stat w f).map fun r => r.1.length

end Verif.Log
