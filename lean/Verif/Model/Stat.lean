import Mathlib.Algebra.Order.Field.Rat
/-!
# Timer statistics (`lambdapic stat`)

Models cli/stat.py 8-62. A log is the list of its matching TIMER lines: category and time in milliseconds, in order. The
time matches `[\d.]+`, so it is non-negative if it is a number; `none` is a match that is not one (`1.2.3`), on which
`float` raises. A Python dict is a list of entries in insertion order. Not modelled: finding the lines (regular expression),
rounding, printing.
-/
namespace Verif.Stat

/-- one entry of `category_times` and `category_counts` -/
structure Entry (κ : Type) where
  category : κ
  time : ℚ
  count : Nat
deriving DecidableEq

variable {κ : Type} [DecidableEq κ]

/-- `category_times[category] += t; category_counts[category] += 1` (stat.py 26-29) on `defaultdict`s -/
def bump (c : κ) (t : ℚ) : List (Entry κ) → List (Entry κ)
  | [] => [⟨c, 0 + t, 0 + 1⟩]
  | e :: es => if e.category = c then ⟨c, e.time + t, e.count + 1⟩ :: es else e :: bump c t es

/-- `parse_log_file` (stat.py 8-38); `none`: error exit -/
def parseLog : List (κ × Option ℚ) → List (Entry κ) → Option (List (Entry κ))
  | [], es => some es
  | (_, none) :: _, _ => none
  | (c, some t) :: ls, es => parseLog ls (bump c t es)

/-- one line of the report -/
structure Line (κ : Type) where
  category : κ
  percentage : ℚ
  average : ℚ

/-- `total_time = sum(category_times.values())` (stat.py 43) -/
def totalTime (es : List (Entry κ)) : ℚ := (es.map (·.time)).sum

/-- `calculate_percentages` (stat.py 41-62) -/
def calculate (es : List (Entry κ)) : List (Line κ) × ℚ :=
  (es.map fun e => ⟨e.category, if 0 < totalTime es then e.time / totalTime es * 100 else 0,
    if 0 < e.count then e.time / e.count else 0⟩, totalTime es)

/-- the report for a log -/
def report (log : List (κ × Option ℚ)) : Option (List (Line κ) × ℚ) := (parseLog log []).map calculate

end Verif.Stat
