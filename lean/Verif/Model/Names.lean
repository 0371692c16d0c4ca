import Verif.Model.Restart
/-!
# Unique species names

Models `uniquify_species_names` (simulation/utils.py 6-32). Names are lists of characters. Python objects are modelled by
references into a heap of names, so that the same object may occur twice.

Simplifications: `\d` is one of the ten ASCII digits and `$` is the end of the string (in Python `$` also matches before a
trailing newline); `new_species.index(s)` is left out: it only selects names that are in `existing_names` anyway.
-/
namespace Verif.Names

abbrev Name := List Char

/-- `f"{n}"` -/
def decimal (n : Nat) : List Char := Restart.digits (Nat.log 10 n + 1) n

/-- `int(...)` of a string of digits -/
def parse (ds : List Char) : Nat := ds.foldl (fun a c => 10 * a + (c.toNat - 48)) 0

/-- the part `\.\d+` of the pattern (utils.py 12): the number after the dot -/
def dotSuffix : List Char → Option Nat
  | c :: ds => if c = '.' ∧ ds ≠ [] ∧ ds.all Char.isDigit = true then some (parse ds) else none
  | [] => none

/-- `pattern.match(name)` with `^base(\.\d+)?$` (utils.py 12, 17-22): `none` if there is no match, otherwise the suffix, 0
if there is none -/
def matchSuffix (base name : Name) : Option Nat :=
  if name = base then some 0
  else (base.isPrefixOf? name).bind dotSuffix

/-- the largest suffix, `none` for -1 (utils.py 13-22) -/
def maxSuffix (base : Name) (existing : List Name) : Option Nat :=
  existing.foldl (fun m name => match matchSuffix base name with
    | some k => some (match m with | some j => max j k | none => k)
    | none => m) none

/-- the name a species gets (utils.py 25-29) -/
def rename (existing : List Name) (base : Name) : Name :=
  match maxSuffix base existing with
  | some k => base ++ '.' :: decimal (k + 1)
  | none => base

/-- the loop over new objects (utils.py 10-32): `heap` holds the name of every object -/
def uniquifyRefs : List Nat → (Nat → Name) → List Name → (Nat → Name)
  | [], heap, _ => heap
  | s :: ss, heap, existing =>
    let nm := rename existing (heap s)
    uniquifyRefs ss (fun o => if o = s then nm else heap o) (existing ++ [nm])

/-- `add_species(new)` when `old` are the objects already registered (simulation.py 535-560): the names of all species
afterwards, in the order of `ispec` -/
def addSpecies (old new : List Nat) (heap : Nat → Name) : List Name :=
  (old ++ new).map (uniquifyRefs new heap (old.map heap))

end Verif.Names
