import Mathlib.Algebra.Order.Field.Rat
import Mathlib.Data.List.Perm.Basic
/-!
# Pairing of particles for collisions, and the list of species pairs

Models `IntraPairingIterator` and `InterPairingIterator` (core/collision/utils.py 207-419), the loops that drive them
(core/collision/cpu.py 305-323, 352-371), and the construction of the pair list of `Collision`
(core/collision/collision.py 53-63).

The array of dead flags is `dead : Nat → Bool`, indices relative to the array. A shuffle is any rearrangement of the indices
(parameter `idx`, related to the range by `List.Perm` where it matters). Python's `ip1`, `ip2`, which start at -1, are
integers; `idx[-1]` is `none` here (it would wrap around in numpy, but is never reached, see Props/Pairing).
-/
namespace Verif.Pairing

/-- the search loop `for j in range(a, b): if not dead[idx[j]]: ip = j; break` (utils.py 260-263, 266-269, ...): `old` is kept
if nothing is found -/
def search (live : Nat → Bool) (a b : Int) (old : Int) : Int :=
  match (List.range' a.toNat (b - a.toNat).toNat).find? live with
  | some j => j
  | none => old

/-- `idx[i]` -/
def at? (idx : List Nat) (i : Int) : Option Nat := if i < 0 then none else idx[i.toNat]?

/-- number of living particles among the indices (utils.py 239) -/
def nLive (dead : Nat → Bool) (start stop : Nat) : Nat := (stop - start) - ((List.range' start (stop - start)).countP dead)

/-- `not dead[idx[j]]`: position `j` of the shuffled array holds a living particle (utils.py 261 and similar) -/
def liveAt (dead : Nat → Bool) (idx : List Nat) : Nat → Bool :=
  fun j => match idx[j]? with | some i => !dead i | none => false

/-- one pair handed out: first index, second index, weight correction, time step correction -/
structure Pair where
  ip1 : Nat
  ip2 : Nat
  wCorr : ℚ
  dtCorr : ℚ
deriving DecidableEq

/-! ## within one species -/

/-- the mutable part of `IntraPairingIterator` -/
structure IntraSt where
  ip1 : Int
  ip2 : Int
  ipair : Nat

/-- `npairs` (utils.py 240-247) -/
def intraPairs (npart : Nat) : Nat := if 2 ≤ npart then (npart + 1) / 2 else 0

/-- `dt_corr` (utils.py 242, 246) -/
def intraDt (npart : Nat) : Nat := if 2 ≤ npart then 2 * intraPairs npart - 1 else 0

/-- `even` (utils.py 243, 247) -/
def intraEven (npart : Nat) : Bool := if 2 ≤ npart then npart % 2 == 0 else true

/-- `next` (utils.py 258-293) -/
def intraNext (live : Nat → Bool) (idx : List Nat) (nbuf npart : Nat) (s : IntraSt) : Option (Pair × IntraSt) :=
  let ip1 := search live (s.ip2 + 1) nbuf s.ip1
  let ip2 :=
    if intraEven npart then search live (ip1 + 1) nbuf s.ip2
    else if s.ipair + 1 < intraPairs npart then search live (ip1 + 1) nbuf s.ip2
    else search live 0 ip1 s.ip2
  let w : ℚ := if intraEven npart then 1 else if s.ipair = 0 ∨ s.ipair + 1 = intraPairs npart then 1 / 2 else 1
  (at? idx ip1).bind fun i1 => (at? idx ip2).bind fun i2 => some (⟨i1, i2, w, intraDt npart⟩, ⟨ip1, ip2, s.ipair + 1⟩)

/-- `while it.has_next(): it.next()` (cpu.py 312-323), `n` pairs still to come -/
def intraLoop (live : Nat → Bool) (idx : List Nat) (nbuf npart : Nat) : Nat → IntraSt → Option (List Pair)
  | 0, _ => some []
  | n + 1, s => (intraNext live idx nbuf npart s).bind fun r => (intraLoop live idx nbuf npart n r.2).map (r.1 :: ·)

/-- all pairs of one cell `[start, stop)`; `idx` is the shuffled index array (utils.py 233-253) -/
def intra (dead : Nat → Bool) (start stop : Nat) (idx : List Nat) : Option (List Pair) :=
  let npart := nLive dead start stop
  intraLoop (liveAt dead idx) idx (stop - start) npart (intraPairs npart) ⟨-1, -1, 0⟩

/-! ## between two species -/

/-- the mutable part of `InterPairingIterator`: position on the shuffled side and on the cyclic side -/
structure InterSt where
  ipS : Int
  ipC : Int
  ipair : Nat

/-- `next` (utils.py 371-419). The two branches differ only in the roles of the species: `S` is the shuffled (larger) side
with `nS` living particles, `C` the cyclic side with `nC`. Returns absolute indices (shuffled side, cyclic side) and the weight
correction. `% nC` with `nC = 0` does not occur: there are no pairs then. -/
def interNext (liveS liveC : Nat → Bool) (idx : List Nat) (startC nbufS nbufC nS nC : Nat) (s : InterSt) :
    Option ((Nat × Nat × ℚ) × InterSt) :=
  let ipS := search liveS (s.ipS + 1) nbufS s.ipS
  let ipC0 : Int := if s.ipair % nC = 0 then -1 else s.ipC
  let ipC := search liveC ((ipC0 + 1) % nbufC) nbufC ipC0
  let w : ℚ := if s.ipair % nC < nS % nC then 1 / ((nS / nC : Nat) + 1) else 1 / (nS / nC : Nat)
  if ipC < 0 then none
  else (at? idx ipS).bind fun iS => some ((iS, startC + ipC.toNat, w), ⟨ipS, ipC, s.ipair + 1⟩)

def interLoop (liveS liveC : Nat → Bool) (idx : List Nat) (startC nbufS nbufC nS nC : Nat) :
    Nat → InterSt → Option (List (Nat × Nat × ℚ))
  | 0, _ => some []
  | n + 1, s => (interNext liveS liveC idx startC nbufS nbufC nS nC s).bind fun r =>
    (interLoop liveS liveC idx startC nbufS nbufC nS nC n r.2).map (r.1 :: ·)

/-- `__init__` and the loop (utils.py 327-366, cpu.py 360-371): `idx1` (`idx2`) is the shuffled index array if species 1 (2) is
the shuffled side. -/
def inter (dead1 : Nat → Bool) (start1 stop1 : Nat) (dead2 : Nat → Bool) (start2 stop2 : Nat) (idx1 idx2 : List Nat) :
    Option (List Pair) :=
  let n1 := nLive dead1 start1 stop1
  let n2 := nLive dead2 start2 stop2
  if n1 = 0 ∨ n2 = 0 then some []
  else if n2 ≤ n1 then
    (interLoop (liveAt dead1 idx1) (fun j => !dead2 (start2 + j)) idx1 start2
      (stop1 - start1) (stop2 - start2) n1 n2 n1 ⟨-1, -1, 0⟩).map (List.map fun r => ⟨r.1, r.2.1, r.2.2, n1⟩)
  else
    (interLoop (liveAt dead2 idx2) (fun j => !dead1 (start1 + j)) idx2 start1
      (stop2 - start2) (stop1 - start1) n2 n1 n2 ⟨-1, -1, 0⟩).map (List.map fun r => ⟨r.2.1, r.1, r.2.2, n2⟩)

/-! ## which species collide -/

/-- `itertools.combinations(group, 2)` -/
def combinations2 : List Nat → List (Nat × Nat)
  | [] => []
  | a :: l => l.map (fun b => (a, b)) ++ combinations2 l

/-- the ordered pair (collision.py 59) -/
def ordered (p : Nat × Nat) : Nat × Nat := if p.1 < p.2 then (p.1, p.2) else (p.2, p.1)

/-- the loop of `Collision.__init__` (collision.py 57-63): `self.collisions` and the set `collisions` always hold the same
pairs, so only the list is kept. Species are given by their `ispec`. -/
def collisions (groups : List (List Nat)) : List (Nat × Nat) :=
  groups.foldl (fun cs g => (combinations2 g).foldl (fun cs p => if ordered p ∈ cs then cs else cs ++ [ordered p]) cs) []

/-- `enable`/`disable` (collision.py 169-181): `none` is the `ValueError` -/
def setEnabled (cs : List (Nat × Nat)) (en : Nat × Nat → Bool) (p : Nat × Nat) (v : Bool) : Option (Nat × Nat → Bool) :=
  if ordered p ∈ cs then some fun q => if q = ordered p then v else en q else none

/-- the pairs handled by one call (collision.py 183-207) -/
def called (cs : List (Nat × Nat)) (en : Nat × Nat → Bool) : List (Nat × Nat) := cs.filter en

end Verif.Pairing
