import Verif.Model.Qed
import Mathlib.Algebra.Order.Field.Basic
/-!
# Tables of energy fractions: generation, and the lookup with sigmoid spacing

core/qed/optical_depth_tables.py 112-175 and core/qed/optical_depth_tables_sigmoid.py. Irrational functions (Airy functions
and their integral, powers, roots, the sigmoid) are parameters.
-/
namespace Verif.Tables
open Verif.Qed

section
variable {K : Type} [Field K]

/-- the functions the rates are made of (optical_depth_tables.py 112-119): `intAi z` is the integral of `Ai` from `z` on,
`dAi` is `Aip`, `pow23 q` is `q ** (2/3)` -/
structure Airy (K : Type) where
  intAi : K → K
  dAi : K → K
  pow23 : K → K
  sqrt : K → K

/-- `prob_` of `gen_photon_prob_rate_for_delta` (optical_depth_tables.py 121-130, optical_depth_tables_sigmoid.py 135-144);
`unit` is `alpha*m_e*c**2/hbar` -/
def photonProb [DecidableEq K] (A : Airy K) (unit chi delta : K) : K :=
  if delta = 1 then 0
  else
    let chiGamma := delta * chi
    let chiEp := chi - chiGamma
    let z := A.pow23 (chiGamma / chi / chiEp);
    -unit * (A.intAi z + (2 / z + chiGamma * A.sqrt z) * A.dAi z)

/-- `prob_` of `gen_pair_prob_rate_for_delta` (optical_depth_tables.py 132-141, optical_depth_tables_sigmoid.py 146-155) -/
def pairProb [DecidableEq K] (A : Airy K) (unit chi delta : K) : K :=
  if delta = 1 then 0
  else
    let chiE := delta * chi
    let chiEp := chi - chiE
    let z := A.pow23 (chi / chiE / chiEp)
    unit * (A.intAi z + (2 / z - chi * A.sqrt z) * A.dAi z)

/-- `integ[i]` of `integral_photon_prob_along_delta` and `integral_pair_prob_along_delta` (optical_depth_tables.py 156-175,
optical_depth_tables_sigmoid.py 167-195): `first` is `quad(P, 0, delta[0])[0]` -/
def integ (P : K → K) (first : K) (delta : Nat → K) : Nat → K
  | 0 => first
  | i + 1 => integ P first delta i + P (delta (i + 1)) * (delta (i + 1) - delta i)

/-- the array the two functions return -/
def row (P : K → K) (first : K) (delta : Nat → K) (n : Nat) : List K := (List.range n).map (integ P first delta)

/-- `pool.starmap(integral_..._prob_along_delta, zip(chi, ...))` (optical_depth_tables.py 194-203): one row for each `chi` -/
def tableGen (P : K → K → K) (first : K → K) (delta : Nat → K) (n : Nat) (chis : List K) : List (List K) :=
  chis.map fun chi => row (P chi) (first chi) delta n
end

/-! ## the lookup in tables with sigmoid spacing -/

/-- the parameters of the tables (optical_depth_tables_sigmoid.py 23-28): `pow10 q` is `10**q`, `node j` is
`1 / (1 + np.exp(-_A * (-1 + 2/(_delta_N-1) * j)))` -/
structure SGrid extends Grid where
  pow10 : ℚ → ℚ
  node : Nat → ℚ

/-- `table2d[lo, j] + k * (chi - chi_low)` with `k = (table2d[hi, j] - table2d[lo, j]) / (chi_high - chi_low)`
(optical_depth_tables_sigmoid.py 71-75, 84-85, 94-98) -/
def lever (a b : List ℚ) (chiLow chiHigh chi : ℚ) (j : Int) : ℚ :=
  a.getD j.toNat 0 + (b.getD j.toNat 0 - a.getD j.toNat 0) / (chiHigh - chiLow) * (chi - chiLow)

/-- the part of `_bisect_interp` behind the choice of the rows (optical_depth_tables_sigmoid.py 71-104) with the random number
`u`: `f j` is the cumulated probability at column `j`, `deltaMin` is `_delta_range[0]`; `none` is a loop that never ends -/
def sigmoidTail (G : SGrid) (deltaMin u : ℚ) (f : Int → ℚ) : Option (Res ℚ) :=
  let ymin := f 0
  let ymax := f (G.deltaN - 1)
  let r := u * (ymax - ymin) + ymin
  if r < ymin then some (.ok (r / ymin * deltaMin))
  else
    match bisect f r 0 (G.deltaN - 1) with
    | none => none
    | some di =>
      if 0 ≤ di ∧ di + 1 < G.deltaN then
        let y1 := f di
        let y2 := f (di + 1)
        some (.ok (G.node di.toNat + (G.node (di + 1).toNat - G.node di.toNat) / (y2 - y1) * (r - y1)))
      else some .outOfBounds

/-- `_bisect_interp` (optical_depth_tables_sigmoid.py 61-104). `x` is `log10(chi)`, so that `chi` is `pow10 x`. The `-1` of a
too small chi would index from the end; it does not occur (optical_depth.py 63). -/
def sigmoidInterp (G : SGrid) (deltaMin x u : ℚ) (table : List (List ℚ)) : Option (Res ℚ) :=
  let ci := chiIdx G.toGrid x
  let chiLow := G.pow10 (G.chiLo + ci * G.chiDelta)
  let chiHigh := G.pow10 (G.chiLo + (ci + 1 : Int) * G.chiDelta)
  match table[ci.toNat]?, table[(ci + 1).toNat]? with
  | some a, some b => sigmoidTail G deltaMin u (lever a b chiLow chiHigh (G.pow10 x))
  | _, _ => some .outOfBounds

end Verif.Tables
