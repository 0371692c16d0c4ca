import Mathlib.Analysis.SpecialFunctions.Trigonometric.Basic
import Mathlib.Data.Real.Sqrt
/-!
# The callbacks that give particles their momenta

`SetMomentum`, `SetMomentumAndTemperature` and `SetTemperature` of callback/utils.py 842-1049.

Simplifications: exact real arithmetic. A stored value is `none` if it is not a finite number. The random generator and the distributions of scipy are
parameters (`Draw`), and so are the density of Maxwell and Jüttner and its maximum. The rejection loops have fuel: if it is used up the model says
`unfinished`, where the program would go on drawing.
-/
namespace Verif.Momenta

/-- a stored number: `none` is NaN or infinite -/
abbrev V := Option ℝ

/-- the momentum part of a slot of one species (core/particles.py) -/
structure Part where
  ux : V
  uy : V
  uz : V
  ig : V
  dead : Bool

/-- what can end a call -/
inductive Err where
  /-- `ZeroDivisionError` of Python -/
  | zeroDivision
  /-- `ValueError` of scipy for a negative scale, or of numpy for arrays of different lengths -/
  | value
  /-- the fuel of a rejection loop is used up -/
  | unfinished
deriving DecidableEq

/-- addition of stored numbers -/
def vadd (a b : V) : V := match a, b with | some x, some y => some (x + y) | _, _ => none

/-- division of a numpy array by a number: no exception for zero -/
noncomputable def vdiv (a : ℝ) (b : ℝ) : V := open Classical in if b = 0 then none else some (a / b)

/-- `1 / np.sqrt(1 + ux**2 + uy**2 + uz**2)` (utils.py 888, 971) -/
noncomputable def invGamma (a b c : V) : V :=
  match a, b, c with | some x, some y, some z => some (1 / Real.sqrt (1 + x ^ 2 + y ^ 2 + z ^ 2)) | _, _, _ => none

/-- the new momentum of one living particle: `+=` or `=` and then `inv_gamma` (utils.py 877-888, 963-971) -/
noncomputable def give (add : Bool) (t : V × V × V) (s : Part) : Part :=
  let x := if add then vadd s.ux t.1 else t.1
  let y := if add then vadd s.uy t.2.1 else t.2.1
  let z := if add then vadd s.uz t.2.2 else t.2.2
  ⟨x, y, z, invGamma x y z, s.dead⟩

/-- `alive.sum()` (utils.py 873, 956) -/
def nAlive (ps : List Part) : Nat := (ps.filter fun s => !s.dead).length

/-- `SetMomentum._call` for one patch (utils.py 871-888) -/
noncomputable def setPatch (add : Bool) (t : ℝ × ℝ × ℝ) (ps : List Part) : List Part :=
  if nAlive ps = 0 then ps else ps.map fun s => if s.dead then s else give add (some t.1, some t.2.1, some t.2.2) s

/-- `SetMomentum._call` (utils.py 866-888) -/
noncomputable def setMomentum (add : Bool) (t : ℝ × ℝ × ℝ) (patches : List (List Part)) : List (List Part) := patches.map (setPatch add t)

/-- the generator: numpy's `uniform(lo, hi, n)` and `rvs` of scipy's gamma distribution, which refuses a negative scale -/
structure Draw (σ : Type) where
  uniform : ℝ → ℝ → Nat → σ → List ℝ × σ
  gamma : ℝ → ℝ → Nat → σ → Option (List ℝ × σ)
  /-- `maxwell_juttner_pdf(gamma, theta)` (utils.py 973-984) -/
  pdf : ℝ → ℝ → ℝ
  /-- `M` (utils.py 1007-1014) -/
  top : ℝ → ℝ

/-- `gamma_prop[accept]` -/
def pick (ok : ℝ → ℝ → Prop) [∀ a b, Decidable (ok a b)] (props vs : List ℝ) : List ℝ :=
  ((props.zip vs).filter fun p => decide (ok p.1 p.2)).map Prod.fst

open Classical in
/-- one round of the middle range (utils.py 1018-1021) -/
noncomputable def roundMid {σ : Type} (D : Draw σ) (θ : ℝ) (n : Nat) (g : σ) : Except Err (List ℝ × σ) :=
  let a := D.uniform 1 (1 + 10 * θ) n g
  let b := D.uniform 0 (D.top θ) n a.2
  .ok (pick (fun x v => v < D.pdf x θ) a.1 b.1, b.2)

open Classical in
/-- one round of the high range (utils.py 1032-1035); the mask of the masked array only matters where the second condition is false -/
noncomputable def roundHigh {σ : Type} (D : Draw σ) (θ : ℝ) (n : Nat) (g : σ) : Except Err (List ℝ × σ) :=
  match D.gamma 3 θ n g with
  | none => .error .value
  | some a =>
    let b := D.uniform 0 1 n a.2
    .ok (pick (fun x v => v < Real.sqrt (1 - 1 / x ^ 2) ∧ 1 ≤ x) a.1 b.1, b.2)

/-- `while count < size` (utils.py 1016-1025, 1030-1039); the part of the array `gamma` that has been filled is a list -/
def reject {σ : Type} (round : Nat → σ → Except Err (List ℝ × σ)) (size : Nat) : Nat → List ℝ → σ → Except Err (List ℝ × σ)
  | 0, _, _ => .error .unfinished
  | fuel + 1, done, g =>
    if done.length < size then
      match round (size - done.length) g with
      | .error e => .error e
      | .ok (l, g) => reject round size fuel (done ++ l) g
    else .ok (done, g)

/-- the energies of `sample_maxwell_juttner` (utils.py 998-1039) -/
noncomputable def gammas {σ : Type} (D : Draw σ) (fuel size : Nat) (θ : ℝ) (g : σ) : Except Err (List ℝ × σ) :=
  open Classical in
  if θ ≤ 1 / 100 then
    match D.gamma (3 / 2) θ size g with
    | none => .error .value
    | some (l, g) => .ok (l.map (· + 1), g)
  else if θ ≤ 1 / 2 then reject (roundMid D θ) size fuel [] g
  else reject (roundHigh D θ) size fuel [] g

/-- the three components for one energy, angle and cosine (utils.py 1041-1047) -/
noncomputable def triple (γ φ ct : ℝ) : ℝ × ℝ × ℝ :=
  let u := Real.sqrt (γ ^ 2 - 1)
  let st := Real.sqrt (1 - ct ^ 2)
  (u * st * Real.cos φ, u * st * Real.sin φ, u * ct)

/-- `sample_maxwell_juttner` (utils.py 986-1049) -/
noncomputable def sample {σ : Type} (D : Draw σ) (fuel size : Nat) (θ : ℝ) (g : σ) : Except Err (List (ℝ × ℝ × ℝ) × σ) :=
  match gammas D fuel size θ g with
  | .error e => .error e
  | .ok (l, g) =>
    let p := D.uniform 0 (2 * Real.pi) size g
    let c := D.uniform (-1) 1 size p.2
    .ok ((l.zip (p.1.zip c.1)).map fun q => triple q.1 q.2.1 q.2.2, c.2)

/-- the stretched samples: `ux`, `uy * T[1]/T[0]`, `uz * T[2]/T[0]` (utils.py 963-970) -/
noncomputable def stretch (T : ℝ × ℝ × ℝ) (u : ℝ × ℝ × ℝ) : V × V × V := (some u.1, vdiv (u.2.1 * T.2.1) T.1, vdiv (u.2.2 * T.2.2) T.1)

/-- assignment to `part.ux[alive]` and so on from arrays with one entry per living particle (utils.py 963-971); a wrong length is refused -/
noncomputable def putAlive (add : Bool) : List Part → List (V × V × V) → Except Err (List Part)
  | [], ts => if ts.isEmpty then .ok [] else .error .value
  | s :: ps, ts =>
    if s.dead then (putAlive add ps ts).map (s :: ·)
    else match ts with
      | [] => .error .value
      | t :: ts => (putAlive add ps ts).map (give add t s :: ·)

/-- `SetTemperature._call` for one patch (utils.py 954-971); `mc2` is `species.m * c**2`, `qe` is `e`. `mc2 = 0` raises `ZeroDivisionError`. -/
noncomputable def heatPatch {σ : Type} (D : Draw σ) (fuel : Nat) (qe mc2 : ℝ) (T : ℝ × ℝ × ℝ) (add : Bool) (ps : List Part) (g : σ) :
    Except Err (List Part × σ) :=
  open Classical in
  if nAlive ps = 0 then .ok (ps, g)
  else if mc2 = 0 then .error .zeroDivision
  else match sample D fuel (nAlive ps) (T.1 * qe / mc2) g with
    | .error e => .error e
    | .ok (l, g) => (putAlive add ps (l.map (stretch T))).map (·, g)

/-- `SetTemperature._call` (utils.py 950-971); `g` is the generator spawned in line 952. A single number `temperature` is three equal ones (937-940). -/
noncomputable def setTemperature {σ : Type} (D : Draw σ) (fuel : Nat) (qe mc2 : ℝ) (T : ℝ × ℝ × ℝ) (add : Bool) :
    List (List Part) → σ → Except Err (List (List Part))
  | [], _ => .ok []
  | ps :: rest, g =>
    match heatPatch D fuel qe mc2 T add ps g with
    | .error e => .error e
    | .ok (ps', g) => (setTemperature D fuel qe mc2 T add rest g).map (ps' :: ·)

/-- `SetMomentumAndTemperature._call` (utils.py 915-920) -/
noncomputable def setBoth {σ : Type} (D : Draw σ) (fuel : Nat) (qe mc2 : ℝ) (u : ℝ × ℝ × ℝ) (T : ℝ × ℝ × ℝ) (add : Bool)
    (patches : List (List Part)) (g : σ) : Except Err (List (List Part)) :=
  setTemperature D fuel qe mc2 T true (setMomentum add u patches) g

end Verif.Momenta
