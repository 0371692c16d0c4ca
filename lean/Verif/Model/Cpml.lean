import Verif.Model.Maxwell
import Mathlib.Algebra.Field.Basic
/-!
# Absorbing layers (CPML)

Models `src/lambdapic/core/boundary/cpml.py` and the parts of `src/lambdapic/core/maxwell/solver/solver.py` that use it. The coefficients are
written for any field of numbers (the reals in the statements about `exp`, the rationals in the kernels, as in `Verif.Model.Maxwell`).
Simplifications: exact arithmetic; `np.exp` is a parameter of the kernels; `prange` loops are run in order (every iteration writes its own cells and
reads fields that are not written); a division by zero gives 0 here, the theorems show that none happens.
-/
namespace Verif.Cpml
open SyncFields Maxwell

/-! ### coefficients of a layer -/
section
variable {F : Type} [Field F]

/-- start of the E cells of a layer (`efield_start`, cpml.py 246, 266, 284, 303, 318, 337); `mx` is the upper side -/
def startE (mx : Bool) (n t : Nat) : Nat := if mx then n - t else 0
/-- end of the E cells (`efield_end`, cpml.py 247, 267, 285, 304, 319, 338) -/
def stopE (mx : Bool) (n t : Nat) : Nat := if mx then n else t
/-- start of the B cells (`bfield_start`, cpml.py 248, 268, 286, 305, 320, 339) -/
def startB (mx : Bool) (n t : Nat) : Nat := if mx then n - t - 1 else 0
/-- end of the B cells (`bfield_end`, cpml.py 249, 269, 287, 306, 321, 340) -/
def stopB (mx : Bool) (n t : Nat) : Nat := if mx then n - 1 else t

/-- `pos` of the `m`-th E cell of the layer (cpml.py 236, 255, 274, 292, 310, 326) -/
def posE (mx : Bool) (t m : Nat) : F := if mx then 1 - ((t - 1 - m : Nat) : F) / (t : F) else 1 - (m : F) / (t : F)
/-- `pos` of the `m`-th B cell of the layer (cpml.py 242, 261, 280, 298, 314, 332) -/
def posB (mx : Bool) (t m : Nat) : F :=
  if mx then 1 - (((t - 1 - m : Nat) : F) + 1 / 2) / (t : F) else 1 - ((m : F) + 1 / 2) / (t : F)

/-- parameters of a layer: thickness, side, `kappa_max`, `a_max` and `sigma_maxval` (cpml.py 45-57) -/
structure LayerPar (F : Type) where
  mx : Bool
  t : Nat
  kmax : F
  amax : F
  smax : F

/-- `kappa[s] = 1 + (kappa_max - 1) * pos**3` on the layer, 1 elsewhere (cpml.py 85-107, 119-123) -/
def kappaAt (L : LayerPar F) (start stop : Nat) (pos : Nat → F) (i : Nat) : F :=
  if start ≤ i ∧ i < stop then 1 + (L.kmax - 1) * pos (i - start) ^ 3 else 1
/-- `sigma[s] = sigma_maxval * pos**3` on the layer, 0 elsewhere (cpml.py 85-107, 124) -/
def sigmaAt (L : LayerPar F) (start stop : Nat) (pos : Nat → F) (i : Nat) : F :=
  if start ≤ i ∧ i < stop then L.smax * pos (i - start) ^ 3 else 0
/-- `a[s] = a_max * (1 - pos)**1` on the layer, 0 elsewhere (cpml.py 85-107, 125) -/
def aAt (L : LayerPar F) (start stop : Nat) (pos : Nat → F) (i : Nat) : F :=
  if start ≤ i ∧ i < stop then L.amax * (1 - pos (i - start)) ^ 1 else 0

/-- `ccoeff_d` (cpml.py 539, 558, 578, 597, 616, 637, 659, 679, 700, 721) -/
def ccoeff (b kappa sigma a d : F) : F := (b - 1) * sigma / kappa / (sigma + kappa * a) / d
end

/-- a layer of a patch: axis, cells, coefficient arrays and the auxiliary fields `psi` (cpml.py 135-141, 168-174, 205-212): `psiE d` is `psi_e<d>`,
`psiB d` is `psi_b<d>` of the axis; only the two components across the axis exist -/
structure Layer (k : Nat) where
  axis : Fin k
  startE : Nat
  stopE : Nat
  startB : Nat
  stopB : Nat
  kE : Nat → ℚ
  sE : Nat → ℚ
  aE : Nat → ℚ
  kB : Nat → ℚ
  sB : Nat → ℚ
  aB : Nat → ℚ
  psiE : Fin 3 → Arr k
  psiB : Fin 3 → Arr k

/-- `PMLXmin(fields, ...)` and the other five classes (cpml.py 135-340) on a patch with `n` cells along the axis -/
def build {k : Nat} (axis : Fin k) (n : Nat) (L : LayerPar ℚ) : Layer k where
  axis := axis
  startE := startE L.mx n L.t
  stopE := stopE L.mx n L.t
  startB := startB L.mx n L.t
  stopB := stopB L.mx n L.t
  kE := kappaAt L (startE L.mx n L.t) (stopE L.mx n L.t) (posE L.mx L.t)
  sE := sigmaAt L (startE L.mx n L.t) (stopE L.mx n L.t) (posE L.mx L.t)
  aE := aAt L (startE L.mx n L.t) (stopE L.mx n L.t) (posE L.mx L.t)
  kB := kappaAt L (startB L.mx n L.t) (stopB L.mx n L.t) (posB L.mx L.t)
  sB := sigmaAt L (startB L.mx n L.t) (stopB L.mx n L.t) (posB L.mx L.t)
  aB := aAt L (startB L.mx n L.t) (stopB L.mx n L.t) (posB L.mx L.t)
  psiE := fun _ _ => 0
  psiB := fun _ _ => 0

/-- the constructor refuses layers as thick as the patch (cpml.py 46-47, 60-61, 71-72) -/
def buildChecked {k : Nat} (axis : Fin k) (n : Fin k → Nat) (L : LayerPar ℚ) : Option (Layer k) :=
  if ∀ a, L.t < n a then some (build axis (n axis) L) else none

/-- the kappa array of a layer for the E cells of any axis: ones on the other axes (cpml.py 85-107) -/
def Layer.kapE {k : Nat} (l : Layer k) (a : Fin k) (i : Nat) : ℚ := if l.axis = a then l.kE i else 1
/-- the kappa array of a layer for the B cells of any axis -/
def Layer.kapB {k : Nat} (l : Layer k) (a : Fin k) (i : Nat) : ℚ := if l.axis = a then l.kB i else 1

/-- `generate_kappa_lists` for one patch, E (solver.py 80-113): arrays of the first layer, then per axis those of the last layer -/
def kappaListE {k : Nat} (ls : List (Layer k)) (a : Fin k) (i : Nat) : ℚ :=
  match ls with
  | [] => 1
  | l0 :: _ => (ls.foldl (fun (g : Nat → ℚ) l => if l.axis = a then l.kapE a else g) (l0.kapE a)) i
/-- `generate_kappa_lists` for one patch, B (solver.py 80-113) -/
def kappaListB {k : Nat} (ls : List (Layer k)) (a : Fin k) (i : Nat) : ℚ :=
  match ls with
  | [] => 1
  | l0 :: _ => (ls.foldl (fun (g : Nat → ℚ) l => if l.axis = a then l.kapB a else g) (l0.kapB a)) i

/-- assignment to one element of an auxiliary field -/
def setPsi {k : Nat} (psi : Fin 3 → Arr k) (comp : Fin 3) (c : Fin k → Int) (x : ℚ) : Fin 3 → Arr k :=
  fun d => if d = comp then put (psi d) c x else psi d

/-- loop nest over a 2D block -/
def block2 (lo hi : Fin 2 → Nat) : List (Fin 2 → Nat) :=
  (List.range' (lo 0) (hi 0 - lo 0)).flatMap fun ix => (List.range' (lo 1) (hi 1 - lo 1)).map fun iy => ![ix, iy]

/-- loop nest over a 3D block -/
def block3 (lo hi : Fin 3 → Nat) : List (Fin 3 → Nat) :=
  (List.range' (lo 0) (hi 0 - lo 0)).flatMap fun ix => (List.range' (lo 1) (hi 1 - lo 1)).flatMap fun iy =>
    (List.range' (lo 2) (hi 2 - lo 2)).map fun iz => ![ix, iy, iz]


section TwoD
variable (nx ny ng : Nat) (P : Par 2) (dt : ℚ) (ex : ℚ → ℚ)

/-- loop body of `update_efield_cpml_2d` (cpml.py 354-361) -/
def eCpml2 (kx ky : Nat → ℚ) (f : Fields 2) (u : Fin 2 → Nat) : Fields 2 :=
  let i : Int := u 0
  let j : Int := u 1
  let c := at2 nx ny ng
  let bx := dt * P.c2 / kx (u 0)
  let by_ := dt * P.c2 / ky (u 1)
  let jf := dt / P.eps0
  let f := f.setE 0 (c i j) (f.e 0 (c i j) +
    (by_ * ((f.b 2 (c i j) - f.b 2 (c i (j - 1))) / P.d 1) - jf * f.j 0 (c i j)))
  let f := f.setE 1 (c i j) (f.e 1 (c i j) +
    (bx * (-(f.b 2 (c i j) - f.b 2 (c (i - 1) j)) / P.d 0) - jf * f.j 1 (c i j)))
  let f := f.setE 2 (c i j) (f.e 2 (c i j) +
    (bx * ((f.b 1 (c i j) - f.b 1 (c (i - 1) j)) / P.d 0)
      - by_ * ((f.b 0 (c i j) - f.b 0 (c i (j - 1))) / P.d 1) - jf * f.j 2 (c i j)))
  f

/-- loop body of `update_bfield_cpml_2d` (cpml.py 371-378) -/
def bCpml2 (kx ky : Nat → ℚ) (f : Fields 2) (u : Fin 2 → Nat) : Fields 2 :=
  let i : Int := u 0
  let j : Int := u 1
  let c := at2 nx ny ng
  let ex := dt / kx (u 0)
  let ey := dt / ky (u 1)
  let f := f.setB 0 (c i j) (f.b 0 (c i j) -
    ey * ((f.e 2 (c i (j + 1)) - f.e 2 (c i j)) / P.d 1))
  let f := f.setB 1 (c i j) (f.b 1 (c i j) -
    ex * (-(f.e 2 (c (i + 1) j) - f.e 2 (c i j)) / P.d 0))
  let f := f.setB 2 (c i j) (f.b 2 (c i j) -
    (ex * ((f.e 1 (c (i + 1) j) - f.e 1 (c i j)) / P.d 0) - ey * ((f.e 0 (c i (j + 1)) - f.e 0 (c i j)) / P.d 1)))
  f

/-- loop body of `update_psi_x_and_e_2d` (cpml.py 531-548) -/
def psiXE2 (kappa sigma a : Nat → ℚ) (s : Fields 2 × (Fin 3 → Arr 2)) (u : Fin 2 → Nat) : Fields 2 × (Fin 3 → Arr 2) :=
  let i : Int := u 0
  let j : Int := u 1
  let c := at2 nx ny ng
  let f := s.1
  let psi := s.2
  let fac := dt * P.c2
  let b := ex (-(sigma (u 0) / kappa (u 0) + a (u 0)) * dt)
  let cc := ccoeff b (kappa (u 0)) (sigma (u 0)) (a (u 0)) (P.d 0)
  let psi := setPsi psi 1 (c i j) (b * psi 1 (c i j) + cc * (f.b 2 (c i j) - f.b 2 (c (i - 1) j)))
  let psi := setPsi psi 2 (c i j) (b * psi 2 (c i j) + cc * (f.b 1 (c i j) - f.b 1 (c (i - 1) j)))
  let f := f.setE 1 (c i j) (f.e 1 (c i j) - fac * psi 1 (c i j))
  let f := f.setE 2 (c i j) (f.e 2 (c i j) + fac * psi 2 (c i j))
  (f, psi)

/-- loop body of `update_psi_x_and_b_2d` (cpml.py 550-567) -/
def psiXB2 (kappa sigma a : Nat → ℚ) (s : Fields 2 × (Fin 3 → Arr 2)) (u : Fin 2 → Nat) : Fields 2 × (Fin 3 → Arr 2) :=
  let i : Int := u 0
  let j : Int := u 1
  let c := at2 nx ny ng
  let f := s.1
  let psi := s.2
  let fac := dt
  let b := ex (-(sigma (u 0) / kappa (u 0) + a (u 0)) * dt)
  let cc := ccoeff b (kappa (u 0)) (sigma (u 0)) (a (u 0)) (P.d 0)
  let psi := setPsi psi 1 (c i j) (b * psi 1 (c i j) + cc * (f.e 2 (c (i + 1) j) - f.e 2 (c i j)))
  let psi := setPsi psi 2 (c i j) (b * psi 2 (c i j) + cc * (f.e 1 (c (i + 1) j) - f.e 1 (c i j)))
  let f := f.setB 1 (c i j) (f.b 1 (c i j) + fac * psi 1 (c i j))
  let f := f.setB 2 (c i j) (f.b 2 (c i j) - fac * psi 2 (c i j))
  (f, psi)

/-- loop body of `update_psi_y_and_e_2d` (cpml.py 569-586) -/
def psiYE2 (kappa sigma a : Nat → ℚ) (s : Fields 2 × (Fin 3 → Arr 2)) (u : Fin 2 → Nat) : Fields 2 × (Fin 3 → Arr 2) :=
  let i : Int := u 0
  let j : Int := u 1
  let c := at2 nx ny ng
  let f := s.1
  let psi := s.2
  let fac := dt * P.c2
  let b := ex (-(sigma (u 1) / kappa (u 1) + a (u 1)) * dt)
  let cc := ccoeff b (kappa (u 1)) (sigma (u 1)) (a (u 1)) (P.d 1)
  let psi := setPsi psi 0 (c i j) (b * psi 0 (c i j) + cc * (f.b 2 (c i j) - f.b 2 (c i (j - 1))))
  let psi := setPsi psi 2 (c i j) (b * psi 2 (c i j) + cc * (f.b 0 (c i j) - f.b 0 (c i (j - 1))))
  let f := f.setE 0 (c i j) (f.e 0 (c i j) + fac * psi 0 (c i j))
  let f := f.setE 2 (c i j) (f.e 2 (c i j) - fac * psi 2 (c i j))
  (f, psi)

/-- loop body of `update_psi_y_and_b_2d` (cpml.py 588-605) -/
def psiYB2 (kappa sigma a : Nat → ℚ) (s : Fields 2 × (Fin 3 → Arr 2)) (u : Fin 2 → Nat) : Fields 2 × (Fin 3 → Arr 2) :=
  let i : Int := u 0
  let j : Int := u 1
  let c := at2 nx ny ng
  let f := s.1
  let psi := s.2
  let fac := dt
  let b := ex (-(sigma (u 1) / kappa (u 1) + a (u 1)) * dt)
  let cc := ccoeff b (kappa (u 1)) (sigma (u 1)) (a (u 1)) (P.d 1)
  let psi := setPsi psi 0 (c i j) (b * psi 0 (c i j) + cc * (f.e 2 (c i (j + 1)) - f.e 2 (c i j)))
  let psi := setPsi psi 2 (c i j) (b * psi 2 (c i j) + cc * (f.e 0 (c i (j + 1)) - f.e 0 (c i j)))
  let f := f.setB 0 (c i j) (f.b 0 (c i j) - fac * psi 0 (c i j))
  let f := f.setB 2 (c i j) (f.b 2 (c i j) + fac * psi 2 (c i j))
  (f, psi)


/-- `update_efield_cpml_2d` (cpml.py 343-361) -/
def updateEc2 (kx ky : Nat → ℚ) (f : Fields 2) : Fields 2 := (cells2 ![nx, ny]).foldl (eCpml2 nx ny ng P dt kx ky) f
/-- `update_bfield_cpml_2d` (cpml.py 363-378) -/
def updateBc2 (kx ky : Nat → ℚ) (f : Fields 2) : Fields 2 := (cells2 ![nx, ny]).foldl (bCpml2 nx ny ng P dt kx ky) f

/-- `advance_e_currents` of a 2D layer (cpml.py 143-153, 176-188) -/
def advanceE2 (l : Layer 2) (f : Fields 2) : Fields 2 × Layer 2 :=
  let r := if l.axis = 0 then (block2 ![l.startE, 0] ![l.stopE, ny]).foldl (psiXE2 nx ny ng P dt ex l.kE l.sE l.aE) (f, l.psiE)
    else (block2 ![0, l.startE] ![nx, l.stopE]).foldl (psiYE2 nx ny ng P dt ex l.kE l.sE l.aE) (f, l.psiE)
  (r.1, { l with psiE := r.2 })

/-- `advance_b_currents` of a 2D layer (cpml.py 155-165, 190-202) -/
def advanceB2 (l : Layer 2) (f : Fields 2) : Fields 2 × Layer 2 :=
  let r := if l.axis = 0 then (block2 ![l.startB, 0] ![l.stopB, ny]).foldl (psiXB2 nx ny ng P dt ex l.kB l.sB l.aB) (f, l.psiB)
    else (block2 ![0, l.startB] ![nx, l.stopB]).foldl (psiYB2 nx ny ng P dt ex l.kB l.sB l.aB) (f, l.psiB)
  (r.1, { l with psiB := r.2 })

/-- `MaxwellSolver2D.update_efield` on one patch with layers (solver.py 153-166); a patch without layers gets `updateE2` (144-151) -/
def solverE2 (ls : List (Layer 2)) (f : Fields 2) : Fields 2 × List (Layer 2) :=
  if ls = [] then (updateE2 nx ny ng P dt f, [])
  else ls.foldl (fun s l => let r := advanceE2 nx ny ng P dt ex l s.1; (r.1, s.2 ++ [r.2]))
    (updateEc2 nx ny ng P dt (kappaListE ls 0) (kappaListE ls 1) f, [])

/-- `MaxwellSolver2D.update_bfield` on one patch with layers (solver.py 169-190) -/
def solverB2 (ls : List (Layer 2)) (f : Fields 2) : Fields 2 × List (Layer 2) :=
  if ls = [] then (updateB2 nx ny ng P dt f, [])
  else ls.foldl (fun s l => let r := advanceB2 nx ny ng P dt ex l s.1; (r.1, s.2 ++ [r.2]))
    (updateBc2 nx ny ng P dt (kappaListB ls 0) (kappaListB ls 1) f, [])
end TwoD

section ThreeD
variable (nx ny nz ng : Nat) (P : Par 3) (dt : ℚ) (ex : ℚ → ℚ)

/-- loop body of `update_efield_cpml_3d` (cpml.py 440-453) -/
def eCpml3 (kx ky kz : Nat → ℚ) (f : Fields 3) (u : Fin 3 → Nat) : Fields 3 :=
  let i : Int := u 0
  let j : Int := u 1
  let k : Int := u 2
  let c := at3 nx ny nz ng
  let bx := dt * P.c2 / kx (u 0)
  let by_ := dt * P.c2 / ky (u 1)
  let bz := dt * P.c2 / kz (u 2)
  let jf := dt / P.eps0
  let f := f.setE 0 (c i j k) (f.e 0 (c i j k) +
    ((by_ * (f.b 2 (c i j k) - f.b 2 (c i (j - 1) k)) / P.d 1
      - bz * (f.b 1 (c i j k) - f.b 1 (c i j (k - 1))) / P.d 2) - jf * f.j 0 (c i j k)))
  let f := f.setE 1 (c i j k) (f.e 1 (c i j k) +
    ((bz * (f.b 0 (c i j k) - f.b 0 (c i j (k - 1))) / P.d 2
      - bx * (f.b 2 (c i j k) - f.b 2 (c (i - 1) j k)) / P.d 0) - jf * f.j 1 (c i j k)))
  let f := f.setE 2 (c i j k) (f.e 2 (c i j k) +
    ((bx * (f.b 1 (c i j k) - f.b 1 (c (i - 1) j k)) / P.d 0
      - by_ * (f.b 0 (c i j k) - f.b 0 (c i (j - 1) k)) / P.d 1) - jf * f.j 2 (c i j k)))
  f

/-- loop body of `update_bfield_cpml_3d` (cpml.py 463-474) -/
def bCpml3 (kx ky kz : Nat → ℚ) (f : Fields 3) (u : Fin 3 → Nat) : Fields 3 :=
  let i : Int := u 0
  let j : Int := u 1
  let k : Int := u 2
  let c := at3 nx ny nz ng
  let ex := dt / kx (u 0)
  let ey := dt / ky (u 1)
  let ez := dt / kz (u 2)
  let f := f.setB 0 (c i j k) (f.b 0 (c i j k) -
    (ey * (f.e 2 (c i (j + 1) k) - f.e 2 (c i j k)) / P.d 1
      - ez * (f.e 1 (c i j (k + 1)) - f.e 1 (c i j k)) / P.d 2))
  let f := f.setB 1 (c i j k) (f.b 1 (c i j k) -
    (ez * (f.e 0 (c i j (k + 1)) - f.e 0 (c i j k)) / P.d 2
      - ex * (f.e 2 (c (i + 1) j k) - f.e 2 (c i j k)) / P.d 0))
  let f := f.setB 2 (c i j k) (f.b 2 (c i j k) -
    (ex * (f.e 1 (c (i + 1) j k) - f.e 1 (c i j k)) / P.d 0
      - ey * (f.e 0 (c i (j + 1) k) - f.e 0 (c i j k)) / P.d 1))
  f

/-- loop body of `update_psi_x_and_e_3d` (cpml.py 607-627) -/
def psiXE3 (kappa sigma a : Nat → ℚ) (s : Fields 3 × (Fin 3 → Arr 3)) (u : Fin 3 → Nat) : Fields 3 × (Fin 3 → Arr 3) :=
  let i : Int := u 0
  let j : Int := u 1
  let k : Int := u 2
  let c := at3 nx ny nz ng
  let f := s.1
  let psi := s.2
  let fac := dt * P.c2
  let b := ex (-(sigma (u 0) / kappa (u 0) + a (u 0)) * dt)
  let cc := ccoeff b (kappa (u 0)) (sigma (u 0)) (a (u 0)) (P.d 0)
  let psi := setPsi psi 1 (c i j k) (b * psi 1 (c i j k) + cc * (f.b 2 (c i j k) - f.b 2 (c (i - 1) j k)))
  let psi := setPsi psi 2 (c i j k) (b * psi 2 (c i j k) + cc * (f.b 1 (c i j k) - f.b 1 (c (i - 1) j k)))
  let f := f.setE 1 (c i j k) (f.e 1 (c i j k) - fac * psi 1 (c i j k))
  let f := f.setE 2 (c i j k) (f.e 2 (c i j k) + fac * psi 2 (c i j k))
  (f, psi)

/-- loop body of `update_psi_x_and_b_3d` (cpml.py 628-648) -/
def psiXB3 (kappa sigma a : Nat → ℚ) (s : Fields 3 × (Fin 3 → Arr 3)) (u : Fin 3 → Nat) : Fields 3 × (Fin 3 → Arr 3) :=
  let i : Int := u 0
  let j : Int := u 1
  let k : Int := u 2
  let c := at3 nx ny nz ng
  let f := s.1
  let psi := s.2
  let fac := dt
  let b := ex (-(sigma (u 0) / kappa (u 0) + a (u 0)) * dt)
  let cc := ccoeff b (kappa (u 0)) (sigma (u 0)) (a (u 0)) (P.d 0)
  let psi := setPsi psi 1 (c i j k) (b * psi 1 (c i j k) + cc * (f.e 2 (c (i + 1) j k) - f.e 2 (c i j k)))
  let psi := setPsi psi 2 (c i j k) (b * psi 2 (c i j k) + cc * (f.e 1 (c (i + 1) j k) - f.e 1 (c i j k)))
  let f := f.setB 1 (c i j k) (f.b 1 (c i j k) + fac * psi 1 (c i j k))
  let f := f.setB 2 (c i j k) (f.b 2 (c i j k) - fac * psi 2 (c i j k))
  (f, psi)

/-- loop body of `update_psi_y_and_e_3d` (cpml.py 649-668) -/
def psiYE3 (kappa sigma a : Nat → ℚ) (s : Fields 3 × (Fin 3 → Arr 3)) (u : Fin 3 → Nat) : Fields 3 × (Fin 3 → Arr 3) :=
  let i : Int := u 0
  let j : Int := u 1
  let k : Int := u 2
  let c := at3 nx ny nz ng
  let f := s.1
  let psi := s.2
  let fac := dt * P.c2
  let b := ex (-(sigma (u 1) / kappa (u 1) + a (u 1)) * dt)
  let cc := ccoeff b (kappa (u 1)) (sigma (u 1)) (a (u 1)) (P.d 1)
  let psi := setPsi psi 0 (c i j k) (b * psi 0 (c i j k) + cc * (f.b 2 (c i j k) - f.b 2 (c i (j - 1) k)))
  let psi := setPsi psi 2 (c i j k) (b * psi 2 (c i j k) + cc * (f.b 0 (c i j k) - f.b 0 (c i (j - 1) k)))
  let f := f.setE 0 (c i j k) (f.e 0 (c i j k) + fac * psi 0 (c i j k))
  let f := f.setE 2 (c i j k) (f.e 2 (c i j k) - fac * psi 2 (c i j k))
  (f, psi)

/-- loop body of `update_psi_y_and_b_3d` (cpml.py 669-688) -/
def psiYB3 (kappa sigma a : Nat → ℚ) (s : Fields 3 × (Fin 3 → Arr 3)) (u : Fin 3 → Nat) : Fields 3 × (Fin 3 → Arr 3) :=
  let i : Int := u 0
  let j : Int := u 1
  let k : Int := u 2
  let c := at3 nx ny nz ng
  let f := s.1
  let psi := s.2
  let fac := dt
  let b := ex (-(sigma (u 1) / kappa (u 1) + a (u 1)) * dt)
  let cc := ccoeff b (kappa (u 1)) (sigma (u 1)) (a (u 1)) (P.d 1)
  let psi := setPsi psi 0 (c i j k) (b * psi 0 (c i j k) + cc * (f.e 2 (c i (j + 1) k) - f.e 2 (c i j k)))
  let psi := setPsi psi 2 (c i j k) (b * psi 2 (c i j k) + cc * (f.e 0 (c i (j + 1) k) - f.e 0 (c i j k)))
  let f := f.setB 0 (c i j k) (f.b 0 (c i j k) - fac * psi 0 (c i j k))
  let f := f.setB 2 (c i j k) (f.b 2 (c i j k) + fac * psi 2 (c i j k))
  (f, psi)

/-- loop body of `update_psi_z_and_e_3d` (cpml.py 689-709) -/
def psiZE3 (kappa sigma a : Nat → ℚ) (s : Fields 3 × (Fin 3 → Arr 3)) (u : Fin 3 → Nat) : Fields 3 × (Fin 3 → Arr 3) :=
  let i : Int := u 0
  let j : Int := u 1
  let k : Int := u 2
  let c := at3 nx ny nz ng
  let f := s.1
  let psi := s.2
  let fac := dt * P.c2
  let b := ex (-(sigma (u 2) / kappa (u 2) + a (u 2)) * dt)
  let cc := ccoeff b (kappa (u 2)) (sigma (u 2)) (a (u 2)) (P.d 2)
  let psi := setPsi psi 0 (c i j k) (b * psi 0 (c i j k) + cc * (f.b 1 (c i j k) - f.b 1 (c i j (k - 1))))
  let psi := setPsi psi 1 (c i j k) (b * psi 1 (c i j k) + cc * (f.b 0 (c i j k) - f.b 0 (c i j (k - 1))))
  let f := f.setE 0 (c i j k) (f.e 0 (c i j k) - fac * psi 0 (c i j k))
  let f := f.setE 1 (c i j k) (f.e 1 (c i j k) + fac * psi 1 (c i j k))
  (f, psi)

/-- loop body of `update_psi_z_and_b_3d` (cpml.py 710-730) -/
def psiZB3 (kappa sigma a : Nat → ℚ) (s : Fields 3 × (Fin 3 → Arr 3)) (u : Fin 3 → Nat) : Fields 3 × (Fin 3 → Arr 3) :=
  let i : Int := u 0
  let j : Int := u 1
  let k : Int := u 2
  let c := at3 nx ny nz ng
  let f := s.1
  let psi := s.2
  let fac := dt
  let b := ex (-(sigma (u 2) / kappa (u 2) + a (u 2)) * dt)
  let cc := ccoeff b (kappa (u 2)) (sigma (u 2)) (a (u 2)) (P.d 2)
  let psi := setPsi psi 0 (c i j k) (b * psi 0 (c i j k) + cc * (f.e 1 (c i j (k + 1)) - f.e 1 (c i j k)))
  let psi := setPsi psi 1 (c i j k) (b * psi 1 (c i j k) + cc * (f.e 0 (c i j (k + 1)) - f.e 0 (c i j k)))
  let f := f.setB 0 (c i j k) (f.b 0 (c i j k) + fac * psi 0 (c i j k))
  let f := f.setB 1 (c i j k) (f.b 1 (c i j k) - fac * psi 1 (c i j k))
  (f, psi)


/-- `update_efield_cpml_3d` (cpml.py 430-453) -/
def updateEc3 (kx ky kz : Nat → ℚ) (f : Fields 3) : Fields 3 := (cells3 ![nx, ny, nz]).foldl (eCpml3 nx ny nz ng P dt kx ky kz) f
/-- `update_bfield_cpml_3d` (cpml.py 455-474) -/
def updateBc3 (kx ky kz : Nat → ℚ) (f : Fields 3) : Fields 3 := (cells3 ![nx, ny, nz]).foldl (bCpml3 nx ny nz ng P dt kx ky kz) f

/-- `advance_e_currents` of a 3D layer (cpml.py 143-150, 176-185, 214-221) -/
def advanceE3 (l : Layer 3) (f : Fields 3) : Fields 3 × Layer 3 :=
  let r := if l.axis = 0 then (block3 ![l.startE, 0, 0] ![l.stopE, ny, nz]).foldl (psiXE3 nx ny nz ng P dt ex l.kE l.sE l.aE) (f, l.psiE)
    else if l.axis = 1 then (block3 ![0, l.startE, 0] ![nx, l.stopE, nz]).foldl (psiYE3 nx ny nz ng P dt ex l.kE l.sE l.aE) (f, l.psiE)
    else (block3 ![0, 0, l.startE] ![nx, ny, l.stopE]).foldl (psiZE3 nx ny nz ng P dt ex l.kE l.sE l.aE) (f, l.psiE)
  (r.1, { l with psiE := r.2 })

/-- `advance_b_currents` of a 3D layer (cpml.py 155-162, 190-199, 223-230) -/
def advanceB3 (l : Layer 3) (f : Fields 3) : Fields 3 × Layer 3 :=
  let r := if l.axis = 0 then (block3 ![l.startB, 0, 0] ![l.stopB, ny, nz]).foldl (psiXB3 nx ny nz ng P dt ex l.kB l.sB l.aB) (f, l.psiB)
    else if l.axis = 1 then (block3 ![0, l.startB, 0] ![nx, l.stopB, nz]).foldl (psiYB3 nx ny nz ng P dt ex l.kB l.sB l.aB) (f, l.psiB)
    else (block3 ![0, 0, l.startB] ![nx, ny, l.stopB]).foldl (psiZB3 nx ny nz ng P dt ex l.kB l.sB l.aB) (f, l.psiB)
  (r.1, { l with psiB := r.2 })

/-- `MaxwellSolver3D.update_efield` on one patch (solver.py 201-227) -/
def solverE3 (ls : List (Layer 3)) (f : Fields 3) : Fields 3 × List (Layer 3) :=
  if ls = [] then (updateE3 nx ny nz ng P dt f, [])
  else ls.foldl (fun s l => let r := advanceE3 nx ny nz ng P dt ex l s.1; (r.1, s.2 ++ [r.2]))
    (updateEc3 nx ny nz ng P dt (kappaListE ls 0) (kappaListE ls 1) (kappaListE ls 2) f, [])

/-- `MaxwellSolver3D.update_bfield` on one patch (solver.py 229-253) -/
def solverB3 (ls : List (Layer 3)) (f : Fields 3) : Fields 3 × List (Layer 3) :=
  if ls = [] then (updateB3 nx ny nz ng P dt f, [])
  else ls.foldl (fun s l => let r := advanceB3 nx ny nz ng P dt ex l s.1; (r.1, s.2 ++ [r.2]))
    (updateBc3 nx ny nz ng P dt (kappaListB ls 0) (kappaListB ls 1) (kappaListB ls 2) f, [])
end ThreeD

/-! ### which layers a patch gets -/

/-- `sigma_maxval` (cpml.py 57): `sigma_max * c * 0.8 * (3 + 1) / dx`, with `dx` for every axis -/
def sigmaMaxval {F : Type} [Field F] (sigma_max c dx : F) : F := sigma_max * c * (8 / 10) * (3 + 1) / dx

/-- `Patch2D.add_pml_boundary` (patch.py 291-298); `none` is a failed assertion. The assertion on the size always holds for a layer that could be built -/
def addPml2 (ls : List (Layer 2)) (l : Layer 2) : Option (List (Layer 2)) :=
  match ls with
  | [] => some [l]
  | [l0] => if (decide (l0.axis = 0)).xor (decide (l.axis = 0)) then some [l0, l] else none
  | _ => none

/-- `Patch3D.add_pml_boundary` (patch.py 382-386) -/
def addPml3 (ls : List (Layer 3)) (l : Layer 3) : Option (List (Layer 3)) :=
  if ls.length < 3 then some (ls ++ [l]) else none

/-- the condition of `_init_pml` for one side: the patch is at that edge and the boundary condition there is `pml` -/
def edge {k : Nat} (np i : Fin k → Nat) (bc : Fin k → Bool → Bool) (s : Fin k × Bool) : Bool :=
  (if s.2 then decide (i s.1 + 1 = np s.1) else decide (i s.1 = 0)) && bc s.1 s.2

/-- `_init_pml` for one patch (simulation.py 450-464, 1348-1367): the sides in the order of the code; `t` is `cpml_thickness` and `smax` the
`sigma_maxval`, `kappa_max` and `a_max` have their default values -/
def initPml {k : Nat} (add : List (Layer k) → Layer k → Option (List (Layer k))) (np n i : Fin k → Nat) (bc : Fin k → Bool → Bool) (t : Nat) (smax : ℚ) :
    List (Fin k × Bool) → List (Layer k) → Option (List (Layer k))
  | [], ls => some ls
  | s :: ss, ls =>
    if edge np i bc s then ((buildChecked s.1 n ⟨s.2, t, 20, 15 / 100, smax⟩).bind (add ls)).bind (initPml add np n i bc t smax ss)
    else initPml add np n i bc t smax ss ls

/-- the layers of a 2D patch (simulation.py 450-464) -/
def initPml2 (np n i : Fin 2 → Nat) (bc : Fin 2 → Bool → Bool) (t : Nat) (smax : ℚ) : Option (List (Layer 2)) :=
  initPml addPml2 np n i bc t smax [(0, false), (0, true), (1, false), (1, true)] []

/-- the layers of a 3D patch (simulation.py 1348-1367) -/
def initPml3 (np n i : Fin 3 → Nat) (bc : Fin 3 → Bool → Bool) (t : Nat) (smax : ℚ) : Option (List (Layer 3)) :=
  initPml addPml3 np n i bc t smax [(0, false), (0, true), (1, false), (1, true), (2, false), (2, true)] []

end Verif.Cpml
