import Mathlib.Data.Real.Sqrt
import Mathlib.Analysis.SpecialFunctions.Trigonometric.Basic
import Mathlib.Analysis.SpecialFunctions.Log.Basic
/-!
# One binary collision

Models `collision_data`, `coulomb_scattering`, `rotate_momentum`, `boost_to_lab` (core/collision/utils.py 27-205) and
`varying_lnLambda`, `collision_kernel` (core/collision/cpu.py 253-278, 375-428) over the real numbers. Random numbers are
parameters. The constants are positive parameters. `√` of a negative number, which would be NaN, is 0 in Lean; Props/Coulomb
shows that it does not occur.
-/
namespace Verif.Coulomb

/-- physical constants (scipy.constants) -/
structure Consts where
  c : ℝ
  eps0 : ℝ
  h : ℝ

structure V3 where
  x : ℝ
  y : ℝ
  z : ℝ

/-- one particle as far as collisions are concerned: `ux, uy, uz, inv_gamma, w` -/
structure Part where
  u : V3
  invGamma : ℝ
  w : ℝ

/-- mass and charge of a species -/
structure Kind where
  m : ℝ
  q : ℝ

/-- the fields of `CollisionData` that are used -/
structure Data where
  gamma1 : ℝ
  gamma2 : ℝ
  w1 : ℝ
  w2 : ℝ
  v : V3
  v2 : ℝ
  gammaCom : ℝ
  p1 : V3
  pLen : ℝ
  pPerp : ℝ
  gamma1Com : ℝ
  gamma2Com : ℝ

/-- `fac` (utils.py 53, 200) -/
noncomputable def fac (gammaCom v2 : ℝ) : ℝ := if v2 > 0 then (gammaCom - 1) / v2 else 0

/-- `collision_data` (utils.py 27-72) -/
noncomputable def collisionData (K : Consts) (a : Part) (A : Kind) (b : Part) (B : Kind) : Data :=
  let px1 := a.u.x * A.m * K.c
  let py1 := a.u.y * A.m * K.c
  let pz1 := a.u.z * A.m * K.c
  let gamma1 := 1 / a.invGamma
  let px2 := b.u.x * B.m * K.c
  let py2 := b.u.y * B.m * K.c
  let pz2 := b.u.z * B.m * K.c
  let gamma2 := 1 / b.invGamma
  let vx1 := a.u.x * a.invGamma * K.c
  let vy1 := a.u.y * a.invGamma * K.c
  let vz1 := a.u.z * a.invGamma * K.c
  let vx2 := b.u.x * b.invGamma * K.c
  let vy2 := b.u.y * b.invGamma * K.c
  let vz2 := b.u.z * b.invGamma * K.c
  let vx := (px1 + px2) / (gamma1 * A.m + gamma2 * B.m)
  let vy := (py1 + py2) / (gamma1 * A.m + gamma2 * B.m)
  let vz := (pz1 + pz2) / (gamma1 * A.m + gamma2 * B.m)
  let v2 := vx ^ 2 + vy ^ 2 + vz ^ 2
  let gammaCom := 1 / √(1 - v2 / K.c ^ 2)
  let f := fac gammaCom v2
  let px := px1 + (f * (vx1 * vx + vy1 * vy + vz1 * vz) - gammaCom) * A.m * gamma1 * vx
  let py := py1 + (f * (vx1 * vx + vy1 * vy + vz1 * vz) - gammaCom) * A.m * gamma1 * vy
  let pz := pz1 + (f * (vx1 * vx + vy1 * vy + vz1 * vz) - gammaCom) * A.m * gamma1 * vz
  { gamma1 := gamma1, gamma2 := gamma2, w1 := a.w, w2 := b.w, v := ⟨vx, vy, vz⟩, v2 := v2, gammaCom := gammaCom,
    p1 := ⟨px, py, pz⟩, pLen := √(px ^ 2 + py ^ 2 + pz ^ 2), pPerp := √(px ^ 2 + py ^ 2),
    gamma1Com := (1 - (vx * vx1 + vy * vy1 + vz * vz1) / K.c ^ 2) * gammaCom * gamma1,
    gamma2Com := (1 - (vx * vx2 + vy * vy2 + vz * vz2) / K.c ^ 2) * gammaCom * gamma2 }

/-- `rotate_momentum` (utils.py 161-177) -/
noncomputable def rotate (p : V3) (pLen pPerp cosX sinX phi : ℝ) : V3 :=
  let sc := sinX * Real.cos phi
  let ss := sinX * Real.sin phi
  if pPerp > 1 / 10 ^ 10 * pLen then
    ⟨(p.x * p.z * sc - p.y * pLen * ss) / pPerp + p.x * cosX, (p.y * p.z * sc + p.x * pLen * ss) / pPerp + p.y * cosX,
      -pPerp * sc + p.z * cosX⟩
  else ⟨pLen * sc, pLen * ss, pLen * cosX⟩

/-- the collision parameter `s` (utils.py 139-140); `dt` is already multiplied by `dt_corr` -/
noncomputable def sParam (K : Consts) (A B : Kind) (d : Data) (cellVol dt lnLambda : ℝ) : ℝ :=
  max d.w1 d.w2 / cellVol * dt * (lnLambda * (A.q * B.q) ^ 2) /
    (4 * Real.pi * K.eps0 ^ 2 * K.c ^ 4 * A.m * d.gamma1 * B.m * d.gamma2) *
    (d.gammaCom * d.pLen) / (A.m * d.gamma1 + B.m * d.gamma2) *
    (A.m * d.gamma1Com * B.m * d.gamma2Com / d.pLen ^ 2 * K.c ^ 2 + 1) ^ 2

/-- cosine and sine of the scattering angle (utils.py 142-151) -/
noncomputable def angle (s U : ℝ) : ℝ × ℝ :=
  if s < 4 then
    let alpha := 37 / 100 * s - 5 / 1000 * s ^ 2 - 64 / 10000 * s ^ 3
    let sin2 := alpha * U / √((1 - U) + alpha * alpha * U)
    (1 - 2 * sin2, 2 * √(sin2 * (1 - sin2)))
  else (2 * U - 1, √(1 - (2 * U - 1) * (2 * U - 1)))

/-- `coulomb_scattering` (utils.py 102-156); `U` and `phi` are the two draws -/
noncomputable def scatter (K : Consts) (A B : Kind) (d : Data) (cellVol dt lnLambda U phi : ℝ) : V3 :=
  if d.pLen = 0 then d.p1
  else
    let a := angle (sParam K A B d cellVol dt lnLambda) U
    rotate d.p1 d.pLen d.pPerp a.1 a.2 phi

/-- `boost_to_lab` (utils.py 181-205) -/
noncomputable def boostToLab (p : V3) (gammaP m : ℝ) (v : V3) (v2 gammaCom : ℝ) : V3 :=
  let dot := v.x * p.x + v.y * p.y + v.z * p.z
  let f := fac gammaCom v2
  ⟨p.x + v.x * (f * dot + m * gammaP * gammaCom), p.y + v.y * (f * dot + m * gammaP * gammaCom),
    p.z + v.z * (f * dot + m * gammaP * gammaCom)⟩

/-- `varying_lnLambda` (cpu.py 253-278) -/
noncomputable def varyingLnLambda (K : Consts) (A B : Kind) (d : Data) (debyeInvSq : ℝ) : ℝ :=
  let b0 := |A.q * B.q| / (4 * Real.pi * K.eps0 * K.c ^ 2) * d.gammaCom / (A.m * d.gamma1Com + B.m * d.gamma2Com) *
    ((A.m * d.gamma1Com * B.m * d.gamma2Com) / d.pLen ^ 2 * K.c ^ 2 + 1)
  let bmin := max (K.h / 2 / d.pLen) b0
  if debyeInvSq > 0 then max 2 (1 / 2 * Real.log (1 + (1 / debyeInvSq) / bmin ^ 2)) else 2

/-- the new state of a particle from its new momentum (cpu.py 420-421, 427-428) -/
noncomputable def setMomentum (K : Consts) (A : Kind) (a : Part) (p : V3) : Part :=
  let u : V3 := ⟨p.x / A.m / K.c, p.y / A.m / K.c, p.z / A.m / K.c⟩
  ⟨u, 1 / √(u.x ^ 2 + u.y ^ 2 + u.z ^ 2 + 1), a.w⟩

/-- the draws of one collision -/
structure Draws where
  angleU : ℝ
  phi : ℝ
  selectU : ℝ

/-- the remaining parameters of one collision -/
structure Params where
  lnLambda : ℝ
  debyeInvSq : ℝ
  dtCorr : ℝ
  wCorr : ℝ
  cellVol : ℝ
  dt : ℝ

/-- `collision_kernel` (cpu.py 375-428): the two particles afterwards -/
noncomputable def kernel (K : Consts) (A B : Kind) (P : Params) (r : Draws) (a b : Part) : Part × Part :=
  let w1 := a.w * P.wCorr
  let w2 := b.w * P.wCorr
  let wMax := max w1 w2
  let d := collisionData K ⟨a.u, a.invGamma, w1⟩ A ⟨b.u, b.invGamma, w2⟩ B
  if d.pLen = 0 then (a, b)
  else
    let lnL := if P.lnLambda > 0 then P.lnLambda else varyingLnLambda K A B d P.debyeInvSq
    let p := scatter K A B d P.cellVol (P.dt * P.dtCorr) lnL r.angleU r.phi
    (if w2 / wMax > r.selectU then setMomentum K A a (boostToLab p d.gamma1Com A.m d.v d.v2 d.gammaCom) else a,
     if w1 / wMax > r.selectU then
       setMomentum K B b (boostToLab ⟨-p.x, -p.y, -p.z⟩ d.gamma2Com B.m d.v d.v2 d.gammaCom) else b)

end Verif.Coulomb
