import Verif.Proofs.Coulomb
/-!
# C41 — a collision conserves momentum and energy
-/
namespace Verif.Coulomb

/-! ## specification -/

/-- momentum `m c u` of a particle -/
def momentum (K : Consts) (A : Kind) (a : Part) : V3 := ⟨A.m * K.c * a.u.x, A.m * K.c * a.u.y, A.m * K.c * a.u.z⟩

/-- energy `m c² √(1 + u²)` of a particle -/
noncomputable def energy (K : Consts) (A : Kind) (a : Part) : ℝ :=
  A.m * K.c ^ 2 * √(1 + (a.u.x ^ 2 + a.u.y ^ 2 + a.u.z ^ 2))

/-- the stored `inv_gamma` belongs to the stored momentum -/
def Consistent (a : Part) : Prop := a.invGamma = 1 / √(1 + (a.u.x ^ 2 + a.u.y ^ 2 + a.u.z ^ 2))

/-- admissible constants, species and parameters -/
structure Admissible (K : Consts) (A B : Kind) (P : Params) (r : Draws) : Prop where
  c : 0 < K.c
  eps0 : 0 < K.eps0
  h : 0 < K.h
  mA : 0 < A.m
  mB : 0 < B.m
  lnLambda : 0 ≤ P.lnLambda
  dtCorr : 0 ≤ P.dtCorr
  wCorr : 0 < P.wCorr
  cellVol : 0 < P.cellVol
  dt : 0 ≤ P.dt
  angleU : 0 ≤ r.angleU ∧ r.angleU < 1
  selectU : 0 ≤ r.selectU ∧ r.selectU < 1

/-- two momenta add up to the same as two others -/
def SameTotal (p q p' q' : V3) : Prop := p.x + q.x = p'.x + q'.x ∧ p.y + q.y = p'.y + q'.y ∧ p.z + q.z = p'.z + q'.z

/-! ## the quantities of `collision_data` -/

/-- mass times Lorentz factor -/
noncomputable def mg (A : Kind) (a : Part) : ℝ := A.m * √(1 + (a.u.x ^ 2 + a.u.y ^ 2 + a.u.z ^ 2))

theorem root_pos (u : V3) : 0 < √(1 + (u.x ^ 2 + u.y ^ 2 + u.z ^ 2)) := Real.sqrt_pos.mpr (by positivity)

theorem root_sq (u : V3) : √(1 + (u.x ^ 2 + u.y ^ 2 + u.z ^ 2)) ^ 2 = 1 + (u.x ^ 2 + u.y ^ 2 + u.z ^ 2) :=
  Real.sq_sqrt (by positivity)

theorem mg_pos {A : Kind} (hA : 0 < A.m) (a : Part) : 0 < mg A a := mul_pos hA (root_pos a.u)

theorem mass_shell (K : Consts) (A : Kind) (a : Part) :
    K.c ^ 2 * mg A a ^ 2 - dot (momentum K A a) (momentum K A a) = A.m ^ 2 * K.c ^ 2 := by
  have := root_sq a.u
  unfold mg momentum dot
  dsimp only
  linear_combination K.c ^ 2 * A.m ^ 2 * this

/-- what is true of the data of a collision -/
structure DataOk (K : Consts) (A B : Kind) (a b : Part) (d : Data) (f : ℝ) : Prop where
  frame : Frame K.c d.gammaCom f d.v
  v2 : d.v2 = dot d.v d.v
  fac_eq : ∀ t, fac d.gammaCom d.v2 * t * d.v.x = f * t * d.v.x ∧ fac d.gammaCom d.v2 * t * d.v.y = f * t * d.v.y ∧
    fac d.gammaCom d.v2 * t * d.v.z = f * t * d.v.z
  total : (mg A a + mg B b) * d.v.x = (momentum K A a).x + (momentum K B b).x ∧
    (mg A a + mg B b) * d.v.y = (momentum K A a).y + (momentum K B b).y ∧
    (mg A a + mg B b) * d.v.z = (momentum K A a).z + (momentum K B b).z
  p1 : d.p1 = bp d.gammaCom f d.v (momentum K A a) (mg A a)
  pLen : d.pLen = √(d.p1.x ^ 2 + d.p1.y ^ 2 + d.p1.z ^ 2)
  pPerp : d.pPerp = √(d.p1.x ^ 2 + d.p1.y ^ 2)
  e1 : A.m * d.gamma1Com = bE K.c d.gammaCom d.v (momentum K A a) (mg A a)
  e2 : B.m * d.gamma2Com = bE K.c d.gammaCom d.v (momentum K B b) (mg B b)
  g1 : A.m * d.gamma1 = mg A a
  g2 : B.m * d.gamma2 = mg B b

theorem total_slow {K : Consts} {A B : Kind} (hc : 0 < K.c) (hA : 0 < A.m) (hB : 0 < B.m) (a b : Part) :
    let p := momentum K A a
    let q := momentum K B b
    (p.x + q.x) ^ 2 + (p.y + q.y) ^ 2 + (p.z + q.z) ^ 2 < K.c ^ 2 * (mg A a + mg B b) ^ 2 := by
  intro p q
  have h1 := mass_shell K A a
  have h2 := mass_shell K B b
  have hm1 : 0 < A.m ^ 2 * K.c ^ 2 := by positivity
  have hm2 : 0 < B.m ^ 2 * K.c ^ 2 := by positivity
  have e1 := mg_pos hA a
  have e2 := mg_pos hB b
  have := cs_lt (a := p) (b := q) (A := K.c * mg A a) (B := K.c * mg B b) (by positivity) (by positivity)
    (by rw [mul_pow]; show dot (momentum K A a) (momentum K A a) ≤ _; linarith)
    (by rw [mul_pow]; show dot (momentum K B b) (momentum K B b) < _; linarith) (Or.inl (by positivity))
  have hA0 : K.c * mg A a ≠ 0 := by positivity
  have hd := (abs_lt.mp (this.resolve_right hA0)).2
  have e : (p.x + q.x) ^ 2 + (p.y + q.y) ^ 2 + (p.z + q.z) ^ 2 = dot p p + dot q q + 2 * dot p q := by unfold dot; ring
  rw [e]
  have a1 : dot p p < K.c ^ 2 * mg A a ^ 2 := by show dot (momentum K A a) (momentum K A a) < _; linarith
  have a2 : dot q q < K.c ^ 2 * mg B b ^ 2 := by show dot (momentum K B b) (momentum K B b) < _; linarith
  nlinarith

theorem zero_of_sq {x y z : ℝ} (h : x ^ 2 + y ^ 2 + z ^ 2 ≤ 0) : x = 0 ∧ y = 0 ∧ z = 0 := by
  have hx := sq_nonneg x
  have hy := sq_nonneg y
  have hz := sq_nonneg z
  exact ⟨pow_eq_zero_iff two_ne_zero |>.mp (by linarith), pow_eq_zero_iff two_ne_zero |>.mp (by linarith),
    pow_eq_zero_iff two_ne_zero |>.mp (by linarith)⟩

set_option maxHeartbeats 1000000 in
theorem data_ok {K : Consts} {A B : Kind} (hc : 0 < K.c) (hA : 0 < A.m) (hB : 0 < B.m) {a b : Part}
    (ha : Consistent a) (hb : Consistent b) (w1 w2 : ℝ) :
    ∃ f, DataOk K A B a b (collisionData K ⟨a.u, a.invGamma, w1⟩ A ⟨b.u, b.invGamma, w2⟩ B) f := by
  set d := collisionData K ⟨a.u, a.invGamma, w1⟩ A ⟨b.u, b.invGamma, w2⟩ B with hd
  have ra := root_pos a.u
  have rb := root_pos b.u
  have e1 := mg_pos hA a
  have e2 := mg_pos hB b
  have hslow := total_slow hc hA hB a b
  have hga : (1 : ℝ) / a.invGamma = √(1 + (a.u.x ^ 2 + a.u.y ^ 2 + a.u.z ^ 2)) := by rw [ha, one_div_one_div]
  have hgb : (1 : ℝ) / b.invGamma = √(1 + (b.u.x ^ 2 + b.u.y ^ 2 + b.u.z ^ 2)) := by rw [hb, one_div_one_div]
  have hden : (1 / a.invGamma) * A.m + (1 / b.invGamma) * B.m = mg A a + mg B b := by
    rw [hga, hgb]; unfold mg; ring
  have hE : mg A a + mg B b ≠ 0 := by positivity
  have hvx : d.v.x = ((momentum K A a).x + (momentum K B b).x) / (mg A a + mg B b) := by
    rw [hd]; unfold collisionData; dsimp only; rw [hden]; unfold momentum; dsimp only; ring
  have hvy : d.v.y = ((momentum K A a).y + (momentum K B b).y) / (mg A a + mg B b) := by
    rw [hd]; unfold collisionData; dsimp only; rw [hden]; unfold momentum; dsimp only; ring
  have hvz : d.v.z = ((momentum K A a).z + (momentum K B b).z) / (mg A a + mg B b) := by
    rw [hd]; unfold collisionData; dsimp only; rw [hden]; unfold momentum; dsimp only; ring
  have hx : d.p1.x = a.u.x * A.m * K.c + (fac d.gammaCom d.v2 * (a.u.x * a.invGamma * K.c * d.v.x +
        a.u.y * a.invGamma * K.c * d.v.y + a.u.z * a.invGamma * K.c * d.v.z) - d.gammaCom) * A.m *
        (1 / a.invGamma) * d.v.x := rfl
  have hy : d.p1.y = a.u.y * A.m * K.c + (fac d.gammaCom d.v2 * (a.u.x * a.invGamma * K.c * d.v.x +
        a.u.y * a.invGamma * K.c * d.v.y + a.u.z * a.invGamma * K.c * d.v.z) - d.gammaCom) * A.m *
        (1 / a.invGamma) * d.v.y := rfl
  have hz : d.p1.z = a.u.z * A.m * K.c + (fac d.gammaCom d.v2 * (a.u.x * a.invGamma * K.c * d.v.x +
        a.u.y * a.invGamma * K.c * d.v.y + a.u.z * a.invGamma * K.c * d.v.z) - d.gammaCom) * A.m *
        (1 / a.invGamma) * d.v.z := rfl
  have hk1 : d.gamma1Com = (1 - (d.v.x * (a.u.x * a.invGamma * K.c) + d.v.y * (a.u.y * a.invGamma * K.c) +
        d.v.z * (a.u.z * a.invGamma * K.c)) / K.c ^ 2) * d.gammaCom * (1 / a.invGamma) := rfl
  have hg1' : d.gamma1 = 1 / a.invGamma := rfl
  have hk2 : d.gamma2Com = (1 - (d.v.x * (b.u.x * b.invGamma * K.c) + d.v.y * (b.u.y * b.invGamma * K.c) +
        d.v.z * (b.u.z * b.invGamma * K.c)) / K.c ^ 2) * d.gammaCom * (1 / b.invGamma) := rfl
  have hg2' : d.gamma2 = 1 / b.invGamma := rfl
  have hv2' : d.v2 = d.v.x ^ 2 + d.v.y ^ 2 + d.v.z ^ 2 := rfl
  have hg : d.gammaCom = 1 / √(1 - d.v2 / K.c ^ 2) := rfl
  have hl1 : d.pLen = √(d.p1.x ^ 2 + d.p1.y ^ 2 + d.p1.z ^ 2) := rfl
  have hl2 : d.pPerp = √(d.p1.x ^ 2 + d.p1.y ^ 2) := rfl
  clear hd
  clear_value d
  have hv2 : d.v2 = dot d.v d.v := by rw [hv2']; unfold dot; ring
  have hlt : d.v2 < K.c ^ 2 := by
    rw [hv2', hvx, hvy, hvz, div_pow, div_pow, div_pow, ← add_div, ← add_div, div_lt_iff₀ (by positivity)]
    exact hslow
  have harg : 0 < 1 - d.v2 / K.c ^ 2 := by rw [sub_pos, div_lt_one (by positivity)]; exact hlt
  have hrt := Real.sqrt_pos.mpr harg
  have hgpos : 0 < d.gammaCom := by rw [hg]; positivity
  have hg2 : d.gammaCom ^ 2 * (K.c ^ 2 - dot d.v d.v) = K.c ^ 2 := by
    rw [hg, div_pow, Real.sq_sqrt harg.le, ← hv2]
    have : K.c ^ 2 - d.v2 ≠ 0 := by linarith
    have hcc : K.c ^ 2 ≠ 0 := by positivity
    have e : 1 - d.v2 / K.c ^ 2 = (K.c ^ 2 - d.v2) / K.c ^ 2 := by field_simp
    rw [e]
    field_simp
  have hframe : Frame K.c d.gammaCom (d.gammaCom ^ 2 / ((d.gammaCom + 1) * K.c ^ 2)) d.v :=
    ⟨hc, hgpos, by field_simp, hg2⟩
  refine ⟨d.gammaCom ^ 2 / ((d.gammaCom + 1) * K.c ^ 2), ?_⟩
  set f := d.gammaCom ^ 2 / ((d.gammaCom + 1) * K.c ^ 2) with hf
  have hfac : ∀ t, fac d.gammaCom d.v2 * t * d.v.x = f * t * d.v.x ∧ fac d.gammaCom d.v2 * t * d.v.y = f * t * d.v.y ∧
      fac d.gammaCom d.v2 * t * d.v.z = f * t * d.v.z := by
    intro t
    by_cases hpos : d.v2 > 0
    · have : fac d.gammaCom d.v2 = f := by
        unfold fac
        rw [if_pos hpos, div_eq_iff hpos.ne', hv2]
        exact (hframe.f_v).symm
      rw [this]; exact ⟨rfl, rfl, rfl⟩
    · have h0 : d.v.x ^ 2 + d.v.y ^ 2 + d.v.z ^ 2 ≤ 0 := by rw [← hv2']; exact not_lt.mp hpos
      obtain ⟨x0, y0, z0⟩ := zero_of_sq h0
      rw [x0, y0, z0]; simp
  have hia : a.invGamma * √(1 + (a.u.x ^ 2 + a.u.y ^ 2 + a.u.z ^ 2)) = 1 := by rw [ha]; field_simp
  have hib : b.invGamma * √(1 + (b.u.x ^ 2 + b.u.y ^ 2 + b.u.z ^ 2)) = 1 := by rw [hb]; field_simp
  -- the product mass · Lorentz factor · velocity is the momentum
  have hmv : (a.u.x * a.invGamma * K.c * d.v.x + a.u.y * a.invGamma * K.c * d.v.y + a.u.z * a.invGamma * K.c * d.v.z) *
      (A.m * √(1 + (a.u.x ^ 2 + a.u.y ^ 2 + a.u.z ^ 2))) = dot (momentum K A a) d.v := by
    unfold dot momentum
    dsimp only
    linear_combination (A.m * K.c * (a.u.x * d.v.x + a.u.y * d.v.y + a.u.z * d.v.z)) * hia
  have hmv2 : (b.u.x * b.invGamma * K.c * d.v.x + b.u.y * b.invGamma * K.c * d.v.y + b.u.z * b.invGamma * K.c * d.v.z) *
      (B.m * √(1 + (b.u.x ^ 2 + b.u.y ^ 2 + b.u.z ^ 2))) = dot (momentum K B b) d.v := by
    unfold dot momentum
    dsimp only
    linear_combination (B.m * K.c * (b.u.x * d.v.x + b.u.y * d.v.y + b.u.z * d.v.z)) * hib
  obtain ⟨fx, fy, fz⟩ := hfac (dot (momentum K A a) d.v)
  have hp1 : d.p1 = bp d.gammaCom f d.v (momentum K A a) (mg A a) := by
    rw [hga] at hx hy hz
    have : d.p1 = ⟨d.p1.x, d.p1.y, d.p1.z⟩ := rfl
    rw [this]
    unfold bp mg
    rw [V3.mk.injEq]
    refine ⟨?_, ?_, ?_⟩
    · rw [hx]
      have : (momentum K A a).x = A.m * K.c * a.u.x := rfl
      rw [this]
      linear_combination fx + fac d.gammaCom d.v2 * d.v.x * hmv
    · rw [hy]
      have : (momentum K A a).y = A.m * K.c * a.u.y := rfl
      rw [this]
      linear_combination fy + fac d.gammaCom d.v2 * d.v.y * hmv
    · rw [hz]
      have : (momentum K A a).z = A.m * K.c * a.u.z := rfl
      rw [this]
      linear_combination fz + fac d.gammaCom d.v2 * d.v.z * hmv
  refine ⟨hframe, hv2, hfac, ?_, hp1, hl1, hl2, ?_, ?_, ?_, ?_⟩
  · refine ⟨?_, ?_, ?_⟩
    · rw [hvx]; field_simp
    · rw [hvy]; field_simp
    · rw [hvz]; field_simp
  · rw [hk1, hga]
    unfold bE mg
    rw [← hmv]
    ring
  · rw [hk2, hgb]
    unfold bE mg
    rw [← hmv2]
    ring
  · rw [hg1', hga]; rfl
  · rw [hg2', hgb]; rfl

/-! ## the scattered momenta -/

/-- the new momentum of particle 1 (cpu.py 414-418) from the scattered momentum `p` in the pair frame -/
theorem lab_eq {K : Consts} {A B : Kind} {a b : Part} {d : Data} {f : ℝ} (h : DataOk K A B a b d f) (p : V3) (gp m : ℝ) :
    boostToLab p gp m d.v d.v2 d.gammaCom = bp d.gammaCom f ⟨-d.v.x, -d.v.y, -d.v.z⟩ p (m * gp) := by
  obtain ⟨fx, fy, fz⟩ := h.fac_eq (d.v.x * p.x + d.v.y * p.y + d.v.z * p.z)
  unfold boostToLab bp dot
  dsimp only
  rw [V3.mk.injEq]
  refine ⟨?_, ?_, ?_⟩
  · linear_combination fx
  · linear_combination fy
  · linear_combination fz

theorem set_energy {K : Consts} {A : Kind} (hc : 0 < K.c) (hA : 0 < A.m) (a : Part) (p : V3) {E : ℝ} (hE : 0 < E)
    (h : K.c ^ 2 * E ^ 2 - dot p p = A.m ^ 2 * K.c ^ 2) :
    momentum K A (setMomentum K A a p) = p ∧ energy K A (setMomentum K A a p) = K.c ^ 2 * E ∧
      Consistent (setMomentum K A a p) := by
  refine ⟨?_, ?_, ?_⟩
  · unfold momentum setMomentum
    dsimp only
    have : p = ⟨p.x, p.y, p.z⟩ := rfl
    conv_rhs => rw [this]
    rw [V3.mk.injEq]
    refine ⟨?_, ?_, ?_⟩ <;> field_simp
  · unfold energy setMomentum
    dsimp only
    have e : 1 + ((p.x / A.m / K.c) ^ 2 + (p.y / A.m / K.c) ^ 2 + (p.z / A.m / K.c) ^ 2) = (E / A.m) ^ 2 := by
      have : (E / A.m) ^ 2 = (K.c ^ 2 * E ^ 2) / (A.m ^ 2 * K.c ^ 2) := by field_simp
      rw [this, show K.c ^ 2 * E ^ 2 = A.m ^ 2 * K.c ^ 2 + dot p p by linarith]
      unfold dot
      field_simp
    rw [e, Real.sqrt_sq (by positivity)]
    field_simp
  · unfold Consistent setMomentum
    dsimp only
    congr 2
    ring

theorem sParam_nonneg {K : Consts} {A B : Kind} {P : Params} {r : Draws} (h : Admissible K A B P r) {a b : Part} {d : Data}
    {f : ℝ} (hd : DataOk K A B a b d f) (hw : 0 ≤ d.w1) (lnL : ℝ) (hL : 0 ≤ lnL) :
    0 ≤ sParam K A B d P.cellVol (P.dt * P.dtCorr) lnL := by
  unfold sParam
  have h1 := mg_pos h.mA a
  have h2 := mg_pos h.mB b
  rw [← hd.g1] at h1
  rw [← hd.g2] at h2
  have hA := h.mA
  have hB := h.mB
  have g1 : 0 < d.gamma1 := by
    by_contra hn
    have := mul_nonpos_of_nonneg_of_nonpos hA.le (not_lt.mp hn)
    linarith
  have g2 : 0 < d.gamma2 := by
    by_contra hn
    have := mul_nonpos_of_nonneg_of_nonpos hB.le (not_lt.mp hn)
    linarith
  have hg := hd.frame.g_pos
  have hl : 0 ≤ d.pLen := by rw [hd.pLen]; exact Real.sqrt_nonneg _
  have := h.dt
  have := h.dtCorr
  have := h.cellVol
  have := h.c
  have := h.eps0
  have hm : 0 ≤ max d.w1 d.w2 := le_max_of_le_left hw
  have := Real.pi_pos
  positivity

theorem lnLambda_nonneg {K : Consts} {A B : Kind} {P : Params} {r : Draws} (h : Admissible K A B P r) (d : Data) :
    0 ≤ if P.lnLambda > 0 then P.lnLambda else varyingLnLambda K A B d P.debyeInvSq := by
  split
  · linarith
  · unfold varyingLnLambda
    dsimp only
    split
    · exact le_max_of_le_left (by norm_num)
    · norm_num

/-- the scattered momentum has the length of the old one -/
theorem scatter_length {K : Consts} {A B : Kind} {P : Params} {r : Draws} (h : Admissible K A B P r) {a b : Part} {d : Data}
    {f : ℝ} (hd : DataOk K A B a b d f) (hw : 0 ≤ d.w1) (lnL : ℝ) (hL : 0 ≤ lnL) :
    let p := scatter K A B d P.cellVol (P.dt * P.dtCorr) lnL r.angleU r.phi
    dot p p = dot d.p1 d.p1 := by
  intro p
  have hp : p = scatter K A B d P.cellVol (P.dt * P.dtCorr) lnL r.angleU r.phi := rfl
  unfold scatter at hp
  by_cases h0 : d.pLen = 0
  · rw [if_pos h0] at hp; rw [hp]
  · rw [if_neg h0] at hp
    dsimp only at hp
    have := rotate_length d.p1 (angle (sParam K A B d P.cellVol (P.dt * P.dtCorr) lnL) r.angleU).1
      (angle (sParam K A B d P.cellVol (P.dt * P.dtCorr) lnL) r.angleU).2 r.phi
      (angle_circle _ _ (sParam_nonneg h hd hw lnL hL) h.angleU.1 h.angleU.2)
    rw [← hd.pLen, ← hd.pPerp] at this
    rw [hp]
    exact this

/-- In the pair frame the two momenta are opposite and stay so; back in the lab the two candidates carry the old total
momentum and the old total energy -/
theorem candidates {K : Consts} {A B : Kind} (hc : 0 < K.c) (hA : 0 < A.m) (hB : 0 < B.m) {a b : Part} {d : Data} {f : ℝ}
    (hd : DataOk K A B a b d f) (p : V3) (hp : dot p p = dot d.p1 d.p1) :
    let a' := setMomentum K A a (boostToLab p d.gamma1Com A.m d.v d.v2 d.gammaCom)
    let b' := setMomentum K B b (boostToLab ⟨-p.x, -p.y, -p.z⟩ d.gamma2Com B.m d.v d.v2 d.gammaCom)
    SameTotal (momentum K A a') (momentum K B b') (momentum K A a) (momentum K B b) ∧
    energy K A a' + energy K B b' = energy K A a + energy K B b ∧ Consistent a' ∧ Consistent b' := by
  intro a' b'
  have hF := hd.frame
  have hv := hF.neg
  have hfv := hF.f_v
  obtain ⟨tx, ty, tz⟩ := hd.total
  set p1 := momentum K A a with hp1
  set p2 := momentum K B b with hp2
  set E1 := mg A a with hE1
  set E2 := mg B b with hE2
  have s1 : K.c ^ 2 * E1 ^ 2 - dot p1 p1 = A.m ^ 2 * K.c ^ 2 := mass_shell K A a
  have s2 : K.c ^ 2 * E2 ^ 2 - dot p2 p2 = B.m ^ 2 * K.c ^ 2 := mass_shell K B b
  have q1 : 0 < E1 := mg_pos hA a
  have q2 : 0 < E2 := mg_pos hB b
  -- the momenta in the pair frame are opposite
  have hopp : bp d.gammaCom f d.v p2 E2 = ⟨-d.p1.x, -d.p1.y, -d.p1.z⟩ := by
    rw [hd.p1]
    unfold bp
    dsimp only
    have hD : dot p1 d.v + dot p2 d.v = (E1 + E2) * dot d.v d.v := by
      unfold dot
      linear_combination -d.v.x * tx - d.v.y * ty - d.v.z * tz
    rw [V3.mk.injEq]
    refine ⟨?_, ?_, ?_⟩
    · linear_combination f * d.v.x * hD + (E1 + E2) * d.v.x * hfv - tx
    · linear_combination f * d.v.y * hD + (E1 + E2) * d.v.y * hfv - ty
    · linear_combination f * d.v.z * hD + (E1 + E2) * d.v.z * hfv - tz
  have sh1 := hF.shell p1 E1
  have sh2 := hF.shell p2 E2
  rw [← hd.p1] at sh1
  rw [hopp] at sh2
  have hneg : dot (⟨-d.p1.x, -d.p1.y, -d.p1.z⟩ : V3) ⟨-d.p1.x, -d.p1.y, -d.p1.z⟩ = dot d.p1 d.p1 := by unfold dot; ring
  rw [hneg] at sh2
  have hm1 : 0 < A.m ^ 2 * K.c ^ 2 := by positivity
  have hm2 : 0 < B.m ^ 2 * K.c ^ 2 := by positivity
  set e1 := A.m * d.gamma1Com with he1
  set e2 := B.m * d.gamma2Com with he2
  have pe1 : 0 < e1 := by rw [he1, hd.e1]; exact hF.energy_pos q1 (by linarith)
  have pe2 : 0 < e2 := by rw [he2, hd.e2]; exact hF.energy_pos q2 (by linarith)
  rw [← hd.e1] at sh1
  rw [← hd.e2] at sh2
  have hpn : dot (⟨-p.x, -p.y, -p.z⟩ : V3) ⟨-p.x, -p.y, -p.z⟩ = dot p p := by unfold dot; ring
  -- mass shell after the boost back
  have l1 := hv.shell p e1
  have l2 := hv.shell ⟨-p.x, -p.y, -p.z⟩ e2
  rw [hp] at l1
  rw [hpn, hp] at l2
  have pl1 : 0 < bE K.c d.gammaCom ⟨-d.v.x, -d.v.y, -d.v.z⟩ p e1 := hv.energy_pos pe1 (by rw [hp]; nlinarith)
  have pl2 : 0 < bE K.c d.gammaCom ⟨-d.v.x, -d.v.y, -d.v.z⟩ ⟨-p.x, -p.y, -p.z⟩ e2 :=
    hv.energy_pos pe2 (by rw [hpn, hp]; nlinarith)
  have r1 := set_energy hc hA a (boostToLab p d.gamma1Com A.m d.v d.v2 d.gammaCom) pl1
    (by rw [lab_eq hd]; linarith)
  have r2 := set_energy hc hB b (boostToLab ⟨-p.x, -p.y, -p.z⟩ d.gamma2Com B.m d.v d.v2 d.gammaCom) pl2
    (by rw [lab_eq hd]; linarith)
  -- energies in the pair frame
  have hDE : dot p1 d.v + dot p2 d.v = (E1 + E2) * dot d.v d.v := by
    unfold dot
    linear_combination -d.v.x * tx - d.v.y * ty - d.v.z * tz
  have htot : d.gammaCom * (e1 + e2) = E1 + E2 := by
    rw [he1, he2, hd.e1, hd.e2]
    unfold bE
    have hc2 : K.c ^ 2 ≠ 0 := by positivity
    have : d.gammaCom * (d.gammaCom * (E1 - dot p1 d.v / K.c ^ 2) + d.gammaCom * (E2 - dot p2 d.v / K.c ^ 2)) =
        d.gammaCom ^ 2 * ((E1 + E2) * K.c ^ 2 - (dot p1 d.v + dot p2 d.v)) / K.c ^ 2 := by field_simp; ring
    rw [this, hDE, div_eq_iff hc2]
    linear_combination (E1 + E2) * hF.g_eq
  refine ⟨?_, ?_, r1.2.2, r2.2.2⟩
  · show SameTotal (momentum K A a') (momentum K B b') p1 p2
    rw [r1.1, r2.1, lab_eq hd, lab_eq hd]
    unfold SameTotal bp
    unfold dot
    dsimp only
    refine ⟨?_, ?_, ?_⟩
    · linear_combination d.v.x * htot + tx
    · linear_combination d.v.y * htot + ty
    · linear_combination d.v.z * htot + tz
  · show energy K A a' + energy K B b' = _
    rw [r1.2.1, r2.2.1]
    have ea : energy K A a = K.c ^ 2 * E1 := by rw [hE1]; unfold energy mg; ring
    have eb : energy K B b = K.c ^ 2 * E2 := by rw [hE2]; unfold energy mg; ring
    rw [ea, eb]
    unfold bE dot
    dsimp only
    linear_combination K.c ^ 2 * htot

/-- **C41 (conservation).** For all momenta, masses, charges, time steps, scattering parameters and random draws: a collision
of two particles of equal positive weight conserves total momentum and total energy, and leaves both particles with an `inv_gamma`
that belongs to their momentum. -/
theorem coulomb_conserves (K : Consts) (A B : Kind) (P : Params) (r : Draws) (h : Admissible K A B P r) (a b : Part)
    (ha : Consistent a) (hb : Consistent b) (hw : a.w = b.w) (hpos : 0 < a.w) :
    let s := kernel K A B P r a b
    SameTotal (momentum K A s.1) (momentum K B s.2) (momentum K A a) (momentum K B b) ∧
    energy K A s.1 + energy K B s.2 = energy K A a + energy K B b ∧ Consistent s.1 ∧ Consistent s.2 := by
  intro s
  have hs : s = kernel K A B P r a b := rfl
  obtain ⟨f, hd⟩ := data_ok (K := K) h.c h.mA h.mB ha hb (a.w * P.wCorr) (b.w * P.wCorr)
  unfold kernel at hs
  dsimp only at hs
  set d := collisionData K ⟨a.u, a.invGamma, a.w * P.wCorr⟩ A ⟨b.u, b.invGamma, b.w * P.wCorr⟩ B with hdd
  by_cases h0 : d.pLen = 0
  · rw [if_pos h0] at hs
    rw [hs]
    exact ⟨⟨rfl, rfl, rfl⟩, rfl, ha, hb⟩
  · rw [if_neg h0] at hs
    have hwp : 0 < a.w * P.wCorr := mul_pos hpos h.wCorr
    have hmax : max (a.w * P.wCorr) (b.w * P.wCorr) = a.w * P.wCorr := by rw [← hw, max_self]
    rw [hmax, ← hw, div_self hwp.ne', if_pos h.selectU.2, if_pos h.selectU.2] at hs
    rw [hs]
    exact candidates h.c h.mA h.mB hd _ (scatter_length h hd hwp.le _ (lnLambda_nonneg h d))

/-- **C41 (unequal weights).** When the weights differ, each particle is updated with the probability `w_other / w_max`; the
weighted momentum and energy are conserved in the mean: the two candidate updates, weighted with weight and probability, cancel. -/
theorem coulomb_mean (K : Consts) (A B : Kind) (P : Params) (r : Draws) (h : Admissible K A B P r) (a b : Part)
    (ha : Consistent a) (hb : Consistent b) (hwa : 0 < a.w) (hwb : 0 < b.w) :
    ∃ (a' b' : Part) (pa pb : ℝ), 0 ≤ pa ∧ pa ≤ 1 ∧ 0 ≤ pb ∧ pb ≤ 1 ∧
      kernel K A B P r a b = (if r.selectU < pa then a' else a, if r.selectU < pb then b' else b) ∧
      (∀ r' : Draws, r'.angleU = r.angleU → r'.phi = r.phi →
        kernel K A B P r' a b = (if r'.selectU < pa then a' else a, if r'.selectU < pb then b' else b)) ∧
      a.w * pa * ((momentum K A a').x - (momentum K A a).x) + b.w * pb * ((momentum K B b').x - (momentum K B b).x) = 0 ∧
      a.w * pa * ((momentum K A a').y - (momentum K A a).y) + b.w * pb * ((momentum K B b').y - (momentum K B b).y) = 0 ∧
      a.w * pa * ((momentum K A a').z - (momentum K A a).z) + b.w * pb * ((momentum K B b').z - (momentum K B b).z) = 0 ∧
      a.w * pa * (energy K A a' - energy K A a) + b.w * pb * (energy K B b' - energy K B b) = 0 := by
  obtain ⟨f, hd⟩ := data_ok (K := K) h.c h.mA h.mB ha hb (a.w * P.wCorr) (b.w * P.wCorr)
  have hw1 : 0 < a.w * P.wCorr := mul_pos hwa h.wCorr
  have hw2 : 0 < b.w * P.wCorr := mul_pos hwb h.wCorr
  have hm : 0 < max (a.w * P.wCorr) (b.w * P.wCorr) := lt_max_of_lt_left hw1
  set d := collisionData K ⟨a.u, a.invGamma, a.w * P.wCorr⟩ A ⟨b.u, b.invGamma, b.w * P.wCorr⟩ B with hdd
  have b1 : 0 ≤ b.w * P.wCorr / max (a.w * P.wCorr) (b.w * P.wCorr) := by positivity
  have b2 : b.w * P.wCorr / max (a.w * P.wCorr) (b.w * P.wCorr) ≤ 1 := (div_le_one hm).mpr (le_max_right _ _)
  have b3 : 0 ≤ a.w * P.wCorr / max (a.w * P.wCorr) (b.w * P.wCorr) := by positivity
  have b4 : a.w * P.wCorr / max (a.w * P.wCorr) (b.w * P.wCorr) ≤ 1 := (div_le_one hm).mpr (le_max_left _ _)
  by_cases h0 : d.pLen = 0
  · have hk : ∀ r' : Draws, kernel K A B P r' a b = (a, b) := by
      intro r'; unfold kernel; dsimp only; exact if_pos h0
    refine ⟨a, b, _, _, b1, b2, b3, b4, ?_, ?_, by ring, by ring, by ring, by ring⟩
    · rw [hk, ite_self, ite_self]
    · intro r' _ _; rw [hk, ite_self, ite_self]
  · set lnL := if P.lnLambda > 0 then P.lnLambda else varyingLnLambda K A B d P.debyeInvSq with hln
    set p := scatter K A B d P.cellVol (P.dt * P.dtCorr) lnL r.angleU r.phi with hp
    obtain ⟨⟨c1, c2, c3⟩, c4, _, _⟩ := candidates h.c h.mA h.mB hd p
      (scatter_length h hd hw1.le _ (lnLambda_nonneg h d))
    have hk : ∀ r' : Draws, r'.angleU = r.angleU → r'.phi = r.phi → kernel K A B P r' a b =
        (if r'.selectU < b.w * P.wCorr / max (a.w * P.wCorr) (b.w * P.wCorr) then
          setMomentum K A a (boostToLab p d.gamma1Com A.m d.v d.v2 d.gammaCom) else a,
        if r'.selectU < a.w * P.wCorr / max (a.w * P.wCorr) (b.w * P.wCorr) then
          setMomentum K B b (boostToLab ⟨-p.x, -p.y, -p.z⟩ d.gamma2Com B.m d.v d.v2 d.gammaCom) else b) := by
      intro r' e1 e2
      unfold kernel
      dsimp only
      refine (if_neg h0).trans ?_
      rw [e1, e2]
    refine ⟨_, _, _, _, b1, b2, b3, b4, hk r rfl rfl, hk, ?_, ?_, ?_, ?_⟩
    all_goals
      have key : a.w * (b.w * P.wCorr / max (a.w * P.wCorr) (b.w * P.wCorr)) =
          b.w * (a.w * P.wCorr / max (a.w * P.wCorr) (b.w * P.wCorr)) := by ring
      rw [key, ← mul_add]
      apply mul_eq_zero_of_right
      linarith

/-- **C41 (rotation).** The rotation keeps the length for every angle, also along the z axis. -/
theorem rotation_keeps_length (p : V3) (theta phi : ℝ) :
    let q := rotate p (√(p.x ^ 2 + p.y ^ 2 + p.z ^ 2)) (√(p.x ^ 2 + p.y ^ 2)) (Real.cos theta) (Real.sin theta) phi
    q.x ^ 2 + q.y ^ 2 + q.z ^ 2 = p.x ^ 2 + p.y ^ 2 + p.z ^ 2 := by
  have := rotate_length p (Real.cos theta) (Real.sin theta) phi (by rw [add_comm]; exact Real.sin_sq_add_cos_sq theta)
  unfold dot at this
  dsimp only at this ⊢
  linear_combination this

/-- **C41 (angle zero), partial.** Scattering by the angle zero is the identity unless the momentum is (up to 1e-10) parallel to the
z axis; for a momentum along the positive z axis it is the identity as well. -/
theorem zero_angle_partial (p : V3) (phi : ℝ)
    (h : √(p.x ^ 2 + p.y ^ 2) > 1 / 10 ^ 10 * √(p.x ^ 2 + p.y ^ 2 + p.z ^ 2) ∨ p.x = 0 ∧ p.y = 0 ∧ 0 ≤ p.z) :
    rotate p (√(p.x ^ 2 + p.y ^ 2 + p.z ^ 2)) (√(p.x ^ 2 + p.y ^ 2)) 1 0 phi = p := by
  rcases h with h | ⟨hx, hy, hz⟩
  · unfold rotate
    dsimp only
    rw [if_pos h]
    have : p = ⟨p.x, p.y, p.z⟩ := rfl
    conv_rhs => rw [this]
    rw [V3.mk.injEq]
    refine ⟨?_, ?_, ?_⟩ <;> simp
  · unfold rotate
    dsimp only
    rw [hx, hy]
    have e0 : √((0 : ℝ) ^ 2 + 0 ^ 2) = 0 := by norm_num
    have e1 : √((0 : ℝ) ^ 2 + 0 ^ 2 + p.z ^ 2) = p.z := by
      rw [show (0 : ℝ) ^ 2 + 0 ^ 2 + p.z ^ 2 = p.z ^ 2 by ring]; exact Real.sqrt_sq hz
    rw [e0, e1, if_neg (by have : 0 ≤ 1 / 10 ^ 10 * p.z := by positivity
                           linarith)]
    have : p = ⟨p.x, p.y, p.z⟩ := rfl
    conv_rhs => rw [this]
    rw [V3.mk.injEq, hx, hy]
    refine ⟨?_, ?_, ?_⟩ <;> simp

/-- **C41 (angle zero), where it fails.** Along the negative z axis scattering by the angle zero reverses the momentum. -/
theorem zero_angle_reverses_fails (pz phi : ℝ) (hz : pz < 0) :
    rotate ⟨0, 0, pz⟩ (√(0 ^ 2 + 0 ^ 2 + pz ^ 2)) (√(0 ^ 2 + 0 ^ 2)) 1 0 phi = ⟨0, 0, -pz⟩ := by
  unfold rotate
  dsimp only
  have e0 : √((0 : ℝ) ^ 2 + 0 ^ 2) = 0 := by norm_num
  have e1 : √((0 : ℝ) ^ 2 + 0 ^ 2 + pz ^ 2) = -pz := by
    rw [show (0 : ℝ) ^ 2 + 0 ^ 2 + pz ^ 2 = (-pz) ^ 2 by ring]; exact Real.sqrt_sq (by linarith)
  rw [e0, e1, if_neg (by have : 0 ≤ 1 / 10 ^ 10 * (-pz) := mul_nonneg (by positivity) (by linarith)
                         linarith)]
  simp

/-- The same in a whole collision: two neutral particles, which cannot scatter at all, that approach each other along the z axis
are both turned round (for every pair of draws). -/
theorem neutral_pair_turned_fails (r : Draws) (hs : 0 ≤ r.selectU ∧ r.selectU < 1) :
    let a : Part := ⟨⟨0, 0, -1⟩, 1 / √2, 1⟩
    let b : Part := ⟨⟨0, 0, 1⟩, 1 / √2, 1⟩
    ((kernel ⟨1, 1, 1⟩ ⟨1, 0⟩ ⟨1, 0⟩ ⟨0, 0, 1, 1, 1, 1⟩ r a b).1.u = ⟨0, 0, 1⟩ ∧
    (kernel ⟨1, 1, 1⟩ ⟨1, 0⟩ ⟨1, 0⟩ ⟨0, 0, 1, 1, 1, 1⟩ r a b).2.u = ⟨0, 0, -1⟩) ∧ Consistent a ∧ Consistent b := by
  intro a b
  set d := collisionData ⟨1, 1, 1⟩ ⟨a.u, a.invGamma, a.w * 1⟩ ⟨1, 0⟩ ⟨b.u, b.invGamma, b.w * 1⟩ ⟨1, 0⟩ with hd
  have s2 : (0 : ℝ) < √2 := Real.sqrt_pos.mpr (by norm_num)
  have v0 : d.v = ⟨0, 0, 0⟩ := by
    rw [hd]; unfold collisionData; dsimp only [a, b]; norm_num
  have v2 : d.v2 = 0 := by
    have : d.v2 = d.v.x ^ 2 + d.v.y ^ 2 + d.v.z ^ 2 := rfl
    rw [this, v0]; norm_num
  have p1x : d.p1.x = 0 + (fac d.gammaCom d.v2 * (0 * (1 / √2) * 1 * d.v.x +
        0 * (1 / √2) * 1 * d.v.y + -1 * (1 / √2) * 1 * d.v.z) - d.gammaCom) * 1 * (1 / (1 / √2)) * d.v.x := by
    rw [hd]; unfold collisionData; dsimp only [a, b]; ring
  have p1y : d.p1.y = 0 + (fac d.gammaCom d.v2 * (0 * (1 / √2) * 1 * d.v.x +
        0 * (1 / √2) * 1 * d.v.y + -1 * (1 / √2) * 1 * d.v.z) - d.gammaCom) * 1 * (1 / (1 / √2)) * d.v.y := by
    rw [hd]; unfold collisionData; dsimp only [a, b]; ring
  have p1z : d.p1.z = -1 + (fac d.gammaCom d.v2 * (0 * (1 / √2) * 1 * d.v.x +
        0 * (1 / √2) * 1 * d.v.y + -1 * (1 / √2) * 1 * d.v.z) - d.gammaCom) * 1 * (1 / (1 / √2)) * d.v.z := by
    rw [hd]; unfold collisionData; dsimp only [a, b]; ring
  rw [v0] at p1x p1y p1z
  dsimp only at p1x p1y p1z
  have p1 : d.p1 = ⟨0, 0, -1⟩ := by
    have : d.p1 = ⟨d.p1.x, d.p1.y, d.p1.z⟩ := rfl
    rw [this, p1x, p1y, p1z]; norm_num
  have pl : d.pLen = 1 := by
    have : d.pLen = √(d.p1.x ^ 2 + d.p1.y ^ 2 + d.p1.z ^ 2) := rfl
    rw [this, p1]; norm_num
  have pp : d.pPerp = 0 := by
    have : d.pPerp = √(d.p1.x ^ 2 + d.p1.y ^ 2) := rfl
    rw [this, p1]; norm_num
  have hsc : ∀ lnL, scatter ⟨1, 1, 1⟩ ⟨1, 0⟩ ⟨1, 0⟩ d 1 (1 * 1) lnL r.angleU r.phi = ⟨0, 0, 1⟩ := by
    intro lnL
    unfold scatter
    rw [if_neg (by rw [pl]; norm_num)]
    have : sParam ⟨1, 1, 1⟩ ⟨1, 0⟩ ⟨1, 0⟩ d 1 (1 * 1) lnL = 0 := by unfold sParam; norm_num
    rw [this]
    have ha : angle 0 r.angleU = (1, 0) := by
      unfold angle
      norm_num
    rw [ha]
    unfold rotate
    dsimp only
    rw [pl, pp, if_neg (by norm_num)]
    norm_num
  have hb : ∀ (p : V3) (g : ℝ), boostToLab p g 1 d.v d.v2 d.gammaCom = p := by
    intro p g
    unfold boostToLab
    rw [v0]
    simp
  refine ⟨?_, ?_, ?_⟩
  · unfold kernel
    dsimp only
    rw [← hd, if_neg (by rw [pl]; norm_num), hsc, hb, hb]
    have h1 : b.w * 1 / max (a.w * 1) (b.w * 1) > r.selectU := by
      have : b.w * 1 / max (a.w * 1) (b.w * 1) = 1 := by dsimp only [a, b]; norm_num
      rw [this]; exact hs.2
    have h2 : a.w * 1 / max (a.w * 1) (b.w * 1) > r.selectU := h1
    rw [if_pos h1, if_pos h2]
    unfold setMomentum
    norm_num
  · show (1 : ℝ) / √2 = 1 / √(1 + (0 ^ 2 + 0 ^ 2 + (-1) ^ 2)); norm_num
  · show (1 : ℝ) / √2 = 1 / √(1 + (0 ^ 2 + 0 ^ 2 + 1 ^ 2)); norm_num

/-! ## the hypotheses can be met -/

/-- an electron and an ion with different momenta -/
example : ∃ (K : Consts) (A B : Kind) (P : Params) (r : Draws) (a b : Part), Admissible K A B P r ∧ Consistent a ∧ Consistent b ∧
    a.w = b.w ∧ 0 < a.w ∧ a.u.x ≠ b.u.x := by
  refine ⟨⟨3, 1, 1⟩, ⟨1, -1⟩, ⟨1836, 1⟩, ⟨0, 1, 5, 1 / 2, 1, 1⟩, ⟨1 / 2, 1, 1 / 3⟩, ⟨⟨1, 2, 3⟩, 1 / √(1 + (1 ^ 2 + 2 ^ 2 + 3 ^ 2)), 7⟩,
    ⟨⟨0, -1, 0⟩, 1 / √(1 + (0 ^ 2 + (-1) ^ 2 + 0 ^ 2)), 7⟩, ?_, rfl, rfl, rfl, by norm_num, by norm_num⟩
  constructor <;> norm_num

end Verif.Coulomb
