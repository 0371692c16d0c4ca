import Verif.Props.Coulomb
/-!
# C73: the outcome of a collision does not depend on units or on who is first

`kernel_units`: in any other system of units the same draws give the same particles. `kernel_swap_partial`: with the two particles in the other order
and the azimuth reflected, the outcome is the same, unless the pair's relative momentum is along z. `impact_partial`, `impact_fails`: the Coulomb
logarithm is the documented one if the pair's centre of mass is at rest, and too small if it moves.
-/
namespace Verif.Coulomb

/-! ### specification -/

/-- a change of units: the factors for lengths, times, masses and charges -/
structure Units where
  L : ℝ
  T : ℝ
  M : ℝ
  Q : ℝ
  L_pos : 0 < L
  T_pos : 0 < T
  M_pos : 0 < M
  Q_pos : 0 < Q

/-- velocity, permittivity and action in the new units -/
noncomputable def Units.consts (U : Units) (K : Consts) : Consts :=
  ⟨U.L / U.T * K.c, U.Q ^ 2 * U.T ^ 2 / (U.M * U.L ^ 3) * K.eps0, U.M * U.L ^ 2 / U.T * K.h⟩

/-- mass and charge in the new units -/
def Units.kind (U : Units) (A : Kind) : Kind := ⟨U.M * A.m, U.Q * A.q⟩

/-- volume, time and inverse square of a length in the new units; the rest has no unit -/
noncomputable def Units.params (U : Units) (P : Params) : Params :=
  { P with debyeInvSq := P.debyeInvSq / U.L ^ 2, cellVol := U.L ^ 3 * P.cellVol, dt := U.T * P.dt }

/-! ### units -/

/-- a momentum or velocity times a number -/
def V3.smul (k : ℝ) (p : V3) : V3 := ⟨k * p.x, k * p.y, k * p.z⟩

/-- the data of a pair in the new units -/
noncomputable def Units.data (U : Units) (d : Data) : Data :=
  { d with v := d.v.smul (U.L / U.T), v2 := (U.L / U.T) ^ 2 * d.v2, p1 := d.p1.smul (U.M * (U.L / U.T)),
           pLen := U.M * (U.L / U.T) * d.pLen, pPerp := U.M * (U.L / U.T) * d.pPerp }

theorem fac_units (g v2 k : ℝ) (hk : 0 < k) : fac g (k ^ 2 * v2) = fac g v2 / k ^ 2 := by
  unfold fac
  have h2 : 0 < k ^ 2 := by positivity
  by_cases h : v2 > 0
  · rw [if_pos h, if_pos (by positivity), div_div, mul_comm]
  · rw [if_neg h, if_neg (fun h' => h (pos_of_mul_pos_right h' h2.le)), zero_div]

theorem sqrt_units (k a b : ℝ) (hk : 0 < k) (h : a = k ^ 2 * b) : √a = k * √b := by
  rw [h, Real.sqrt_mul (by positivity), Real.sqrt_sq hk.le]

set_option maxHeartbeats 1000000 in
theorem data_units (U : Units) (K : Consts) (A B : Kind) (a b : Part) :
    collisionData (U.consts K) a (U.kind A) b (U.kind B) = U.data (collisionData K a A b B) := by
  have hL := U.L_pos
  have hT := U.T_pos
  have hM := U.M_pos
  set k := U.L / U.T with hk
  have hk0 : 0 < k := by positivity
  have hv : ∀ p q g1 g2 : ℝ, (p * (U.M * A.m) * (k * K.c) + q * (U.M * B.m) * (k * K.c)) / (g1 * (U.M * A.m) + g2 * (U.M * B.m)) =
      k * ((p * A.m * K.c + q * B.m * K.c) / (g1 * A.m + g2 * B.m)) := by
    intro p q g1 g2
    rw [show p * (U.M * A.m) * (k * K.c) + q * (U.M * B.m) * (k * K.c) = U.M * (k * (p * A.m * K.c + q * B.m * K.c)) by ring,
      show g1 * (U.M * A.m) + g2 * (U.M * B.m) = U.M * (g1 * A.m + g2 * B.m) by ring, mul_div_mul_left _ _ hM.ne', mul_div_assoc]
  have hsq : ∀ x y z : ℝ, (k * x) ^ 2 + (k * y) ^ 2 + (k * z) ^ 2 = k ^ 2 * (x ^ 2 + y ^ 2 + z ^ 2) := fun x y z => by ring
  have hq : ∀ x : ℝ, k ^ 2 * x / (k * K.c) ^ 2 = x / K.c ^ 2 := by
    intro x
    rw [mul_pow, mul_div_mul_left _ _ (by positivity)]
  have hdot : ∀ x y z x' y' z' : ℝ, (x * (k * K.c) * (k * x') + y * (k * K.c) * (k * y') + z * (k * K.c) * (k * z')) =
      k ^ 2 * (x * K.c * x' + y * K.c * y' + z * K.c * z') := by intros; ring
  have hdot' : ∀ x y z x' y' z' : ℝ, ((k * x') * (x * (k * K.c)) + (k * y') * (y * (k * K.c)) + (k * z') * (z * (k * K.c))) =
      k ^ 2 * (x' * (x * K.c) + y' * (y * K.c) + z' * (z * K.c)) := by intros; ring
  have hfd : ∀ f D : ℝ, f / k ^ 2 * (k ^ 2 * D) = f * D := by
    intro f D
    rw [div_mul_eq_mul_div, mul_left_comm, mul_div_cancel_left₀ _ (pow_ne_zero 2 hk0.ne')]
  simp only [collisionData, Units.consts, Units.kind, Units.data, V3.smul, ← hk, hv, hsq, hq, fac_units _ _ _ hk0, hdot, hdot', hfd, Data.mk.injEq,
    V3.mk.injEq, true_and, and_true]
  refine ⟨⟨?_, ?_, ?_⟩, ?_, ?_⟩
  · ring
  · ring
  · ring
  · refine sqrt_units (U.M * k) _ _ (by positivity) ?_
    ring
  · refine sqrt_units (U.M * k) _ _ (by positivity) ?_
    ring

theorem sParam_aux (L T M Q N V dt l a b e c m g n h p E X : ℝ) (hL : 0 < L) (hT : 0 < T) (hM : 0 < M) (hQ : 0 < Q) :
    N / (L ^ 3 * V) * (T * dt) * (l * (Q * a * (Q * b)) ^ 2) /
      (4 * Real.pi * (Q ^ 2 * T ^ 2 / (M * L ^ 3) * e) ^ 2 * (L / T * c) ^ 4 * (M * m) * g * (M * n) * h) * (p * (M * (L / T) * X)) / (M * E) =
    N / V * dt * (l * (a * b) ^ 2) / (4 * Real.pi * e ^ 2 * c ^ 4 * m * g * n * h) * (p * X) / E := by
  have h1 : N / (L ^ 3 * V) * (T * dt) * (l * (Q * a * (Q * b)) ^ 2) = (Q ^ 4 * T / L ^ 3) * (N / V * dt * (l * (a * b) ^ 2)) := by
    rw [← div_div]
    ring
  have h2 : 4 * Real.pi * (Q ^ 2 * T ^ 2 / (M * L ^ 3) * e) ^ 2 * (L / T * c) ^ 4 * (M * m) * g * (M * n) * h =
      (Q ^ 4 / L ^ 2) * (4 * Real.pi * e ^ 2 * c ^ 4 * m * g * n * h) := by
    have : (Q ^ 2 * T ^ 2 / (M * L ^ 3)) ^ 2 * (L / T) ^ 4 * M ^ 2 = Q ^ 4 / L ^ 2 := by
      field_simp
    rw [← this]
    ring
  have h3 : Q ^ 4 * T / L ^ 3 = (Q ^ 4 / L ^ 2) * (T / L) := by
    field_simp
  have hq : Q ^ 4 / L ^ 2 ≠ 0 := by positivity
  rw [h1, h2, h3, mul_assoc (Q ^ 4 / L ^ 2), mul_div_mul_left _ _ hq]
  have h4 : ∀ A B : ℝ, T / L * A / B * (p * (M * (L / T) * X)) = M * (A / B * (p * X)) := by
    intro A B
    have : T / L * (L / T) = 1 := by field_simp
    linear_combination (M * (A / B) * p * X) * this
  rw [h4, mul_div_mul_left _ _ hM.ne']

theorem sParam_units (U : Units) (K : Consts) (A B : Kind) (d : Data) (V dt l : ℝ) :
    sParam (U.consts K) (U.kind A) (U.kind B) (U.data d) (U.L ^ 3 * V) (U.T * dt) l = sParam K A B d V dt l := by
  have hL := U.L_pos.ne'
  have hT := U.T_pos.ne'
  have hM := U.M_pos.ne'
  have hQ := U.Q_pos.ne'
  have h1 : U.M * A.m * d.gamma1Com * (U.M * B.m) * d.gamma2Com / (U.M * (U.L / U.T) * d.pLen) ^ 2 * (U.L / U.T * K.c) ^ 2 =
      A.m * d.gamma1Com * B.m * d.gamma2Com / d.pLen ^ 2 * K.c ^ 2 := by
    field_simp
  unfold sParam
  have h2 := sParam_aux U.L U.T U.M U.Q (max d.w1 d.w2) V dt l A.q B.q K.eps0 K.c A.m d.gamma1 B.m d.gamma2 d.gammaCom
    (A.m * d.gamma1 + B.m * d.gamma2) d.pLen U.L_pos U.T_pos U.M_pos U.Q_pos
  rw [← h2, ← h1, show U.M * (A.m * d.gamma1 + B.m * d.gamma2) = U.M * A.m * d.gamma1 + U.M * B.m * d.gamma2 by ring]
  rfl

theorem lnLambda_units (U : Units) (K : Consts) (A B : Kind) (d : Data) (D : ℝ) :
    varyingLnLambda (U.consts K) (U.kind A) (U.kind B) (U.data d) (D / U.L ^ 2) = varyingLnLambda K A B d D := by
  have hL := U.L_pos
  have hT := U.T_pos
  have hM := U.M_pos
  have hQ := U.Q_pos
  have h1 : U.M * A.m * d.gamma1Com * (U.M * B.m * d.gamma2Com) / (U.M * (U.L / U.T) * d.pLen) ^ 2 * (U.L / U.T * K.c) ^ 2 =
      A.m * d.gamma1Com * (B.m * d.gamma2Com) / d.pLen ^ 2 * K.c ^ 2 := by
    field_simp
  have h2 : ∀ x : ℝ, U.M * U.L ^ 2 / U.T * K.h / 2 / (U.M * (U.L / U.T) * x) = U.L * (K.h / 2 / x) := by
    intro x
    field_simp
  have h3 : ∀ X E : ℝ, |U.Q * A.q * (U.Q * B.q)| / (4 * Real.pi * (U.Q ^ 2 * U.T ^ 2 / (U.M * U.L ^ 3) * K.eps0) * (U.L / U.T * K.c) ^ 2) * d.gammaCom /
      (U.M * E) * X = U.L * (|A.q * B.q| / (4 * Real.pi * K.eps0 * K.c ^ 2) * d.gammaCom / E * X) := by
    intro X E
    rw [show U.Q * A.q * (U.Q * B.q) = U.Q ^ 2 * (A.q * B.q) by ring, abs_mul, abs_of_pos (by positivity : (0 : ℝ) < U.Q ^ 2)]
    field_simp
  have h4 : D / U.L ^ 2 > 0 ↔ D > 0 := div_pos_iff_of_pos_right (by positivity)
  simp only [varyingLnLambda, Units.consts, Units.kind, Units.data, h4]
  split
  · rw [show U.M * A.m * d.gamma1Com * (U.M * B.m) * d.gamma2Com = U.M * A.m * d.gamma1Com * (U.M * B.m * d.gamma2Com) by ring, h1, h2,
      show U.M * A.m * d.gamma1Com + U.M * B.m * d.gamma2Com = U.M * (A.m * d.gamma1Com + B.m * d.gamma2Com) by ring, h3,
      ← mul_max_of_nonneg _ _ hL.le, mul_pow, show A.m * d.gamma1Com * (B.m * d.gamma2Com) = A.m * d.gamma1Com * B.m * d.gamma2Com by ring]
    congr 4
    rw [one_div_div, div_mul_eq_div_div, mul_comm]
    field_simp
  · rfl

/-- a rotation turns a scaled momentum into the scaled turned momentum -/
theorem rotate_units (k : ℝ) (hk : 0 < k) (p : V3) (l q cx sx phi : ℝ) : rotate (p.smul k) (k * l) (k * q) cx sx phi = (rotate p l q cx sx phi).smul k := by
  have h : k * q > 1 / 10 ^ 10 * (k * l) ↔ q > 1 / 10 ^ 10 * l := by
    rw [show 1 / 10 ^ 10 * (k * l) = k * (1 / 10 ^ 10 * l) by ring]
    exact mul_lt_mul_iff_right₀ hk
  unfold rotate V3.smul
  simp only [h]
  split
  · simp only [V3.mk.injEq]
    refine ⟨?_, ?_, ?_⟩
    · rw [show k * p.x * (k * p.z) * (sx * Real.cos phi) - k * p.y * (k * l) * (sx * Real.sin phi) =
        k * (k * (p.x * p.z * (sx * Real.cos phi) - p.y * l * (sx * Real.sin phi))) by ring, mul_div_mul_left _ _ hk.ne']
      ring
    · rw [show k * p.y * (k * p.z) * (sx * Real.cos phi) + k * p.x * (k * l) * (sx * Real.sin phi) =
        k * (k * (p.y * p.z * (sx * Real.cos phi) + p.x * l * (sx * Real.sin phi))) by ring, mul_div_mul_left _ _ hk.ne']
      ring
    · ring
  · simp only [V3.mk.injEq]
    exact ⟨by ring, by ring, by ring⟩

theorem boost_units (k μ : ℝ) (hk : 0 < k) (p : V3) (gp m : ℝ) (v : V3) (v2 g : ℝ) :
    boostToLab (p.smul (μ * k)) gp (μ * m) (v.smul k) (k ^ 2 * v2) g = (boostToLab p gp m v v2 g).smul (μ * k) := by
  unfold boostToLab V3.smul
  simp only [fac_units _ _ _ hk, V3.mk.injEq]
  have h : fac g v2 / k ^ 2 * (k * v.x * (μ * k * p.x) + k * v.y * (μ * k * p.y) + k * v.z * (μ * k * p.z)) =
      μ * (fac g v2 * (v.x * p.x + v.y * p.y + v.z * p.z)) := by
    field_simp
  rw [h]
  exact ⟨by ring, by ring, by ring⟩

theorem setMomentum_units (U : Units) (K : Consts) (A : Kind) (a : Part) (p : V3) :
    setMomentum (U.consts K) (U.kind A) a (p.smul (U.M * (U.L / U.T))) = setMomentum K A a p := by
  have hL := U.L_pos
  have hT := U.T_pos
  have hM := U.M_pos
  have h : ∀ x : ℝ, U.M * (U.L / U.T) * x / (U.M * A.m) / (U.L / U.T * K.c) = x / A.m / K.c := by
    intro x
    field_simp
  simp only [setMomentum, Units.consts, Units.kind, V3.smul, h]

/-- C73: a collision of the same particles with the same draws has the same outcome in every system of units. -/
theorem kernel_units (U : Units) (K : Consts) (A B : Kind) (P : Params) (r : Draws) (a b : Part) :
    kernel (U.consts K) (U.kind A) (U.kind B) (U.params P) r a b = kernel K A B P r a b := by
  have hk : 0 < U.L / U.T := div_pos U.L_pos U.T_pos
  have hMk : 0 < U.M * (U.L / U.T) := mul_pos U.M_pos hk
  unfold kernel
  have hw : (U.params P).wCorr = P.wCorr := rfl
  simp only [data_units, hw]
  generalize collisionData K ⟨a.u, a.invGamma, a.w * P.wCorr⟩ A ⟨b.u, b.invGamma, b.w * P.wCorr⟩ B = d
  have h0 : (U.data d).pLen = 0 ↔ d.pLen = 0 := by
    show U.M * (U.L / U.T) * d.pLen = 0 ↔ _
    simp [hMk.ne']
  have hs : ∀ l, scatter (U.consts K) (U.kind A) (U.kind B) (U.data d) (U.params P).cellVol ((U.params P).dt * (U.params P).dtCorr) l r.angleU r.phi =
      (scatter K A B d P.cellVol (P.dt * P.dtCorr) l r.angleU r.phi).smul (U.M * (U.L / U.T)) := by
    intro l
    unfold scatter
    simp only [h0]
    split
    · rfl
    · rw [show (U.params P).dt * (U.params P).dtCorr = U.T * (P.dt * P.dtCorr) by simp only [Units.params]; ring]
      show rotate (d.p1.smul _) _ _ (angle (sParam (U.consts K) (U.kind A) (U.kind B) (U.data d) (U.L ^ 3 * P.cellVol) _ l) _).1 (angle (sParam (U.consts K) (U.kind A) (U.kind B) (U.data d) (U.L ^ 3 * P.cellVol) _ l) _).2 _ = _
      rw [sParam_units]
      exact rotate_units _ hMk _ _ _ _ _ _
  have hl : (if (U.params P).lnLambda > 0 then (U.params P).lnLambda else varyingLnLambda (U.consts K) (U.kind A) (U.kind B) (U.data d) (U.params P).debyeInvSq) =
      (if P.lnLambda > 0 then P.lnLambda else varyingLnLambda K A B d P.debyeInvSq) := by
    show (if P.lnLambda > 0 then P.lnLambda else varyingLnLambda (U.consts K) (U.kind A) (U.kind B) (U.data d) (P.debyeInvSq / U.L ^ 2)) = _
    rw [lnLambda_units]
  simp only [h0, hl, hs]
  split
  · rfl
  · generalize scatter K A B d P.cellVol (P.dt * P.dtCorr) (if P.lnLambda > 0 then P.lnLambda else varyingLnLambda K A B d P.debyeInvSq) r.angleU r.phi = q
    have hb1 := boost_units (U.L / U.T) U.M hk q d.gamma1Com A.m d.v d.v2 d.gammaCom
    have hb2 := boost_units (U.L / U.T) U.M hk ⟨-q.x, -q.y, -q.z⟩ d.gamma2Com B.m d.v d.v2 d.gammaCom
    have hneg : (⟨-(q.smul (U.M * (U.L / U.T))).x, -(q.smul (U.M * (U.L / U.T))).y, -(q.smul (U.M * (U.L / U.T))).z⟩ : V3) =
        V3.smul (U.M * (U.L / U.T)) ⟨-q.x, -q.y, -q.z⟩ := by
      simp only [V3.smul, V3.mk.injEq]
      exact ⟨by ring, by ring, by ring⟩
    have h1 := (congrArg (setMomentum (U.consts K) (U.kind A) a) hb1).trans (setMomentum_units U K A a _)
    have h2 := (congrArg (setMomentum (U.consts K) (U.kind B) b) hb2).trans (setMomentum_units U K B b _)
    rw [hneg]
    show (if b.w * P.wCorr / _ > r.selectU then setMomentum (U.consts K) (U.kind A) a (boostToLab (q.smul (U.M * (U.L / U.T))) d.gamma1Com (U.M * A.m) (d.v.smul (U.L / U.T)) ((U.L / U.T) ^ 2 * d.v2) d.gammaCom) else a,
      if a.w * P.wCorr / _ > r.selectU then setMomentum (U.consts K) (U.kind B) b (boostToLab (V3.smul (U.M * (U.L / U.T)) ⟨-q.x, -q.y, -q.z⟩) d.gamma2Com (U.M * B.m) (d.v.smul (U.L / U.T)) ((U.L / U.T) ^ 2 * d.v2) d.gammaCom) else b) = _
    rw [h1, h2]

/-! ### order of the pair -/

/-- the momentum of the second particle in the pair frame is opposite to that of the first -/
theorem opposite {K : Consts} {A B : Kind} (hA : 0 < A.m) (hB : 0 < B.m) {a b : Part} {d : Data} {f : ℝ} (hd : DataOk K A B a b d f) :
    bp d.gammaCom f d.v (momentum K B b) (mg B b) = ⟨-d.p1.x, -d.p1.y, -d.p1.z⟩ := by
  have hF := hd.frame
  have hfv := hF.f_v
  obtain ⟨tx, ty, tz⟩ := hd.total
  have hs : 0 < mg A a + mg B b := add_pos (mg_pos hA a) (mg_pos hB b)
  rw [hd.p1]
  unfold bp dot at *
  simp only [V3.mk.injEq]
  have key : f * ((momentum K A a).x * d.v.x + (momentum K A a).y * d.v.y + (momentum K A a).z * d.v.z) - d.gammaCom * mg A a +
      (f * ((momentum K B b).x * d.v.x + (momentum K B b).y * d.v.y + (momentum K B b).z * d.v.z) - d.gammaCom * mg B b) = -(mg A a + mg B b) := by
    linear_combination -f * d.v.x * tx - f * d.v.y * ty - f * d.v.z * tz + (mg A a + mg B b) * hfv
  refine ⟨?_, ?_, ?_⟩
  · linear_combination d.v.x * key - tx
  · linear_combination d.v.y * key - ty
  · linear_combination d.v.z * key - tz

/-- the same pair in the other order -/
structure Swapped (d d' : Data) : Prop where
  w1 : d'.w1 = d.w2
  w2 : d'.w2 = d.w1
  gamma1 : d'.gamma1 = d.gamma2
  gamma2 : d'.gamma2 = d.gamma1
  v : d'.v = d.v
  v2 : d'.v2 = d.v2
  gammaCom : d'.gammaCom = d.gammaCom
  p1 : d'.p1 = ⟨-d.p1.x, -d.p1.y, -d.p1.z⟩
  pLen : d'.pLen = d.pLen
  pPerp : d'.pPerp = d.pPerp
  gamma1Com : d'.gamma1Com = d.gamma2Com
  gamma2Com : d'.gamma2Com = d.gamma1Com

theorem data_swap {K : Consts} {A B : Kind} (hc : 0 < K.c) (hA : 0 < A.m) (hB : 0 < B.m) {a b : Part} (ha : Consistent a) (hb : Consistent b) (w1 w2 : ℝ) :
    Swapped (collisionData K ⟨a.u, a.invGamma, w1⟩ A ⟨b.u, b.invGamma, w2⟩ B) (collisionData K ⟨b.u, b.invGamma, w2⟩ B ⟨a.u, a.invGamma, w1⟩ A) := by
  obtain ⟨f, hd⟩ := data_ok hc hA hB ha hb w1 w2
  obtain ⟨f', hd'⟩ := data_ok hc hB hA hb ha w2 w1
  have hx : (collisionData K ⟨b.u, b.invGamma, w2⟩ B ⟨a.u, a.invGamma, w1⟩ A).v = (collisionData K ⟨a.u, a.invGamma, w1⟩ A ⟨b.u, b.invGamma, w2⟩ B).v := by
    unfold collisionData
    simp only [V3.mk.injEq]
    refine ⟨?_, ?_, ?_⟩ <;> rw [add_comm, add_comm (1 / b.invGamma * B.m)]
  have hv2 : (collisionData K ⟨b.u, b.invGamma, w2⟩ B ⟨a.u, a.invGamma, w1⟩ A).v2 = (collisionData K ⟨a.u, a.invGamma, w1⟩ A ⟨b.u, b.invGamma, w2⟩ B).v2 := by
    rw [hd.v2, hd'.v2, hx]
  have hg : (collisionData K ⟨b.u, b.invGamma, w2⟩ B ⟨a.u, a.invGamma, w1⟩ A).gammaCom =
      (collisionData K ⟨a.u, a.invGamma, w1⟩ A ⟨b.u, b.invGamma, w2⟩ B).gammaCom :=
    congrArg (fun t => 1 / √(1 - t / K.c ^ 2)) hv2
  have hf : f' = f := by
    have h1 := hd.frame.f_eq
    have h2 := hd'.frame.f_eq
    rw [hg, ← h1, mul_assoc, mul_assoc] at h2
    have := hd.frame.g_pos
    exact mul_right_cancel₀ (by positivity) h2
  have hp : (collisionData K ⟨b.u, b.invGamma, w2⟩ B ⟨a.u, a.invGamma, w1⟩ A).p1 =
      ⟨-(collisionData K ⟨a.u, a.invGamma, w1⟩ A ⟨b.u, b.invGamma, w2⟩ B).p1.x, -(collisionData K ⟨a.u, a.invGamma, w1⟩ A ⟨b.u, b.invGamma, w2⟩ B).p1.y,
        -(collisionData K ⟨a.u, a.invGamma, w1⟩ A ⟨b.u, b.invGamma, w2⟩ B).p1.z⟩ := by
    rw [hd'.p1, hg, hx, hf]
    exact opposite hA hB hd
  refine ⟨rfl, rfl, rfl, rfl, hx, hv2, hg, hp, ?_, ?_, ?_, ?_⟩
  · rw [hd.pLen, hd'.pLen, hp]
    simp only [neg_sq]
  · rw [hd.pPerp, hd'.pPerp, hp]
    simp only [neg_sq]
  · have := hd'.e1
    rw [hg, hx, ← hd.e2] at this
    exact mul_left_cancel₀ hB.ne' this
  · have := hd'.e2
    rw [hg, hx, ← hd.e1] at this
    exact mul_left_cancel₀ hA.ne' this

theorem sParam_swap {K : Consts} {A B : Kind} {d d' : Data} (h : Swapped d d') (V dt l : ℝ) : sParam K B A d' V dt l = sParam K A B d V dt l := by
  unfold sParam
  rw [h.w1, h.w2, h.gamma1, h.gamma2, h.gammaCom, h.pLen, h.gamma1Com, h.gamma2Com, max_comm, mul_comm B.q, add_comm (B.m * d.gamma2),
    show 4 * Real.pi * K.eps0 ^ 2 * K.c ^ 4 * B.m * d.gamma2 * A.m * d.gamma1 = 4 * Real.pi * K.eps0 ^ 2 * K.c ^ 4 * A.m * d.gamma1 * B.m * d.gamma2 by ring,
    show B.m * d.gamma2Com * A.m * d.gamma1Com = A.m * d.gamma1Com * B.m * d.gamma2Com by ring]

theorem lnLambda_swap {K : Consts} {A B : Kind} {d d' : Data} (h : Swapped d d') (D : ℝ) : varyingLnLambda K B A d' D = varyingLnLambda K A B d D := by
  unfold varyingLnLambda
  rw [h.gammaCom, h.pLen, h.gamma1Com, h.gamma2Com, mul_comm B.q, add_comm (B.m * d.gamma2Com),
    show B.m * d.gamma2Com * A.m * d.gamma1Com = A.m * d.gamma1Com * B.m * d.gamma2Com by ring]

/-- C73 (partial: the momenta in the pair's frame are not along z): with the two particles in the other order and the azimuth `π - φ` in place of `φ`,
which is just as likely, the two particles come out the same. Missing: pairs along z, where the code loses the sign of the momentum (C41). -/
theorem kernel_swap_partial (K : Consts) (A B : Kind) (P : Params) (U φ s : ℝ) (h : Admissible K A B P ⟨U, φ, s⟩) (a b : Part)
    (ha : Consistent a) (hb : Consistent b)
    (hz : (collisionData K a A b B).pPerp > 1 / 10 ^ 10 * (collisionData K a A b B).pLen) :
    kernel K B A P ⟨U, Real.pi - φ, s⟩ b a = (kernel K A B P ⟨U, φ, s⟩ a b).swap := by
  have hsw := data_swap h.c h.mA h.mB ha hb (a.w * P.wCorr) (b.w * P.wCorr)
  have hz' : (collisionData K ⟨a.u, a.invGamma, a.w * P.wCorr⟩ A ⟨b.u, b.invGamma, b.w * P.wCorr⟩ B).pPerp >
      1 / 10 ^ 10 * (collisionData K ⟨a.u, a.invGamma, a.w * P.wCorr⟩ A ⟨b.u, b.invGamma, b.w * P.wCorr⟩ B).pLen := hz
  unfold kernel
  simp only
  generalize collisionData K ⟨a.u, a.invGamma, a.w * P.wCorr⟩ A ⟨b.u, b.invGamma, b.w * P.wCorr⟩ B = d at hsw hz'
  generalize collisionData K ⟨b.u, b.invGamma, b.w * P.wCorr⟩ B ⟨a.u, a.invGamma, a.w * P.wCorr⟩ A = d' at hsw
  rw [hsw.pLen]
  split
  · rfl
  next h0 =>
    rw [lnLambda_swap hsw]
    generalize (if P.lnLambda > 0 then P.lnLambda else varyingLnLambda K A B d P.debyeInvSq) = l
    have hs : scatter K B A d' P.cellVol (P.dt * P.dtCorr) l U (Real.pi - φ) =
        ⟨-(scatter K A B d P.cellVol (P.dt * P.dtCorr) l U φ).x, -(scatter K A B d P.cellVol (P.dt * P.dtCorr) l U φ).y,
          -(scatter K A B d P.cellVol (P.dt * P.dtCorr) l U φ).z⟩ := by
      unfold scatter
      rw [hsw.pLen, if_neg h0, if_neg h0, sParam_swap hsw, hsw.p1, hsw.pPerp]
      generalize angle (sParam K A B d P.cellVol (P.dt * P.dtCorr) l) U = t
      unfold rotate
      simp only [if_pos hz', Real.cos_pi_sub, Real.sin_pi_sub, V3.mk.injEq]
      refine ⟨?_, ?_, ?_⟩ <;> ring
    rw [hs, hsw.gamma1Com, hsw.gamma2Com, hsw.v, hsw.v2, hsw.gammaCom, max_comm]
    simp only [neg_neg]
    rfl

/-! ### the Coulomb logarithm -/

/-- the impact parameter of the docstring of `varying_lnLambda`, equation (22) there: with the Lorentz factors of the laboratory in the denominator -/
noncomputable def docImpact (K : Consts) (A B : Kind) (d : Data) : ℝ :=
  |A.q * B.q| / (4 * Real.pi * K.eps0 * K.c ^ 2) * (d.gammaCom / (A.m * d.gamma1 + B.m * d.gamma2)) *
    (A.m * d.gamma1Com * (B.m * d.gamma2Com) / d.pLen ^ 2 * K.c ^ 2 + 1)

/-- the logarithm with an impact parameter `b0`, at least 2 -/
noncomputable def logWith (K : Consts) (d : Data) (D b0 : ℝ) : ℝ := max 2 (1 / 2 * Real.log (1 + 1 / D / max (K.h / 2 / d.pLen) b0 ^ 2))

theorem labEnergy {K : Consts} {A B : Kind} {a b : Part} {d : Data} {f : ℝ} (hd : DataOk K A B a b d f) :
    d.gammaCom * (A.m * d.gamma1Com + B.m * d.gamma2Com) = A.m * d.gamma1 + B.m * d.gamma2 := by
  obtain ⟨tx, ty, tz⟩ := hd.total
  have hF := hd.frame
  have hc := hF.c_pos
  have hge := hF.g_eq
  rw [hd.e1, hd.e2, hd.g1, hd.g2]
  unfold bE
  have e : dot (momentum K A a) d.v + dot (momentum K B b) d.v = (mg A a + mg B b) * dot d.v d.v := by
    unfold dot
    linear_combination -d.v.x * tx - d.v.y * ty - d.v.z * tz
  have e2 : d.gammaCom * (d.gammaCom * (mg A a - dot (momentum K A a) d.v / K.c ^ 2) + d.gammaCom * (mg B b - dot (momentum K B b) d.v / K.c ^ 2)) =
      d.gammaCom ^ 2 * ((mg A a + mg B b) - (dot (momentum K A a) d.v + dot (momentum K B b) d.v) / K.c ^ 2) := by ring
  rw [e2, e]
  have hc2 : K.c ^ 2 ≠ 0 := by positivity
  field_simp
  linear_combination (mg A a + mg B b) * hge

/-- the code's impact parameter is the documented one times the Lorentz factor of the pair -/
theorem code_log {K : Consts} {A B : Kind} {a b : Part} {d : Data} {f : ℝ} (hd : DataOk K A B a b d f) (D : ℝ) (hD : 0 < D) :
    varyingLnLambda K A B d D = logWith K d D (d.gammaCom * docImpact K A B d) := by
  have hg := hd.frame.g_pos
  have e : |A.q * B.q| / (4 * Real.pi * K.eps0 * K.c ^ 2) * d.gammaCom / (A.m * d.gamma1Com + B.m * d.gamma2Com) *
      ((A.m * d.gamma1Com * B.m * d.gamma2Com) / d.pLen ^ 2 * K.c ^ 2 + 1) = d.gammaCom * docImpact K A B d := by
    unfold docImpact
    rw [← labEnergy hd, div_mul_eq_div_div d.gammaCom, div_self hg.ne', show A.m * d.gamma1Com * B.m * d.gamma2Com = A.m * d.gamma1Com * (B.m * d.gamma2Com) by ring]
    ring
  unfold varyingLnLambda logWith
  simp only [e]
  rw [if_pos hD]

/-- C73 (partial): if the pair's centre of mass is at rest, the logarithm is the documented one. -/
theorem impact_partial (K : Consts) (A B : Kind) (hc : 0 < K.c) (hA : 0 < A.m) (hB : 0 < B.m) (a b : Part) (ha : Consistent a) (hb : Consistent b) (D : ℝ) (hD : 0 < D)
    (hrest : SameTotal (momentum K A a) (momentum K B b) ⟨0, 0, 0⟩ ⟨0, 0, 0⟩) :
    varyingLnLambda K A B (collisionData K a A b B) D = logWith K (collisionData K a A b B) D (docImpact K A B (collisionData K a A b B)) := by
  obtain ⟨f, hd⟩ := data_ok hc hA hB ha hb a.w b.w
  have hd : DataOk K A B a b (collisionData K a A b B) f := hd
  rw [code_log hd D hD]
  have hE : mg A a + mg B b ≠ 0 := (add_pos (mg_pos hA a) (mg_pos hB b)).ne'
  obtain ⟨tx, ty, tz⟩ := hd.total
  obtain ⟨rx, ry, rz⟩ := hrest
  simp only [add_zero] at rx ry rz
  rw [rx] at tx
  rw [ry] at ty
  rw [rz] at tz
  have hv : dot (collisionData K a A b B).v (collisionData K a A b B).v = 0 := by
    unfold dot
    rw [(mul_eq_zero.mp tx).resolve_left hE, (mul_eq_zero.mp ty).resolve_left hE, (mul_eq_zero.mp tz).resolve_left hE]
    ring
  have hge := hd.frame.g_eq
  have hg := hd.frame.g_pos
  rw [hv, sub_zero] at hge
  have hg1 : (collisionData K a A b B).gammaCom ^ 2 = 1 := mul_right_cancel₀ (by positivity : K.c ^ 2 ≠ 0) (by rw [hge, one_mul])
  rw [(pow_eq_one_iff_of_nonneg hg.le two_ne_zero).mp hg1, one_mul]

/-- C73 fails for moving pairs: for every charged pair whose centre of mass moves and whose documented impact parameter is not below the quantum limit,
there are screening lengths for which the code's logarithm is smaller than the documented one. -/
theorem impact_fails (K : Consts) (A B : Kind) (hc : 0 < K.c) (hA : 0 < A.m) (hB : 0 < B.m) (a b : Part) (ha : Consistent a) (hb : Consistent b)
    (hmove : ¬ SameTotal (momentum K A a) (momentum K B b) ⟨0, 0, 0⟩ ⟨0, 0, 0⟩)
    (hpos : 0 < docImpact K A B (collisionData K a A b B)) (hq : K.h / 2 / (collisionData K a A b B).pLen ≤ docImpact K A B (collisionData K a A b B)) :
    ∃ D > 0, varyingLnLambda K A B (collisionData K a A b B) D < logWith K (collisionData K a A b B) D (docImpact K A B (collisionData K a A b B)) := by
  obtain ⟨f, hd⟩ := data_ok hc hA hB ha hb a.w b.w
  have hd : DataOk K A B a b (collisionData K a A b B) f := hd
  have hg := hd.frame.g_pos
  have hge := hd.frame.g_eq
  have hg1 : 1 < (collisionData K a A b B).gammaCom := by
    by_contra hn
    have hle := not_lt.mp hn
    apply hmove
    have h0 : dot (collisionData K a A b B).v (collisionData K a A b B).v ≤ 0 := by
      by_contra hp
      have hp := not_le.mp hp
      have hsq : (collisionData K a A b B).gammaCom ^ 2 ≤ 1 := by nlinarith
      have h3 : 0 < (collisionData K a A b B).gammaCom ^ 2 * dot (collisionData K a A b B).v (collisionData K a A b B).v := by positivity
      have h4 : (collisionData K a A b B).gammaCom ^ 2 * K.c ^ 2 ≤ 1 * K.c ^ 2 := mul_le_mul_of_nonneg_right hsq (by positivity)
      linarith
    obtain ⟨vx, vy, vz⟩ := zero_of_sq (x := (collisionData K a A b B).v.x) (y := (collisionData K a A b B).v.y) (z := (collisionData K a A b B).v.z)
      (by unfold dot at h0; linarith)
    obtain ⟨tx, ty, tz⟩ := hd.total
    rw [vx, mul_zero] at tx
    rw [vy, mul_zero] at ty
    rw [vz, mul_zero] at tz
    exact ⟨by rw [← tx, add_zero], by rw [← ty, add_zero], by rw [← tz, add_zero]⟩
  set b0 := docImpact K A B (collisionData K a A b B) with hb0
  set g := (collisionData K a A b B).gammaCom with hgd
  have hlt : b0 < g * b0 := by nlinarith
  refine ⟨1 / (Real.exp 5 * b0 ^ 2), by positivity, ?_⟩
  rw [code_log hd _ (by positivity)]
  unfold logWith
  rw [max_eq_right hq, max_eq_right (hq.trans hlt.le), one_div_one_div, mul_div_cancel_right₀ (Real.exp 5) (by positivity : b0 ^ 2 ≠ 0)]
  have h5 : (5 : ℝ) < Real.log (1 + Real.exp 5) := by
    rw [Real.lt_log_iff_exp_lt (by positivity)]
    linarith
  have hb : Real.exp 5 * b0 ^ 2 / (g * b0) ^ 2 < Real.exp 5 := by
    rw [div_lt_iff₀ (by positivity)]
    have : b0 ^ 2 < (g * b0) ^ 2 := by nlinarith
    exact mul_lt_mul_of_pos_left this (Real.exp_pos 5)
  have hl : Real.log (1 + Real.exp 5 * b0 ^ 2 / (g * b0) ^ 2) < Real.log (1 + Real.exp 5) := Real.log_lt_log (by positivity) (by linarith)
  rw [max_eq_right (by linarith : (2 : ℝ) ≤ 1 / 2 * Real.log (1 + Real.exp 5))]
  exact max_lt (by linarith) (by linarith)

/-! ### examples -/

/-- two electrons with opposite momenta in a frame that moves along x -/
noncomputable def exA : Part := ⟨⟨15 / 16, 3 / 4, 0⟩, 16 / 25, 1⟩
noncomputable def exB : Part := ⟨⟨15 / 16, -3 / 4, 0⟩, 16 / 25, 1⟩

theorem exA_consistent : Consistent exA := by
  unfold Consistent exA
  rw [show (1 + ((15 / 16 : ℝ) ^ 2 + (3 / 4) ^ 2 + 0 ^ 2)) = (25 / 16) ^ 2 by norm_num, Real.sqrt_sq (by norm_num)]
  norm_num

theorem exB_consistent : Consistent exB := by
  unfold Consistent exB
  rw [show (1 + ((15 / 16 : ℝ) ^ 2 + (-3 / 4) ^ 2 + 0 ^ 2)) = (25 / 16) ^ 2 by norm_num, Real.sqrt_sq (by norm_num)]
  norm_num

/-- they meet the hypothesis of `kernel_swap_partial` -/
example : (collisionData ⟨1, 1, 1⟩ exA ⟨1, 1⟩ exB ⟨1, 1⟩).pPerp > 1 / 10 ^ 10 * (collisionData ⟨1, 1, 1⟩ exA ⟨1, 1⟩ exB ⟨1, 1⟩).pLen := by
  obtain ⟨f, hd⟩ := data_ok (K := ⟨1, 1, 1⟩) (A := ⟨1, 1⟩) (B := ⟨1, 1⟩) (by norm_num) (by norm_num) (by norm_num) exA_consistent exB_consistent 1 1
  have hd : DataOk ⟨1, 1, 1⟩ ⟨1, 1⟩ ⟨1, 1⟩ exA exB (collisionData ⟨1, 1, 1⟩ exA ⟨1, 1⟩ exB ⟨1, 1⟩) f := hd
  obtain ⟨-, ty, tz⟩ := hd.total
  have hE : mg ⟨1, 1⟩ exA + mg ⟨1, 1⟩ exB ≠ 0 := (add_pos (mg_pos (by norm_num) _) (mg_pos (by norm_num) _)).ne'
  have vy : (collisionData ⟨1, 1, 1⟩ exA ⟨1, 1⟩ exB ⟨1, 1⟩).v.y = 0 := by
    refine (mul_eq_zero.mp (ty.trans ?_)).resolve_left hE
    norm_num [momentum, exA, exB]
  have vz : (collisionData ⟨1, 1, 1⟩ exA ⟨1, 1⟩ exB ⟨1, 1⟩).v.z = 0 := by
    refine (mul_eq_zero.mp (tz.trans ?_)).resolve_left hE
    norm_num [momentum, exA, exB]
  have py : (collisionData ⟨1, 1, 1⟩ exA ⟨1, 1⟩ exB ⟨1, 1⟩).p1.y = 3 / 4 := by
    rw [hd.p1]
    unfold bp
    simp only [vy, mul_zero, add_zero]
    norm_num [momentum, exA]
  have pz : (collisionData ⟨1, 1, 1⟩ exA ⟨1, 1⟩ exB ⟨1, 1⟩).p1.z = 0 := by
    rw [hd.p1]
    unfold bp
    simp only [vz, mul_zero, add_zero]
    norm_num [momentum, exA]
  rw [hd.pLen, hd.pPerp, py, pz]
  have h : 0 < √((collisionData ⟨1, 1, 1⟩ exA ⟨1, 1⟩ exB ⟨1, 1⟩).p1.x ^ 2 + (3 / 4) ^ 2) := Real.sqrt_pos.mpr (by positivity)
  simp only [ne_eq, OfNat.ofNat_ne_zero, not_false_eq_true, zero_pow, add_zero]
  linarith

/-- and their centre of mass moves -/
example : ¬ SameTotal (momentum ⟨1, 1, 1⟩ ⟨1, 1⟩ exA) (momentum ⟨1, 1, 1⟩ ⟨1, 1⟩ exB) ⟨0, 0, 0⟩ ⟨0, 0, 0⟩ := by
  intro h
  have := h.1
  norm_num [momentum, exA, exB] at this

end Verif.Coulomb
