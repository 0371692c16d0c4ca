import Verif.Model.LaserRun
import Verif.Props.Laser
import Mathlib.Tactic.LinearCombination
/-!
# What a laser lets into the box

The boundary condition at the plane of injection.
-/
namespace Verif.Laser

/-! ## specification -/

/-- the part of the field at row `i` of a 2D patch that runs into the box, in y polarisation: `Ey + c Bz`, the magnetic field taken half way between
the two cells beside the electric field. A plane wave of amplitude `A` that runs along +x has `Ey = c Bz = A`, so `2 A`; one that runs along -x
has `Ey = -c Bz`, so 0. `ey` is the electric field -/
noncomputable def forwardY (c ey bzHere bzLeft : ℝ) : ℝ := ey + c * ((bzHere + bzLeft) / 2)
/-- the same in z polarisation: `Ez - c By` -/
noncomputable def forwardZ (c ez byHere byLeft : ℝ) : ℝ := ez - c * ((byHere + byLeft) / 2)

/-- a plane wave of amplitude `A` along +x has the forward part `2 A`, one along -x has none -/
theorem forward_plane (c A : ℝ) (hc : c ≠ 0) :
    forwardY c A (A / c) (A / c) = 2 * A ∧ forwardY c A (-(A / c)) (-(A / c)) = 0 ∧
    forwardZ c A (-(A / c)) (-(A / c)) = 2 * A ∧ forwardZ c A (A / c) (A / c) = 0 := by
  unfold forwardY forwardZ
  refine ⟨?_, ?_, ?_, ?_⟩ <;> (field_simp; ring)

/-- what comes in through the outer edge of the absorbing layer of a 2D patch, y polarisation; the cell left of cell 0 is the guard cell -/
noncomputable def enteringY2 (c : ℝ) (p : Patch I2) (iy : Nat) : ℝ :=
  forwardY c (p.f.e 1 (0, iy)) (p.f.b 2 (0, iy)) (p.f.b 2 ((p.n 0 + 2 * p.ng : Nat) - 1, iy))
/-- z polarisation -/
noncomputable def enteringZ2 (c : ℝ) (p : Patch I2) (iy : Nat) : ℝ :=
  forwardZ c (p.f.e 2 (0, iy)) (p.f.b 1 (0, iy)) (p.f.b 1 ((p.n 0 + 2 * p.ng : Nat) - 1, iy))
/-- 3D, y polarisation -/
noncomputable def enteringY3 (c : ℝ) (p : Patch I3) (u : Nat × Nat) : ℝ :=
  forwardY c (p.f.e 1 (0, u.1, u.2)) (p.f.b 2 (0, u.1, u.2)) (p.f.b 2 ((p.n 0 + 2 * p.ng : Nat) - 1, u.1, u.2))
/-- 3D, z polarisation -/
noncomputable def enteringZ3 (c : ℝ) (p : Patch I3) (u : Nat × Nat) : ℝ :=
  forwardZ c (p.f.e 2 (0, u.1, u.2)) (p.f.b 1 (0, u.1, u.2)) (p.f.b 1 ((p.n 0 + 2 * p.ng : Nat) - 1, u.1, u.2))

/-- the field that the emitting parts of a laser ask for at a cell of the plane -/
noncomputable def asked2 (S : Sim) (l : Laser) (p : Patch I2) (iy : Nat) : ℝ × ℝ :=
  ((emitting S l).map fun b => b.source S (points2 S p b iy)).sum
/-- 3D -/
noncomputable def asked3 (S : Sim) (l : Laser) (p : Patch I3) (u : Nat × Nat) : ℝ × ℝ :=
  ((emitting S l).map fun b => b.source S (points3 S p b u)).sum

/-- Specification (2D). After the laser, the synchronisation and the update of the electric field by half a step the forward wave in the first row of
cells behind the plane of injection, two cells after the layer, is that of a wave with the asked field plus what came in at the outer edge: `p` is
the patch before the laser, `g` its fields when the electric field is updated -/
def LetsIn2 (S : Sim) (l : Laser) (p : Patch I2) (g : LF I2) (iy : Nat) : Prop :=
  let L : Int := (S.thick : Int) + 2
  let E comp := nextE2 S.K (p.n 0 + 2 * p.ng) (p.n 1 + 2 * p.ng) 1 1 (S.K.dt / 2) g comp L iy
  forwardY S.K.c (E 1) (g.b 2 (L, iy)) (g.b 2 (L - 1, iy)) = 2 * (asked2 S l p iy).1 + enteringY2 S.K.c p iy ∧
  forwardZ S.K.c (E 2) (g.b 1 (L, iy)) (g.b 1 (L - 1, iy)) = 2 * (asked2 S l p iy).2 + enteringZ2 S.K.c p iy

/-- Specification (3D) -/
def LetsIn3 (S : Sim) (l : Laser) (p : Patch I3) (g : LF I3) (u : Nat × Nat) : Prop :=
  let L : Int := (S.thick : Int) + 2
  let E comp := nextE3 S.K (p.n 0 + 2 * p.ng) (p.n 1 + 2 * p.ng) (p.n 2 + 2 * p.ng) 1 1 1 (S.K.dt / 2) g comp L u.1 u.2
  forwardY S.K.c (E 1) (g.b 2 (L, u.1, u.2)) (g.b 2 (L - 1, u.1, u.2)) = 2 * (asked3 S l p u).1 + enteringY3 S.K.c p u ∧
  forwardZ S.K.c (E 2) (g.b 1 (L, u.1, u.2)) (g.b 1 (L - 1, u.1, u.2)) = 2 * (asked3 S l p u).2 + enteringZ3 S.K.c p u

/-- constants of a run: light, cells and time step are positive -/
def Const.Ok (K : Const) : Prop := 0 < K.c ∧ 0 < K.dx ∧ 0 < K.dt

/-! ## proofs -/

theorem solveY {c d t x jf S I e b0 b1 B q : ℝ} (hc : 0 < c) (hd : 0 < d) (ht : 0 < t) (hx : x = c * t / d)
    (hB : B = 1 / ((x + 1) * c) * (4 * S + 2 * I - 2 * e - q + jf + (x - 1) * c * b0)) (hb : b1 = B) :
    (e + (t / 2 * c ^ 2 / 1 * (-(b0 - b1) / d) + q / 2 - jf / 2)) + c * ((b0 + b1) / 2) = 2 * S + I := by
  have h1 : (x + 1) * c ≠ 0 := by
    have : 0 < x := by rw [hx]; positivity
    positivity
  have h2 : (x + 1) * c * B = 4 * S + 2 * I - 2 * e - q + jf + (x - 1) * c * b0 := by
    rw [hB, ← mul_assoc, mul_one_div_cancel h1, one_mul]
  have h3 : t / 2 * c ^ 2 / 1 * (-(b0 - b1) / d) = x * c / 2 * (b1 - b0) := by rw [hx]; field_simp; ring
  rw [h3, hb]
  linear_combination h2 / 2

theorem solveZ {c d t x jf S I e b0 b1 B q : ℝ} (hc : 0 < c) (hd : 0 < d) (ht : 0 < t) (hx : x = c * t / d)
    (hB : B = 1 / ((x + 1) * c) * (- 4 * S - 2 * I + 2 * e - q - jf + (x - 1) * c * b0)) (hb : b1 = B) :
    (e + (t / 2 * c ^ 2 / 1 * ((b0 - b1) / d) - q / 2 - jf / 2)) - c * ((b0 + b1) / 2) = 2 * S + I := by
  have h1 : (x + 1) * c ≠ 0 := by
    have : 0 < x := by rw [hx]; positivity
    positivity
  have h2 : (x + 1) * c * B = - 4 * S - 2 * I + 2 * e - q - jf + (x - 1) * c * b0 := by
    rw [hB, ← mul_assoc, mul_one_div_cancel h1, one_mul]
  have h3 : t / 2 * c ^ 2 / 1 * ((b0 - b1) / d) = x * c / 2 * (b0 - b1) := by rw [hx]; field_simp
  rw [h3, hb]
  linear_combination -h2 / 2

theorem wrap_of_nonneg (N : Nat) {i : Int} (h : 0 ≤ i) : wrap N i = i := by unfold wrap; rw [if_neg]; omega

/-- the fields of one leftmost 2D patch, after the laser and with guard cells `g`: the z part also needs the guard cell below -/
theorem letsIn2 {S : Sim} {l : Laser} {p q : Patch I2} (hK : S.K.Ok) (hj : Injected2 S l p q) (h0 : p.ix = 0) (hL : S.thick + 2 < p.n 0)
    (hg : 1 ≤ p.ng) {g : LF I2} (hs : Synced (own2 p) q.f g) {iy : Nat} (hy : yRange p.pml (p.n 1) iy) :
    let L : Int := (S.thick : Int) + 2
    let E comp := nextE2 S.K (p.n 0 + 2 * p.ng) (p.n 1 + 2 * p.ng) 1 1 (S.K.dt / 2) g comp L iy
    let lo : I2 := (L, wrap (p.n 1 + 2 * p.ng) ((iy : Int) - 1))
    forwardY S.K.c (E 1) (g.b 2 (L, iy)) (g.b 2 (L - 1, iy)) = 2 * (asked2 S l p iy).1 + enteringY2 S.K.c p iy ∧
    forwardZ S.K.c (E 2 - S.K.dt / 2 * S.K.c ^ 2 * (g.b 0 lo - p.f.b 0 lo) / S.K.dy) (g.b 1 (L, iy)) (g.b 1 (L - 1, iy)) =
      2 * (asked2 S l p iy).2 + enteringZ2 S.K.c p iy := by
  obtain ⟨kc, kx, kt⟩ := hK
  have hy' : iy < p.n 1 := by have := hy.2; omega
  -- own cells of the row and of the row before
  have o1 : own2 p ((S.thick : Int) + 2, (iy : Int)) := ⟨by simp only; omega, by simp only; omega, by simp only; omega, by simp only; omega⟩
  have o2 : own2 p ((S.thick : Int) + 1, (iy : Int)) := ⟨by simp only; omega, by simp only; omega, by simp only; omega, by simp only; omega⟩
  have r1 : ∀ d, g.b d ((S.thick : Int) + 2, (iy : Int)) = p.f.b d ((S.thick : Int) + 2, (iy : Int)) := fun d => by
    rw [hs.b d _ o1, hj.outside d _ fun k _ e => by have := (Prod.mk.inj e).1; omega]
  have r2 : ∀ d, g.b d ((S.thick : Int) + 1, (iy : Int)) = q.f.b d ((S.thick : Int) + 1, (iy : Int)) := fun d => hs.b d _ o2
  have se : g.e = p.f.e := hs.e.trans hj.same.2.2.2.2.2.2.1
  have sj : g.j = p.f.j := hs.j.trans hj.same.2.2.2.2.2.2.2
  have w1 : wrap (p.n 0 + 2 * p.ng) ((S.thick : Int) + 2) = (S.thick : Int) + 2 := wrap_of_nonneg _ (by omega)
  have w2 : wrap (p.n 0 + 2 * p.ng) ((S.thick : Int) + 2 - 1) = (S.thick : Int) + 1 := by rw [wrap_of_nonneg _ (by omega)]; omega
  have w3 : wrap (p.n 1 + 2 * p.ng) (iy : Int) = iy := wrap_nat _ _
  have w4 : wrap (p.n 0 + 2 * p.ng) ((S.thick + 2 : Nat) : Int) = (S.thick : Int) + 2 := by rw [wrap_nat]; push_cast; ring
  have w2' : wrap (p.n 0 + 2 * p.ng) ((S.thick : Int) + 1) = (S.thick : Int) + 1 := wrap_of_nonneg _ (by omega)
  have w5 : (S.thick : Int) + 2 - 1 = (S.thick : Int) + 1 := by omega
  have w6 : wrap (p.n 0 + 2 * p.ng) 0 = 0 := wrap_nat _ 0
  have i1 := hj.inside h0 1 iy hy
  have i2 := hj.inside h0 2 iy hy
  intro L E lo
  refine ⟨?_, ?_⟩
  · have B : g.b 2 ((S.thick : Int) + 1, (iy : Int)) = 1 / ((S.K.c * S.K.dt / S.K.dx + 1) * S.K.c) * (4 * (asked2 S l p iy).1 +
        2 * enteringY2 S.K.c p iy - 2 * p.f.e 1 ((S.thick : Int) + 2, (iy : Int)) - 0 + S.K.dt / S.K.eps0 * p.f.j 1 ((S.thick : Int) + 2, (iy : Int))
        + (S.K.c * S.K.dt / S.K.dx - 1) * S.K.c * p.f.b 2 ((S.thick : Int) + 2, (iy : Int))) := by
      rw [r2, i2]
      simp only [written2, bz2, gain, enteringY2, forwardY, asked2, w4, w6, wrap_neg, Matrix.cons_val, Prod.fst_zero, Prod.snd_zero]
      ring
    have := solveY kc kx kt rfl B (r2 2 ▸ rfl : g.b 2 ((S.thick : Int) + 1, (iy : Int)) = _)
    rw [← this]
    simp only [E, L, forwardY, nextE2, w1, w2', w3, w5, se, sj, r1, Matrix.cons_val]
    ring
  · have B : g.b 1 ((S.thick : Int) + 1, (iy : Int)) = 1 / ((S.K.c * S.K.dt / S.K.dx + 1) * S.K.c) * (- 4 * (asked2 S l p iy).2 -
        2 * enteringZ2 S.K.c p iy + 2 * p.f.e 2 ((S.thick : Int) + 2, (iy : Int))
        - (S.K.dt * S.K.c ^ 2) * (p.f.b 0 ((S.thick : Int) + 2, (iy : Int)) - p.f.b 0 lo) / S.K.dy
        - S.K.dt / S.K.eps0 * p.f.j 2 ((S.thick : Int) + 2, (iy : Int))
        + (S.K.c * S.K.dt / S.K.dx - 1) * S.K.c * p.f.b 1 ((S.thick : Int) + 2, (iy : Int))) := by
      rw [r2, i1]
      simp only [written2, by2, gain, enteringZ2, forwardZ, asked2, w4, w6, wrap_neg, Matrix.cons_val, Prod.fst_zero, Prod.snd_zero, lo, L]
      ring
    have := solveZ kc kx kt rfl B (r2 1 ▸ rfl : g.b 1 ((S.thick : Int) + 1, (iy : Int)) = _)
    rw [← this]
    simp only [E, L, lo, forwardZ, nextE2, w1, w2', w3, w5, se, sj, r1, Matrix.cons_val]
    ring

/-- the same in 3D -/
theorem letsIn3 {S : Sim} {l : Laser} {p q : Patch I3} (hK : S.K.Ok) (hj : Injected3 S l p q) (h0 : p.ix = 0) (hL : S.thick + 2 < p.n 0)
    (hg : 1 ≤ p.ng) {g : LF I3} (hs : Synced (own3 p) q.f g) {u : Nat × Nat} (hy : yRange p.pml (p.n 1) u.1) (hz : zRange p.pml (p.n 2) u.2) :
    let L : Int := (S.thick : Int) + 2
    let E comp := nextE3 S.K (p.n 0 + 2 * p.ng) (p.n 1 + 2 * p.ng) (p.n 2 + 2 * p.ng) 1 1 1 (S.K.dt / 2) g comp L u.1 u.2
    let lo : I3 := (L, wrap (p.n 1 + 2 * p.ng) ((u.1 : Int) - 1), (u.2 : Int))
    let be : I3 := (L, (u.1 : Int), wrap (p.n 2 + 2 * p.ng) ((u.2 : Int) - 1))
    forwardY S.K.c (E 1 + S.K.dt / 2 * S.K.c ^ 2 * (g.b 0 be - p.f.b 0 be) / S.K.dz) (g.b 2 (L, u.1, u.2)) (g.b 2 (L - 1, u.1, u.2)) =
      2 * (asked3 S l p u).1 + enteringY3 S.K.c p u ∧
    forwardZ S.K.c (E 2 - S.K.dt / 2 * S.K.c ^ 2 * (g.b 0 lo - p.f.b 0 lo) / S.K.dy) (g.b 1 (L, u.1, u.2)) (g.b 1 (L - 1, u.1, u.2)) =
      2 * (asked3 S l p u).2 + enteringZ3 S.K.c p u := by
  obtain ⟨kc, kx, kt⟩ := hK
  obtain ⟨iy, iz⟩ := u
  simp only at hy hz ⊢
  have hy' : iy < p.n 1 := by have := hy.2; omega
  have hz' : iz < p.n 2 := by have := hz.2; omega
  have o1 : own3 p ((S.thick : Int) + 2, (iy : Int), (iz : Int)) :=
    ⟨by simp only; omega, by simp only; omega, by simp only; omega, by simp only; omega, by simp only; omega, by simp only; omega⟩
  have o2 : own3 p ((S.thick : Int) + 1, (iy : Int), (iz : Int)) :=
    ⟨by simp only; omega, by simp only; omega, by simp only; omega, by simp only; omega, by simp only; omega, by simp only; omega⟩
  have r1 : ∀ d, g.b d ((S.thick : Int) + 2, (iy : Int), (iz : Int)) = p.f.b d ((S.thick : Int) + 2, (iy : Int), (iz : Int)) := fun d => by
    rw [hs.b d _ o1]
    by_cases hd : d = 0
    · subst hd
      exact hj.outsidex _ fun k z _ e => by have := (Prod.mk.inj e).1; omega
    · exact hj.outside d _ hd fun k _ _ e => by have := (Prod.mk.inj e).1; omega
  have r2 : ∀ d, g.b d ((S.thick : Int) + 1, (iy : Int), (iz : Int)) = q.f.b d ((S.thick : Int) + 1, (iy : Int), (iz : Int)) := fun d => hs.b d _ o2
  have se : g.e = p.f.e := hs.e.trans hj.same.2.2.2.2.2.2.1
  have sj : g.j = p.f.j := hs.j.trans hj.same.2.2.2.2.2.2.2
  have w1 : wrap (p.n 0 + 2 * p.ng) ((S.thick : Int) + 2) = (S.thick : Int) + 2 := wrap_of_nonneg _ (by omega)
  have w2' : wrap (p.n 0 + 2 * p.ng) ((S.thick : Int) + 1) = (S.thick : Int) + 1 := wrap_of_nonneg _ (by omega)
  have w3 : wrap (p.n 1 + 2 * p.ng) (iy : Int) = iy := wrap_nat _ _
  have w3' : wrap (p.n 2 + 2 * p.ng) (iz : Int) = iz := wrap_nat _ _
  have w4 : wrap (p.n 0 + 2 * p.ng) ((S.thick + 2 : Nat) : Int) = (S.thick : Int) + 2 := by rw [wrap_nat]; push_cast; ring
  have w5 : (S.thick : Int) + 2 - 1 = (S.thick : Int) + 1 := by omega
  have w6 : wrap (p.n 0 + 2 * p.ng) 0 = 0 := wrap_nat _ 0
  have i1 := hj.inside h0 1 (iy, iz) hy hz
  have i2 := hj.inside h0 2 (iy, iz) hy hz
  simp only at i1 i2
  refine ⟨?_, ?_⟩
  · have B : g.b 2 ((S.thick : Int) + 1, (iy : Int), (iz : Int)) = 1 / ((S.K.c * S.K.dt / S.K.dx + 1) * S.K.c) * (4 * (asked3 S l p (iy, iz)).1 +
        2 * enteringY3 S.K.c p (iy, iz) - 2 * p.f.e 1 ((S.thick : Int) + 2, (iy : Int), (iz : Int))
        - (S.K.dt * S.K.c ^ 2) * (p.f.b 0 ((S.thick : Int) + 2, (iy : Int), (iz : Int)) -
            p.f.b 0 ((S.thick : Int) + 2, (iy : Int), wrap (p.n 2 + 2 * p.ng) ((iz : Int) - 1))) / S.K.dz
        + S.K.dt / S.K.eps0 * p.f.j 1 ((S.thick : Int) + 2, (iy : Int), (iz : Int))
        + (S.K.c * S.K.dt / S.K.dx - 1) * S.K.c * p.f.b 2 ((S.thick : Int) + 2, (iy : Int), (iz : Int))) := by
      rw [r2, i2]
      simp only [written3, bz3, gain, enteringY3, forwardY, asked3, w4, w6, wrap_neg, Matrix.cons_val, Prod.fst_zero, Prod.snd_zero]
      ring
    have := solveY kc kx kt rfl B (r2 2 ▸ rfl : g.b 2 ((S.thick : Int) + 1, (iy : Int), (iz : Int)) = _)
    rw [← this]
    simp only [forwardY, nextE3, w1, w2', w3, w3', w5, se, sj, r1, Matrix.cons_val]
    ring
  · have B : g.b 1 ((S.thick : Int) + 1, (iy : Int), (iz : Int)) = 1 / ((S.K.c * S.K.dt / S.K.dx + 1) * S.K.c) * (- 4 * (asked3 S l p (iy, iz)).2 -
        2 * enteringZ3 S.K.c p (iy, iz) + 2 * p.f.e 2 ((S.thick : Int) + 2, (iy : Int), (iz : Int))
        - (S.K.dt * S.K.c ^ 2) * (p.f.b 0 ((S.thick : Int) + 2, (iy : Int), (iz : Int)) -
            p.f.b 0 ((S.thick : Int) + 2, wrap (p.n 1 + 2 * p.ng) ((iy : Int) - 1), (iz : Int))) / S.K.dy
        - S.K.dt / S.K.eps0 * p.f.j 2 ((S.thick : Int) + 2, (iy : Int), (iz : Int))
        + (S.K.c * S.K.dt / S.K.dx - 1) * S.K.c * p.f.b 1 ((S.thick : Int) + 2, (iy : Int), (iz : Int))) := by
      rw [r2, i1]
      simp only [written3, by3, gain, enteringZ3, forwardZ, asked3, w4, w6, wrap_neg, Matrix.cons_val, Prod.fst_zero, Prod.snd_zero]
      ring
    have := solveZ kc kx kt rfl B (r2 1 ▸ rfl : g.b 1 ((S.thick : Int) + 1, (iy : Int), (iz : Int)) = _)
    rw [← this]
    simp only [forwardZ, nextE3, w1, w2', w3, w3', w5, se, sj, r1, Matrix.cons_val]
    ring

/-- values of own cells beside the row are kept by laser and synchronisation -/
theorem kept2 {S : Sim} {l : Laser} {p q : Patch I2} (hj : Injected2 S l p q) {g : LF I2} (hs : Synced (own2 p) q.f g) {x : I2} (ho : own2 p x)
    (hx : x.1 ≠ (S.thick : Int) + 1) (d : Fin 3) : g.b d x = p.f.b d x := by
  rw [hs.b d x ho, hj.outside d x fun k _ e => hx (by rw [e])]

theorem kept3 {S : Sim} {l : Laser} {p q : Patch I3} (hj : Injected3 S l p q) {g : LF I3} (hs : Synced (own3 p) q.f g) {x : I3} (ho : own3 p x)
    (hx : x.1 ≠ (S.thick : Int) + 1) (d : Fin 3) : g.b d x = p.f.b d x := by
  rw [hs.b d x ho]
  by_cases hd : d = 0
  · subst hd; exact hj.outsidex x fun k z _ e => hx (by rw [e])
  · exact hj.outside d x hd fun k _ _ e => hx (by rw [e])

theorem forall₂_mem {α β : Type} {R : α → β → Prop} {as : List α} {bs : List β} (h : List.Forall₂ R as bs) {P : α → β → Prop}
    (hP : ∀ a ∈ as, ∀ b, R a b → P a b) : List.Forall₂ P as bs := by
  induction h with
  | nil => exact .nil
  | cons h1 _ ih => exact .cons (hP _ (by simp) _ h1) (ih fun a ha => hP a (by simp [ha]))

/-! ## theorems -/

/-- **C78, 2D, partial.** When a laser acts, then after the laser, the synchronisation (whatever it puts into the guard cells) and the update of the
electric field by half a step the wave that runs into the box behind the plane of injection is the asked one, for all fields, currents, sources,
patches and lasers, in every cell of the plane but the lowest of a patch (y index 0). Missing: that cell, see `laser_stale_fails`, and patches with at
most two cells behind the layer, see `laser_lost_fails`. -/
theorem laser_boundary2_partial (l : Laser) (S : Sim) (ps : List (Patch I2)) (dis : Bool) (hK : S.K.Ok) (hp : ∀ p ∈ ps, Fits S p)
    (ha : Acts l S dis ps) :
    List.Forall₂ (fun p q => p.ix = 0 → S.thick + 2 < p.n 0 → ∀ g, Synced (own2 p) q.f g → ∀ iy, yRange p.pml (p.n 1) iy → 1 ≤ iy → LetsIn2 S l p g iy)
      ps (call patchUpdate2 points2 l S (dis, ps)).2 := by
  refine forall₂_mem ((laser_call2 l S ps dis hp).1 ha).2 ?_
  intro p hm q hj h0 hL g hs iy hy h1
  have key := letsIn2 hK hj h0 hL (hp p hm).2 hs hy
  have hy' : iy < p.n 1 := by have := hy.2; omega
  have hw : wrap (p.n 1 + 2 * p.ng) ((iy : Int) - 1) = (iy : Int) - 1 := wrap_of_nonneg _ (by omega)
  have hk : g.b 0 ((S.thick : Int) + 2, (iy : Int) - 1) = p.f.b 0 ((S.thick : Int) + 2, (iy : Int) - 1) :=
    kept2 hj hs ⟨by simp only; omega, by simp only; omega, by simp only; omega, by simp only; omega⟩ (by simp only; omega) 0
  simp only [hw, hk, sub_self, mul_zero, zero_div, sub_zero] at key
  exact key

/-- **C78, 3D, partial.** As in 2D; missing are the lowest cells in y and in z. -/
theorem laser_boundary3_partial (l : Laser) (S : Sim) (ps : List (Patch I3)) (dis : Bool) (hK : S.K.Ok) (hp : ∀ p ∈ ps, Fits S p)
    (ha : Acts l S dis ps) :
    List.Forall₂ (fun p q => p.ix = 0 → S.thick + 2 < p.n 0 → ∀ g, Synced (own3 p) q.f g → ∀ u : Nat × Nat, yRange p.pml (p.n 1) u.1 →
        zRange p.pml (p.n 2) u.2 → 1 ≤ u.1 → 1 ≤ u.2 → LetsIn3 S l p g u)
      ps (call patchUpdate3 points3 l S (dis, ps)).2 := by
  refine forall₂_mem ((laser_call3 l S ps dis hp).1 ha).2 ?_
  intro p hm q hj h0 hL g hs u hy hz h1 h2
  have key := letsIn3 hK hj h0 hL (hp p hm).2 hs hy hz
  have hy' : u.1 < p.n 1 := by have := hy.2; omega
  have hz' : u.2 < p.n 2 := by have := hz.2; omega
  have hw : wrap (p.n 1 + 2 * p.ng) ((u.1 : Int) - 1) = (u.1 : Int) - 1 := wrap_of_nonneg _ (by omega)
  have hw' : wrap (p.n 2 + 2 * p.ng) ((u.2 : Int) - 1) = (u.2 : Int) - 1 := wrap_of_nonneg _ (by omega)
  have hk : g.b 0 ((S.thick : Int) + 2, (u.1 : Int) - 1, (u.2 : Int)) = p.f.b 0 ((S.thick : Int) + 2, (u.1 : Int) - 1, (u.2 : Int)) :=
    kept3 hj hs ⟨by simp only; omega, by simp only; omega, by simp only; omega, by simp only; omega, by simp only; omega, by simp only; omega⟩
      (by simp only; omega) 0
  have hk' : g.b 0 ((S.thick : Int) + 2, (u.1 : Int), (u.2 : Int) - 1) = p.f.b 0 ((S.thick : Int) + 2, (u.1 : Int), (u.2 : Int) - 1) :=
    kept3 hj hs ⟨by simp only; omega, by simp only; omega, by simp only; omega, by simp only; omega, by simp only; omega, by simp only; omega⟩
      (by simp only; omega) 0
  simp only [hw, hw', hk, hk', sub_self, mul_zero, zero_div, sub_zero, add_zero] at key
  exact key

/-- **The lowest cells of a patch get a wrong field (2D).** A laser reads `bx` of the guard cell below the patch before the guard cells are synchronised.
Where the patch has no absorbing layer at its lower side, the wave let in at y index 0 is the asked one exactly if the synchronisation leaves that guard
cell as it was — not if the neighbour's field there changed in the half step before. -/
theorem laser_stale_fails (l : Laser) (S : Sim) (ps : List (Patch I2)) (dis : Bool) (hK : S.K.Ok) (hd : S.K.dy ≠ 0) (hp : ∀ p ∈ ps, Fits S p)
    (ha : Acts l S dis ps) :
    List.Forall₂ (fun p q => p.ix = 0 → S.thick + 2 < p.n 0 → ∀ g, Synced (own2 p) q.f g → yRange p.pml (p.n 1) 0 →
        let below : I2 := ((S.thick : Int) + 2, ((p.n 1 + 2 * p.ng : Nat) : Int) - 1)
        (LetsIn2 S l p g 0 ↔ g.b 0 below = p.f.b 0 below))
      ps (call patchUpdate2 points2 l S (dis, ps)).2 := by
  refine forall₂_mem ((laser_call2 l S ps dis hp).1 ha).2 ?_
  intro p hm q hj h0 hL g hs hy
  have key := letsIn2 hK hj h0 hL (hp p hm).2 hs hy
  have hw : wrap (p.n 1 + 2 * p.ng) (((0 : Nat) : Int) - 1) = ((p.n 1 + 2 * p.ng : Nat) : Int) - 1 := wrap_neg _
  simp only [hw] at key
  obtain ⟨k1, k2⟩ := key
  intro below
  constructor
  · rintro ⟨-, e2⟩
    have h := e2.trans k2.symm
    unfold forwardZ at h
    have h' : S.K.dt / 2 * S.K.c ^ 2 * (g.b 0 below - p.f.b 0 below) / S.K.dy = 0 := by
      simp only [below]; linarith
    rw [div_eq_zero_iff] at h'
    rcases h' with h' | h'
    · have : S.K.dt / 2 * S.K.c ^ 2 ≠ 0 := by have := hK.1; have := hK.2.2; positivity
      exact sub_eq_zero.mp ((mul_eq_zero.mp h').resolve_left this)
    · exact absurd h' hd
  · intro e
    simp only [below] at e
    simp only [e, sub_self, mul_zero, zero_div, sub_zero] at k2
    exact ⟨k1, k2⟩

/-- **With one cell behind the layer the laser is lost (2D).** A patch may have as few as one cell more than the layer (cpml.py 46-47). Then the laser
writes guard cells only, and after the synchronisation nothing of it is left: every own cell is as without the laser. -/
theorem laser_lost_fails (l : Laser) (S : Sim) (ps : List (Patch I2)) (dis : Bool) (hp : ∀ p ∈ ps, Fits S p) (ha : Acts l S dis ps) :
    List.Forall₂ (fun p q => S.thick + 1 = p.n 0 → ∀ d x, own2 p x → q.f.b d x = p.f.b d x) ps (call patchUpdate2 points2 l S (dis, ps)).2 := by
  refine forall₂_mem ((laser_call2 l S ps dis hp).1 ha).2 ?_
  intro p _ q hj hn d x ho
  refine hj.outside d x fun k _ e => ?_
  have := ho.2.1
  rw [e] at this
  simp only at this
  omega

/-- **C78, when a laser acts.** A laser that is not disabled and whose stop has not come acts if every leftmost patch of the rank has an absorbing layer
on its left side; if there are leftmost patches and none of them has one, it does nothing and is disabled. -/
theorem laser_acts {I : Type} (l : Laser) (S : Sim) (ps : List (Patch I)) :
    ((∀ p ∈ ps, p.ix = 0 → ∃ t, ("xmin", t) ∈ p.pml) → S.K.c * S.time < l.tstop → Acts l S false ps) ∧
    ((∃ p ∈ ps, p.ix = 0) → (∀ p ∈ ps, p.ix = 0 → ∀ t, ("xmin", t) ∉ p.pml) → ∀ dis, ¬ Acts l S dis ps) := by
  have key : ∀ qs : List (Patch I), (∀ p ∈ qs, ∃ t, ("xmin", t) ∈ p.pml) →
      qs.length ≤ ((qs.flatMap Patch.pml).filter fun q => q.1 == "xmin").length := by
    intro qs
    induction qs with
    | nil => simp
    | cons p qs ih =>
      intro h
      have h2 := ih fun p' hp' => h p' (by simp [hp'])
      obtain ⟨t, ht⟩ := h p (by simp)
      have h1 : 0 < (p.pml.filter fun q => q.1 == "xmin").length := List.length_pos_of_mem (List.mem_filter.mpr ⟨ht, by simp⟩)
      rw [List.flatMap_cons, List.filter_append, List.length_append, List.length_cons]
      omega
  refine ⟨fun h ht => ⟨rfl, ht, key _ fun p hp => ?_⟩, ?_⟩
  · have := List.mem_filter.mp hp
    exact h p this.1 (by simpa using this.2)
  · rintro ⟨p, hp, h0⟩ h dis ⟨-, -, hl⟩
    have e : nPmlXmin ps = 0 := by
      unfold nPmlXmin
      rw [List.length_eq_zero_iff, List.filter_eq_nil_iff]
      rintro ⟨s, t⟩ hq
      obtain ⟨p', hp', hm⟩ := List.mem_flatMap.mp hq
      have := List.mem_filter.mp hp'
      intro e
      simp only [beq_iff_eq] at e
      subst e
      exact h p' this.1 (by simpa using this.2) t hm
    rw [e] at hl
    have : p ∈ ps.filter fun p => p.ix == 0 := List.mem_filter.mpr ⟨hp, by simp [h0]⟩
    have := List.length_pos_of_mem this
    omega

/-! ## the hypotheses are met -/

/-- the constants of the example are those of a run, and its leftmost patch has more than two cells behind the layer -/
example : exSim.K.Ok ∧ exSim.K.dy ≠ 0 ∧ ∃ p ∈ exPatches, p.ix = 0 ∧ exSim.thick + 2 < p.n 0 ∧ yRange p.pml (p.n 1) 9 := by
  refine ⟨⟨?_, ?_, ?_⟩, ?_, _, List.mem_cons_self .., rfl, ?_, ?_⟩ <;> simp [exSim, yRange, exPatches] <;> decide

/-- a synchronisation that changes guard cells -/
example (p : Patch I2) : Synced (own2 p) p.f
    { p.f with b := fun d x => open Classical in if own2 p x then p.f.b d x else p.f.b d x + 1 } :=
  ⟨rfl, rfl, fun d x h => if_pos h⟩

/-- a rank whose leftmost patch has no layer below: the laser acts at y index 0 too -/
example : let p : Patch I2 := ⟨0, [("xmin", 6)], ![16, 16, 0], 3, 0, 0, ⟨fun _ _ => 1, fun _ _ => 2, fun _ _ => 3⟩⟩
    Acts (.base exBase) exSim false [p] ∧ Fits exSim p ∧ yRange p.pml (p.n 1) 0 := by
  refine ⟨⟨rfl, ?_, ?_⟩, ?_, ?_⟩
  · simp [Laser.tstop, exBase, exSim]; norm_num
  · simp [nPmlXmin]
  · simp [Fits, exSim]
  · simp [yRange]; decide

end Verif.Laser
