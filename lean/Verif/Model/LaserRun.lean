import Verif.Model.Laser
/-!
# What follows a laser in a step, and how lasers are built

Models the update of the electric field by half a step that follows the laser in `Simulation.run` (simulation.py 1096-1112) next to the plane of
injection, the synchronisation of the guard cells in between, and the constructors of `SimpleLaser` and `GaussianLaser` (laser.py 287-348, 415-483).
Simplifications: exact reals; the constants of `scipy.constants` are parameters; `genlaguerre(p, a)` is the generalised Laguerre polynomial in its
closed form, as scipy documents it.
-/
namespace Verif.Laser

/-- `ey` or `ez` (`comp` 1 or 2) of a 2D patch at an own cell after `update_efield` with the time step `h` (core/maxwell/cpu.py 16-22, boundary/cpml.py
351-361). `kx`, `ky` are `kappa_ex[i]`, `kappa_ey[j]` there (1 outside of the layers, cpml.py 88-104); the recursive currents of cpml.py are added inside
of the layers only. The update reads no electric field other than that of the cell, so the loop over the cells is this formula at each cell. -/
noncomputable def nextE2 (K : Const) (NX NY : Nat) (kx ky h : ℝ) (f : LF I2) (comp : Fin 3) (i j : Int) : ℝ :=
  let p (i j : Int) : I2 := (wrap NX i, wrap NY j)
  f.e comp (p i j) +
    ![h * K.c ^ 2 / ky * ((f.b 2 (p i j) - f.b 2 (p i (j - 1))) / K.dy) - h / K.eps0 * f.j 0 (p i j),
      h * K.c ^ 2 / kx * (-(f.b 2 (p i j) - f.b 2 (p (i - 1) j)) / K.dx) - h / K.eps0 * f.j 1 (p i j),
      h * K.c ^ 2 / kx * ((f.b 1 (p i j) - f.b 1 (p (i - 1) j)) / K.dx)
        - h * K.c ^ 2 / ky * ((f.b 0 (p i j) - f.b 0 (p i (j - 1))) / K.dy) - h / K.eps0 * f.j 2 (p i j)] comp

/-- the same in 3D (core/maxwell/cpu.py 90-98, boundary/cpml.py 439-453) -/
noncomputable def nextE3 (K : Const) (NX NY NZ : Nat) (kx ky kz h : ℝ) (f : LF I3) (comp : Fin 3) (i j k : Int) : ℝ :=
  let p (i j k : Int) : I3 := (wrap NX i, wrap NY j, wrap NZ k)
  f.e comp (p i j k) +
    ![(h * K.c ^ 2 / ky * (f.b 2 (p i j k) - f.b 2 (p i (j - 1) k)) / K.dy
        - h * K.c ^ 2 / kz * (f.b 1 (p i j k) - f.b 1 (p i j (k - 1))) / K.dz) - h / K.eps0 * f.j 0 (p i j k),
      (h * K.c ^ 2 / kz * (f.b 0 (p i j k) - f.b 0 (p i j (k - 1))) / K.dz
        - h * K.c ^ 2 / kx * (f.b 2 (p i j k) - f.b 2 (p (i - 1) j k)) / K.dx) - h / K.eps0 * f.j 1 (p i j k),
      (h * K.c ^ 2 / kx * (f.b 1 (p i j k) - f.b 1 (p (i - 1) j k)) / K.dx
        - h * K.c ^ 2 / ky * (f.b 0 (p i j k) - f.b 0 (p i (j - 1) k)) / K.dy) - h / K.eps0 * f.j 2 (p i j k)] comp

/-- `sync_guard_fields` between the laser and the update (simulation.py 1103-1108): the guard cells of the magnetic field get new values, the own cells
keep theirs. `own` are the own cells -/
structure Synced {I : Type} (own : I → Prop) (f g : LF I) : Prop where
  e : g.e = f.e
  j : g.j = f.j
  b : ∀ d x, own x → g.b d x = f.b d x

/-- own cells of a 2D patch: the guard cells are stored behind them (core/fields.py 42-67) -/
def own2 (p : Patch I2) (x : I2) : Prop := 0 ≤ x.1 ∧ x.1 < p.n 0 ∧ 0 ≤ x.2 ∧ x.2 < p.n 1
/-- own cells of a 3D patch -/
def own3 (p : Patch I3) (x : I3) : Prop := 0 ≤ x.1 ∧ x.1 < p.n 0 ∧ 0 ≤ x.2.1 ∧ x.2.1 < p.n 1 ∧ 0 ≤ x.2.2 ∧ x.2.2 < p.n 2

/-! ### constructors -/

/-- constants of nature used by the constructors: `c`, `m_e`, `e` -/
structure Nature where
  c : ℝ
  me : ℝ
  e : ℝ

/-- `SimpleLaser.__init__` (laser.py 287-348); the defaults of the arguments are left to the caller -/
noncomputable def mkSimple (Φ : Nature) (a0 w0 ctau : ℝ) (y0 z0 : Option ℝ) (angleY angleZ : ℝ) (tstop : Option ℝ) (pol ell cep l0 : ℝ) (side : String) :
    Except String Base :=
  open Classical in
  if a0 ≤ 0 ∨ l0 ≤ 0 ∨ w0 ≤ 0 ∨ ctau ≤ 0 then .error "All parameters (a0, l0, w0, ctau) must be positive"
  else if side ≠ "xmin" then .error "Invalid side: only 'xmin' is supported."
  else if |angleY| ≥ Real.pi / 2 then .error "Angle_y must be in range (-pi/2, pi/2)"
  else if angleZ ≠ 0 then .error "Angle_z is not implemented"
  else if |ell| > 1 then .error "Ellipticity must be in range [-1, 1]"
  else
    let omega0 := 2 * Real.pi * Φ.c / l0
    .ok ⟨.inl ⟨a0 * Φ.me * Φ.c * omega0 / Φ.e, w0, ctau, omega0, omega0 / Φ.c, angleY, pol, ell, cep⟩, y0, z0,
      match tstop with
      | none => 2 * ctau
      | some t => Φ.c * t⟩

/-- `scipy.special.genlaguerre(p, a)` at `t`, from its documentation -/
noncomputable def laguerre (p a : Nat) (t : ℝ) : ℝ :=
  ∑ i ∈ Finset.range (p + 1), (-1) ^ i * ((p + a).choose (p - i) : ℝ) * t ^ i / (i.factorial : ℝ)

/-- `lg_norm` (laser.py 481-482) -/
noncomputable def lgNorm (l : Int) (p : Nat) : ℝ :=
  Real.sqrt (2 * (p.factorial : ℝ) / (Real.pi * ((p + l.natAbs).factorial : ℝ))) / Real.sqrt (2 / Real.pi)

/-- `GaussianLaser.__init__` (laser.py 415-483). `p` is a natural number: the test `p < 0` is not modelled -/
noncomputable def mkGauss (Φ : Nature) (a0 l0 w0 ctau : ℝ) (x0 y0 z0 tstop : Option ℝ) (pol ell cep focus : ℝ) (side : String) (l : Int) (p : Nat) :
    Except String Base :=
  open Classical in
  if a0 ≤ 0 ∨ l0 ≤ 0 ∨ w0 ≤ 0 ∨ ctau ≤ 0 then .error "All parameters (a0, l0, w0, ctau) must be positive"
  else if side ≠ "xmin" then .error "Invalid side: only 'xmin' is implemented."
  else if |ell| > 1 then .error "Ellipticity must be in range [-1, 1]"
  else
    let omega0 := 2 * Real.pi * Φ.c / l0
    .ok ⟨.inr
      { E0 := a0 * Φ.me * Φ.c * omega0 / Φ.e
        w0 := w0
        ctau := ctau
        omega0 := omega0
        k0 := omega0 / Φ.c
        zR := Real.pi * w0 ^ 2 / l0
        x0 := match x0 with
          | none => 3 * ctau
          | some v => v
        focus := focus
        pol := pol
        ell := ell
        cep := cep
        l := l
        p := p
        lag := fun t => lgNorm l p * laguerre p l.natAbs t },
      y0, z0,
      match tstop with
      | none => 6 * ctau
      | some t => Φ.c * t⟩

end Verif.Laser
