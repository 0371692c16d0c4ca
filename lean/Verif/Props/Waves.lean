import Verif.Proofs.Dispersion
import Verif.Props.Energy
/-!
# C97 — light in vacuum: wave equation, frequencies and speed of waves in complete runs

Runs, configurations and starts are those of C66. There are no particles and no currents, and the fields at the start
have no divergence.
-/
namespace Verif.WholeRun
open Verif.Maxwell Verif.SyncFields Verif.Pusher Verif.Deposit Verif.Geometry Verif.Neighbors
open Finset (range)
open Complex (I)

section Spec
variable {k : Nat}

/-- Specification: Fourier amplitude of component `f` of the field `A` stored in the own cells of the patches `0 … N-1`, for
the wave with `m a` periods along axis `a` of the domain; `coord t` are the coordinates of patch `t` -/
noncomputable def amplitude (C : Conf k) (N : Nat) (coord : Nat → Fin k → Nat) (A : Comp k) (f : Fin 3) (m : Fin k → Int) : ℂ :=
  ∑ t ∈ range N, ∑ u : (a : Fin k) → Fin (C.n a), (A t f (fun a => ((u a : Nat) : Int)) : ℂ)
    * Complex.exp (∑ a, -(2 * Real.pi * (m a * ((coord t a * C.n a + (u a : Nat) : ℕ) : ℂ) / ((C.np a * C.n a : ℕ) : ℂ))) * I)

/-- Specification: its wave vector -/
noncomputable def waveVector (C : Conf k) (m : Fin k → Int) (a : Fin k) : ℝ := 2 * Real.pi * m a / ((C.np a * C.n a : ℕ) * C.d a)

/-- Specification: `ω` is the frequency the Yee mesh gives to the wave -/
def Dispersion (C : Conf k) (m : Fin k → Int) (ω : ℝ) : Prop :=
  0 ≤ ω ∧ ω * C.dt ≤ Real.pi ∧
  Real.sin (ω * C.dt / 2) ^ 2 = C.c2 * (C.dt : ℝ) ^ 2 * ∑ a, (Real.sin (waveVector C m a * C.d a / 2) / C.d a) ^ 2

/-- Specification: the Courant condition, `c dt ≤ 1/√(1/dx² + 1/dy² + …)` -/
def Courant (C : Conf k) : Prop := 0 < C.dt ∧ 0 ≤ C.c2 ∧ C.c2 * C.dt ^ 2 * ∑ a, 1 / C.d a ^ 2 ≤ 1
end Spec

section Gen
variable {k : Nat} {C : Conf k}

theorem half_wave {C : Conf k} {β : ℚ} (hC : Admissible C β) (m : Fin k → Int) (a : Fin k) :
    waveVector C m a * C.d a / 2 = Real.pi * m a / ((C.np a * C.n a : ℕ) : ℝ) := by
  have hd : (C.d a : ℝ) ≠ 0 := by exact_mod_cast (hC.cell a).ne'
  have hN : ((C.np a * C.n a : ℕ) : ℝ) ≠ 0 := by
    have := hC.patches a; have := hC.wide a; have := hC.guard
    exact_mod_cast (Nat.mul_pos (hC.patches a) (by omega : 0 < C.n a)).ne'
  unfold waveVector
  field_simp

theorem Admissible.cells {β : ℚ} (hC : Admissible C β) (a : Fin k) : 0 < C.n a := by
  have := hC.wide a; have := hC.guard; omega

/-- the sum of the squares of the mesh, bounded by the Courant condition -/
theorem sine_sum (hco : Courant C) (m : Fin k → Int) :
    0 ≤ C.c2 * (C.dt : ℝ) ^ 2 * ∑ a, (Real.sin (waveVector C m a * C.d a / 2) / C.d a) ^ 2 ∧
    C.c2 * (C.dt : ℝ) ^ 2 * ∑ a, (Real.sin (waveVector C m a * C.d a / 2) / C.d a) ^ 2 ≤ 1 := by
  have hc : (0 : ℝ) ≤ C.c2 := by exact_mod_cast hco.2.1
  have h1 : (C.c2 : ℝ) * (C.dt : ℝ) ^ 2 * ∑ a, 1 / (C.d a : ℝ) ^ 2 ≤ 1 := by exact_mod_cast hco.2.2
  refine ⟨mul_nonneg (mul_nonneg hc (sq_nonneg _)) (Finset.sum_nonneg fun _ _ => sq_nonneg _), le_trans ?_ h1⟩
  refine mul_le_mul_of_nonneg_left (Finset.sum_le_sum fun a _ => ?_) (mul_nonneg hc (sq_nonneg _))
  rw [div_pow]
  exact div_le_div_of_nonneg_right (Real.sin_sq_le_one _) (sq_nonneg _)

/-- **C97.** Under the Courant condition every wave has exactly one frequency on the mesh. -/
theorem frequency_exists (hco : Courant C) (m : Fin k → Int) : ∃! ω, Dispersion C m ω := by
  obtain ⟨s0, s1⟩ := sine_sum hco m
  have hdt : (0 : ℝ) < C.dt := by exact_mod_cast hco.1
  set S := C.c2 * (C.dt : ℝ) ^ 2 * ∑ a, (Real.sin (waveVector C m a * C.d a / 2) / C.d a) ^ 2 with hS
  have r0 := Real.sqrt_nonneg S
  have r1 : √S ≤ 1 := Real.sqrt_le_one.mpr s1
  refine ⟨2 * Real.arcsin √S / C.dt, ⟨?_, ?_, ?_⟩, ?_⟩
  · exact div_nonneg (mul_nonneg two_pos.le (Real.arcsin_nonneg.mpr r0)) hdt.le
  · rw [div_mul_cancel₀ _ hdt.ne']; linarith [Real.arcsin_le_pi_div_two √S]
  · rw [div_mul_cancel₀ _ hdt.ne', mul_div_cancel_left₀ _ two_ne_zero, Real.sin_arcsin (by linarith) r1, Real.sq_sqrt s0]
  · rintro ω ⟨w0, w1, w2⟩
    have h0 : 0 ≤ ω * C.dt / 2 := by positivity
    have hs : Real.sin (ω * C.dt / 2) = √S := by
      rw [hS, ← w2, Real.sqrt_sq (Real.sin_nonneg_of_nonneg_of_le_pi h0 (by linarith [Real.pi_pos]))]
    rw [← hs, Real.arcsin_sin (by linarith [Real.pi_pos]) (by linarith)]
    field_simp

/-- **C97.** With a time step below the limit all frequencies are below `π/dt`, so the theorems below speak of all waves. -/
theorem below_limit (hco : Courant C) (hlt : C.c2 * C.dt ^ 2 * ∑ a, 1 / C.d a ^ 2 < 1) {m : Fin k → Int} {ω : ℝ}
    (hω : Dispersion C m ω) : ω * C.dt < Real.pi := by
  have hc : (0 : ℝ) ≤ C.c2 := by exact_mod_cast hco.2.1
  have h1 : (C.c2 : ℝ) * (C.dt : ℝ) ^ 2 * ∑ a, 1 / (C.d a : ℝ) ^ 2 < 1 := by exact_mod_cast hlt
  obtain ⟨-, w1, w2⟩ := hω
  refine lt_of_le_of_ne w1 fun h => ?_
  rw [h, Real.sin_pi_div_two, one_pow] at w2
  have : C.c2 * (C.dt : ℝ) ^ 2 * ∑ a, (Real.sin (waveVector C m a * C.d a / 2) / C.d a) ^ 2 ≤ C.c2 * (C.dt : ℝ) ^ 2 * ∑ a, 1 / (C.d a : ℝ) ^ 2 := by
    refine mul_le_mul_of_nonneg_left (Finset.sum_le_sum fun a _ => ?_) (mul_nonneg hc (sq_nonneg _))
    rw [div_pow]
    exact div_le_div_of_nonneg_right (Real.sin_sq_le_one _) (sq_nonneg _)
  linarith

/-- **C97.** All waves but the uniform field have a positive frequency. -/
theorem above_zero {β : ℚ} (hC : Admissible C β) (hco : Courant C) (hc : 0 < C.c2) {m : Fin k → Int} {a : Fin k}
    (hm : ¬ ((C.np a * C.n a : ℕ) : Int) ∣ m a) {ω : ℝ} (hω : Dispersion C m ω) : 0 < ω * C.dt := by
  have hdt : (0 : ℝ) < C.dt := by exact_mod_cast hco.1
  have hc : (0 : ℝ) < C.c2 := by exact_mod_cast hc
  have hd : (C.d a : ℝ) ≠ 0 := by exact_mod_cast (hC.cell a).ne'
  obtain ⟨w0, -, w2⟩ := hω
  refine lt_of_le_of_ne (mul_nonneg w0 hdt.le) fun h => hm ?_
  rw [← h, zero_div, Real.sin_zero, zero_pow two_ne_zero] at w2
  have h0 := (mul_eq_zero.mp w2.symm).resolve_left (by positivity)
  have ha := (Finset.sum_eq_zero_iff_of_nonneg fun a _ => sq_nonneg _).mp h0 a (Finset.mem_univ a)
  rw [pow_eq_zero_iff two_ne_zero, div_eq_zero_iff, or_iff_left hd, half_wave hC] at ha
  obtain ⟨z, hz⟩ := Real.sin_eq_zero_iff.mp ha
  have hN : ((C.np a * C.n a : ℕ) : ℝ) ≠ 0 := by exact_mod_cast (Nat.mul_pos (hC.patches a) (hC.cells a)).ne'
  refine ⟨z, ?_⟩
  rw [eq_div_iff hN] at hz
  have : ((m a : ℤ) : ℝ) = (((C.np a * C.n a : ℕ) : ℤ) : ℝ) * z := by
    refine mul_left_cancel₀ Real.pi_ne_zero ?_
    rw [← hz]; push_cast; ring
  exact_mod_cast this

/-- **C97.** No wave is faster than light: its frequency is at most `c |k|`. This holds for all waves the mesh can show,
those with at most one period in two cells along every axis. -/
theorem not_faster {β : ℚ} (hC : Admissible C β) (hco : Courant C) {m : Fin k → Int} (hm : ∀ a, 2 * |m a| ≤ (C.np a * C.n a : ℕ)) {ω : ℝ}
    (hω : Dispersion C m ω) : ω ^ 2 ≤ C.c2 * ∑ a, waveVector C m a ^ 2 := by
  have hdt : (0 : ℝ) < C.dt := by exact_mod_cast hco.1
  have hc : (0 : ℝ) ≤ C.c2 := by exact_mod_cast hco.2.1
  have h1 : (C.c2 : ℝ) * (C.dt : ℝ) ^ 2 * ∑ a, 1 / (C.d a : ℝ) ^ 2 ≤ 1 := by exact_mod_cast hco.2.2
  obtain ⟨w0, w1, w2⟩ := hω
  have hx : ∀ a ∈ Finset.univ, |waveVector C m a * C.d a / 2| ≤ Real.pi / 2 := by
    intro a _
    rw [half_wave hC]
    have hN : (0 : ℝ) < ((C.np a * C.n a : ℕ) : ℝ) := by exact_mod_cast Nat.mul_pos (hC.patches a) (hC.cells a)
    have h2 : (2 : ℝ) * |(m a : ℝ)| ≤ ((C.np a * C.n a : ℕ) : ℝ) := by exact_mod_cast hm a
    rw [abs_div, abs_mul, abs_of_pos Real.pi_pos, abs_of_pos hN, div_le_div_iff₀ hN two_pos]
    nlinarith [Real.pi_pos]
  have hd : ∀ a, (C.d a : ℝ) ≠ 0 := fun a => by exact_mod_cast (hC.cell a).ne'
  obtain ⟨j1, j2⟩ := mean_sin_sq Finset.univ (fun a => C.c2 * (C.dt : ℝ) ^ 2 / (C.d a : ℝ) ^ 2) (fun a => waveVector C m a * C.d a / 2)
    (fun a _ => div_nonneg (mul_nonneg hc (sq_nonneg _)) (sq_nonneg _))
    (by rw [Finset.mul_sum] at h1; refine le_trans (le_of_eq (Finset.sum_congr rfl fun a _ => ?_)) h1; ring) hx
  have e1 : ∑ a, C.c2 * (C.dt : ℝ) ^ 2 / (C.d a : ℝ) ^ 2 * Real.sin (waveVector C m a * C.d a / 2) ^ 2 = Real.sin (ω * C.dt / 2) ^ 2 := by
    rw [w2, Finset.mul_sum]
    exact Finset.sum_congr rfl fun a _ => by ring
  have e2 : ∑ a, C.c2 * (C.dt : ℝ) ^ 2 / (C.d a : ℝ) ^ 2 * (waveVector C m a * C.d a / 2) ^ 2
      = (C.dt / 2 : ℝ) ^ 2 * (C.c2 * ∑ a, waveVector C m a ^ 2) := by
    rw [Finset.mul_sum, Finset.mul_sum]
    refine Finset.sum_congr rfl fun a _ => ?_
    have := hd a
    field_simp
  rw [e1, e2] at j1
  rw [e2] at j2
  set T := (C.dt / 2 : ℝ) ^ 2 * (C.c2 * ∑ a, waveVector C m a ^ 2) with hT
  have t0 : 0 ≤ T := mul_nonneg (sq_nonneg _) (mul_nonneg hc (Finset.sum_nonneg fun _ _ => sq_nonneg _))
  have hp : 0 ≤ ω * C.dt / 2 := by positivity
  have hle : ω * C.dt / 2 ≤ √T := by
    by_contra hlt
    push Not at hlt
    have := Real.sin_lt_sin_of_lt_of_le_pi_div_two (by linarith [Real.sqrt_nonneg T, Real.pi_pos]) (by linarith) hlt
    have h0 : 0 ≤ Real.sin √T := Real.sin_nonneg_of_nonneg_of_le_pi (Real.sqrt_nonneg _) (by linarith [Real.pi_pos])
    nlinarith
  have hsq := pow_le_pow_left₀ hp hle 2
  rw [Real.sq_sqrt t0, hT] at hsq
  have hpos : (0 : ℝ) < (C.dt / 2 : ℝ) ^ 2 := by positivity
  refine le_of_mul_le_mul_left ?_ hpos
  calc (C.dt / 2 : ℝ) ^ 2 * ω ^ 2 = (ω * C.dt / 2) ^ 2 := by ring
    _ ≤ _ := hsq

/-- **C97.** Waves are slower than light by a share of at most `(k d)²/12` of the square of the frequency: the finer the
mesh, the nearer to the speed of light. -/
theorem not_much_slower {β : ℚ} (hC : Admissible C β) (hco : Courant C) {m : Fin k → Int} {ω : ℝ} (hω : Dispersion C m ω) :
    C.c2 * ∑ a, waveVector C m a ^ 2 * (1 - (waveVector C m a * C.d a) ^ 2 / 12) ≤ ω ^ 2 := by
  have hdt : (0 : ℝ) < C.dt := by exact_mod_cast hco.1
  have hc : (0 : ℝ) ≤ C.c2 := by exact_mod_cast hco.2.1
  have hd : ∀ a, (C.d a : ℝ) ≠ 0 := fun a => by exact_mod_cast (hC.cell a).ne'
  obtain ⟨w0, w1, w2⟩ := hω
  have hp : 0 ≤ ω * C.dt / 2 := by positivity
  have up : Real.sin (ω * C.dt / 2) ^ 2 ≤ (ω * C.dt / 2) ^ 2 :=
    pow_le_pow_left₀ (Real.sin_nonneg_of_nonneg_of_le_pi hp (by linarith [Real.pi_pos])) (Real.sin_le hp) 2
  rw [w2] at up
  have low : ∑ a, waveVector C m a ^ 2 * (1 - (waveVector C m a * C.d a) ^ 2 / 12)
      ≤ 4 * ∑ a, (Real.sin (waveVector C m a * C.d a / 2) / C.d a) ^ 2 := by
    rw [Finset.mul_sum]
    refine Finset.sum_le_sum fun a _ => ?_
    have h := sin_sq_ge (waveVector C m a * C.d a / 2)
    have hpos : (0 : ℝ) < (C.d a : ℝ) ^ 2 := by have := hd a; positivity
    rw [div_pow, ← mul_div_assoc, le_div_iff₀ hpos]
    nlinarith [h]
  have hpos : (0 : ℝ) < (C.dt : ℝ) ^ 2 := by positivity
  refine le_of_mul_le_mul_left ?_ hpos
  calc (C.dt : ℝ) ^ 2 * (C.c2 * ∑ a, waveVector C m a ^ 2 * (1 - (waveVector C m a * C.d a) ^ 2 / 12))
      ≤ (C.dt : ℝ) ^ 2 * (C.c2 * (4 * ∑ a, (Real.sin (waveVector C m a * C.d a / 2) / C.d a) ^ 2)) :=
        mul_le_mul_of_nonneg_left (mul_le_mul_of_nonneg_left low hc) hpos.le
    _ ≤ (C.dt : ℝ) ^ 2 * ω ^ 2 := by nlinarith [up]

/-! ## from the undivided grid to the patches -/

theorem everywhere {N : Nat} {g : Place k} {β : ℚ} (hC : Admissible C β) (L : Layout C N g) {f : (Fin k → Int) → ℚ}
    (hf : Per1 (fun a => C.np a * C.n a) f) (h : ∀ t, t < N → ∀ v, Own C.n v → f (globalCell C.n (g.coord t) v) = 0) (v : Fin k → Int) :
    f v = 0 := by
  have hn : ∀ a, (0 : Int) < C.n a := fun a => by exact_mod_cast hC.cells a
  have hN : ∀ a, (0 : Int) < C.np a * C.n a := fun a => by exact_mod_cast Nat.mul_pos (hC.patches a) (hC.cells a)
  let w : Fin k → Int := fun a => v a % (C.np a * C.n a : Int)
  have w0 : ∀ a, 0 ≤ w a := fun a => Int.emod_nonneg _ (hN a).ne'
  have w1 : ∀ a, w a < C.np a * C.n a := fun a => Int.emod_lt_of_pos _ (hN a)
  have q0 : ∀ a, 0 ≤ w a / (C.n a : Int) := fun a => Int.ediv_nonneg (w0 a) (hn a).le
  obtain ⟨t, ht, hc⟩ := L.full (fun a => (w a / (C.n a : Int)).toNat) fun a => by
    rw [L.np]
    have : w a / (C.n a : Int) < C.np a := Int.ediv_lt_of_lt_mul (hn a) (w1 a)
    have := q0 a
    omega
  have hv := h t ht (fun a => w a % (C.n a : Int)) fun a => ⟨Int.emod_nonneg _ (hn a).ne', Int.emod_lt_of_pos _ (hn a)⟩
  rw [← hv]
  refine hf _ _ fun a => ?_
  have : globalCell C.n (g.coord t) (fun a => w a % (C.n a : Int)) a = w a := by
    unfold globalCell
    rw [hc]
    show ((w a / (C.n a : Int)).toNat : Int) * C.n a + w a % (C.n a : Int) = w a
    rw [Int.toNat_of_nonneg (q0 a)]
    exact Int.ediv_mul_add_emod _ _
  rw [this]
  push_cast
  exact (Int.mod_modEq _ _).symm

variable {D A : Type} {Y : Sys k D A} {g : Place k}

/-- fields without sources on the undivided grid, and the run that shows them -/
structure Vacuum (Y : Sys k D A) (C : Conf k) (g : Place k) (x : Nat → St k) (G : Nat → GF k) : Prop where
  lay : Layout C Y.npatches g
  n : Y.solver.sync.n = C.n
  ng : Y.solver.sync.ng = C.ng
  np : Y.solver.sync.npatches = Y.npatches
  rep : ∀ i, Rep Y.solver g (x i).fld (G i)
  per : ∀ i, (G i).Per C.np C.n
  waveE : ∀ i f v, (G (i + 2)).e f v - 2 * (G (i + 1)).e f v + (G i).e f v = C.c2 * C.dt ^ 2 * lap C.d ((G (i + 1)).e f) v
  waveB : ∀ i f v, (G (i + 2)).b f v - 2 * (G (i + 1)).b f v + (G i).b f v = C.c2 * C.dt ^ 2 * lap C.d ((G (i + 1)).b f) v

theorem lap_shift (d : Fin k → ℚ) (s : Fin k → Int) (F : (Fin k → Int) → ℚ) (v : Fin k → Int) :
    lap d F (fun a => s a + v a) = lap d (fun v => F fun a => s a + v a) v :=
  Finset.sum_congr rfl fun a _ => by rw [up_shift, dn_shift]

theorem Vacuum.stored {x : Nat → St k} {G : Nat → GF k} (V : Vacuum Y C g x G) (i : Nat) {t : Nat} (ht : t < Y.npatches) (f : Fin 3) {v : Fin k → Int}
    (hv : InRange C.n C.ng v) : storedE C (x i) t f v = (G i).e f (globalCell C.n (g.coord t) v) ∧
      storedB C (x i) t f v = (G i).b f (globalCell C.n (g.coord t) v) := by
  have he := (V.rep i).e t (V.np ▸ ht) f v (by rw [V.n, V.ng]; exact hv)
  have hb := (V.rep i).b t (V.np ▸ ht) f v (by rw [V.n, V.ng]; exact hv)
  rw [V.n, V.ng] at he hb
  exact ⟨he, hb⟩

/-- the wave equation in the cells of the patches -/
theorem Vacuum.wave {x : Nat → St k} {G : Nat → GF k} (V : Vacuum Y C g x G) (hng : 1 ≤ C.ng) (i : Nat) {t : Nat} (ht : t < Y.npatches) (f : Fin 3)
    {v : Fin k → Int} (hv : Own C.n v) :
    storedE C (x (i + 2)) t f v - 2 * storedE C (x (i + 1)) t f v + storedE C (x i) t f v
      = C.c2 * C.dt ^ 2 * lap C.d (storedE C (x (i + 1)) t f) v ∧
    storedB C (x (i + 2)) t f v - 2 * storedB C (x (i + 1)) t f v + storedB C (x i) t f v
      = C.c2 * C.dt ^ 2 * lap C.d (storedB C (x (i + 1)) t f) v := by
  have s := fun i => V.stored i ht f (hv.inRange C.ng)
  have sup := fun i a => V.stored i ht f (up_inRange hng hv a)
  have sdn := fun i a => V.stored i ht f (dn_inRange hng hv a)
  constructor
  · rw [(s _).1, (s _).1, (s _).1, V.waveE]
    congr 1
    refine (lap_shift _ _ _ _).trans (Finset.sum_congr rfl fun a _ => ?_)
    show _ = (storedE C (x (i + 1)) t f (up a v) - 2 * storedE C (x (i + 1)) t f v + storedE C (x (i + 1)) t f (dn a v)) / _
    rw [(s _).1, (sup _ a).1, (sdn _ a).1]
    rfl
  · rw [(s _).2, (s _).2, (s _).2, V.waveB]
    congr 1
    refine (lap_shift _ _ _ _).trans (Finset.sum_congr rfl fun a _ => ?_)
    show _ = (storedB C (x (i + 1)) t f (up a v) - 2 * storedB C (x (i + 1)) t f v + storedB C (x (i + 1)) t f (dn a v)) / _
    rw [(s _).2, (sup _ a).2, (sdn _ a).2]
    rfl

/-- amplitudes of the patches are those of the grid -/
theorem amplitude_grid {N : Nat} (L : Layout C N g) {A : Comp k} {F : V3 k}
    (h : ∀ t, t < N → ∀ f v, Own C.n v → A t f v = F f (globalCell C.n (g.coord t) v)) (f : Fin 3) (m : Fin k → Int) :
    amplitude C N g.coord A f m = ampl (fun a => C.np a * C.n a) m (F f) := by
  have := sum_patches (n := C.n) L.bound L.inj L.full (fun v => (F f v : ℂ) * phase (fun a => C.np a * C.n a) m v)
  rw [L.np] at this
  rw [ampl, ← this]
  unfold amplitude
  refine Finset.sum_congr rfl fun t ht => Finset.sum_congr rfl fun u _ => ?_
  rw [h t (Finset.mem_range.mp ht) f _ fun a => ⟨Int.natCast_nonneg _, by exact_mod_cast (u a).2⟩]
  congr 1

theorem wave_solution {β : ℚ} (hC : Admissible C β) {m : Fin k → Int} {ω : ℝ} (hω : Dispersion C m ω) (h0 : 0 < ω * C.dt) (h1 : ω * C.dt < Real.pi)
    {F : Nat → (Fin k → Int) → ℚ} (hF : ∀ i, Per1 (fun a => C.np a * C.n a) (F i))
    (hw : ∀ i v, F (i + 2) v - 2 * F (i + 1) v + F i v = C.c2 * C.dt ^ 2 * lap C.d (F (i + 1)) v) :
    ∃ P Q : ℂ, ∀ i : Nat, ampl (fun a => C.np a * C.n a) m (F i)
      = P * Complex.exp (-(ω * (i * C.dt)) * I) + Q * Complex.exp ((ω * (i * C.dt)) * I) := by
  have hN : ∀ a, 0 < C.np a * C.n a := fun a => Nat.mul_pos (hC.patches a) (hC.cells a)
  have hs : Real.sin (ω * C.dt) ≠ 0 := (Real.sin_pos_of_pos_of_lt_pi h0 h1).ne'
  obtain ⟨P, Q, h⟩ := recurrence (θ := ω * C.dt) hs (a := fun i => ampl (fun a => C.np a * C.n a) m (F i)) fun i => by
    have e : (fun v => F (i + 2) v + ((-2) * F (i + 1) v + F i v)) = fun v => (C.c2 * C.dt ^ 2) * lap C.d (F (i + 1)) v := by
      funext v; rw [← hw i v]; ring
    have := congrArg (ampl (fun a => C.np a * C.n a) m) e
    rw [ampl_add, ampl_add _ _ (fun v => (-2) * F (i + 1) v), ampl_mul, ampl_mul, ampl_lap hN m (hF _)] at this
    have hc : Real.cos (ω * C.dt) = 1 - 2 * (C.c2 * (C.dt : ℝ) ^ 2 * ∑ a, Real.sin (Real.pi * m a / ((C.np a * C.n a : ℕ) : ℝ)) ^ 2 / (C.d a : ℝ) ^ 2) := by
      have h2 : ω * C.dt = 2 * (ω * C.dt / 2) := by ring
      rw [h2, Real.cos_two_mul, Real.cos_sq', hω.2.2]
      have : ∀ a, (Real.sin (waveVector C m a * C.d a / 2) / (C.d a : ℝ)) ^ 2 = Real.sin (Real.pi * m a / ((C.np a * C.n a : ℕ) : ℝ)) ^ 2 / (C.d a : ℝ) ^ 2 := fun a => by
        rw [half_wave hC, div_pow]
      simp only [this]
      ring
    rw [hc]
    generalize (∑ a, Real.sin (Real.pi * m a / ((C.np a * C.n a : ℕ) : ℝ)) ^ 2 / (C.d a : ℝ) ^ 2) = S at *
    push_cast at this ⊢
    linear_combination this
  refine ⟨P, Q, fun i => (h i).trans ?_⟩
  push_cast
  rw [show (ω * (C.dt : ℂ) * i) = ω * (i * (C.dt : ℂ)) by ring]

theorem Vacuum.waves {x : Nat → St k} {G : Nat → GF k} (V : Vacuum Y C g x G) {β : ℚ} (hC : Admissible C β) {m : Fin k → Int} {ω : ℝ}
    (hω : Dispersion C m ω) (h0 : 0 < ω * C.dt) (h1 : ω * C.dt < Real.pi) (f : Fin 3) :
    (∃ P Q : ℂ, ∀ i : Nat, amplitude C Y.npatches g.coord (storedE C (x i)) f m
      = P * Complex.exp (-(ω * (i * C.dt)) * I) + Q * Complex.exp ((ω * (i * C.dt)) * I)) ∧
    (∃ P Q : ℂ, ∀ i : Nat, amplitude C Y.npatches g.coord (storedB C (x i)) f m
      = P * Complex.exp (-(ω * (i * C.dt)) * I) + Q * Complex.exp ((ω * (i * C.dt)) * I)) := by
  constructor
  · obtain ⟨P, Q, h⟩ := wave_solution hC hω h0 h1 (F := fun i => (G i).e f) (fun i v w hvw => (V.per i).e f v w (by simpa using hvw)) fun i => V.waveE i f
    exact ⟨P, Q, fun i => (amplitude_grid V.lay (fun t ht f v hv => (V.stored i ht f (hv.inRange _)).1) f m).trans (h i)⟩
  · obtain ⟨P, Q, h⟩ := wave_solution hC hω h0 h1 (F := fun i => (G i).b f) (fun i v w hvw => (V.per i).b f v w (by simpa using hvw)) fun i => V.waveB i f
    exact ⟨P, Q, fun i => (amplitude_grid V.lay (fun t ht f v hv => (V.stored i ht f (hv.inRange _)).2) f m).trans (h i)⟩
end Gen

/-! ## two dimensions -/

/-- Specification: nothing but fields without divergence -/
structure OnlyLight2 (C : Conf 2) (x : St 2) : Prop where
  empty : x.parts = []
  still : NoCurrent C (sys2 C).npatches x
  divE : ∀ t, t < (sys2 C).npatches → ∀ v, Own C.n v → divE2 C.par (storedE C x t) v = 0
  divB : ∀ t, t < (sys2 C).npatches → ∀ v, Own C.n v → divB2 C.par (storedB C x t) v = 0

/-- Specification: the same in 3D -/
structure OnlyLight3 (C : Conf 3) (x : St 3) : Prop where
  empty : x.parts = []
  still : NoCurrent C (sys3 C).npatches x
  divE : ∀ t, t < (sys3 C).npatches → ∀ v, Own C.n v → divE3 C.par (storedE C x t) v = 0
  divB : ∀ t, t < (sys3 C).npatches → ∀ v, Own C.n v → divB3 C.par (storedB C x t) v = 0

theorem per1_of {k : Nat} {C : Conf k} {F : V3 k} (h : Periodic C.np C.n F) (f : Fin 3) : Per1 (fun a => C.np a * C.n a) (F f) :=
  fun v w hvw => h f v w (by simpa using hvw)

theorem cloud_of_empty {k : Nat} {C : Conf k} {N : Nat} {coord : Nat → Fin k → Nat} {β : ℚ} {x : St k} {W : World k} (h0 : Starts C N coord β x W)
    (hp : x.parts = []) : W.cloud = [] := by
  have := h0.agrees.species
  rw [hp] at this
  cases hc : W.cloud with
  | nil => rfl
  | cons a l => rw [hc] at this; cases this

section Two
variable {C : Conf 2} {β : ℚ} {W : World 2} {rk : Nat → Nat → Nat} {x : Nat → St 2}

theorem div_stored2 (hC : Admissible C β) {x : St 2} {G : GF 2} (h : Rep (sys2 C).solver C.place2 x.fld G) {t : Nat} (ht : t < (sys2 C).npatches)
    {v : Fin 2 → Int} (hv : Own C.n v) :
    divE2 C.par (storedE C x t) v = divE2 C.par G.e (globalCell C.n (C.place2.coord t) v) ∧
    divB2 C.par (storedB C x t) v = divB2 C.par G.b (globalCell C.n (C.place2.coord t) v) := by
  have hng : 1 ≤ C.ng := le_trans (by decide) hC.guard
  have hnv : (sys2 C).solver.sync.n = C.n := vec2 C.n
  have he : Shows C.n C.ng (sys2 C).npatches C.place2 (InRange C.n C.ng) (fun t => (x.fld t).e) G.e := by
    have := h.e; rw [hnv] at this; exact this
  have hb : Shows C.n C.ng (sys2 C).npatches C.place2 (InRange C.n C.ng) (fun t => (x.fld t).b) G.b := by
    have := h.b; rw [hnv] at this; exact this
  have hdn : ∀ a, dn a (globalCell C.n (C.place2.coord t) v) = globalCell C.n (C.place2.coord t) (dn a v) := fun a => dn_shift a _ v
  have hup : ∀ a, up a (globalCell C.n (C.place2.coord t) v) = globalCell C.n (C.place2.coord t) (up a v) := fun a => up_shift a _ v
  have h1 : ∀ d, storedE C x t d v = _ := fun d => he t ht d v (hv.inRange _)
  have h2 : ∀ d a, storedE C x t d (dn a v) = _ := fun d a => he t ht d (dn a v) (dn_inRange hng hv a)
  have h3 : ∀ d, storedB C x t d v = _ := fun d => hb t ht d v (hv.inRange _)
  have h4 : ∀ d a, storedB C x t d (up a v) = _ := fun d a => hb t ht d (up a v) (up_inRange hng hv a)
  unfold divE2 divB2
  exact ⟨by simp only [h1, h2, hdn], by simp only [h3, h4, hup]⟩

theorem vacuum_fields2 (hC : Admissible C β) (h0 : Starts C (sys2 C).npatches C.coord2 β (x 0) W) (hl : OnlyLight2 C (x 0)) :
    W.cloud = [] ∧ W.fld.j = noJ ∧ (∀ v, divE2 C.par W.fld.e v = 0) ∧ ∀ v, divB2 C.par W.fld.b v = 0 := by
  have hf := follows2.mpr h0
  have L := layout2 C
  have hper : W.fld.Per C.np C.n := h0.period.per
  have hnv : (sys2 C).solver.sync.n = C.n := vec2 C.n
  have cong : ∀ {v w : Fin 2 → Int}, (∀ a, v a ≡ w a [ZMOD ((C.np a * C.n a : ℕ) : Int)]) → ∀ a, v a ≡ w a [ZMOD (C.np a * C.n a : Int)] :=
    fun h a => by simpa using h a
  refine ⟨cloud_of_empty h0 hl.empty, ?_, ?_, ?_⟩
  · funext f
    funext v
    refine everywhere hC L (per1_of hper.j f) (fun t ht v hv => ?_) v
    have := hf.rep.j t ht f v (by rw [hnv]; exact hv)
    rw [hnv] at this
    exact this.symm.trans (hl.still t ht f v hv)
  · refine everywhere hC L (fun v w h => ?_) fun t ht v hv => ?_
    · have h := cong h
      unfold divE2
      rw [hper.e 0 v w h, hper.e 1 v w h, hper.e 0 _ _ (dn_modEq h 0), hper.e 1 _ _ (dn_modEq h 1)]
    · rw [← (div_stored2 hC hf.rep ht hv).1]; exact hl.divE t ht v hv
  · refine everywhere hC L (fun v w h => ?_) fun t ht v hv => ?_
    · have h := cong h
      unfold divB2
      rw [hper.b 0 v w h, hper.b 1 v w h, hper.b 0 _ _ (up_modEq h 0), hper.b 1 _ _ (up_modEq h 1)]
    · rw [← (div_stored2 hC hf.rep ht hv).2]; exact hl.divB t ht v hv

theorem step_vacuum2 (hw : W.cloud = []) (i : Nat) : (W.run C.phys2 (i + 1)).fld = (W.run C.phys2 i).fld.step (yeeE2 C.par) (yeeB2 C.par) C.dt noJ := by
  have h1 : (W.run C.phys2 (i + 1)).fld = GF.step (yeeE2 C.par) (yeeB2 C.par) C.dt (C.phys2.cur (W.run C.phys2 (i + 1)).cloud) (W.run C.phys2 i).fld := rfl
  rw [h1, cloud_nil _ hw]
  have h2 : C.phys2.cur [] = noJ := by funext f v; exact cur2_nil _ _ _ f v
  rw [h2]

theorem divE_zero2 (hw : W.cloud = []) (hj : W.fld.j = noJ) (hd : ∀ v, divE2 C.par W.fld.e v = 0) (i : Nat) :
    (W.run C.phys2 i).fld.j = noJ ∧ ∀ v, divE2 C.par (W.run C.phys2 i).fld.e v = 0 := by
  induction i with
  | zero => exact ⟨hj, hd⟩
  | succ i ih =>
    rw [step_vacuum2 hw]
    refine ⟨rfl, fun v => ?_⟩
    have nj : ∀ v, divE2 C.par noJ v = 0 := fun v => by unfold divE2 noJ; simp
    let G := (W.run C.phys2 i).fld
    let G1 : GF 2 := { (G.stepE (yeeE2 C.par) (1 / 2 * C.dt)).stepB (yeeB2 C.par) (1 / 2 * C.dt) with j := noJ }
    have a := divE2_stepE C.par (1 / 2 * C.dt) (G1.stepB (yeeB2 C.par) (1 / 2 * C.dt)) v
    have b := divE2_stepE C.par (1 / 2 * C.dt) G v
    have e1 : (G1.stepB (yeeB2 C.par) (1 / 2 * C.dt)).j = noJ := rfl
    have e2 : (G1.stepB (yeeB2 C.par) (1 / 2 * C.dt)).e = (G.stepE (yeeE2 C.par) (1 / 2 * C.dt)).e := rfl
    rw [e1, e2, b, nj, show G.j = noJ from ih.1, nj, show divE2 C.par G.e v = 0 from ih.2 v] at a
    exact a.trans (by ring)

theorem vacuum_run2 (hC : Admissible C β) (h0 : Starts C (sys2 C).npatches C.coord2 β (x 0) W) (hrun : Run (sys2 C) rk x) (hl : OnlyLight2 C (x 0)) :
    Vacuum (sys2 C) C C.place2 x fun i => (W.run C.phys2 i).fld := by
  obtain ⟨hw, hj, hE, hB⟩ := vacuum_fields2 hC h0 hl
  have hf := fun i => run_follows hC.facts2 hC.bounds2 (follows2.mpr h0) hrun i
  have hnv : (sys2 C).solver.sync.n = C.n := vec2 C.n
  have hnpv : C.place2.np = C.np := vec2 C.np
  have e : 2 * (1 / 2 * C.dt) = C.dt := by ring
  have sd := fun (i : Nat) f v => second_difference (additive2 C.par) C.dt (W.run C.phys2 i).fld (divE_zero2 hw hj hE i).1 f v
  refine ⟨layout2 C, hnv, rfl, rfl, fun i => (hf i).rep, fun i => ?_, fun i f v => ?_, fun i f v => ?_⟩
  · have := (hf i).per
    rwa [hnv, hnpv] at this
  · have := (sd i f v).2
    rw [← step_vacuum2 hw, ← step_vacuum2 hw, FH2 C.par _ _ (divE_zero2 hw hj hE (i + 1)).2, e] at this
    exact this
  · have := (sd i f v).1
    rw [← step_vacuum2 hw, ← step_vacuum2 hw, HF2 C.par _ _ (fun v => (divB_world2 W (i + 1) v).trans (hB v)), e] at this
    exact this

/-- **C97 (2D), wave equation.** In every run with light only, on any patches, ranks and schedules, every component of E and
B obeys the wave equation in every cell after every step: its second difference in time is `c² dt²` times the Laplace
operator of the mesh, taken on the stored values, those of the guard cells included. -/
theorem wave_equation2 (hC : Admissible C β) (h0 : Starts C (sys2 C).npatches C.coord2 β (x 0) W) (hrun : Run (sys2 C) rk x) (hl : OnlyLight2 C (x 0))
    (i : Nat) {t : Nat} (ht : t < (sys2 C).npatches) (f : Fin 3) {v : Fin 2 → Int} (hv : Own C.n v) :
    storedE C (x (i + 2)) t f v - 2 * storedE C (x (i + 1)) t f v + storedE C (x i) t f v
      = C.c2 * C.dt ^ 2 * lap C.d (storedE C (x (i + 1)) t f) v ∧
    storedB C (x (i + 2)) t f v - 2 * storedB C (x (i + 1)) t f v + storedB C (x i) t f v
      = C.c2 * C.dt ^ 2 * lap C.d (storedB C (x (i + 1)) t f) v :=
  (vacuum_run2 hC h0 hrun hl).wave (le_trans (by decide) hC.guard) i ht f hv

/-- **C97 (2D), frequencies.** The Fourier amplitudes of E and B, over all patches, are those of one wave forward and one
backward with the frequency of the mesh, at all times and with amplitudes that do not change. -/
theorem waves2 (hC : Admissible C β) (h0 : Starts C (sys2 C).npatches C.coord2 β (x 0) W) (hrun : Run (sys2 C) rk x) (hl : OnlyLight2 C (x 0))
    {m : Fin 2 → Int} {ω : ℝ} (hω : Dispersion C m ω) (w0 : 0 < ω * C.dt) (w1 : ω * C.dt < Real.pi) (f : Fin 3) :
    (∃ P Q : ℂ, ∀ i : Nat, amplitude C (sys2 C).npatches C.coord2 (storedE C (x i)) f m
      = P * Complex.exp (-(ω * (i * C.dt)) * I) + Q * Complex.exp ((ω * (i * C.dt)) * I)) ∧
    (∃ P Q : ℂ, ∀ i : Nat, amplitude C (sys2 C).npatches C.coord2 (storedB C (x i)) f m
      = P * Complex.exp (-(ω * (i * C.dt)) * I) + Q * Complex.exp ((ω * (i * C.dt)) * I)) :=
  (vacuum_run2 hC h0 hrun hl).waves hC hω w0 w1 f
end Two

/-! ## three dimensions -/

section Three
variable {C : Conf 3} {β : ℚ} {W : World 3} {rk : Nat → Nat → Nat} {x : Nat → St 3}

theorem div_stored3 (hC : Admissible C β) {x : St 3} {G : GF 3} (h : Rep (sys3 C).solver C.place3 x.fld G) {t : Nat} (ht : t < (sys3 C).npatches)
    {v : Fin 3 → Int} (hv : Own C.n v) :
    divE3 C.par (storedE C x t) v = divE3 C.par G.e (globalCell C.n (C.place3.coord t) v) ∧
    divB3 C.par (storedB C x t) v = divB3 C.par G.b (globalCell C.n (C.place3.coord t) v) := by
  have hng : 1 ≤ C.ng := le_trans (by decide) hC.guard
  have hnv : (sys3 C).solver.sync.n = C.n := vec3 C.n
  have he : Shows C.n C.ng (sys3 C).npatches C.place3 (InRange C.n C.ng) (fun t => (x.fld t).e) G.e := by
    have := h.e; rw [hnv] at this; exact this
  have hb : Shows C.n C.ng (sys3 C).npatches C.place3 (InRange C.n C.ng) (fun t => (x.fld t).b) G.b := by
    have := h.b; rw [hnv] at this; exact this
  have hdn : ∀ a, dn a (globalCell C.n (C.place3.coord t) v) = globalCell C.n (C.place3.coord t) (dn a v) := fun a => dn_shift a _ v
  have hup : ∀ a, up a (globalCell C.n (C.place3.coord t) v) = globalCell C.n (C.place3.coord t) (up a v) := fun a => up_shift a _ v
  have h1 : ∀ d, storedE C x t d v = _ := fun d => he t ht d v (hv.inRange _)
  have h2 : ∀ d a, storedE C x t d (dn a v) = _ := fun d a => he t ht d (dn a v) (dn_inRange hng hv a)
  have h3 : ∀ d, storedB C x t d v = _ := fun d => hb t ht d v (hv.inRange _)
  have h4 : ∀ d a, storedB C x t d (up a v) = _ := fun d a => hb t ht d (up a v) (up_inRange hng hv a)
  unfold divE3 divB3
  exact ⟨by simp only [h1, h2, hdn], by simp only [h3, h4, hup]⟩

theorem vacuum_fields3 (hC : Admissible C β) (h0 : Starts C (sys3 C).npatches C.coord3 β (x 0) W) (hl : OnlyLight3 C (x 0)) :
    W.cloud = [] ∧ W.fld.j = noJ ∧ (∀ v, divE3 C.par W.fld.e v = 0) ∧ ∀ v, divB3 C.par W.fld.b v = 0 := by
  have hf := follows3.mpr ⟨h0, by rw [hl.empty]; simp⟩
  have L := layout3 C
  have hper : W.fld.Per C.np C.n := h0.period.per
  have hnv : (sys3 C).solver.sync.n = C.n := vec3 C.n
  have cong : ∀ {v w : Fin 3 → Int}, (∀ a, v a ≡ w a [ZMOD ((C.np a * C.n a : ℕ) : Int)]) → ∀ a, v a ≡ w a [ZMOD (C.np a * C.n a : Int)] :=
    fun h a => by simpa using h a
  refine ⟨cloud_of_empty h0 hl.empty, ?_, ?_, ?_⟩
  · funext f
    funext v
    refine everywhere hC L (per1_of hper.j f) (fun t ht v hv => ?_) v
    have := hf.rep.j t ht f v (by rw [hnv]; exact hv)
    rw [hnv] at this
    exact this.symm.trans (hl.still t ht f v hv)
  · refine everywhere hC L (fun v w h => ?_) fun t ht v hv => ?_
    · have h := cong h
      unfold divE3
      rw [hper.e 0 v w h, hper.e 1 v w h, hper.e 2 v w h, hper.e 0 _ _ (dn_modEq h 0), hper.e 1 _ _ (dn_modEq h 1), hper.e 2 _ _ (dn_modEq h 2)]
    · rw [← (div_stored3 hC hf.rep ht hv).1]; exact hl.divE t ht v hv
  · refine everywhere hC L (fun v w h => ?_) fun t ht v hv => ?_
    · have h := cong h
      unfold divB3
      rw [hper.b 0 v w h, hper.b 1 v w h, hper.b 2 v w h, hper.b 0 _ _ (up_modEq h 0), hper.b 1 _ _ (up_modEq h 1), hper.b 2 _ _ (up_modEq h 2)]
    · rw [← (div_stored3 hC hf.rep ht hv).2]; exact hl.divB t ht v hv

theorem step_vacuum3 (hw : W.cloud = []) (i : Nat) : (W.run C.phys3 (i + 1)).fld = (W.run C.phys3 i).fld.step (yeeE3 C.par) (yeeB3 C.par) C.dt noJ := by
  have h1 : (W.run C.phys3 (i + 1)).fld = GF.step (yeeE3 C.par) (yeeB3 C.par) C.dt (C.phys3.cur (W.run C.phys3 (i + 1)).cloud) (W.run C.phys3 i).fld := rfl
  rw [h1, cloud_nil _ hw]
  have h2 : C.phys3.cur [] = noJ := by funext f v; exact cur3_nil _ _ _ f v
  rw [h2]

theorem divB_world3 {C : Conf 3} (W : World 3) (i : Nat) (v : Fin 3 → Int) :
    divB3 C.par (W.run C.phys3 i).fld.b v = divB3 C.par W.fld.b v := by
  induction i with
  | zero => rfl
  | succ i ih =>
    rw [← ih]
    let G := (W.run C.phys3 i).fld
    let G1 : GF 3 := { midField C.phys3 G with j := C.phys3.cur (W.run C.phys3 (i + 1)).cloud }
    exact (divB3_stepB C.par (1 / 2 * C.dt) G1 v).trans
      (divB3_stepB C.par (1 / 2 * C.dt) (G.stepE (yeeE3 C.par) (1 / 2 * C.dt)) v)

theorem divE_zero3 (hw : W.cloud = []) (hj : W.fld.j = noJ) (hd : ∀ v, divE3 C.par W.fld.e v = 0) (i : Nat) :
    (W.run C.phys3 i).fld.j = noJ ∧ ∀ v, divE3 C.par (W.run C.phys3 i).fld.e v = 0 := by
  induction i with
  | zero => exact ⟨hj, hd⟩
  | succ i ih =>
    rw [step_vacuum3 hw]
    refine ⟨rfl, fun v => ?_⟩
    have nj : ∀ v, divE3 C.par noJ v = 0 := fun v => by unfold divE3 noJ; simp
    let G := (W.run C.phys3 i).fld
    let G1 : GF 3 := { (G.stepE (yeeE3 C.par) (1 / 2 * C.dt)).stepB (yeeB3 C.par) (1 / 2 * C.dt) with j := noJ }
    have a := divE3_stepE C.par (1 / 2 * C.dt) (G1.stepB (yeeB3 C.par) (1 / 2 * C.dt)) v
    have b := divE3_stepE C.par (1 / 2 * C.dt) G v
    have e1 : (G1.stepB (yeeB3 C.par) (1 / 2 * C.dt)).j = noJ := rfl
    have e2 : (G1.stepB (yeeB3 C.par) (1 / 2 * C.dt)).e = (G.stepE (yeeE3 C.par) (1 / 2 * C.dt)).e := rfl
    rw [e1, e2, b, nj, show G.j = noJ from ih.1, nj, show divE3 C.par G.e v = 0 from ih.2 v] at a
    exact a.trans (by ring)

theorem vacuum_run3 (hC : Admissible C β) (h0 : Starts C (sys3 C).npatches C.coord3 β (x 0) W) (hrun : Run (sys3 C) rk x) (hl : OnlyLight3 C (x 0)) :
    Vacuum (sys3 C) C C.place3 x fun i => (W.run C.phys3 i).fld := by
  obtain ⟨hw, hj, hE, hB⟩ := vacuum_fields3 hC h0 hl
  have hf := fun i => run_follows hC.facts3 hC.bounds3 (follows3.mpr ⟨h0, by rw [hl.empty]; simp⟩) hrun i
  have hnv : (sys3 C).solver.sync.n = C.n := vec3 C.n
  have hnpv : C.place3.np = C.np := vec3 C.np
  have e : 2 * (1 / 2 * C.dt) = C.dt := by ring
  have sd := fun (i : Nat) f v => second_difference (additive3 C.par) C.dt (W.run C.phys3 i).fld (divE_zero3 hw hj hE i).1 f v
  refine ⟨layout3 C, hnv, rfl, rfl, fun i => (hf i).rep, fun i => ?_, fun i f v => ?_, fun i f v => ?_⟩
  · have := (hf i).per
    rwa [hnv, hnpv] at this
  · have := (sd i f v).2
    rw [← step_vacuum3 hw, ← step_vacuum3 hw, FH3 C.par _ _ (divE_zero3 hw hj hE (i + 1)).2, e] at this
    exact this
  · have := (sd i f v).1
    rw [← step_vacuum3 hw, ← step_vacuum3 hw, HF3 C.par _ _ (fun v => (divB_world3 W (i + 1) v).trans (hB v)), e] at this
    exact this

/-- **C97 (3D), wave equation.** In every run with light only, on any patches, ranks and schedules, every component of E and
B obeys the wave equation in every cell after every step: its second difference in time is `c² dt²` times the Laplace
operator of the mesh, taken on the stored values, those of the guard cells included. -/
theorem wave_equation3 (hC : Admissible C β) (h0 : Starts C (sys3 C).npatches C.coord3 β (x 0) W) (hrun : Run (sys3 C) rk x) (hl : OnlyLight3 C (x 0))
    (i : Nat) {t : Nat} (ht : t < (sys3 C).npatches) (f : Fin 3) {v : Fin 3 → Int} (hv : Own C.n v) :
    storedE C (x (i + 2)) t f v - 2 * storedE C (x (i + 1)) t f v + storedE C (x i) t f v
      = C.c2 * C.dt ^ 2 * lap C.d (storedE C (x (i + 1)) t f) v ∧
    storedB C (x (i + 2)) t f v - 2 * storedB C (x (i + 1)) t f v + storedB C (x i) t f v
      = C.c2 * C.dt ^ 2 * lap C.d (storedB C (x (i + 1)) t f) v :=
  (vacuum_run3 hC h0 hrun hl).wave (le_trans (by decide) hC.guard) i ht f hv

/-- **C97 (3D), frequencies.** The Fourier amplitudes of E and B, over all patches, are those of one wave forward and one
backward with the frequency of the mesh, at all times and with amplitudes that do not change. -/
theorem waves3 (hC : Admissible C β) (h0 : Starts C (sys3 C).npatches C.coord3 β (x 0) W) (hrun : Run (sys3 C) rk x) (hl : OnlyLight3 C (x 0))
    {m : Fin 3 → Int} {ω : ℝ} (hω : Dispersion C m ω) (w0 : 0 < ω * C.dt) (w1 : ω * C.dt < Real.pi) (f : Fin 3) :
    (∃ P Q : ℂ, ∀ i : Nat, amplitude C (sys3 C).npatches C.coord3 (storedE C (x i)) f m
      = P * Complex.exp (-(ω * (i * C.dt)) * I) + Q * Complex.exp ((ω * (i * C.dt)) * I)) ∧
    (∃ P Q : ℂ, ∀ i : Nat, amplitude C (sys3 C).npatches C.coord3 (storedB C (x i)) f m
      = P * Complex.exp (-(ω * (i * C.dt)) * I) + Q * Complex.exp ((ω * (i * C.dt)) * I)) :=
  (vacuum_run3 hC h0 hrun hl).waves hC hω w0 w1 f
end Three

/-! ## uniform fields -/

section Mean
variable {k : Nat}

theorem mean_diff {N : Fin k → Nat} {g : (Fin k → Int) → ℚ} (hg : Per1 N g) (a : Fin k) (c : ℚ) :
    tot N (fun v => c * (g v - g (dn a v))) = 0 ∧ tot N (fun v => c * (g (up a v) - g v)) = 0 := by
  constructor
  · rw [tot_mul, tot_sub, tot_dn hg a, sub_self, mul_zero]
  · rw [tot_mul, tot_sub, tot_up hg a, sub_self, mul_zero]

theorem mean_yee2 (P : Par 2) (h : ℚ) {N : Fin 2 → Nat} {F : V3 2} (hF : ∀ f, Per1 N (F f)) (f : Fin 3) :
    tot N (yeeE2 P h F noJ f) = 0 ∧ tot N (yeeB2 P h F f) = 0 := by
  have d := fun f a c => (mean_diff (hF f) a c).1
  have u := fun f a c => (mean_diff (hF f) a c).2
  match f with
  | 0 =>
    constructor
    · refine Eq.trans (congrArg (tot N) (funext fun v => ?_)) (d 2 1 (h * P.c2 / P.d 1))
      simp only [yeeE2, Matrix.cons_val, noJ]; ring
    · refine Eq.trans (congrArg (tot N) (funext fun v => ?_)) (u 2 1 (-h / P.d 1))
      simp only [yeeB2, Matrix.cons_val]; ring
  | 1 =>
    constructor
    · refine Eq.trans (congrArg (tot N) (funext fun v => ?_)) (d 2 0 (-(h * P.c2) / P.d 0))
      simp only [yeeE2, Matrix.cons_val, noJ]; ring
    · refine Eq.trans (congrArg (tot N) (funext fun v => ?_)) (u 2 0 (h / P.d 0))
      simp only [yeeB2, Matrix.cons_val]; ring
  | 2 =>
    constructor
    · refine Eq.trans (congrArg (tot N) (funext fun v => ?_))
        ((tot_add N _ _).trans ((congrArg₂ (· + ·) (d 1 0 (h * P.c2 / P.d 0)) (d 0 1 (-(h * P.c2) / P.d 1))).trans (add_zero 0)))
      simp only [yeeE2, Matrix.cons_val, noJ]; ring
    · refine Eq.trans (congrArg (tot N) (funext fun v => ?_))
        ((tot_add N _ _).trans ((congrArg₂ (· + ·) (u 1 0 (-h / P.d 0)) (u 0 1 (h / P.d 1))).trans (add_zero 0)))
      simp only [yeeB2, Matrix.cons_val]; ring

theorem mean_yee3 (P : Par 3) (h : ℚ) {N : Fin 3 → Nat} {F : V3 3} (hF : ∀ f, Per1 N (F f)) (f : Fin 3) :
    tot N (yeeE3 P h F noJ f) = 0 ∧ tot N (yeeB3 P h F f) = 0 := by
  have d := fun f a c => (mean_diff (hF f) a c).1
  have u := fun f a c => (mean_diff (hF f) a c).2
  have two : ∀ {p q : (Fin 3 → Int) → ℚ}, tot N p = 0 → tot N q = 0 → tot N (fun v => p v + q v) = 0 := fun hp hq => by
    rw [tot_add, hp, hq, add_zero]
  match f with
  | 0 =>
    constructor
    · refine Eq.trans (congrArg (tot N) (funext fun v => ?_)) (two (d 2 1 (h * P.c2 / P.d 1)) (d 1 2 (-(h * P.c2) / P.d 2)))
      simp only [yeeE3, Matrix.cons_val, noJ]; ring
    · refine Eq.trans (congrArg (tot N) (funext fun v => ?_)) (two (u 2 1 (-h / P.d 1)) (u 1 2 (h / P.d 2)))
      simp only [yeeB3, Matrix.cons_val]; ring
  | 1 =>
    constructor
    · refine Eq.trans (congrArg (tot N) (funext fun v => ?_)) (two (d 0 2 (h * P.c2 / P.d 2)) (d 2 0 (-(h * P.c2) / P.d 0)))
      simp only [yeeE3, Matrix.cons_val, noJ]; ring
    · refine Eq.trans (congrArg (tot N) (funext fun v => ?_)) (two (u 0 2 (-h / P.d 2)) (u 2 0 (h / P.d 0)))
      simp only [yeeB3, Matrix.cons_val]; ring
  | 2 =>
    constructor
    · refine Eq.trans (congrArg (tot N) (funext fun v => ?_)) (two (d 1 0 (h * P.c2 / P.d 0)) (d 0 1 (-(h * P.c2) / P.d 1)))
      simp only [yeeE3, Matrix.cons_val, noJ]; ring
    · refine Eq.trans (congrArg (tot N) (funext fun v => ?_)) (two (u 1 0 (-h / P.d 0)) (u 0 1 (h / P.d 1)))
      simp only [yeeB3, Matrix.cons_val]; ring

theorem mean_step {FE : ℚ → V3 k → V3 k → V3 k} {FB : ℚ → V3 k → V3 k} {np n : Fin k → Nat} (hlE : LocalFE FE) (hlB : LocalFB FB)
    (hM : ∀ h {F : V3 k}, (∀ f, Per1 (fun a => np a * n a) (F f)) → ∀ f, tot (fun a => np a * n a) (FE h F noJ f) = 0 ∧ tot (fun a => np a * n a) (FB h F f) = 0)
    (dt : ℚ) {G : GF k} (hp : G.Per np n) (hj : G.j = noJ) (f : Fin 3) :
    tot (fun a => np a * n a) ((G.step FE FB dt noJ).e f) = tot (fun a => np a * n a) (G.e f) ∧
    tot (fun a => np a * n a) ((G.step FE FB dt noJ).b f) = tot (fun a => np a * n a) (G.b f) := by
  have conv : ∀ {F : V3 k}, Periodic np n F → ∀ f, Per1 (fun a => np a * n a) (F f) := fun h f v w hvw => h f v w (by simpa using hvw)
  have se : ∀ {G : GF k}, G.Per np n → G.j = noJ → ∀ h, tot (fun a => np a * n a) ((G.stepE FE h).e f) = tot (fun a => np a * n a) (G.e f) := by
    intro G hp hj h
    have := (hM h (conv hp.b) f).1
    show tot _ (fun v => G.e f v + FE h G.b G.j f v) = _
    rw [tot_add, hj]
    linarith [this, show tot (fun a => np a * n a) (fun v => FE h G.b noJ f v) = tot (fun a => np a * n a) (FE h G.b noJ f) from rfl]
  have sb : ∀ {G : GF k}, G.Per np n → ∀ h, tot (fun a => np a * n a) ((G.stepB FB h).b f) = tot (fun a => np a * n a) (G.b f) := by
    intro G hp h
    have := (hM h (conv hp.e) f).2
    show tot _ (fun v => G.b f v + FB h G.e f v) = _
    rw [tot_add]
    linarith [this, show tot (fun a => np a * n a) (fun v => FB h G.e f v) = tot (fun a => np a * n a) (FB h G.e f) from rfl]
  let G1 : GF k := { (G.stepE FE (1 / 2 * dt)).stepB FB (1 / 2 * dt) with j := noJ }
  have p1 : (G.stepE FE (1 / 2 * dt)).Per np n := hp.stepE hlE _
  have p2 : ((G.stepE FE (1 / 2 * dt)).stepB FB (1 / 2 * dt)).Per np n := p1.stepB hlB _
  have p3 : G1.Per np n := ⟨p2.e, p2.b, fun _ _ _ _ => rfl⟩
  have p4 : (G1.stepB FB (1 / 2 * dt)).Per np n := p3.stepB hlB _
  exact ⟨(se p4 rfl (1 / 2 * dt)).trans (se hp hj (1 / 2 * dt)), (sb p3 (1 / 2 * dt)).trans (sb p1 (1 / 2 * dt))⟩
end Mean

/-- Specification: sum of component `f` over the own cells of all patches -/
def total {k : Nat} (C : Conf k) (N : Nat) (A : Comp k) (f : Fin 3) : ℚ :=
  ∑ t ∈ range N, ∑ u : (a : Fin k) → Fin (C.n a), A t f fun a => ((u a : Nat) : Int)

theorem total_grid {k : Nat} {C : Conf k} {g : Place k} {N : Nat} (L : Layout C N g) {A : Comp k} {F : V3 k}
    (h : ∀ t, t < N → ∀ f v, Own C.n v → A t f v = F f (globalCell C.n (g.coord t) v)) (f : Fin 3) :
    total C N A f = tot (fun a => C.np a * C.n a) (F f) := by
  have := sum_patches (n := C.n) L.bound L.inj L.full (F f)
  rw [L.np] at this
  rw [← this]
  refine Finset.sum_congr rfl fun t ht => Finset.sum_congr rfl fun u _ => ?_
  exact h t (Finset.mem_range.mp ht) f _ fun a => ⟨Int.natCast_nonneg _, by exact_mod_cast (u a).2⟩

/-- **C97 (2D), uniform fields.** The mean of every component of E and B never changes in vacuum. -/
theorem mean_kept2 {C : Conf 2} {β : ℚ} {W : World 2} {rk : Nat → Nat → Nat} {x : Nat → St 2} (hC : Admissible C β)
    (h0 : Starts C (sys2 C).npatches C.coord2 β (x 0) W) (hrun : Run (sys2 C) rk x) (hl : OnlyLight2 C (x 0)) (i : Nat) (f : Fin 3) :
    total C (sys2 C).npatches (storedE C (x i)) f = total C (sys2 C).npatches (storedE C (x 0)) f ∧
    total C (sys2 C).npatches (storedB C (x i)) f = total C (sys2 C).npatches (storedB C (x 0)) f := by
  have V := vacuum_run2 hC h0 hrun hl
  obtain ⟨hw, hj, hE, hB⟩ := vacuum_fields2 hC h0 hl
  have te := fun i => total_grid V.lay (fun t ht f v hv => (V.stored i ht f (hv.inRange _)).1) f
  have tb := fun i => total_grid V.lay (fun t ht f v hv => (V.stored i ht f (hv.inRange _)).2) f
  rw [te, te, tb, tb]
  induction i with
  | zero => exact ⟨rfl, rfl⟩
  | succ i ih =>
    have := mean_step (localFE2 C.par) (localFB2 C.par) (fun h {_} hF f => mean_yee2 C.par h hF f) C.dt (V.per i) (divE_zero2 hw hj hE i).1 f
    rw [← step_vacuum2 hw] at this
    exact ⟨this.1.trans ih.1, this.2.trans ih.2⟩

/-- **C97 (3D), uniform fields.** -/
theorem mean_kept3 {C : Conf 3} {β : ℚ} {W : World 3} {rk : Nat → Nat → Nat} {x : Nat → St 3} (hC : Admissible C β)
    (h0 : Starts C (sys3 C).npatches C.coord3 β (x 0) W) (hrun : Run (sys3 C) rk x) (hl : OnlyLight3 C (x 0)) (i : Nat) (f : Fin 3) :
    total C (sys3 C).npatches (storedE C (x i)) f = total C (sys3 C).npatches (storedE C (x 0)) f ∧
    total C (sys3 C).npatches (storedB C (x i)) f = total C (sys3 C).npatches (storedB C (x 0)) f := by
  have V := vacuum_run3 hC h0 hrun hl
  obtain ⟨hw, hj, hE, hB⟩ := vacuum_fields3 hC h0 hl
  have te := fun i => total_grid V.lay (fun t ht f v hv => (V.stored i ht f (hv.inRange _)).1) f
  have tb := fun i => total_grid V.lay (fun t ht f v hv => (V.stored i ht f (hv.inRange _)).2) f
  rw [te, te, tb, tb]
  induction i with
  | zero => exact ⟨rfl, rfl⟩
  | succ i ih =>
    have := mean_step (localFE3 C.par) (localFB3 C.par) (fun h {_} hF f => mean_yee3 C.par h hF f) C.dt (V.per i) (divE_zero3 hw hj hE i).1 f
    rw [← step_vacuum3 hw] at this
    exact ⟨this.1.trans ih.1, this.2.trans ih.2⟩

/-! ## a case that meets the hypotheses -/

/-- the zigzag of C83 with half the largest time step: light only, its wave has two periods along both axes of the 4 × 4
cells, and `ω dt = π/3` -/
def halfConf : Conf 2 := { oneConf with dt := 6 / (5 * lightSpeed) }

theorem halfConf_ok : Admissible halfConf 1 := by
  refine ⟨oneConf_ok.patches, oneConf_ok.guard, oneConf_ok.wide, oneConf_ok.cell, ?_, oneConf_ok.speed, oneConf_ok.root, ?_⟩
  · show (6 / (5 * lightSpeed) : ℚ) ≠ 0
    unfold lightSpeed; norm_num
  · intro a
    have h : lightSpeed * |6 / (5 * lightSpeed)| * 1 = (6 / 5 : ℚ) := by
      unfold lightSpeed
      rw [abs_of_pos (by norm_num)]
      norm_num
    show lightSpeed * |6 / (5 * lightSpeed)| * 1 ≤ oneConf.d a
    rw [h]
    match a with
    | 0 => exact (by norm_num : (6 / 5 : ℚ) ≤ 3)
    | 1 => exact (by norm_num : (6 / 5 : ℚ) ≤ 4)

theorem half_starts : Starts halfConf (sys2 halfConf).npatches halfConf.coord2 1 zigState zigWorld :=
  ⟨⟨zig_starts.agrees.e, zig_starts.agrees.b, zig_starts.agrees.j, zig_starts.agrees.species⟩, zig_starts.inside, zig_starts.period⟩

theorem half_light : OnlyLight2 halfConf zigState := by
  have hf := follows2.mpr half_starts
  refine ⟨rfl, fun t _ f v _ => rfl, fun t ht v hv => ?_, fun t ht v hv => ?_⟩
  · rw [(div_stored2 halfConf_ok hf.rep ht hv).1]
    generalize globalCell halfConf.n (halfConf.place2.coord t) v = w
    show ((1 : ℚ) / 2 * zig w - 1 / 2 * zig (dn 0 w)) / 3 + (-(2 / 3) * 1 * zig w - -(2 / 3) * 1 * zig (dn 1 w)) / 4 = 0
    rw [zig_dn, zig_dn]
    ring
  · rw [(div_stored2 halfConf_ok hf.rep ht hv).2]
    generalize globalCell halfConf.n (halfConf.place2.coord t) v = w
    show ((0 : ℚ) - 0) / 3 + (0 - 0) / 4 = 0
    norm_num

theorem half_courant : Courant halfConf := by
  have hl : (0 : ℚ) < lightSpeed := by unfold lightSpeed; norm_num
  refine ⟨by show (0 : ℚ) < 6 / (5 * lightSpeed); positivity, sq_nonneg _, ?_⟩
  rw [Fin.sum_univ_two]
  show lightSpeed ^ 2 * (6 / (5 * lightSpeed)) ^ 2 * (1 / 3 ^ 2 + 1 / 4 ^ 2) ≤ 1
  have : lightSpeed ^ 2 * (6 / (5 * lightSpeed)) ^ 2 * (1 / 3 ^ 2 + 1 / 4 ^ 2) = 1 / 4 := by field_simp; norm_num
  rw [this]; norm_num

example : ∃ (x : Nat → St 2) (ω : ℝ), Starts halfConf (sys2 halfConf).npatches halfConf.coord2 1 (x 0) zigWorld ∧
    Run (sys2 halfConf) (fun _ _ => 0) x ∧ OnlyLight2 halfConf (x 0) ∧ Courant halfConf ∧
    Dispersion halfConf ![2, 2] ω ∧ 0 < ω * halfConf.dt ∧ ω * halfConf.dt < Real.pi ∧ (∀ a, 2 * |(![2, 2] : Fin 2 → Int) a| ≤ (halfConf.np a * halfConf.n a : ℕ)) := by
  obtain ⟨x, e, r⟩ := runs2 halfConf_ok half_starts (fun _ _ => 0)
  have hl : (0 : ℝ) < ((lightSpeed : ℚ) : ℝ) := by unfold lightSpeed; norm_num
  have hdt : (0 : ℝ) < halfConf.dt := by exact_mod_cast half_courant.1
  have hw : Real.pi / 3 / halfConf.dt * halfConf.dt = Real.pi / 3 := div_mul_cancel₀ _ hdt.ne'
  refine ⟨x, Real.pi / 3 / halfConf.dt, e ▸ half_starts, r, e ▸ half_light, half_courant, ⟨by positivity, ?_, ?_⟩, ?_, ?_, ?_⟩
  · rw [hw]; linarith [Real.pi_pos]
  · rw [hw, show Real.pi / 3 / 2 = Real.pi / 6 by ring, Real.sin_pi_div_six, Fin.sum_univ_two, half_wave halfConf_ok, half_wave halfConf_ok]
    have h1 : Real.pi * (((![2, 2] : Fin 2 → Int) 0 : ℤ) : ℝ) / ((halfConf.np 0 * halfConf.n 0 : ℕ) : ℝ) = Real.pi / 2 := by
      show Real.pi * ((2 : ℤ) : ℝ) / ((4 : ℕ) : ℝ) = _
      push_cast; ring
    have h2 : Real.pi * (((![2, 2] : Fin 2 → Int) 1 : ℤ) : ℝ) / ((halfConf.np 1 * halfConf.n 1 : ℕ) : ℝ) = Real.pi / 2 := by
      show Real.pi * ((2 : ℤ) : ℝ) / ((4 : ℕ) : ℝ) = _
      push_cast; ring
    rw [h1, h2, Real.sin_pi_div_two]
    show _ = ((lightSpeed ^ 2 : ℚ) : ℝ) * ((6 / (5 * lightSpeed) : ℚ) : ℝ) ^ 2 * ((1 / ((3 : ℚ) : ℝ)) ^ 2 + (1 / ((4 : ℚ) : ℝ)) ^ 2)
    push_cast
    field_simp
    norm_num
  · rw [hw]; positivity
  · rw [hw]; linarith [Real.pi_pos]
  · intro a
    match a with
    | 0 => exact (by decide : 2 * |(2 : Int)| ≤ ((1 * 4 : ℕ) : Int))
    | 1 => exact (by decide : 2 * |(2 : Int)| ≤ ((1 * 4 : ℕ) : Int))

/-- 3D: E along y, of opposite sign in neighbouring cells along x, in two patches -/
def lightConf3 : Conf 3 := exConf 3 ![2, 1, 1] ![4, 4, 4]
def lightField3 : GF 3 := ⟨![fun _ => 0, fun v => if v 0 % 2 = 0 then 1 else -1, fun _ => 0], fun _ _ => 0, fun _ _ => 0⟩
def lightState3 : St 3 := ⟨fun _ => ⟨lightField3.e, fun _ _ => 0, fun _ _ => 0⟩, []⟩

theorem lightConf3_ok : Admissible lightConf3 1 :=
  exConf_ok (k := 3) (np := ![2, 1, 1]) (n := ![4, 4, 4]) (fun a => match a with | 0 => by decide | 1 => by decide | 2 => by decide)
    (fun a => match a with | 0 => by decide | 1 => by decide | 2 => by decide)

theorem lightField3_par {v w : Fin 3 → Int} (h : ∀ a, (v a - w a) % 2 = 0) (f : Fin 3) : lightField3.e f v = lightField3.e f w := by
  match f with
  | 0 => rfl
  | 1 =>
    have h0 := h 0
    show (if v 0 % 2 = 0 then (1 : ℚ) else -1) = if w 0 % 2 = 0 then 1 else -1
    by_cases hv : v 0 % 2 = 0
    · rw [if_pos hv, if_pos (by omega)]
    · rw [if_neg hv, if_neg (by omega)]
  | 2 => rfl

theorem light_starts3 : Starts lightConf3 (sys3 lightConf3).npatches lightConf3.coord3 1 lightState3 ⟨lightField3, []⟩ := by
  have hn : ∀ a, lightConf3.n a = 4 := fun a => match a with | 0 => rfl | 1 => rfl | 2 => rfl
  have hng : lightConf3.ng = 3 := rfl
  have key : ∀ t v a, (index lightConf3.n lightConf3.ng v a - onGrid lightConf3.n (lightConf3.coord3 t) v a) % 2 = 0 := by
    intro t v a
    unfold index wrapIx onGrid
    rw [hn, hng]
    split <;> omega
  refine ⟨⟨fun t _ f v _ => lightField3_par (key t v) f, fun t _ f v _ => rfl, fun _ _ _ _ _ => rfl, .nil⟩, ?_, ?_⟩
  · intro a ha; cases ha
  · intro v w h f
    have : ∀ a, (v a - w a) % 2 = 0 := by
      intro a
      have := (h a).sub_right (w a)
      rw [hn, sub_self] at this
      have h4 := Int.ModEq.dvd this
      obtain ⟨z, hz⟩ := h4
      have : v a - w a = 2 * (2 * (lightConf3.np a * -z)) := by push_cast at hz ⊢; linarith
      omega
    exact ⟨lightField3_par this f, rfl, rfl⟩

theorem light3 : OnlyLight3 lightConf3 lightState3 := by
  have hf := follows3.mpr ⟨light_starts3, by intro a ha; cases ha⟩
  refine ⟨rfl, fun t _ f v _ => rfl, fun t ht v hv => ?_, fun t ht v hv => ?_⟩
  · rw [(div_stored3 lightConf3_ok hf.rep ht hv).1]
    generalize globalCell lightConf3.n (lightConf3.place3.coord t) v = w
    have : dn 1 w 0 = w 0 := by simp [dn]
    show ((0 : ℚ) - 0) / 1 + ((if w 0 % 2 = 0 then 1 else -1) - if dn 1 w 0 % 2 = 0 then 1 else -1) / 1 + (0 - 0) / 1 = 0
    rw [this]; ring
  · rw [(div_stored3 lightConf3_ok hf.rep ht hv).2]
    show ((0 : ℚ) - 0) / 1 + (0 - 0) / 1 + (0 - 0) / 1 = 0
    norm_num

example : ∃ x : Nat → St 3, Starts lightConf3 (sys3 lightConf3).npatches lightConf3.coord3 1 (x 0) ⟨lightField3, []⟩ ∧
    Run (sys3 lightConf3) (fun _ _ => 0) x ∧ OnlyLight3 lightConf3 (x 0) ∧ storedE lightConf3 (x 0) 0 1 (fun _ => 0) ≠ 0 := by
  obtain ⟨x, e, r⟩ := runs3 lightConf3_ok light_starts3 (by intro a ha; cases ha) (fun _ _ => 0)
  refine ⟨x, e ▸ light_starts3, r, e ▸ light3, ?_⟩
  rw [e]
  show (if index lightConf3.n lightConf3.ng (fun _ => 0) 0 % 2 = 0 then (1 : ℚ) else -1) ≠ 0
  split <;> norm_num

end Verif.WholeRun
