import Mathlib.Data.Real.Sqrt
import Mathlib.Tactic.NormNum
import Verif.Proofs.Pusher
import Verif.Props.Deposit
/-!
# C22, C23, C24: field interpolation, Boris push, unified = split
-/
namespace Verif.PusherProps
open Verif.Shape Verif.Maxwell Verif.Deposit Verif.DepositProps Verif.Pusher
open Verif.SyncFields (wrapIx)
open Verif.Particles (F64)

/-! ## C22: interpolation -/

/-- what is stored for grid point `(m, n)`: negative numbers address the guard cells at the end of the array -/
def stored2 (gx gy : Grid1) (A : Arr 2) (m n : ℤ) : ℚ :=
  A ![if 0 ≤ m then m else m + gx.n, if 0 ≤ n then n else n + gy.n]

/-- the same in 3D -/
def stored3 (gx gy gz : Grid1) (A : Arr 3) (m n l : ℤ) : ℚ :=
  A ![if 0 ≤ m then m else m + gx.n, if 0 ≤ n then n else n + gy.n, if 0 ≤ l then l else l + gz.n]

/-- coordinate of a particle in cells -/
def cellCoord (g : Grid1) (x : ℚ) : ℚ := (x - g.x0) / g.d

/-- C22 in 2D. Each field component is the shape-weighted average of the stored values, each component sampled at its
own points of the Yee mesh: `ex` and `by` half a cell to the right in x, `ey` and `bx` half a cell up in y, `bz` both,
`ez` none. -/
theorem interp2_samples (gx gy : Grid1) (F : Fields 2) (x y : ℚ) :
    let X := cellCoord gx x
    let Y := cellCoord gy y
    let r := interp2 gx gy F x y
    r.ex = sample2 (1/2) 0 X Y (stored2 gx gy (F.e 0))
    ∧ r.ey = sample2 0 (1/2) X Y (stored2 gx gy (F.e 1))
    ∧ r.ez = sample2 0 0 X Y (stored2 gx gy (F.e 2))
    ∧ r.bx = sample2 0 (1/2) X Y (stored2 gx gy (F.b 0))
    ∧ r.by' = sample2 (1/2) 0 X Y (stored2 gx gy (F.b 1))
    ∧ r.bz = sample2 (1/2) (1/2) X Y (stored2 gx gy (F.b 2)) := by
  have hs : ∀ A : Arr 2, rdSafe2 gx.n gy.n A = stored2 gx gy A := fun A => rfl
  refine ⟨?_, ?_, ?_, ?_, ?_, ?_⟩
  · exact (if2_hg _ _ _).trans (by rw [hs]; rfl)
  · exact (if2_gh _ _ _).trans (by rw [hs]; rfl)
  · exact (if2_gg _ _ _).trans (by rw [hs]; rfl)
  · exact (if2_gh _ _ _).trans (by rw [hs]; rfl)
  · exact (if2_hg _ _ _).trans (by rw [hs]; rfl)
  · exact (if2_hh _ _ _).trans (by rw [hs]; rfl)

/-- C22 in 3D. -/
theorem interp3_samples (gx gy gz : Grid1) (F : Fields 3) (x y z : ℚ) :
    let X := cellCoord gx x
    let Y := cellCoord gy y
    let Z := cellCoord gz z
    let r := interp3 gx gy gz F x y z
    r.ex = sample3 (1/2) 0 0 X Y Z (stored3 gx gy gz (F.e 0))
    ∧ r.ey = sample3 0 (1/2) 0 X Y Z (stored3 gx gy gz (F.e 1))
    ∧ r.ez = sample3 0 0 (1/2) X Y Z (stored3 gx gy gz (F.e 2))
    ∧ r.bx = sample3 0 (1/2) (1/2) X Y Z (stored3 gx gy gz (F.b 0))
    ∧ r.by' = sample3 (1/2) 0 (1/2) X Y Z (stored3 gx gy gz (F.b 1))
    ∧ r.bz = sample3 (1/2) (1/2) 0 X Y Z (stored3 gx gy gz (F.b 2)) := by
  have hs : ∀ A : Arr 3, rdSafe3 gx.n gy.n gz.n A = stored3 gx gy gz A := fun A => rfl
  intro X Y Z r
  refine ⟨?_, ?_, ?_, ?_, ?_, ?_⟩
  · show interpField3 _ _ _ _ _ _ _ = _
    rw [interpField3_nest, if2_gg, if2_gg, if2_gg, hs]; unfold sample3; rw [sample_half]; rfl
  · show interpField3 _ _ _ _ _ _ _ = _
    rw [interpField3_nest, if2_hg, if2_hg, if2_hg, hs]; unfold sample3; rw [sample_node]; rfl
  · show interpField3 _ _ _ _ _ _ _ = _
    rw [interpField3_nest, if2_gh, if2_gh, if2_gh, hs]; unfold sample3; rw [sample_node]; rfl
  · show interpField3 _ _ _ _ _ _ _ = _
    rw [interpField3_nest, if2_hh, if2_hh, if2_hh, hs]; unfold sample3; rw [sample_node]; rfl
  · show interpField3 _ _ _ _ _ _ _ = _
    rw [interpField3_nest, if2_gh, if2_gh, if2_gh, hs]; unfold sample3; rw [sample_half]; rfl
  · show interpField3 _ _ _ _ _ _ _ = _
    rw [interpField3_nest, if2_hg, if2_hg, if2_hg, hs]; unfold sample3; rw [sample_half]; rfl

/-- C22. A sample of values between `lo` and `hi` lies between `lo` and `hi`, in any dimension. -/
theorem sample2_bounds (sx sy X Y lo hi : ℚ) (f : ℤ → ℤ → ℚ) (h : ∀ m n, lo ≤ f m n ∧ f m n ≤ hi) :
    lo ≤ sample2 sx sy X Y f ∧ sample2 sx sy X Y f ≤ hi := by
  constructor
  · calc lo = sample2 sx sy X Y (fun _ _ => lo) := by
          unfold sample2; rw [sample_const, sample_const]
      _ ≤ _ := sample_mono fun m => sample_mono fun n => (h m n).1
  · calc sample2 sx sy X Y f ≤ sample2 sx sy X Y (fun _ _ => hi) := sample_mono fun m => sample_mono fun n => (h m n).2
      _ = hi := by unfold sample2; rw [sample_const, sample_const]

theorem sample3_bounds (sx sy sz X Y Z lo hi : ℚ) (f : ℤ → ℤ → ℤ → ℚ) (h : ∀ m n l, lo ≤ f m n l ∧ f m n l ≤ hi) :
    lo ≤ sample3 sx sy sz X Y Z f ∧ sample3 sx sy sz X Y Z f ≤ hi := by
  constructor
  · calc lo = sample sx X (fun _ => lo) := (sample_const _ _ _).symm
      _ ≤ _ := sample_mono fun m => (sample2_bounds sy sz Y Z lo hi _ (h m)).1
  · calc sample3 sx sy sz X Y Z f ≤ sample sx X (fun _ => hi) :=
          sample_mono fun m => (sample2_bounds sy sz Y Z lo hi _ (h m)).2
      _ = hi := sample_const _ _ _

/-- the six values all lie in `[lo, hi]` -/
def AllIn (lo hi : ℚ) (r : EB) : Prop :=
  (lo ≤ r.ex ∧ r.ex ≤ hi) ∧ (lo ≤ r.ey ∧ r.ey ≤ hi) ∧ (lo ≤ r.ez ∧ r.ez ≤ hi)
  ∧ (lo ≤ r.bx ∧ r.bx ≤ hi) ∧ (lo ≤ r.by' ∧ r.by' ≤ hi) ∧ (lo ≤ r.bz ∧ r.bz ≤ hi)

/-- C22 in 2D. If every grid value lies in `[lo, hi]`, so does every value a particle sees; in particular a uniform
field is seen exactly (`lo = hi`). -/
theorem interp2_bounds (gx gy : Grid1) (F : Fields 2) (x y lo hi : ℚ)
    (he : ∀ d c, lo ≤ F.e d c ∧ F.e d c ≤ hi) (hb : ∀ d c, lo ≤ F.b d c ∧ F.b d c ≤ hi) :
    AllIn lo hi (interp2 gx gy F x y) ∧ AllIn lo hi (interp2Unified gx gy F x y) := by
  rw [interp2Unified_eq]
  have main : AllIn lo hi (interp2 gx gy F x y) := by
    obtain ⟨h1, h2, h3, h4, h5, h6⟩ := interp2_samples gx gy F x y
    unfold AllIn
    rw [h1, h2, h3, h4, h5, h6]
    refine ⟨?_, ?_, ?_, ?_, ?_, ?_⟩ <;> apply sample2_bounds <;> intro m n <;> first | exact he _ _ | exact hb _ _
  exact ⟨main, main⟩

theorem interp3_bounds (gx gy gz : Grid1) (F : Fields 3) (x y z lo hi : ℚ)
    (he : ∀ d c, lo ≤ F.e d c ∧ F.e d c ≤ hi) (hb : ∀ d c, lo ≤ F.b d c ∧ F.b d c ≤ hi) :
    AllIn lo hi (interp3 gx gy gz F x y z) ∧ AllIn lo hi (interp3Unified gx gy gz F x y z) := by
  rw [interp3Unified_eq]
  have main : AllIn lo hi (interp3 gx gy gz F x y z) := by
    obtain ⟨h1, h2, h3, h4, h5, h6⟩ := interp3_samples gx gy gz F x y z
    unfold AllIn
    rw [h1, h2, h3, h4, h5, h6]
    refine ⟨?_, ?_, ?_, ?_, ?_, ?_⟩ <;> apply sample3_bounds <;> intro m n l <;> first | exact he _ _ | exact hb _ _
  exact ⟨main, main⟩

/-- C22. Uniform fields, a different value for each component, are seen exactly. -/
theorem interp2_uniform (gx gy : Grid1) (e b : Fin 3 → ℚ) (j : Fin 3 → Arr 2) (x y : ℚ) :
    interp2 gx gy ⟨fun d _ => e d, fun d _ => b d, j⟩ x y = ⟨e 0, e 1, e 2, b 0, b 1, b 2⟩ := by
  obtain ⟨h1, h2, h3, h4, h5, h6⟩ := interp2_samples gx gy ⟨fun d _ => e d, fun d _ => b d, j⟩ x y
  have k : ∀ sx sy X Y a, sample2 sx sy X Y (stored2 gx gy (fun _ => a)) = a := by
    intro sx sy X Y a
    unfold sample2 stored2; rw [sample_const, sample_const]
  rw [k] at h1 h2 h3 h4 h5 h6
  generalize interp2 gx gy _ x y = r at *
  cases r
  simp only at h1 h2 h3 h4 h5 h6
  rw [h1, h2, h3, h4, h5, h6]

theorem interp3_uniform (gx gy gz : Grid1) (e b : Fin 3 → ℚ) (j : Fin 3 → Arr 3) (x y z : ℚ) :
    interp3 gx gy gz ⟨fun d _ => e d, fun d _ => b d, j⟩ x y z = ⟨e 0, e 1, e 2, b 0, b 1, b 2⟩ := by
  obtain ⟨h1, h2, h3, h4, h5, h6⟩ := interp3_samples gx gy gz ⟨fun d _ => e d, fun d _ => b d, j⟩ x y z
  have k : ∀ sx sy sz X Y Z a, sample3 sx sy sz X Y Z (stored3 gx gy gz (fun _ => a)) = a := by
    intro sx sy sz X Y Z a
    unfold sample3 sample2 stored3; rw [sample_const, sample_const, sample_const]
  rw [k] at h1 h2 h3 h4 h5 h6
  generalize interp3 gx gy gz _ x y z = r at *
  cases r
  simp only at h1 h2 h3 h4 h5 h6
  rw [h1, h2, h3, h4, h5, h6]

/-- C22. The optimised and the reference interpolation agree for every position, also for positions next to or in the
guard cells, for every grid size. -/
theorem interp_paths_agree2 (gx gy : Grid1) (F : Fields 2) (x y : ℚ) :
    interp2Unified gx gy F x y = interp2 gx gy F x y := interp2Unified_eq gx gy F x y

theorem interp_paths_agree3 (gx gy gz : Grid1) (F : Fields 3) (x y z : ℚ) :
    interp3Unified gx gy gz F x y z = interp3 gx gy gz F x y z := interp3Unified_eq gx gy gz F x y z

/-- an array position exists: guards of width `ng` on both sides of `n` cells, stored as `0 … n + 2 ng - 1` -/
def InArr (N : Nat) (i : ℤ) : Prop := 0 ≤ i ∧ i < N

theorem inArr_near {n ng : Nat} (hg : 2 ≤ ng) {X : ℚ} (h1 : -1 ≤ X) (h2 : X ≤ n) (s : ℚ) (hs : s = 0 ∨ s = 1/2) (m : ℤ)
    (a : ⌊X - s + 1/2⌋ - 1 ≤ m) (b : m ≤ ⌊X - s + 1/2⌋ + 1) :
    InArr (n + 2 * ng) (if 0 ≤ m then m else m + (n + 2 * ng : Nat)) := by
  have l : -1 ≤ ⌊X - s + 1/2⌋ := by
    apply Int.le_floor.mpr
    push_cast
    rcases hs with rfl | rfl <;> linarith
  have u : ⌊X - s + 1/2⌋ < n + 1 := by
    apply Int.floor_lt.mpr
    push_cast
    rcases hs with rfl | rfl <;> linarith
  unfold InArr
  split <;> constructor <;> push_cast <;> omega

/-- C22. A particle within one cell of the interior of its patch reads existing array elements only: with at least two
guard cells, fields that agree on the stored elements are seen alike. -/
theorem interp2_in_array (nx ny ng : Nat) (hg : 2 ≤ ng) (dx dy x0 y0 x y : ℚ) (F G : Fields 2)
    (hx1 : -1 ≤ (x - x0) / dx) (hx2 : (x - x0) / dx ≤ nx) (hy1 : -1 ≤ (y - y0) / dy) (hy2 : (y - y0) / dy ≤ ny)
    (h : ∀ (d : Fin 3) (c : Fin 2 → Int), InArr (nx + 2 * ng) (c 0) → InArr (ny + 2 * ng) (c 1) →
      F.e d c = G.e d c ∧ F.b d c = G.b d c) :
    interp2 ⟨nx + 2 * ng, dx, x0⟩ ⟨ny + 2 * ng, dy, y0⟩ F x y
      = interp2 ⟨nx + 2 * ng, dx, x0⟩ ⟨ny + 2 * ng, dy, y0⟩ G x y := by
  obtain ⟨a1, a2, a3, a4, a5, a6⟩ := interp2_samples ⟨nx + 2 * ng, dx, x0⟩ ⟨ny + 2 * ng, dy, y0⟩ F x y
  obtain ⟨b1, b2, b3, b4, b5, b6⟩ := interp2_samples ⟨nx + 2 * ng, dx, x0⟩ ⟨ny + 2 * ng, dy, y0⟩ G x y
  have k : ∀ (sx sy : ℚ) (A B : Arr 2), (sx = 0 ∨ sx = 1/2) → (sy = 0 ∨ sy = 1/2) →
      (∀ c : Fin 2 → Int, InArr (nx + 2 * ng) (c 0) → InArr (ny + 2 * ng) (c 1) → A c = B c) →
      sample2 sx sy (cellCoord ⟨nx + 2 * ng, dx, x0⟩ x) (cellCoord ⟨ny + 2 * ng, dy, y0⟩ y)
        (stored2 ⟨nx + 2 * ng, dx, x0⟩ ⟨ny + 2 * ng, dy, y0⟩ A)
      = sample2 sx sy (cellCoord ⟨nx + 2 * ng, dx, x0⟩ x) (cellCoord ⟨ny + 2 * ng, dy, y0⟩ y)
        (stored2 ⟨nx + 2 * ng, dx, x0⟩ ⟨ny + 2 * ng, dy, y0⟩ B) := by
    intro sx sy A B hsx hsy hAB
    apply sample_congr
    intro m m1 m2
    apply sample_congr
    intro n n1 n2
    exact hAB _ (inArr_near hg hx1 hx2 sx hsx m m1 m2) (inArr_near hg hy1 hy2 sy hsy n n1 n2)
  have he : ∀ (d : Fin 3) (c : Fin 2 → Int), InArr (nx + 2 * ng) (c 0) → InArr (ny + 2 * ng) (c 1) → F.e d c = G.e d c :=
    fun d c p q => (h d c p q).1
  have hb : ∀ (d : Fin 3) (c : Fin 2 → Int), InArr (nx + 2 * ng) (c 0) → InArr (ny + 2 * ng) (c 1) → F.b d c = G.b d c :=
    fun d c p q => (h d c p q).2
  rw [k _ _ _ (G.e 0) (by simp) (by simp) (he 0), ← b1] at a1
  rw [k _ _ _ (G.e 1) (by simp) (by simp) (he 1), ← b2] at a2
  rw [k _ _ _ (G.e 2) (by simp) (by simp) (he 2), ← b3] at a3
  rw [k _ _ _ (G.b 0) (by simp) (by simp) (hb 0), ← b4] at a4
  rw [k _ _ _ (G.b 1) (by simp) (by simp) (hb 1), ← b5] at a5
  rw [k _ _ _ (G.b 2) (by simp) (by simp) (hb 2), ← b6] at a6
  generalize interp2 _ _ F x y = r at *
  generalize interp2 _ _ G x y = r' at *
  cases r; cases r'
  simp only at a1 a2 a3 a4 a5 a6
  rw [a1, a2, a3, a4, a5, a6]

/-- linear fields are seen exactly: what a particle sees of `a + b·x + c·y` is its value at the particle -/
theorem sample2_linear (sx sy X Y a b c : ℚ) :
    sample2 sx sy X Y (fun m n => a + b * (m + sx) + c * (n + sy)) = a + b * X + c * Y := by
  unfold sample2
  have e : (fun m : ℤ => sample sy Y fun n => a + b * (m + sx) + c * (n + sy)) = fun m : ℤ => (a + c * Y) + b * (m + sx) := by
    funext m
    rw [sample_affine sy Y (a + b * (m + sx)) c]; ring
  rw [e, sample_affine]; ring

/-- the hypotheses of `interp2_in_array` hold for a particle in the middle of a cell of an 8 × 8 patch -/
example : (-1 : ℚ) ≤ (7/2 - 0) / 1 ∧ ((7/2 - 0) / 1 : ℚ) ≤ (8 : Nat) := by norm_num
/-- a non-uniform field bounded by 0 and 1 -/
example : ∃ F : Fields 2, (∀ d c, 0 ≤ F.e d c ∧ F.e d c ≤ 1) ∧ (∀ d c, 0 ≤ F.b d c ∧ F.b d c ≤ 1)
    ∧ F.e 0 ![1, 0] ≠ F.e 0 ![0, 0] := by
  refine ⟨⟨fun _ c => if c 0 = 0 then 0 else 1, fun _ c => if c 0 = 0 then 0 else 1, fun _ _ => 0⟩, ?_, ?_, ?_⟩
  · intro d c; dsimp only; split <;> norm_num
  · intro d c; dsimp only; split <;> norm_num
  · simp

/-! ## C23: the Boris push over the reals -/

/-- `1 / sqrt(x)` -/
noncomputable def invSqrt (x : ℝ) : ℝ := 1 / Real.sqrt x

/-- square of the momentum -/
def usq (p : Mo ℝ) : ℝ := p.ux ^ 2 + p.uy ^ 2 + p.uz ^ 2

/-- the magnetic rotation of one component triple -/
noncomputable def rot (a b c Tx Ty Tz : ℝ) : ℝ :=
  let S := 2 / (1 + Tx * Tx + Ty * Ty + Tz * Tz)
  a + (b + c * Tx - a * Tz) * (S * Tz) - (c + a * Ty - b * Tx) * (S * Ty)

theorem rot_norm (a b c Tx Ty Tz : ℝ) :
    rot a b c Tx Ty Tz ^ 2 + rot b c a Ty Tz Tx ^ 2 + rot c a b Tz Tx Ty ^ 2 = a ^ 2 + b ^ 2 + c ^ 2 := by
  have h : (1 + Tx * Tx + Ty * Ty + Tz * Tz) ≠ 0 := by
    have := mul_self_nonneg Tx; have := mul_self_nonneg Ty; have := mul_self_nonneg Tz; linarith
  have h2 : (1 + Ty * Ty + Tz * Tz + Tx * Tx) = 1 + Tx * Tx + Ty * Ty + Tz * Tz := by ring
  have h3 : (1 + Tz * Tz + Tx * Tx + Ty * Ty) = 1 + Tx * Tx + Ty * Ty + Tz * Tz := by ring
  unfold rot
  dsimp only
  rw [h2, h3]
  field_simp
  ring

theorem rot_inv (a b c Tx Ty Tz : ℝ) :
    rot (rot a b c Tx Ty Tz) (rot b c a Ty Tz Tx) (rot c a b Tz Tx Ty) (-Tx) (-Ty) (-Tz) = a := by
  have h : (1 + Tx * Tx + Ty * Ty + Tz * Tz) ≠ 0 := by
    have := mul_self_nonneg Tx; have := mul_self_nonneg Ty; have := mul_self_nonneg Tz; linarith
  have h2 : (1 + Ty * Ty + Tz * Tz + Tx * Tx) = 1 + Tx * Tx + Ty * Ty + Tz * Tz := by ring
  have h3 : (1 + Tz * Tz + Tx * Tx + Ty * Ty) = 1 + Tx * Tx + Ty * Ty + Tz * Tz := by ring
  have h4 : (1 + -Tx * -Tx + -Ty * -Ty + -Tz * -Tz) = 1 + Tx * Tx + Ty * Ty + Tz * Tz := by ring
  unfold rot
  dsimp only
  rw [h4, h2, h3]
  field_simp
  ring

theorem borisC_eq (rs : ℝ → ℝ) (e b : ℝ) (f : FieldsAt ℝ) (p : Mo ℝ) :
    let ax := p.ux + e * f.ex
    let ay := p.uy + e * f.ey
    let az := p.uz + e * f.ez
    let g := rs (1 + ax * ax + ay * ay + az * az)
    let Tx := b * f.bx * g
    let Ty := b * f.by' * g
    let Tz := b * f.bz * g
    let r := borisC rs e b f p
    r.ux = rot ax ay az Tx Ty Tz + e * f.ex ∧ r.uy = rot ay az ax Ty Tz Tx + e * f.ey
      ∧ r.uz = rot az ax ay Tz Tx Ty + e * f.ez
      ∧ r.ig = rs (1 + r.ux * r.ux + r.uy * r.uy + r.uz * r.uz) := by
  intro ax ay az g Tx Ty Tz r
  have h2 : (1 + Ty * Ty + Tz * Tz + Tx * Tx) = 1 + Tx * Tx + Ty * Ty + Tz * Tz := by ring
  have h3 : (1 + Tz * Tz + Tx * Tx + Ty * Ty) = 1 + Tx * Tx + Ty * Ty + Tz * Tz := by ring
  refine ⟨rfl, ?_, ?_, rfl⟩
  · unfold rot; dsimp only; rw [h2]; rfl
  · unfold rot; dsimp only; rw [h3]; rfl

/-- C23. Without electric field the push keeps the magnitude of the momentum, whatever the magnetic field. -/
theorem boris_keeps_momentum (c q m dt bx by' bz : ℝ) (p : Mo ℝ) :
    usq (borisPy invSqrt c q m dt ⟨0, 0, 0, bx, by', bz⟩ p) = usq p := by
  rw [borisPy_eq]
  obtain ⟨h1, h2, h3, -⟩ := borisC_eq invSqrt (q * dt / (2 * m * c)) (q * dt / (2 * m)) ⟨0, 0, 0, bx, by', bz⟩ p
  unfold usq borisUnified
  rw [h1, h2, h3]
  simp only [mul_zero, add_zero]
  exact rot_norm _ _ _ _ _ _

/-- C23. The stored inverse Lorentz factor belongs to the stored momentum. -/
theorem boris_inv_gamma (c q m dt : ℝ) (f : FieldsAt ℝ) (p : Mo ℝ) :
    let r := borisPy invSqrt c q m dt f p
    r.ig ^ 2 * (1 + usq r) = 1 ∧ 0 < r.ig ∧ r.ig ≤ 1 := by
  intro r
  have e : r = borisUnified invSqrt c q m dt f p := borisPy_eq _ _ _ _ _ _ _
  have h4 : r.ig = invSqrt (1 + r.ux * r.ux + r.uy * r.uy + r.uz * r.uz) := by
    rw [e]; rfl
  have e2 : 1 + r.ux * r.ux + r.uy * r.uy + r.uz * r.uz = 1 + usq r := by unfold usq; ring
  rw [e2] at h4
  have hp : 1 ≤ 1 + usq r := by unfold usq; have := sq_nonneg r.ux; have := sq_nonneg r.uy; have := sq_nonneg r.uz; linarith
  have hs : 1 ≤ Real.sqrt (1 + usq r) := Real.one_le_sqrt.mpr hp
  have hsq : Real.sqrt (1 + usq r) ^ 2 = 1 + usq r := Real.sq_sqrt (by linarith)
  refine ⟨?_, ?_, ?_⟩
  · rw [h4]; unfold invSqrt
    rw [div_pow, one_pow, hsq]
    exact one_div_mul_cancel (by linarith)
  · rw [h4]; unfold invSqrt; positivity
  · rw [h4]; unfold invSqrt
    rw [div_le_one (by linarith)]; exact hs

/-- Particles stay slower than light: the velocity components used by the position push and the deposition satisfy
`|v|² < c²`. -/
theorem boris_subluminal (c q m dt : ℝ) (hc : c ≠ 0) (f : FieldsAt ℝ) (p : Mo ℝ) :
    let r := borisPy invSqrt c q m dt f p
    (r.ux * c * r.ig) ^ 2 + (r.uy * c * r.ig) ^ 2 + (r.uz * c * r.ig) ^ 2 < c ^ 2 := by
  intro r
  obtain ⟨h, hp, -⟩ := boris_inv_gamma c q m dt f p
  have e : (r.ux * c * r.ig) ^ 2 + (r.uy * c * r.ig) ^ 2 + (r.uz * c * r.ig) ^ 2 = c ^ 2 * (r.ig ^ 2 * usq r) := by
    unfold usq; ring
  rw [e]
  have h1 : r.ig ^ 2 * usq r = 1 - r.ig ^ 2 := by linear_combination h
  rw [h1]
  have : 0 < c ^ 2 := by positivity
  have : 0 < r.ig ^ 2 := by have : 0 < r.ig := hp; positivity
  nlinarith

/-- C23. A push with `dt` followed by a push with `-dt` in the same fields restores the momentum. -/
theorem boris_reversible (c q m dt : ℝ) (f : FieldsAt ℝ) (p : Mo ℝ) :
    let r := borisPy invSqrt c q m (-dt) f (borisPy invSqrt c q m dt f p)
    r.ux = p.ux ∧ r.uy = p.uy ∧ r.uz = p.uz := by
  rw [borisPy_eq, borisPy_eq]
  unfold borisUnified
  have ee : q * -dt / (2 * m * c) = -(q * dt / (2 * m * c)) := by ring
  have eb : q * -dt / (2 * m) = -(q * dt / (2 * m)) := by ring
  rw [ee, eb]
  generalize q * dt / (2 * m * c) = e
  generalize q * dt / (2 * m) = b
  obtain ⟨h1, h2, h3, -⟩ := borisC_eq invSqrt e b f p
  generalize hr : borisC invSqrt e b f p = r at *
  obtain ⟨k1, k2, k3, -⟩ := borisC_eq invSqrt (-e) (-b) f r
  dsimp only at h1 h2 h3 k1 k2 k3 ⊢
  have m1 : r.ux + -e * f.ex = r.ux - e * f.ex := by ring
  have m2 : r.uy + -e * f.ey = r.uy - e * f.ey := by ring
  have m3 : r.uz + -e * f.ez = r.uz - e * f.ez := by ring
  rw [m1, m2, m3] at k1 k2 k3
  generalize hg : invSqrt (1 + (p.ux + e * f.ex) * (p.ux + e * f.ex) + (p.uy + e * f.ey) * (p.uy + e * f.ey)
      + (p.uz + e * f.ez) * (p.uz + e * f.ez)) = g at *
  have n1 : r.ux - e * f.ex = rot (p.ux + e * f.ex) (p.uy + e * f.ey) (p.uz + e * f.ez) (b * f.bx * g) (b * f.by' * g) (b * f.bz * g) := by
    rw [h1]; ring
  have n2 : r.uy - e * f.ey = rot (p.uy + e * f.ey) (p.uz + e * f.ez) (p.ux + e * f.ex) (b * f.by' * g) (b * f.bz * g) (b * f.bx * g) := by
    rw [h2]; ring
  have n3 : r.uz - e * f.ez = rot (p.uz + e * f.ez) (p.ux + e * f.ex) (p.uy + e * f.ey) (b * f.bz * g) (b * f.bx * g) (b * f.by' * g) := by
    rw [h3]; ring
  have hsame : invSqrt (1 + (r.ux - e * f.ex) * (r.ux - e * f.ex) + (r.uy - e * f.ey) * (r.uy - e * f.ey)
      + (r.uz - e * f.ez) * (r.uz - e * f.ez)) = g := by
    rw [← hg]
    congr 1
    have := rot_norm (p.ux + e * f.ex) (p.uy + e * f.ey) (p.uz + e * f.ez) (b * f.bx * g) (b * f.by' * g) (b * f.bz * g)
    rw [← n1, ← n2, ← n3] at this
    linear_combination this
  rw [hsame] at k1 k2 k3
  have t1 : -b * f.bx * g = -(b * f.bx * g) := by ring
  have t2 : -b * f.by' * g = -(b * f.by' * g) := by ring
  have t3 : -b * f.bz * g = -(b * f.bz * g) := by ring
  rw [t1, t2, t3, n1, n2, n3] at k1 k2 k3
  rw [rot_inv] at k1 k2 k3
  refine ⟨?_, ?_, ?_⟩
  · rw [k1]; ring
  · rw [k2]; ring
  · rw [k3]; ring

/-- Without magnetic field the push adds `q E dt / (m c)` to the momentum. -/
theorem boris_electric (c q m dt ex ey ez : ℝ) (p : Mo ℝ) :
    let r := borisPy invSqrt c q m dt ⟨ex, ey, ez, 0, 0, 0⟩ p
    r.ux = p.ux + q * dt / (m * c) * ex ∧ r.uy = p.uy + q * dt / (m * c) * ey ∧ r.uz = p.uz + q * dt / (m * c) * ez := by
  rw [borisPy_eq]
  unfold borisUnified
  have e : q * dt / (m * c) = 2 * (q * dt / (2 * m * c)) := by
    rw [mul_assoc 2 m c, ← mul_div_assoc, mul_div_mul_left _ _ (two_ne_zero)]
  rw [e]
  obtain ⟨h1, h2, h3, -⟩ := borisC_eq invSqrt (q * dt / (2 * m * c)) (q * dt / (2 * m)) ⟨ex, ey, ez, 0, 0, 0⟩ p
  dsimp only at h1 h2 h3 ⊢
  rw [h1, h2, h3]
  unfold rot
  simp only [mul_zero, zero_mul, add_zero, sub_zero]
  refine ⟨?_, ?_, ?_⟩ <;> ring

/-- The push in the C kernel is the same function. -/
theorem boris_same (c q m dt : ℝ) (f : FieldsAt ℝ) (p : Mo ℝ) :
    borisUnified invSqrt c q m dt f p = borisPy invSqrt c q m dt f p := (borisPy_eq _ _ _ _ _ _ _).symm

/-! ## C24: unified = split -/

/-- every living particle of every patch has numeric coordinates -/
def LivingHavePositions {k : Nat} (Ps : List (PatchSt k)) : Prop :=
  ∀ P ∈ Ps, ∀ s ∈ P.parts, s.dead = false → ∀ i, s.pos i ≠ .nan

theorem split_patch_eq {k : Nat} (K K' : Kern k) (bor : FieldsAt ℚ → Mo ℚ → Mo ℚ) (cdt : ℚ) (size : Nat) (hsize : size ≠ 0)
    (ps : List (Slot k)) (acc : Acc k) (hn : ∀ s ∈ ps, s.dead = false → ∀ i, s.pos i ≠ .nan)
    (hi : K.interp = K'.interp)
    (hd : ∀ s ∈ ps, s.dead = false → ∀ v, nums (advance K bor cdt s).pos = some v →
      ∀ acc, K.dep v (advance K bor cdt s).mom acc = K'.dep v (advance K bor cdt s).mom acc) :
    let r := ((ps.map (skipDead (pushPos cdt))).map (skipDeadNan (storeInterp K'))).map (skipDead (storeMom bor))
    let r := r.map (skipDead (pushPos cdt))
    unifiedPatch K bor cdt size ps acc = (r, splitDeposit K' r acc) := by
  intro r r2
  have hadv : advance K bor cdt = advance K' bor cdt := by
    funext s
    unfold advance storeInterp
    rw [hi]
  have e : r2 = ps.map (skipDeadNan (advance K bor cdt)) := by
    show (((ps.map _).map _).map _).map _ = _
    rw [List.map_map, List.map_map, List.map_map]
    apply List.map_congr_left
    intro s hs
    rw [hadv]
    exact split_slot K' bor cdt s (fun h => nums_ne_none (hn s hs h))
  rw [unifiedPatch_eq K bor cdt size hsize, e]
  congr 1
  clear e
  unfold splitDeposit
  show List.foldl (depChecked K) acc _ = List.foldl (depChecked K') acc _
  clear_value r2 r
  induction ps generalizing acc with
  | nil => rfl
  | cons s ps ih =>
    rw [List.map_cons, List.foldl_cons, List.foldl_cons]
    have e1 : depChecked K acc (skipDeadNan (advance K bor cdt) s) = depChecked K' acc (skipDeadNan (advance K bor cdt) s) := by
      unfold depChecked
      by_cases h1 : (skipDeadNan (advance K bor cdt) s).dead = true
      · rw [if_pos h1, if_pos h1]
      · rw [if_neg h1, if_neg h1]
        by_cases h2 : nums (skipDeadNan (advance K bor cdt) s).pos = none
        · rw [if_pos h2, if_pos h2]
        · rw [if_neg h2, if_neg h2]
          have hsd : s.dead = false := by
            by_contra hc
            have hc : s.dead = true := by simpa using hc
            apply h1
            unfold skipDeadNan
            rw [if_pos hc]; exact hc
          have hsn := nums_ne_none (hn s List.mem_cons_self hsd)
          have e2 : skipDeadNan (advance K bor cdt) s = advance K bor cdt s := by
            unfold skipDeadNan
            rw [if_neg (by rw [hsd]; decide), if_neg hsn]
          rw [e2] at h2 ⊢
          obtain ⟨v, hv⟩ := Option.ne_none_iff_exists'.mp h2
          unfold depOne
          rw [hv]
          exact hd s List.mem_cons_self hsd v hv acc
    rw [e1]
    exact ih _ (fun t ht => hn t (List.mem_cons_of_mem _ ht)) (fun t ht => hd t (List.mem_cons_of_mem _ ht))

/-- C24 in 2D. The unified pusher and the split sequence leave the same particles and the same currents in every patch,
for any number of particles, any pattern of dead slots, any fields. `rs` stands for `1 / sqrt`. -/
theorem unified_eq_split2 (rs : ℚ → ℚ) (R : RunPar 2) (hx : R.d 0 ≠ 0) (hy : R.d 1 ≠ 0) (hdt : R.dt ≠ 0)
    (Ps : List (PatchSt 2)) (h : LivingHavePositions Ps) : unified2 rs R Ps = split2 rs R Ps := by
  unfold unified2 split2 split
  simp only [List.map_map]
  apply List.map_congr_left
  intro P hP
  have hc : lightSpeed * (1 / 2) * R.dt = lightSpeed * (1 / 2 * R.dt) := by ring
  have hb : borisPy rs lightSpeed R.q R.m R.dt = borisUnified rs lightSpeed R.q R.m R.dt := by
    funext f p; exact borisPy_eq _ _ _ _ _ _ _
  have := split_patch_eq (kern2U (R.grid P 0) (R.grid P 1) P.fields R.q R.dt)
    (kern2S (R.grid P 0) (R.grid P 1) P.fields R.q R.dt) (borisUnified rs lightSpeed R.q R.m R.dt)
    (lightSpeed * (1 / 2) * R.dt) stripSize (by decide) P.parts P.acc (h P hP)
    (by funext v; exact interp2Unified_eq _ _ _ _ _)
    (by intro s hs hd v hv acc; exact fast_eq_ref2 _ _ hx hy _ _ _ _ hdt _ _)
  dsimp only at this ⊢
  rw [this, hb]
  show _ = PatchSt.mk _ _ _ _
  simp only [splitPush, splitInterp, splitBoris, if_true, Function.comp]
  rw [hc]
  rfl

/-- C24 in 2D, as the user sees it: whether a callback forces the split path changes nothing. -/
theorem callback_does_not_change_push2 (u u' : Bool) (rs : ℚ → ℚ) (R : RunPar 2) (hx : R.d 0 ≠ 0) (hy : R.d 1 ≠ 0)
    (hdt : R.dt ≠ 0) (Ps : List (PatchSt 2)) (h : LivingHavePositions Ps) :
    pushSpecies2 u rs R Ps = pushSpecies2 u' rs R Ps := by
  have key := unified_eq_split2 rs R hx hy hdt Ps h
  cases u <;> cases u' <;> simp only [pushSpecies2, if_true, if_false, Bool.false_eq_true, key]

/-- In 3D the split path never moves a particle. -/
theorem split3_frozen (rs : ℚ → ℚ) (R : RunPar 3) (Ps : List (PatchSt 3)) :
    (split3 rs R Ps).map (fun P => P.parts.map fun s => s.pos) = Ps.map fun P => P.parts.map fun s => s.pos := by
  unfold split3 split
  simp only [List.map_map]
  apply List.map_congr_left
  intro P hP
  have e32 : ¬ ((3 : Nat) = 2) := by decide
  show List.map (fun s => s.pos) (splitPush (1 / 2 * R.dt) (splitBoris _ (splitInterp _ (splitPush (1 / 2 * R.dt) P.parts)))) = _
  unfold splitPush
  rw [if_neg e32, if_neg e32]
  unfold splitBoris splitInterp
  rw [List.map_map, List.map_map]
  apply List.map_congr_left
  intro s hs
  show (skipDead (storeMom _) (skipDeadNan (storeInterp _) s)).pos = s.pos
  have a : ∀ (K : Kern 3) (s : Slot 3), (skipDeadNan (storeInterp K) s).pos = s.pos := by
    intro K s
    unfold skipDeadNan
    split
    · rfl
    · split
      · rfl
      · exact (storeInterp_pos K s).1
  have b : ∀ (bor : FieldsAt ℚ → Mo ℚ → Mo ℚ) (s : Slot 3), (skipDead (storeMom bor) s).pos = s.pos := by
    intro bor s
    unfold skipDead
    split <;> rfl
  rw [b, a]

/-- one uncharged particle moving along x -/
def mover : Slot 3 := ⟨fun _ => .val 0, ⟨1, 0, 0, 1, 1⟩, ⟨0, 0, 0, 0, 0, 0⟩, false⟩
/-- a patch with one particle and no fields -/
def moverPatch : PatchSt 3 :=
  ⟨[mover], ⟨fun _ _ => 0, fun _ _ => 0, fun _ _ => 0⟩, ⟨fun _ => 0, fun _ => 0, fun _ => 0, fun _ => 0⟩, fun _ => 0⟩
/-- an 8 × 8 × 8 grid -/
def moverRun : RunPar 3 := ⟨fun _ => 8, fun _ => 1, 0, 1, 1 / 599584916⟩

/-- C24 fails in 3D: the same state, once with and once without a callback that forces the split path, ends in
different positions. -/
theorem callback_does_not_change_push3_fails :
    ∃ (rs : ℚ → ℚ) (R : RunPar 3) (Ps : List (PatchSt 3)), (∀ i, 0 < R.d i) ∧ 0 < R.dt ∧ LivingHavePositions Ps
      ∧ pushSpecies3 true rs R Ps ≠ pushSpecies3 false rs R Ps := by
  refine ⟨fun _ => 1, moverRun, [moverPatch], fun i => by unfold moverRun; norm_num, by unfold moverRun; norm_num, ?_, ?_⟩
  · intro P hP s hs hd i
    rw [List.mem_singleton.mp hP] at hs
    have hs : s ∈ [mover] := hs
    rw [List.mem_singleton.mp hs]
    simp [mover]
  · intro heq
    have h1 := congrArg (List.map (fun P : PatchSt 3 => P.parts.map fun s => s.pos)) heq
    have h2 : List.map (fun P : PatchSt 3 => P.parts.map fun s => s.pos) (pushSpecies3 false (fun _ => 1) moverRun [moverPatch])
        = [[fun _ => F64.val 0]] := split3_frozen _ _ _
    rw [h2] at h1
    unfold pushSpecies3 unified3 at h1
    rw [if_pos rfl] at h1
    rw [List.map_cons, List.map_nil, List.map_cons, List.map_nil] at h1
    rw [unifiedPatch_eq _ _ _ _ (by decide)] at h1
    simp only [List.cons.injEq, and_true] at h1
    have h3 : [skipDeadNan (advance (kern3U (moverRun.grid moverPatch 0) (moverRun.grid moverPatch 1) (moverRun.grid moverPatch 2)
        moverPatch.fields moverRun.q moverRun.dt) (borisUnified (fun _ => 1) lightSpeed moverRun.q moverRun.m moverRun.dt)
        (lightSpeed * (1 / 2) * moverRun.dt)) mover].map (fun s => s.pos) = [fun _ => F64.val 0] := h1
    rw [List.map_cons, List.map_nil] at h3
    injection h3 with h3
    have hm : nums mover.pos ≠ none := nums_ne_none (fun i => by simp [mover])
    unfold skipDeadNan at h3
    rw [if_neg (by decide), if_neg hm] at h3
    have h4 := congrFun h3 0
    unfold advance at h4
    obtain ⟨p1, -, p3⟩ := storeInterp_pos (kern3U (moverRun.grid moverPatch 0) (moverRun.grid moverPatch 1)
      (moverRun.grid moverPatch 2) moverPatch.fields moverRun.q moverRun.dt)
      (pushPos (lightSpeed * (1 / 2) * moverRun.dt) mover)
    generalize storeInterp _ _ = t at p1 p3 h4
    have h5 : bump (t.pos 0) (lightSpeed * (1 / 2) * moverRun.dt
        * (storeMom (borisUnified (fun x => 1) lightSpeed moverRun.q moverRun.m moverRun.dt) t).mom.invGamma
        * (storeMom (borisUnified (fun x => 1) lightSpeed moverRun.q moverRun.m moverRun.dt) t).mom.ux) = F64.val 0 := h4
    rw [p1] at h5
    have h6 : (storeMom (borisUnified (fun x => 1) lightSpeed moverRun.q moverRun.m moverRun.dt) t).mom.ux = 1 := by
      simp only [storeMom, borisUnified, borisC, moverRun, p3]
      simp [pushPos, mover]
    have h7 : (storeMom (borisUnified (fun x => 1) lightSpeed moverRun.q moverRun.m moverRun.dt) t).mom.invGamma = 1 := rfl
    rw [h6, h7] at h5
    simp only [pushPos, bump, uAt, mover, moverRun, lightSpeed] at h5
    norm_num at h5

/-- the split sequence with a position push that works in every dimension (this is not what the code does in 3D) -/
def splitMoving {k : Nat} (kern : PatchSt k → Kern k) (rs : ℚ → ℚ) (R : RunPar k) (Ps : List (PatchSt k)) :
    List (PatchSt k) :=
  let push := fun (P : PatchSt k) => { P with parts := P.parts.map (skipDead (pushPos (lightSpeed * (1 / 2 * R.dt)))) }
  let Ps := Ps.map push
  let Ps := Ps.map fun P => { P with parts := splitInterp (kern P) P.parts }
  let Ps := Ps.map fun P => { P with parts := splitBoris (borisPy rs lightSpeed R.q R.m R.dt) P.parts }
  let Ps := Ps.map push
  Ps.map fun P => { P with acc := splitDeposit (kern P) P.parts P.acc }

/-- what a living 3D particle must satisfy at the end of the push for the deposition to stay in its arrays: it crosses at
most one cell per axis and its stencil fits -/
def Depositable (R : RunPar 3) (P : PatchSt 3) (v : Fin 3 → ℚ) (p : Mom) : Prop :=
  (|p.vx * R.dt| ≤ R.d 0 ∧ |p.vy * R.dt| ≤ R.d 1 ∧ |p.vz * R.dt| ≤ R.d 2)
  ∧ Fits (R.grid P 0) (v 0) p.vx R.dt ∧ Fits (R.grid P 1) (v 1) p.vy R.dt ∧ Fits (R.grid P 2) (v 2) p.vz R.dt

/-- C24 in 3D, up to the missing position push: the unified 3D pusher is the split sequence *with* the position push that
`push_position` leaves out in 3D. Missing for the full property: the code's own split sequence does not move particles in
3D (`split3_frozen`, `callback_does_not_change_push3_fails`). -/
theorem unified_eq_split3_partial (rs : ℚ → ℚ) (R : RunPar 3) (hd : ∀ i, 0 < R.d i) (hn : ∀ i, 2 ≤ R.n i) (hdt : R.dt ≠ 0)
    (Ps : List (PatchSt 3)) (h : LivingHavePositions Ps)
    (hfit : ∀ P ∈ unified3 rs R Ps, ∀ s ∈ P.parts, s.dead = false → ∀ v, s.pos = (fun i => .val (v i)) →
      Depositable R P v s.mom) :
    unified3 rs R Ps
      = splitMoving (fun P => kern3S (R.grid P 0) (R.grid P 1) (R.grid P 2) P.fields R.q R.dt) rs R Ps := by
  unfold unified3 splitMoving at *
  simp only [List.map_map]
  apply List.map_congr_left
  intro P hP
  have hc : lightSpeed * (1 / 2) * R.dt = lightSpeed * (1 / 2 * R.dt) := by ring
  have hb : borisPy rs lightSpeed R.q R.m R.dt = borisUnified rs lightSpeed R.q R.m R.dt := by
    funext f p; exact borisPy_eq _ _ _ _ _ _ _
  have hfP := hfit _ (List.mem_map.mpr ⟨P, hP, rfl⟩)
  rw [unifiedPatch_eq _ _ _ _ (by decide)] at hfP
  have := split_patch_eq (kern3U (R.grid P 0) (R.grid P 1) (R.grid P 2) P.fields R.q R.dt)
    (kern3S (R.grid P 0) (R.grid P 1) (R.grid P 2) P.fields R.q R.dt) (borisUnified rs lightSpeed R.q R.m R.dt)
    (lightSpeed * (1 / 2) * R.dt) stripSize (by decide) P.parts P.acc (h P hP)
    (by funext v; exact interp3Unified_eq _ _ _ _ _ _ _)
    (by
      intro s hs hsd v hv acc
      have hsn := nums_ne_none (h P hP s hs hsd)
      have e2 : skipDeadNan (advance (kern3U (R.grid P 0) (R.grid P 1) (R.grid P 2) P.fields R.q R.dt)
          (borisUnified rs lightSpeed R.q R.m R.dt) (lightSpeed * (1 / 2) * R.dt)) s
          = advance (kern3U (R.grid P 0) (R.grid P 1) (R.grid P 2) P.fields R.q R.dt)
          (borisUnified rs lightSpeed R.q R.m R.dt) (lightSpeed * (1 / 2) * R.dt) s := by
        unfold skipDeadNan
        rw [if_neg (by rw [hsd]; decide), if_neg hsn]
      have hmem := hfP _ (List.mem_map.mpr ⟨s, hs, e2⟩) ((advance_dead _ _ _ s).trans hsd) v
        (by funext i; exact nums_eq_some hv i)
      obtain ⟨⟨c1, c2, c3⟩, f1, f2, f3⟩ := hmem
      exact fast_eq_ref3 _ _ _ ⟨by have := hn 0; show 0 < R.n 0; omega, hd 0⟩ ⟨by have := hn 1; show 0 < R.n 1; omega, hd 1⟩
        ⟨by have := hn 2; show 0 < R.n 2; omega, hd 2⟩ (hn 0) (hn 1) (hn 2) _ _ _ _ _ hdt _ c1 c2 c3 f1 f2 f3 _)
  dsimp only at this ⊢
  rw [this, hb]
  show _ = PatchSt.mk _ _ _ _
  simp only [splitInterp, splitBoris, Function.comp]
  rw [hc]
  rfl

/-- a state that meets the hypotheses of `unified_eq_split2`: a living particle, a dead slot with NaN coordinates -/
example : ∃ Ps : List (PatchSt 2), LivingHavePositions Ps ∧ ∃ P ∈ Ps, P.parts.length = 2 := by
  refine ⟨[⟨[⟨fun _ => .val 3, ⟨1, 2, 3, 1/4, 1⟩, ⟨0, 0, 0, 0, 0, 0⟩, false⟩,
      ⟨fun _ => .nan, ⟨0, 0, 0, 1, 0⟩, ⟨0, 0, 0, 0, 0, 0⟩, true⟩],
    ⟨fun _ _ => 1, fun _ _ => 2, fun _ _ => 0⟩, ⟨fun _ => 0, fun _ => 0, fun _ => 0, fun _ => 0⟩, fun _ => 0⟩], ?_,
    _, List.mem_singleton.mpr rfl, rfl⟩
  intro P hP s hs hd i
  rw [List.mem_singleton.mp hP] at hs
  simp only [List.mem_cons, List.not_mem_nil, or_false] at hs
  rcases hs with rfl | rfl
  · simp
  · simp at hd

end Verif.PusherProps
