import Mathlib.Tactic.LinearCombination
import Verif.Proofs.Deposit
/-!
# Properties of the current deposition (C18 - C21)

The specification uses only `Verif.Shape.shape` / `lineWeight` (the particle shape on a periodic array) and the
quantities a user knows: cell sizes, position, velocity, charge, weight, time step.
-/
namespace Verif.DepositProps
open Verif.Deposit Verif.Maxwell Finset
open Verif.Particles (F64)
open Verif.Shape (lineWeight shape)

/-! ## Specification -/

/-- charge density of one macro particle at `(x, y)` in array entry `c` -/
noncomputable def density2 (gx gy : Grid1) (q w x y : ℚ) (c : Fin 2 → Int) : ℚ :=
  q * w / (gx.d * gy.d) * (lineWeight gx.n ((x - gx.x0) / gx.d) (c 0) * lineWeight gy.n ((y - gy.x0) / gy.d) (c 1))

/-- charge density of one macro particle at `(x, y, z)` in array entry `c` -/
noncomputable def density3 (gx gy gz : Grid1) (q w x y z : ℚ) (c : Fin 3 → Int) : ℚ :=
  q * w / (gx.d * gy.d * gz.d) * (lineWeight gx.n ((x - gx.x0) / gx.d) (c 0)
    * lineWeight gy.n ((y - gy.x0) / gy.d) (c 1) * lineWeight gz.n ((z - gz.x0) / gz.d) (c 2))

/-- entry `c` lies in the array -/
def InArr2 (gx gy : Grid1) (c : Fin 2 → Int) : Prop := 0 ≤ c 0 ∧ c 0 < gx.n ∧ 0 ≤ c 1 ∧ c 1 < gy.n
/-- entry `c` lies in the array -/
def InArr3 (gx gy gz : Grid1) (c : Fin 3 → Int) : Prop :=
  0 ≤ c 0 ∧ c 0 < gx.n ∧ 0 ≤ c 1 ∧ c 1 < gy.n ∧ 0 ≤ c 2 ∧ c 2 < gz.n

/-- backward-difference divergence of a 2D current on the array used periodically -/
def divJ2 (gx gy : Grid1) (jx jy : Arr 2) (c : Fin 2 → Int) : ℚ :=
  (jx c - jx ![(c 0 - 1) % gx.n, c 1]) / gx.d + (jy c - jy ![c 0, (c 1 - 1) % gy.n]) / gy.d

/-- backward-difference divergence of a 3D current on the array used periodically -/
def divJ3 (gx gy gz : Grid1) (jx jy jz : Arr 3) (c : Fin 3 → Int) : ℚ :=
  (jx c - jx ![(c 0 - 1) % gx.n, c 1, c 2]) / gx.d + (jy c - jy ![c 0, (c 1 - 1) % gy.n, c 2]) / gy.d
    + (jz c - jz ![c 0, c 1, (c 2 - 1) % gz.n]) / gz.d

/-- sum of an array over all its entries -/
def total2 (gx gy : Grid1) (A : Arr 2) : ℚ := ∑ i ∈ range gx.n, ∑ j ∈ range gy.n, A ![(i : Int), (j : Int)]
/-- sum of an array over all its entries -/
def total3 (gx gy gz : Grid1) (A : Arr 3) : ℚ :=
  ∑ i ∈ range gx.n, ∑ j ∈ range gy.n, ∑ k ∈ range gz.n, A ![(i : Int), (j : Int), (k : Int)]

/-- a sensible grid axis: at least one entry, positive cell size -/
def GridOK (g : Grid1) : Prop := 0 < g.n ∧ 0 < g.d

/-! ## 2D -/

theorem old_eq (g : Grid1) (x v dt : ℚ) : xOld g x v dt / g.d = (x - v * dt / 2 - g.x0) / g.d := by
  unfold xOld; congr 1; ring
theorem adv_eq (g : Grid1) (x v dt : ℚ) : xAdv g x v dt / g.d = (x + v * dt / 2 - g.x0) / g.d := by
  unfold xAdv; congr 1; ring

/-- what one particle adds to the four 2D arrays -/
theorem deposit2_adds (gx gy : Grid1) (hgx : GridOK gx) (hgy : GridOK gy) (dt q x y : ℚ) (p : Mom) (hdt : dt ≠ 0)
    (cx : |p.vx * dt| ≤ gx.d) (cy : |p.vy * dt| ≤ gy.d) :
    let ax := axisOf gx x p.vx dt
    let ay := axisOf gy y p.vy dt
    let px := proj (wrapIdx gx.n ax.i0)
    let py := proj (wrapIdx gy.n ay.i0)
    let Q := q * p.w / (gx.d * gy.d)
    ∀ acc l, (deposit2 gx gy dt q x y p acc).jx l = acc.jx l - Q / dt * gx.d * (px (cum ax.DS) (l 0) * py ay.mid (l 1))
    ∧ (deposit2 gx gy dt q x y p acc).jy l = acc.jy l - Q / dt * gy.d * (px ax.mid (l 0) * py (cum ay.DS) (l 1))
    ∧ (deposit2 gx gy dt q x y p acc).jz l = acc.jz l + Q * p.vz * (px ax.mid (l 0) * py ay.mid (l 1)
        + 1 / 12 * (px ax.DS (l 0) * py ay.DS (l 1)))
    ∧ (deposit2 gx gy dt q x y p acc).rho l = acc.rho l + Q * (px ax.S1 (l 0) * py ay.S1 (l 1)) := by
  intro ax ay px py Q acc l
  have hx : AxOK ax := mkAxRef_ok (cfl_axis gx hgx.2 x p.vx dt cx)
  have hy : AxOK ay := mkAxRef_ok (cfl_axis gy hgy.2 y p.vy dt cy)
  have h := cells2_eq gx.n gy.n hx hy ⟨Q, Q / dt * gx.d, Q / dt * gy.d, Q / dt * dt * p.vz⟩ acc
  dsimp only at h
  rw [deposit2_cells gx gy hgx.2 hgy.2]
  obtain ⟨h1, h2, h3, h4⟩ := h
  refine ⟨h1 l, h2 l, (h3 l).trans ?_, h4 l⟩
  rw [div_mul_cancel₀ _ hdt]

/-- C18. For every particle that moves at most one cell per axis, on every array size, the deposited current
satisfies the continuity equation in every entry of the array, between the charge density half a step before the
stored position and half a step after it; the deposited charge density is the latter. -/
theorem charge_conserving2 (gx gy : Grid1) (hgx : GridOK gx) (hgy : GridOK gy) (dt q x y : ℚ) (p : Mom)
    (hdt : dt ≠ 0) (cx : |p.vx * dt| ≤ gx.d) (cy : |p.vy * dt| ≤ gy.d) (acc : Acc 2) (c : Fin 2 → Int)
    (hc : InArr2 gx gy c) :
    let r := deposit2 gx gy dt q x y p acc
    let rhoOld := density2 gx gy q p.w (x - p.vx * dt / 2) (y - p.vy * dt / 2) c
    let rhoNew := density2 gx gy q p.w (x + p.vx * dt / 2) (y + p.vy * dt / 2) c
    (rhoNew - rhoOld) / dt
        + divJ2 gx gy (fun l => r.jx l - acc.jx l) (fun l => r.jy l - acc.jy l) c = 0
      ∧ r.rho c - acc.rho c = rhoNew := by
  intro r rhoOld rhoNew
  obtain ⟨c0, c0', c1, c1'⟩ := hc
  have hfx := cfl_axis gx hgx.2 x p.vx dt cx
  have hfy := cfl_axis gy hgy.2 y p.vy dt cy
  have hx := mkAxRef_ok hfx
  have hy := mkAxRef_ok hfy
  have D := deposit2_adds gx gy hgx hgy dt q x y p hdt cx cy acc
  have dxne := hgx.2.ne'
  have dyne := hgy.2.ne'
  have eN : rhoNew = q * p.w / (gx.d * gy.d)
      * (lineWeight gx.n (xAdv gx x p.vx dt / gx.d) (c 0) * lineWeight gy.n (xAdv gy y p.vy dt / gy.d) (c 1)) := by
    rw [adv_eq, adv_eq]; rfl
  have eO : rhoOld = q * p.w / (gx.d * gy.d)
      * (lineWeight gx.n (xOld gx x p.vx dt / gx.d) (c 0) * lineWeight gy.n (xOld gy y p.vy dt / gy.d) (c 1)) := by
    rw [old_eq, old_eq]; rfl
  have s0x := proj_S0 gx.n hgx.1 (xOld gx x p.vx dt / gx.d) (xAdv gx x p.vx dt / gx.d) (c 0)
  have s1x := proj_S1 gx.n hgx.1 hfx (c 0)
  have s0y := proj_S0 gy.n hgy.1 (xOld gy y p.vy dt / gy.d) (xAdv gy y p.vy dt / gy.d) (c 1)
  have s1y := proj_S1 gy.n hgy.1 hfy (c 1)
  constructor
  · unfold divJ2
    have e1 : ∀ l, r.jx l - acc.jx l = - (q * p.w / (gx.d * gy.d) / dt * gx.d
        * (proj (wrapIdx gx.n (axisOf gx x p.vx dt).i0) (cum (axisOf gx x p.vx dt).DS) (l 0)
          * proj (wrapIdx gy.n (axisOf gy y p.vy dt).i0) (axisOf gy y p.vy dt).mid (l 1))) := fun l => by
      rw [(D l).1]; ring
    have e2 : ∀ l, r.jy l - acc.jy l = - (q * p.w / (gx.d * gy.d) / dt * gy.d
        * (proj (wrapIdx gx.n (axisOf gx x p.vx dt).i0) (axisOf gx x p.vx dt).mid (l 0)
          * proj (wrapIdx gy.n (axisOf gy y p.vy dt).i0) (cum (axisOf gy y p.vy dt).DS) (l 1))) := fun l => by
      rw [(D l).2.1]; ring
    dsimp only
    rw [e1, e1, e2, e2]
    have i0 : (![(c 0 - 1) % (gx.n : Int), c 1] : Fin 2 → Int) 0 = (c 0 - 1) % (gx.n : Int) := rfl
    have i1 : (![(c 0 - 1) % (gx.n : Int), c 1] : Fin 2 → Int) 1 = c 1 := rfl
    have i2 : (![c 0, (c 1 - 1) % (gy.n : Int)] : Fin 2 → Int) 0 = c 0 := rfl
    have i3 : (![c 0, (c 1 - 1) % (gy.n : Int)] : Fin 2 → Int) 1 = (c 1 - 1) % (gy.n : Int) := rfl
    rw [i0, i1, i2, i3]
    have tx := proj_cum_sub gx.n hgx.1 (axisOf gx x p.vx dt).i0 _ hx.sumDS (c 0) c0 c0'
    have ty := proj_cum_sub gy.n hgy.1 (axisOf gy y p.vy dt).i0 _ hy.sumDS (c 1) c1 c1'
    rw [proj_DS] at tx ty
    rw [proj_mid, proj_mid, eN, eO, ← s0x, ← s1x, ← s0y, ← s1y]
    change proj (wrapIdx gx.n (axisOf gx x p.vx dt).i0) (cum (axisOf gx x p.vx dt).DS) _
      - proj (wrapIdx gx.n (axisOf gx x p.vx dt).i0) (cum (axisOf gx x p.vx dt).DS) _
      = proj (wrapIdx gx.n (axisOf gx x p.vx dt).i0) (axisOf gx x p.vx dt).S1 _
        - proj (wrapIdx gx.n (axisOf gx x p.vx dt).i0) (axisOf gx x p.vx dt).S0 _ at tx
    change proj (wrapIdx gy.n (axisOf gy y p.vy dt).i0) (cum (axisOf gy y p.vy dt).DS) _
      - proj (wrapIdx gy.n (axisOf gy y p.vy dt).i0) (cum (axisOf gy y p.vy dt).DS) _
      = proj (wrapIdx gy.n (axisOf gy y p.vy dt).i0) (axisOf gy y p.vy dt).S1 _
        - proj (wrapIdx gy.n (axisOf gy y p.vy dt).i0) (axisOf gy y p.vy dt).S0 _ at ty
    change (_ * (proj (wrapIdx gx.n (axisOf gx x p.vx dt).i0) (axisOf gx x p.vx dt).S1 _
        * proj (wrapIdx gy.n (axisOf gy y p.vy dt).i0) (axisOf gy y p.vy dt).S1 _)
      - _ * (proj (wrapIdx gx.n (axisOf gx x p.vx dt).i0) (axisOf gx x p.vx dt).S0 _
        * proj (wrapIdx gy.n (axisOf gy y p.vy dt).i0) (axisOf gy y p.vy dt).S0 _)) / dt + _ = 0
    generalize proj (wrapIdx gx.n (axisOf gx x p.vx dt).i0) (axisOf gx x p.vx dt).S0 (c 0) = A0 at *
    generalize proj (wrapIdx gx.n (axisOf gx x p.vx dt).i0) (axisOf gx x p.vx dt).S1 (c 0) = A1 at *
    generalize proj (wrapIdx gy.n (axisOf gy y p.vy dt).i0) (axisOf gy y p.vy dt).S0 (c 1) = B0 at *
    generalize proj (wrapIdx gy.n (axisOf gy y p.vy dt).i0) (axisOf gy y p.vy dt).S1 (c 1) = B1 at *
    generalize proj (wrapIdx gx.n (axisOf gx x p.vx dt).i0) (cum (axisOf gx x p.vx dt).DS) (c 0) = CX at *
    generalize proj (wrapIdx gy.n (axisOf gy y p.vy dt).i0) (cum (axisOf gy y p.vy dt).DS) (c 1) = CY at *
    have tx' : CX = A1 - A0 + proj (wrapIdx gx.n (axisOf gx x p.vx dt).i0) (cum (axisOf gx x p.vx dt).DS)
        ((c 0 - 1) % (gx.n : Int)) := by linarith
    have ty' : CY = B1 - B0 + proj (wrapIdx gy.n (axisOf gy y p.vy dt).i0) (cum (axisOf gy y p.vy dt).DS)
        ((c 1 - 1) % (gy.n : Int)) := by linarith
    rw [tx', ty']
    field_simp
    ring
  · rw [(D c).2.2.2, eN, ← s1x, ← s1y]
    unfold axisOf
    ring

/-- C18. Entries that are not part of the array are never written. -/
theorem deposit2_in_array (gx gy : Grid1) (hgx : GridOK gx) (hgy : GridOK gy) (dt q x y : ℚ) (p : Mom)
    (hdt : dt ≠ 0) (cx : |p.vx * dt| ≤ gx.d) (cy : |p.vy * dt| ≤ gy.d) (acc : Acc 2) (c : Fin 2 → Int)
    (hc : ¬ InArr2 gx gy c) :
    let r := deposit2 gx gy dt q x y p acc
    r.jx c = acc.jx c ∧ r.jy c = acc.jy c ∧ r.jz c = acc.jz c ∧ r.rho c = acc.rho c := by
  intro r
  have D := deposit2_adds gx gy hgx hgy dt q x y p hdt cx cy acc c
  have : (∀ f, proj (wrapIdx gx.n (axisOf gx x p.vx dt).i0) f (c 0) = 0)
      ∨ (∀ f, proj (wrapIdx gy.n (axisOf gy y p.vy dt).i0) f (c 1) = 0) := by
    by_cases h0 : c 0 < 0 ∨ (gx.n : Int) ≤ c 0
    · exact Or.inl fun f => proj_out gx.n hgx.1 _ f _ h0
    · right
      intro f
      apply proj_out gy.n hgy.1
      unfold InArr2 at hc
      omega
  obtain ⟨d1, d2, d3, d4⟩ := D
  refine ⟨d1.trans ?_, d2.trans ?_, d3.trans ?_, d4.trans ?_⟩ <;> rcases this with h | h <;> simp only [h] <;> ring

theorem total2_prod (gx gy : Grid1) (hgx : GridOK gx) (hgy : GridOK gy) (i0 j0 : Int) (a : ℚ) (f g : Nat → ℚ) :
    total2 gx gy (fun l => a * (proj (wrapIdx gx.n i0) f (l 0) * proj (wrapIdx gy.n j0) g (l 1)))
      = a * ((∑ i ∈ range 5, f i) * ∑ i ∈ range 5, g i) := by
  rw [← sum_proj gx.n hgx.1 i0 f, ← sum_proj gy.n hgy.1 j0 g, sum_mul_sum, mul_dsum']
  rfl
where
  mul_dsum' {c : ℚ} {s t : Finset Nat} {F : Nat → Nat → ℚ} :
    c * ∑ i ∈ s, ∑ j ∈ t, F i j = ∑ i ∈ s, ∑ j ∈ t, c * F i j := by simp only [mul_sum]

/-- C18. Integrated over the array, a particle contributes its charge to `rho` and charge times velocity to the
current, in all three components. -/
theorem deposit2_totals (gx gy : Grid1) (hgx : GridOK gx) (hgy : GridOK gy) (dt q x y : ℚ) (p : Mom)
    (hdt : dt ≠ 0) (cx : |p.vx * dt| ≤ gx.d) (cy : |p.vy * dt| ≤ gy.d) (acc : Acc 2) :
    let r := deposit2 gx gy dt q x y p acc
    total2 gx gy (fun l => r.rho l - acc.rho l) * (gx.d * gy.d) = q * p.w
    ∧ total2 gx gy (fun l => r.jx l - acc.jx l) * (gx.d * gy.d) = q * p.w * p.vx
    ∧ total2 gx gy (fun l => r.jy l - acc.jy l) * (gx.d * gy.d) = q * p.w * p.vy
    ∧ total2 gx gy (fun l => r.jz l - acc.jz l) * (gx.d * gy.d) = q * p.w * p.vz := by
  intro r
  have D := deposit2_adds gx gy hgx hgy dt q x y p hdt cx cy acc
  have hfx := cfl_axis gx hgx.2 x p.vx dt cx
  have hfy := cfl_axis gy hgy.2 y p.vy dt cy
  have hx : AxOK (axisOf gx x p.vx dt) := mkAxRef_ok hfx
  have hy : AxOK (axisOf gy y p.vy dt) := mkAxRef_ok hfy
  have sx : ∑ i ∈ range 5, cum (axisOf gx x p.vx dt).DS i = -(p.vx * dt / gx.d) := by
    rw [← adv_sub_old gx hgx.2 x]; exact sum_cum hfx
  have sy : ∑ i ∈ range 5, cum (axisOf gy y p.vy dt).DS i = -(p.vy * dt / gy.d) := by
    rw [← adv_sub_old gy hgy.2 y]; exact sum_cum hfy
  have dxne := hgx.2.ne'
  have dyne := hgy.2.ne'
  have T := total2_prod gx gy hgx hgy (axisOf gx x p.vx dt).i0 (axisOf gy y p.vy dt).i0
  refine ⟨?_, ?_, ?_, ?_⟩
  · have e : (fun l => r.rho l - acc.rho l) = fun l => q * p.w / (gx.d * gy.d)
        * (proj (wrapIdx gx.n (axisOf gx x p.vx dt).i0) (axisOf gx x p.vx dt).S1 (l 0)
          * proj (wrapIdx gy.n (axisOf gy y p.vy dt).i0) (axisOf gy y p.vy dt).S1 (l 1)) := by
      funext l; rw [(D l).2.2.2]; ring
    rw [e, T, hx.sum1, hy.sum1]
    field_simp
  · have e : (fun l => r.jx l - acc.jx l) = fun l => -(q * p.w / (gx.d * gy.d) / dt * gx.d)
        * (proj (wrapIdx gx.n (axisOf gx x p.vx dt).i0) (cum (axisOf gx x p.vx dt).DS) (l 0)
          * proj (wrapIdx gy.n (axisOf gy y p.vy dt).i0) (axisOf gy y p.vy dt).mid (l 1)) := by
      funext l; rw [(D l).1]; ring
    rw [e, T, sx, sum_mid hy]
    field_simp
  · have e : (fun l => r.jy l - acc.jy l) = fun l => -(q * p.w / (gx.d * gy.d) / dt * gy.d)
        * (proj (wrapIdx gx.n (axisOf gx x p.vx dt).i0) (axisOf gx x p.vx dt).mid (l 0)
          * proj (wrapIdx gy.n (axisOf gy y p.vy dt).i0) (cum (axisOf gy y p.vy dt).DS) (l 1)) := by
      funext l; rw [(D l).2.1]; ring
    rw [e, T, sy, sum_mid hx]
    field_simp
  · have e : (fun l => r.jz l - acc.jz l) = fun l => q * p.w / (gx.d * gy.d) * p.vz
        * (proj (wrapIdx gx.n (axisOf gx x p.vx dt).i0) (axisOf gx x p.vx dt).mid (l 0)
          * proj (wrapIdx gy.n (axisOf gy y p.vy dt).i0) (axisOf gy y p.vy dt).mid (l 1))
        + q * p.w / (gx.d * gy.d) * p.vz * (1 / 12)
        * (proj (wrapIdx gx.n (axisOf gx x p.vx dt).i0) (axisOf gx x p.vx dt).DS (l 0)
          * proj (wrapIdx gy.n (axisOf gy y p.vy dt).i0) (axisOf gy y p.vy dt).DS (l 1)) := by
      funext l; rw [(D l).2.2.1]; ring
    have e' : ∀ F G : Arr 2, total2 gx gy (fun l => F l + G l) = total2 gx gy F + total2 gx gy G := by
      intro F G; unfold total2; simp only [sum_add_distrib]
    rw [e, e', T, T, sum_mid hx, sum_mid hy, hx.sumDS]
    field_simp
    ring

/-! ### All particles of a patch -/

/-- sum over the living particles of a patch that have coordinates -/
def sumParts2 (F : ℚ → ℚ → Mom → ℚ) : List Part2 → ℚ
  | [] => 0
  | p :: ps => (match p.dead, p.x, p.y with
    | false, .val x, .val y => F x y p.mom
    | _, _, _ => 0) + sumParts2 F ps

/-- every living particle with coordinates moves at most one cell per axis -/
def CFL2 (gx gy : Grid1) (dt : ℚ) (ps : List Part2) : Prop :=
  ∀ p ∈ ps, p.dead = false → p.x ≠ .nan → p.y ≠ .nan → |p.mom.vx * dt| ≤ gx.d ∧ |p.mom.vy * dt| ≤ gy.d

/-- C18 for the deposition of a whole patch: the current of all living particles satisfies the continuity equation,
and dead particles and particles with NaN coordinates contribute nothing. -/
theorem charge_conserving_patch2 (gx gy : Grid1) (hgx : GridOK gx) (hgy : GridOK gy) (dt q : ℚ) (hdt : dt ≠ 0)
    (ps : List Part2) (hcfl : CFL2 gx gy dt ps) (acc : Acc 2) (c : Fin 2 → Int) (hc : InArr2 gx gy c) :
    let r := depositPatch2 gx gy dt q ps acc
    let rhoOld := sumParts2 (fun x y p => density2 gx gy q p.w (x - p.vx * dt / 2) (y - p.vy * dt / 2) c) ps
    let rhoNew := sumParts2 (fun x y p => density2 gx gy q p.w (x + p.vx * dt / 2) (y + p.vy * dt / 2) c) ps
    (rhoNew - rhoOld) / dt
        + divJ2 gx gy (fun l => r.jx l - acc.jx l) (fun l => r.jy l - acc.jy l) c = 0
      ∧ r.rho c - acc.rho c = rhoNew := by
  induction ps generalizing acc with
  | nil => simp [depositPatch2, sumParts2, divJ2]
  | cons p ps ih =>
    intro r rhoOld rhoNew
    have hcfl' : CFL2 gx gy dt ps := fun p' hp' => hcfl p' (List.mem_cons_of_mem _ hp')
    obtain ⟨px, py, pm, pd⟩ := p
    have skip : (∀ x y, ¬ (pd = false ∧ px = .val x ∧ py = .val y)) →
        (rhoNew - rhoOld) / dt
        + divJ2 gx gy (fun l => r.jx l - acc.jx l) (fun l => r.jy l - acc.jy l) c = 0
        ∧ r.rho c - acc.rho c = rhoNew := by
      intro hs
      have e0 : r = depositPatch2 gx gy dt q ps acc := by
        show depositPatch2 gx gy dt q (⟨px, py, pm, pd⟩ :: ps) acc = _
        unfold depositPatch2
        rw [List.foldl_cons]
        congr 1
        cases pd with
        | true => rfl
        | false => cases px with
          | nan => rfl
          | val x => cases py with
            | nan => rfl
            | val y => exact absurd ⟨rfl, rfl, rfl⟩ (hs x y)
      have es : ∀ F, sumParts2 F (⟨px, py, pm, pd⟩ :: ps) = sumParts2 F ps := by
        intro F
        rw [sumParts2]
        cases pd with
        | true => exact zero_add _
        | false => cases px with
          | nan => exact zero_add _
          | val x => cases py with
            | nan => exact zero_add _
            | val y => exact absurd ⟨rfl, rfl, rfl⟩ (hs x y)
      have := ih hcfl' acc
      dsimp only at this
      rw [← es, ← es, ← e0] at this
      exact this
    cases pd with
    | true => exact skip (fun x y h => by simp at h)
    | false => cases px with
      | nan => exact skip (fun x y h => by simp at h)
      | val x => cases py with
        | nan => exact skip (fun x y h => by simp at h)
        | val y =>
          obtain ⟨cx, cy⟩ := hcfl ⟨.val x, .val y, pm, false⟩ List.mem_cons_self rfl (by simp) (by simp)
          have one := charge_conserving2 gx gy hgx hgy dt q x y pm hdt cx cy acc c hc
          have rest := ih hcfl' (deposit2 gx gy dt q x y pm acc)
          have e0 : r = depositPatch2 gx gy dt q ps (deposit2 gx gy dt q x y pm acc) := rfl
          have es : ∀ F, sumParts2 F (⟨.val x, .val y, pm, false⟩ :: ps) = F x y pm + sumParts2 F ps := fun F => rfl
          dsimp only at one rest
          rw [← e0] at rest
          obtain ⟨o1, o2⟩ := one
          obtain ⟨t1, t2⟩ := rest
          show (sumParts2 _ (⟨.val x, .val y, pm, false⟩ :: ps) - sumParts2 _ (⟨.val x, .val y, pm, false⟩ :: ps)) / dt
            + _ = 0 ∧ _ = sumParts2 _ (⟨.val x, .val y, pm, false⟩ :: ps)
          rw [es, es]
          constructor
          · unfold divJ2 at o1 t1 ⊢
            dsimp only at o1 t1 ⊢
            linear_combination o1 + t1
          · linear_combination o2 + t2

/-! ## 3D -/

/-- what one particle adds to the four 3D arrays, as a property of the deposition routine `D` -/
def Adds3 (gx gy gz : Grid1) (dt q x y z : ℚ) (p : Mom) (D : Acc 3 → Acc 3) : Prop :=
  let ax := axisOf gx x p.vx dt
  let ay := axisOf gy y p.vy dt
  let az := axisOf gz z p.vz dt
  let px := proj (wrapIdx gx.n ax.i0)
  let py := proj (wrapIdx gy.n ay.i0)
  let pz := proj (wrapIdx gz.n az.i0)
  let Q := q * p.w / (gx.d * gy.d * gz.d)
  ∀ acc l, (D acc).jx l = acc.jx l - Q / dt * gx.d * (px (cum ax.DS) (l 0)
        * transW (py ay.S0 (l 1)) (py ay.S1 (l 1)) (pz az.S0 (l 2)) (pz az.S1 (l 2)))
    ∧ (D acc).jy l = acc.jy l - Q / dt * gy.d * (py (cum ay.DS) (l 1)
        * transW (px ax.S0 (l 0)) (px ax.S1 (l 0)) (pz az.S0 (l 2)) (pz az.S1 (l 2)))
    ∧ (D acc).jz l = acc.jz l - Q / dt * gz.d * (pz (cum az.DS) (l 2)
        * transW (px ax.S0 (l 0)) (px ax.S1 (l 0)) (py ay.S0 (l 1)) (py ay.S1 (l 1)))
    ∧ (D acc).rho l = acc.rho l + Q * (px ax.S1 (l 0) * py ay.S1 (l 1) * pz az.S1 (l 2))

/-- the whole stencil of a particle has array entries that `INDEX3` addresses: the cell nearest to the old position
is at least two entries away from the ends `-n` and `n` -/
def Fits (g : Grid1) (x v dt : ℚ) : Prop :=
  2 - (g.n : Int) ≤ ⌊(x - v * dt / 2 - g.x0) / g.d + 1/2⌋ ∧ ⌊(x - v * dt / 2 - g.x0) / g.d + 1/2⌋ + 2 < g.n

theorem fits_i0 {g : Grid1} {x v dt : ℚ} (h : Fits g x v dt) :
    2 - (g.n : Int) ≤ (axisOf g x v dt).i0 ∧ (axisOf g x v dt).i0 + 2 < g.n := by
  have : (axisOf g x v dt).i0 = ⌊(x - v * dt / 2 - g.x0) / g.d + 1/2⌋ := by rw [← old_eq]; rfl
  rw [this]; exact h

theorem lo_start {d : Int} {ax : Ax} (hd : ax.dcell = d) (h : d = -1 ∨ d = 0 ∨ d = 1) :
    (min 1 (1 + d)).toNat = ax.start ∧ (max 4 (4 + d)).toNat = ax.stop := by
  unfold Ax.start Ax.stop
  rw [hd]
  rcases h with rfl | rfl | rfl <;> decide

theorem deposit3Ref_adds (gx gy gz : Grid1) (hgx : GridOK gx) (hgy : GridOK gy) (hgz : GridOK gz) (dt q x y z : ℚ)
    (p : Mom) (cx : |p.vx * dt| ≤ gx.d) (cy : |p.vy * dt| ≤ gy.d) (cz : |p.vz * dt| ≤ gz.d)
    (fx : Fits gx x p.vx dt) (fy : Fits gy y p.vy dt) (fz : Fits gz z p.vz dt) :
    Adds3 gx gy gz dt q x y z p (deposit3Ref gx gy gz dt q x y z p) := by
  unfold Adds3
  intro ax ay az px py pz Q acc l
  have hfx := cfl_axis gx hgx.2 x p.vx dt cx
  have hfy := cfl_axis gy hgy.2 y p.vy dt cy
  have hfz := cfl_axis gz hgz.2 z p.vz dt cz
  have hx : AxOK ax := mkAxRef_ok hfx
  have hy : AxOK ay := mkAxRef_ok hfy
  have hz : AxOK az := mkAxRef_ok hfz
  obtain ⟨lx, ux⟩ := lo_start (ax := ax) rfl (floor_near hfx)
  obtain ⟨ly, uy⟩ := lo_start (ax := ay) rfl (floor_near hfy)
  obtain ⟨lz, uz⟩ := lo_start (ax := az) rfl (floor_near hfz)
  have hD : deposit3Ref gx gy gz dt q x y z p acc
      = cells3 (body3Ref (fun i j k => ![cellRef1 gx.n ax.i0 i, cellRef1 gy.n ay.i0 j, cellRef1 gz.n az.i0 k])
          ax ay az ⟨Q, Q / dt * gx.d, Q / dt * gy.d, Q / dt * gz.d⟩)
          ax.start ax.stop ay.start ay.stop az.start az.stop acc := by
    rw [← lx, ← ux, ← ly, ← uy, ← lz, ← uz]; rfl
  have h := cells3_eq (cellRef1 gx.n ax.i0) (cellRef1 gy.n ay.i0) (cellRef1 gz.n az.i0) hx hy hz
    ⟨Q, Q / dt * gx.d, Q / dt * gy.d, Q / dt * gz.d⟩ acc
  dsimp only at h
  rw [← hD] at h
  have fx : 2 - (gx.n : Int) ≤ ax.i0 ∧ ax.i0 + 2 < gx.n := fits_i0 fx
  have fy : 2 - (gy.n : Int) ≤ ay.i0 ∧ ay.i0 + 2 < gy.n := fits_i0 fy
  have fz : 2 - (gz.n : Int) ≤ az.i0 ∧ az.i0 + 2 < gz.n := fits_i0 fz
  have gx' : ∀ f c, proj (cellRef1 gx.n ax.i0) f c = px f c := fun f c => proj_congr (fun i hi => by
    rw [wrapIdx_eq gx.n hgx.1, cellRef1_eq] <;> omega) f c
  have gy' : ∀ f c, proj (cellRef1 gy.n ay.i0) f c = py f c := fun f c => proj_congr (fun i hi => by
    rw [wrapIdx_eq gy.n hgy.1, cellRef1_eq] <;> omega) f c
  have gz' : ∀ f c, proj (cellRef1 gz.n az.i0) f c = pz f c := fun f c => proj_congr (fun i hi => by
    rw [wrapIdx_eq gz.n hgz.1, cellRef1_eq] <;> omega) f c
  simp only [gx', gy', gz'] at h
  exact ⟨h.1 l, h.2.1 l, h.2.2.1 l, h.2.2.2 l⟩

theorem deposit3Fast_adds (gx gy gz : Grid1) (hgx : GridOK gx) (hgy : GridOK gy) (hgz : GridOK gz)
    (nx : 2 ≤ gx.n) (ny : 2 ≤ gy.n) (nz : 2 ≤ gz.n) (dt q x y z : ℚ) (hdt : dt ≠ 0)
    (p : Mom) (cx : |p.vx * dt| ≤ gx.d) (cy : |p.vy * dt| ≤ gy.d) (cz : |p.vz * dt| ≤ gz.d) :
    Adds3 gx gy gz dt q x y z p (deposit3Fast gx gy gz dt q x y z p) := by
  unfold Adds3
  intro ax ay az px py pz Q acc l
  have hx : AxOK ax := mkAxRef_ok (cfl_axis gx hgx.2 x p.vx dt cx)
  have hy : AxOK ay := mkAxRef_ok (cfl_axis gy hgy.2 y p.vy dt cy)
  have hz : AxOK az := mkAxRef_ok (cfl_axis gz hgz.2 z p.vz dt cz)
  have dxne := hgx.2.ne'
  have dyne := hgy.2.ne'
  have dzne := hgz.2.ne'
  obtain ⟨a1, a2, a3⟩ := cast3_eq (xo := xOld gx x p.vx dt) (xa := xAdv gx x p.vx dt)
    (yo := xOld gy y p.vy dt) (ya := xAdv gy y p.vy dt) (zo := xOld gz z p.vz dt) (za := xAdv gz z p.vz dt)
    hgx.2 hgy.2 hgz.2
  have e1 : q / (gx.d * gy.d * gz.d) * p.w = Q := by show _ = q * p.w / (gx.d * gy.d * gz.d); ring
  have e2 : q / (gy.d * gz.d * dt) * p.w = Q / dt * gx.d := by
    show _ = q * p.w / (gx.d * gy.d * gz.d) / dt * gx.d; field_simp
  have e3 : q / (gx.d * gz.d * dt) * p.w = Q / dt * gy.d := by
    show _ = q * p.w / (gx.d * gy.d * gz.d) / dt * gy.d; field_simp
  have e4 : q / (gx.d * gy.d * dt) * p.w = Q / dt * gz.d := by
    show _ = q * p.w / (gx.d * gy.d * gz.d) / dt * gz.d; field_simp
  have hD : deposit3Fast gx gy gz dt q x y z p acc
      = cells3 (body3Ref (fun i j k => ![cellFast1 gx.n ax.i0 i, cellFast1 gy.n ay.i0 j, cellFast1 gz.n az.i0 k])
          ax ay az ⟨Q, Q / dt * gx.d, Q / dt * gy.d, Q / dt * gz.d⟩)
          ax.start ax.stop ay.start ay.stop az.start az.stop acc := by
    unfold deposit3Fast
    dsimp only
    rw [a1, a2, a3, e1, e2, e3, e4, body3Fast_eq]
    split
    · rename_i hc
      obtain ⟨h1, h2, h3⟩ := hc
      have sx : ax.start = 1 ∧ ax.stop = 4 := by
        unfold Ax.start Ax.stop
        have : ax.dcell = 0 := h1
        rw [this]; decide
      have sy : ay.start = 1 ∧ ay.stop = 4 := by
        unfold Ax.start Ax.stop
        have : ay.dcell = 0 := h2
        rw [this]; decide
      have sz : az.start = 1 ∧ az.stop = 4 := by
        unfold Ax.start Ax.stop
        have : az.dcell = 0 := h3
        rw [this]; decide
      rw [sx.1, sx.2, sy.1, sy.2, sz.1, sz.2]
      rfl
    · rfl
  have h := cells3_eq (cellFast1 gx.n ax.i0) (cellFast1 gy.n ay.i0) (cellFast1 gz.n az.i0) hx hy hz
    ⟨Q, Q / dt * gx.d, Q / dt * gy.d, Q / dt * gz.d⟩ acc
  dsimp only at h
  rw [← hD] at h
  have gx' : ∀ f c, proj (cellFast1 gx.n ax.i0) f c = px f c := fun f c => proj_congr (fun i hi => by
    rw [wrapIdx_eq gx.n hgx.1, cellFast1_eq gx.n nx _ i hi]) f c
  have gy' : ∀ f c, proj (cellFast1 gy.n ay.i0) f c = py f c := fun f c => proj_congr (fun i hi => by
    rw [wrapIdx_eq gy.n hgy.1, cellFast1_eq gy.n ny _ i hi]) f c
  have gz' : ∀ f c, proj (cellFast1 gz.n az.i0) f c = pz f c := fun f c => proj_congr (fun i hi => by
    rw [wrapIdx_eq gz.n hgz.1, cellFast1_eq gz.n nz _ i hi]) f c
  simp only [gx', gy', gz'] at h
  exact ⟨h.1 l, h.2.1 l, h.2.2.1 l, h.2.2.2 l⟩

/-- continuity equation and deposited density, as a property of a 3D deposition routine -/
def Conserves3 (gx gy gz : Grid1) (dt q x y z : ℚ) (p : Mom) (D : Acc 3 → Acc 3) : Prop :=
  ∀ (acc : Acc 3) (c : Fin 3 → Int), InArr3 gx gy gz c →
    let r := D acc
    let rhoOld := density3 gx gy gz q p.w (x - p.vx * dt / 2) (y - p.vy * dt / 2) (z - p.vz * dt / 2) c
    let rhoNew := density3 gx gy gz q p.w (x + p.vx * dt / 2) (y + p.vy * dt / 2) (z + p.vz * dt / 2) c
    (rhoNew - rhoOld) / dt
        + divJ3 gx gy gz (fun l => r.jx l - acc.jx l) (fun l => r.jy l - acc.jy l) (fun l => r.jz l - acc.jz l) c = 0
      ∧ r.rho c - acc.rho c = rhoNew

/-- integrated over the array, the routine deposits the particle's charge and charge times velocity -/
def Totals3 (gx gy gz : Grid1) (q : ℚ) (p : Mom) (D : Acc 3 → Acc 3) : Prop :=
  ∀ acc : Acc 3,
    let r := D acc
    total3 gx gy gz (fun l => r.rho l - acc.rho l) * (gx.d * gy.d * gz.d) = q * p.w
    ∧ total3 gx gy gz (fun l => r.jx l - acc.jx l) * (gx.d * gy.d * gz.d) = q * p.w * p.vx
    ∧ total3 gx gy gz (fun l => r.jy l - acc.jy l) * (gx.d * gy.d * gz.d) = q * p.w * p.vy
    ∧ total3 gx gy gz (fun l => r.jz l - acc.jz l) * (gx.d * gy.d * gz.d) = q * p.w * p.vz

/-- the routine writes only entries of the array -/
def InBounds3 (gx gy gz : Grid1) (D : Acc 3 → Acc 3) : Prop :=
  ∀ (acc : Acc 3) (c : Fin 3 → Int), ¬ InArr3 gx gy gz c →
    (D acc).jx c = acc.jx c ∧ (D acc).jy c = acc.jy c ∧ (D acc).jz c = acc.jz c ∧ (D acc).rho c = acc.rho c

theorem conserves3_of_adds {gx gy gz : Grid1} (hgx : GridOK gx) (hgy : GridOK gy) (hgz : GridOK gz)
    {dt q x y z : ℚ} (hdt : dt ≠ 0) {p : Mom} (cx : |p.vx * dt| ≤ gx.d) (cy : |p.vy * dt| ≤ gy.d)
    (cz : |p.vz * dt| ≤ gz.d) {D : Acc 3 → Acc 3} (hD : Adds3 gx gy gz dt q x y z p D) :
    Conserves3 gx gy gz dt q x y z p D := by
  intro acc c hc r rhoOld rhoNew
  obtain ⟨c0, c0', c1, c1', c2, c2'⟩ := hc
  have hfx := cfl_axis gx hgx.2 x p.vx dt cx
  have hfy := cfl_axis gy hgy.2 y p.vy dt cy
  have hfz := cfl_axis gz hgz.2 z p.vz dt cz
  have hx : AxOK (axisOf gx x p.vx dt) := mkAxRef_ok hfx
  have hy : AxOK (axisOf gy y p.vy dt) := mkAxRef_ok hfy
  have hz : AxOK (axisOf gz z p.vz dt) := mkAxRef_ok hfz
  have hD := hD acc
  have dxne := hgx.2.ne'
  have dyne := hgy.2.ne'
  have dzne := hgz.2.ne'
  have s0x : proj (wrapIdx gx.n (axisOf gx x p.vx dt).i0) (axisOf gx x p.vx dt).S0 (c 0) = _ :=
    proj_S0 gx.n hgx.1 (xOld gx x p.vx dt / gx.d) (xAdv gx x p.vx dt / gx.d) (c 0)
  have s1x : proj (wrapIdx gx.n (axisOf gx x p.vx dt).i0) (axisOf gx x p.vx dt).S1 (c 0) = _ :=
    proj_S1 gx.n hgx.1 hfx (c 0)
  have s0y : proj (wrapIdx gy.n (axisOf gy y p.vy dt).i0) (axisOf gy y p.vy dt).S0 (c 1) = _ :=
    proj_S0 gy.n hgy.1 (xOld gy y p.vy dt / gy.d) (xAdv gy y p.vy dt / gy.d) (c 1)
  have s1y : proj (wrapIdx gy.n (axisOf gy y p.vy dt).i0) (axisOf gy y p.vy dt).S1 (c 1) = _ :=
    proj_S1 gy.n hgy.1 hfy (c 1)
  have s0z : proj (wrapIdx gz.n (axisOf gz z p.vz dt).i0) (axisOf gz z p.vz dt).S0 (c 2) = _ :=
    proj_S0 gz.n hgz.1 (xOld gz z p.vz dt / gz.d) (xAdv gz z p.vz dt / gz.d) (c 2)
  have s1z : proj (wrapIdx gz.n (axisOf gz z p.vz dt).i0) (axisOf gz z p.vz dt).S1 (c 2) = _ :=
    proj_S1 gz.n hgz.1 hfz (c 2)
  rw [old_eq] at s0x s0y s0z
  rw [adv_eq] at s1x s1y s1z
  have eN : rhoNew = q * p.w / (gx.d * gy.d * gz.d)
      * (proj (wrapIdx gx.n (axisOf gx x p.vx dt).i0) (axisOf gx x p.vx dt).S1 (c 0)
        * proj (wrapIdx gy.n (axisOf gy y p.vy dt).i0) (axisOf gy y p.vy dt).S1 (c 1)
        * proj (wrapIdx gz.n (axisOf gz z p.vz dt).i0) (axisOf gz z p.vz dt).S1 (c 2)) := by
    rw [s1x, s1y, s1z]; rfl
  have eO : rhoOld = q * p.w / (gx.d * gy.d * gz.d)
      * (proj (wrapIdx gx.n (axisOf gx x p.vx dt).i0) (axisOf gx x p.vx dt).S0 (c 0)
        * proj (wrapIdx gy.n (axisOf gy y p.vy dt).i0) (axisOf gy y p.vy dt).S0 (c 1)
        * proj (wrapIdx gz.n (axisOf gz z p.vz dt).i0) (axisOf gz z p.vz dt).S0 (c 2)) := by
    rw [s0x, s0y, s0z]; rfl
  have tx := proj_cum_sub gx.n hgx.1 (axisOf gx x p.vx dt).i0 _ hx.sumDS (c 0) c0 c0'
  have ty := proj_cum_sub gy.n hgy.1 (axisOf gy y p.vy dt).i0 _ hy.sumDS (c 1) c1 c1'
  have tz := proj_cum_sub gz.n hgz.1 (axisOf gz z p.vz dt).i0 _ hz.sumDS (c 2) c2 c2'
  rw [proj_DS] at tx ty tz
  constructor
  · have ex : (fun l => r.jx l - acc.jx l) = fun l => -(q * p.w / (gx.d * gy.d * gz.d) / dt * gx.d
        * (proj (wrapIdx gx.n (axisOf gx x p.vx dt).i0) (cum (axisOf gx x p.vx dt).DS) (l 0)
          * transW (proj (wrapIdx gy.n (axisOf gy y p.vy dt).i0) (axisOf gy y p.vy dt).S0 (l 1))
            (proj (wrapIdx gy.n (axisOf gy y p.vy dt).i0) (axisOf gy y p.vy dt).S1 (l 1))
            (proj (wrapIdx gz.n (axisOf gz z p.vz dt).i0) (axisOf gz z p.vz dt).S0 (l 2))
            (proj (wrapIdx gz.n (axisOf gz z p.vz dt).i0) (axisOf gz z p.vz dt).S1 (l 2)))) := by
      funext l; rw [(hD l).1]; ring
    have ey : (fun l => r.jy l - acc.jy l) = fun l => -(q * p.w / (gx.d * gy.d * gz.d) / dt * gy.d
        * (proj (wrapIdx gy.n (axisOf gy y p.vy dt).i0) (cum (axisOf gy y p.vy dt).DS) (l 1)
          * transW (proj (wrapIdx gx.n (axisOf gx x p.vx dt).i0) (axisOf gx x p.vx dt).S0 (l 0))
            (proj (wrapIdx gx.n (axisOf gx x p.vx dt).i0) (axisOf gx x p.vx dt).S1 (l 0))
            (proj (wrapIdx gz.n (axisOf gz z p.vz dt).i0) (axisOf gz z p.vz dt).S0 (l 2))
            (proj (wrapIdx gz.n (axisOf gz z p.vz dt).i0) (axisOf gz z p.vz dt).S1 (l 2)))) := by
      funext l; rw [(hD l).2.1]; ring
    have ez : (fun l => r.jz l - acc.jz l) = fun l => -(q * p.w / (gx.d * gy.d * gz.d) / dt * gz.d
        * (proj (wrapIdx gz.n (axisOf gz z p.vz dt).i0) (cum (axisOf gz z p.vz dt).DS) (l 2)
          * transW (proj (wrapIdx gx.n (axisOf gx x p.vx dt).i0) (axisOf gx x p.vx dt).S0 (l 0))
            (proj (wrapIdx gx.n (axisOf gx x p.vx dt).i0) (axisOf gx x p.vx dt).S1 (l 0))
            (proj (wrapIdx gy.n (axisOf gy y p.vy dt).i0) (axisOf gy y p.vy dt).S0 (l 1))
            (proj (wrapIdx gy.n (axisOf gy y p.vy dt).i0) (axisOf gy y p.vy dt).S1 (l 1)))) := by
      funext l; rw [(hD l).2.2.1]; ring
    rw [ex, ey, ez, eN, eO]
    unfold divJ3
    dsimp only
    have i0 : (![(c 0 - 1) % (gx.n : Int), c 1, c 2] : Fin 3 → Int) 0 = (c 0 - 1) % (gx.n : Int) := rfl
    have i1 : (![(c 0 - 1) % (gx.n : Int), c 1, c 2] : Fin 3 → Int) 1 = c 1 := rfl
    have i2 : (![(c 0 - 1) % (gx.n : Int), c 1, c 2] : Fin 3 → Int) 2 = c 2 := rfl
    have j0 : (![c 0, (c 1 - 1) % (gy.n : Int), c 2] : Fin 3 → Int) 0 = c 0 := rfl
    have j1 : (![c 0, (c 1 - 1) % (gy.n : Int), c 2] : Fin 3 → Int) 1 = (c 1 - 1) % (gy.n : Int) := rfl
    have j2 : (![c 0, (c 1 - 1) % (gy.n : Int), c 2] : Fin 3 → Int) 2 = c 2 := rfl
    have k0 : (![c 0, c 1, (c 2 - 1) % (gz.n : Int)] : Fin 3 → Int) 0 = c 0 := rfl
    have k1 : (![c 0, c 1, (c 2 - 1) % (gz.n : Int)] : Fin 3 → Int) 1 = c 1 := rfl
    have k2 : (![c 0, c 1, (c 2 - 1) % (gz.n : Int)] : Fin 3 → Int) 2 = (c 2 - 1) % (gz.n : Int) := rfl
    rw [i0, i1, i2, j0, j1, j2, k0, k1, k2]
    clear ex ey ez eN eO s0x s1x s0y s1y s0z s1z hD
    generalize proj (wrapIdx gx.n (axisOf gx x p.vx dt).i0) (axisOf gx x p.vx dt).S0 (c 0) = A0 at *
    generalize proj (wrapIdx gx.n (axisOf gx x p.vx dt).i0) (axisOf gx x p.vx dt).S1 (c 0) = A1 at *
    generalize proj (wrapIdx gy.n (axisOf gy y p.vy dt).i0) (axisOf gy y p.vy dt).S0 (c 1) = B0 at *
    generalize proj (wrapIdx gy.n (axisOf gy y p.vy dt).i0) (axisOf gy y p.vy dt).S1 (c 1) = B1 at *
    generalize proj (wrapIdx gz.n (axisOf gz z p.vz dt).i0) (axisOf gz z p.vz dt).S0 (c 2) = C0 at *
    generalize proj (wrapIdx gz.n (axisOf gz z p.vz dt).i0) (axisOf gz z p.vz dt).S1 (c 2) = C1 at *
    generalize proj (wrapIdx gx.n (axisOf gx x p.vx dt).i0) (cum (axisOf gx x p.vx dt).DS) (c 0) = CX at *
    generalize proj (wrapIdx gy.n (axisOf gy y p.vy dt).i0) (cum (axisOf gy y p.vy dt).DS) (c 1) = CY at *
    generalize proj (wrapIdx gz.n (axisOf gz z p.vz dt).i0) (cum (axisOf gz z p.vz dt).DS) (c 2) = CZ at *
    generalize proj (wrapIdx gx.n (axisOf gx x p.vx dt).i0) (cum (axisOf gx x p.vx dt).DS)
      ((c 0 - 1) % (gx.n : Int)) = DX at *
    generalize proj (wrapIdx gy.n (axisOf gy y p.vy dt).i0) (cum (axisOf gy y p.vy dt).DS)
      ((c 1 - 1) % (gy.n : Int)) = DY at *
    generalize proj (wrapIdx gz.n (axisOf gz z p.vz dt).i0) (cum (axisOf gz z p.vz dt).DS)
      ((c 2 - 1) % (gz.n : Int)) = DZ at *
    have tx' : CX = A1 - A0 + DX := by linarith
    have ty' : CY = B1 - B0 + DY := by linarith
    have tz' : CZ = C1 - C0 + DZ := by linarith
    rw [tx', ty', tz']
    unfold transW
    field_simp
    ring
  · rw [(hD c).2.2.2, eN]
    ring

theorem inBounds3_of_adds {gx gy gz : Grid1} (hgx : GridOK gx) (hgy : GridOK gy) (hgz : GridOK gz)
    {dt q x y z : ℚ} {p : Mom} {D : Acc 3 → Acc 3} (hD : Adds3 gx gy gz dt q x y z p D) :
    InBounds3 gx gy gz D := by
  intro acc c hc
  have : (∀ f, proj (wrapIdx gx.n (axisOf gx x p.vx dt).i0) f (c 0) = 0)
      ∨ (∀ f, proj (wrapIdx gy.n (axisOf gy y p.vy dt).i0) f (c 1) = 0)
      ∨ (∀ f, proj (wrapIdx gz.n (axisOf gz z p.vz dt).i0) f (c 2) = 0) := by
    by_cases h0 : c 0 < 0 ∨ (gx.n : Int) ≤ c 0
    · exact Or.inl fun f => proj_out gx.n hgx.1 _ f _ h0
    · by_cases h1 : c 1 < 0 ∨ (gy.n : Int) ≤ c 1
      · exact Or.inr (Or.inl fun f => proj_out gy.n hgy.1 _ f _ h1)
      · right; right
        intro f
        apply proj_out gz.n hgz.1
        unfold InArr3 at hc
        omega
  obtain ⟨d1, d2, d3, d4⟩ := hD acc c
  refine ⟨d1.trans ?_, d2.trans ?_, d3.trans ?_, d4.trans ?_⟩ <;> rcases this with h | h | h <;>
    simp only [h, transW] <;> ring

theorem total3_prod (gx gy gz : Grid1) (hgx : GridOK gx) (hgy : GridOK gy) (hgz : GridOK gz) (i0 j0 k0 : Int) (a : ℚ)
    (f g h : Nat → ℚ) :
    total3 gx gy gz (fun l => a * (proj (wrapIdx gx.n i0) f (l 0) * proj (wrapIdx gy.n j0) g (l 1)
        * proj (wrapIdx gz.n k0) h (l 2)))
      = a * ((∑ i ∈ range 5, f i) * (∑ i ∈ range 5, g i) * ∑ i ∈ range 5, h i) := by
  rw [← sum_proj gx.n hgx.1 i0 f, ← sum_proj gy.n hgy.1 j0 g, ← sum_proj gz.n hgz.1 k0 h]
  have := sum3 (range gx.n) (range gy.n) (range gz.n) a (fun i => proj (wrapIdx gx.n i0) f (i : Int))
    (fun i => proj (wrapIdx gy.n j0) g (i : Int)) (fun i => proj (wrapIdx gz.n k0) h (i : Int))
  rw [← this]
  rfl
where
  sum3 (s t u : Finset Nat) (a : ℚ) (F G H : Nat → ℚ) :
      ∑ i ∈ s, ∑ j ∈ t, ∑ k ∈ u, a * (F i * G j * H k) = a * ((∑ i ∈ s, F i) * (∑ j ∈ t, G j) * ∑ k ∈ u, H k) := by
    have e1 : ∀ i j, ∑ k ∈ u, a * (F i * G j * H k) = a * (F i * G j * ∑ k ∈ u, H k) := by
      intro i j
      rw [mul_sum, mul_sum]
    have e2 : ∀ i, ∑ j ∈ t, a * (F i * G j * ∑ k ∈ u, H k) = a * (F i * (∑ j ∈ t, G j) * ∑ k ∈ u, H k) := by
      intro i
      rw [← mul_sum, ← sum_mul, ← mul_sum]
    simp only [e1, e2]
    rw [← mul_sum, ← sum_mul, ← sum_mul]

theorem totals3_of_adds {gx gy gz : Grid1} (hgx : GridOK gx) (hgy : GridOK gy) (hgz : GridOK gz)
    {dt q x y z : ℚ} (hdt : dt ≠ 0) {p : Mom} (cx : |p.vx * dt| ≤ gx.d) (cy : |p.vy * dt| ≤ gy.d)
    (cz : |p.vz * dt| ≤ gz.d) {D : Acc 3 → Acc 3} (hD : Adds3 gx gy gz dt q x y z p D) :
    Totals3 gx gy gz q p D := by
  intro acc r
  have hD := hD acc
  have hfx := cfl_axis gx hgx.2 x p.vx dt cx
  have hfy := cfl_axis gy hgy.2 y p.vy dt cy
  have hfz := cfl_axis gz hgz.2 z p.vz dt cz
  have hx : AxOK (axisOf gx x p.vx dt) := mkAxRef_ok hfx
  have hy : AxOK (axisOf gy y p.vy dt) := mkAxRef_ok hfy
  have hz : AxOK (axisOf gz z p.vz dt) := mkAxRef_ok hfz
  have sx : ∑ i ∈ range 5, cum (axisOf gx x p.vx dt).DS i = -(p.vx * dt / gx.d) := by
    rw [← adv_sub_old gx hgx.2 x]; exact sum_cum hfx
  have sy : ∑ i ∈ range 5, cum (axisOf gy y p.vy dt).DS i = -(p.vy * dt / gy.d) := by
    rw [← adv_sub_old gy hgy.2 y]; exact sum_cum hfy
  have sz : ∑ i ∈ range 5, cum (axisOf gz z p.vz dt).DS i = -(p.vz * dt / gz.d) := by
    rw [← adv_sub_old gz hgz.2 z]; exact sum_cum hfz
  have dxne := hgx.2.ne'
  have dyne := hgy.2.ne'
  have dzne := hgz.2.ne'
  have T := total3_prod gx gy gz hgx hgy hgz (axisOf gx x p.vx dt).i0 (axisOf gy y p.vy dt).i0
    (axisOf gz z p.vz dt).i0
  have add : ∀ F G H K : Arr 3, total3 gx gy gz (fun l => F l + G l + H l + K l)
      = total3 gx gy gz F + total3 gx gy gz G + total3 gx gy gz H + total3 gx gy gz K := by
    intro F G H K; unfold total3; simp only [sum_add_distrib]
  have eJx := fun l => (hD l).1
  have eJy := fun l => (hD l).2.1
  have eJz := fun l => (hD l).2.2.1
  have eR := fun l => (hD l).2.2.2
  clear hD
  generalize hax : axisOf gx x p.vx dt = ax at *
  generalize hay : axisOf gy y p.vy dt = ay at *
  generalize haz : axisOf gz z p.vz dt = az at *
  refine ⟨?_, ?_, ?_, ?_⟩
  · have e : (fun l => r.rho l - acc.rho l) = fun l => q * p.w / (gx.d * gy.d * gz.d)
        * (proj (wrapIdx gx.n ax.i0) ax.S1 (l 0) * proj (wrapIdx gy.n ay.i0) ay.S1 (l 1)
          * proj (wrapIdx gz.n az.i0) az.S1 (l 2)) := by
      funext l; rw [eR]; ring
    rw [e, T, hx.sum1, hy.sum1, hz.sum1]
    field_simp
  · let a := -(q * p.w / (gx.d * gy.d * gz.d) / dt * gx.d)
    have e : (fun l => r.jx l - acc.jx l) = fun l =>
        a * (1/3) * (proj (wrapIdx gx.n ax.i0) (cum ax.DS) (l 0) * proj (wrapIdx gy.n ay.i0) ay.S0 (l 1)
          * proj (wrapIdx gz.n az.i0) az.S0 (l 2))
        + a * (1/6) * (proj (wrapIdx gx.n ax.i0) (cum ax.DS) (l 0) * proj (wrapIdx gy.n ay.i0) ay.S1 (l 1)
          * proj (wrapIdx gz.n az.i0) az.S0 (l 2))
        + a * (1/6) * (proj (wrapIdx gx.n ax.i0) (cum ax.DS) (l 0) * proj (wrapIdx gy.n ay.i0) ay.S0 (l 1)
          * proj (wrapIdx gz.n az.i0) az.S1 (l 2))
        + a * (1/3) * (proj (wrapIdx gx.n ax.i0) (cum ax.DS) (l 0) * proj (wrapIdx gy.n ay.i0) ay.S1 (l 1)
          * proj (wrapIdx gz.n az.i0) az.S1 (l 2)) := by
      funext l; rw [eJx]; unfold transW; ring
    rw [e, add, T, T, T, T, sx, hy.sum0, hy.sum1, hz.sum0, hz.sum1]
    simp only [a]
    field_simp
    ring
  · let a := -(q * p.w / (gx.d * gy.d * gz.d) / dt * gy.d)
    have e : (fun l => r.jy l - acc.jy l) = fun l =>
        a * (1/3) * (proj (wrapIdx gx.n ax.i0) ax.S0 (l 0) * proj (wrapIdx gy.n ay.i0) (cum ay.DS) (l 1)
          * proj (wrapIdx gz.n az.i0) az.S0 (l 2))
        + a * (1/6) * (proj (wrapIdx gx.n ax.i0) ax.S1 (l 0) * proj (wrapIdx gy.n ay.i0) (cum ay.DS) (l 1)
          * proj (wrapIdx gz.n az.i0) az.S0 (l 2))
        + a * (1/6) * (proj (wrapIdx gx.n ax.i0) ax.S0 (l 0) * proj (wrapIdx gy.n ay.i0) (cum ay.DS) (l 1)
          * proj (wrapIdx gz.n az.i0) az.S1 (l 2))
        + a * (1/3) * (proj (wrapIdx gx.n ax.i0) ax.S1 (l 0) * proj (wrapIdx gy.n ay.i0) (cum ay.DS) (l 1)
          * proj (wrapIdx gz.n az.i0) az.S1 (l 2)) := by
      funext l; rw [eJy]; unfold transW; ring
    rw [e, add, T, T, T, T, sy, hx.sum0, hx.sum1, hz.sum0, hz.sum1]
    simp only [a]
    field_simp
    ring
  · let a := -(q * p.w / (gx.d * gy.d * gz.d) / dt * gz.d)
    have e : (fun l => r.jz l - acc.jz l) = fun l =>
        a * (1/3) * (proj (wrapIdx gx.n ax.i0) ax.S0 (l 0) * proj (wrapIdx gy.n ay.i0) ay.S0 (l 1)
          * proj (wrapIdx gz.n az.i0) (cum az.DS) (l 2))
        + a * (1/6) * (proj (wrapIdx gx.n ax.i0) ax.S1 (l 0) * proj (wrapIdx gy.n ay.i0) ay.S0 (l 1)
          * proj (wrapIdx gz.n az.i0) (cum az.DS) (l 2))
        + a * (1/6) * (proj (wrapIdx gx.n ax.i0) ax.S0 (l 0) * proj (wrapIdx gy.n ay.i0) ay.S1 (l 1)
          * proj (wrapIdx gz.n az.i0) (cum az.DS) (l 2))
        + a * (1/3) * (proj (wrapIdx gx.n ax.i0) ax.S1 (l 0) * proj (wrapIdx gy.n ay.i0) ay.S1 (l 1)
          * proj (wrapIdx gz.n az.i0) (cum az.DS) (l 2)) := by
      funext l; rw [eJz]; unfold transW; ring
    rw [e, add, T, T, T, T, sz, hx.sum0, hx.sum1, hy.sum0, hy.sum1]
    simp only [a]
    field_simp
    ring

/-- C19. The reference 3D deposition: continuity in every array entry, totals, and no write outside the array, for
every particle that moves at most one cell per axis and whose stencil the array can address. -/
theorem charge_conserving3_ref (gx gy gz : Grid1) (hgx : GridOK gx) (hgy : GridOK gy) (hgz : GridOK gz)
    (dt q x y z : ℚ) (hdt : dt ≠ 0) (p : Mom) (cx : |p.vx * dt| ≤ gx.d) (cy : |p.vy * dt| ≤ gy.d)
    (cz : |p.vz * dt| ≤ gz.d) (fx : Fits gx x p.vx dt) (fy : Fits gy y p.vy dt) (fz : Fits gz z p.vz dt) :
    Conserves3 gx gy gz dt q x y z p (deposit3Ref gx gy gz dt q x y z p)
    ∧ Totals3 gx gy gz q p (deposit3Ref gx gy gz dt q x y z p)
    ∧ InBounds3 gx gy gz (deposit3Ref gx gy gz dt q x y z p) :=
  have h := deposit3Ref_adds gx gy gz hgx hgy hgz dt q x y z p cx cy cz fx fy fz
  ⟨conserves3_of_adds hgx hgy hgz hdt cx cy cz h, totals3_of_adds hgx hgy hgz hdt cx cy cz h,
    inBounds3_of_adds hgx hgy hgz h⟩

/-- C19. The 3D deposition of the unified pusher: the same, wherever the particle is. -/
theorem charge_conserving3_fast (gx gy gz : Grid1) (hgx : GridOK gx) (hgy : GridOK gy) (hgz : GridOK gz)
    (nx : 2 ≤ gx.n) (ny : 2 ≤ gy.n) (nz : 2 ≤ gz.n)
    (dt q x y z : ℚ) (hdt : dt ≠ 0) (p : Mom) (cx : |p.vx * dt| ≤ gx.d) (cy : |p.vy * dt| ≤ gy.d)
    (cz : |p.vz * dt| ≤ gz.d) :
    Conserves3 gx gy gz dt q x y z p (deposit3Fast gx gy gz dt q x y z p)
    ∧ Totals3 gx gy gz q p (deposit3Fast gx gy gz dt q x y z p)
    ∧ InBounds3 gx gy gz (deposit3Fast gx gy gz dt q x y z p) :=
  have h := deposit3Fast_adds gx gy gz hgx hgy hgz nx ny nz dt q x y z hdt p cx cy cz
  ⟨conserves3_of_adds hgx hgy hgz hdt cx cy cz h, totals3_of_adds hgx hgy hgz hdt cx cy cz h,
    inBounds3_of_adds hgx hgy hgz h⟩

/-! ### All particles of a patch, 3D -/

/-- sum over the living particles of a patch that have coordinates -/
def sumParts3 (F : ℚ → ℚ → ℚ → Mom → ℚ) : List Part3 → ℚ
  | [] => 0
  | p :: ps => (match p.dead, p.x, p.y, p.z with
    | false, .val x, .val y, .val z => F x y z p.mom
    | _, _, _, _ => 0) + sumParts3 F ps

/-- every living particle with coordinates moves at most one cell per axis, and its stencil is addressable -/
def CFL3 (gx gy gz : Grid1) (dt : ℚ) (ps : List Part3) : Prop :=
  ∀ p ∈ ps, ∀ x y z, p.dead = false → p.x = .val x → p.y = .val y → p.z = .val z →
    (|p.mom.vx * dt| ≤ gx.d ∧ |p.mom.vy * dt| ≤ gy.d ∧ |p.mom.vz * dt| ≤ gz.d)
    ∧ Fits gx x p.mom.vx dt ∧ Fits gy y p.mom.vy dt ∧ Fits gz z p.mom.vz dt

/-- C19 for the deposition of a whole patch. -/
theorem charge_conserving_patch3 (gx gy gz : Grid1) (hgx : GridOK gx) (hgy : GridOK gy) (hgz : GridOK gz) (dt q : ℚ)
    (hdt : dt ≠ 0) (ps : List Part3) (hcfl : CFL3 gx gy gz dt ps) (acc : Acc 3) (c : Fin 3 → Int)
    (hc : InArr3 gx gy gz c) :
    let r := depositPatch3 gx gy gz dt q ps acc
    let rhoOld := sumParts3 (fun x y z p =>
      density3 gx gy gz q p.w (x - p.vx * dt / 2) (y - p.vy * dt / 2) (z - p.vz * dt / 2) c) ps
    let rhoNew := sumParts3 (fun x y z p =>
      density3 gx gy gz q p.w (x + p.vx * dt / 2) (y + p.vy * dt / 2) (z + p.vz * dt / 2) c) ps
    (rhoNew - rhoOld) / dt
        + divJ3 gx gy gz (fun l => r.jx l - acc.jx l) (fun l => r.jy l - acc.jy l) (fun l => r.jz l - acc.jz l) c = 0
      ∧ r.rho c - acc.rho c = rhoNew := by
  induction ps generalizing acc with
  | nil => simp [depositPatch3, sumParts3, divJ3]
  | cons p ps ih =>
    intro r rhoOld rhoNew
    have hcfl' : CFL3 gx gy gz dt ps := fun p' hp' => hcfl p' (List.mem_cons_of_mem _ hp')
    obtain ⟨px, py, pz, pm, pd⟩ := p
    by_cases hs : ∃ x y z, pd = false ∧ px = .val x ∧ py = .val y ∧ pz = .val z
    · obtain ⟨x, y, z, rfl, rfl, rfl, rfl⟩ := hs
      obtain ⟨⟨cx, cy, cz⟩, fx, fy, fz⟩ := hcfl _ List.mem_cons_self x y z rfl rfl rfl rfl
      have one := (charge_conserving3_ref gx gy gz hgx hgy hgz dt q x y z hdt pm cx cy cz fx fy fz).1 acc c hc
      have rest := ih hcfl' (deposit3Ref gx gy gz dt q x y z pm acc)
      have e0 : r = depositPatch3 gx gy gz dt q ps (deposit3Ref gx gy gz dt q x y z pm acc) := rfl
      have es : ∀ F, sumParts3 F (⟨.val x, .val y, .val z, pm, false⟩ :: ps) = F x y z pm + sumParts3 F ps :=
        fun F => rfl
      dsimp only at one rest
      rw [← e0] at rest
      obtain ⟨o1, o2⟩ := one
      obtain ⟨t1, t2⟩ := rest
      show (sumParts3 _ (⟨.val x, .val y, .val z, pm, false⟩ :: ps)
        - sumParts3 _ (⟨.val x, .val y, .val z, pm, false⟩ :: ps)) / dt
        + _ = 0 ∧ _ = sumParts3 _ (⟨.val x, .val y, .val z, pm, false⟩ :: ps)
      rw [es, es]
      constructor
      · unfold divJ3 at o1 t1 ⊢
        dsimp only at o1 t1 ⊢
        linear_combination o1 + t1
      · linear_combination o2 + t2
    · have e0 : r = depositPatch3 gx gy gz dt q ps acc := by
        show depositPatch3 gx gy gz dt q (⟨px, py, pz, pm, pd⟩ :: ps) acc = _
        unfold depositPatch3
        rw [List.foldl_cons]
        congr 1
        cases pd with
        | true => rfl
        | false => cases px with
          | nan => rfl
          | val x => cases py with
            | nan => rfl
            | val y => cases pz with
              | nan => rfl
              | val z => exact absurd ⟨x, y, z, rfl, rfl, rfl, rfl⟩ hs
      have es : ∀ F, sumParts3 F (⟨px, py, pz, pm, pd⟩ :: ps) = sumParts3 F ps := by
        intro F
        rw [sumParts3]
        cases pd with
        | true => exact zero_add _
        | false => cases px with
          | nan => exact zero_add _
          | val x => cases py with
            | nan => exact zero_add _
            | val y => cases pz with
              | nan => exact zero_add _
              | val z => exact absurd ⟨x, y, z, rfl, rfl, rfl, rfl⟩ hs
      have := ih hcfl' acc
      dsimp only at this
      rw [← es, ← es, ← e0] at this
      exact this

/-! ## C20: optimised = reference -/

/-- C20 in 2D, for every particle, with no condition on its speed or position. -/
theorem fast_eq_ref2 (gx gy : Grid1) (hgx : gx.d ≠ 0) (hgy : gy.d ≠ 0) (dt q x y : ℚ) (hdt : dt ≠ 0) (p : Mom)
    (acc : Acc 2) : deposit2Fast gx gy dt q x y p acc = deposit2 gx gy dt q x y p acc := by
  unfold deposit2Fast deposit2
  dsimp only
  have e1 : q / (gx.d * gy.d) * p.w = q * p.w / (gx.d * gy.d) := by ring
  have e2 : q / (gy.d * dt) * p.w = q * p.w / (gx.d * gy.d) / dt * gx.d := by field_simp
  have e3 : q / (gx.d * dt) * p.w = q * p.w / (gx.d * gy.d) / dt * gy.d := by field_simp
  have e4 : q * p.w / (gx.d * gy.d) * p.vz = q * p.w / (gx.d * gy.d) / dt * dt * p.vz := by field_simp
  rw [e1, e2, e3, e4]
  generalize mkAx _ _ _ = ax
  generalize mkAx _ _ _ = ay
  split
  · rename_i h
    have sx : ax.start = 1 ∧ ax.stop = 4 := by unfold Ax.start Ax.stop; rw [h.1]; decide
    have sy : ay.start = 1 ∧ ay.stop = 4 := by unfold Ax.start Ax.stop; rw [h.2]; decide
    rw [sx.1, sx.2, sy.1, sy.2]
  · rfl

/-- C20 in 3D, for every particle whose stencil the reference code can address (the reference code writes out of
bounds otherwise) and that moves at most one cell per axis (the stencil buffers overflow otherwise). -/
theorem fast_eq_ref3 (gx gy gz : Grid1) (hgx : GridOK gx) (hgy : GridOK gy) (hgz : GridOK gz)
    (nx : 2 ≤ gx.n) (ny : 2 ≤ gy.n) (nz : 2 ≤ gz.n)
    (dt q x y z : ℚ) (hdt : dt ≠ 0) (p : Mom) (cx : |p.vx * dt| ≤ gx.d) (cy : |p.vy * dt| ≤ gy.d)
    (cz : |p.vz * dt| ≤ gz.d) (fx : Fits gx x p.vx dt) (fy : Fits gy y p.vy dt) (fz : Fits gz z p.vz dt)
    (acc : Acc 3) : deposit3Fast gx gy gz dt q x y z p acc = deposit3Ref gx gy gz dt q x y z p acc := by
  have h1 := deposit3Fast_adds gx gy gz hgx hgy hgz nx ny nz dt q x y z hdt p cx cy cz acc
  have h2 := deposit3Ref_adds gx gy gz hgx hgy hgz dt q x y z p cx cy cz fx fy fz acc
  have e : ∀ A B : Acc 3, A.jx = B.jx → A.jy = B.jy → A.jz = B.jz → A.rho = B.rho → A = B := by
    rintro ⟨⟩ ⟨⟩ rfl rfl rfl rfl; rfl
  apply e
  · funext l; exact (h1 l).1.trans (h2 l).1.symm
  · funext l; exact (h1 l).2.1.trans (h2 l).2.1.symm
  · funext l; exact (h1 l).2.2.1.trans (h2 l).2.2.1.symm
  · funext l; exact (h1 l).2.2.2.trans (h2 l).2.2.2.symm

/-! ## C21: the weights -/

/-- C21. For an offset within half a cell the five weights are the particle shape at the five stencil points, are
non-negative and add up to one, whichever neighbouring cell the particle crossed into. -/
theorem weights_partition (delta : ℚ) (h1 : -(1/2) ≤ delta) (h2 : delta ≤ 1/2) (shift : Int)
    (hs : shift = -1 ∨ shift = 0 ∨ shift = 1) :
    (∀ i, 0 ≤ calcS delta shift i) ∧ ∑ i ∈ range 5, calcS delta shift i = 1
    ∧ ∑ i ∈ range 5, ((i : ℚ) - 2) * calcS delta shift i = shift - delta := by
  refine ⟨fun i => ?_, calcS_sum delta shift hs, calcS_moment delta shift hs⟩
  have a1 : 0 ≤ 1 / 2 * (delta * delta + delta + 1 / 4) := by nlinarith [sq_nonneg (delta + 1/2)]
  have a2 : 0 ≤ 3 / 4 - delta * delta := by nlinarith
  have a3 : 0 ≤ 1 / 2 * (delta * delta - delta + 1 / 4) := by nlinarith [sq_nonneg (delta - 1/2)]
  have m1 : (0 : ℚ) ≤ if shift = -1 then 1 else 0 := by split <;> norm_num
  have m2 : (0 : ℚ) ≤ if shift = 0 then 1 else 0 := by split <;> norm_num
  have m3 : (0 : ℚ) ≤ if shift = 1 then 1 else 0 := by split <;> norm_num
  unfold calcS
  split <;> positivity

/-- C21. What a particle at any position gives to the array adds up to one. -/
theorem lineWeight_sum (n : Nat) (hn : 0 < n) (X : ℚ) :
    ∑ c ∈ range n, lineWeight n X (c : Int) = 1 ∧ ∀ c, 0 ≤ lineWeight n X c := by
  constructor
  · have : ∀ c ∈ range n, lineWeight n X (c : Int) = proj (wrapIdx n (mkAxRef X X).i0) (mkAxRef X X).S0 c :=
      fun c _ => (proj_S0 n hn X X c).symm
    rw [sum_congr rfl this, sum_proj n hn]
    exact (mkAxRef_ok (by simp)).sum0
  · intro c
    unfold lineWeight
    refine finsum_nonneg fun m => ?_
    split
    · exact Shape.shape_nonneg _
    · exact le_rfl

/-! ## The hypotheses are met -/

/-- a particle of a 10 by 8 patch (with 3 guard cells) crossing a cell boundary in x and y -/
def exGx : Grid1 := ⟨16, 1/10, 0⟩
/-- second axis -/
def exGy : Grid1 := ⟨14, 1/20, 0⟩
/-- half light speed in x -/
def exMom : Mom := ⟨1, -1/2, 0, 1/2, 3⟩

example : GridOK exGx ∧ GridOK exGy := by unfold GridOK exGx exGy; norm_num
example : |exMom.vx * (1 / 10 ^ 10)| ≤ exGx.d ∧ |exMom.vy * (1 / 10 ^ 10)| ≤ exGy.d := by
  unfold exMom Mom.vx Mom.vy lightSpeed exGx exGy; norm_num [abs_le]
example : InArr2 exGx exGy ![3, 13] := by unfold InArr2 exGx exGy; decide
example : Fits exGx (1/4) exMom.vx (1 / 10 ^ 10) := by
  unfold Fits
  have : ⌊(1/4 - exMom.vx * (1 / 10 ^ 10) / 2 - exGx.x0) / exGx.d + 1/2⌋ = 2 := by
    rw [Int.floor_eq_iff]
    unfold exMom Mom.vx lightSpeed exGx
    norm_num
  rw [this]
  decide

end Verif.DepositProps
