import Verif.Model.Laser
import Mathlib.Tactic.Linarith
import Mathlib.Tactic.Ring
import Mathlib.Tactic.FieldSimp
import Mathlib.Tactic.NormNum
import Mathlib.Tactic.Positivity
import Mathlib.Algebra.BigOperators.Group.List.Basic
import Mathlib.Algebra.Group.Prod
/-!
# Lasers: centre, sums, what is written into the grid
-/
namespace Verif.Laser

/-! ## specification -/

/-- the single lasers a laser is the sum of -/
def Laser.leaves : Laser → List Base
  | .base b => [b]
  | .comb l r => l.leaves ++ r.leaves

/-- a single laser still emits: `c t` is below its stop -/
def Base.On (S : Sim) (b : Base) : Prop := S.K.c * S.time < b.tstop

open Classical in
/-- the parts of a laser that still emit -/
noncomputable def emitting (S : Sim) (l : Laser) : List Base := l.leaves.filter fun b => b.On S

/-- a point at distance `d` from the beam axis (2D) -/
noncomputable def seen2 (d : ℝ) : Pt := ⟨d, 0, |d|, Complex.arg ⟨d, 0⟩⟩
/-- a point at distance `(d, e)` from the beam axis (3D) -/
noncomputable def seen3 (d e : ℝ) : Pt := ⟨d, e, Real.sqrt (d ^ 2 + e ^ 2), Complex.arg ⟨d, e⟩⟩

/-- how strongly the written magnetic field answers to the source -/
noncomputable def gain (K : Const) : ℝ := 4 / ((K.c * K.dt / K.dx + 1) * K.c)

/-! ## the centre -/

/-- **C52, centre (2D), partial.** A laser with an explicit centre `v` other than 0 emits at every grid point the field that belongs to the
distance of the point from `v` (grid points lie half a cell above the field points), whatever the size of the domain. Missing: `v = 0`, see
`laser_centre_fails`. -/
theorem laser_centre2_partial (b : Base) (S : Sim) (p : Patch I2) (v : ℝ) (hv : v ≠ 0) (hb : b.y0 = some v) (iy : Nat) :
    b.source S (points2 S p b iy) = b.source S (seen2 ((p.y0 + iy * S.K.dy - S.K.dy / 2) - v)) := by
  unfold points2 pt2 seen2 pyOr
  rw [hb]
  simp only [hv, if_false]

/-- **C52, centre (3D), partial.** As in 2D, for both axes. -/
theorem laser_centre3_partial (b : Base) (S : Sim) (p : Patch I3) (v w : ℝ) (hv : v ≠ 0) (hw : w ≠ 0) (hb : b.y0 = some v) (hb' : b.z0 = some w)
    (u : Nat × Nat) :
    b.source S (points3 S p b u) =
      b.source S (seen3 ((p.y0 + u.1 * S.K.dy - S.K.dy / 2) - v) ((p.z0 + u.2 * S.K.dz - S.K.dz / 2) - w)) := by
  unfold points3 pt3 seen3 pyOr
  rw [hb, hb']
  simp only [hv, hw, if_false]

/-- without a centre the beam is in the middle of the domain -/
theorem laser_centre_default (b : Base) (S : Sim) (p : Patch I2) (hb : b.y0 = none) (iy : Nat) :
    b.source S (points2 S p b iy) = b.source S (seen2 ((p.y0 + iy * S.K.dy - S.K.dy / 2) - S.Ly / 2)) := by
  unfold points2 pt2 seen2 pyOr
  rw [hb]

/-- a pulse of amplitude 1 and width 1, centred at 0 by the user, at its maximum -/
noncomputable def exBase : Base :=
  ⟨.inl ⟨1, 1, 1 / 2, Real.pi, Real.pi, 0, 0, 0, 0⟩, some 0, none, 1⟩
/-- a domain of height 2 -/
noncomputable def exSim : Sim := ⟨⟨1, 1, 1 / 10, 1 / 10, 1 / 10, 1 / 20⟩, 2, 2, 1 / 2, 6⟩

theorem exBase_source (d : ℝ) : (exBase.source exSim (seen2 d)).1 = Real.exp (-d ^ 2) := by
  have h2 : Real.sqrt (d ^ 2) ^ 2 = d ^ 2 := Real.sq_sqrt (by positivity)
  have h3 : Real.sin (1 * (1 / 2) / (2 * (1 / 2)) * Real.pi) = 1 := by
    rw [show (1 * (1 / 2) / (2 * (1 / 2)) * Real.pi : ℝ) = Real.pi / 2 by ring]; exact Real.sin_pi_div_two
  have h4 : Real.sin (Real.pi * (1 / 2)) = 1 := by
    rw [show (Real.pi * (1 / 2) : ℝ) = Real.pi / 2 by ring]; exact Real.sin_pi_div_two
  simp only [Base.source, exBase, exSim, seen2, Simple.source, Simple.tprof, polarise]
  norm_num [Real.sin_zero, Real.cos_zero] at *
  rw [h2]
  have e1 : Real.sin (2⁻¹ * Real.pi) = 1 := by rw [← h3]; norm_num
  have e2 : Real.sin (Real.pi * 2⁻¹) = 1 := by rw [← h4]; norm_num
  simp [e1, e2]

/-- **C52 is false for a centre of 0**: the laser is put in the middle of the domain, as if no centre had been given. With the centre 0 asked for,
the field on the axis `y = 0` is down by a factor `e` at the maximum of the pulse. -/
theorem laser_centre_fails :
    (∀ (b : Base) (S : Sim) (p : Patch I2) (iy : Nat), b.y0 = some 0 →
      b.source S (points2 S p b iy) = b.source S (seen2 ((p.y0 + iy * S.K.dy - S.K.dy / 2) - S.Ly / 2))) ∧
    (∀ (b : Base) (S : Sim) (p : Patch I3) (u : Nat × Nat) (w : ℝ), w ≠ 0 → b.y0 = some 0 → b.z0 = some w →
      b.source S (points3 S p b u) =
        b.source S (seen3 ((p.y0 + u.1 * S.K.dy - S.K.dy / 2) - S.Ly / 2) ((p.z0 + u.2 * S.K.dz - S.K.dz / 2) - w))) ∧
    ∃ (b : Base) (S : Sim) (p : Patch I2) (iy : Nat), b.y0 = some 0 ∧ p.y0 + iy * S.K.dy - S.K.dy / 2 = 0 ∧
      (b.source S (seen2 0)).1 = 1 ∧ (b.source S (points2 S p b iy)).1 = Real.exp (-1) := by
  refine ⟨?_, ?_, ?_⟩
  · intro b S p iy hb
    unfold points2 pt2 seen2 pyOr
    rw [hb]
    simp only [if_true]
  · intro b S p u w hw hb hb'
    unfold points3 pt3 seen3 pyOr
    rw [hb, hb']
    simp only [if_true, hw, if_false]
  · have h : exBase.y0 = some 0 := rfl
    refine ⟨exBase, exSim, ⟨0, [], ![8, 8, 0], 3, 1 / 20, 0, ⟨fun _ _ => 0, fun _ _ => 0, fun _ _ => 0⟩⟩, 0, h, ?_, ?_, ?_⟩
    · simp only [exSim]; norm_num
    · rw [exBase_source]; norm_num
    · have e : points2 exSim ⟨0, [], ![8, 8, 0], 3, 1 / 20, 0, ⟨fun _ _ => 0, fun _ _ => 0, fun _ _ => 0⟩⟩ exBase 0 = seen2 (-1) := by
        unfold points2 pt2 seen2 pyOr
        rw [h]
        simp only [if_true, exSim]
        norm_num
      rw [e, exBase_source]
      norm_num

/-! ## sums -/

theorem leaves_ne_nil : ∀ l : Laser, l.leaves ≠ []
  | .base _ => by simp [Laser.leaves]
  | .comb l r => by simp [Laser.leaves, leaves_ne_nil l]

theorem tstop_le_iff (x : ℝ) : ∀ l : Laser, l.tstop ≤ x ↔ ∀ b ∈ l.leaves, b.tstop ≤ x
  | .base b => by simp [Laser.tstop, Laser.leaves]
  | .comb l r => by
    simp only [Laser.tstop, Laser.leaves, max_le_iff, tstop_le_iff x l, tstop_le_iff x r, List.mem_append]
    constructor
    · rintro ⟨a, b⟩ q (h | h)
      · exact a q h
      · exact b q h
    · exact fun h => ⟨fun q hq => h q (Or.inl hq), fun q hq => h q (Or.inr hq)⟩

theorem emitting_comb (S : Sim) (l r : Laser) : emitting S (.comb l r) = emitting S l ++ emitting S r := by
  simp only [emitting, Laser.leaves, List.filter_append]

theorem emitting_on (S : Sim) (b : Base) (h : b.On S) : emitting S (.base b) = [b] := by simp [emitting, Laser.leaves, h]

theorem emitting_off (S : Sim) (b : Base) (h : ¬ b.On S) : emitting S (.base b) = [] := by simp [emitting, Laser.leaves, h]

theorem fields_none {J : Type} (S : Sim) (pts : Base → J → Pt) : ∀ l : Laser, l.fields S pts = none ↔ emitting S l = []
  | .base b => by
    by_cases h : S.K.c * S.time ≥ b.tstop
    · rw [emitting_off S b (not_lt.mpr h)]
      simp only [Laser.fields, h, if_true]
    · rw [emitting_on S b (lt_of_not_ge h)]
      simp only [Laser.fields, h, if_false]
      simp
  | .comb l r => by
    rw [emitting_comb, List.append_eq_nil_iff, ← fields_none S pts l, ← fields_none S pts r]
    simp only [Laser.fields]
    cases hl : l.fields S pts <;> cases hr : r.fields S pts <;> simp

/-- **C52, sums.** However lasers are added up, the source of the sum is the sum of the sources of the parts that still emit, each seen from its
own centre; there is no source exactly when none emits, which is when the stop time of the sum is reached. -/
theorem combined_sources {J : Type} (S : Sim) (pts : Base → J → Pt) (l : Laser) :
    (l.fields S pts = none ↔ emitting S l = []) ∧ (emitting S l = [] ↔ S.K.c * S.time ≥ l.tstop) ∧
    ∀ src, l.fields S pts = some src → ∀ j, src j = ((emitting S l).map fun b => b.source S (pts b j)).sum := by
  refine ⟨fields_none S pts l, ?_, ?_⟩
  · unfold emitting
    rw [List.filter_eq_nil_iff, ge_iff_le, tstop_le_iff]
    unfold Base.On
    simp only [decide_eq_true_eq, not_lt]
  · induction l with
    | base b =>
      intro src hs j
      by_cases h : S.K.c * S.time ≥ b.tstop
      · simp only [Laser.fields, h, if_true] at hs
        exact absurd hs (by simp)
      · simp only [Laser.fields, h, if_false, Option.some.injEq] at hs
        subst hs
        rw [emitting_on S b (lt_of_not_ge h)]
        simp
    | comb l r ihl ihr =>
      intro src hs j
      rw [emitting_comb, List.map_append, List.sum_append]
      simp only [Laser.fields] at hs
      cases hl : l.fields S pts with
      | none =>
        cases hr : r.fields S pts with
        | none => simp [hl, hr] at hs
        | some s =>
          simp only [hl, hr, Option.some.injEq] at hs
          subst hs
          rw [(fields_none S pts l).mp hl, ← ihr s hr j]
          simp
      | some s =>
        cases hr : r.fields S pts with
        | none =>
          simp only [hl, hr, Option.some.injEq] at hs
          subst hs
          rw [(fields_none S pts r).mp hr, ← ihl s hl j]
          simp
        | some s' =>
          simp only [hl, hr, Option.some.injEq] at hs
          subst hs
          rw [← ihl s hl j, ← ihr s' hr j]

/-! ## the kernels -/

/-- same fields outside of one row of the magnetic field -/
def Off {I : Type} (row : I → Int) (r : Int) (f g : LF I) : Prop :=
  f.e = g.e ∧ f.j = g.j ∧ ∀ d x, row x ≠ r → f.b d x = g.b d x

theorem Off.trans {I : Type} {row : I → Int} {r : Int} {f g h : LF I} (a : Off row r f g) (b : Off row r g h) : Off row r f h :=
  ⟨a.1.trans b.1, a.2.1.trans b.2.1, fun d x hx => (a.2.2 d x hx).trans (b.2.2 d x hx)⟩

/-- a loop that writes only row `r`, with values that do not depend on row `r` -/
theorem fold_row {I κ : Type} (row : I → Int) (r : Int) (body : LF I → κ → LF I) (hit : Fin 3 → κ → I → Prop) (V : Fin 3 → LF I → I → ℝ)
    (hrow : ∀ d k x, hit d k x → row x = r)
    (hV : ∀ f g, Off row r f g → ∀ d x, (∃ k, hit d k x) → V d f x = V d g x)
    (hb : ∀ f k, (body f k).e = f.e ∧ (body f k).j = f.j ∧
      ∀ d x, (hit d k x → (body f k).b d x = V d f x) ∧ (¬ hit d k x → (body f k).b d x = f.b d x)) :
    ∀ (l : List κ) (f : LF I), Off row r (l.foldl body f) f ∧
      ∀ d x, ((∃ k ∈ l, hit d k x) → (l.foldl body f).b d x = V d f x) ∧
        ((¬ ∃ k ∈ l, hit d k x) → (l.foldl body f).b d x = f.b d x)
  | [], f => ⟨⟨rfl, rfl, fun _ _ _ => rfl⟩, fun d x => ⟨fun ⟨k, hk, _⟩ => by simp at hk, fun _ => rfl⟩⟩
  | k :: l, f => by
    obtain ⟨h1, h2, h3⟩ := hb f k
    have off : Off row r (body f k) f := ⟨h1, h2, fun d x hx => (h3 d x).2 fun h => hx (hrow d k x h)⟩
    obtain ⟨i1, i2⟩ := fold_row row r body hit V hrow hV hb l (body f k)
    rw [List.foldl_cons]
    refine ⟨i1.trans off, fun d x => ⟨?_, ?_⟩⟩
    · intro hk
      by_cases hl : ∃ k ∈ l, hit d k x
      · rw [(i2 d x).1 hl]
        obtain ⟨k', -, hk'⟩ := hl
        exact hV _ _ off d x ⟨k', hk'⟩
      · rw [(i2 d x).2 hl]
        obtain ⟨k', hm, hk'⟩ := hk
        rcases List.mem_cons.mp hm with rfl | hm
        · exact (h3 d x).1 hk'
        · exact absurd ⟨k', hm, hk'⟩ hl
    · intro hk
      rw [(i2 d x).2 fun ⟨k', hm, hk'⟩ => hk ⟨k', by simp [hm], hk'⟩]
      exact (h3 d x).2 fun h => hk ⟨k, by simp, h⟩

theorem wrap_nat (N : Nat) (i : Nat) : wrap N i = i := by unfold wrap; rw [if_neg]; omega
theorem wrap_neg (N : Nat) : wrap N (-1) = (N : Int) - 1 := by unfold wrap; rw [if_pos (by omega)]; omega

theorem bz2_off {K : Const} {NX L : Nat} {s : Nat → ℝ} {f g : LF I2} (hL : 2 ≤ L) (hN : L < NX)
    (h : Off Prod.fst ((L : Int) - 1) f g) (iy : Nat) : bz2 K NX L s f iy = bz2 K NX L s g iy := by
  unfold bz2
  have a0 : ∀ d, f.b d (wrap NX 0, (iy : Int)) = g.b d (wrap NX 0, (iy : Int)) := fun d => h.2.2 d _ (by
    show wrap NX 0 ≠ _; rw [show (0 : Int) = ((0 : Nat) : Int) by rfl, wrap_nat]; omega)
  have a1 : ∀ d, f.b d (wrap NX (-1), (iy : Int)) = g.b d (wrap NX (-1), (iy : Int)) := fun d => h.2.2 d _ (by
    show wrap NX (-1) ≠ _; rw [wrap_neg]; omega)
  have a2 : ∀ d, f.b d (wrap NX L, (iy : Int)) = g.b d (wrap NX L, (iy : Int)) := fun d => h.2.2 d _ (by
    show wrap NX L ≠ _; rw [wrap_nat]; omega)
  simp only [h.1, h.2.1, a0, a1, a2]

theorem by2_off {K : Const} {NX NY L : Nat} {s : Nat → ℝ} {f g : LF I2} (hL : 2 ≤ L) (hN : L < NX)
    (h : Off Prod.fst ((L : Int) - 1) f g) (iy : Nat) : by2 K NX NY L s f iy = by2 K NX NY L s g iy := by
  unfold by2
  have a0 : ∀ d, f.b d (wrap NX 0, (iy : Int)) = g.b d (wrap NX 0, (iy : Int)) := fun d => h.2.2 d _ (by
    show wrap NX 0 ≠ _; rw [show (0 : Int) = ((0 : Nat) : Int) by rfl, wrap_nat]; omega)
  have a1 : ∀ d, f.b d (wrap NX (-1), (iy : Int)) = g.b d (wrap NX (-1), (iy : Int)) := fun d => h.2.2 d _ (by
    show wrap NX (-1) ≠ _; rw [wrap_neg]; omega)
  have a2 : ∀ d (y : Int), f.b d (wrap NX L, y) = g.b d (wrap NX L, y) := fun d y => h.2.2 d _ (by
    show wrap NX L ≠ _; rw [wrap_nat]; omega)
  simp only [h.1, h.2.1, a0, a1, a2]

theorem bz3_off {K : Const} {NX NZ L : Nat} {s : Nat × Nat → ℝ} {f g : LF I3} (hL : 2 ≤ L) (hN : L < NX)
    (h : Off Prod.fst ((L : Int) - 1) f g) (u : Nat × Nat) : bz3 K NX NZ L s f u = bz3 K NX NZ L s g u := by
  unfold bz3
  have a0 : ∀ d (y z : Int), f.b d (wrap NX 0, y, z) = g.b d (wrap NX 0, y, z) := fun d y z => h.2.2 d _ (by
    show wrap NX 0 ≠ _; rw [show (0 : Int) = ((0 : Nat) : Int) by rfl, wrap_nat]; omega)
  have a1 : ∀ d (y z : Int), f.b d (wrap NX (-1), y, z) = g.b d (wrap NX (-1), y, z) := fun d y z => h.2.2 d _ (by
    show wrap NX (-1) ≠ _; rw [wrap_neg]; omega)
  have a2 : ∀ d (y z : Int), f.b d (wrap NX L, y, z) = g.b d (wrap NX L, y, z) := fun d y z => h.2.2 d _ (by
    show wrap NX L ≠ _; rw [wrap_nat]; omega)
  simp only [h.1, h.2.1, a0, a1, a2]

theorem by3_off {K : Const} {NX NY L : Nat} {s : Nat × Nat → ℝ} {f g : LF I3} (hL : 2 ≤ L) (hN : L < NX)
    (h : Off Prod.fst ((L : Int) - 1) f g) (u : Nat × Nat) : by3 K NX NY L s f u = by3 K NX NY L s g u := by
  unfold by3
  have a0 : ∀ d (y z : Int), f.b d (wrap NX 0, y, z) = g.b d (wrap NX 0, y, z) := fun d y z => h.2.2 d _ (by
    show wrap NX 0 ≠ _; rw [show (0 : Int) = ((0 : Nat) : Int) by rfl, wrap_nat]; omega)
  have a1 : ∀ d (y z : Int), f.b d (wrap NX (-1), y, z) = g.b d (wrap NX (-1), y, z) := fun d y z => h.2.2 d _ (by
    show wrap NX (-1) ≠ _; rw [wrap_neg]; omega)
  have a2 : ∀ d (y z : Int), f.b d (wrap NX L, y, z) = g.b d (wrap NX L, y, z) := fun d y z => h.2.2 d _ (by
    show wrap NX L ≠ _; rw [wrap_nat]; omega)
  simp only [h.1, h.2.1, a0, a1, a2]

theorem over_off {I : Type} {row : I → Int} {r : Int} (f : LF I) (c : Fin 3) (pos : I → Prop) (v : I → ℝ) (h : ∀ x, pos x → row x = r) :
    Off row r (f.over c pos v) f :=
  ⟨rfl, rfl, fun d x hx => by
    unfold LF.over
    exact if_neg fun e => hx (h x e.2)⟩

theorem over_hit {I : Type} (f : LF I) (c : Fin 3) (pos : I → Prop) (v : I → ℝ) (x : I) (h : pos x) : (f.over c pos v).b c x = v x := by
  unfold LF.over; exact if_pos ⟨rfl, h⟩

theorem over_miss {I : Type} (f : LF I) (c d : Fin 3) (pos : I → Prop) (v : I → ℝ) (x : I) (h : d ≠ c ∨ ¬ pos x) :
    (f.over c pos v).b d x = f.b d x := by
  unfold LF.over; exact if_neg fun e => h.elim (fun a => a e.1) fun a => a e.2

/-- the magnetic field written by the 2D kernel, component by component -/
noncomputable def written2 (K : Const) (NX NY L : Nat) (src : Nat → ℝ × ℝ) (f : LF I2) (d : Fin 3) (iy : Nat) : ℝ :=
  ![f.b 0 (0, (iy : Int)), by2 K NX NY L (fun i => (src i).2) f iy, bz2 K NX L (fun i => (src i).1) f iy] d

/-- **the 2D kernel**: exactly the cells of row `L - 1` between `lo` and `hi` are written, from the fields before the call -/
theorem update2_eq (K : Const) (NX NY L lo hi : Nat) (hL : 2 ≤ L) (hN : L < NX) (src : Nat → ℝ × ℝ) (f : LF I2) :
    (update2 K NX NY L lo hi src f).e = f.e ∧ (update2 K NX NY L lo hi src f).j = f.j ∧
    (∀ d (iy : Nat), lo ≤ iy → iy < hi → (update2 K NX NY L lo hi src f).b d ((L : Int) - 1, (iy : Int)) = written2 K NX NY L src f d iy) ∧
    (∀ d x, (∀ iy : Nat, lo ≤ iy → iy < hi → x ≠ ((L : Int) - 1, (iy : Int))) → (update2 K NX NY L lo hi src f).b d x = f.b d x) := by
  have A := fold_row (I := I2) (κ := Nat) Prod.fst ((L : Int) - 1) (bxBody2 L) (fun d k x => d = 0 ∧ x = ((L : Int) - 1, (k : Int)))
    (fun _ f x => f.b 0 (0, x.2)) (fun d k x h => by rw [h.2])
    (fun f g h d x _ => h.2.2 0 _ (by show (0 : Int) ≠ _; omega))
    (fun f k => ⟨rfl, rfl, fun d x => ⟨fun h => by
        obtain ⟨rfl, h⟩ := h; exact over_hit f 0 _ _ x h,
      fun h => over_miss f 0 d _ _ x (by
        by_cases e : d = 0
        · exact Or.inr fun hx => h ⟨e, hx⟩
        · exact Or.inl e)⟩⟩)
    (List.range' lo (hi - lo)) f
  have B := fold_row (I := I2) (κ := Nat) Prod.fst ((L : Int) - 1) (bBody2 K NX NY L src)
    (fun d k x => d ≠ 0 ∧ x = ((L : Int) - 1, (k : Int)))
    (fun d f x => if d = 2 then bz2 K NX L (fun i => (src i).1) f x.2.toNat else by2 K NX NY L (fun i => (src i).2) f x.2.toNat)
    (fun d k x h => by rw [h.2])
    (fun f g h d x _ => by
      show (if d = 2 then _ else _) = if d = 2 then _ else _
      rw [bz2_off hL hN h, by2_off hL hN h])
    (fun f k => ⟨rfl, rfl, fun d x => by
      have off := over_off (row := Prod.fst) (r := (L : Int) - 1) f 2 (fun x => x = ((L : Int) - 1, (k : Int)))
        (fun _ => bz2 K NX L (fun i => (src i).1) f k) (fun x hx => by rw [hx])
      refine ⟨fun h => ?_, fun h => ?_⟩
      · obtain ⟨h0, rfl⟩ := h
        match d with
        | 0 => exact absurd rfl h0
        | 1 =>
          refine (over_hit _ 1 (fun x => x = ((L : Int) - 1, (k : Int))) _ _ rfl).trans ?_
          rw [by2_off hL hN off]
          simp
        | 2 =>
          refine (over_miss _ 1 2 _ _ _ (Or.inl (by decide))).trans ?_
          refine (over_hit _ 2 (fun x => x = ((L : Int) - 1, (k : Int))) _ _ rfl).trans ?_
          simp
      · by_cases hx : x = ((L : Int) - 1, (k : Int))
        · have h0 : d = 0 := by by_contra e; exact h ⟨e, hx⟩
          subst h0
          exact (over_miss _ 1 0 _ _ _ (Or.inl (by decide))).trans (over_miss _ 2 0 _ _ _ (Or.inl (by decide)))
        · exact (over_miss _ 1 d (fun x => x = ((L : Int) - 1, (k : Int))) _ _ (Or.inr hx)).trans (over_miss _ 2 d (fun x => x = ((L : Int) - 1, (k : Int))) _ _ (Or.inr hx))⟩)
    (List.range' lo (hi - lo)) ((List.range' lo (hi - lo)).foldl (bxBody2 L) f)
  have mem : ∀ k : Nat, k ∈ List.range' lo (hi - lo) ↔ lo ≤ k ∧ k < hi := by intro k; rw [List.mem_range'_1]; omega
  have e : update2 K NX NY L lo hi src f = (List.range' lo (hi - lo)).foldl (bBody2 K NX NY L src) ((List.range' lo (hi - lo)).foldl (bxBody2 L) f) := rfl
  rw [e]
  refine ⟨B.1.1.trans A.1.1, B.1.2.1.trans A.1.2.1, ?_, ?_⟩
  · intro d iy h1 h2
    match d with
    | 0 =>
      rw [(B.2 0 _).2 (by rintro ⟨k, -, h, -⟩; exact h rfl), (A.2 0 _).1 ⟨iy, (mem iy).mpr ⟨h1, h2⟩, rfl, rfl⟩]
      rfl
    | 1 =>
      rw [(B.2 1 _).1 ⟨iy, (mem iy).mpr ⟨h1, h2⟩, by decide, rfl⟩]
      rw [if_neg (by decide), by2_off hL hN A.1]
      rfl
    | 2 =>
      rw [(B.2 2 _).1 ⟨iy, (mem iy).mpr ⟨h1, h2⟩, by decide, rfl⟩]
      rw [if_pos rfl, bz2_off hL hN A.1]
      rfl
  · intro d x hx
    rw [(B.2 d _).2 (by rintro ⟨k, hk, -, h⟩; exact hx k ((mem k).mp hk).1 ((mem k).mp hk).2 h),
      (A.2 d _).2 (by rintro ⟨k, hk, -, h⟩; exact hx k ((mem k).mp hk).1 ((mem k).mp hk).2 h)]

/-- the magnetic field written by the 3D kernel -/
noncomputable def written3 (K : Const) (NX NY NZ L : Nat) (src : Nat × Nat → ℝ × ℝ) (f : LF I3) (d : Fin 3) (u : Nat × Nat) : ℝ :=
  ![f.b 0 (0, (u.1 : Int), (u.2 : Int)), by3 K NX NY L (fun i => (src i).2) f u, bz3 K NX NZ L (fun i => (src i).1) f u] d

/-- **the 3D kernel**: in row `L - 1` the cells between the limits get the written field; `bx` is also copied where z is outside of the limits;
nothing else changes -/
theorem update3_eq (K : Const) (NX NY NZ L ylo yhi zlo zhi : Nat) (hL : 2 ≤ L) (hN : L < NX) (src : Nat × Nat → ℝ × ℝ) (f : LF I3) :
    let g := update3 K NX NY NZ L ylo yhi zlo zhi src f
    g.e = f.e ∧ g.j = f.j ∧
    (∀ d (u : Nat × Nat), ylo ≤ u.1 → u.1 < yhi → zlo ≤ u.2 → u.2 < zhi →
      g.b d ((L : Int) - 1, (u.1 : Int), (u.2 : Int)) = written3 K NX NY NZ L src f d u) ∧
    (∀ (iy : Nat) (z : Int), ylo ≤ iy → iy < yhi → g.b 0 ((L : Int) - 1, (iy : Int), z) = f.b 0 (0, (iy : Int), z)) ∧
    (∀ x, (∀ (iy : Nat) (z : Int), ylo ≤ iy → iy < yhi → x ≠ ((L : Int) - 1, (iy : Int), z)) → g.b 0 x = f.b 0 x) ∧
    (∀ d x, d ≠ 0 → (∀ u : Nat × Nat, ylo ≤ u.1 → u.1 < yhi → zlo ≤ u.2 → u.2 < zhi → x ≠ ((L : Int) - 1, (u.1 : Int), (u.2 : Int))) →
      g.b d x = f.b d x) := by
  have A := fold_row (I := I3) (κ := Nat) Prod.fst ((L : Int) - 1) (bxBody3 L) (fun d k x => d = 0 ∧ x.1 = (L : Int) - 1 ∧ x.2.1 = (k : Int))
    (fun _ f x => f.b 0 (0, x.2.1, x.2.2)) (fun d k x h => h.2.1)
    (fun f g h d x _ => h.2.2 0 _ (by show (0 : Int) ≠ _; omega))
    (fun f k => ⟨rfl, rfl, fun d x => ⟨fun h => by
        obtain ⟨rfl, h⟩ := h; exact over_hit f 0 _ _ x h,
      fun h => over_miss f 0 d _ _ x (by
        by_cases e : d = 0
        · exact Or.inr fun hx => h ⟨e, hx⟩
        · exact Or.inl e)⟩⟩)
    (List.range' ylo (yhi - ylo)) f
  have B := fold_row (I := I3) (κ := Nat × Nat) Prod.fst ((L : Int) - 1) (bBody3 K NX NY NZ L src)
    (fun d k x => d ≠ 0 ∧ x = ((L : Int) - 1, (k.1 : Int), (k.2 : Int)))
    (fun d f x => if d = 2 then bz3 K NX NZ L (fun i => (src i).1) f (x.2.1.toNat, x.2.2.toNat)
      else by3 K NX NY L (fun i => (src i).2) f (x.2.1.toNat, x.2.2.toNat))
    (fun d k x h => by rw [h.2])
    (fun f g h d x _ => by
      show (if d = 2 then _ else _) = if d = 2 then _ else _
      rw [bz3_off hL hN h, by3_off hL hN h])
    (fun f k => ⟨rfl, rfl, fun d x => by
      have off := over_off (row := Prod.fst) (r := (L : Int) - 1) f 2 (fun x : I3 => x = ((L : Int) - 1, (k.1 : Int), (k.2 : Int)))
        (fun _ => bz3 K NX NZ L (fun i => (src i).1) f k) (fun x hx => by rw [hx])
      refine ⟨fun h => ?_, fun h => ?_⟩
      · obtain ⟨h0, rfl⟩ := h
        match d with
        | 0 => exact absurd rfl h0
        | 1 =>
          refine (over_hit _ 1 (fun x : I3 => x = ((L : Int) - 1, (k.1 : Int), (k.2 : Int))) _ _ rfl).trans ?_
          rw [by3_off hL hN off]
          simp
        | 2 =>
          refine (over_miss _ 1 2 _ _ _ (Or.inl (by decide))).trans ?_
          refine (over_hit _ 2 (fun x : I3 => x = ((L : Int) - 1, (k.1 : Int), (k.2 : Int))) _ _ rfl).trans ?_
          simp
      · by_cases hx : x = ((L : Int) - 1, (k.1 : Int), (k.2 : Int))
        · have h0 : d = 0 := by by_contra e; exact h ⟨e, hx⟩
          subst h0
          exact (over_miss _ 1 0 _ _ _ (Or.inl (by decide))).trans (over_miss _ 2 0 _ _ _ (Or.inl (by decide)))
        · exact (over_miss _ 1 d (fun x : I3 => x = ((L : Int) - 1, (k.1 : Int), (k.2 : Int))) _ _ (Or.inr hx)).trans (over_miss _ 2 d (fun x : I3 => x = ((L : Int) - 1, (k.1 : Int), (k.2 : Int))) _ _ (Or.inr hx))⟩)
    ((List.range' ylo (yhi - ylo)).flatMap fun iy => (List.range' zlo (zhi - zlo)).map fun iz => (iy, iz))
    ((List.range' ylo (yhi - ylo)).foldl (bxBody3 L) f)
  have memy : ∀ k : Nat, k ∈ List.range' ylo (yhi - ylo) ↔ ylo ≤ k ∧ k < yhi := by intro k; rw [List.mem_range'_1]; omega
  have mem : ∀ u : Nat × Nat, u ∈ ((List.range' ylo (yhi - ylo)).flatMap fun iy => (List.range' zlo (zhi - zlo)).map fun iz => (iy, iz)) ↔
      ylo ≤ u.1 ∧ u.1 < yhi ∧ zlo ≤ u.2 ∧ u.2 < zhi := by
    intro u
    rw [List.mem_flatMap]
    constructor
    · rintro ⟨a, ha, hu⟩
      obtain ⟨b, hb, rfl⟩ := List.mem_map.mp hu
      have := (memy a).mp ha
      rw [List.mem_range'_1] at hb
      refine ⟨this.1, this.2, ?_, ?_⟩ <;> dsimp only <;> omega
    · rintro ⟨h1, h2, h3, h4⟩
      exact ⟨u.1, (memy _).mpr ⟨h1, h2⟩, List.mem_map.mpr ⟨u.2, by rw [List.mem_range'_1]; omega, rfl⟩⟩
  intro g
  have e : g = ((List.range' ylo (yhi - ylo)).flatMap fun iy => (List.range' zlo (zhi - zlo)).map fun iz => (iy, iz)).foldl
      (bBody3 K NX NY NZ L src) ((List.range' ylo (yhi - ylo)).foldl (bxBody3 L) f) := rfl
  rw [e]
  refine ⟨B.1.1.trans A.1.1, B.1.2.1.trans A.1.2.1, ?_, ?_, ?_, ?_⟩
  · intro d u h1 h2 h3 h4
    have hu := (mem u).mpr ⟨h1, h2, h3, h4⟩
    match d with
    | 0 =>
      rw [(B.2 0 _).2 (by rintro ⟨k, -, h, -⟩; exact h rfl), (A.2 0 _).1 ⟨u.1, (memy _).mpr ⟨h1, h2⟩, rfl, rfl, rfl⟩]
      rfl
    | 1 =>
      rw [(B.2 1 _).1 ⟨u, hu, by decide, rfl⟩]
      rw [if_neg (by decide), by3_off hL hN A.1]
      rfl
    | 2 =>
      rw [(B.2 2 _).1 ⟨u, hu, by decide, rfl⟩]
      rw [if_pos rfl, bz3_off hL hN A.1]
      rfl
  · intro iy z h1 h2
    rw [(B.2 0 _).2 (by rintro ⟨k, -, h, -⟩; exact h rfl), (A.2 0 _).1 ⟨iy, (memy _).mpr ⟨h1, h2⟩, rfl, rfl, rfl⟩]
  · intro x hx
    rw [(B.2 0 _).2 (by rintro ⟨k, -, h, -⟩; exact h rfl), (A.2 0 _).2 (by
      rintro ⟨k, hk, -, h1, h2⟩
      exact hx k x.2.2 ((memy k).mp hk).1 ((memy k).mp hk).2 (by rw [← h1, ← h2]))]
  · intro d x hd hx
    rw [(B.2 d _).2 (by rintro ⟨k, hk, -, h⟩; have := (mem k).mp hk; exact hx k this.1 this.2.1 this.2.2.1 this.2.2.2 h),
      (A.2 d _).2 (by rintro ⟨k, -, h, -⟩; exact hd h)]

/-- what the 2D kernel writes is what it writes without a source, plus the gain times the source -/
theorem written2_linear (K : Const) (NX NY L : Nat) (src : Nat → ℝ × ℝ) (f : LF I2) (d : Fin 3) (iy : Nat) :
    written2 K NX NY L src f d iy =
      written2 K NX NY L (fun _ => 0) f d iy + gain K * ![0, -(src iy).2, (src iy).1] d := by
  unfold written2 gain bz2 by2
  match d with
  | 0 => simp
  | 1 => simp only [Matrix.cons_val_one, Matrix.cons_val_zero, Prod.snd_zero]; ring
  | 2 => simp only [Matrix.cons_val, Prod.fst_zero]; ring

/-- what the 3D kernel writes is what it writes without a source, plus the gain times the source -/
theorem written3_linear (K : Const) (NX NY NZ L : Nat) (src : Nat × Nat → ℝ × ℝ) (f : LF I3) (d : Fin 3) (u : Nat × Nat) :
    written3 K NX NY NZ L src f d u =
      written3 K NX NY NZ L (fun _ => 0) f d u + gain K * ![0, -(src u).2, (src u).1] d := by
  unfold written3 gain bz3 by3
  match d with
  | 0 => simp
  | 1 => simp only [Matrix.cons_val_one, Matrix.cons_val_zero, Prod.snd_zero]; ring
  | 2 => simp only [Matrix.cons_val, Prod.fst_zero]; ring
/-! ## the callback -/

/-- Specification: thickness of the absorbing layer of a patch at a side, 0 if there is none; a patch is given with the list of its layers -/
def depth (p : List (String × Nat)) (side : String) : Nat := (((p.filter fun l => decide (l.1 = side)).map (·.2)).head?).getD 0

theorem pmlThick_depth (p : List (String × Nat)) (side : String) : pmlThick p side 0 = depth p side := by
  unfold pmlThick depth
  induction p with
  | nil => rfl
  | cons l p ih =>
    by_cases h : l.1 = side
    · rw [List.find?_cons_of_pos (by simp [h]), List.filter_cons_of_pos (by simp [h])]
      rfl
    · rw [List.find?_cons_of_neg (by simp [h]), List.filter_cons_of_neg (by simp [h])]
      exact ih

/-- the y cells into which a laser is injected in 2D: those outside of the absorbing layers -/
def yRange (p : List (String × Nat)) (n iy : Nat) : Prop := depth p "ymin" ≤ iy ∧ iy < n - depth p "ymax"
/-- the z cells into which a laser is injected -/
def zRange (p : List (String × Nat)) (n iz : Nat) : Prop := depth p "zmin" ≤ iz ∧ iz < n - depth p "zmax"

/-- Specification (2D): patch `q` is patch `p` after the laser has acted: only leftmost patches change, only the magnetic field, only the cells one
above the absorbing layer; there it is what the boundary gives without laser plus the gain times the sum of the fields of all parts that emit -/
structure Injected2 (S : Sim) (l : Laser) (p q : Patch I2) : Prop where
  others : p.ix ≠ 0 → q = p
  same : q.ix = p.ix ∧ q.pml = p.pml ∧ q.n = p.n ∧ q.ng = p.ng ∧ q.y0 = p.y0 ∧ q.z0 = p.z0 ∧ q.f.e = p.f.e ∧ q.f.j = p.f.j
  outside : ∀ d x, (∀ iy : Nat, yRange p.pml (p.n 1) iy → x ≠ ((S.thick : Int) + 1, (iy : Int))) → q.f.b d x = p.f.b d x
  inside : p.ix = 0 → ∀ d (iy : Nat), yRange p.pml (p.n 1) iy →
    let E := ((emitting S l).map fun b => b.source S (points2 S p b iy)).sum
    q.f.b d ((S.thick : Int) + 1, (iy : Int)) =
      written2 S.K (p.n 0 + 2 * p.ng) (p.n 1 + 2 * p.ng) (S.thick + 2) (fun _ => 0) p.f d iy + gain S.K * ![0, -E.2, E.1] d

/-- Specification (3D): as in 2D; the x component is also copied in the cells of the row that lie in absorbing layers or guard cells in z -/
structure Injected3 (S : Sim) (l : Laser) (p q : Patch I3) : Prop where
  others : p.ix ≠ 0 → q = p
  same : q.ix = p.ix ∧ q.pml = p.pml ∧ q.n = p.n ∧ q.ng = p.ng ∧ q.y0 = p.y0 ∧ q.z0 = p.z0 ∧ q.f.e = p.f.e ∧ q.f.j = p.f.j
  outside : ∀ d x, d ≠ 0 → (∀ u : Nat × Nat, yRange p.pml (p.n 1) u.1 → zRange p.pml (p.n 2) u.2 →
    x ≠ ((S.thick : Int) + 1, (u.1 : Int), (u.2 : Int))) → q.f.b d x = p.f.b d x
  outsidex : ∀ x, (∀ (iy : Nat) (z : Int), yRange p.pml (p.n 1) iy → x ≠ ((S.thick : Int) + 1, (iy : Int), z)) → q.f.b 0 x = p.f.b 0 x
  insidex : p.ix = 0 → ∀ (iy : Nat) (z : Int), yRange p.pml (p.n 1) iy →
    q.f.b 0 ((S.thick : Int) + 1, (iy : Int), z) = p.f.b 0 (0, (iy : Int), z)
  inside : p.ix = 0 → ∀ d (u : Nat × Nat), yRange p.pml (p.n 1) u.1 → zRange p.pml (p.n 2) u.2 →
    let E := ((emitting S l).map fun b => b.source S (points3 S p b u)).sum
    q.f.b d ((S.thick : Int) + 1, (u.1 : Int), (u.2 : Int)) =
      written3 S.K (p.n 0 + 2 * p.ng) (p.n 1 + 2 * p.ng) (p.n 2 + 2 * p.ng) (S.thick + 2) (fun _ => 0) p.f d u + gain S.K * ![0, -E.2, E.1] d

/-- a patch on which absorbing layers can be built (cpml.py 46-47), with at least one guard cell -/
def Fits {I : Type} (S : Sim) (p : Patch I) : Prop := S.thick < p.n 0 ∧ 1 ≤ p.ng

theorem rowEq (n : Nat) : ((n + 2 : Nat) : Int) - 1 = (n : Int) + 1 := by omega

theorem patchUpdate2_spec (S : Sim) (l : Laser) (p : Patch I2) (hp : Fits S p) (h0 : p.ix = 0) (src : Nat → ℝ × ℝ)
    (hs : ∀ j, src j = ((emitting S l).map fun b => b.source S (points2 S p b j)).sum) : Injected2 S l p (patchUpdate2 S src p) := by
  have U := update2_eq S.K (p.n 0 + 2 * p.ng) (p.n 1 + 2 * p.ng) (S.thick + 2) (pmlThick p.pml "ymin" 0) (p.n 1 - pmlThick p.pml "ymax" 0)
    (by omega) (by have := hp.1; have := hp.2; omega) src p.f
  rw [rowEq] at U
  simp only [patchUpdate2, pmlThick_depth] at U ⊢
  refine ⟨fun h => absurd h0 h, ⟨rfl, rfl, rfl, rfl, rfl, rfl, U.1, U.2.1⟩, ?_, ?_⟩
  · intro d x hx
    exact U.2.2.2 d x fun iy h1 h2 => hx iy ⟨h1, h2⟩
  · intro _ d iy hy
    refine (U.2.2.1 d iy hy.1 hy.2).trans ?_
    rw [written2_linear, hs iy]

theorem patchUpdate3_spec (S : Sim) (l : Laser) (p : Patch I3) (hp : Fits S p) (h0 : p.ix = 0) (src : Nat × Nat → ℝ × ℝ)
    (hs : ∀ j, src j = ((emitting S l).map fun b => b.source S (points3 S p b j)).sum) : Injected3 S l p (patchUpdate3 S src p) := by
  have U := update3_eq S.K (p.n 0 + 2 * p.ng) (p.n 1 + 2 * p.ng) (p.n 2 + 2 * p.ng) (S.thick + 2) (pmlThick p.pml "ymin" 0)
    (p.n 1 - pmlThick p.pml "ymax" 0) (pmlThick p.pml "zmin" 0) (p.n 2 - pmlThick p.pml "zmax" 0)
    (by omega) (by have := hp.1; have := hp.2; omega) src p.f
  rw [rowEq] at U
  simp only [patchUpdate3, pmlThick_depth] at U ⊢
  obtain ⟨u1, u2, u3, u4, u5, u6⟩ := U
  refine ⟨fun h => absurd h0 h, ⟨rfl, rfl, rfl, rfl, rfl, rfl, u1, u2⟩, ?_, ?_, ?_, ?_⟩
  · intro d x hd hx
    exact u6 d x hd fun u h1 h2 h3 h4 => hx u ⟨h1, h2⟩ ⟨h3, h4⟩
  · intro x hx
    exact u5 x fun iy z h1 h2 => hx iy z ⟨h1, h2⟩
  · intro _ iy z hy
    exact u4 iy z hy.1 hy.2
  · intro _ d u hy hz
    refine (u3 d u hy.1 hy.2 hz.1 hz.2).trans ?_
    rw [written3_linear, hs u]

/-- whether a call injects: the laser is not disabled, the stop is not reached, every leftmost patch of the rank has its absorbing layer -/
def Acts {I : Type} (l : Laser) (S : Sim) (dis : Bool) (ps : List (Patch I)) : Prop :=
  dis = false ∧ S.K.c * S.time < l.tstop ∧ (ps.filter fun p => p.ix == 0).length ≤ nPmlXmin ps

theorem call_acts {I J : Type} (upd : Sim → (J → ℝ × ℝ) → Patch I → Patch I) (pts : Sim → Patch I → Base → J → Pt) (l : Laser) (S : Sim)
    (ps : List (Patch I)) (dis : Bool) (h : Acts l S dis ps) :
    ∃ src : Patch I → J → ℝ × ℝ, (∀ p, l.fields S (pts S p) = some (src p)) ∧
      (∀ p j, src p j = ((emitting S l).map fun b => b.source S (pts S p b j)).sum) ∧
      call upd pts l S (dis, ps) = (false, ps.map fun p => if p.ix = 0 then upd S (src p) p else p) := by
  have hs : ∃ src : Patch I → J → ℝ × ℝ, ∀ p, l.fields S (pts S p) = some (src p) := by
    apply Classical.axiomOfChoice (r := fun p src => l.fields S (pts S p) = some src)
    intro p
    cases e : l.fields S (pts S p) with
    | some s => exact ⟨s, rfl⟩
    | none =>
      have := (combined_sources S (pts S p) l).2.1.mp ((combined_sources S (pts S p) l).1.mp e)
      exact absurd h.2.1 (not_lt.mpr this)
  obtain ⟨src, hs⟩ := hs
  refine ⟨src, hs, fun p j => (combined_sources S (pts S p) l).2.2 _ (hs p) j, ?_⟩
  unfold call
  rw [h.1]
  simp only [Bool.false_eq_true, if_false, not_le.mpr h.2.1, ge_iff_le, not_lt.mpr h.2.2]
  congr 1
  apply List.map_congr_left
  intro p _
  by_cases h0 : p.ix = 0
  · simp only [h0, if_true]
    rw [hs p]
  · simp only [h0, if_false]

theorem call_idle {I J : Type} (upd : Sim → (J → ℝ × ℝ) → Patch I → Patch I) (pts : Sim → Patch I → Base → J → Pt) (l : Laser) (S : Sim)
    (ps : List (Patch I)) (dis : Bool) (h : ¬ Acts l S dis ps) : call upd pts l S (dis, ps) = (true, ps) := by
  unfold call
  cases dis with
  | true => simp
  | false =>
    simp only [Bool.false_eq_true, if_false]
    by_cases h1 : S.K.c * S.time ≥ l.tstop
    · simp only [h1, if_true]
    · simp only [h1, if_false]
      by_cases h2 : nPmlXmin ps < (ps.filter fun p => p.ix == 0).length
      · simp only [h2, if_true]
      · exact absurd ⟨rfl, lt_of_not_ge h1, not_lt.mp h2⟩ h

/-- **C52, injection (2D).** A call of a laser — single or a sum of any shape — on a rank with any patches: if it acts, every patch is changed as
specified, the fields of the emitting parts entering with their sum; if not, nothing changes and the laser is disabled; a disabled laser stays so. -/
theorem laser_call2 (l : Laser) (S : Sim) (ps : List (Patch I2)) (dis : Bool) (hp : ∀ p ∈ ps, Fits S p) :
    (Acts l S dis ps → (call patchUpdate2 points2 l S (dis, ps)).1 = false ∧
      List.Forall₂ (Injected2 S l) ps (call patchUpdate2 points2 l S (dis, ps)).2) ∧
    (¬ Acts l S dis ps → call patchUpdate2 points2 l S (dis, ps) = (true, ps)) := by
  refine ⟨fun h => ?_, call_idle _ _ l S ps dis⟩
  obtain ⟨src, -, h2, h3⟩ := call_acts patchUpdate2 points2 l S ps dis h
  rw [h3]
  refine ⟨rfl, ?_⟩
  rw [List.forall₂_map_right_iff, List.forall₂_same]
  intro p hm
  by_cases h0 : p.ix = 0
  · rw [if_pos h0]
    exact patchUpdate2_spec S l p (hp p hm) h0 (src p) (h2 p)
  · rw [if_neg h0]
    exact ⟨fun _ => rfl, ⟨rfl, rfl, rfl, rfl, rfl, rfl, rfl, rfl⟩, fun _ _ _ => rfl, fun e => absurd e h0⟩

/-- **C52, injection (3D).** As in 2D. -/
theorem laser_call3 (l : Laser) (S : Sim) (ps : List (Patch I3)) (dis : Bool) (hp : ∀ p ∈ ps, Fits S p) :
    (Acts l S dis ps → (call patchUpdate3 points3 l S (dis, ps)).1 = false ∧
      List.Forall₂ (Injected3 S l) ps (call patchUpdate3 points3 l S (dis, ps)).2) ∧
    (¬ Acts l S dis ps → call patchUpdate3 points3 l S (dis, ps) = (true, ps)) := by
  refine ⟨fun h => ?_, call_idle _ _ l S ps dis⟩
  obtain ⟨src, -, h2, h3⟩ := call_acts patchUpdate3 points3 l S ps dis h
  rw [h3]
  refine ⟨rfl, ?_⟩
  rw [List.forall₂_map_right_iff, List.forall₂_same]
  intro p hm
  by_cases h0 : p.ix = 0
  · rw [if_pos h0]
    exact patchUpdate3_spec S l p (hp p hm) h0 (src p) (h2 p)
  · rw [if_neg h0]
    exact ⟨fun _ => rfl, ⟨rfl, rfl, rfl, rfl, rfl, rfl, rfl, rfl⟩, fun _ _ _ _ => rfl, fun _ _ => rfl, fun e => absurd e h0, fun e => absurd e h0⟩

/-! ### two lasers that are not added -/

theorem LF.ext' {I : Type} {f g : LF I} (h1 : f.e = g.e) (h2 : f.j = g.j) (h3 : ∀ d x, f.b d x = g.b d x) : f = g := by
  cases f; cases g
  simp only at h1 h2 h3
  subst h1; subst h2
  have := funext fun d => funext fun x => h3 d x
  subst this
  rfl

theorem overwrite2 (K : Const) (NX NY L lo hi : Nat) (hL : 2 ≤ L) (hN : L < NX) (s t : Nat → ℝ × ℝ) (f : LF I2) :
    update2 K NX NY L lo hi t (update2 K NX NY L lo hi s f) = update2 K NX NY L lo hi t f := by
  obtain ⟨a1, a2, a3, a4⟩ := update2_eq K NX NY L lo hi hL hN s f
  obtain ⟨b1, b2, b3, b4⟩ := update2_eq K NX NY L lo hi hL hN t f
  obtain ⟨c1, c2, c3, c4⟩ := update2_eq K NX NY L lo hi hL hN t (update2 K NX NY L lo hi s f)
  have off : Off Prod.fst ((L : Int) - 1) (update2 K NX NY L lo hi s f) f := ⟨a1, a2, fun d x hx => a4 d x fun iy _ _ e => hx (by rw [e])⟩
  refine LF.ext' (c1.trans (a1.trans b1.symm)) (c2.trans (a2.trans b2.symm)) fun d x => ?_
  by_cases h : ∃ iy : Nat, lo ≤ iy ∧ iy < hi ∧ x = ((L : Int) - 1, (iy : Int))
  · obtain ⟨iy, h1, h2, rfl⟩ := h
    rw [c3 d iy h1 h2, b3 d iy h1 h2]
    unfold written2
    rw [bz2_off hL hN off, by2_off hL hN off, off.2.2 0 (0, (iy : Int)) (by show (0 : Int) ≠ _; omega)]
  · have hx : ∀ iy : Nat, lo ≤ iy → iy < hi → x ≠ ((L : Int) - 1, (iy : Int)) := fun iy h1 h2 e => h ⟨iy, h1, h2, e⟩
    rw [c4 d x hx, a4 d x hx, b4 d x hx]

theorem overwrite3 (K : Const) (NX NY NZ L ylo yhi zlo zhi : Nat) (hL : 2 ≤ L) (hN : L < NX) (s t : Nat × Nat → ℝ × ℝ) (f : LF I3) :
    update3 K NX NY NZ L ylo yhi zlo zhi t (update3 K NX NY NZ L ylo yhi zlo zhi s f) = update3 K NX NY NZ L ylo yhi zlo zhi t f := by
  obtain ⟨a1, a2, a3, a4, a5, a6⟩ := update3_eq K NX NY NZ L ylo yhi zlo zhi hL hN s f
  obtain ⟨b1, b2, b3, b4, b5, b6⟩ := update3_eq K NX NY NZ L ylo yhi zlo zhi hL hN t f
  obtain ⟨c1, c2, c3, c4, c5, c6⟩ := update3_eq K NX NY NZ L ylo yhi zlo zhi hL hN t (update3 K NX NY NZ L ylo yhi zlo zhi s f)
  have off : Off Prod.fst ((L : Int) - 1) (update3 K NX NY NZ L ylo yhi zlo zhi s f) f := ⟨a1, a2, fun d x hx => by
    by_cases hd : d = 0
    · subst hd
      exact a5 x fun iy z _ _ e => hx (by rw [e])
    · exact a6 d x hd fun u _ _ _ _ e => hx (by rw [e])⟩
  refine LF.ext' (c1.trans (a1.trans b1.symm)) (c2.trans (a2.trans b2.symm)) fun d x => ?_
  by_cases hd : d = 0
  · subst hd
    by_cases h : ∃ (iy : Nat) (z : Int), ylo ≤ iy ∧ iy < yhi ∧ x = ((L : Int) - 1, (iy : Int), z)
    · obtain ⟨iy, z, h1, h2, rfl⟩ := h
      rw [c4 iy z h1 h2, b4 iy z h1 h2, off.2.2 0 (0, (iy : Int), z) (by show (0 : Int) ≠ _; omega)]
    · have hx : ∀ (iy : Nat) (z : Int), ylo ≤ iy → iy < yhi → x ≠ ((L : Int) - 1, (iy : Int), z) := fun iy z h1 h2 e => h ⟨iy, z, h1, h2, e⟩
      rw [c5 x hx, a5 x hx, b5 x hx]
  · by_cases h : ∃ u : Nat × Nat, ylo ≤ u.1 ∧ u.1 < yhi ∧ zlo ≤ u.2 ∧ u.2 < zhi ∧ x = ((L : Int) - 1, (u.1 : Int), (u.2 : Int))
    · obtain ⟨u, h1, h2, h3, h4, rfl⟩ := h
      rw [c3 d u h1 h2 h3 h4, b3 d u h1 h2 h3 h4]
      unfold written3
      rw [bz3_off hL hN off, by3_off hL hN off, off.2.2 0 (0, (u.1 : Int), (u.2 : Int)) (by show (0 : Int) ≠ _; omega)]
    · have hx : ∀ u : Nat × Nat, ylo ≤ u.1 → u.1 < yhi → zlo ≤ u.2 → u.2 < zhi → x ≠ ((L : Int) - 1, (u.1 : Int), (u.2 : Int)) :=
        fun u h1 h2 h3 h4 e => h ⟨u, h1, h2, h3, h4, e⟩
      rw [c6 d x hd hx, a6 d x hd hx, b6 d x hd hx]

theorem call_overwrites {I J : Type} (upd : Sim → (J → ℝ × ℝ) → Patch I → Patch I) (pts : Sim → Patch I → Base → J → Pt) (S : Sim)
    (good : Patch I → Prop) (h1 : ∀ s p, (upd S s p).ix = p.ix ∧ (upd S s p).pml = p.pml) (h2 : ∀ s p, pts S (upd S s p) = pts S p)
    (h3 : ∀ s t p, good p → upd S t (upd S s p) = upd S t p) (a b : Laser) (ps : List (Patch I)) (hp : ∀ p ∈ ps, good p) (da db : Bool)
    (ha : Acts a S da ps) (hb : Acts b S db ps) :
    call upd pts b S (db, (call upd pts a S (da, ps)).2) = call upd pts b S (db, ps) := by
  obtain ⟨sa, -, -, ea⟩ := call_acts upd pts a S ps da ha
  obtain ⟨sb, fb, -, eb⟩ := call_acts upd pts b S ps db hb
  rw [ea, eb]
  have k : ∀ l : List (Patch I), (l.map fun p => if p.ix = 0 then upd S (sa p) p else p).filter (fun p => p.ix == 0) =
      (l.filter fun p => p.ix == 0).map fun p => upd S (sa p) p := by
    intro l
    induction l with
    | nil => rfl
    | cons p l ih =>
      by_cases h0 : p.ix = 0
      · simp [h0, (h1 (sa p) p).1, ih]
      · simp [h0, ih]
  have hb' : Acts b S db (ps.map fun p => if p.ix = 0 then upd S (sa p) p else p) := by
    refine ⟨hb.1, hb.2.1, ?_⟩
    unfold nPmlXmin
    rw [k, List.length_map, List.flatMap_map]
    simp only [(h1 _ _).2]
    exact hb.2.2
  obtain ⟨sb', fb', -, eb'⟩ := call_acts upd pts b S _ db hb'
  rw [eb']
  congr 1
  rw [List.map_map]
  apply List.map_congr_left
  intro p hm
  simp only [Function.comp]
  by_cases h0 : p.ix = 0
  · simp only [h0, if_true, (h1 (sa p) p).1]
    rw [h3 _ _ p (hp p hm)]
    have := fb' (upd S (sa p) p)
    rw [h2, fb p] at this
    rw [Option.some.inj this]
  · simp only [h0, if_false]

/-- **Two lasers given to a run one after the other do not add up**: whatever the first one is, after the second one has acted the fields are as if
the first one did not exist (2D and 3D). Only lasers combined with `+` inject their sum. -/
theorem separate_lasers_fails (a b : Laser) (S : Sim) (da db : Bool) :
    (∀ ps : List (Patch I2), (∀ p ∈ ps, Fits S p) → Acts a S da ps → Acts b S db ps →
      call patchUpdate2 points2 b S (db, (call patchUpdate2 points2 a S (da, ps)).2) = call patchUpdate2 points2 b S (db, ps)) ∧
    (∀ ps : List (Patch I3), (∀ p ∈ ps, Fits S p) → Acts a S da ps → Acts b S db ps →
      call patchUpdate3 points3 b S (db, (call patchUpdate3 points3 a S (da, ps)).2) = call patchUpdate3 points3 b S (db, ps)) := by
  refine ⟨fun ps hp ha hb => ?_, fun ps hp ha hb => ?_⟩
  · refine call_overwrites patchUpdate2 points2 S (Fits S) (fun s p => ⟨rfl, rfl⟩) (fun s p => rfl) (fun s t p h => ?_) a b ps hp da db ha hb
    have e := overwrite2 S.K (p.n 0 + 2 * p.ng) (p.n 1 + 2 * p.ng) (S.thick + 2) (pmlThick p.pml "ymin" 0) (p.n 1 - pmlThick p.pml "ymax" 0)
      (by omega) (by have := h.1; have := h.2; omega) s t p.f
    unfold patchUpdate2
    simp only [e]
  · refine call_overwrites patchUpdate3 points3 S (Fits S) (fun s p => ⟨rfl, rfl⟩) (fun s p => rfl) (fun s t p h => ?_) a b ps hp da db ha hb
    have e := overwrite3 S.K (p.n 0 + 2 * p.ng) (p.n 1 + 2 * p.ng) (p.n 2 + 2 * p.ng) (S.thick + 2) (pmlThick p.pml "ymin" 0)
      (p.n 1 - pmlThick p.pml "ymax" 0) (pmlThick p.pml "zmin" 0) (p.n 2 - pmlThick p.pml "zmax" 0)
      (by omega) (by have := h.1; have := h.2; omega) s t p.f
    unfold patchUpdate3
    simp only [e]

/-! ## amplitude and duration -/

/-- both polarisation components together never exceed the amplitude -/
theorem polarise_le (amp phase pol ell : ℝ) :
    (polarise amp phase pol ell).1 ^ 2 + (polarise amp phase pol ell).2 ^ 2 ≤ amp ^ 2 := by
  have hn : Real.sqrt (1 + ell ^ 2) ^ 2 = 1 + ell ^ 2 := Real.sq_sqrt (by positivity)
  have hp : 0 < Real.sqrt (1 + ell ^ 2) := Real.sqrt_pos.mpr (by positivity)
  have h1 := Real.sin_sq_add_cos_sq pol
  have h2 := Real.sin_sq_add_cos_sq phase
  have e : (polarise amp phase pol ell).1 ^ 2 + (polarise amp phase pol ell).2 ^ 2 =
      amp ^ 2 * (Real.sin phase ^ 2 + ell ^ 2 * Real.cos phase ^ 2) / Real.sqrt (1 + ell ^ 2) ^ 2 := by
    unfold polarise
    field_simp
    linear_combination amp ^ 2 * (Real.sin phase ^ 2 + ell ^ 2 * Real.cos phase ^ 2) * h1
  rw [e, hn, div_le_iff₀ (by positivity)]
  apply mul_le_mul_of_nonneg_left _ (sq_nonneg amp)
  have h3 : Real.sin phase ^ 2 ≤ 1 := by nlinarith [sq_nonneg (Real.cos phase)]
  have h4 : ell ^ 2 * Real.cos phase ^ 2 ≤ ell ^ 2 * 1 := mul_le_mul_of_nonneg_left (by nlinarith [sq_nonneg (Real.sin phase)]) (sq_nonneg ell)
  linarith

theorem tprof_le (s : Simple) (c t y : ℝ) : 0 ≤ s.tprof c t y ∧ s.tprof c t y ≤ 1 := by
  unfold Simple.tprof
  have h := Real.sin_sq_add_cos_sq ((c * t - y * Real.sin s.angle) / (2 * s.ctau) * Real.pi)
  have h' := sq_nonneg (Real.cos ((c * t - y * Real.sin s.angle) / (2 * s.ctau) * Real.pi))
  have h'' := sq_nonneg (Real.sin ((c * t - y * Real.sin s.angle) / (2 * s.ctau) * Real.pi))
  dsimp only
  split
  · constructor <;> linarith
  · constructor <;> norm_num

theorem exp_neg_le {x : ℝ} (h : 0 ≤ x) : Real.exp (-x) ≤ 1 := Real.exp_le_one_iff.mpr (by linarith)

theorem sq_le_of_mul {a b : ℝ} (h0 : 0 ≤ b) (h1 : b ≤ 1) : (a * b) ^ 2 ≤ a ^ 2 := by
  rw [mul_pow]
  exact mul_le_of_le_one_right (sq_nonneg a) (by nlinarith)

/-- **C60, amplitude.** The source of a simple laser, and of a Gaussian laser without Laguerre mode, never exceeds the peak field given by `a0`,
at any point and time, for every polarisation, ellipticity, angle, phase and focus. -/
theorem source_amplitude (c t x : ℝ) (p : Pt) :
    (∀ s : Simple, (s.source c t p).1 ^ 2 + (s.source c t p).2 ^ 2 ≤ s.E0 ^ 2) ∧
    (∀ g : Gauss, g.l = 0 → g.p = 0 → 0 < g.w0 → (g.source c t x p).1 ^ 2 + (g.source c t x p).2 ^ 2 ≤ g.E0 ^ 2) := by
  refine ⟨fun s => ?_, fun g hl hp hw => ?_⟩
  · set rr := Real.sqrt ((p.y / Real.cos s.angle) ^ 2 + p.z ^ 2) with hr
    set amp := s.E0 * Real.exp (-rr ^ 2 / s.w0 ^ 2) * s.tprof c t p.y with ha
    set ph := s.omega0 * t + s.cep + -(s.k0 * Real.sin s.angle * p.y + 0 * p.z) with hph
    have e : s.source c t p = ((polarise amp ph s.pol s.ell).1 * Real.cos s.angle, (polarise amp ph s.pol s.ell).2 * Real.cos 0) := rfl
    rw [e]
    have k := polarise_le amp ph s.pol s.ell
    have c1 : Real.cos s.angle ^ 2 ≤ 1 := by nlinarith [Real.sin_sq_add_cos_sq s.angle, sq_nonneg (Real.sin s.angle)]
    have k1 : ((polarise amp ph s.pol s.ell).1 * Real.cos s.angle) ^ 2 ≤ (polarise amp ph s.pol s.ell).1 ^ 2 := by
      rw [mul_pow]; exact mul_le_of_le_one_right (sq_nonneg _) c1
    have k2 : amp ^ 2 ≤ s.E0 ^ 2 := by
      rw [ha, mul_assoc]
      apply sq_le_of_mul
      · exact mul_nonneg (Real.exp_pos _).le (tprof_le s c t p.y).1
      · have : -rr ^ 2 / s.w0 ^ 2 = -(rr ^ 2 / s.w0 ^ 2) := by ring
        rw [this]
        exact mul_le_one₀ (exp_neg_le (by positivity)) (tprof_le s c t p.y).1 (tprof_le s c t p.y).2
    rw [Real.cos_zero, mul_one]
    dsimp only
    linarith
  · have hlg : g.amplg x p.r = 1 := by unfold Gauss.amplg; rw [if_neg]; simp [hl, hp]
    set ph := g.omega0 * t + g.cep - g.k0 * x - g.curv x p.r - (2 * g.p + g.l.natAbs + 1) * Real.arctan ((x - g.focus) / g.zR) - g.phaselg p.phi
      with hph
    set amp := g.E0 * (g.w0 / g.w x) * Real.exp (-p.r ^ 2 / g.w x ^ 2) * g.amplg x p.r * Real.exp (-(c * t - g.x0) ^ 2 / g.ctau ^ 2) with ha
    have e : g.source c t x p = polarise amp ph g.pol g.ell := rfl
    rw [e]
    refine (polarise_le amp ph g.pol g.ell).trans ?_
    have hs1 : 1 ≤ Real.sqrt (1 + ((x - g.focus) / g.zR) ^ 2) := by
      rw [Real.one_le_sqrt]; nlinarith [sq_nonneg ((x - g.focus) / g.zR)]
    have hw1 : g.w0 ≤ g.w x := by unfold Gauss.w; nlinarith
    have hw2 : 0 < g.w x := lt_of_lt_of_le hw hw1
    have e' : amp = g.E0 * ((g.w0 / g.w x) * (Real.exp (-(p.r ^ 2 / g.w x ^ 2)) * Real.exp (-((c * t - g.x0) ^ 2 / g.ctau ^ 2)))) := by
      rw [ha, hlg]
      have a1 : -p.r ^ 2 / g.w x ^ 2 = -(p.r ^ 2 / g.w x ^ 2) := by ring
      have a2 : -(c * t - g.x0) ^ 2 / g.ctau ^ 2 = -((c * t - g.x0) ^ 2 / g.ctau ^ 2) := by ring
      rw [a1, a2]; ring
    rw [e']
    apply sq_le_of_mul
    · exact mul_nonneg (div_nonneg hw.le hw2.le) (mul_nonneg (Real.exp_pos _).le (Real.exp_pos _).le)
    · apply mul_le_one₀ ((div_le_one hw2).mpr hw1) (mul_nonneg (Real.exp_pos _).le (Real.exp_pos _).le)
      exact mul_le_one₀ (exp_neg_le (by positivity)) (Real.exp_pos _).le (exp_neg_le (by positivity))

/-- **C60, duration, partial.** At normal incidence the simple laser emits nothing once `c t` has passed `2 c tau`, and the field is zero when the
pulse begins (`t = 0`). Missing: oblique incidence, see `pulse_early_fails` and `pulse_cut_fails`. -/
theorem pulse_duration_partial (s : Simple) (c t : ℝ) (p : Pt) (ha : s.angle = 0) (h : 2 * s.ctau ≤ c * t ∨ t = 0) : s.source c t p = 0 := by
  have h0 : s.tprof c t p.y = 0 := by
    unfold Simple.tprof
    rw [ha]
    simp only [Real.sin_zero, mul_zero, sub_zero]
    rcases h with h | h
    · rw [if_neg (not_lt.mpr h), mul_zero]
    · subst h; simp
  unfold Simple.source polarise
  rw [h0]
  simp

/-- **At oblique incidence a simple laser emits before its pulse arrives**: the envelope is cut off at its end but not at its beginning. For every
positive angle and every pulse length there is a point of the boundary which the pulse has not reached at time 0 (its local time is negative) but
where the envelope is at its maximum. -/
theorem pulse_early_fails (s : Simple) (c : ℝ) (ha : 0 < s.angle) (ha' : s.angle < Real.pi / 2) (hc : 0 < s.ctau) :
    ∃ y, c * 0 - y * Real.sin s.angle = -s.ctau ∧ s.tprof c 0 y = 1 := by
  have hs : 0 < Real.sin s.angle := Real.sin_pos_of_pos_of_lt_pi ha (by have := Real.pi_pos; linarith)
  refine ⟨s.ctau / Real.sin s.angle, ?_, ?_⟩
  · field_simp; ring
  · have e : c * 0 - s.ctau / Real.sin s.angle * Real.sin s.angle = -s.ctau := by field_simp; ring
    unfold Simple.tprof
    simp only [e]
    rw [if_pos (by linarith), show -s.ctau / (2 * s.ctau) * Real.pi = -(Real.pi / 2) by field_simp, Real.sin_neg, Real.sin_pi_div_two]
    norm_num

/-- **At oblique incidence the default stop cuts the pulse**: `tstop` is `2 c tau` (laser.py 338) whatever the angle. For every positive angle there
is a point where the envelope would be at its maximum at that very time. -/
theorem pulse_cut_fails (s : Simple) (c t : ℝ) (ha : 0 < s.angle) (ha' : s.angle < Real.pi / 2) (hc : 0 < s.ctau) (ht : c * t = 2 * s.ctau) :
    (∃ y, s.tprof c t y = 1) ∧
    ∀ (S : Sim) (y0 z0 : Option ℝ) (pts : Base → Nat → Pt), S.K.c = c → S.time = t →
      (Laser.base ⟨.inl s, y0, z0, 2 * s.ctau⟩).fields S pts = none := by
  have hs : 0 < Real.sin s.angle := Real.sin_pos_of_pos_of_lt_pi ha (by have := Real.pi_pos; linarith)
  refine ⟨⟨s.ctau / Real.sin s.angle, ?_⟩, ?_⟩
  · have e : c * t - s.ctau / Real.sin s.angle * Real.sin s.angle = s.ctau := by rw [ht]; field_simp; ring
    unfold Simple.tprof
    simp only [e]
    rw [if_pos (by linarith), show s.ctau / (2 * s.ctau) * Real.pi = Real.pi / 2 by field_simp, Real.sin_pi_div_two]
    norm_num
  · intro S y0 z0 pts h1 h2
    simp only [Laser.fields, h1, h2, ht, ge_iff_le, le_refl, if_true]

/-! ## the hypotheses are met -/

/-- a rank with one leftmost patch, with its layer, and one other patch -/
noncomputable def exPatches : List (Patch I2) :=
  [⟨0, [("xmin", 6), ("ymin", 6)], ![16, 16, 0], 3, 0, 0, ⟨fun _ _ => 1, fun _ _ => 2, fun _ _ => 3⟩⟩,
   ⟨1, [], ![16, 16, 0], 3, 0, 0, ⟨fun _ _ => 1, fun _ _ => 2, fun _ _ => 3⟩⟩]

example : Acts (.comb (.base exBase) (.base { exBase with y0 := some 1 })) exSim false exPatches ∧ (∀ p ∈ exPatches, Fits exSim p) := by
  refine ⟨⟨rfl, ?_, ?_⟩, ?_⟩
  · simp [Laser.tstop, exBase, exSim]; norm_num
  · simp [exPatches, nPmlXmin]
  · simp [exPatches, Fits, exSim]

/-- both parts of the sum emit -/
example : emitting exSim (.comb (.base exBase) (.base { exBase with y0 := some 1 })) = [exBase, { exBase with y0 := some 1 }] := by
  rw [emitting_comb, emitting_on, emitting_on] <;> simp [Base.On, exBase, exSim] <;> norm_num

/-- an oblique pulse -/
example : let s : Simple := ⟨1, 1, 1 / 2, 1, 1, 1 / 2, 0, 0, 0⟩; 0 < s.angle ∧ s.angle < Real.pi / 2 ∧ 0 < s.ctau := by
  have := Real.two_le_pi
  dsimp only
  norm_num
  linarith
end Verif.Laser
