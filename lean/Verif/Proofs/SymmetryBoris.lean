import Verif.Proofs.Symmetry
/-!
# The momentum update and the weighting of fields in other views
-/
namespace Verif.Symmetry
open Verif.Maxwell Verif.Pusher Verif.Deposit Verif.Shape Verif.WholeRun Verif.PicStep
open Finset (range)

theorem mo_eq {p p' : Mo ℚ} (rs : ℚ → ℚ) (hp : p.ig = rs (1 + p.ux * p.ux + p.uy * p.uy + p.uz * p.uz))
    (hx : p'.ux = p.ux) (hy : p'.uy = p.uy) (hz : p'.uz = p.uz)
    (hp' : p'.ig = rs (1 + p'.ux * p'.ux + p'.uy * p'.uy + p'.uz * p'.uz)) : p' = p := by
  have : p'.ig = p.ig := by rw [hp, hp', hx, hy, hz]
  cases p; cases p'
  simp only at *
  subst hx hy hz this
  rfl

section
variable (rs : ℚ → ℚ) (E B : ℚ) (f : FieldsAt ℚ) (p : Mo ℚ)

theorem boris_swap : borisC rs E B ⟨f.ey, f.ex, f.ez, -f.by', -f.bx, -f.bz⟩ ⟨p.uy, p.ux, p.uz, p.ig⟩
    = ⟨(borisC rs E B f p).uy, (borisC rs E B f p).ux, (borisC rs E B f p).uz, (borisC rs E B f p).ig⟩ := by
  refine mo_eq rs ?_ ?_ ?_ ?_ rfl
  · show rs _ = rs _
    congr 1
    show 1 + (borisC rs E B f p).ux * (borisC rs E B f p).ux + (borisC rs E B f p).uy * (borisC rs E B f p).uy
      + (borisC rs E B f p).uz * (borisC rs E B f p).uz = 1 + (borisC rs E B f p).uy * (borisC rs E B f p).uy
      + (borisC rs E B f p).ux * (borisC rs E B f p).ux + (borisC rs E B f p).uz * (borisC rs E B f p).uz
    ring
  all_goals
    unfold borisC
    dsimp only
    rw [show 1 + (p.uy + E * f.ey) * (p.uy + E * f.ey) + (p.ux + E * f.ex) * (p.ux + E * f.ex) + (p.uz + E * f.ez) * (p.uz + E * f.ez)
      = 1 + (p.ux + E * f.ex) * (p.ux + E * f.ex) + (p.uy + E * f.ey) * (p.uy + E * f.ey) + (p.uz + E * f.ez) * (p.uz + E * f.ez) by ring]
    generalize rs _ = g
    rw [show 1 + B * -f.by' * g * (B * -f.by' * g) + B * -f.bx * g * (B * -f.bx * g) + B * -f.bz * g * (B * -f.bz * g)
      = 1 + B * f.bx * g * (B * f.bx * g) + B * f.by' * g * (B * f.by' * g) + B * f.bz * g * (B * f.bz * g) by ring]
    generalize 2 / _ = t
    ring

theorem boris_turn : borisC rs E B ⟨f.ey, f.ez, f.ex, f.by', f.bz, f.bx⟩ ⟨p.uy, p.uz, p.ux, p.ig⟩
    = ⟨(borisC rs E B f p).uy, (borisC rs E B f p).uz, (borisC rs E B f p).ux, (borisC rs E B f p).ig⟩ := by
  refine mo_eq rs ?_ ?_ ?_ ?_ rfl
  · show rs _ = rs _
    congr 1
    show 1 + (borisC rs E B f p).ux * (borisC rs E B f p).ux + (borisC rs E B f p).uy * (borisC rs E B f p).uy
      + (borisC rs E B f p).uz * (borisC rs E B f p).uz = 1 + (borisC rs E B f p).uy * (borisC rs E B f p).uy
      + (borisC rs E B f p).uz * (borisC rs E B f p).uz + (borisC rs E B f p).ux * (borisC rs E B f p).ux
    ring
  all_goals
    unfold borisC
    dsimp only
    rw [show 1 + (p.uy + E * f.ey) * (p.uy + E * f.ey) + (p.uz + E * f.ez) * (p.uz + E * f.ez) + (p.ux + E * f.ex) * (p.ux + E * f.ex)
      = 1 + (p.ux + E * f.ex) * (p.ux + E * f.ex) + (p.uy + E * f.ey) * (p.uy + E * f.ey) + (p.uz + E * f.ez) * (p.uz + E * f.ez) by ring]
    generalize rs _ = g
    rw [show 1 + B * f.by' * g * (B * f.by' * g) + B * f.bz * g * (B * f.bz * g) + B * f.bx * g * (B * f.bx * g)
      = 1 + B * f.bx * g * (B * f.bx * g) + B * f.by' * g * (B * f.by' * g) + B * f.bz * g * (B * f.bz * g) by ring]

theorem boris_mirror : borisC rs E B ⟨-f.ex, f.ey, f.ez, f.bx, -f.by', -f.bz⟩ ⟨-p.ux, p.uy, p.uz, p.ig⟩
    = ⟨-(borisC rs E B f p).ux, (borisC rs E B f p).uy, (borisC rs E B f p).uz, (borisC rs E B f p).ig⟩ := by
  refine mo_eq rs ?_ ?_ ?_ ?_ rfl
  · show rs _ = rs _
    congr 1
    show 1 + (borisC rs E B f p).ux * (borisC rs E B f p).ux + (borisC rs E B f p).uy * (borisC rs E B f p).uy
      + (borisC rs E B f p).uz * (borisC rs E B f p).uz = 1 + -(borisC rs E B f p).ux * -(borisC rs E B f p).ux
      + (borisC rs E B f p).uy * (borisC rs E B f p).uy + (borisC rs E B f p).uz * (borisC rs E B f p).uz
    ring
  all_goals
    unfold borisC
    dsimp only
    rw [show 1 + (-p.ux + E * -f.ex) * (-p.ux + E * -f.ex) + (p.uy + E * f.ey) * (p.uy + E * f.ey) + (p.uz + E * f.ez) * (p.uz + E * f.ez)
      = 1 + (p.ux + E * f.ex) * (p.ux + E * f.ex) + (p.uy + E * f.ey) * (p.uy + E * f.ey) + (p.uz + E * f.ez) * (p.uz + E * f.ez) by ring]
    generalize rs _ = g
    rw [show 1 + B * f.bx * g * (B * f.bx * g) + B * -f.by' * g * (B * -f.by' * g) + B * -f.bz * g * (B * -f.bz * g)
      = 1 + B * f.bx * g * (B * f.bx * g) + B * f.by' * g * (B * f.by' * g) + B * f.bz * g * (B * f.bz * g) by ring]
    generalize 2 / _ = t
    ring

theorem boris_up : borisC rs E B ⟨f.ex, f.ey, -f.ez, -f.bx, -f.by', f.bz⟩ ⟨p.ux, p.uy, -p.uz, p.ig⟩
    = ⟨(borisC rs E B f p).ux, (borisC rs E B f p).uy, -(borisC rs E B f p).uz, (borisC rs E B f p).ig⟩ := by
  refine mo_eq rs ?_ ?_ ?_ ?_ rfl
  · show rs _ = rs _
    congr 1
    show 1 + (borisC rs E B f p).ux * (borisC rs E B f p).ux + (borisC rs E B f p).uy * (borisC rs E B f p).uy
      + (borisC rs E B f p).uz * (borisC rs E B f p).uz = 1 + (borisC rs E B f p).ux * (borisC rs E B f p).ux
      + (borisC rs E B f p).uy * (borisC rs E B f p).uy + -(borisC rs E B f p).uz * -(borisC rs E B f p).uz
    ring
  all_goals
    unfold borisC
    dsimp only
    rw [show 1 + (p.ux + E * f.ex) * (p.ux + E * f.ex) + (p.uy + E * f.ey) * (p.uy + E * f.ey) + (-p.uz + E * -f.ez) * (-p.uz + E * -f.ez)
      = 1 + (p.ux + E * f.ex) * (p.ux + E * f.ex) + (p.uy + E * f.ey) * (p.uy + E * f.ey) + (p.uz + E * f.ez) * (p.uz + E * f.ez) by ring]
    generalize rs _ = g
    rw [show 1 + B * -f.bx * g * (B * -f.bx * g) + B * -f.by' * g * (B * -f.by' * g) + B * f.bz * g * (B * f.bz * g)
      = 1 + B * f.bx * g * (B * f.bx * g) + B * f.by' * g * (B * f.by' * g) + B * f.bz * g * (B * f.bz * g) by ring]
    generalize 2 / _ = t
    ring

theorem boris_charge : borisC rs (-E) (-B) ⟨-f.ex, -f.ey, -f.ez, -f.bx, -f.by', -f.bz⟩ p = borisC rs E B f p := by
  unfold borisC
  simp only [neg_mul_neg]
end

/-! ## weighting -/

theorem sample_ring (s X : ℚ) (f g : ℤ → ℚ) (h : ∀ m, f m = g m) : sample s X f = sample s X g := by
  rw [funext h]

theorem sample_neg' (s X : ℚ) (f : ℤ → ℚ) : sample s X (fun m => -f m) = -sample s X f := by
  rw [sample_three, sample_three]; ring

theorem sample2_neg' (s t X Y : ℚ) (f : ℤ → ℤ → ℚ) : sample2 s t X Y (fun m n => -f m n) = -sample2 s t X Y f := by
  unfold sample2; simp only [sample_neg']

theorem sample3_neg' (s t u X Y Z : ℚ) (f : ℤ → ℤ → ℤ → ℚ) :
    sample3 s t u X Y Z (fun m n l => -f m n l) = -sample3 s t u X Y Z f := by
  unfold sample3; simp only [sample2_neg', sample_neg']

theorem sample2_swap (s t X Y : ℚ) (f : ℤ → ℤ → ℚ) : sample2 s t X Y f = sample2 t s Y X fun m n => f n m := by
  unfold sample2; simp only [sample_three]; ring

theorem sample3_swap (s t u X Y Z : ℚ) (f : ℤ → ℤ → ℤ → ℚ) :
    sample3 s t u X Y Z f = sample3 t s u Y X Z fun m n l => f n m l := by
  unfold sample3 sample2
  exact sample2_swap s t X Y fun m n => sample u Z fun l => f m n l

theorem sample3_swap' (s t u X Y Z : ℚ) (f : ℤ → ℤ → ℤ → ℚ) :
    sample3 s t u X Y Z f = sample3 s u t X Z Y fun m n l => f m l n := by
  unfold sample3
  congr 1
  funext m
  rw [sample2_swap]

theorem sample3_turn (s t u X Y Z : ℚ) (f : ℤ → ℤ → ℤ → ℚ) :
    sample3 s t u X Y Z f = sample3 t u s Y Z X fun m n l => f l m n := by
  rw [sample3_swap, sample3_swap']

/-- reflection of a quantity stored at the grid points -/
theorem sample_refl0 (X : ℚ) (f : ℤ → ℚ) : sample 0 (-X) f = sample 0 X fun m => f (-m) := by
  unfold sample
  rw [← finsum_comp_equiv (Equiv.neg ℤ)]
  refine finsum_congr fun m => ?_
  show shape (-X - (((-m : ℤ) : ℚ) + 0)) * f (-m) = _
  rw [show -X - (((-m : ℤ) : ℚ) + 0) = -(X - (m + 0)) by push_cast; ring, shape_neg]

/-- reflection of a quantity stored between the grid points -/
theorem sample_refl1 (X : ℚ) (f : ℤ → ℚ) : sample (1 / 2) (-X) f = sample (1 / 2) X fun m => f (-m - 1) := by
  unfold sample
  rw [← finsum_comp_equiv ((Equiv.neg ℤ).trans (Equiv.addRight (-1)))]
  refine finsum_congr fun m => ?_
  show shape (-X - (((-m + -1 : ℤ) : ℚ) + 1 / 2)) * f (-m + -1) = _
  rw [show -X - (((-m + -1 : ℤ) : ℚ) + 1 / 2) = -(X - (m + 1 / 2)) by push_cast; ring, shape_neg,
    show -m + -1 = -m - 1 by ring]
end Verif.Symmetry
