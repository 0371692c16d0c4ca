import Verif.Model.Liouville
import Verif.Props.Pusher
import Mathlib.MeasureTheory.Constructions.HaarToSphere
import Mathlib.MeasureTheory.Measure.Haar.InnerProductSpace
import Mathlib.MeasureTheory.Measure.Haar.NormedSpace
import Mathlib.Analysis.InnerProductSpace.PiL2

/-! # Volume is kept by rotations whose angle depends on the distance from the origin -/

namespace Verif.Liouville

open MeasureTheory Set Metric Pointwise

section Polar

variable {E : Type*} [NormedAddCommGroup E] [InnerProductSpace ℝ E] [FiniteDimensional ℝ E] [MeasurableSpace E]
  [BorelSpace E] [Nontrivial E]

/-- an isometry acting on the unit sphere -/
def onSphere (R : E ≃ₗᵢ[ℝ] E) (s : sphere (0 : E) 1) : sphere (0 : E) 1 :=
  ⟨R s.1, by
    have := s.2
    rw [mem_sphere_zero_iff_norm] at this ⊢
    rw [R.norm_map]; exact this⟩

theorem onSphere_measurable (R : E ≃ₗᵢ[ℝ] E) : Measurable (onSphere R) :=
  Measurable.subtype_mk (R.continuous.measurable.comp measurable_subtype_coe)

theorem onSphere_preserving (R : E ≃ₗᵢ[ℝ] E) :
    Measure.map (onSphere R) (volume : Measure E).toSphere = (volume : Measure E).toSphere := by
  ext s hs
  rw [Measure.map_apply (onSphere_measurable R) hs,
    Measure.toSphere_apply' _ (onSphere_measurable R hs), Measure.toSphere_apply' _ hs]
  congr 1
  have e : Ioo (0 : ℝ) 1 • ((↑) '' (onSphere R ⁻¹' s) : Set E) = R ⁻¹' (Ioo (0 : ℝ) 1 • ((↑) '' s : Set E)) := by
    ext x
    constructor
    · rintro ⟨a, ha, _, ⟨y, hy, rfl⟩, rfl⟩
      refine ⟨a, ha, R y.1, ⟨onSphere R y, hy, rfl⟩, ?_⟩
      exact (R.map_smul a y.1).symm
    · rintro ⟨a, ha, _, ⟨y, hy, rfl⟩, hx⟩
      have hx' : a • y.1 = R x := hx
      refine ⟨a, ha, R.symm y.1, ⟨onSphere R.symm y, ?_, rfl⟩, ?_⟩
      · have : onSphere R (onSphere R.symm y) = y := Subtype.ext (R.apply_symm_apply y.1)
        show onSphere R (onSphere R.symm y) ∈ s
        rw [this]; exact hy
      · show a • R.symm y.1 = x
        rw [← R.symm.map_smul, hx', R.symm_apply_apply]
  rw [e]
  exact R.measurePreserving.measure_preimage_equiv (f := R.toMeasurableEquiv) _

/-- **Rotations by an angle that depends on the length keep the volume.** -/
theorem radial_rotation (R : ℝ → E ≃ₗᵢ[ℝ] E) (hR : Measurable fun p : ℝ × E => R p.1 p.2) :
    MeasurePreserving (fun u : E => R ‖u‖ u) volume volume := by
  have hm : Measurable (fun u : E => R ‖u‖ u) := hR.comp (measurable_norm.prodMk measurable_id)
  refine ⟨hm, ?_⟩
  have hpol := Measure.measurePreserving_homeomorphUnitSphereProd (volume : Measure E)
  -- the map in polar coordinates
  have hg : Measurable (Function.uncurry fun (r : Ioi (0 : ℝ)) (s : sphere (0 : E) 1) => onSphere (R r.1) s) := by
    refine Measurable.subtype_mk ?_
    exact hR.comp ((measurable_subtype_coe.comp measurable_fst).prodMk (measurable_subtype_coe.comp measurable_snd))
  have hskew : MeasurePreserving (fun p : Ioi (0 : ℝ) × sphere (0 : E) 1 => (p.1, onSphere (R p.1.1) p.2))
      ((Measure.volumeIoiPow (Module.finrank ℝ E - 1)).prod (volume : Measure E).toSphere)
      ((Measure.volumeIoiPow (Module.finrank ℝ E - 1)).prod (volume : Measure E).toSphere) :=
    MeasurePreserving.skew_product (f := id) (MeasurePreserving.id _) hg
      (Filter.Eventually.of_forall fun r => onSphere_preserving (R r.1))
  have hA : MeasurePreserving (fun u : ({0}ᶜ : Set E) =>
      ((homeomorphUnitSphereProd E u).2, (homeomorphUnitSphereProd E u).1)) ((volume : Measure E).comap (↑))
      ((Measure.volumeIoiPow (Module.finrank ℝ E - 1)).prod (volume : Measure E).toSphere) :=
    Measure.measurePreserving_swap.comp hpol
  have hB : MeasurePreserving (fun p : Ioi (0 : ℝ) × sphere (0 : E) 1 =>
      ((homeomorphUnitSphereProd E).symm (p.2, p.1) : ({0}ᶜ : Set E)))
      ((Measure.volumeIoiPow (Module.finrank ℝ E - 1)).prod (volume : Measure E).toSphere)
      ((volume : Measure E).comap (↑)) := by
    have h1 := hpol.symm (homeomorphUnitSphereProd E).toMeasurableEquiv
    exact h1.comp Measure.measurePreserving_swap
  have hC := hB.comp (hskew.comp hA)
  have hval : MeasurePreserving ((↑) : ({0}ᶜ : Set E) → E) ((volume : Measure E).comap (↑)) volume := by
    refine ⟨measurable_subtype_coe, ?_⟩
    rw [map_comap_subtype_coe (measurableSet_singleton _).compl]
    exact Measure.restrict_eq_self_of_ae_mem (by
      rw [ae_iff]
      have : {a : E | ¬ a ∈ ({0}ᶜ : Set E)} = {0} := by ext a; simp
      rw [this]; exact measure_singleton 0)
  have hD := hval.comp hC
  have key : (fun u : E => R ‖u‖ u) ∘ ((↑) : ({0}ᶜ : Set E) → E)
      = ((↑) : ({0}ᶜ : Set E) → E) ∘ ((fun p : Ioi (0 : ℝ) × sphere (0 : E) 1 =>
      ((homeomorphUnitSphereProd E).symm (p.2, p.1) : ({0}ᶜ : Set E))) ∘
      ((fun p : Ioi (0 : ℝ) × sphere (0 : E) 1 => (p.1, onSphere (R p.1.1) p.2)) ∘
       fun u : ({0}ᶜ : Set E) => ((homeomorphUnitSphereProd E u).2, (homeomorphUnitSphereProd E u).1))) := by
    funext u
    have hu : ‖u.1‖ ≠ 0 := norm_ne_zero_iff.mpr u.2
    simp only [Function.comp_apply, homeomorphUnitSphereProd_symm_apply_coe, homeomorphUnitSphereProd_apply_snd_coe,
      onSphere, homeomorphUnitSphereProd_apply_fst_coe]
    rw [map_smul, smul_smul, mul_inv_cancel₀ hu, one_smul]
  calc Measure.map (fun u : E => R ‖u‖ u) volume
      = Measure.map (fun u : E => R ‖u‖ u) (Measure.map (↑) ((volume : Measure E).comap ((↑) : ({0}ᶜ : Set E) → E))) := by
        rw [hval.map_eq]
    _ = Measure.map ((fun u : E => R ‖u‖ u) ∘ (↑)) ((volume : Measure E).comap ((↑) : ({0}ᶜ : Set E) → E)) :=
        Measure.map_map hm measurable_subtype_coe
    _ = volume := by rw [key]; exact hD.map_eq

end Polar


section Boris

open Verif.Pusher Verif.PusherProps

abbrev E3 := EuclideanSpace ℝ (Fin 3)

theorem rot_add (a b c a' b' c' Tx Ty Tz : ℝ) :
    rot (a + a') (b + b') (c + c') Tx Ty Tz = rot a b c Tx Ty Tz + rot a' b' c' Tx Ty Tz := by
  unfold rot; ring

theorem rot_smul (k a b c Tx Ty Tz : ℝ) : rot (k * a) (k * b) (k * c) Tx Ty Tz = k * rot a b c Tx Ty Tz := by
  unfold rot; ring

/-- the magnetic rotation as a linear map -/
noncomputable def rotLin (T : Fin 3 → ℝ) : E3 →ₗ[ℝ] E3 where
  toFun u := WithLp.toLp 2 ![rot (u 0) (u 1) (u 2) (T 0) (T 1) (T 2), rot (u 1) (u 2) (u 0) (T 1) (T 2) (T 0),
    rot (u 2) (u 0) (u 1) (T 2) (T 0) (T 1)]
  map_add' u v := by
    ext i
    fin_cases i
    · exact rot_add _ _ _ _ _ _ _ _ _
    · exact rot_add _ _ _ _ _ _ _ _ _
    · exact rot_add _ _ _ _ _ _ _ _ _
  map_smul' k u := by
    ext i
    fin_cases i
    · exact rot_smul _ _ _ _ _ _ _
    · exact rot_smul _ _ _ _ _ _ _
    · exact rot_smul _ _ _ _ _ _ _

theorem rotLin_norm (T : Fin 3 → ℝ) (u : E3) : ‖rotLin T u‖ = ‖u‖ := by
  rw [EuclideanSpace.norm_eq, EuclideanSpace.norm_eq]
  congr 1
  rw [Fin.sum_univ_three, Fin.sum_univ_three]
  simp only [Real.norm_eq_abs, sq_abs]
  exact rot_norm (u 0) (u 1) (u 2) (T 0) (T 1) (T 2)

/-- the magnetic rotation as an isometry -/
noncomputable def rotE (T : Fin 3 → ℝ) : E3 ≃ₗᵢ[ℝ] E3 :=
  LinearIsometry.toLinearIsometryEquiv ⟨rotLin T, rotLin_norm T⟩ rfl

theorem rotE_apply (T : Fin 3 → ℝ) (u : E3) : rotE T u = rotLin T u := rfl

theorem invSqrt_measurable : Measurable invSqrt := by
  unfold invSqrt
  exact (measurable_const.div Real.continuous_sqrt.measurable)

/-- the rotation vector for the magnetic field `B` and the length `r` of the momentum -/
noncomputable def tvec (b : ℝ) (B : Fin 3 → ℝ) (r : ℝ) : Fin 3 → ℝ := fun i => b * B i * invSqrt (1 + r ^ 2)

theorem rot_measurable {α : Type*} [MeasurableSpace α] {a b c x y z : α → ℝ} (ha : Measurable a) (hb : Measurable b)
    (hc : Measurable c) (hx : Measurable x) (hy : Measurable y) (hz : Measurable z) :
    Measurable fun s => rot (a s) (b s) (c s) (x s) (y s) (z s) := by
  unfold rot
  dsimp only
  fun_prop

theorem euclid_measurable (i : Fin 3) : Measurable fun u : E3 => u i := by fun_prop

theorem rotE_measurable (b : ℝ) (B : Fin 3 → ℝ) : Measurable fun p : ℝ × E3 => rotE (tvec b B p.1) p.2 := by
  have hT : ∀ i, Measurable fun p : ℝ × E3 => tvec b B p.1 i := by
    intro i
    have h1 : Measurable fun p : ℝ × E3 => 1 + p.1 ^ 2 := by fun_prop
    exact (invSqrt_measurable.comp h1).const_mul _
  have hu : ∀ i, Measurable fun p : ℝ × E3 => p.2 i := fun i => (euclid_measurable i).comp measurable_snd
  have h : Measurable fun p : ℝ × E3 =>
      (![rot (p.2 0) (p.2 1) (p.2 2) (tvec b B p.1 0) (tvec b B p.1 1) (tvec b B p.1 2),
        rot (p.2 1) (p.2 2) (p.2 0) (tvec b B p.1 1) (tvec b B p.1 2) (tvec b B p.1 0),
        rot (p.2 2) (p.2 0) (p.2 1) (tvec b B p.1 2) (tvec b B p.1 0) (tvec b B p.1 1)] : Fin 3 → ℝ) := by
    refine measurable_pi_iff.mpr fun i => ?_
    fin_cases i
    · exact rot_measurable (hu 0) (hu 1) (hu 2) (hT 0) (hT 1) (hT 2)
    · exact rot_measurable (hu 1) (hu 2) (hu 0) (hT 1) (hT 2) (hT 0)
    · exact rot_measurable (hu 2) (hu 0) (hu 1) (hT 2) (hT 0) (hT 1)
  exact (PiLp.volume_preserving_toLp (Fin 3)).measurable.comp h

/-- the momentum after `boris` as a function of the momentum before -/
noncomputable def kickU (e b : ℝ) (f : FieldsAt ℝ) (u : Fin 3 → ℝ) : Fin 3 → ℝ :=
  let r := borisC invSqrt e b f ⟨u 0, u 1, u 2, igOf invSqrt u⟩
  ![r.ux, r.uy, r.uz]

theorem kickU_eq (e b : ℝ) (f : FieldsAt ℝ) (u : Fin 3 → ℝ) :
    kickU e b f u = (WithLp.ofLp
      ((fun v : E3 => rotE (tvec b ![f.bx, f.by', f.bz] ‖v‖) v) (WithLp.toLp 2 (u + e • ![f.ex, f.ey, f.ez]))))
      + e • ![f.ex, f.ey, f.ez] := by
  obtain ⟨h1, h2, h3, -⟩ := borisC_eq invSqrt e b f ⟨u 0, u 1, u 2, igOf invSqrt u⟩
  have hn : ‖(WithLp.toLp 2 (u + e • ![f.ex, f.ey, f.ez]) : E3)‖ ^ 2
      = (u 0 + e * f.ex) ^ 2 + (u 1 + e * f.ey) ^ 2 + (u 2 + e * f.ez) ^ 2 := by
    rw [EuclideanSpace.norm_sq_eq, Fin.sum_univ_three]
    simp only [Real.norm_eq_abs, sq_abs]
    rfl
  have hg : 1 + ‖(WithLp.toLp 2 (u + e • ![f.ex, f.ey, f.ez]) : E3)‖ ^ 2
      = 1 + (u 0 + e * f.ex) * (u 0 + e * f.ex) + (u 1 + e * f.ey) * (u 1 + e * f.ey)
        + (u 2 + e * f.ez) * (u 2 + e * f.ez) := by rw [hn]; ring
  funext i
  unfold kickU
  dsimp only
  fin_cases i
  · refine h1.trans ?_
    show _ = rot _ _ _ (b * f.bx * _) (b * f.by' * _) (b * f.bz * _) + e * f.ex
    rw [hg]; rfl
  · refine h2.trans ?_
    show _ = rot _ _ _ (b * f.by' * _) (b * f.bz * _) (b * f.bx * _) + e * f.ey
    rw [hg]; rfl
  · refine h3.trans ?_
    show _ = rot _ _ _ (b * f.bz * _) (b * f.bx * _) (b * f.by' * _) + e * f.ez
    rw [hg]; rfl

theorem kickU_preserving (e b : ℝ) (f : FieldsAt ℝ) : MeasurePreserving (kickU e b f) volume volume := by
  have h1 : MeasurePreserving (fun u : Fin 3 → ℝ => u + e • ![f.ex, f.ey, f.ez]) volume volume :=
    measurePreserving_add_right volume _
  have h2 := PiLp.volume_preserving_toLp (Fin 3)
  have h3 := radial_rotation (E := E3) (fun r => rotE (tvec b ![f.bx, f.by', f.bz] r)) (rotE_measurable b _)
  have h4 := PiLp.volume_preserving_ofLp (Fin 3)
  have h := h1.comp (h4.comp (h3.comp (h2.comp h1)))
  have e2 : kickU e b f = _ := funext (kickU_eq e b f)
  rw [e2]
  exact h

end Boris

end Verif.Liouville
