import Verif.Proofs.Liouville

/-! # C95: the push keeps the volume of phase space -/

namespace Verif.LiouvilleProps

open MeasureTheory Verif.Liouville Verif.Pusher Verif.PusherProps
open scoped ENNReal

/-- six measurable fields over space -/
structure MeasurableFields {k : Nat} (F : (Fin k → ℝ) → FieldsAt ℝ) : Prop where
  ex : Measurable fun x => (F x).ex
  ey : Measurable fun x => (F x).ey
  ez : Measurable fun x => (F x).ez
  bx : Measurable fun x => (F x).bx
  by' : Measurable fun x => (F x).by'
  bz : Measurable fun x => (F x).bz

theorem igOf_measurable : Measurable fun u : Fin 3 → ℝ => igOf invSqrt u := by
  have h : Measurable fun u : Fin 3 → ℝ => 1 + u 0 * u 0 + u 1 * u 1 + u 2 * u 2 := by fun_prop
  exact invSqrt_measurable.comp h

theorem drift_preserving (k : Nat) (cdt : ℝ) : MeasurePreserving (drift (k := k) invSqrt cdt) volume volume := by
  have hig := igOf_measurable
  -- the same with momentum first
  have hsk : MeasurePreserving (fun p : (Fin 3 → ℝ) × (Fin k → ℝ) =>
      (p.1, fun i => p.2 i + cdt * igOf invSqrt p.1 * p.1 (axis i)))
      ((volume : Measure (Fin 3 → ℝ)).prod (volume : Measure (Fin k → ℝ)))
      ((volume : Measure (Fin 3 → ℝ)).prod (volume : Measure (Fin k → ℝ))) := by
    refine MeasurePreserving.skew_product (f := id)
      (g := fun (u : Fin 3 → ℝ) (x : Fin k → ℝ) (i : Fin k) => x i + cdt * igOf invSqrt u * u (axis i))
      (MeasurePreserving.id _) ?_ (Filter.Eventually.of_forall fun u => ?_)
    · refine measurable_pi_iff.mpr fun i => ?_
      have h1 : Measurable fun p : (Fin 3 → ℝ) × (Fin k → ℝ) => igOf invSqrt p.1 := hig.comp measurable_fst
      have h2 : Measurable fun p : (Fin 3 → ℝ) × (Fin k → ℝ) => p.2 i := by fun_prop
      have h3 : Measurable fun p : (Fin 3 → ℝ) × (Fin k → ℝ) => p.1 (axis i) := by fun_prop
      exact h2.add ((h1.const_mul cdt).mul h3)
    · exact (measurePreserving_add_right (volume : Measure (Fin k → ℝ))
        (fun i : Fin k => cdt * igOf invSqrt u * u (axis i))).map_eq
  exact (Measure.measurePreserving_swap.comp hsk).comp Measure.measurePreserving_swap

theorem kickU_measurable {k : Nat} (e b : ℝ) (F : (Fin k → ℝ) → FieldsAt ℝ) (hF : MeasurableFields F) :
    Measurable (Function.uncurry fun (x : Fin k → ℝ) (u : Fin 3 → ℝ) => kickU e b (F x) u) := by
  have lift : ∀ g : (Fin k → ℝ) → ℝ, Measurable g → Measurable fun p : (Fin k → ℝ) × (Fin 3 → ℝ) => g p.1 :=
    fun g hg => hg.comp measurable_fst
  have h1 := lift _ hF.ex
  have h2 := lift _ hF.ey
  have h3 := lift _ hF.ez
  have h4 := lift _ hF.bx
  have h5 := lift _ hF.by'
  have h6 := lift _ hF.bz
  have hu : ∀ i : Fin 3, Measurable fun p : (Fin k → ℝ) × (Fin 3 → ℝ) => p.2 i := fun i => by fun_prop
  have ha : Measurable fun p : (Fin k → ℝ) × (Fin 3 → ℝ) => p.2 0 + e * (F p.1).ex := (hu 0).add (h1.const_mul e)
  have hb : Measurable fun p : (Fin k → ℝ) × (Fin 3 → ℝ) => p.2 1 + e * (F p.1).ey := (hu 1).add (h2.const_mul e)
  have hc : Measurable fun p : (Fin k → ℝ) × (Fin 3 → ℝ) => p.2 2 + e * (F p.1).ez := (hu 2).add (h3.const_mul e)
  have hg : Measurable fun p : (Fin k → ℝ) × (Fin 3 → ℝ) => invSqrt (1 + (p.2 0 + e * (F p.1).ex) * (p.2 0 + e * (F p.1).ex)
      + (p.2 1 + e * (F p.1).ey) * (p.2 1 + e * (F p.1).ey) + (p.2 2 + e * (F p.1).ez) * (p.2 2 + e * (F p.1).ez)) :=
    invSqrt_measurable.comp (((measurable_const.add (ha.mul ha)).add (hb.mul hb)).add (hc.mul hc))
  have hx := (h4.const_mul b).mul hg
  have hy := (h5.const_mul b).mul hg
  have hz := (h6.const_mul b).mul hg
  refine measurable_pi_iff.mpr fun i => ?_
  fin_cases i
  · have h := (rot_measurable ha hb hc hx hy hz).add (h1.const_mul e)
    convert h using 1
    funext p
    exact (borisC_eq invSqrt e b (F p.1) ⟨p.2 0, p.2 1, p.2 2, igOf invSqrt p.2⟩).1
  · have h := (rot_measurable hb hc ha hy hz hx).add (h2.const_mul e)
    convert h using 1
    funext p
    exact (borisC_eq invSqrt e b (F p.1) ⟨p.2 0, p.2 1, p.2 2, igOf invSqrt p.2⟩).2.1
  · have h := (rot_measurable hc ha hb hz hx hy).add (h3.const_mul e)
    convert h using 1
    funext p
    exact (borisC_eq invSqrt e b (F p.1) ⟨p.2 0, p.2 1, p.2 2, igOf invSqrt p.2⟩).2.2.1

theorem kick_preserving {k : Nat} (e b : ℝ) (F : (Fin k → ℝ) → FieldsAt ℝ) (hF : MeasurableFields F) :
    MeasurePreserving (kick invSqrt e b F) volume volume :=
  MeasurePreserving.skew_product (f := id) (g := fun x u => kickU e b (F x) u) (MeasurePreserving.id _)
    (kickU_measurable e b F hF) (Filter.Eventually.of_forall fun x => (kickU_preserving e b (F x)).map_eq)

theorem push_preserving {k : Nat} (c q m dt : ℝ) (F : (Fin k → ℝ) → FieldsAt ℝ) (hF : MeasurableFields F) :
    MeasurePreserving (push invSqrt c q m dt F) volume volume :=
  ((drift_preserving k _).comp (kick_preserving _ _ F hF)).comp (drift_preserving k _)

theorem pushes_preserving {k : Nat} (c q m dt : ℝ) (F : Nat → (Fin k → ℝ) → FieldsAt ℝ)
    (hF : ∀ n, MeasurableFields (F n)) (n : Nat) :
    MeasurePreserving (pushes invSqrt c q m dt F n) volume volume := by
  induction n with
  | zero => exact MeasurePreserving.id _
  | succ n ih => exact (push_preserving c q m dt (F n) (hF n)).comp ih

/-! ## the model of the push of one particle is the one of the drivers -/

/-- the fields a kernel hands to `boris` -/
def fieldsOf {k : Nat} (K : Kern k) (x : Fin k → ℚ) : FieldsAt ℚ :=
  ⟨(K.interp x).ex, (K.interp x).ey, (K.interp x).ez, (K.interp x).bx, (K.interp x).by', (K.interp x).bz⟩

/-- a slot holds a live particle at `s`, and its stored `inv_gamma` belongs to its momentum -/
def Holds {k : Nat} (rs : ℚ → ℚ) (sl : Slot k) (s : Phase ℚ k) : Prop :=
  sl.dead = false ∧ (∀ i, sl.pos i = .val (s.1 i)) ∧ sl.mom.ux = s.2 0 ∧ sl.mom.uy = s.2 1 ∧ sl.mom.uz = s.2 2
    ∧ sl.mom.invGamma = igOf rs s.2

theorem uAt_axis (p : Deposit.Mom) (u : Fin 3 → ℚ) (h0 : p.ux = u 0) (h1 : p.uy = u 1) (h2 : p.uz = u 2) (i : Nat) :
    uAt p i = u (axis i) := by
  match i with
  | 0 => exact h0
  | 1 => exact h1
  | n + 2 => exact h2

theorem holds_drift {k : Nat} {rs : ℚ → ℚ} {sl : Slot k} {s : Phase ℚ k} (h : Holds rs sl s) (cdt : ℚ) :
    Holds rs (pushPos cdt sl) (drift rs cdt s) := by
  obtain ⟨h0, h1, h2, h3, h4, h5⟩ := h
  refine ⟨h0, fun i => ?_, h2, h3, h4, h5⟩
  show bump (sl.pos i) (cdt * sl.mom.invGamma * uAt sl.mom i) = _
  rw [h1 i, h5, uAt_axis sl.mom s.2 h2 h3 h4]
  rfl

theorem nums_holds {k : Nat} {rs : ℚ → ℚ} {sl : Slot k} {s : Phase ℚ k} (h : Holds rs sl s) : nums sl.pos = some s.1 := by
  obtain ⟨-, h1, -⟩ := h
  unfold nums
  rw [if_pos (fun i => by rw [h1 i]; exact fun e => by cases e)]
  congr 1
  funext i
  rw [h1 i]

theorem holds_kick {k : Nat} {rs : ℚ → ℚ} {sl : Slot k} {s : Phase ℚ k} (h : Holds rs sl s) (K : Kern k) (e b : ℚ) :
    Holds rs (storeMom (borisC rs e b) (storeInterp K sl)) (kick rs e b (fieldsOf K) s) := by
  have hn := nums_holds h
  obtain ⟨h0, h1, h2, h3, h4, h5⟩ := h
  have e1 : storeInterp K sl = { sl with eb := K.interp s.1 } := by unfold storeInterp; rw [hn]
  rw [e1]
  have e2 : borisC rs e b (fieldsOf K s.1) ⟨sl.mom.ux, sl.mom.uy, sl.mom.uz, sl.mom.invGamma⟩
      = borisC rs e b (fieldsOf K s.1) ⟨s.2 0, s.2 1, s.2 2, igOf rs s.2⟩ := by rw [h2, h3, h4, h5]
  exact ⟨h0, h1, congrArg Mo.ux e2, congrArg Mo.uy e2, congrArg Mo.uz e2, congrArg Mo.ig e2⟩

/-- C95. The unified driver pushes every live particle of a patch by `push`, in any dimension, whatever the strip
size, and leaves the stored inverse Lorentz factor consistent. -/
theorem driver_pushes {k : Nat} (K : Kern k) (rs : ℚ → ℚ) (c q m dt : ℚ) (size : Nat) (hs : size ≠ 0)
    (ps : List (Slot k)) (acc : Deposit.Acc k) (i : Nat) (sl : Slot k) (hi : ps[i]? = some sl) (s : Phase ℚ k) (h : Holds rs sl s) :
    ∃ sl', (unifiedPatch K (borisUnified rs c q m dt) (c * (1 / 2) * dt) size ps acc).1[i]? = some sl'
      ∧ Holds rs sl' (push rs c q m dt (fieldsOf K) s) := by
  rw [unifiedPatch_eq _ _ _ size hs]
  refine ⟨skipDeadNan (advance K (borisUnified rs c q m dt) (c * (1 / 2) * dt)) sl, ?_, ?_⟩
  · rw [List.getElem?_map, hi]; rfl
  · have e : skipDeadNan (advance K (borisUnified rs c q m dt) (c * (1 / 2) * dt)) sl
        = pushPos (c * (1 / 2) * dt) (storeMom (borisC rs (q * dt / (2 * m * c)) (q * dt / (2 * m)))
          (storeInterp K (pushPos (c * (1 / 2) * dt) sl))) := by
      unfold skipDeadNan
      rw [if_neg (by rw [h.1]; exact Bool.false_ne_true), if_neg (by rw [nums_holds h]; exact Option.some_ne_none _)]
      rfl
    rw [e]
    exact holds_drift (holds_kick (holds_drift h _) K _ _) _

/-! ## C95 -/

/-- C95. One push keeps the volume of phase space: the states that end in a set `S` fill the same volume as `S`,
for every charge, mass, time step and every fields over space, in 2D and 3D. -/
theorem volume_kept {k : Nat} (c q m dt : ℝ) (F : (Fin k → ℝ) → FieldsAt ℝ) (hF : MeasurableFields F)
    (S : Set (Phase ℝ k)) (hS : MeasurableSet S) :
    volume {s | push invSqrt c q m dt F s ∈ S} = volume S :=
  (push_preserving c q m dt F hF).measure_preimage hS.nullMeasurableSet

/-- C95. The same after any number of pushes in fields that change from step to step. -/
theorem volume_kept_run {k : Nat} (c q m dt : ℝ) (F : Nat → (Fin k → ℝ) → FieldsAt ℝ)
    (hF : ∀ n, MeasurableFields (F n)) (n : Nat) (S : Set (Phase ℝ k)) (hS : MeasurableSet S) :
    volume {s | pushes invSqrt c q m dt F n s ∈ S} = volume S :=
  (pushes_preserving c q m dt F hF n).measure_preimage hS.nullMeasurableSet

theorem drift_back {k : Nat} (cdt : ℝ) (s : Phase ℝ k) : drift invSqrt (-cdt) (drift invSqrt cdt s) = s := by
  refine Prod.ext (funext fun i => ?_) rfl
  show s.1 i + cdt * igOf invSqrt s.2 * s.2 (axis i) + -cdt * igOf invSqrt s.2 * s.2 (axis i) = s.1 i
  ring

theorem kick_back {k : Nat} (c q m dt : ℝ) (F : (Fin k → ℝ) → FieldsAt ℝ) (s : Phase ℝ k) :
    kick invSqrt (q * -dt / (2 * m * c)) (q * -dt / (2 * m)) F
      (kick invSqrt (q * dt / (2 * m * c)) (q * dt / (2 * m)) F s) = s := by
  have h := boris_reversible c q m dt (F s.1) ⟨s.2 0, s.2 1, s.2 2, igOf invSqrt s.2⟩
  rw [borisPy_eq, borisPy_eq] at h
  obtain ⟨h1, h2, h3⟩ := h
  refine Prod.ext rfl (funext fun i => ?_)
  fin_cases i
  · exact h1
  · exact h2
  · exact h3

/-- C95. The whole push can be undone: pushing with the negative time step in the same fields restores position and
momentum. -/
theorem push_reversible {k : Nat} (c q m dt : ℝ) (F : (Fin k → ℝ) → FieldsAt ℝ) (s : Phase ℝ k) :
    push invSqrt c q m (-dt) F (push invSqrt c q m dt F s) = s := by
  unfold push
  have e : c * (1 / 2) * -dt = -(c * (1 / 2) * dt) := by ring
  rw [e, drift_back, kick_back]
  exact drift_back _ s

/-- C95. Seen forward: a set of particles fills the same volume of phase space after the push as before. -/
theorem volume_of_image {k : Nat} (c q m dt : ℝ) (F : (Fin k → ℝ) → FieldsAt ℝ) (hF : MeasurableFields F)
    (S : Set (Phase ℝ k)) (hS : MeasurableSet S) :
    volume (push invSqrt c q m dt F '' S) = volume S := by
  have e : push invSqrt c q m dt F '' S = {s | push invSqrt c q m (-dt) F s ∈ S} := by
    ext s
    constructor
    · rintro ⟨t, ht, rfl⟩
      show push invSqrt c q m (-dt) F (push invSqrt c q m dt F t) ∈ S
      rw [push_reversible]; exact ht
    · intro h
      refine ⟨_, h, ?_⟩
      have := push_reversible c q m (-dt) F s
      rwa [neg_neg] at this
  rw [e]
  exact volume_kept c q m (-dt) F hF S hS

/-- C95. The density of particles in phase space is constant along the motion: if `f` is the density before, the
density after the push at a state is `f` at the state it came from. -/
theorem density_carried {k : Nat} (c q m dt : ℝ) (F : (Fin k → ℝ) → FieldsAt ℝ) (hF : MeasurableFields F)
    (f : Phase ℝ k → ℝ≥0∞) (hf : Measurable f) (S : Set (Phase ℝ k)) (hS : MeasurableSet S) :
    ∫⁻ s in {s | push invSqrt c q m dt F s ∈ S}, f s = ∫⁻ s in S, f (push invSqrt c q m (-dt) F s) := by
  have hp := push_preserving c q m dt F hF
  have hg : Measurable fun s => f (push invSqrt c q m (-dt) F s) :=
    hf.comp (push_preserving c q m (-dt) F hF).measurable
  have h := hp.setLIntegral_comp_preimage hS hg
  rw [← h]
  refine lintegral_congr fun s => ?_
  rw [push_reversible]

/-- C95. Whatever is a function of the density alone, such as the entropy of the particles, does not change. -/
theorem entropy_kept {k : Nat} (c q m dt : ℝ) (F : (Fin k → ℝ) → FieldsAt ℝ) (hF : MeasurableFields F)
    (f : Phase ℝ k → ℝ≥0∞) (hf : Measurable f) (H : ℝ≥0∞ → ℝ≥0∞) (hH : Measurable H) :
    ∫⁻ s, H (f (push invSqrt c q m (-dt) F s)) = ∫⁻ s, H (f s) :=
  (push_preserving c q m (-dt) F hF).lintegral_comp (hH.comp hf)

/-! ## cases -/

/-- the fields a particle sees: values at finitely many points, each weighted with a measurable shape -/
theorem gathered_measurable (w : ℝ → ℝ) (hw : Measurable w) (x0 y0 dx dy sx sy : ℝ) (I J : Finset ℤ) (v : ℤ → ℤ → ℝ) :
    Measurable fun x : Fin 2 → ℝ =>
      ∑ i ∈ I, ∑ j ∈ J, w ((x 0 - x0) / dx - (i + sx)) * w ((x 1 - y0) / dy - (j + sy)) * v i j := by
  refine Finset.measurable_sum _ fun i _ => Finset.measurable_sum _ fun j _ => ?_
  refine Measurable.mul_const (Measurable.mul (hw.comp ?_) (hw.comp ?_)) _ <;> fun_prop

/-- fields that vary in space and are measurable: a magnetic field in the right half only, and a linear electric field -/
example : MeasurableFields (k := 2) fun x => ⟨x 0, -x 1, 0, 0, 0, if 0 ≤ x 0 then 1 else 0⟩ where
  ex := by fun_prop
  ey := by fun_prop
  ez := measurable_const
  bx := measurable_const
  by' := measurable_const
  bz := Measurable.ite (measurableSet_le measurable_const (by fun_prop)) measurable_const measurable_const

/-- the push moves: a particle at rest in an electric field gains momentum -/
example : (push (k := 2) invSqrt 1 1 1 1 (fun _ => ⟨1, 0, 0, 0, 0, 0⟩) (0, 0)).2 0 = 1 := by
  show (borisC invSqrt (1 * 1 / (2 * 1 * 1)) (1 * 1 / (2 * 1)) ⟨1, 0, 0, 0, 0, 0⟩ ⟨0, 0, 0, _⟩).ux = 1
  unfold borisC
  norm_num

/-- a slot that holds a particle with consistent inverse Lorentz factor (`1/sqrt` of 25/16 is 4/5) -/
example : Holds (k := 2) (fun x => if x = 25/16 then 4/5 else 1)
    ⟨fun i => .val (if i = 0 then 1 else 2), ⟨3/4, 0, 0, 4/5, 1⟩, ⟨0, 0, 0, 0, 0, 0⟩, false⟩
    (fun i => if i = 0 then 1 else 2, ![3/4, 0, 0]) := by
  refine ⟨rfl, fun i => rfl, rfl, rfl, rfl, ?_⟩
  show (4/5 : ℚ) = if (1 + 3/4 * (3/4) + 0 * 0 + 0 * 0 : ℚ) = 25/16 then 4/5 else 1
  norm_num

end Verif.LiouvilleProps
