import Verif.Model.Debye
import Mathlib.Analysis.SpecialFunctions.Pow.Real
import Mathlib.Analysis.Real.Pi.Bounds
import Mathlib.Algebra.BigOperators.Group.List.Basic
import Mathlib.Algebra.Order.BigOperators.Group.List
import Mathlib.Tactic.Linarith
import Mathlib.Tactic.Ring
import Mathlib.Tactic.FieldSimp
import Mathlib.Tactic.NormNum
import Mathlib.Tactic.Positivity

/-!
# C62: the screening length of a cell

Specification: `living` particles of a cell, their total weight, mean momentum and mean of `v p / 3`, as sums over
lists. The screening length should depend on the living particles now in the cell only, not on their order nor on a
common drift, and should not be below the mean distance of particles at the density now in the cell.
-/

namespace Verif.Debye

/-- Specification: the living. -/
def living (l : List Slot) : List Slot := l.filter fun p => !p.dead

/-- Specification: total weight of the living. -/
def weight (l : List Slot) : ℚ := ((living l).map (·.w)).sum

/-- Specification: weighted mean of a component over the living. -/
def mean (f : Slot → ℚ) (l : List Slot) : ℚ := ((living l).map fun p => p.w * f p).sum / weight l

/-- Specification: temperature over mc², the weighted mean of `v p / 3` about the mean momentum. -/
def temp (E : Env) (l : List Slot) : ℚ :=
  ((living l).map fun p => p.w * E.vp ((p.ux - mean (·.ux) l) ^ 2 + (p.uy - mean (·.uy) l) ^ 2
    + (p.uz - mean (·.uz) l) ^ 2) / 3).sum / weight l

/-- Specification: density of the living. -/
def density (E : Env) (l : List Slot) : ℚ := weight l / E.vol

/-- Specification: inverse square Debye length of one species, infinite for a cold one. -/
def invOf (E : Env) (S : Spec) (l : List Slot) : Inv :=
  if 0 < temp E l * S.m * E.c2 then some (density E l * S.q ^ 2 / (E.eps0 * (temp E l * S.m * E.c2))) else none

/-- Specification: density of all species. -/
def totalDensity (E : Env) (sp : List (Spec × List Slot)) : ℚ := (sp.map fun s => density E s.2).sum

theorem sums_from (l : List Slot) (a b c d : ℚ) :
    l.foldl (fun (s : ℚ × ℚ × ℚ × ℚ) p => if p.dead then s
      else (s.1 + p.w, s.2.1 + p.w * p.ux, s.2.2.1 + p.w * p.uy, s.2.2.2 + p.w * p.uz)) (a, b, c, d)
    = (a + ((living l).map (·.w)).sum, b + ((living l).map fun p => p.w * p.ux).sum,
       c + ((living l).map fun p => p.w * p.uy).sum, d + ((living l).map fun p => p.w * p.uz).sum) := by
  induction l generalizing a b c d with
  | nil => simp [living]
  | cons p l ih =>
    rw [List.foldl_cons]
    cases hp : p.dead with
    | true => simp only [if_true]; rw [ih]; simp [living, hp]
    | false => simp only [Bool.false_eq_true, if_false]; rw [ih]; simp [living, hp, add_assoc]

theorem heat_from (E : Env) (x y z : ℚ) (l : List Slot) (a : ℚ) :
    l.foldl (fun s p => if p.dead then s
      else s + p.w * E.vp ((p.ux - x) ^ 2 + (p.uy - y) ^ 2 + (p.uz - z) ^ 2) / 3) a
    = a + ((living l).map fun p => p.w * E.vp ((p.ux - x) ^ 2 + (p.uy - y) ^ 2 + (p.uz - z) ^ 2) / 3).sum := by
  induction l generalizing a with
  | nil => simp [living]
  | cons p l ih =>
    rw [List.foldl_cons]
    cases hp : p.dead with
    | true => simp only [if_true]; rw [ih]; simp [living, hp]
    | false => simp only [Bool.false_eq_true, if_false]; rw [ih]; simp [living, hp, add_assoc]

/-- What one species contributes: nothing when no weight is alive, else the textbook numbers of the living. -/
theorem cell_value (E : Env) (S : Spec) (l : List Slot) :
    cell E S l = if weight l ≤ 0 then (some (-1), 0) else (invOf E S l, density E l) := by
  have hs : sums l = (weight l, ((living l).map fun p => p.w * p.ux).sum,
      ((living l).map fun p => p.w * p.uy).sum, ((living l).map fun p => p.w * p.uz).sum) := by
    unfold sums; rw [sums_from]; simp [weight]
  unfold cell heat
  simp only [hs, heat_from, zero_add]
  rfl

/-- The order of the particles in memory and the dead do not matter. -/
theorem cell_perm (E : Env) (S : Spec) {l l' : List Slot} (h : (living l).Perm (living l')) :
    cell E S l = cell E S l' := by
  have hw : weight l = weight l' := (h.map _).sum_eq
  have hm : ∀ f, mean f l = mean f l' := fun f => by
    unfold mean; rw [hw]; exact congrArg (· / weight l') (h.map _).sum_eq
  have ht : temp E l = temp E l' := by
    unfold temp; rw [hw, hm, hm, hm]; exact congrArg (· / weight l') (h.map _).sum_eq
  simp only [cell_value, invOf, density, hw, ht]

/-- The slot with a drift added to its momentum. -/
def Slot.shift (a b c : ℚ) (p : Slot) : Slot := { p with ux := p.ux + a, uy := p.uy + b, uz := p.uz + c }

theorem living_shift (a b c : ℚ) (l : List Slot) :
    living (l.map (Slot.shift a b c)) = (living l).map (Slot.shift a b c) := by
  unfold living; rw [List.filter_map]; rfl

theorem weight_shift (a b c : ℚ) (l : List Slot) : weight (l.map (Slot.shift a b c)) = weight l := by
  unfold weight; rw [living_shift, List.map_map]; rfl

theorem sum_shift (f : Slot → ℚ) (a : ℚ) (l : List Slot) :
    (l.map fun p => p.w * (f p + a)).sum = (l.map fun p => p.w * f p).sum + a * (l.map (·.w)).sum := by
  induction l with
  | nil => simp
  | cons p l ih => simp only [List.map_cons, List.sum_cons, ih]; ring

theorem mean_shift (f g : Slot → ℚ) (d a b c : ℚ) (l : List Slot) (hw : weight l ≠ 0)
    (h : ∀ p, f (Slot.shift a b c p) = g p + d) : mean f (l.map (Slot.shift a b c)) = mean g l + d := by
  unfold mean
  rw [weight_shift, living_shift, List.map_map]
  have : ((fun p => p.w * f p) ∘ Slot.shift a b c) = fun p => p.w * (g p + d) := by
    funext p; show p.w * f (Slot.shift a b c p) = _; rw [h]
  rw [this, sum_shift]
  have e : ((living l).map (·.w)).sum = weight l := rfl
  rw [e]; field_simp

/-- A drift common to all particles does not change the screening. -/
theorem cell_drift (E : Env) (S : Spec) (a b c : ℚ) (l : List Slot) :
    cell E S (l.map (Slot.shift a b c)) = cell E S l := by
  rw [cell_value, cell_value, weight_shift]
  by_cases hw : weight l ≤ 0
  · rw [if_pos hw, if_pos hw]
  · rw [if_neg hw, if_neg hw]
    have h0 : weight l ≠ 0 := fun e => hw (by rw [e])
    have ht : temp E (l.map (Slot.shift a b c)) = temp E l := by
      unfold temp
      rw [weight_shift, mean_shift (·.ux) (·.ux) a a b c l h0 (fun _ => rfl),
        mean_shift (·.uy) (·.uy) b a b c l h0 (fun _ => rfl),
        mean_shift (·.uz) (·.uz) c a b c l h0 (fun _ => rfl), living_shift, List.map_map]
      congr 2
      apply List.map_congr_left
      intro p _
      simp only [Function.comp, Slot.shift, add_sub_add_right_eq_sub]
    simp only [invOf, density, weight_shift, ht]

/-- Weights are never negative in a simulation. -/
def Weights (sp : List (Spec × List Slot)) : Prop := ∀ s ∈ sp, ∀ p ∈ s.2, 0 ≤ p.w

theorem weight_nonneg {l : List Slot} (h : ∀ p ∈ l, 0 ≤ p.w) : 0 ≤ weight l := by
  apply List.sum_nonneg
  intro x hx
  obtain ⟨p, hp, rfl⟩ := List.mem_map.mp hx
  exact h p (List.mem_of_mem_filter hp)

theorem addSpecies_dens (E : Env) (hv : 0 < E.vol) (S : Spec) (l : List Slot) (h : ∀ p ∈ l, 0 ≤ p.w) (r : Bool)
    (s : Cell) : (addSpecies E S l r s).dens = s.dens + density E l := by
  have hw := weight_nonneg h
  unfold addSpecies
  rw [cell_value]
  by_cases h0 : weight l ≤ 0
  · have e : density E l = 0 := by unfold density; rw [le_antisymm h0 hw, zero_div]
    rw [e]; cases r <;> simp [h0]
  · have hd : 0 < density E l := div_pos (not_le.mp h0) hv
    cases r <;> simp [h0, hd]

theorem species_dens (E : Env) (hv : 0 < E.vol) (sp : List (Spec × List Slot)) (h : Weights sp) (i : Nat) (s : Cell) :
    (species E i sp s).dens = s.dens + totalDensity E sp := by
  induction sp generalizing i s with
  | nil => simp [species, totalDensity]
  | cons x sp ih =>
    obtain ⟨S, l⟩ := x
    rw [species, ih (fun s hs => h s (by simp [hs])), addSpecies_dens E hv S l (h (S, l) (by simp))]
    simp only [totalDensity, List.map_cons, List.sum_cons, add_assoc]

theorem constrain_dens (E : Env) (s : Cell) : (constrain E s).dens = s.dens := by
  unfold constrain
  split
  · split
    · rfl
    · split <;> rfl
  · split <;> rfl

/-- The density a call works with is what was there before plus the density now in the cell. -/
theorem call_dens (E : Env) (hv : 0 < E.vol) (sp : List (Spec × List Slot)) (h : Weights sp) (s : Cell) :
    (call E sp s).dens = s.dens + totalDensity E sp := by
  unfold call; rw [constrain_dens, species_dens E hv sp h]

/-- After any number of calls, with any particles, the density is the sum over all calls. -/
theorem density_accumulates (E : Env) (hv : 0 < E.vol) (hist : List (List (Spec × List Slot)))
    (h : ∀ sp ∈ hist, Weights sp) (s : Cell) :
    (hist.foldl (fun s sp => call E sp s) s).dens = s.dens + (hist.map (totalDensity E)).sum := by
  induction hist generalizing s with
  | nil => simp
  | cons sp hist ih =>
    rw [List.foldl_cons, ih (fun x hx => h x (by simp [hx])), call_dens E hv sp (h sp (by simp))]
    simp only [List.map_cons, List.sum_cons, add_assoc]

theorem constrain_bound (E : Env) (s : Cell) (hr : 0 < E.rmin2 s.dens) {a : ℚ} (h : (constrain E s).inv = some a)
    (ha : 0 < a) : E.rmin2 s.dens ≤ 1 / a := by
  unfold constrain at h
  cases hs : s.inv with
  | none =>
    rw [hs] at h; dsimp only at h; rw [if_pos hr] at h
    injection h with h; rw [← h, one_div_one_div]
  | some b =>
    rw [hs] at h; dsimp only at h
    by_cases hb : b ≤ 0
    · rw [if_pos hb, hs] at h; injection h with h; linarith
    · rw [if_neg hb] at h
      by_cases hc : 1 / b < E.rmin2 s.dens
      · rw [if_pos hc] at h; injection h with h; rw [← h, one_div_one_div]
      · rw [if_neg hc, hs] at h; injection h with h; rw [← h]; exact not_lt.mp hc

/-- On the first call after the arrays were made, the screening length is never below the mean distance at the density
now in the cell. Missing for the full property: later calls (`distance_fails`). -/
theorem distance_partial (E : Env) (hv : 0 < E.vol) (sp : List (Spec × List Slot)) (h : Weights sp)
    (hr : 0 < E.rmin2 (totalDensity E sp)) {a : ℚ} (hc : (call E sp fresh).inv = some a) (ha : 0 < a) :
    E.rmin2 (totalDensity E sp) ≤ 1 / a := by
  have e : (species E 0 sp fresh).dens = totalDensity E sp := by
    rw [species_dens E hv sp h]; simp [fresh]
  rw [← e] at hr ⊢
  exact constrain_bound E _ hr hc ha

theorem addSpecies_reset (E : Env) (S : Spec) (l : List Slot) (s t : Cell) :
    (addSpecies E S l true s).inv = (addSpecies E S l true t).inv := by
  unfold addSpecies; simp only [if_true]; split <;> rfl

theorem addSpecies_inv (E : Env) (S : Spec) (l : List Slot) (r : Bool) {s t : Cell} (h : s.inv = t.inv) :
    (addSpecies E S l r s).inv = (addSpecies E S l r t).inv := by
  cases r with
  | true => exact addSpecies_reset E S l s t
  | false =>
    unfold addSpecies; simp only [Bool.false_eq_true, if_false]
    split
    · simp only [h]
    · exact h

theorem species_inv (E : Env) (sp : List (Spec × List Slot)) (i : Nat) {s t : Cell} (h : s.inv = t.inv) :
    (species E i sp s).inv = (species E i sp t).inv := by
  induction sp generalizing i s t with
  | nil => exact h
  | cons x sp ih => exact ih _ (addSpecies_inv E x.1 x.2 _ h)

/-- Before the lower bound is applied, the inverse square length depends on the particles now in the cell only, whatever
happened before. Missing for the full property: the bound (`repeat_fails`). -/
theorem history_partial (E : Env) (x : Spec × List Slot) (sp : List (Spec × List Slot)) (s t : Cell) :
    (species E 0 (x :: sp) s).inv = (species E 0 (x :: sp) t).inv :=
  species_inv E sp 1 (addSpecies_reset E x.1 x.2 s t)

/-- Specification: inverse square Debye length of all species: those present add up, a cold one makes it infinite. -/
def totalInv (E : Env) (sp : List (Spec × List Slot)) : Inv :=
  ((sp.filter fun s => decide (0 < weight s.2)).map fun s => invOf E s.1 s.2).foldl Inv.add (some 0)

theorem addSpecies_value (E : Env) (hv : 0 < E.vol) (S : Spec) (l : List Slot) (r : Bool) (s : Cell) :
    (addSpecies E S l r s).inv = if 0 < weight l then Inv.add (if r then some 0 else s.inv) (invOf E S l)
      else if r then some 0 else s.inv := by
  unfold addSpecies
  rw [cell_value]
  by_cases h0 : weight l ≤ 0
  · cases r <;> simp [h0, not_lt.mpr h0]
  · have h1 : 0 < weight l := not_le.mp h0
    have hd : 0 < density E l := div_pos h1 hv
    cases r <;> simp [h0, hd, h1]

theorem species_value (E : Env) (hv : 0 < E.vol) (sp : List (Spec × List Slot)) (i : Nat) (s : Cell) :
    (species E (i + 1) sp s).inv
      = ((sp.filter fun s => decide (0 < weight s.2)).map fun s => invOf E s.1 s.2).foldl Inv.add s.inv := by
  induction sp generalizing i s with
  | nil => rfl
  | cons x sp ih =>
    obtain ⟨S, l⟩ := x
    have e : (addSpecies E S l (i + 1 == 0) s).inv = if 0 < weight l then Inv.add s.inv (invOf E S l) else s.inv :=
      addSpecies_value E hv S l false s
    rw [species, ih, e]
    by_cases h : 0 < weight l
    · rw [if_pos h, List.filter_cons_of_pos (by simpa using h)]
      rfl
    · rw [if_neg h, List.filter_cons_of_neg (by simpa using h)]

/-- Before the lower bound is applied, the inverse square length is the sum over the species now in the cell, whatever the
arrays held before. Missing for the full property: the bound (`repeat_fails`). -/
theorem value_partial (E : Env) (hv : 0 < E.vol) (x : Spec × List Slot) (sp : List (Spec × List Slot)) (s : Cell) :
    (species E 0 (x :: sp) s).inv = totalInv E (x :: sp) := by
  obtain ⟨S, l⟩ := x
  have e : (addSpecies E S l (0 == 0) s).inv = if 0 < weight l then Inv.add (some 0) (invOf E S l) else some 0 :=
    addSpecies_value E hv S l true s
  rw [species, species_value E hv, e]
  unfold totalInv
  by_cases h : 0 < weight l
  · rw [if_pos h, List.filter_cons_of_pos (by simpa using h)]
    rfl
  · rw [if_neg h, List.filter_cons_of_neg (by simpa using h)]

/-- one living particle of weight 1 with momentum 2 along x -/
def one : List Slot := [⟨false, 1, 2, 0, 0⟩, ⟨true, 5, 1, 1, 1⟩]

theorem one_first (E : Env) (hv : 0 < E.vol) (h0 : E.vp 0 = 0) (S : Spec) (s : Cell)
    (hr : 0 < E.rmin2 (s.dens + 1 / E.vol)) :
    call E [(S, one)] s = ⟨some (1 / E.rmin2 (s.dens + 1 / E.vol)), s.dens + 1 / E.vol⟩ := by
  have hw : weight one = 1 := by decide +kernel
  have ht : temp E one = 0 := by
    have a : mean (·.ux) one = 2 := by decide +kernel
    have b : mean (·.uy) one = 0 := by decide +kernel
    have c : mean (·.uz) one = 0 := by decide +kernel
    unfold temp; rw [a, b, c]; simp [living, one, h0]
  have hc : cell E S one = (none, 1 / E.vol) := by
    rw [cell_value, hw]; simp [invOf, ht, density, hw]
  have hp : (0 : ℚ) < 1 / E.vol := by positivity
  have hA : addSpecies E S one true s = ⟨none, s.dens + 1 / E.vol⟩ := by
    unfold addSpecies; rw [hc]; simp only [if_true, if_pos hp]; rfl
  show constrain E (addSpecies E S one true s) = _
  rw [hA]; unfold constrain; dsimp only; rw [if_pos hr]

/-- The same particles give another screening length at the second call, for every strictly decreasing mean distance. -/
theorem repeat_fails (E : Env) (hv : 0 < E.vol) (h0 : E.vp 0 = 0) (hpos : ∀ n, 0 < n → 0 < E.rmin2 n)
    (hdec : ∀ n n', 0 < n → n < n' → E.rmin2 n' < E.rmin2 n) (S : Spec) :
    (call E [(S, one)] (call E [(S, one)] fresh)).inv ≠ (call E [(S, one)] fresh).inv := by
  have hp : (0 : ℚ) < 1 / E.vol := by positivity
  rw [one_first E hv h0 S fresh (hpos _ (by simpa [fresh] using hp)), one_first E hv h0 S _ (hpos _ (by
    show 0 < (0 : ℚ) + 1 / E.vol + 1 / E.vol; linarith))]
  intro h
  injection h with h
  have e := congrArg (fun x : ℚ => 1 / x) h
  simp only [one_div_one_div] at e
  exact absurd e (ne_of_lt (hdec _ _ (by simpa [fresh] using hp) (by
    show (0 : ℚ) + 1 / E.vol < 0 + 1 / E.vol + 1 / E.vol; linarith)))

/-- At the second call the screening length is below the mean distance at the density now in the cell. -/
theorem distance_fails (E : Env) (hv : 0 < E.vol) (h0 : E.vp 0 = 0) (hpos : ∀ n, 0 < n → 0 < E.rmin2 n)
    (hdec : ∀ n n', 0 < n → n < n' → E.rmin2 n' < E.rmin2 n) (S : Spec) :
    ∃ a, (call E [(S, one)] (call E [(S, one)] fresh)).inv = some a ∧ 0 < a ∧
      1 / a < E.rmin2 (totalDensity E [(S, one)]) := by
  have hp : (0 : ℚ) < 1 / E.vol := by positivity
  have hw : weight one = 1 := by decide +kernel
  have h2 : (0 : ℚ) < 0 + 1 / E.vol + 1 / E.vol := by linarith
  rw [one_first E hv h0 S fresh (hpos _ (by simpa [fresh] using hp)), one_first E hv h0 S _ (hpos _ h2)]
  refine ⟨_, rfl, one_div_pos.mpr (hpos _ h2), ?_⟩
  rw [one_div_one_div]
  have e : totalDensity E [(S, one)] = 1 / E.vol := by simp [totalDensity, density, hw]
  rw [e]
  exact hdec _ _ hp (by show (1 : ℚ) / E.vol < 0 + 1 / E.vol + 1 / E.vol; linarith)

/-! ## the mean distance of the code -/

/-- the expression of the code (cpu.py 247) is the square of the radius of the sphere with one particle in it -/
theorem mean_distance {n r : ℝ} (hr : 0 < r) (h : 4 / 3 * Real.pi * r ^ 3 * n = 1) : (4 * Real.pi * n / 3) ^ (-2 / 3 : ℝ) = r ^ 2 := by
  have e : 4 * Real.pi * n / 3 = r ^ (-3 : ℝ) := by
    rw [Real.rpow_neg hr.le, show (3 : ℝ) = ((3 : ℕ) : ℝ) by norm_num, Real.rpow_natCast]
    field_simp
    push_cast
    linarith
  rw [e, ← Real.rpow_mul hr.le, show (-3 * (-2 / 3) : ℝ) = ((2 : ℕ) : ℝ) by norm_num, Real.rpow_natCast]

/-- it is positive and strictly decreasing, as the counterexamples above ask of the parameter `rmin2` -/
theorem mean_distance_decreases {n n' : ℝ} (hn : 0 < n) (h : n < n') :
    0 < (4 * Real.pi * n' / 3) ^ (-2 / 3 : ℝ) ∧ (4 * Real.pi * n' / 3) ^ (-2 / 3 : ℝ) < (4 * Real.pi * n / 3) ^ (-2 / 3 : ℝ) := by
  have hp := Real.pi_pos
  have a : 0 < 4 * Real.pi * n / 3 := by positivity
  have b : 4 * Real.pi * n / 3 < 4 * Real.pi * n' / 3 := by gcongr
  exact ⟨Real.rpow_pos_of_pos (a.trans b) _, Real.rpow_lt_rpow_of_neg a b (by norm_num)⟩

/-- a mean distance that meets the hypotheses -/
def demoEnv : Env := ⟨2, 1, 1, fun u => u / (1 + u), fun n => 1 / n⟩

/-- a concrete case: two species, one cold; the hypotheses of the theorems hold and the bound is active -/
example : 0 < demoEnv.vol ∧ demoEnv.vp 0 = 0 ∧ Weights [(⟨1, 1⟩, one), (⟨2, 1⟩, [⟨false, 1, 1, 0, 0⟩, ⟨false, 1, -1, 0, 0⟩])]
    ∧ (call demoEnv [(⟨1, 1⟩, one), (⟨2, 1⟩, [⟨false, 1, 1, 0, 0⟩, ⟨false, 1, -1, 0, 0⟩])] fresh).inv = some (3 / 2)
    ∧ (call demoEnv [(⟨2, 1⟩, [⟨false, 1, 1, 0, 0⟩, ⟨false, 1, -1, 0, 0⟩])] fresh).inv = some 1 := by
  refine ⟨by decide +kernel, by decide +kernel, ?_, by decide +kernel, by decide +kernel⟩
  unfold Weights; decide +kernel

example : (∀ n, 0 < n → 0 < demoEnv.rmin2 n) ∧ ∀ n n', 0 < n → n < n' → demoEnv.rmin2 n' < demoEnv.rmin2 n :=
  ⟨fun _ h => one_div_pos.mpr h, fun _ _ h h' => one_div_lt_one_div_of_lt h h'⟩

end Verif.Debye
