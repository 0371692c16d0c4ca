import Mathlib.Tactic.LinearCombination
import Mathlib.Tactic.FieldSimp
import Mathlib.Data.Fin.VecNotation
import Verif.Proofs.Shape
import Verif.Proofs.Deposit
import Verif.Model.Pusher
/-! # Lemmas for the interpolation and the pusher -/
namespace Verif.Pusher
open Verif.Shape Verif.Maxwell Verif.Deposit
open Verif.SyncFields (wrapIx)
open Verif.Particles (F64)

/-! ## sampling -/

theorem sample_three (s X : ℚ) (f : ℤ → ℚ) :
    sample s X f = shape (X - s - ((⌊X - s + 1/2⌋ - 1 : ℤ) : ℚ)) * f (⌊X - s + 1/2⌋ - 1)
      + shape (X - s - (⌊X - s + 1/2⌋ : ℤ)) * f ⌊X - s + 1/2⌋
      + shape (X - s - ((⌊X - s + 1/2⌋ + 1 : ℤ) : ℚ)) * f (⌊X - s + 1/2⌋ + 1) := by
  set i := ⌊X - s + 1/2⌋ with hi
  have h : sample s X f = ∑ m ∈ ({i - 1, i, i + 1} : Finset ℤ), shape (X - s - m) * f m := by
    unfold sample
    have e : (fun m : ℤ => shape (X - (m + s)) * f m) = fun m : ℤ => shape (X - s - m) * f m := by
      funext m; congr 2; ring
    rw [e]
    apply finsum_eq_sum_of_support_subset
    intro m hm
    rw [Function.mem_support] at hm
    simp only [Finset.coe_insert, Finset.coe_singleton, Set.mem_insert_iff, Set.mem_singleton_iff]
    by_contra hcon
    apply hm
    rw [shape_far (X := X - s) (by rw [← hi]; omega), zero_mul]
  rw [h, Finset.sum_insert (by simp only [Finset.mem_insert, Finset.mem_singleton]; omega),
    Finset.sum_insert (by simp only [Finset.mem_singleton]; omega), Finset.sum_singleton, ← add_assoc]

theorem shape_getGx (t : ℚ) (i : ℤ) (hi : i = ⌊t + 1/2⌋) (d : ℚ) (hd : d = i - t) :
    shape (t - ((i - 1 : ℤ) : ℚ)) = getGx d 0 ∧ shape (t - (i : ℤ)) = getGx d 1
    ∧ shape (t - ((i + 1 : ℤ) : ℚ)) = getGx d 2 := by
  have h1 : (i : ℚ) ≤ t + 1/2 := by rw [hi]; exact Int.floor_le _
  have h2 : t + 1/2 < i + 1 := by rw [hi]; exact Int.lt_floor_add_one _
  subst hd
  push_cast
  refine ⟨?_, ?_, ?_⟩
  · rw [shape_right (by linarith) (by linarith)]
    show _ = 1 / 2 * (1 / 4 + _ * _ + _); ring
  · rw [shape_mid (by linarith) (by linarith)]
    show _ = 3 / 4 - _ * _; ring
  · rw [shape_left (by linarith) (by linarith)]
    show _ = 1 / 2 * (1 / 4 + _ * _ - _); ring

/-- sampling on the integer grid with the code's weights -/
theorem sample_node (X : ℚ) (f : ℤ → ℚ) :
    sample 0 X f = getGx (⌊X + 1/2⌋ - X) 0 * f (⌊X + 1/2⌋ - 1) + getGx (⌊X + 1/2⌋ - X) 1 * f ⌊X + 1/2⌋
      + getGx (⌊X + 1/2⌋ - X) 2 * f (⌊X + 1/2⌋ + 1) := by
  rw [sample_three]
  have e : X - 0 = X := by ring
  rw [e]
  obtain ⟨a, b, c⟩ := shape_getGx X _ rfl _ rfl
  rw [a, b, c]

/-- sampling on the half-integer grid with the code's weights -/
theorem sample_half (X : ℚ) (f : ℤ → ℚ) :
    sample (1/2) X f = getGx (⌊X⌋ - X + 1/2) 0 * f (⌊X⌋ - 1) + getGx (⌊X⌋ - X + 1/2) 1 * f ⌊X⌋
      + getGx (⌊X⌋ - X + 1/2) 2 * f (⌊X⌋ + 1) := by
  rw [sample_three]
  have e : X - 1/2 + 1/2 = X := by ring
  rw [e]
  obtain ⟨a, b, c⟩ := shape_getGx (X - 1/2) ⌊X⌋ (by rw [e]) (⌊X⌋ - X + 1/2) (by ring)
  rw [a, b, c]

theorem sample_affine (s X a b : ℚ) : sample s X (fun m => a + b * (m + s)) = a + b * X := by
  rw [sample_three]
  obtain ⟨h1, h2, h3⟩ := shape_getGx (X - s) _ rfl _ rfl
  rw [h1, h2, h3]
  generalize ⌊X - s + 1/2⌋ = i
  show (1 / 2 * (1 / 4 + _ * _ + _)) * _ + (3 / 4 - _ * _) * _ + (1 / 2 * (1 / 4 + _ * _ - _)) * _ = _
  push_cast
  ring

theorem sample_const (s X a : ℚ) : sample s X (fun _ => a) = a := by
  have := sample_affine s X a 0
  simpa only [zero_mul, add_zero] using this

theorem sample_mono {s X : ℚ} {f g : ℤ → ℚ} (h : ∀ m, f m ≤ g m) : sample s X f ≤ sample s X g := by
  rw [sample_three, sample_three]
  have a := mul_le_mul_of_nonneg_left (h (⌊X - s + 1/2⌋ - 1)) (shape_nonneg (X - s - ((⌊X - s + 1/2⌋ - 1 : ℤ) : ℚ)))
  have b := mul_le_mul_of_nonneg_left (h (⌊X - s + 1/2⌋)) (shape_nonneg (X - s - (⌊X - s + 1/2⌋ : ℤ)))
  have c := mul_le_mul_of_nonneg_left (h (⌊X - s + 1/2⌋ + 1)) (shape_nonneg (X - s - ((⌊X - s + 1/2⌋ + 1 : ℤ) : ℚ)))
  linarith

/-- sampling depends on at most the three points next to the particle -/
theorem sample_congr {s X : ℚ} {f g : ℤ → ℚ}
    (h : ∀ m : ℤ, ⌊X - s + 1/2⌋ - 1 ≤ m → m ≤ ⌊X - s + 1/2⌋ + 1 → f m = g m) : sample s X f = sample s X g := by
  rw [sample_three, sample_three, h _ le_rfl (by omega), h _ (by omega) (by omega), h _ (by omega) le_rfl]

theorem interpField2_nest (rd : Int → Int → ℚ) (f1 f2 : Fin 3 → ℚ) (ix iy : Int) :
    interpField2 rd f1 f2 ix iy
      = f1 0 * (f2 0 * rd (ix - 1) (iy - 1) + f2 1 * rd (ix - 1) iy + f2 2 * rd (ix - 1) (iy + 1))
      + f1 1 * (f2 0 * rd ix (iy - 1) + f2 1 * rd ix iy + f2 2 * rd ix (iy + 1))
      + f1 2 * (f2 0 * rd (ix + 1) (iy - 1) + f2 1 * rd (ix + 1) iy + f2 2 * rd (ix + 1) (iy + 1)) := by
  unfold interpField2; ring

theorem interpField3_nest (rd : Int → Int → Int → ℚ) (f1 f2 f3 : Fin 3 → ℚ) (ix iy iz : Int) :
    interpField3 rd f1 f2 f3 ix iy iz
      = f1 0 * interpField2 (rd (ix - 1)) f2 f3 iy iz + f1 1 * interpField2 (rd ix) f2 f3 iy iz
      + f1 2 * interpField2 (rd (ix + 1)) f2 f3 iy iz := by
  unfold interpField3 interpField2; ring

theorem if2_gg (rd : Int → Int → ℚ) (X Y : ℚ) :
    interpField2 rd (getGx (⌊X + 1/2⌋ - X)) (getGx (⌊Y + 1/2⌋ - Y)) ⌊X + 1/2⌋ ⌊Y + 1/2⌋ = sample2 0 0 X Y rd := by
  unfold sample2; rw [sample_node, sample_node, sample_node, sample_node, interpField2_nest]
theorem if2_hg (rd : Int → Int → ℚ) (X Y : ℚ) :
    interpField2 rd (getGx (⌊X⌋ - X + 1/2)) (getGx (⌊Y + 1/2⌋ - Y)) ⌊X⌋ ⌊Y + 1/2⌋ = sample2 (1/2) 0 X Y rd := by
  unfold sample2; rw [sample_half, sample_node, sample_node, sample_node, interpField2_nest]
theorem if2_gh (rd : Int → Int → ℚ) (X Y : ℚ) :
    interpField2 rd (getGx (⌊X + 1/2⌋ - X)) (getGx (⌊Y⌋ - Y + 1/2)) ⌊X + 1/2⌋ ⌊Y⌋ = sample2 0 (1/2) X Y rd := by
  unfold sample2; rw [sample_node, sample_half, sample_half, sample_half, interpField2_nest]
theorem if2_hh (rd : Int → Int → ℚ) (X Y : ℚ) :
    interpField2 rd (getGx (⌊X⌋ - X + 1/2)) (getGx (⌊Y⌋ - Y + 1/2)) ⌊X⌋ ⌊Y⌋ = sample2 (1/2) (1/2) X Y rd := by
  unfold sample2; rw [sample_half, sample_half, sample_half, sample_half, interpField2_nest]

/-! ## fast path = safe path -/

theorem cInt_fast {X : ℚ} (h : 0 < cInt X) : 0 ≤ X := by
  unfold cInt at h
  by_contra hc
  rw [if_neg hc] at h
  have := Int.ceil_pos.mp h
  linarith

theorem fastAxis_floor {n : Nat} {X : ℚ} (h : fastAxis n (cInt (X + 1/2)) (cInt X)) :
    cInt (X + 1/2) = ⌊X + 1/2⌋ ∧ cInt X = ⌊X⌋ :=
  ⟨cInt_eq_floor (cInt_fast h.2.2.1), cInt_eq_floor (cInt_fast h.1)⟩

theorem wrapIx_of_nonneg {n : Nat} {i : Int} (h : 0 ≤ i) : wrapIx n i = i := if_pos h

theorem interpField2_congr {rd rd' : Int → Int → ℚ} {f1 f2 : Fin 3 → ℚ} {ix iy : Int}
    (h : ∀ i j, ix - 1 ≤ i → i ≤ ix + 1 → iy - 1 ≤ j → j ≤ iy + 1 → rd i j = rd' i j) :
    interpField2 rd f1 f2 ix iy = interpField2 rd' f1 f2 ix iy := by
  unfold interpField2
  rw [h (ix - 1) (iy - 1) (by omega) (by omega) (by omega) (by omega),
    h ix (iy - 1) (by omega) (by omega) (by omega) (by omega),
    h (ix + 1) (iy - 1) (by omega) (by omega) (by omega) (by omega),
    h (ix - 1) iy (by omega) (by omega) (by omega) (by omega),
    h ix iy (by omega) (by omega) (by omega) (by omega),
    h (ix + 1) iy (by omega) (by omega) (by omega) (by omega),
    h (ix - 1) (iy + 1) (by omega) (by omega) (by omega) (by omega),
    h ix (iy + 1) (by omega) (by omega) (by omega) (by omega),
    h (ix + 1) (iy + 1) (by omega) (by omega) (by omega) (by omega)]

theorem interpField3_congr {rd rd' : Int → Int → Int → ℚ} {f1 f2 f3 : Fin 3 → ℚ} {ix iy iz : Int}
    (h : ∀ i j k, ix - 1 ≤ i → i ≤ ix + 1 → iy - 1 ≤ j → j ≤ iy + 1 → iz - 1 ≤ k → k ≤ iz + 1 → rd i j k = rd' i j k) :
    interpField3 rd f1 f2 f3 ix iy iz = interpField3 rd' f1 f2 f3 ix iy iz := by
  rw [interpField3_nest, interpField3_nest,
    interpField2_congr (rd := rd (ix - 1)) (rd' := rd' (ix - 1)) (fun i j a b c d => h _ i j (by omega) (by omega) a b c d),
    interpField2_congr (rd := rd ix) (rd' := rd' ix) (fun i j a b c d => h _ i j (by omega) (by omega) a b c d),
    interpField2_congr (rd := rd (ix + 1)) (rd' := rd' (ix + 1)) (fun i j a b c d => h _ i j (by omega) (by omega) a b c d)]

theorem interp2Unified_eq (gx gy : Grid1) (F : Fields 2) (x y : ℚ) :
    interp2Unified gx gy F x y = interp2 gx gy F x y := by
  have eX : (x - gx.x0) * (1 / gx.d) = (x - gx.x0) / gx.d := by rw [mul_one_div]
  have eY : (y - gy.x0) * (1 / gy.d) = (y - gy.x0) / gy.d := by rw [mul_one_div]
  unfold interp2Unified interp2
  dsimp only
  rw [eX, eY]
  generalize (x - gx.x0) / gx.d = X
  generalize (y - gy.x0) / gy.d = Y
  by_cases h : fastAxis gx.n (cInt (X + 1/2)) (cInt X) ∧ fastAxis gy.n (cInt (Y + 1/2)) (cInt Y)
  · rw [if_pos h]
    obtain ⟨hx, hy⟩ := h
    obtain ⟨x1, x2⟩ := fastAxis_floor hx
    obtain ⟨y1, y2⟩ := fastAxis_floor hy
    unfold fastAxis at hx hy
    rw [x1, x2] at hx
    rw [y1, y2] at hy
    rw [x1, x2, y1, y2]
    have key : ∀ (A : Arr 2) (f1 f2 : Fin 3 → ℚ) (ix iy : Int), 0 < ix → 0 < iy →
        interpField2 (rdFast2 A) f1 f2 ix iy = interpField2 (rdSafe2 gx.n gy.n A) f1 f2 ix iy := by
      intro A f1 f2 ix iy px py
      apply interpField2_congr
      intro i j a b c d
      unfold rdFast2 rdSafe2
      rw [wrapIx_of_nonneg (by omega), wrapIx_of_nonneg (by omega)]
    unfold gatherAt2
    dsimp only
    rw [key _ _ _ _ _ hx.1 hy.2.2.1, key _ _ _ _ _ hx.2.2.1 hy.1, key _ _ _ _ _ hx.2.2.1 hy.2.2.1,
      key _ _ _ _ _ hx.2.2.1 hy.1, key _ _ _ _ _ hx.1 hy.2.2.1, key _ _ _ _ _ hx.1 hy.1]
  · rw [if_neg h]

theorem interp3Unified_eq (gx gy gz : Grid1) (F : Fields 3) (x y z : ℚ) :
    interp3Unified gx gy gz F x y z = interp3 gx gy gz F x y z := by
  have eX : (x - gx.x0) * (1 / gx.d) = (x - gx.x0) / gx.d := by rw [mul_one_div]
  have eY : (y - gy.x0) * (1 / gy.d) = (y - gy.x0) / gy.d := by rw [mul_one_div]
  have eZ : (z - gz.x0) * (1 / gz.d) = (z - gz.x0) / gz.d := by rw [mul_one_div]
  unfold interp3Unified interp3
  dsimp only
  rw [eX, eY, eZ]
  generalize (x - gx.x0) / gx.d = X
  generalize (y - gy.x0) / gy.d = Y
  generalize (z - gz.x0) / gz.d = Z
  by_cases h : fastAxis gx.n (cInt (X + 1/2)) (cInt X) ∧ fastAxis gy.n (cInt (Y + 1/2)) (cInt Y)
      ∧ fastAxis gz.n (cInt (Z + 1/2)) (cInt Z)
  · rw [if_pos h]
    obtain ⟨hx, hy, hz⟩ := h
    obtain ⟨x1, x2⟩ := fastAxis_floor hx
    obtain ⟨y1, y2⟩ := fastAxis_floor hy
    obtain ⟨z1, z2⟩ := fastAxis_floor hz
    unfold fastAxis at hx hy hz
    rw [x1, x2] at hx
    rw [y1, y2] at hy
    rw [z1, z2] at hz
    rw [x1, x2, y1, y2, z1, z2]
    have key : ∀ (A : Arr 3) (f1 f2 f3 : Fin 3 → ℚ) (ix iy iz : Int), 0 < ix → 0 < iy → 0 < iz →
        interpField3 (rdFast3 A) f1 f2 f3 ix iy iz = interpField3 (rdSafe3 gx.n gy.n gz.n A) f1 f2 f3 ix iy iz := by
      intro A f1 f2 f3 ix iy iz px py pz
      apply interpField3_congr
      intro i j k a b c d e f
      unfold rdFast3 rdSafe3
      rw [wrapIx_of_nonneg (by omega), wrapIx_of_nonneg (by omega), wrapIx_of_nonneg (by omega)]
    unfold gatherAt3
    dsimp only
    rw [key _ _ _ _ _ _ _ hx.1 hy.2.2.1 hz.2.2.1, key _ _ _ _ _ _ _ hx.2.2.1 hy.1 hz.2.2.1,
      key _ _ _ _ _ _ _ hx.2.2.1 hy.2.2.1 hz.1,
      key _ _ _ _ _ _ _ hx.2.2.1 hy.1 hz.1, key _ _ _ _ _ _ _ hx.1 hy.2.2.1 hz.1, key _ _ _ _ _ _ _ hx.1 hy.1 hz.2.2.1]
  · rw [if_neg h]

/-! ## Boris -/

theorem borisPy_eq {K : Type*} [Field K] (rs : K → K) (c q m dt : K) (f : FieldsAt K) (p : Mo K) :
    borisPy rs c q m dt f p = borisUnified rs c q m dt f p := by
  unfold borisPy borisUnified borisC
  simp only [pow_two]

/-! ## loops over particles -/

section Loops
variable {k : Nat}

theorem nums_eq_some {pos : Fin k → F64} {v : Fin k → ℚ} (h : nums pos = some v) (i : Fin k) : pos i = .val (v i) := by
  unfold nums at h
  split at h
  · rename_i hn
    injection h with h
    rw [← h]
    have := hn i
    dsimp only
    cases hp : pos i with
    | nan => exact absurd hp this
    | val a => rfl
  · cases h

theorem nums_val (v : Fin k → ℚ) : nums (fun i => F64.val (v i)) = some v := by
  unfold nums
  rw [if_pos (fun i => by simp)]

theorem nums_push (cdt : ℚ) (s : Slot k) (h : nums s.pos ≠ none) : nums (pushPos cdt s).pos ≠ none := by
  obtain ⟨v, hv⟩ := Option.ne_none_iff_exists'.mp h
  have : (pushPos cdt s).pos = fun i => F64.val (v i + cdt * s.mom.invGamma * uAt s.mom i) := by
    funext i
    show bump (s.pos i) _ = _
    rw [nums_eq_some hv i]; rfl
  rw [this, nums_val]; simp

theorem storeInterp_pos (K : Kern k) (s : Slot k) : (storeInterp K s).pos = s.pos ∧ (storeInterp K s).dead = s.dead
    ∧ (storeInterp K s).mom = s.mom := by
  unfold storeInterp
  split <;> exact ⟨rfl, rfl, rfl⟩

/-- the work on one living particle -/
def advance (K : Kern k) (bor : FieldsAt ℚ → Mo ℚ → Mo ℚ) (cdt : ℚ) (s : Slot k) : Slot k :=
  pushPos cdt (storeMom bor (storeInterp K (pushPos cdt s)))

theorem advance_dead (K : Kern k) (bor : FieldsAt ℚ → Mo ℚ → Mo ℚ) (cdt : ℚ) (s : Slot k) :
    (advance K bor cdt s).dead = s.dead := by
  unfold advance
  exact (storeInterp_pos K (pushPos cdt s)).2.1

theorem advance_nums (K : Kern k) (bor : FieldsAt ℚ → Mo ℚ → Mo ℚ) (cdt : ℚ) (s : Slot k) (h : nums s.pos ≠ none) :
    nums (advance K bor cdt s).pos ≠ none := by
  unfold advance
  apply nums_push
  show nums (storeInterp K (pushPos cdt s)).pos ≠ none
  rw [(storeInterp_pos K (pushPos cdt s)).1]
  exact nums_push cdt s h

/-- deposition of one particle with the dead and NaN checks -/
def depChecked (K : Kern k) (acc : Acc k) (s : Slot k) : Acc k :=
  if s.dead then acc else if nums s.pos = none then acc else depOne K acc s

theorem unifiedStrip_eq (K : Kern k) (bor : FieldsAt ℚ → Mo ℚ → Mo ℚ) (cdt : ℚ) (strip : List (Slot k)) (acc : Acc k) :
    unifiedStrip K bor cdt strip acc
      = (strip.map (skipDeadNan (advance K bor cdt)), (strip.map (skipDeadNan (advance K bor cdt))).foldl (depChecked K) acc) := by
  unfold unifiedStrip
  by_cases h : cleanStrip strip = true
  · rw [if_pos h]
    dsimp only
    have hc : ∀ s ∈ strip, s.dead = false ∧ nums s.pos ≠ none := by
      intro s hs
      have := List.all_eq_true.mp h s hs
      simp only [Bool.not_eq_true', Bool.or_eq_false_iff] at this
      refine ⟨this.1, ?_⟩
      intro hn
      rw [hn] at this
      simp at this
    have e : (strip.map fun s => storeInterp K (pushPos cdt s)).map (fun s => pushPos cdt (storeMom bor s))
        = strip.map (skipDeadNan (advance K bor cdt)) := by
      rw [List.map_map]
      apply List.map_congr_left
      intro s hs
      have := hc s hs
      unfold skipDeadNan
      rw [if_neg (by rw [this.1]; decide), if_neg this.2]
      rfl
    rw [e]
    congr 1
    have hc' : ∀ s ∈ strip.map (skipDeadNan (advance K bor cdt)), s.dead = false ∧ nums s.pos ≠ none := by
      intro t ht
      obtain ⟨s, hs, rfl⟩ := List.mem_map.mp ht
      have := hc s hs
      unfold skipDeadNan
      rw [if_neg (by rw [this.1]; decide), if_neg this.2]
      exact ⟨(advance_dead K bor cdt s).trans this.1, advance_nums K bor cdt s this.2⟩
    generalize strip.map (skipDeadNan (advance K bor cdt)) = l at hc'
    induction l generalizing acc with
    | nil => rfl
    | cons s l ih =>
      have h1 := hc' s (List.mem_cons_self)
      have e1 : depChecked K acc s = depOne K acc s := by
        unfold depChecked
        rw [if_neg (by rw [h1.1]; decide), if_neg h1.2]
      rw [List.foldl_cons, List.foldl_cons, e1]
      exact ih _ (fun t ht => hc' t (List.mem_cons_of_mem _ ht))
  · rw [if_neg h]
    rfl

theorem unifiedPatch_eq (K : Kern k) (bor : FieldsAt ℚ → Mo ℚ → Mo ℚ) (cdt : ℚ) (size : Nat) (hs : size ≠ 0)
    (ps : List (Slot k)) (acc : Acc k) :
    unifiedPatch K bor cdt size ps acc
      = (ps.map (skipDeadNan (advance K bor cdt)), (ps.map (skipDeadNan (advance K bor cdt))).foldl (depChecked K) acc) := by
  have main : ∀ (n : Nat) (ps : List (Slot k)) (acc : Acc k), ps.length ≤ n → unifiedPatch K bor cdt size ps acc
      = (ps.map (skipDeadNan (advance K bor cdt)), (ps.map (skipDeadNan (advance K bor cdt))).foldl (depChecked K) acc) := by
    intro n
    induction n with
    | zero =>
      intro ps acc hl
      have : ps = [] := List.length_eq_zero_iff.mp (by omega)
      subst this
      rw [unifiedPatch, dif_pos (Or.inl rfl)]
      rfl
    | succ n ih =>
      intro ps acc hl
      by_cases he : ps = []
      · subst he
        rw [unifiedPatch, dif_pos (Or.inl rfl)]
        rfl
      · rw [unifiedPatch, dif_neg (by rintro (h | h) <;> contradiction)]
        dsimp only
        rw [unifiedStrip_eq]
        have hlen : (ps.drop size).length ≤ n := by
          have := List.length_pos_of_ne_nil he
          rw [List.length_drop]; omega
        rw [ih _ _ hlen]
        dsimp only
        rw [← List.foldl_append, ← List.map_append, List.take_append_drop]
  exact main ps.length ps acc le_rfl

/-- every living particle has numeric coordinates -/
def LivingNumeric (ps : List (Slot k)) : Prop := ∀ s ∈ ps, s.dead = false → ∀ i, s.pos i ≠ .nan

theorem nums_ne_none {pos : Fin k → F64} (h : ∀ i, pos i ≠ .nan) : nums pos ≠ none := by
  unfold nums
  rw [if_pos h]; simp

/-- the split sequence on one particle, with a position push that does its work -/
theorem split_slot (K : Kern k) (bor : FieldsAt ℚ → Mo ℚ → Mo ℚ) (cdt : ℚ) (s : Slot k)
    (h : s.dead = false → nums s.pos ≠ none) :
    skipDead (pushPos cdt) (skipDead (storeMom bor) (skipDeadNan (storeInterp K) (skipDead (pushPos cdt) s)))
      = skipDeadNan (advance K bor cdt) s := by
  cases hd : s.dead with
  | true =>
    have e1 : skipDead (pushPos cdt) s = s := by unfold skipDead; rw [if_pos hd]
    have e2 : skipDeadNan (storeInterp K) s = s := by unfold skipDeadNan; rw [if_pos hd]
    have e3 : skipDead (storeMom bor) s = s := by unfold skipDead; rw [if_pos hd]
    have e4 : skipDeadNan (advance K bor cdt) s = s := by unfold skipDeadNan; rw [if_pos hd]
    rw [e1, e2, e3, e1, e4]
  | false =>
    have hn := h hd
    have nd : ∀ t : Slot k, t.dead = false → ¬ (t.dead = true) := fun t ht => by rw [ht]; decide
    have e1 : skipDead (pushPos cdt) s = pushPos cdt s := by unfold skipDead; rw [if_neg (nd s hd)]
    have hd1 : (pushPos cdt s).dead = false := hd
    have hn1 := nums_push cdt s hn
    have e2 : skipDeadNan (storeInterp K) (pushPos cdt s) = storeInterp K (pushPos cdt s) := by
      unfold skipDeadNan; rw [if_neg (nd _ hd1), if_neg hn1]
    have hd2 : (storeInterp K (pushPos cdt s)).dead = false := (storeInterp_pos K _).2.1.trans hd1
    have e3 : skipDead (storeMom bor) (storeInterp K (pushPos cdt s)) = storeMom bor (storeInterp K (pushPos cdt s)) := by
      unfold skipDead; rw [if_neg (nd _ hd2)]
    have hd3 : (storeMom bor (storeInterp K (pushPos cdt s))).dead = false := hd2
    have e4 : skipDead (pushPos cdt) (storeMom bor (storeInterp K (pushPos cdt s))) = advance K bor cdt s := by
      unfold skipDead; rw [if_neg (nd _ hd3)]; rfl
    have e5 : skipDeadNan (advance K bor cdt) s = advance K bor cdt s := by
      unfold skipDeadNan; rw [if_neg (nd s hd), if_neg hn]
    rw [e1, e2, e3, e4, e5]

end Loops
end Verif.Pusher
