import Mathlib.Algebra.BigOperators.Group.Finset.Basic
import Mathlib.Algebra.BigOperators.Group.Finset.Piecewise
import Mathlib.Algebra.BigOperators.Intervals
import Mathlib.Algebra.BigOperators.Ring.Finset
import Mathlib.Algebra.BigOperators.Finprod
import Mathlib.Algebra.Order.Field.Rat
import Mathlib.Tactic.Linarith
import Mathlib.Tactic.FieldSimp
import Mathlib.Tactic.Ring
import Mathlib.Tactic.FinCases
import Mathlib.Tactic.IntervalCases
import Verif.Model.Deposit
import Verif.Proofs.Shape
/-! # Closed form of the current deposition -/
namespace Verif.Deposit
open Verif.Maxwell (Arr)
open Finset

/-! ## Index wrapping -/

theorem wrapUp_spec (n : Nat) (hn : 0 < n) (i : Int) :
    0 ≤ wrapUp n i ∧ wrapUp n i % n = i % n ∧ (0 ≤ i → wrapUp n i = i) ∧ (i < 0 → wrapUp n i < n) := by
  induction i using wrapUp.induct n with
  | case1 i h ih =>
    rw [wrapUp, if_pos h]
    obtain ⟨h1, h2, h3, h4⟩ := ih
    refine ⟨h1, by rw [h2, Int.add_emod_right], fun hh => absurd h.1 (by omega), fun _ => ?_⟩
    by_cases hi : i + n < 0
    · exact h4 hi
    · rw [h3 (by omega)]; omega
  | case2 i h =>
    rw [wrapUp, if_neg h]
    exact ⟨by omega, rfl, fun _ => rfl, fun hh => by omega⟩

theorem wrapDown_spec (n : Nat) (hn : 0 < n) (i : Int) (hi : 0 ≤ i) :
    0 ≤ wrapDown n i ∧ wrapDown n i < n ∧ wrapDown n i % n = i % n := by
  induction i using wrapDown.induct n with
  | case1 i h ih =>
    rw [wrapDown, if_pos h]
    obtain ⟨h1, h2, h3⟩ := ih (by omega)
    exact ⟨h1, h2, by rw [h3, Int.sub_emod_right]⟩
  | case2 i h =>
    rw [wrapDown, if_neg h]
    exact ⟨hi, by omega, rfl⟩

theorem wrap_eq (n : Nat) (hn : 0 < n) (i : Int) : wrapDown n (wrapUp n i) = i % n := by
  obtain ⟨h1, h2, _, _⟩ := wrapUp_spec n hn i
  obtain ⟨h3, h4, h5⟩ := wrapDown_spec n hn _ h1
  rw [← h2, ← h5, Int.emod_eq_of_lt h3 h4]

theorem wrapIdx_eq (n : Nat) (hn : 0 < n) (i0 : Int) (i : Nat) :
    wrapIdx n i0 i = (i0 + ((i : Int) - 2)) % n := wrap_eq n hn _

theorem cellFast1_eq (n : Nat) (hn : 2 ≤ n) (i0 : Int) (i : Nat) (hi : i < 5) :
    cellFast1 n i0 i = (i0 + ((i : Int) - 2)) % n := by
  unfold cellFast1 baseWrap
  rw [wrap_eq n (by omega)]
  have h1 := Int.emod_nonneg i0 (show (n : Int) ≠ 0 by omega)
  have h2 := Int.emod_lt_of_pos i0 (show (0 : Int) < n by omega)
  have h3 : (i0 + ((i : Int) - 2)) % n = (i0 % n + ((i : Int) - 2)) % n := by
    rw [Int.emod_add_emod]
  rw [h3]
  dsimp only
  generalize i0 % (n : Int) = r at *
  split
  · rw [← Int.add_emod_right, Int.emod_eq_of_lt (by omega) (by omega)]
  · split
    · rw [← Int.sub_emod_right, Int.emod_eq_of_lt (by omega) (by omega)]
    · rw [Int.emod_eq_of_lt (by omega) (by omega)]

theorem cellRef1_eq (n : Nat) (i0 : Int) (i : Nat) (hlo : -(n : Int) ≤ i0 + ((i : Int) - 2))
    (hhi : i0 + ((i : Int) - 2) < n) :
    cellRef1 n i0 i = (i0 + ((i : Int) - 2)) % n := by
  unfold cellRef1 SyncFields.wrapIx
  split
  · rw [Int.emod_eq_of_lt (by omega) (by omega)]
  · rw [← Int.add_emod_right, Int.emod_eq_of_lt (by omega) (by omega)]

/-! ## Sums over the stencil seen from one array position -/

/-- what the stencil points that fall on position `c` add up to -/
def proj (cell : Nat → Int) (f : Nat → ℚ) (c : Int) : ℚ := ∑ i ∈ range 5, if cell i = c then f i else 0

theorem proj_add (cell : Nat → Int) (f g : Nat → ℚ) (c : Int) :
    proj cell (fun i => f i + g i) c = proj cell f c + proj cell g c := by
  unfold proj
  rw [← sum_add_distrib]
  exact sum_congr rfl fun i _ => by split <;> simp

theorem proj_smul (cell : Nat → Int) (a : ℚ) (f : Nat → ℚ) (c : Int) :
    proj cell (fun i => a * f i) c = a * proj cell f c := by
  unfold proj
  rw [mul_sum]
  exact sum_congr rfl fun i _ => by split <;> simp

theorem proj_sub (cell : Nat → Int) (f g : Nat → ℚ) (c : Int) :
    proj cell (fun i => f i - g i) c = proj cell f c - proj cell g c := by
  unfold proj
  rw [← sum_sub_distrib]
  exact sum_congr rfl fun i _ => by split <;> simp

/-- running sum of `f` including index `i` -/
def cum (f : Nat → ℚ) (i : Nat) : ℚ := ∑ j ∈ range (i + 1), f j

/-- the running sum deposited over the periodic array has `f` as its backward difference -/
theorem proj_cum_sub (n : Nat) (hn : 0 < n) (i0 : Int) (f : Nat → ℚ) (hf : ∑ i ∈ range 5, f i = 0) (c : Int)
    (hc0 : 0 ≤ c) (hc : c < n) :
    proj (wrapIdx n i0) (cum f) c - proj (wrapIdx n i0) (cum f) ((c - 1) % n)
      = proj (wrapIdx n i0) f c := by
  have hshift : ∀ i : Nat, (wrapIdx n i0 i = (c - 1) % n) ↔ (wrapIdx n i0 (i + 1) = c) := by
    intro i
    rw [wrapIdx_eq n hn, wrapIdx_eq n hn]
    constructor
    · intro h
      have : ((i0 + ((i : Int) - 2)) + 1) % n = ((c - 1) + 1) % n := Int.emod_eq_emod_iff_emod_sub_eq_zero.mpr (by
        have := Int.emod_eq_emod_iff_emod_sub_eq_zero.mp h
        rw [← this]; congr 1; ring)
      rw [sub_add_cancel, Int.emod_eq_of_lt hc0 hc] at this
      rw [← this]; congr 1; push_cast; ring
    · intro h
      have h' : (i0 + (((i + 1 : Nat) : Int) - 2)) % n = c % n := by rw [h, Int.emod_eq_of_lt hc0 hc]
      apply Int.emod_eq_emod_iff_emod_sub_eq_zero.mpr
      have := Int.emod_eq_emod_iff_emod_sub_eq_zero.mp h'
      rw [← this]; congr 1; push_cast; ring
  unfold proj
  simp only [hshift]
  have h4 : cum f 4 = 0 := hf
  have hz : cum f 0 = f 0 := by simp [cum]
  have hs : ∀ i, cum f (i + 1) = cum f i + f (i + 1) := fun i => by
    unfold cum; rw [sum_range_succ]
  rw [sum_range_succ' (fun i => if wrapIdx n i0 i = c then cum f i else 0) 4,
    sum_range_succ (fun i => if wrapIdx n i0 (i + 1) = c then cum f i else 0) 4,
    sum_range_succ' (fun i => if wrapIdx n i0 i = c then f i else 0) 4, h4, hz]
  have : ∀ i ∈ range 4, (if wrapIdx n i0 (i + 1) = c then cum f (i + 1) else 0)
      = (if wrapIdx n i0 (i + 1) = c then cum f i else 0)
        + (if wrapIdx n i0 (i + 1) = c then f (i + 1) else 0) := by
    intro i _; rw [hs]; split <;> simp
  rw [sum_congr rfl this, sum_add_distrib]
  simp only [ite_self]
  ring

/-- summed over the array, every stencil point counts once -/
theorem sum_proj (n : Nat) (hn : 0 < n) (i0 : Int) (f : Nat → ℚ) :
    ∑ c ∈ range n, proj (wrapIdx n i0) f c = ∑ i ∈ range 5, f i := by
  unfold proj
  rw [sum_comm]
  refine sum_congr rfl fun i _ => ?_
  rw [wrapIdx_eq n hn]
  have h1 := Int.emod_nonneg (i0 + ((i : Int) - 2)) (show (n : Int) ≠ 0 by omega)
  have h2 := Int.emod_lt_of_pos (i0 + ((i : Int) - 2)) (show (0 : Int) < n by omega)
  generalize (i0 + ((i : Int) - 2)) % (n : Int) = r at *
  obtain ⟨r, rfl⟩ := Int.eq_ofNat_of_zero_le h1
  have h3 : r < n := by omega
  rw [sum_eq_single r]
  · simp
  · intro b _ hb; rw [if_neg]; omega
  · intro h; exact absurd (mem_range.mpr h3) h

/-! ## Loops -/

theorem foldl_range'_succ {σ : Type} (f : σ → Nat → σ) (s : σ) (a n : Nat) :
    (List.range' a (n + 1)).foldl f s = f ((List.range' a n).foldl f s) (a + n) := by
  rw [List.range'_1_concat, List.foldl_append]; rfl

theorem addTo_apply {k : Nat} (A : Arr k) (c : Fin k → Int) (v : ℚ) (l : Fin k → Int) :
    addTo A c v l = A l + if c = l then v else 0 := by
  unfold addTo
  by_cases h : l = c
  · rw [if_pos h, if_pos h.symm]
  · rw [if_neg h, if_neg (fun h' => h h'.symm), add_zero]

/-- inner loop of the 2D nest -/
theorem row2_fold (nx ny : Nat) (ax ay : Ax) (f : Fac) (i js n : Nat) (s : St2) :
    let t := (List.range' js n).foldl (body2 nx ny ax ay f i) s
    let cell := fun j => (![wrapIdx nx ax.i0 i, wrapIdx ny ay.i0 j] : Fin 2 → Int)
    let a := ax.S0 i + 1 / 2 * ax.DS i
    let b := fun j => ay.S0 j + 1 / 2 * ay.DS j
    (∀ j, t.jxb j = s.jxb j - if j ∈ Ico js (js + n) then f.fdx * ax.DS i * b j else 0)
    ∧ t.jyb = s.jyb - f.fdy * a * ∑ j ∈ Ico js (js + n), ay.DS j
    ∧ (∀ l, t.acc.jx l = s.acc.jx l + ∑ j ∈ Ico js (js + n),
        if cell j = l then s.jxb j - f.fdx * ax.DS i * b j else 0)
    ∧ (∀ l, t.acc.jy l = s.acc.jy l + ∑ j ∈ Ico js (js + n),
        if cell j = l then s.jyb - f.fdy * a * ∑ j' ∈ Ico js (j + 1), ay.DS j' else 0)
    ∧ (∀ l, t.acc.jz l = s.acc.jz l + ∑ j ∈ Ico js (js + n),
        if cell j = l then f.fdz * (a * b j + 1 / 12 * ax.DS i * ay.DS j) else 0)
    ∧ (∀ l, t.acc.rho l = s.acc.rho l + ∑ j ∈ Ico js (js + n),
        if cell j = l then f.charge * ax.S1 i * ay.S1 j else 0) := by
  intro t cell a b
  induction n with
  | zero => simp [t]
  | succ n ih =>
    have ht : t = body2 nx ny ax ay f i ((List.range' js n).foldl (body2 nx ny ax ay f i) s) (js + n) :=
      foldl_range'_succ _ _ _ _
    obtain ⟨h1, h2, h3, h4, h5, h6⟩ := ih
    generalize (List.range' js n).foldl (body2 nx ny ax ay f i) s = u at *
    have hle : js ≤ js + n := by omega
    have hjx : u.jxb (js + n) = s.jxb (js + n) := by
      rw [h1, if_neg (by simp), sub_zero]
    have hjy : u.jyb - f.fdy * (ay.DS (js + n) * a)
        = s.jyb - f.fdy * a * ∑ j ∈ Ico js (js + n + 1), ay.DS j := by
      rw [h2, sum_Ico_succ_top hle]; ring
    rw [ht]
    refine ⟨fun j => ?_, ?_, fun l => ?_, fun l => ?_, fun l => ?_, fun l => ?_⟩
    · show (if j = js + n then u.jxb (js + n) - f.fdx * ax.DS i * b (js + n) else u.jxb j) = _
      by_cases hj : j = js + n
      · subst hj
        rw [if_pos rfl, hjx, if_pos (by simp)]
      · rw [if_neg hj, h1]
        have : (j ∈ Ico js (js + (n + 1))) ↔ (j ∈ Ico js (js + n)) := by simp only [mem_Ico]; omega
        simp only [this]
    · show u.jyb - f.fdy * (ay.DS (js + n) * a) = _
      rw [hjy]; rfl
    · show addTo u.acc.jx _ _ l = _
      rw [addTo_apply, h3, ← add_assoc js n 1, sum_Ico_succ_top hle, add_assoc]
      simp only [if_true, hjx]
      rfl
    · show addTo u.acc.jy _ (u.jyb - f.fdy * (ay.DS (js + n) * a)) l = _
      rw [addTo_apply, h4, ← add_assoc js n 1, sum_Ico_succ_top hle, add_assoc, hjy]
    · show addTo u.acc.jz _ _ l = _
      rw [addTo_apply, h5, ← add_assoc js n 1, sum_Ico_succ_top hle, add_assoc]
    · show addTo u.acc.rho _ _ l = _
      rw [addTo_apply, h6, ← add_assoc js n 1, sum_Ico_succ_top hle, add_assoc]

/-- the 2D loop nest -/
theorem cells2_fold (nx ny : Nat) (ax ay : Ax) (f : Fac) (is m js n : Nat) (acc : Acc 2) :
    let t := (List.range' is m).foldl (row2 nx ny ax ay f js (js + n)) (fun _ => 0, acc)
    let cell := fun i j => (![wrapIdx nx ax.i0 i, wrapIdx ny ay.i0 j] : Fin 2 → Int)
    let a := fun i => ax.S0 i + 1 / 2 * ax.DS i
    let b := fun j => ay.S0 j + 1 / 2 * ay.DS j
    (∀ j ∈ Ico js (js + n), t.1 j = - (f.fdx * (∑ i ∈ Ico is (is + m), ax.DS i) * b j))
    ∧ (∀ l, t.2.jx l = acc.jx l + ∑ i ∈ Ico is (is + m), ∑ j ∈ Ico js (js + n),
        if cell i j = l then - (f.fdx * (∑ i' ∈ Ico is (i + 1), ax.DS i') * b j) else 0)
    ∧ (∀ l, t.2.jy l = acc.jy l + ∑ i ∈ Ico is (is + m), ∑ j ∈ Ico js (js + n),
        if cell i j = l then - (f.fdy * a i * ∑ j' ∈ Ico js (j + 1), ay.DS j') else 0)
    ∧ (∀ l, t.2.jz l = acc.jz l + ∑ i ∈ Ico is (is + m), ∑ j ∈ Ico js (js + n),
        if cell i j = l then f.fdz * (a i * b j + 1 / 12 * ax.DS i * ay.DS j) else 0)
    ∧ (∀ l, t.2.rho l = acc.rho l + ∑ i ∈ Ico is (is + m), ∑ j ∈ Ico js (js + n),
        if cell i j = l then f.charge * ax.S1 i * ay.S1 j else 0) := by
  intro t cell a b
  induction m with
  | zero => simp [t]
  | succ m ih =>
    have ht : t = row2 nx ny ax ay f js (js + n)
        ((List.range' is m).foldl (row2 nx ny ax ay f js (js + n)) (fun _ => 0, acc)) (is + m) :=
      foldl_range'_succ _ _ _ _
    obtain ⟨h1, h2, h3, h4, h5⟩ := ih
    generalize (List.range' is m).foldl (row2 nx ny ax ay f js (js + n)) (fun _ => 0, acc) = u at *
    have hle : is ≤ is + m := by omega
    obtain ⟨g1, -, g3, g4, g5, g6⟩ := row2_fold nx ny ax ay f (is + m) js n ⟨u.1, 0, u.2⟩
    dsimp only at g1 g3 g4 g5 g6
    have hr : row2 nx ny ax ay f js (js + n) u (is + m)
        = (((List.range' js n).foldl (body2 nx ny ax ay f (is + m)) ⟨u.1, 0, u.2⟩).jxb,
          ((List.range' js n).foldl (body2 nx ny ax ay f (is + m)) ⟨u.1, 0, u.2⟩).acc) := by
      unfold row2; rw [Nat.add_sub_cancel_left]
    rw [ht, hr]
    generalize (List.range' js n).foldl (body2 nx ny ax ay f (is + m)) ⟨u.1, 0, u.2⟩ = v at *
    refine ⟨fun j hj => ?_, fun l => ?_, fun l => ?_, fun l => ?_, fun l => ?_⟩
    · show v.jxb j = _
      rw [g1, if_pos hj, h1 j hj, ← add_assoc is m 1, sum_Ico_succ_top hle]; ring
    · show v.acc.jx l = _
      rw [g3, h2, ← add_assoc is m 1, sum_Ico_succ_top hle, add_assoc]
      congr 2
      refine sum_congr rfl fun j hj => ?_
      congr 1
      rw [h1 j hj, sum_Ico_succ_top hle]; ring
    · show v.acc.jy l = _
      rw [g4, h3, ← add_assoc is m 1, sum_Ico_succ_top hle, add_assoc]
      congr 2
      refine sum_congr rfl fun j hj => ?_
      congr 1
      rw [zero_sub]
    · show v.acc.jz l = _
      rw [g5, h4, ← add_assoc is m 1, sum_Ico_succ_top hle, add_assoc]
    · show v.acc.rho l = _
      rw [g6, h5, ← add_assoc is m 1, sum_Ico_succ_top hle, add_assoc]

/-! ## One axis -/

/-- the values of one axis are usable: nothing outside the loop bounds, weights add up to one -/
structure AxOK (ax : Ax) : Prop where
  lo : ∀ i, i < ax.start → ax.S0 i = 0 ∧ ax.S1 i = 0
  hi : ∀ i, ax.stop ≤ i → i < 5 → ax.S0 i = 0 ∧ ax.S1 i = 0
  sum0 : ∑ i ∈ range 5, ax.S0 i = 1
  sum1 : ∑ i ∈ range 5, ax.S1 i = 1

theorem AxOK.sumDS {ax : Ax} (h : AxOK ax) : ∑ i ∈ range 5, ax.DS i = 0 := by
  unfold Ax.DS
  rw [sum_sub_distrib, h.sum0, h.sum1, sub_self]

theorem Ax.bounds (ax : Ax) : ax.start ≤ 1 ∧ 4 ≤ ax.stop ∧ ax.stop ≤ 5 := by
  unfold Ax.start Ax.stop
  constructor
  · split <;> omega
  · split <;> omega

theorem AxOK.sum_ext {ax : Ax} (h : AxOK ax) (F : Nat → ℚ)
    (hF : ∀ i, i < 5 → ax.S0 i = 0 → ax.S1 i = 0 → (i < ax.start ∨ ax.stop ≤ i) → F i = 0) :
    ∑ i ∈ Ico ax.start ax.stop, F i = ∑ i ∈ range 5, F i := by
  obtain ⟨b1, b2, b3⟩ := ax.bounds
  apply sum_subset
  · intro i hi
    rw [mem_Ico] at hi
    rw [mem_range]; omega
  · intro i hi hi'
    rw [mem_range] at hi
    rw [mem_Ico] at hi'
    by_cases hc : i < ax.start
    · exact hF i hi (h.lo i hc).1 (h.lo i hc).2 (Or.inl hc)
    · have : ax.stop ≤ i := by omega
      exact hF i hi (h.hi i this hi).1 (h.hi i this hi).2 (Or.inr this)

theorem AxOK.DS_lo {ax : Ax} (h : AxOK ax) (i : Nat) (hi : i < ax.start) : ax.DS i = 0 := by
  unfold Ax.DS; rw [(h.lo i hi).1, (h.lo i hi).2, sub_self]

theorem AxOK.cum_eq {ax : Ax} (h : AxOK ax) (i : Nat) :
    ∑ j ∈ Ico ax.start (i + 1), ax.DS j = cum ax.DS i := by
  unfold cum
  apply sum_subset
  · intro j hj
    rw [mem_Ico] at hj
    rw [mem_range]; omega
  · intro j hj hj'
    rw [mem_range] at hj
    rw [mem_Ico] at hj'
    exact h.DS_lo j (by omega)

theorem AxOK.cum_out {ax : Ax} (h : AxOK ax) (i : Nat) (hi : i < 5) (ho : i < ax.start ∨ ax.stop ≤ i) :
    cum ax.DS i = 0 := by
  rcases ho with ho | ho
  · rw [← h.cum_eq, Ico_eq_empty (by omega), sum_empty]
  · have := ax.bounds.2.1
    have : i = 4 := by omega
    subst this
    exact h.sumDS

theorem ite_pair (p q : Int) (l : Fin 2 → Int) (v w : ℚ) :
    (if (![p, q] : Fin 2 → Int) = l then v * w else 0)
      = (if p = l 0 then v else 0) * (if q = l 1 then w else 0) := by
  have : ((![p, q] : Fin 2 → Int) = l) ↔ (p = l 0 ∧ q = l 1) := by
    constructor
    · rintro rfl; exact ⟨rfl, rfl⟩
    · rintro ⟨rfl, rfl⟩
      funext a; fin_cases a <;> rfl
  by_cases h1 : p = l 0
  · by_cases h2 : q = l 1
    · rw [if_pos (this.mpr ⟨h1, h2⟩), if_pos h1, if_pos h2]
    · rw [if_neg (fun h => h2 (this.mp h).2), if_neg h2, mul_zero]
  · rw [if_neg (fun h => h1 (this.mp h).1), if_neg h1, zero_mul]

theorem sum_pair (cx cy : Nat → Int) (F G : Nat → ℚ) (l : Fin 2 → Int) :
    ∑ i ∈ range 5, ∑ j ∈ range 5, (if (![cx i, cy j] : Fin 2 → Int) = l then F i * G j else 0)
      = proj cx F (l 0) * proj cy G (l 1) := by
  unfold proj
  rw [sum_mul_sum]
  exact sum_congr rfl fun i _ => sum_congr rfl fun j _ => ite_pair _ _ _ _ _

/-- extends a double sum over the loop bounds to the whole stencil and factorises it -/
theorem sum_pair_ext {ax ay : Ax} (hx : AxOK ax) (hy : AxOK ay) (cx cy : Nat → Int) (F G : Nat → ℚ)
    (hF : ∀ i, i < 5 → ax.S0 i = 0 → ax.S1 i = 0 → (i < ax.start ∨ ax.stop ≤ i) → F i = 0)
    (hG : ∀ i, i < 5 → ay.S0 i = 0 → ay.S1 i = 0 → (i < ay.start ∨ ay.stop ≤ i) → G i = 0)
    (l : Fin 2 → Int) :
    ∑ i ∈ Ico ax.start ax.stop, ∑ j ∈ Ico ay.start ay.stop,
      (if (![cx i, cy j] : Fin 2 → Int) = l then F i * G j else 0)
      = proj cx F (l 0) * proj cy G (l 1) := by
  rw [← sum_pair, hx.sum_ext]
  · refine sum_congr rfl fun i _ => ?_
    rw [hy.sum_ext]
    intro j h1 h2 h3 h4
    rw [hG j h1 h2 h3 h4, mul_zero, ite_self]
  · intro i h1 h2 h3 h4
    refine sum_eq_zero fun j _ => ?_
    rw [hF i h1 h2 h3 h4, zero_mul, ite_self]

theorem mul_dsum (c : ℚ) (s t : Finset Nat) (F : Nat → Nat → ℚ) :
    c * ∑ i ∈ s, ∑ j ∈ t, F i j = ∑ i ∈ s, ∑ j ∈ t, c * F i j := by simp only [mul_sum]

/-- mean of old and new weights of one axis -/
def Ax.mid (ax : Ax) (i : Nat) : ℚ := ax.S0 i + 1 / 2 * ax.DS i

/-- closed form of the 2D loop nest -/
theorem cells2_eq (nx ny : Nat) {ax ay : Ax} (hx : AxOK ax) (hy : AxOK ay) (f : Fac) (acc : Acc 2) :
    let r := cells2 nx ny ax ay f ax.start ax.stop ay.start ay.stop acc
    let px := proj (wrapIdx nx ax.i0)
    let py := proj (wrapIdx ny ay.i0)
    (∀ l, r.jx l = acc.jx l - f.fdx * (px (cum ax.DS) (l 0) * py ay.mid (l 1)))
    ∧ (∀ l, r.jy l = acc.jy l - f.fdy * (px ax.mid (l 0) * py (cum ay.DS) (l 1)))
    ∧ (∀ l, r.jz l = acc.jz l + f.fdz * (px ax.mid (l 0) * py ay.mid (l 1)
        + 1 / 12 * (px ax.DS (l 0) * py ay.DS (l 1))))
    ∧ (∀ l, r.rho l = acc.rho l + f.charge * (px ax.S1 (l 0) * py ay.S1 (l 1))) := by
  intro r px py
  obtain ⟨bx1, bx2, bx3⟩ := ax.bounds
  obtain ⟨by1, by2, by3⟩ := ay.bounds
  have e1 : ax.start + (ax.stop - ax.start) = ax.stop := by omega
  have e2 : ay.start + (ay.stop - ay.start) = ay.stop := by omega
  have h := cells2_fold nx ny ax ay f ax.start (ax.stop - ax.start) ay.start (ay.stop - ay.start) acc
  dsimp only at h
  rw [e1, e2] at h
  obtain ⟨-, h2, h3, h4, h5⟩ := h
  have cumx : ∀ i, i < 5 → ax.S0 i = 0 → ax.S1 i = 0 → (i < ax.start ∨ ax.stop ≤ i) → cum ax.DS i = 0 :=
    fun i h1 _ _ h4 => hx.cum_out i h1 h4
  have cumy : ∀ i, i < 5 → ay.S0 i = 0 → ay.S1 i = 0 → (i < ay.start ∨ ay.stop ≤ i) → cum ay.DS i = 0 :=
    fun i h1 _ _ h4 => hy.cum_out i h1 h4
  have midx : ∀ i, i < 5 → ax.S0 i = 0 → ax.S1 i = 0 → (i < ax.start ∨ ax.stop ≤ i) → ax.mid i = 0 :=
    fun i _ h2 h3 _ => by simp [Ax.mid, Ax.DS, h2, h3]
  have midy : ∀ i, i < 5 → ay.S0 i = 0 → ay.S1 i = 0 → (i < ay.start ∨ ay.stop ≤ i) → ay.mid i = 0 :=
    fun i _ h2 h3 _ => by simp [Ax.mid, Ax.DS, h2, h3]
  have dsx : ∀ i, i < 5 → ax.S0 i = 0 → ax.S1 i = 0 → (i < ax.start ∨ ax.stop ≤ i) → ax.DS i = 0 :=
    fun i _ h2 h3 _ => by simp [Ax.DS, h2, h3]
  have dsy : ∀ i, i < 5 → ay.S0 i = 0 → ay.S1 i = 0 → (i < ay.start ∨ ay.stop ≤ i) → ay.DS i = 0 :=
    fun i _ h2 h3 _ => by simp [Ax.DS, h2, h3]
  refine ⟨fun l => ?_, fun l => ?_, fun l => ?_, fun l => ?_⟩
  · refine (h2 l).trans ?_
    rw [sub_eq_add_neg, ← sum_pair_ext hx hy (wrapIdx nx ax.i0) (wrapIdx ny ay.i0) _ _ cumx midy, ← neg_mul,
      mul_dsum]
    congr 1
    refine sum_congr rfl fun i _ => ?_
    refine sum_congr rfl fun j _ => ?_
    rw [hx.cum_eq]
    split
    · unfold Ax.mid; ring
    · ring
  · refine (h3 l).trans ?_
    rw [sub_eq_add_neg, ← sum_pair_ext hx hy (wrapIdx nx ax.i0) (wrapIdx ny ay.i0) _ _ midx cumy, ← neg_mul,
      mul_dsum]
    congr 1
    refine sum_congr rfl fun i _ => ?_
    refine sum_congr rfl fun j _ => ?_
    rw [hy.cum_eq]
    split
    · unfold Ax.mid; ring
    · ring
  · refine (h4 l).trans ?_
    rw [← sum_pair_ext hx hy (wrapIdx nx ax.i0) (wrapIdx ny ay.i0) _ _ midx midy,
      ← sum_pair_ext hx hy (wrapIdx nx ax.i0) (wrapIdx ny ay.i0) _ _ dsx dsy, mul_sum, ← sum_add_distrib,
      mul_sum]
    congr 1
    refine sum_congr rfl fun i _ => ?_
    rw [mul_sum, ← sum_add_distrib, mul_sum]
    refine sum_congr rfl fun j _ => ?_
    split
    · unfold Ax.mid; ring
    · ring
  · refine (h5 l).trans ?_
    rw [← sum_pair_ext hx hy (wrapIdx nx ax.i0) (wrapIdx ny ay.i0) ax.S1 ay.S1 (fun _ _ _ h _ => h)
      (fun _ _ _ h _ => h), mul_sum]
    congr 1
    refine sum_congr rfl fun i _ => ?_
    rw [mul_sum]
    refine sum_congr rfl fun j _ => ?_
    split
    · ring
    · ring

/-! ## The weights are the particle shape -/

theorem cInt_eq_floor {q : ℚ} (h : 0 ≤ q) : cInt q = ⌊q⌋ := if_pos h

theorem sum_range5 (f : Nat → ℚ) : ∑ i ∈ range 5, f i = f 0 + f 1 + f 2 + f 3 + f 4 := by
  simp only [sum_range_succ, sum_range_zero, zero_add]

theorem calcS0_eq (delta : ℚ) (i : Nat) : calcS0 delta i = calcS delta 0 i := by
  unfold calcS calcS0
  match i with
  | 0 => norm_num
  | 1 => norm_num
  | 2 => norm_num
  | 3 => norm_num
  | 4 => norm_num
  | (n + 5) => rfl

/-- `mkAx` with the floor cast, written with `calcS` only -/
theorem mkAx_floor (old adv : ℚ) : mkAx (fun q => ⌊q⌋) old adv = mkAxRef old adv := by
  unfold mkAx mkAxRef
  dsimp only
  congr 1
  · funext i; exact calcS0_eq _ i
  · split
    · rename_i h
      rw [h]; funext i; exact calcS0_eq _ i
    · rfl

theorem calcS_sum (delta : ℚ) (shift : Int) (h : shift = -1 ∨ shift = 0 ∨ shift = 1) :
    ∑ i ∈ range 5, calcS delta shift i = 1 := by
  rw [sum_range5]
  unfold calcS
  rcases h with rfl | rfl | rfl <;> norm_num <;> ring

/-- the weights are the particle shape at the five stencil points around `i0` -/
theorem calcS_shape (X : ℚ) (i0 : Int) (hs : ⌊X + 1/2⌋ - i0 = -1 ∨ ⌊X + 1/2⌋ - i0 = 0 ∨ ⌊X + 1/2⌋ - i0 = 1)
    (i : Nat) (hi : i < 5) :
    calcS (⌊X + 1/2⌋ - X) (⌊X + 1/2⌋ - i0) i = Shape.shape (X - ((i0 + ((i : Int) - 2) : Int) : ℚ)) := by
  have h1 := Int.floor_le (X + 1/2)
  have h2 := Int.lt_floor_add_one (X + 1/2)
  have hm1 : Shape.shape (X - (⌊X + 1/2⌋ - 1)) = (3/2 - (X - (⌊X + 1/2⌋ - 1))) ^ 2 / 2 :=
    Shape.shape_right (by linarith) (by linarith)
  have hm0 : Shape.shape (X - ⌊X + 1/2⌋) = 3 / 4 - (X - ⌊X + 1/2⌋) ^ 2 :=
    Shape.shape_mid (by linarith) (by linarith)
  have hp1 : Shape.shape (X - (⌊X + 1/2⌋ + 1)) = (3/2 + (X - (⌊X + 1/2⌋ + 1))) ^ 2 / 2 :=
    Shape.shape_left (by linarith) (by linarith)
  have hfar : ∀ k : Int, k < -1 ∨ 1 < k → Shape.shape (X - (⌊X + 1/2⌋ + k : ℚ)) = 0 := by
    intro k hk
    have := @Shape.shape_far X (⌊X + 1/2⌋ + k) (by omega)
    push_cast at this
    exact this
  generalize hF : ⌊X + 1/2⌋ = m at *
  have key : ∀ k : Int, i0 + ((i : Int) - 2) = m + k →
      Shape.shape (X - ((i0 + ((i : Int) - 2) : Int) : ℚ)) = Shape.shape (X - (m + k : ℚ)) := by
    intro k hk; rw [hk]; push_cast; rfl
  have km1 : Shape.shape (X - ((m : ℚ) + (-1 : Int))) = (3/2 - (X - (m - 1))) ^ 2 / 2 := by
    rw [← hm1]; congr 1; push_cast; ring
  have k0 : Shape.shape (X - ((m : ℚ) + (0 : Int))) = 3 / 4 - (X - m) ^ 2 := by
    rw [← hm0]; congr 1; push_cast; ring
  have k1 : Shape.shape (X - ((m : ℚ) + (1 : Int))) = (3/2 + (X - (m + 1))) ^ 2 / 2 := by
    rw [← hp1]; congr 1
  rcases hs with h | h | h <;> rw [h] <;> interval_cases i
  all_goals first
    | (rw [key (-1) (by omega), km1]; dsimp only [calcS]; norm_num; ring)
    | (rw [key 0 (by omega), k0]; dsimp only [calcS]; norm_num; ring)
    | (rw [key 1 (by omega), k1]; dsimp only [calcS]; norm_num; ring)
    | (rw [key 2 (by omega), hfar 2 (by omega)]; dsimp only [calcS]; norm_num)
    | (rw [key (-2) (by omega), hfar (-2) (by omega)]; dsimp only [calcS]; norm_num)
    | (rw [key 3 (by omega), hfar 3 (by omega)]; dsimp only [calcS]; norm_num)
    | (rw [key (-3) (by omega), hfar (-3) (by omega)]; dsimp only [calcS]; norm_num)

theorem floor_near {a b : ℚ} (h : |b - a| ≤ 1) :
    ⌊b + 1/2⌋ - ⌊a + 1/2⌋ = -1 ∨ ⌊b + 1/2⌋ - ⌊a + 1/2⌋ = 0 ∨ ⌊b + 1/2⌋ - ⌊a + 1/2⌋ = 1 := by
  have := abs_le.mp h
  have h1 := Int.floor_le (a + 1/2)
  have h2 := Int.lt_floor_add_one (a + 1/2)
  have h3 := Int.floor_le (b + 1/2)
  have h4 := Int.lt_floor_add_one (b + 1/2)
  have h5 : ⌊b + 1/2⌋ < ⌊a + 1/2⌋ + 2 := by
    have : (⌊b + 1/2⌋ : ℚ) < ⌊a + 1/2⌋ + 2 := by linarith
    exact_mod_cast this
  have h6 : ⌊a + 1/2⌋ < ⌊b + 1/2⌋ + 2 := by
    have : (⌊a + 1/2⌋ : ℚ) < ⌊b + 1/2⌋ + 2 := by linarith
    exact_mod_cast this
  omega

theorem mkAxRef_ok {old adv : ℚ} (h : |adv - old| ≤ 1) : AxOK (mkAxRef old adv) := by
  have hd := floor_near h
  have hdc : (mkAxRef old adv).dcell = ⌊adv + 1/2⌋ - ⌊old + 1/2⌋ := rfl
  have hS0 : (mkAxRef old adv).S0 = calcS (⌊old + 1/2⌋ - old) 0 := rfl
  have hS1 : (mkAxRef old adv).S1 = calcS (⌊adv + 1/2⌋ - adv) (⌊adv + 1/2⌋ - ⌊old + 1/2⌋) := rfl
  refine ⟨fun i hi => ?_, fun i hi hi5 => ?_, ?_, ?_⟩
  · have hi0 : i = 0 := by unfold Ax.start at hi; split at hi <;> omega
    have hneg : ¬ (mkAxRef old adv).dcell < 0 := fun hc => by
      unfold Ax.start at hi; rw [if_pos hc] at hi; omega
    rw [hdc] at hneg
    subst hi0
    rw [hS0, hS1]
    refine ⟨by dsimp only [calcS]; norm_num, ?_⟩
    show (if _ = -1 then (1 : ℚ) else 0) * _ = 0
    rw [if_neg (by omega), zero_mul]
  · have hi4 : i = 4 := by unfold Ax.stop at hi; split at hi <;> omega
    have hneg : ¬ 0 < (mkAxRef old adv).dcell := fun hc => by
      unfold Ax.stop at hi; rw [if_pos hc] at hi; omega
    rw [hdc] at hneg
    subst hi4
    rw [hS0, hS1]
    refine ⟨by dsimp only [calcS]; norm_num, ?_⟩
    show (if _ = 1 then (1 : ℚ) else 0) * _ = 0
    rw [if_neg (by omega), zero_mul]
  · rw [hS0]; exact calcS_sum _ _ (by omega)
  · rw [hS1]; exact calcS_sum _ _ hd

theorem calcS_moment (delta : ℚ) (shift : Int) (h : shift = -1 ∨ shift = 0 ∨ shift = 1) :
    ∑ i ∈ range 5, ((i : ℚ) - 2) * calcS delta shift i = shift - delta := by
  rw [sum_range5]
  unfold calcS
  rcases h with rfl | rfl | rfl <;> norm_num <;> ring

/-- the running sums add up to minus the displacement -/
theorem sum_cum {old adv : ℚ} (h : |adv - old| ≤ 1) :
    ∑ i ∈ range 5, cum (mkAxRef old adv).DS i = -(adv - old) := by
  have hd := floor_near h
  have hS0 : (mkAxRef old adv).S0 = calcS (⌊old + 1/2⌋ - old) 0 := rfl
  have hS1 : (mkAxRef old adv).S1 = calcS (⌊adv + 1/2⌋ - adv) (⌊adv + 1/2⌋ - ⌊old + 1/2⌋) := rfl
  have m0 := calcS_moment (⌊old + 1/2⌋ - old) 0 (by omega)
  have m1 := calcS_moment (⌊adv + 1/2⌋ - adv) _ hd
  have z := (mkAxRef_ok h).sumDS
  rw [← hS0, sum_range5] at m0
  rw [← hS1, sum_range5] at m1
  rw [sum_range5] at z ⊢
  simp only [cum, sum_range_succ, sum_range_zero, Ax.DS] at z ⊢
  push_cast at m0 m1
  linarith

theorem sum_mid {ax : Ax} (h : AxOK ax) : ∑ i ∈ range 5, ax.mid i = 1 := by
  unfold Ax.mid
  rw [sum_add_distrib, ← mul_sum, h.sum0, h.sumDS]; ring

/-- position `c` receives from the stencil exactly the weight of the particle shape there -/
theorem proj_shape (n : Nat) (hn : 0 < n) (i0 : Int) (S : Nat → ℚ) (X : ℚ) (c : Int)
    (hd : ⌊X + 1/2⌋ - i0 = -1 ∨ ⌊X + 1/2⌋ - i0 = 0 ∨ ⌊X + 1/2⌋ - i0 = 1)
    (hS : ∀ i, i < 5 → S i = Shape.shape (X - ((i0 + ((i : Int) - 2) : Int) : ℚ))) :
    proj (wrapIdx n i0) S c = Shape.lineWeight n X c := by
  have hinj : Function.Injective (fun i : Nat => i0 + ((i : Int) - 2)) := fun a b h => by
    dsimp only at h; omega
  rw [Shape.lineWeight_eq n X c ((range 5).map ⟨_, hinj⟩)]
  · rw [sum_map]
    unfold proj
    refine sum_congr rfl fun i hi => ?_
    rw [wrapIdx_eq n hn, hS i (mem_range.mp hi)]
    rfl
  · intro m hm
    rw [mem_Icc] at hm
    rw [mem_map]
    refine ⟨(m - i0 + 2).toNat, mem_range.mpr (by omega), ?_⟩
    show i0 + (((m - i0 + 2).toNat : Int) - 2) = m
    omega

theorem proj_S0 (n : Nat) (hn : 0 < n) (old adv : ℚ) (c : Int) :
    proj (wrapIdx n (mkAxRef old adv).i0) (mkAxRef old adv).S0 c = Shape.lineWeight n old c := by
  have e : (mkAxRef old adv).i0 = ⌊old + 1/2⌋ := rfl
  apply proj_shape n hn
  · rw [e]; omega
  · intro i hi
    rw [e, ← calcS_shape old ⌊old + 1/2⌋ (by omega) i hi, sub_self]
    rfl

theorem proj_S1 (n : Nat) (hn : 0 < n) {old adv : ℚ} (h : |adv - old| ≤ 1) (c : Int) :
    proj (wrapIdx n (mkAxRef old adv).i0) (mkAxRef old adv).S1 c = Shape.lineWeight n adv c := by
  have e : (mkAxRef old adv).i0 = ⌊old + 1/2⌋ := rfl
  apply proj_shape n hn
  · rw [e]; exact floor_near h
  · intro i hi
    rw [e, ← calcS_shape adv ⌊old + 1/2⌋ (floor_near h) i hi]
    rfl

theorem proj_mid (cell : Nat → Int) (ax : Ax) (c : Int) :
    proj cell ax.mid c = 1 / 2 * (proj cell ax.S0 c + proj cell ax.S1 c) := by
  have : ax.mid = fun i => 1 / 2 * (ax.S0 i + ax.S1 i) := by
    funext i; unfold Ax.mid Ax.DS; ring
  rw [this, proj_smul, proj_add]

theorem proj_DS (cell : Nat → Int) (ax : Ax) (c : Int) :
    proj cell ax.DS c = proj cell ax.S1 c - proj cell ax.S0 c := proj_sub _ _ _ _

theorem proj_out (n : Nat) (hn : 0 < n) (i0 : Int) (f : Nat → ℚ) (c : Int) (hc : c < 0 ∨ n ≤ c) :
    proj (wrapIdx n i0) f c = 0 := by
  unfold proj
  refine sum_eq_zero fun i _ => ?_
  rw [wrapIdx_eq n hn, if_neg]
  intro h
  have h1 := Int.emod_nonneg (i0 + ((i : Int) - 2)) (show (n : Int) ≠ 0 by omega)
  have h2 := Int.emod_lt_of_pos (i0 + ((i : Int) - 2)) (show (0 : Int) < n by omega)
  omega

/-! ## 2D deposition in terms of its axes -/

theorem mkAx_cast {cast : ℚ → Int} {o a : ℚ} (ho : cast (o + 1/2) = ⌊o + 1/2⌋) (ha : cast (a + 1/2) = ⌊a + 1/2⌋) :
    mkAx cast o a = mkAxRef o a := by
  rw [← mkAx_floor]
  unfold mkAx
  rw [ho, ha]

theorem cInt_half {x d : ℚ} (hd : 0 < d) (hx : 0 ≤ x) : cInt (x / d + 1/2) = ⌊x / d + 1/2⌋ :=
  cInt_eq_floor (by have := div_nonneg hx hd.le; linarith)

/-- both casts of `current_deposit_2d` give the floor of the coordinate -/
theorem cast2_eq {dx dy xo xa yo ya : ℚ} (hx : 0 < dx) (hy : 0 < dy) :
    mkAx (cast2 xo xa yo ya) (xo / dx) (xa / dx) = mkAxRef (xo / dx) (xa / dx)
    ∧ mkAx (cast2 xo xa yo ya) (yo / dy) (ya / dy) = mkAxRef (yo / dy) (ya / dy) := by
  unfold cast2
  split
  · rename_i h
    obtain ⟨h1, h2, h3, h4⟩ := h
    exact ⟨mkAx_cast (cInt_half hx h1) (cInt_half hx h2), mkAx_cast (cInt_half hy h3) (cInt_half hy h4)⟩
  · exact ⟨mkAx_floor _ _, mkAx_floor _ _⟩

theorem cast3_eq {dx dy dz xo xa yo ya zo za : ℚ} (hx : 0 < dx) (hy : 0 < dy) (hz : 0 < dz) :
    mkAx (cast3 xo xa yo ya zo za) (xo / dx) (xa / dx) = mkAxRef (xo / dx) (xa / dx)
    ∧ mkAx (cast3 xo xa yo ya zo za) (yo / dy) (ya / dy) = mkAxRef (yo / dy) (ya / dy)
    ∧ mkAx (cast3 xo xa yo ya zo za) (zo / dz) (za / dz) = mkAxRef (zo / dz) (za / dz) := by
  unfold cast3
  split
  · rename_i h
    obtain ⟨h1, h2, h3, h4, h5, h6⟩ := h
    exact ⟨mkAx_cast (cInt_half hx h1) (cInt_half hx h2), mkAx_cast (cInt_half hy h3) (cInt_half hy h4),
      mkAx_cast (cInt_half hz h5) (cInt_half hz h6)⟩
  · exact ⟨mkAx_floor _ _, mkAx_floor _ _, mkAx_floor _ _⟩

/-- displacement of one axis in cells -/
theorem adv_sub_old (g : Grid1) (hd : 0 < g.d) (x v dt : ℚ) :
    xAdv g x v dt / g.d - xOld g x v dt / g.d = v * dt / g.d := by
  unfold xAdv xOld
  rw [← sub_div]; congr 1; ring

theorem cfl_axis (g : Grid1) (hd : 0 < g.d) (x v dt : ℚ) (h : |v * dt| ≤ g.d) :
    |xAdv g x v dt / g.d - xOld g x v dt / g.d| ≤ 1 := by
  rw [adv_sub_old g hd, abs_div, abs_of_pos hd]
  exact (div_le_one hd).mpr h

/-- axis of a grid for a particle with coordinate `x` and velocity `v` -/
def axisOf (g : Grid1) (x v dt : ℚ) : Ax := mkAxRef (xOld g x v dt / g.d) (xAdv g x v dt / g.d)

theorem deposit2_cells (gx gy : Grid1) (hx : 0 < gx.d) (hy : 0 < gy.d) (dt q x y : ℚ) (p : Mom) (acc : Acc 2) :
    deposit2 gx gy dt q x y p acc
      = cells2 gx.n gy.n (axisOf gx x p.vx dt) (axisOf gy y p.vy dt)
          ⟨q * p.w / (gx.d * gy.d), q * p.w / (gx.d * gy.d) / dt * gx.d, q * p.w / (gx.d * gy.d) / dt * gy.d,
            q * p.w / (gx.d * gy.d) / dt * dt * p.vz⟩
          (axisOf gx x p.vx dt).start (axisOf gx x p.vx dt).stop
          (axisOf gy y p.vy dt).start (axisOf gy y p.vy dt).stop acc := by
  unfold deposit2
  dsimp only
  obtain ⟨h1, h2⟩ := cast2_eq (xo := xOld gx x p.vx dt) (xa := xAdv gx x p.vx dt)
    (yo := xOld gy y p.vy dt) (ya := xAdv gy y p.vy dt) hx hy
  rw [h1, h2]
  rfl

/-! ## 3D loop nest -/

/-- loop body with arbitrary increments -/
def body3 (cell : Nat → Nat → Nat → Fin 3 → Int) (WX WY WZ R : Nat → Nat → Nat → ℚ) (i j : Nat) (s : St3)
    (k : Nat) : St3 :=
  let jxb := fun k' j' => if k' = k ∧ j' = j then s.jxb k j - WX i j k else s.jxb k' j'
  let jyb := fun k' => if k' = k then s.jyb k - WY i j k else s.jyb k'
  let jzb := s.jzb - WZ i j k
  let c := cell i j k
  ⟨jxb, jyb, jzb,
    ⟨addTo s.acc.jx c (jxb k j), addTo s.acc.jy c (jyb k), addTo s.acc.jz c jzb,
      addTo s.acc.rho c (R i j k)⟩⟩

theorem body3_fold (cell : Nat → Nat → Nat → Fin 3 → Int) (WX WY WZ R : Nat → Nat → Nat → ℚ) (i j ks n : Nat)
    (s : St3) :
    let t := (List.range' ks n).foldl (body3 cell WX WY WZ R i j) s
    (∀ k' j', t.jxb k' j' = s.jxb k' j' - if j' = j ∧ k' ∈ Ico ks (ks + n) then WX i j k' else 0)
    ∧ (∀ k', t.jyb k' = s.jyb k' - if k' ∈ Ico ks (ks + n) then WY i j k' else 0)
    ∧ t.jzb = s.jzb - ∑ k ∈ Ico ks (ks + n), WZ i j k
    ∧ (∀ l, t.acc.jx l = s.acc.jx l + ∑ k ∈ Ico ks (ks + n), if cell i j k = l then s.jxb k j - WX i j k else 0)
    ∧ (∀ l, t.acc.jy l = s.acc.jy l + ∑ k ∈ Ico ks (ks + n), if cell i j k = l then s.jyb k - WY i j k else 0)
    ∧ (∀ l, t.acc.jz l = s.acc.jz l + ∑ k ∈ Ico ks (ks + n),
        if cell i j k = l then s.jzb - ∑ k' ∈ Ico ks (k + 1), WZ i j k' else 0)
    ∧ (∀ l, t.acc.rho l = s.acc.rho l + ∑ k ∈ Ico ks (ks + n), if cell i j k = l then R i j k else 0) := by
  intro t
  induction n with
  | zero => simp [t]
  | succ n ih =>
    have ht : t = body3 cell WX WY WZ R i j ((List.range' ks n).foldl (body3 cell WX WY WZ R i j) s) (ks + n) :=
      foldl_range'_succ _ _ _ _
    obtain ⟨h1, h2, h3, h4, h5, h6, h7⟩ := ih
    generalize (List.range' ks n).foldl (body3 cell WX WY WZ R i j) s = u at *
    have hle : ks ≤ ks + n := by omega
    have hjx : u.jxb (ks + n) j = s.jxb (ks + n) j := by rw [h1, if_neg (by simp), sub_zero]
    have hjy : u.jyb (ks + n) = s.jyb (ks + n) := by rw [h2, if_neg (by simp), sub_zero]
    have hjz : u.jzb - WZ i j (ks + n) = s.jzb - ∑ k ∈ Ico ks (ks + n + 1), WZ i j k := by
      rw [h3, sum_Ico_succ_top hle]; ring
    have hmem : ∀ k', k' ≠ ks + n → ((k' ∈ Ico ks (ks + (n + 1))) ↔ (k' ∈ Ico ks (ks + n))) := by
      intro k' hk; simp only [mem_Ico]; omega
    rw [ht]
    refine ⟨fun k' j' => ?_, fun k' => ?_, ?_, fun l => ?_, fun l => ?_, fun l => ?_, fun l => ?_⟩
    · show (if k' = ks + n ∧ j' = j then u.jxb (ks + n) j - WX i j (ks + n) else u.jxb k' j') = _
      by_cases hk : k' = ks + n
      · subst hk
        by_cases hj : j' = j
        · subst hj
          rw [if_pos ⟨rfl, rfl⟩, hjx, if_pos (by simp)]
        · rw [if_neg (fun h => hj h.2), h1, if_neg (fun h => hj h.1), if_neg (fun h => hj h.1)]
      · rw [if_neg (fun h => hk h.1), h1]
        simp only [hmem k' hk]
    · show (if k' = ks + n then u.jyb (ks + n) - WY i j (ks + n) else u.jyb k') = _
      by_cases hk : k' = ks + n
      · subst hk
        rw [if_pos rfl, hjy, if_pos (by simp)]
      · rw [if_neg hk, h2]
        simp only [hmem k' hk]
    · show u.jzb - WZ i j (ks + n) = _
      rw [hjz]; rfl
    · show addTo u.acc.jx _ (if ks + n = ks + n ∧ j = j then u.jxb (ks + n) j - WX i j (ks + n) else _) l = _
      rw [if_pos (⟨rfl, rfl⟩ : ks + n = ks + n ∧ j = j), addTo_apply, h4, ← add_assoc ks n 1,
        sum_Ico_succ_top hle, add_assoc, hjx]
    · show addTo u.acc.jy _ (if ks + n = ks + n then u.jyb (ks + n) - WY i j (ks + n) else _) l = _
      rw [if_pos (rfl : ks + n = ks + n), addTo_apply, h5, ← add_assoc ks n 1, sum_Ico_succ_top hle, add_assoc,
        hjy]
    · show addTo u.acc.jz _ (u.jzb - WZ i j (ks + n)) l = _
      rw [addTo_apply, h6, ← add_assoc ks n 1, sum_Ico_succ_top hle, add_assoc, hjz]
    · show addTo u.acc.rho _ _ l = _
      rw [addTo_apply, h7, ← add_assoc ks n 1, sum_Ico_succ_top hle, add_assoc]

/-- middle loop of `cells3` -/
def mid3 (body : Nat → Nat → St3 → Nat → St3) (ks nk i : Nat) (t : (Nat → Nat → ℚ) × (Nat → ℚ) × Acc 3) (j : Nat) :
    (Nat → Nat → ℚ) × (Nat → ℚ) × Acc 3 :=
  let u := (List.range' ks nk).foldl (body i j) ⟨t.1, t.2.1, 0, t.2.2⟩
  (u.jxb, u.jyb, u.acc)

/-- outer loop of `cells3` -/
def out3 (body : Nat → Nat → St3 → Nat → St3) (js nj ks nk : Nat) (s : (Nat → Nat → ℚ) × Acc 3) (i : Nat) :
    (Nat → Nat → ℚ) × Acc 3 :=
  let t := (List.range' js nj).foldl (mid3 body ks nk i) (s.1, fun _ => 0, s.2)
  (t.1, t.2.2)

theorem cells3_out (body : Nat → Nat → St3 → Nat → St3) (is ie js je ks ke : Nat) (acc : Acc 3) :
    cells3 body is ie js je ks ke acc
      = ((List.range' is (ie - is)).foldl (out3 body js (je - js) ks (ke - ks)) (fun _ _ => 0, acc)).2 := rfl

theorem mid3_fold (cell : Nat → Nat → Nat → Fin 3 → Int) (WX WY WZ R : Nat → Nat → Nat → ℚ) (i js n ks nk : Nat)
    (s : (Nat → Nat → ℚ) × (Nat → ℚ) × Acc 3) :
    let t := (List.range' js n).foldl (mid3 (body3 cell WX WY WZ R) ks nk i) s
    (∀ k' j', t.1 k' j' = s.1 k' j' - if j' ∈ Ico js (js + n) ∧ k' ∈ Ico ks (ks + nk) then WX i j' k' else 0)
    ∧ (∀ k' ∈ Ico ks (ks + nk), t.2.1 k' = s.2.1 k' - ∑ j ∈ Ico js (js + n), WY i j k')
    ∧ (∀ l, t.2.2.jx l = s.2.2.jx l + ∑ j ∈ Ico js (js + n), ∑ k ∈ Ico ks (ks + nk),
        if cell i j k = l then s.1 k j - WX i j k else 0)
    ∧ (∀ l, t.2.2.jy l = s.2.2.jy l + ∑ j ∈ Ico js (js + n), ∑ k ∈ Ico ks (ks + nk),
        if cell i j k = l then s.2.1 k - ∑ j' ∈ Ico js (j + 1), WY i j' k else 0)
    ∧ (∀ l, t.2.2.jz l = s.2.2.jz l + ∑ j ∈ Ico js (js + n), ∑ k ∈ Ico ks (ks + nk),
        if cell i j k = l then - ∑ k' ∈ Ico ks (k + 1), WZ i j k' else 0)
    ∧ (∀ l, t.2.2.rho l = s.2.2.rho l + ∑ j ∈ Ico js (js + n), ∑ k ∈ Ico ks (ks + nk),
        if cell i j k = l then R i j k else 0) := by
  intro t
  induction n with
  | zero => simp [t]
  | succ n ih =>
    have ht : t = mid3 (body3 cell WX WY WZ R) ks nk i
        ((List.range' js n).foldl (mid3 (body3 cell WX WY WZ R) ks nk i) s) (js + n) :=
      foldl_range'_succ _ _ _ _
    obtain ⟨h1, h2, h3, h4, h5, h6⟩ := ih
    generalize (List.range' js n).foldl (mid3 (body3 cell WX WY WZ R) ks nk i) s = u at *
    have hle : js ≤ js + n := by omega
    obtain ⟨g1, g2, -, g4, g5, g6, g7⟩ := body3_fold cell WX WY WZ R i (js + n) ks nk ⟨u.1, u.2.1, 0, u.2.2⟩
    have hr : mid3 (body3 cell WX WY WZ R) ks nk i u (js + n)
        = (((List.range' ks nk).foldl (body3 cell WX WY WZ R i (js + n)) ⟨u.1, u.2.1, 0, u.2.2⟩).jxb,
          ((List.range' ks nk).foldl (body3 cell WX WY WZ R i (js + n)) ⟨u.1, u.2.1, 0, u.2.2⟩).jyb,
          ((List.range' ks nk).foldl (body3 cell WX WY WZ R i (js + n)) ⟨u.1, u.2.1, 0, u.2.2⟩).acc) := rfl
    rw [ht, hr]
    generalize (List.range' ks nk).foldl (body3 cell WX WY WZ R i (js + n)) ⟨u.1, u.2.1, 0, u.2.2⟩ = v at *
    refine ⟨fun k' j' => ?_, fun k' hk' => ?_, fun l => ?_, fun l => ?_, fun l => ?_, fun l => ?_⟩
    · show v.jxb k' j' = _
      rw [g1]
      show u.1 k' j' - _ = _
      by_cases hj : j' = js + n
      · subst hj
        rw [h1, if_neg (fun h => by simp at h), sub_zero]
        have : (js + n ∈ Ico js (js + (n + 1))) := by simp
        simp only [this, true_and]
      · rw [if_neg (fun h => hj h.1), sub_zero, h1]
        have : (j' ∈ Ico js (js + (n + 1))) ↔ (j' ∈ Ico js (js + n)) := by simp only [mem_Ico]; omega
        simp only [this]
    · show v.jyb k' = _
      rw [g2, if_pos hk']
      show u.2.1 k' - _ = _
      rw [h2 k' hk', ← add_assoc js n 1, sum_Ico_succ_top hle]; ring
    · show v.acc.jx l = _
      rw [g4]
      show u.2.2.jx l + _ = _
      rw [h3, ← add_assoc js n 1, sum_Ico_succ_top hle, add_assoc]
      congr 2
      refine sum_congr rfl fun k hk => ?_
      congr 2
      show u.1 k (js + n) = _
      rw [h1, if_neg (fun h => by simp at h), sub_zero]
    · show v.acc.jy l = _
      rw [g5]
      show u.2.2.jy l + _ = _
      rw [h4, ← add_assoc js n 1, sum_Ico_succ_top hle, add_assoc]
      congr 2
      refine sum_congr rfl fun k hk => ?_
      congr 1
      show u.2.1 k - _ = _
      rw [h2 k hk, sum_Ico_succ_top hle]; ring
    · show v.acc.jz l = _
      rw [g6]
      show u.2.2.jz l + _ = _
      rw [h5, ← add_assoc js n 1, sum_Ico_succ_top hle, add_assoc]
      congr 2
      refine sum_congr rfl fun k hk => ?_
      congr 1
      show (0 : ℚ) - _ = _
      rw [zero_sub]
    · show v.acc.rho l = _
      rw [g7]
      show u.2.2.rho l + _ = _
      rw [h6, ← add_assoc js n 1, sum_Ico_succ_top hle, add_assoc]

/-- the 3D loop nest -/
theorem out3_fold (cell : Nat → Nat → Nat → Fin 3 → Int) (WX WY WZ R : Nat → Nat → Nat → ℚ) (is m js n ks nk : Nat)
    (acc : Acc 3) :
    let t := (List.range' is m).foldl (out3 (body3 cell WX WY WZ R) js n ks nk) (fun _ _ => 0, acc)
    (∀ k' ∈ Ico ks (ks + nk), ∀ j' ∈ Ico js (js + n), t.1 k' j' = - ∑ i ∈ Ico is (is + m), WX i j' k')
    ∧ (∀ l, t.2.jx l = acc.jx l + ∑ i ∈ Ico is (is + m), ∑ j ∈ Ico js (js + n), ∑ k ∈ Ico ks (ks + nk),
        if cell i j k = l then - ∑ i' ∈ Ico is (i + 1), WX i' j k else 0)
    ∧ (∀ l, t.2.jy l = acc.jy l + ∑ i ∈ Ico is (is + m), ∑ j ∈ Ico js (js + n), ∑ k ∈ Ico ks (ks + nk),
        if cell i j k = l then - ∑ j' ∈ Ico js (j + 1), WY i j' k else 0)
    ∧ (∀ l, t.2.jz l = acc.jz l + ∑ i ∈ Ico is (is + m), ∑ j ∈ Ico js (js + n), ∑ k ∈ Ico ks (ks + nk),
        if cell i j k = l then - ∑ k' ∈ Ico ks (k + 1), WZ i j k' else 0)
    ∧ (∀ l, t.2.rho l = acc.rho l + ∑ i ∈ Ico is (is + m), ∑ j ∈ Ico js (js + n), ∑ k ∈ Ico ks (ks + nk),
        if cell i j k = l then R i j k else 0) := by
  intro t
  induction m with
  | zero => simp [t]
  | succ m ih =>
    have ht : t = out3 (body3 cell WX WY WZ R) js n ks nk
        ((List.range' is m).foldl (out3 (body3 cell WX WY WZ R) js n ks nk) (fun _ _ => 0, acc)) (is + m) :=
      foldl_range'_succ _ _ _ _
    obtain ⟨h1, h2, h3, h4, h5⟩ := ih
    generalize (List.range' is m).foldl (out3 (body3 cell WX WY WZ R) js n ks nk) (fun _ _ => 0, acc) = u at *
    have hle : is ≤ is + m := by omega
    obtain ⟨g1, -, g3, g4, g5, g6⟩ := mid3_fold cell WX WY WZ R (is + m) js n ks nk (u.1, fun _ => 0, u.2)
    have hr : out3 (body3 cell WX WY WZ R) js n ks nk u (is + m)
        = (((List.range' js n).foldl (mid3 (body3 cell WX WY WZ R) ks nk (is + m)) (u.1, fun _ => 0, u.2)).1,
          ((List.range' js n).foldl (mid3 (body3 cell WX WY WZ R) ks nk (is + m)) (u.1, fun _ => 0, u.2)).2.2) := rfl
    rw [ht, hr]
    generalize (List.range' js n).foldl (mid3 (body3 cell WX WY WZ R) ks nk (is + m)) (u.1, fun _ => 0, u.2) = v at *
    refine ⟨fun k' hk' j' hj' => ?_, fun l => ?_, fun l => ?_, fun l => ?_, fun l => ?_⟩
    · show v.1 k' j' = _
      rw [g1, if_pos ⟨hj', hk'⟩]
      show u.1 k' j' - _ = _
      rw [h1 k' hk' j' hj', ← add_assoc is m 1, sum_Ico_succ_top hle]; ring
    · show v.2.2.jx l = _
      rw [g3]
      show u.2.jx l + _ = _
      rw [h2, ← add_assoc is m 1, sum_Ico_succ_top hle, add_assoc]
      congr 2
      refine sum_congr rfl fun j hj => sum_congr rfl fun k hk => ?_
      congr 1
      show u.1 k j - _ = _
      rw [h1 k hk j hj, sum_Ico_succ_top hle]; ring
    · show v.2.2.jy l = _
      rw [g4]
      show u.2.jy l + _ = _
      rw [h3, ← add_assoc is m 1, sum_Ico_succ_top hle, add_assoc]
      congr 2
      refine sum_congr rfl fun j hj => sum_congr rfl fun k hk => ?_
      congr 1
      exact zero_sub _
    · show v.2.2.jz l = _
      rw [g5]
      show u.2.jz l + _ = _
      rw [h4, ← add_assoc is m 1, sum_Ico_succ_top hle, add_assoc]
    · show v.2.2.rho l = _
      rw [g6]
      show u.2.rho l + _ = _
      rw [h5, ← add_assoc is m 1, sum_Ico_succ_top hle, add_assoc]

theorem ite_triple (p q r : Int) (l : Fin 3 → Int) (u v w : ℚ) :
    (if (![p, q, r] : Fin 3 → Int) = l then u * v * w else 0)
      = (if p = l 0 then u else 0) * (if q = l 1 then v else 0) * (if r = l 2 then w else 0) := by
  have : ((![p, q, r] : Fin 3 → Int) = l) ↔ (p = l 0 ∧ q = l 1 ∧ r = l 2) := by
    constructor
    · rintro rfl; exact ⟨rfl, rfl, rfl⟩
    · rintro ⟨rfl, rfl, rfl⟩
      funext a; fin_cases a <;> rfl
  by_cases h1 : p = l 0
  · by_cases h2 : q = l 1
    · by_cases h3 : r = l 2
      · rw [if_pos (this.mpr ⟨h1, h2, h3⟩), if_pos h1, if_pos h2, if_pos h3]
      · rw [if_neg (fun h => h3 (this.mp h).2.2), if_neg h3, mul_zero]
    · rw [if_neg (fun h => h2 (this.mp h).2.1), if_neg h2, mul_zero, zero_mul]
  · rw [if_neg (fun h => h1 (this.mp h).1), if_neg h1, zero_mul, zero_mul]

theorem sum_triple (cx cy cz : Nat → Int) (F G H : Nat → ℚ) (l : Fin 3 → Int) :
    ∑ i ∈ range 5, ∑ j ∈ range 5, ∑ k ∈ range 5,
        (if (![cx i, cy j, cz k] : Fin 3 → Int) = l then F i * G j * H k else 0)
      = proj cx F (l 0) * proj cy G (l 1) * proj cz H (l 2) := by
  unfold proj
  rw [sum_mul_sum, sum_mul]
  refine sum_congr rfl fun i _ => ?_
  rw [sum_mul]
  refine sum_congr rfl fun j _ => ?_
  rw [mul_sum]
  exact sum_congr rfl fun k _ => ite_triple _ _ _ _ _ _ _

/-- `F` vanishes where the loop does not go -/
def Vanish (ax : Ax) (F : Nat → ℚ) : Prop :=
  ∀ i, i < 5 → ax.S0 i = 0 → ax.S1 i = 0 → (i < ax.start ∨ ax.stop ≤ i) → F i = 0

theorem sum_triple_ext {ax ay az : Ax} (hx : AxOK ax) (hy : AxOK ay) (hz : AxOK az) (cx cy cz : Nat → Int)
    (F G H : Nat → ℚ) (hF : Vanish ax F) (hG : Vanish ay G) (hH : Vanish az H) (l : Fin 3 → Int) :
    ∑ i ∈ Ico ax.start ax.stop, ∑ j ∈ Ico ay.start ay.stop, ∑ k ∈ Ico az.start az.stop,
      (if (![cx i, cy j, cz k] : Fin 3 → Int) = l then F i * G j * H k else 0)
      = proj cx F (l 0) * proj cy G (l 1) * proj cz H (l 2) := by
  rw [← sum_triple, hx.sum_ext]
  · refine sum_congr rfl fun i _ => ?_
    rw [hy.sum_ext]
    · refine sum_congr rfl fun j _ => ?_
      rw [hz.sum_ext]
      intro k h1 h2 h3 h4
      rw [hH k h1 h2 h3 h4, mul_zero, ite_self]
    · intro j h1 h2 h3 h4
      refine sum_eq_zero fun k _ => ?_
      rw [hG j h1 h2 h3 h4, mul_zero, zero_mul, ite_self]
  · intro i h1 h2 h3 h4
    refine sum_eq_zero fun j _ => sum_eq_zero fun k _ => ?_
    rw [hF i h1 h2 h3 h4, zero_mul, zero_mul, ite_self]

theorem vanish_cum {ax : Ax} (h : AxOK ax) : Vanish ax (cum ax.DS) := fun i h1 _ _ h4 => h.cum_out i h1 h4
theorem vanish_S0 (ax : Ax) : Vanish ax ax.S0 := fun _ _ h _ _ => h
theorem vanish_S1 (ax : Ax) : Vanish ax ax.S1 := fun _ _ _ h _ => h

/-- increments of the 3D loop body, in the form of the reference code -/
def WX3 (ax ay az : Ax) (c : ℚ) (i j k : Nat) : ℚ :=
  c * (ax.DS i * (ay.S0 j * az.S0 k + 1 / 2 * ay.DS j * az.S0 k + 1 / 2 * ay.S0 j * az.DS k
    + 1 / 3 * ay.DS j * az.DS k))

theorem body3Ref_eq (cell : Nat → Nat → Nat → Fin 3 → Int) (ax ay az : Ax) (f : Fac) :
    body3Ref cell ax ay az f = body3 cell (WX3 ax ay az f.fdx) (fun i j k => WX3 ay ax az f.fdy j i k)
      (fun i j k => WX3 az ax ay f.fdz k i j) (fun i j k => f.charge * ax.S1 i * ay.S1 j * az.S1 k) := rfl

theorem body3Fast_eq (cell : Nat → Nat → Nat → Fin 3 → Int) (ax ay az : Ax) (f : Fac) :
    body3Fast cell ax ay az f = body3Ref cell ax ay az f := by
  funext i j s k
  unfold body3Fast body3Ref
  have e1 : f.fdx * ax.DS i * ((ay.S0 j + 1 / 2 * ay.DS j) * az.S0 k
        + (1 / 2 * ay.S0 j + 1 / 3 * ay.DS j) * az.DS k)
      = f.fdx * (ax.DS i * (ay.S0 j * az.S0 k + 1 / 2 * ay.DS j * az.S0 k + 1 / 2 * ay.S0 j * az.DS k
        + 1 / 3 * ay.DS j * az.DS k)) := by ring
  have e2 : f.fdy * ay.DS j * ((ax.S0 i + 1 / 2 * ax.DS i) * az.S0 k
        + (1 / 2 * ax.S0 i + 1 / 3 * ax.DS i) * az.DS k)
      = f.fdy * (ay.DS j * (ax.S0 i * az.S0 k + 1 / 2 * ax.DS i * az.S0 k + 1 / 2 * ax.S0 i * az.DS k
        + 1 / 3 * ax.DS i * az.DS k)) := by ring
  have e3 : f.fdz * az.DS k * ((ax.S0 i + 1 / 2 * ax.DS i) * ay.S0 j
        + (1 / 2 * ax.S0 i + 1 / 3 * ax.DS i) * ay.DS j)
      = f.fdz * (az.DS k * (ax.S0 i * ay.S0 j + 1 / 2 * ax.DS i * ay.S0 j + 1 / 2 * ax.S0 i * ay.DS j
        + 1 / 3 * ax.DS i * ay.DS j)) := by ring
  dsimp only
  rw [e1, e2, e3]

theorem cum_WX3 {ax : Ax} (hx : AxOK ax) (ay az : Ax) (c : ℚ) (i j k : Nat) :
    ∑ i' ∈ Ico ax.start (i + 1), WX3 ax ay az c i' j k
      = c * (1/3 * (cum ax.DS i * ay.S0 j * az.S0 k) + 1/6 * (cum ax.DS i * ay.S1 j * az.S0 k)
        + 1/6 * (cum ax.DS i * ay.S0 j * az.S1 k) + 1/3 * (cum ax.DS i * ay.S1 j * az.S1 k)) := by
  rw [← hx.cum_eq]
  unfold WX3
  rw [← mul_sum, ← sum_mul]
  unfold Ax.DS
  ring

/-- Esirkepov's transverse weight: what the two transverse axes contribute to a current component -/
def transW (a0 a1 b0 b1 : ℚ) : ℚ := 1/3 * (a0 * b0) + 1/6 * (a1 * b0) + 1/6 * (a0 * b1) + 1/3 * (a1 * b1)

set_option maxHeartbeats 1000000 in
/-- closed form of the 3D loop nest -/
theorem cells3_eq (cx cy cz : Nat → Int) {ax ay az : Ax} (hx : AxOK ax) (hy : AxOK ay) (hz : AxOK az) (f : Fac)
    (acc : Acc 3) :
    let r := cells3 (body3Ref (fun i j k => ![cx i, cy j, cz k]) ax ay az f) ax.start ax.stop ay.start ay.stop
      az.start az.stop acc
    let px := proj cx
    let py := proj cy
    let pz := proj cz
    (∀ l, r.jx l = acc.jx l - f.fdx * (px (cum ax.DS) (l 0)
        * transW (py ay.S0 (l 1)) (py ay.S1 (l 1)) (pz az.S0 (l 2)) (pz az.S1 (l 2))))
    ∧ (∀ l, r.jy l = acc.jy l - f.fdy * (py (cum ay.DS) (l 1)
        * transW (px ax.S0 (l 0)) (px ax.S1 (l 0)) (pz az.S0 (l 2)) (pz az.S1 (l 2))))
    ∧ (∀ l, r.jz l = acc.jz l - f.fdz * (pz (cum az.DS) (l 2)
        * transW (px ax.S0 (l 0)) (px ax.S1 (l 0)) (py ay.S0 (l 1)) (py ay.S1 (l 1))))
    ∧ (∀ l, r.rho l = acc.rho l + f.charge * (px ax.S1 (l 0) * py ay.S1 (l 1) * pz az.S1 (l 2))) := by
  intro r px py pz
  have bx := ax.bounds
  have by' := ay.bounds
  have bz := az.bounds
  have e1 : ax.start + (ax.stop - ax.start) = ax.stop := by omega
  have e2 : ay.start + (ay.stop - ay.start) = ay.stop := by omega
  have e3 : az.start + (az.stop - az.start) = az.stop := by omega
  have h := out3_fold (fun i j k => ![cx i, cy j, cz k]) (WX3 ax ay az f.fdx) (fun i j k => WX3 ay ax az f.fdy j i k)
      (fun i j k => WX3 az ax ay f.fdz k i j) (fun i j k => f.charge * ax.S1 i * ay.S1 j * az.S1 k)
      ax.start (ax.stop - ax.start) ay.start (ay.stop - ay.start) az.start (az.stop - az.start) acc
  dsimp only at h
  rw [e1, e2, e3] at h
  obtain ⟨-, h2, h3, h4, h5⟩ := h
  have T := fun F G H hF hG hH l => sum_triple_ext hx hy hz cx cy cz F G H hF hG hH l
  refine ⟨fun l => ?_, fun l => ?_, fun l => ?_, fun l => ?_⟩
  · refine (h2 l).trans ?_
    have : px (cum ax.DS) (l 0) * transW (py ay.S0 (l 1)) (py ay.S1 (l 1)) (pz az.S0 (l 2)) (pz az.S1 (l 2))
        = 1/3 * (px (cum ax.DS) (l 0) * py ay.S0 (l 1) * pz az.S0 (l 2))
        + 1/6 * (px (cum ax.DS) (l 0) * py ay.S1 (l 1) * pz az.S0 (l 2))
        + 1/6 * (px (cum ax.DS) (l 0) * py ay.S0 (l 1) * pz az.S1 (l 2))
        + 1/3 * (px (cum ax.DS) (l 0) * py ay.S1 (l 1) * pz az.S1 (l 2)) := by unfold transW; ring
    rw [this, ← T _ _ _ (vanish_cum hx) (vanish_S0 ay) (vanish_S0 az) l,
      ← T _ _ _ (vanish_cum hx) (vanish_S1 ay) (vanish_S0 az) l,
      ← T _ _ _ (vanish_cum hx) (vanish_S0 ay) (vanish_S1 az) l,
      ← T _ _ _ (vanish_cum hx) (vanish_S1 ay) (vanish_S1 az) l, sub_eq_add_neg, ← neg_mul]
    simp only [mul_sum, ← sum_add_distrib]
    congr 1
    refine sum_congr rfl fun i _ => sum_congr rfl fun j _ => sum_congr rfl fun k _ => ?_
    split
    · rw [cum_WX3 hx]; ring
    · ring
  · refine (h3 l).trans ?_
    have : py (cum ay.DS) (l 1) * transW (px ax.S0 (l 0)) (px ax.S1 (l 0)) (pz az.S0 (l 2)) (pz az.S1 (l 2))
        = 1/3 * (px ax.S0 (l 0) * py (cum ay.DS) (l 1) * pz az.S0 (l 2))
        + 1/6 * (px ax.S1 (l 0) * py (cum ay.DS) (l 1) * pz az.S0 (l 2))
        + 1/6 * (px ax.S0 (l 0) * py (cum ay.DS) (l 1) * pz az.S1 (l 2))
        + 1/3 * (px ax.S1 (l 0) * py (cum ay.DS) (l 1) * pz az.S1 (l 2)) := by unfold transW; ring
    rw [this, ← T _ _ _ (vanish_S0 ax) (vanish_cum hy) (vanish_S0 az) l,
      ← T _ _ _ (vanish_S1 ax) (vanish_cum hy) (vanish_S0 az) l,
      ← T _ _ _ (vanish_S0 ax) (vanish_cum hy) (vanish_S1 az) l,
      ← T _ _ _ (vanish_S1 ax) (vanish_cum hy) (vanish_S1 az) l, sub_eq_add_neg, ← neg_mul]
    simp only [mul_sum, ← sum_add_distrib]
    congr 1
    refine sum_congr rfl fun i _ => sum_congr rfl fun j _ => sum_congr rfl fun k _ => ?_
    split
    · rw [cum_WX3 hy]; ring
    · ring
  · refine (h4 l).trans ?_
    have : pz (cum az.DS) (l 2) * transW (px ax.S0 (l 0)) (px ax.S1 (l 0)) (py ay.S0 (l 1)) (py ay.S1 (l 1))
        = 1/3 * (px ax.S0 (l 0) * py ay.S0 (l 1) * pz (cum az.DS) (l 2))
        + 1/6 * (px ax.S1 (l 0) * py ay.S0 (l 1) * pz (cum az.DS) (l 2))
        + 1/6 * (px ax.S0 (l 0) * py ay.S1 (l 1) * pz (cum az.DS) (l 2))
        + 1/3 * (px ax.S1 (l 0) * py ay.S1 (l 1) * pz (cum az.DS) (l 2)) := by unfold transW; ring
    rw [this, ← T _ _ _ (vanish_S0 ax) (vanish_S0 ay) (vanish_cum hz) l,
      ← T _ _ _ (vanish_S1 ax) (vanish_S0 ay) (vanish_cum hz) l,
      ← T _ _ _ (vanish_S0 ax) (vanish_S1 ay) (vanish_cum hz) l,
      ← T _ _ _ (vanish_S1 ax) (vanish_S1 ay) (vanish_cum hz) l, sub_eq_add_neg, ← neg_mul]
    simp only [mul_sum, ← sum_add_distrib]
    congr 1
    refine sum_congr rfl fun i _ => sum_congr rfl fun j _ => sum_congr rfl fun k _ => ?_
    split
    · rw [cum_WX3 hz]; ring
    · ring
  · refine (h5 l).trans ?_
    rw [← T _ _ _ (vanish_S1 ax) (vanish_S1 ay) (vanish_S1 az) l]
    simp only [mul_sum]
    congr 1
    refine sum_congr rfl fun i _ => sum_congr rfl fun j _ => sum_congr rfl fun k _ => ?_
    split <;> ring

theorem proj_congr {c1 c2 : Nat → Int} (h : ∀ i, i < 5 → c1 i = c2 i) (f : Nat → ℚ) (c : Int) :
    proj c1 f c = proj c2 f c := by
  unfold proj
  exact sum_congr rfl fun i hi => by rw [h i (mem_range.mp hi)]

end Verif.Deposit
