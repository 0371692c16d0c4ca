import Mathlib.Analysis.SpecialFunctions.Pow.Real
import Verif.Model.Tables
import Verif.Props.Qed
import Mathlib.MeasureTheory.Integral.IntervalIntegral.Basic
/-!
# C92: energy fractions follow the table, and the table follows the rate
-/
namespace Verif.Tables
open Verif.Qed

/-! ## Specification -/

/-- the value at `L` of the straight line through (`node j`, `y j`) and (`node (j+1)`, `y (j+1)`): the tabulated cumulated
probability between two columns -/
def between (node y : Nat → ℚ) (j : Nat) (L : ℚ) : ℚ := y j + (y (j + 1) - y j) / (node (j + 1) - node j) * (L - node j)

/-- `v u` (where it is a number) is distributed as the columns say: for every `L` between two columns, `v u` is at most `L`
exactly for the random numbers up to the share of the cumulated probability between the first column and `L` -/
def Follows (n : Nat) (node y : Nat → ℚ) (v : ℚ → Option (Res ℚ)) : Prop :=
  ∀ u w, 0 ≤ u → u < 1 → v u = some (.ok w) → ∀ j L, j + 1 < n → node j ≤ L → L ≤ node (j + 1) →
    (w ≤ L ↔ u ≤ (between node y j L - y 0) / (y (n - 1) - y 0))

/-! ## The lookup -/

theorem node_le {n : Nat} {node : Nat → ℚ} (hn : ∀ j, j + 1 < n → node j < node (j + 1)) :
    ∀ i j, i ≤ j → j < n → node i ≤ node j := by
  intro i j hij
  induction j with
  | zero => intro _; rw [Nat.le_zero.mp hij]
  | succ j ih =>
    intro hj
    rcases Nat.lt_or_ge i (j + 1) with h | h
    · exact (ih (by omega) (by omega)).trans (hn j hj).le
    · rw [le_antisymm hij h]

/-- what the lookup does with the column it finds -/
theorem law_core {n : Nat} {node y : Nat → ℚ} (hn : ∀ j, j + 1 < n → node j < node (j + 1))
    (hy : ∀ i j, i ≤ j → j < n → y i ≤ y j) {r : ℚ} {d : Nat} (hd : d + 1 < n) (h1 : y d < r) (h2 : r < y (d + 1)) {v : ℚ}
    (hv : v = node d + (node (d + 1) - node d) / (y (d + 1) - y d) * (r - y d)) {j : Nat} {L : ℚ} (hj : j + 1 < n)
    (hL : node j ≤ L) (hL' : L ≤ node (j + 1)) : v ≤ L ↔ r ≤ between node y j L := by
  have hnn := node_le hn
  have hg : 0 < y (d + 1) - y d := by linarith
  have hnd : 0 < node (d + 1) - node d := by linarith [hn d hd]
  have hnj : 0 < node (j + 1) - node j := by linarith [hn j hj]
  have hv1 : node d < v := by
    rw [hv]
    have := mul_pos (div_pos hnd hg) (by linarith : 0 < r - y d)
    linarith
  have hv2 : v < node (d + 1) := by
    rw [hv]
    have : (node (d + 1) - node d) / (y (d + 1) - y d) * (r - y d) < node (d + 1) - node d := by
      rw [div_mul_eq_mul_div, div_lt_iff₀ hg]
      exact mul_lt_mul_of_pos_left (by linarith) hnd
    linarith
  have hyj := hy j (j + 1) (by omega) hj
  unfold between
  rcases lt_trichotomy j d with h | h | h
  · have a := hnn (j + 1) d h (by omega)
    have b := hy (j + 1) d h (by omega)
    have c : (y (j + 1) - y j) / (node (j + 1) - node j) * (L - node j) ≤ y (j + 1) - y j := by
      rw [div_mul_eq_mul_div, div_le_iff₀ hnj]
      exact mul_le_mul_of_nonneg_left (by linarith) (by linarith)
    constructor <;> intro hh <;> linarith
  · subst h
    have e : v ≤ L ↔ (node (j + 1) - node j) / (y (j + 1) - y j) * (r - y j) ≤ L - node j := by
      rw [hv]; constructor <;> intro hh <;> linarith
    have e' : r ≤ y j + (y (j + 1) - y j) / (node (j + 1) - node j) * (L - node j)
        ↔ r - y j ≤ (y (j + 1) - y j) / (node (j + 1) - node j) * (L - node j) := by
      constructor <;> intro hh <;> linarith
    rw [e, e', div_mul_eq_mul_div, div_le_iff₀ hg, div_mul_eq_mul_div, le_div_iff₀ hnj, mul_comm (L - node j),
      mul_comm (r - y j)]
  · have a := hnn (d + 1) j h (by omega)
    have b := hy (d + 1) j h (by omega)
    have c : 0 ≤ (y (j + 1) - y j) / (node (j + 1) - node j) * (L - node j) :=
      mul_nonneg (div_nonneg (by linarith) hnj.le) (by linarith)
    constructor <;> intro hh <;> linarith

/-- the loop with what follows it, for both kinds of tables -/
def finish (n : Nat) (node y : Nat → ℚ) (u : ℚ) : Option (Res ℚ) :=
  let r := u * (y (n - 1) - y 0) + y 0
  match bisect (fun j => y j.toNat) r 0 (n - 1) with
  | none => none
  | some di =>
    if 0 ≤ di ∧ di + 1 < n then
      some (.ok (node di.toNat + (node (di + 1).toNat - node di.toNat) / (y (di + 1).toNat - y di.toNat) * (r - y di.toNat)))
    else some .outOfBounds

theorem finish_found {n : Nat} (hn2 : 2 ≤ n) {node y : Nat → ℚ} (hy : ∀ i j, i ≤ j → j < n → y i ≤ y j) (hends : y 0 < y (n - 1))
    {u : ℚ} (hu0 : 0 ≤ u) (hu1 : u < 1) :
    (finish n node y u = none ∧ ∃ j, j < n ∧ y j = u * (y (n - 1) - y 0) + y 0)
      ∨ ∃ d, d + 1 < n ∧ y d < u * (y (n - 1) - y 0) + y 0 ∧ u * (y (n - 1) - y 0) + y 0 < y (d + 1)
        ∧ finish n node y u = some (.ok (node d + (node (d + 1) - node d) / (y (d + 1) - y d)
            * (u * (y (n - 1) - y 0) + y 0 - y d))) := by
  have hmono : Mono n fun j => y j.toNat := fun a b ha hab hb => hy _ _ (by omega) (by omega)
  by_cases hhit : ∃ j, j < n ∧ y j = u * (y (n - 1) - y 0) + y 0
  · refine .inl ⟨?_, hhit⟩
    obtain ⟨j, hj, hjr⟩ := hhit
    have := bisect_hangs (fun j => y j.toNat) n hmono (j : Int) (by omega) (by omega) 0 (n - 1) (le_refl _) (by omega) (by omega)
      (by omega)
    simp only [Int.toNat_natCast, hjr] at this
    unfold finish
    dsimp only
    rw [this]
  · refine .inr ?_
    have hne : ∀ j, j < n → y j ≠ u * (y (n - 1) - y 0) + y 0 := fun j hj h => hhit ⟨j, hj, h⟩
    obtain ⟨d, hd, d1, d2, d3, d4⟩ := bisect_ends (fun j => y j.toNat) n hmono (u * (y (n - 1) - y 0) + y 0)
      (fun j j0 j1 => hne j.toNat (by omega)) _ 0 (n - 1) (le_refl _) (by omega) (by omega) rfl (by omega) (by omega)
    have hr0 : y 0 < u * (y (n - 1) - y 0) + y 0 :=
      lt_of_le_of_ne (by have := mul_nonneg hu0 (sub_nonneg.mpr hends.le); linarith) (hne 0 (by omega))
    have hr1 : u * (y (n - 1) - y 0) + y 0 < y (n - 1) := by
      have := mul_lt_mul_of_pos_right hu1 (sub_pos.mpr hends); linarith
    have hd0 : 0 ≤ d := by
      by_contra hc
      have := d4 0 (by omega) (by omega)
      simp at this
      linarith
    have hdn : d + 1 < n := by
      by_contra hc
      have := d3 (n - 1) (by omega) (by omega)
      have e : ((n : Int) - 1).toNat = n - 1 := by omega
      simp only [e] at this
      linarith
    obtain ⟨k, hk⟩ := Int.eq_ofNat_of_zero_le hd0
    have c1 := d3 d hd0 (le_refl _)
    have c2 := d4 (d + 1) (by omega) hdn
    have hdk : d = (k : Int) := hk
    subst hdk
    have t1 : ((k : Int)).toNat = k := by omega
    have t2 : ((k : Int) + 1).toNat = k + 1 := by omega
    simp only [t1, t2] at c1 c2
    refine ⟨k, by omega, c1, c2, ?_⟩
    unfold finish
    dsimp only
    rw [hd]
    dsimp only
    rw [if_pos ⟨hd0, hdn⟩, t1, t2]

theorem finish_follows {n : Nat} (hn2 : 2 ≤ n) {node y : Nat → ℚ} (hn : ∀ j, j + 1 < n → node j < node (j + 1))
    (hy : ∀ i j, i ≤ j → j < n → y i ≤ y j) (hends : y 0 < y (n - 1)) : Follows n node y (finish n node y) := by
  intro u w hu0 hu1 hw j L hj hL hL'
  have hg : 0 < y (n - 1) - y 0 := by linarith
  rcases finish_found (node := node) hn2 hy hends hu0 hu1 with ⟨h, _⟩ | ⟨d, hd, h1, h2, h⟩
  · rw [h] at hw; cases hw
  · rw [h] at hw
    cases hw
    rw [law_core hn hy hd h1 h2 rfl hj hL hL', le_div_iff₀ hg]
    constructor <;> intro hh <;> linarith

theorem finish_above {n : Nat} (hn2 : 2 ≤ n) {node y : Nat → ℚ} (hn : ∀ j, j + 1 < n → node j < node (j + 1))
    (hy : ∀ i j, i ≤ j → j < n → y i ≤ y j) (hends : y 0 < y (n - 1)) {u w : ℚ} (hu0 : 0 ≤ u) (hu1 : u < 1)
    (hw : finish n node y u = some (.ok w)) {m : Nat} (hm : m < n) (hym : y m = y (n - 1)) : node 0 < w ∧ w < node m := by
  have hnn := node_le hn
  rcases finish_found (node := node) hn2 hy hends hu0 hu1 with ⟨h, _⟩ | ⟨d, hd, h1, h2, h⟩
  · rw [h] at hw; cases hw
  · rw [h] at hw
    cases hw
    have hg : 0 < y (d + 1) - y d := by linarith
    have hnd : 0 < node (d + 1) - node d := by linarith [hn d hd]
    have hr1 : u * (y (n - 1) - y 0) + y 0 < y (n - 1) := by
      have := mul_lt_mul_of_pos_right hu1 (sub_pos.mpr hends); linarith
    have hdm : d + 1 ≤ m := by
      by_contra hc
      have := hy m d (by omega) (by omega)
      linarith
    constructor
    · have := mul_pos (div_pos hnd hg) (by linarith : 0 < u * (y (n - 1) - y 0) + y 0 - y d)
      have := hnn 0 d (by omega) (by omega)
      linarith
    · have : (node (d + 1) - node d) / (y (d + 1) - y d) * (u * (y (n - 1) - y 0) + y 0 - y d) < node (d + 1) - node d := by
        rw [div_mul_eq_mul_div, div_lt_iff₀ hg]
        exact mul_lt_mul_of_pos_left (by linarith) hnd
      have := hnn (d + 1) m hdm hm
      linarith

theorem plain_finish {G : Grid} {table : List (List ℚ)} (hG : GridOk G table) {x : ℚ} (h1 : G.chiLo ≤ x) (h2 : x < G.chiHi) :
    ∃ (i : Nat) (s : ℚ), i + 1 < G.chiN ∧ 0 ≤ s ∧ s < 1 ∧ x = G.chiLo + (i + s) * G.chiDelta ∧
      ∀ u, bisectInterp G x u table = finish G.deltaN (fun j => G.deltaLo + j * G.deltaDelta) (cdf table i s) u := by
  obtain ⟨i, s, hi, hs0, hs1, hx, he⟩ := bisectInterp_unfold hG h1 h2
  refine ⟨i, s, hi, hs0, hs1, hx, fun u => (he u).trans ?_⟩
  unfold finish
  dsimp only
  cases hb : bisect (fun j => cdf table i s j.toNat)
      (u * (cdf table i s (G.deltaN - 1) - cdf table i s 0) + cdf table i s 0) 0 (G.deltaN - 1) with
  | none => rfl
  | some d =>
    dsimp only
    by_cases hd : 0 ≤ d ∧ d + 1 < G.deltaN
    · rw [if_pos hd, if_pos hd]
      obtain ⟨k, rfl⟩ := Int.eq_ofNat_of_zero_le hd.1
      have t1 : ((k : Int)).toNat = k := by omega
      have t2 : ((k : Int) + 1).toNat = k + 1 := by omega
      rw [t1, t2]
      push_cast
      congr 3
      ring
    · rw [if_neg hd, if_neg hd]

/-! ## Theorems -/

/-- **C92, partial.** Tables with logarithmic spacing: for every `chi` in the table the logarithm of the fraction is
distributed as the columns, interpolated between the two rows around `chi`, say. Missing: fractions below the first column,
see `below_first_fails`, and the random numbers for which the lookup does not end (C45). -/
theorem fraction_follows_partial (G : Grid) (table : List (List ℚ)) (hG : GridOk G table) (hinc : Increasing table) (x : ℚ)
    (h1 : G.chiLo ≤ x) (h2 : x < G.chiHi) :
    ∃ (i : Nat) (s : ℚ), i + 1 < G.chiN ∧ 0 ≤ s ∧ s < 1 ∧ x = G.chiLo + (i + s) * G.chiDelta ∧
      Follows G.deltaN (fun j => G.deltaLo + j * G.deltaDelta) (cdf table i s) fun u => bisectInterp G x u table := by
  obtain ⟨i, s, hi, hs0, hs1, hx, he⟩ := plain_finish hG h1 h2
  refine ⟨i, s, hi, hs0, hs1, hx, ?_⟩
  rw [show (fun u => bisectInterp G x u table) = _ from funext he]
  exact finish_follows hG.deltaN (fun j _ => by have := hG.deltaPos; push_cast; linarith)
    (fun a b hab hb => cdf_le hG hinc hi hs0 hs1 hab hb) (cdf_ends hG hinc hi hs0 hs1)

/-- the table belongs to the grid with sigmoid spacing: powers of ten grow, and so do the columns -/
structure SGridOk (G : SGrid) (table : List (List ℚ)) : Prop where
  grid : GridOk G.toGrid table
  pow10 : StrictMono G.pow10
  node : ∀ j, j + 1 < G.deltaN → G.node j < G.node (j + 1)

theorem lever_cdf (a b : List ℚ) {lo hi chi : ℚ} (h : lo < hi) (j : Int) :
    lever a b lo hi chi j = a.getD j.toNat 0 * (1 - (chi - lo) / (hi - lo)) + b.getD j.toNat 0 * ((chi - lo) / (hi - lo)) := by
  have : hi - lo ≠ 0 := by linarith
  unfold lever
  field_simp
  ring

theorem lever_share (table : List (List ℚ)) (i : Nat) {lo hi chi : ℚ} (h0 : lo ≤ chi) (h1 : chi < hi) :
    ∃ s : ℚ, 0 ≤ s ∧ s < 1 ∧ chi = (1 - s) * lo + s * hi
      ∧ lever (table.getD i []) (table.getD (i + 1) []) lo hi chi = fun j : Int => cdf table i s j.toNat := by
  have hpos : 0 < hi - lo := by linarith
  have hsm : (chi - lo) / (hi - lo) * (hi - lo) = chi - lo := div_mul_cancel₀ _ hpos.ne'
  refine ⟨(chi - lo) / (hi - lo), div_nonneg (by linarith) hpos.le, (div_lt_one hpos).mpr (by linarith),
    by linear_combination -hsm, ?_⟩
  funext j
  exact lever_cdf _ _ (by linarith) j

theorem tail_finish (G : SGrid) (deltaMin : ℚ) {u : ℚ} (hu : 0 ≤ u) (y : Nat → ℚ) (hN : 2 ≤ G.deltaN)
    (hends : y 0 < y (G.deltaN - 1)) :
    sigmoidTail G deltaMin u (fun j => y j.toNat) = finish G.deltaN G.node y u := by
  have hdn : (((G.deltaN : Int) - 1)).toNat = G.deltaN - 1 := by omega
  have hno : ¬ u * (y (G.deltaN - 1) - y 0) + y 0 < y 0 := by
    have := mul_nonneg hu (sub_nonneg.mpr hends.le)
    linarith
  unfold sigmoidTail finish
  dsimp only
  rw [hdn, show (0 : Int).toNat = 0 from rfl]
  exact if_neg hno

theorem sigmoid_finish {G : SGrid} {table : List (List ℚ)} (hG : SGridOk G table) (hinc : Increasing table) (deltaMin : ℚ) {x : ℚ}
    (h1 : G.chiLo ≤ x) (h2 : x < G.chiHi) :
    ∃ (i : Nat) (s : ℚ), i + 1 < G.chiN ∧ 0 ≤ s ∧ s < 1 ∧
      G.pow10 x = (1 - s) * G.pow10 (G.chiLo + i * G.chiDelta) + s * G.pow10 (G.chiLo + (i + 1) * G.chiDelta) ∧
      ∀ u, 0 ≤ u → sigmoidInterp G deltaMin x u table = finish G.deltaN G.node (cdf table i s) u := by
  obtain ⟨r1, r2, r3, r4⟩ := chiIdx_range hG.grid h1 h2
  have hd := chiDelta_pos hG.grid
  obtain ⟨i, hi⟩ := Int.eq_ofNat_of_zero_le r1
  have hi' : chiIdx G.toGrid x = (i : Int) := hi
  rw [hi'] at r3 r4 r2
  push_cast at r3 r4
  have hin : i + 1 < G.chiN := by omega
  have hi1 : i < table.length := by rw [hG.grid.rows]; omega
  have hi2 : i + 1 < table.length := by rw [hG.grid.rows]; omega
  have plt : G.pow10 (G.chiLo + i * G.chiDelta) < G.pow10 (G.chiLo + (i + 1) * G.chiDelta) := hG.pow10 (by linarith)
  have p0 : G.pow10 (G.chiLo + i * G.chiDelta) ≤ G.pow10 x := hG.pow10.monotone (by linarith)
  have p1 : G.pow10 x < G.pow10 (G.chiLo + (i + 1) * G.chiDelta) := hG.pow10 (by linarith)
  have e1 : table[(chiIdx G.toGrid x).toNat]? = some (table.getD i []) := by
    rw [hi']; show table[i]? = _; rw [List.getElem?_eq_getElem hi1]; simp [List.getD, hi1]
  have e2 : table[(chiIdx G.toGrid x + 1).toNat]? = some (table.getD (i + 1) []) := by
    rw [hi']; show table[i + 1]? = _; rw [List.getElem?_eq_getElem hi2]; simp [List.getD, hi2]
  have hcast : (((chiIdx G.toGrid x : Int)) : ℚ) = (i : ℚ) := by rw [hi']; rfl
  have hcast' : (((chiIdx G.toGrid x + 1 : Int)) : ℚ) = (i : ℚ) + 1 := by rw [hi']; push_cast; rfl
  have he : ∀ u, sigmoidInterp G deltaMin x u table = sigmoidTail G deltaMin u (lever (table.getD i []) (table.getD (i + 1) [])
      (G.pow10 (G.chiLo + i * G.chiDelta)) (G.pow10 (G.chiLo + (i + 1) * G.chiDelta)) (G.pow10 x)) := by
    intro u
    unfold sigmoidInterp
    dsimp only
    rw [e1, e2, hcast, hcast']
  obtain ⟨s, hs0, hs1, hs, ef⟩ := lever_share table i p0 p1
  refine ⟨i, s, hin, hs0, hs1, hs, fun u hu => ?_⟩
  rw [he u, ef]
  exact tail_finish G deltaMin hu _ hG.grid.deltaN (cdf_ends hG.grid hinc hin hs0 hs1)

/-- **C92, partial.** Tables with sigmoid spacing: the fraction is distributed as the columns, interpolated between the two
rows around `chi` (linearly in `chi`), say. Missing: as for the logarithmic tables. -/
theorem sigmoid_follows_partial (G : SGrid) (table : List (List ℚ)) (hG : SGridOk G table) (hinc : Increasing table)
    (deltaMin x : ℚ) (h1 : G.chiLo ≤ x) (h2 : x < G.chiHi) :
    ∃ (i : Nat) (s : ℚ), i + 1 < G.chiN ∧ 0 ≤ s ∧ s < 1 ∧
      G.pow10 x = (1 - s) * G.pow10 (G.chiLo + i * G.chiDelta) + s * G.pow10 (G.chiLo + (i + 1) * G.chiDelta) ∧
      Follows G.deltaN G.node (cdf table i s) fun u => sigmoidInterp G deltaMin x u table := by
  obtain ⟨i, s, hi, hs0, hs1, hx, he⟩ := sigmoid_finish hG hinc deltaMin h1 h2
  refine ⟨i, s, hi, hs0, hs1, hx, ?_⟩
  intro u w hu0 hu1 hw
  replace hw := (he u hu0).symm.trans hw
  exact finish_follows hG.grid.deltaN hG.node (fun a b hab hb => cdf_le hG.grid hinc hi hs0 hs1 hab hb)
    (cdf_ends hG.grid hinc hi hs0 hs1) u w hu0 hu1 hw

/-- **C92, where it fails.** No random number gives a fraction at or below that of the first column, in either kind of table,
although the first column holds the cumulated probability of just these fractions (`integ`). The branch of the sigmoid lookup
that is meant for them is never taken. -/
theorem below_first_fails :
    (∀ (G : Grid) (table : List (List ℚ)), GridOk G table → Increasing table → ∀ x u w : ℚ, G.chiLo ≤ x → x < G.chiHi → 0 ≤ u →
      u < 1 → bisectInterp G x u table = some (.ok w) → G.deltaLo < w)
    ∧ ∀ (G : SGrid) (table : List (List ℚ)), SGridOk G table → Increasing table → ∀ deltaMin x u w : ℚ, G.chiLo ≤ x →
      x < G.chiHi → 0 ≤ u → u < 1 → sigmoidInterp G deltaMin x u table = some (.ok w) → G.node 0 < w := by
  constructor
  · intro G table hG hinc x u w h1 h2 hu0 hu1 hw
    obtain ⟨i, s, hi, hs0, hs1, hx, he⟩ := plain_finish hG h1 h2
    rw [he u] at hw
    have := (finish_above hG.deltaN (fun j _ => by have := hG.deltaPos; push_cast; linarith)
      (fun a b hab hb => cdf_le hG hinc hi hs0 hs1 hab hb) (cdf_ends hG hinc hi hs0 hs1) hu0 hu1 hw
      (m := G.deltaN - 1) (by have := hG.deltaN; omega) rfl).1
    simpa using this
  · intro G table hG hinc deltaMin x u w h1 h2 hu0 hu1 hw
    obtain ⟨i, s, hi, hs0, hs1, hx, he⟩ := sigmoid_finish hG hinc deltaMin h1 h2
    rw [he u hu0] at hw
    exact (finish_above hG.grid.deltaN hG.node (fun a b hab hb => cdf_le hG.grid hinc hi hs0 hs1 hab hb)
      (cdf_ends hG.grid hinc hi hs0 hs1) hu0 hu1 hw (m := G.deltaN - 1) (by have := hG.grid.deltaN; omega) rfl).1

/-! ## Generation of the tables -/

section
variable {K : Type} [Field K] [LinearOrder K] [IsStrictOrderedRing K]

theorem integ_mono {P : K → K} {first : K} {delta : Nat → K} {n : Nat} (hP : ∀ j, j < n → 0 ≤ P (delta j))
    (hd : ∀ j, j + 1 < n → delta j ≤ delta (j + 1)) : ∀ i j, i ≤ j → j < n → integ P first delta i ≤ integ P first delta j := by
  intro i j hij
  induction j with
  | zero => intro _; rw [Nat.le_zero.mp hij]
  | succ j ih =>
    intro hj
    rcases Nat.lt_or_ge i (j + 1) with h | h
    · have a := ih (by omega) (by omega)
      have b := mul_nonneg (hP (j + 1) hj) (sub_nonneg.mpr (hd j hj))
      show _ ≤ integ P first delta j + P (delta (j + 1)) * (delta (j + 1) - delta j)
      linarith
    · rw [le_antisymm hij h]

/-- **C92**: a table generated from rates that are not negative, and positive somewhere behind the first column, is one the
lookup can be used with -/
theorem generated_increasing (P : ℚ → ℚ → ℚ) (first : ℚ → ℚ) (delta : Nat → ℚ) (n : Nat) (chis : List ℚ)
    (hd : ∀ j, j + 1 < n → delta j < delta (j + 1)) (hP : ∀ chi ∈ chis, ∀ j, j < n → 0 ≤ P chi (delta j))
    (hpos : ∀ chi ∈ chis, ∃ j, j + 1 < n ∧ 0 < P chi (delta (j + 1))) : Increasing (tableGen P first delta n chis) := by
  have hrow : ∀ i, i < (tableGen P first delta n chis).length → ∃ chi ∈ chis,
      (tableGen P first delta n chis).getD i [] = row (P chi) (first chi) delta n := by
    intro i hi
    have hi' : i < chis.length := by simpa [tableGen] using hi
    exact ⟨chis[i], List.getElem_mem _, by simp [tableGen, List.getD, hi']⟩
  have hget : ∀ chi j, j < n → (row (P chi) (first chi) delta n).getD j 0 = integ (P chi) (first chi) delta j := by
    intro chi j hj
    simp [row, List.getD, hj]
  have hlen : ∀ chi, (row (P chi) (first chi) delta n).length = n := fun chi => by simp [row]
  constructor
  · intro i j j' hi hj hj'
    obtain ⟨chi, hc, e⟩ := hrow i hi
    rw [e] at hj' ⊢
    rw [hlen] at hj'
    rw [hget chi j (by omega), hget chi j' hj']
    exact integ_mono (hP chi hc) (fun j h => (hd j h).le) j j' hj hj'
  · intro i hi
    obtain ⟨chi, hc, e⟩ := hrow i hi
    obtain ⟨k, hk, hkp⟩ := hpos chi hc
    have hm := integ_mono (first := first chi) (hP chi hc) (fun j h => (hd j h).le)
    rw [e, hlen, hget chi 0 (by omega), hget chi (n - 1) (by omega)]
    have a := hm 0 k (by omega) (by omega)
    have b := hm (k + 1) (n - 1) (by omega) (by omega)
    have c := mul_pos hkp (sub_pos.mpr (hd k hk))
    have e2 : integ (P chi) (first chi) delta (k + 1)
        = integ (P chi) (first chi) delta k + P chi (delta (k + 1)) * (delta (k + 1) - delta k) := rfl
    linarith

/-- **C92**: the two rates are zero at fraction 1, and the pair rate does not change if electron and positron are exchanged -/
theorem rates_at_ends (A : Airy K) (unit chi : K) :
    photonProb A unit chi 1 = 0 ∧ pairProb A unit chi 1 = 0
      ∧ ∀ delta, 0 < delta → delta < 1 → pairProb A unit chi (1 - delta) = pairProb A unit chi delta := by
  refine ⟨by simp [photonProb], by simp [pairProb], ?_⟩
  intro delta h0 h1
  unfold pairProb
  rw [if_neg (by intro h; linarith), if_neg (by intro h; linarith)]
  dsimp only
  have e : chi / ((1 - delta) * chi) / (chi - (1 - delta) * chi) = chi / (delta * chi) / (chi - delta * chi) := by
    rw [div_div, div_div]
    congr 1
    ring
  rw [e]

/-- what is used of the Airy function: `pow23` and `sqrt` are the power 2/3 and the root, the integral of `Ai` is positive,
`Ai'` is negative, and `z ∫ Ai ≤ ∫ t Ai(t) = -Ai'(z)` -/
structure IsAiry (A : Airy K) : Prop where
  pow_pos : ∀ q, 0 < q → 0 < A.pow23 q
  pow_root : ∀ q, 0 < q → A.pow23 q * A.sqrt (A.pow23 q) = q
  intAi_pos : ∀ z, 0 < z → 0 < A.intAi z
  dAi_neg : ∀ z, 0 < z → A.dAi z < 0
  tail : ∀ z, 0 < z → z * A.intAi z ≤ -A.dAi z

/-- **C92**: the rates the tables are made of are those of quantum synchrotron radiation and of pair creation by a photon, in the
form in which they are usually printed (with `(1-δ) + 1/(1-δ)` and `(1-δ)/δ + δ/(1-δ)`) -/
theorem textbook_rates {A : Airy K} (hA : IsAiry A) {unit chi delta : K} (hc : 0 < chi) (h0 : 0 < delta) (h1 : delta < 1) :
    (let z := A.pow23 (delta / ((1 - delta) * chi))
     photonProb A unit chi delta = -unit * (A.intAi z + ((1 - delta) + 1 / (1 - delta)) / z * A.dAi z)) ∧
    (let z := A.pow23 (1 / (delta * (1 - delta) * chi))
     pairProb A unit chi delta = unit * (A.intAi z - ((1 - delta) / delta + delta / (1 - delta)) / z * A.dAi z)) := by
  have hd : 0 < 1 - delta := sub_pos.mpr h1
  have hne : ¬ delta = 1 := h1.ne
  constructor
  · intro z
    have hq : 0 < delta / ((1 - delta) * chi) := by positivity
    have hz : 0 < z := hA.pow_pos _ hq
    have hr : z * A.sqrt z = delta / ((1 - delta) * chi) := hA.pow_root _ hq
    have e : delta * chi / chi / (chi - delta * chi) = delta / ((1 - delta) * chi) := by
      have : chi - delta * chi = (1 - delta) * chi := by ring
      rw [this, mul_div_assoc, div_self hc.ne', mul_one]
    unfold photonProb
    rw [if_neg hne]
    dsimp only
    rw [e]
    have k : (2 / z + delta * chi * A.sqrt z) = ((1 - delta) + 1 / (1 - delta)) / z := by
      rw [eq_div_iff hz.ne']
      have : (2 / z + delta * chi * A.sqrt z) * z = 2 + delta * chi * (z * A.sqrt z) := by field_simp
      rw [this, hr]
      field_simp
      ring
    rw [← k]
  · intro z
    have hq : 0 < 1 / (delta * (1 - delta) * chi) := by positivity
    have hz : 0 < z := hA.pow_pos _ hq
    have hr : z * A.sqrt z = 1 / (delta * (1 - delta) * chi) := hA.pow_root _ hq
    have e : chi / (delta * chi) / (chi - delta * chi) = 1 / (delta * (1 - delta) * chi) := by
      have : chi - delta * chi = (1 - delta) * chi := by ring
      rw [this]
      field_simp
    unfold pairProb
    rw [if_neg hne]
    dsimp only
    rw [e]
    have k : (2 / z - chi * A.sqrt z) = -(((1 - delta) / delta + delta / (1 - delta)) / z) := by
      rw [← neg_div, eq_div_iff hz.ne']
      have : (2 / z - chi * A.sqrt z) * z = 2 - chi * (z * A.sqrt z) := by field_simp
      rw [this, hr]
      field_simp
      ring
    rw [show A.pow23 (1 / (delta * (1 - delta) * chi)) = z from rfl, k]
    ring

/-- **C92**: both rates are positive for every fraction between 0 and 1, so every fraction can occur -/
theorem rates_positive {A : Airy K} (hA : IsAiry A) {unit chi delta : K} (hu : 0 < unit) (hc : 0 < chi) (h0 : 0 < delta)
    (h1 : delta < 1) : 0 < photonProb A unit chi delta ∧ 0 < pairProb A unit chi delta := by
  have hd : 0 < 1 - delta := sub_pos.mpr h1
  obtain ⟨e1, e2⟩ := textbook_rates (unit := unit) hA hc h0 h1
  dsimp only at e1 e2
  rw [e1, e2]
  constructor
  · have hz : 0 < A.pow23 (delta / ((1 - delta) * chi)) := hA.pow_pos _ (by positivity)
    generalize A.pow23 (delta / ((1 - delta) * chi)) = z at *
    have t := hA.tail z hz
    have n := hA.dAi_neg z hz
    have g : 1 < (1 - delta) + 1 / (1 - delta) := by
      have : (1 - delta) + 1 / (1 - delta) - 1 = ((1 - delta) ^ 2 + delta) / (1 - delta) := by field_simp; ring
      have p : 0 < ((1 - delta) ^ 2 + delta) / (1 - delta) := by positivity
      linarith
    have t2 : A.intAi z ≤ -A.dAi z / z := by
      rw [le_div_iff₀ hz]; linarith
    have n2 : A.dAi z / z < 0 := div_neg_of_neg_of_pos n hz
    have : A.intAi z + ((1 - delta) + 1 / (1 - delta)) / z * A.dAi z < 0 := by
      have e : ((1 - delta) + 1 / (1 - delta)) / z * A.dAi z = ((1 - delta) + 1 / (1 - delta)) * (A.dAi z / z) := by ring
      rw [e]
      rw [neg_div] at t2
      nlinarith
    nlinarith
  · have hz : 0 < A.pow23 (1 / (delta * (1 - delta) * chi)) := hA.pow_pos _ (by positivity)
    generalize A.pow23 (1 / (delta * (1 - delta) * chi)) = z at *
    have i := hA.intAi_pos z hz
    have n := hA.dAi_neg z hz
    have g : 0 < ((1 - delta) / delta + delta / (1 - delta)) / z := by positivity
    have : 0 < A.intAi z - ((1 - delta) / delta + delta / (1 - delta)) / z * A.dAi z := by nlinarith
    positivity


end

/-- **C92, where it fails.** The generated tables with logarithmic spacing end with the fraction 1, where the rate is zero, so
the last two columns are equal, and no fraction from the last but one column on is drawn. -/
theorem last_column_fails (G : Grid) (P : ℚ → ℚ → ℚ) (first : ℚ → ℚ) (delta : Nat → ℚ) (chis : List ℚ)
    (hG : GridOk G (tableGen P first delta G.deltaN chis)) (hinc : Increasing (tableGen P first delta G.deltaN chis))
    (hlast : delta (G.deltaN - 1) = 1) (hzero : ∀ chi ∈ chis, P chi 1 = 0) (x u w : ℚ) (h1 : G.chiLo ≤ x) (h2 : x < G.chiHi)
    (hu0 : 0 ≤ u) (hu1 : u < 1) (hw : bisectInterp G x u (tableGen P first delta G.deltaN chis) = some (.ok w)) :
    w < G.deltaLo + ((G.deltaN : ℚ) - 2) * G.deltaDelta := by
  obtain ⟨i, s, hi, hs0, hs1, hx, he⟩ := plain_finish hG h1 h2
  rw [he u] at hw
  obtain ⟨m, hm⟩ : ∃ m, G.deltaN = m + 2 := ⟨G.deltaN - 2, by have := hG.deltaN; omega⟩
  have hc : ∀ k, k < G.chiN → ((tableGen P first delta G.deltaN chis).getD k []).getD m 0
      = ((tableGen P first delta G.deltaN chis).getD k []).getD (m + 1) 0 := by
    intro k hk
    have hk' : k < chis.length := by have := hG.rows; simp [tableGen] at this; omega
    have hz := hzero chis[k] (List.getElem_mem _)
    have e1 : delta (m + 1) = 1 := by rw [← hlast, hm]; rfl
    have e2 : integ (P chis[k]) (first chis[k]) delta (m + 1) = integ (P chis[k]) (first chis[k]) delta m := by
      show integ (P chis[k]) (first chis[k]) delta m + P chis[k] (delta (m + 1)) * (delta (m + 1) - delta m) = _
      rw [e1, hz]
      ring
    simp [tableGen, List.getD, hk', row, hm, e2]
  have hy : cdf (tableGen P first delta G.deltaN chis) i s m = cdf (tableGen P first delta G.deltaN chis) i s (G.deltaN - 1) := by
    unfold cdf
    rw [hc i (by omega), hc (i + 1) hi, hm]
    rfl
  have := (finish_above hG.deltaN (fun j _ => by have := hG.deltaPos; push_cast; linarith)
    (fun a b hab hb => cdf_le hG hinc hi hs0 hs1 hab hb) (cdf_ends hG hinc hi hs0 hs1) hu0 hu1 hw (m := m) (by omega) hy).2
  rw [hm]
  push_cast
  simpa using this

open MeasureTheory intervalIntegral in
/-- **C92**: if the rate falls with the fraction, a column is at most the integral of the rate up to its fraction, and the
error is at most the sum of the drops of the rate between two columns, each times the distance of the columns -/
theorem columns_are_integrals {P : ℝ → ℝ} {delta : Nat → ℝ} (hd : ∀ j, delta j ≤ delta (j + 1)) (first : ℝ) (n : Nat)
    (hP : AntitoneOn P (Set.Icc (delta 0) (delta n))) :
    integ P first delta n ≤ first + ∫ t in (delta 0)..(delta n), P t
      ∧ first + ∫ t in (delta 0)..(delta n), P t
        ≤ integ P first delta n + ∑ k ∈ Finset.range n, (P (delta k) - P (delta (k + 1))) * (delta (k + 1) - delta k) := by
  have hmono : Monotone delta := monotone_nat_of_le_succ hd
  induction n with
  | zero => simp [integ]
  | succ n ih =>
    have h0 : delta 0 ≤ delta n := hmono (Nat.zero_le _)
    have hs := hd n
    have hA : AntitoneOn P (Set.Icc (delta 0) (delta n)) := hP.mono (Set.Icc_subset_Icc_right hs)
    have hB : AntitoneOn P (Set.Icc (delta n) (delta (n + 1))) := hP.mono (Set.Icc_subset_Icc_left h0)
    have iA : IntervalIntegrable P volume (delta 0) (delta n) := by
      apply AntitoneOn.intervalIntegrable; rwa [Set.uIcc_of_le h0]
    have iB : IntervalIntegrable P volume (delta n) (delta (n + 1)) := by
      apply AntitoneOn.intervalIntegrable; rwa [Set.uIcc_of_le hs]
    obtain ⟨a, b⟩ := ih hA
    have split := integral_add_adjacent_intervals iA iB
    have lo : P (delta (n + 1)) * (delta (n + 1) - delta n) ≤ ∫ t in (delta n)..(delta (n + 1)), P t := by
      have := integral_mono_on hs intervalIntegrable_const iB (f := fun _ => P (delta (n + 1))) fun t ht =>
        hB ht (Set.right_mem_Icc.mpr hs) ht.2
      simpa [mul_comm] using this
    have hi : ∫ t in (delta n)..(delta (n + 1)), P t ≤ P (delta n) * (delta (n + 1) - delta n) := by
      have := integral_mono_on hs iB intervalIntegrable_const (g := fun _ => P (delta n)) fun t ht =>
        hB (Set.left_mem_Icc.mpr hs) ht ht.1
      simpa [mul_comm] using this
    have e : integ P first delta (n + 1) = integ P first delta n + P (delta (n + 1)) * (delta (n + 1) - delta n) := rfl
    rw [Finset.sum_range_succ, e, ← split]
    constructor
    · linarith
    · have : (P (delta n) - P (delta (n + 1))) * (delta (n + 1) - delta n)
          = P (delta n) * (delta (n + 1) - delta n) - P (delta (n + 1)) * (delta (n + 1) - delta n) := by ring
      linarith

/-! ## the hypotheses can be met -/

/-- a generated table: the rate falls from 1 to 0, more slowly for a larger `chi` -/
def rate (chi delta : ℚ) : ℚ := chi * (1 - delta)
def columns (j : Nat) : ℚ := ([1 / 4, 1 / 2, 1] : List ℚ).getD j 1
def made : List (List ℚ) := tableGen rate (fun chi => chi / 5) columns 3 [1, 2]

example : made = [[1 / 5, 13 / 40, 13 / 40], [2 / 5, 13 / 20, 13 / 20]] := by decide +kernel
example : Increasing made :=
  generated_increasing _ _ _ _ _ (by intro j h; have : j = 0 ∨ j = 1 := by omega
                                     rcases this with rfl | rfl <;> decide +kernel)
    (by intro chi hc j hj
        have : j = 0 ∨ j = 1 ∨ j = 2 := by omega
        have hc : chi = 1 ∨ chi = 2 := by simpa using hc
        rcases hc with rfl | rfl <;> rcases this with rfl | rfl | rfl <;> decide +kernel)
    (by intro chi hc
        have hc : chi = 1 ∨ chi = 2 := by simpa using hc
        rcases hc with rfl | rfl <;> exact ⟨0, by decide, by decide +kernel⟩)
def madeGrid : SGrid := ⟨⟨2, 0, 1, 1, 3, -2, 1⟩, fun x => 1 + x, columns⟩
example : SGridOk madeGrid made := by
  refine ⟨⟨by decide, by decide, by decide +kernel, by decide +kernel, by decide +kernel, rfl, by decide +kernel⟩,
    fun a b h => ?_, ?_⟩
  · show 1 + a < 1 + b
    linarith
  · intro j h
    have : j = 0 ∨ j = 1 := by have : j + 1 < 3 := h; omega
    rcases this with rfl | rfl <;> decide +kernel
/-- the condition of `last_column_fails` -/
example : columns (madeGrid.deltaN - 1) = 1 ∧ ∀ chi ∈ ([1, 2] : List ℚ), rate chi 1 = 0 := by
  refine ⟨by decide +kernel, ?_⟩
  intro chi hc
  have hc : chi = 1 ∨ chi = 2 := by simpa using hc
  rcases hc with rfl | rfl <;> decide +kernel
/-- a rate that falls -/
example : AntitoneOn (fun t : ℝ => 1 - t) (Set.Icc 0 1) := fun a _ b _ h => by show 1 - b ≤ 1 - a; linarith

/-- functions with the properties that are used of the Airy function -/
example : IsAiry (K := ℝ) ⟨fun z => Real.exp (-z), fun z => -((z + 1) * Real.exp (-z)), fun q => q ^ (2 / 3 : ℝ), Real.sqrt⟩ where
  pow_pos q h := Real.rpow_pos_of_pos h _
  pow_root q h := by
    show q ^ (2 / 3 : ℝ) * Real.sqrt (q ^ (2 / 3 : ℝ)) = q
    rw [Real.sqrt_eq_rpow, ← Real.rpow_mul h.le, ← Real.rpow_add h]
    norm_num
  intAi_pos z _ := Real.exp_pos _
  dAi_neg z h := by
    have := Real.exp_pos (-z)
    have : 0 < (z + 1) * Real.exp (-z) := by positivity
    show -((z + 1) * Real.exp (-z)) < 0
    linarith
  tail z h := by
    have := Real.exp_pos (-z)
    show z * Real.exp (-z) ≤ - -((z + 1) * Real.exp (-z))
    nlinarith

end Verif.Tables
