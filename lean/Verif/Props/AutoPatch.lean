import Verif.Model.AutoPatch
import Mathlib.Data.Nat.Prime.Basic
import Mathlib.Data.List.Dedup
import Mathlib.Tactic.IntervalCases
import Mathlib.Tactic.Tauto
import Mathlib.Tactic.Push
/-!
# C36 — automatic patching

Specification: a decomposition of `n` cells into `p` patches is valid if `p` divides `n` (the check of the configuration,
simulation.py 83-93).
-/
namespace Verif.AutoPatch

/-- the divisors found are the divisors other than 1 and `n` -/
theorem mem_findDivisors {n d : Nat} (hn : 0 < n) : d ∈ findDivisors n ↔ 2 ≤ d ∧ d < n ∧ d ∣ n := by
  unfold findDivisors
  rw [List.mem_insertionSort, List.mem_dedup, List.mem_flatMap]
  constructor
  · rintro ⟨i, hi, hd⟩
    obtain ⟨hr, hc⟩ := List.mem_filter.mp hi
    have hc : 2 ≤ i ∧ n % i = 0 := by simpa using hc
    have hi2 := hc.1
    have hle : i * i ≤ n := Nat.le_sqrt.mp (by have := List.mem_range.mp hr; omega)
    have hdvd : i ∣ n := Nat.dvd_of_mod_eq_zero hc.2
    have hlt : i < n := by
      have : i * 2 ≤ i * i := Nat.mul_le_mul_left i hi2
      omega
    rcases List.mem_cons.mp hd with rfl | hd
    · exact ⟨hi2, hlt, hdvd⟩
    · rw [List.mem_singleton.mp hd]
      refine ⟨?_, Nat.div_lt_self hn (by omega), Nat.div_dvd_of_dvd hdvd⟩
      exact Nat.le_trans hi2 ((Nat.le_div_iff_mul_le (by omega)).mpr hle)
  · rintro ⟨h2, hlt, hdvd⟩
    obtain ⟨e, he⟩ := hdvd
    have he2 : 2 ≤ e := by
      by_contra hc
      have : e = 0 ∨ e = 1 := by omega
      rcases this with rfl | rfl <;> simp at he <;> omega
    rcases Nat.le_total d e with h | h
    · refine ⟨d, List.mem_filter.mpr ⟨List.mem_range.mpr ?_, ?_⟩, by simp⟩
      · have : d ≤ Nat.sqrt n := Nat.le_sqrt.mpr (by rw [he]; exact Nat.mul_le_mul_left d h)
        omega
      · have : n % d = 0 := by rw [he]; exact Nat.mul_mod_right d e
        simp [h2, this]
    · refine ⟨e, List.mem_filter.mpr ⟨List.mem_range.mpr ?_, ?_⟩, ?_⟩
      · have : e ≤ Nat.sqrt n := Nat.le_sqrt.mpr (by rw [he]; exact Nat.mul_le_mul_right e h)
        omega
      · have : n % e = 0 := by rw [he]; exact Nat.mul_mod_left d e
        simp [he2, this]
      · have : n / e = d := by rw [he]; exact Nat.mul_div_cancel d (by omega)
        simp [this]

theorem findDivisors_nil {n : Nat} (hn : 0 < n) : findDivisors n = [] ↔ n = 1 ∨ n.Prime := by
  rw [List.eq_nil_iff_forall_not_mem]
  constructor
  · intro h
    by_cases h1 : n = 1
    · exact Or.inl h1
    · right
      refine Nat.prime_def.mpr ⟨by omega, fun d hd => ?_⟩
      by_contra hc
      push Not at hc
      have hle := Nat.le_of_dvd hn hd
      have hp := Nat.pos_of_dvd_of_pos hd hn
      exact h d ((mem_findDivisors hn).mpr ⟨by omega, by omega, hd⟩)
  · rintro (rfl | hp) d hd
    · have := (mem_findDivisors hn).mp hd; omega
    · obtain ⟨h1, h2, h3⟩ := (mem_findDivisors hn).mp hd
      rcases (Nat.dvd_prime hp).mp h3 with rfl | rfl <;> omega

/-- `s` is what a patch needs in one direction: at least two patches, each at least as thick as the absorbing layer and
as two guard layers -/
theorem inRange_iff {n ng cpml p : Nat} (hng : 0 < ng) (hc : 0 < cpml) (hd : p ∣ n) :
    inRange n ng cpml p = true ↔ 2 ≤ p ∧ (0 < n → cpml ≤ n / p ∧ 2 * ng ≤ n / p) ∧ (n = 0 → p ≤ 0) := by
  unfold inRange maxPatches
  simp only [Bool.and_eq_true, decide_eq_true_eq]
  constructor
  · rintro ⟨h2, hle⟩
    refine ⟨h2, fun hn => ?_, fun h0 => by subst h0; simpa using hle⟩
    have h1 : p ≤ n / cpml := by omega
    have h3 : p ≤ n / (2 * ng) := by omega
    rw [Nat.le_div_iff_mul_le hc] at h1
    rw [Nat.le_div_iff_mul_le (by omega)] at h3
    rw [Nat.le_div_iff_mul_le (by omega), Nat.le_div_iff_mul_le (by omega), Nat.mul_comm cpml, Nat.mul_comm (2 * ng)]
    exact ⟨h1, h3⟩
  · rintro ⟨h2, h, h0⟩
    refine ⟨h2, ?_⟩
    rcases Nat.eq_zero_or_pos n with hn | hn
    · have := h0 hn; omega
    · obtain ⟨h1, h3⟩ := h hn
      rw [Nat.le_div_iff_mul_le (by omega), Nat.mul_comm] at h1
      rw [Nat.le_div_iff_mul_le (by omega), Nat.mul_comm] at h3
      exact le_min ((Nat.le_div_iff_mul_le hc).mpr h1) ((Nat.le_div_iff_mul_le (by omega)).mpr h3)

/-- the fold keeps a member of the list that satisfies the conditions, if there is one -/
theorem fold_choice {α : Type} (l : List α) (ok : α → Prop) [DecidablePred ok] (np df : α → Nat)
    (f : Best α → α → Best α) (hf : ∀ b c, f b c = if ok c then improve b (np c) (df c) c else b) :
    (∀ c, (l.foldl f ⟨none, none⟩).choice = some c → c ∈ l ∧ ok c) ∧
    ((l.foldl f ⟨none, none⟩).choice = none → ∀ c ∈ l, ¬ ok c) := by
  have imp : ∀ (b : Best α) n d c, (b.best = none ↔ b.choice = none) →
      (∃ x, (improve b n d c).choice = some x ∧ (x = c ∨ b.choice = some x)) ∧
      ((improve b n d c).best = none ↔ (improve b n d c).choice = none) := by
    intro b n d c hb
    unfold improve
    cases h : b.best with
    | none => exact ⟨⟨c, rfl, Or.inl rfl⟩, by simp⟩
    | some m =>
      obtain ⟨x, hx⟩ : ∃ x, b.choice = some x := by
        cases hc : b.choice with
        | none => rw [hb.mpr hc] at h; cases h
        | some x => exact ⟨x, rfl⟩
      dsimp only
      by_cases hc : n ≤ m.1 ∧ d ≤ m.2
      · rw [if_pos hc]; exact ⟨⟨c, rfl, Or.inl rfl⟩, by simp⟩
      · rw [if_neg hc]; exact ⟨⟨x, hx, Or.inr hx⟩, by rw [h, hx]; simp⟩
  have main : ∀ (l pre : List α) (b : Best α), (b.best = none ↔ b.choice = none) →
      (∀ c, b.choice = some c → c ∈ pre ∧ ok c) → (b.choice = none → ∀ c ∈ pre, ¬ ok c) →
      (∀ c, (l.foldl f b).choice = some c → c ∈ pre ++ l ∧ ok c) ∧
      ((l.foldl f b).choice = none → ∀ c ∈ pre ++ l, ¬ ok c) := by
    intro l
    induction l with
    | nil => intro pre b _ h1 h2; rw [List.append_nil]; exact ⟨h1, h2⟩
    | cons a l ih =>
      intro pre b hb h1 h2
      have e : pre ++ a :: l = (pre ++ [a]) ++ l := by simp
      rw [e, List.foldl_cons]
      by_cases ha : ok a
      · have hfa : f b a = improve b (np a) (df a) a := by rw [hf, if_pos ha]
        obtain ⟨⟨x, hx, hx2⟩, hb'⟩ := imp b (np a) (df a) a hb
        rw [hfa]
        refine ih _ _ hb' ?_ ?_
        · intro c hc
          rw [hx] at hc
          cases hc
          rcases hx2 with rfl | h
          · exact ⟨by simp, ha⟩
          · exact ⟨by simp [(h1 _ h).1], (h1 _ h).2⟩
        · intro hc; rw [hx] at hc; cases hc
      · have hfa : f b a = b := by rw [hf, if_neg ha]
        rw [hfa]
        refine ih _ _ hb ?_ ?_
        · intro c hc; exact ⟨by simp [(h1 c hc).1], (h1 c hc).2⟩
        · intro hc c hm
          rcases List.mem_append.mp hm with hm | hm
          · exact h2 hc c hm
          · rw [List.mem_singleton.mp hm]; exact ha
  have := main l [] ⟨none, none⟩ (by simp) (fun c hc => by cases hc) (fun _ c hc => by simp at hc)
  rwa [List.nil_append] at this

/-- what makes a pair of patch counts acceptable to the code -/
def Acceptable2 (nx ny ng cpml npatchMin x y : Nat) : Prop :=
  npatchMin ≤ x * y ∧ (inRange nx ng cpml x = true ∨ inRange ny ng cpml y = true)

instance (nx ny ng cpml m x y : Nat) : Decidable (Acceptable2 nx ny ng cpml m x y) :=
  inferInstanceAs (Decidable (_ ∧ _))

theorem autoPatch2_spec (nx ny ng cpml npatchMin : Nat) :
    (∀ x y, autoPatch2 nx ny ng cpml npatchMin = some (x, y) → x ∈ findDivisors nx ∧ y ∈ findDivisors ny ∧
      (Acceptable2 nx ny ng cpml npatchMin x y ∨
        ∀ x' ∈ findDivisors nx, ∀ y' ∈ findDivisors ny, ¬ Acceptable2 nx ny ng cpml npatchMin x' y')) ∧
    (autoPatch2 nx ny ng cpml npatchMin = none ↔ findDivisors nx = [] ∨ findDivisors ny = []) := by
  unfold autoPatch2
  dsimp only
  generalize findDivisors nx = px
  generalize findDivisors ny = py
  have key := fold_choice (px.flatMap fun x => py.map fun y => (x, y))
    (fun c => Acceptable2 nx ny ng cpml npatchMin c.1 c.2) (fun c => c.1 * c.2)
    (fun c => absDiff (nx / c.1) (ny / c.2)) (fun b c =>
    if c.1 * c.2 < npatchMin then b
    else if inRange nx ng cpml c.1 || inRange ny ng cpml c.2 then
      improve b (c.1 * c.2) (absDiff (nx / c.1) (ny / c.2)) c
    else b) (by
      intro b c
      by_cases h1 : c.1 * c.2 < npatchMin
      · rw [if_pos h1, if_neg fun h => Nat.not_lt.mpr h.1 h1]
      · rw [if_neg h1]
        by_cases h2 : (inRange nx ng cpml c.1 || inRange ny ng cpml c.2) = true
        · rw [if_pos h2, if_pos ⟨by omega, by simpa using h2⟩]
        · rw [if_neg h2, if_neg fun h => h2 (by simpa using h.2)])
  have hmem : ∀ c : Nat × Nat, c ∈ (px.flatMap fun x => py.map fun y => (x, y)) ↔ c.1 ∈ px ∧ c.2 ∈ py := by
    rintro ⟨a, b⟩; simp
  generalize (List.foldl _ (Best.mk none none) _ : Best (Nat × Nat)).choice = ch at key
  cases ch with
  | some c =>
    obtain ⟨h1, h2⟩ := key.1 c rfl
    rw [hmem] at h1
    refine ⟨fun x y h => ?_, ?_⟩
    · cases h; exact ⟨h1.1, h1.2, Or.inl h2⟩
    · constructor
      · intro h; cases h
      · rintro (rfl | rfl)
        · simp at h1
        · simp at h1
  | none =>
    have hno := key.2 rfl
    cases px with
    | nil => exact ⟨fun x y h => by simp at h, by simp⟩
    | cons a px =>
      cases py with
      | nil => exact ⟨fun x y h => by simp at h, by simp⟩
      | cons b py =>
        refine ⟨fun x y h => ?_, by simp⟩
        have h : some (a, b) = some (x, y) := h
        cases h
        refine ⟨by simp, by simp, Or.inr fun x' hx y' hy => ?_⟩
        exact hno (x', y') ((hmem _).mpr ⟨hx, hy⟩)

/-- what makes three patch counts acceptable to the code -/
def Acceptable3 (nx ny nz ng cpml npatchMin x y z : Nat) : Prop :=
  npatchMin ≤ x * y * z ∧
    (inRange nx ng cpml x = true ∨ inRange ny ng cpml y = true ∨ inRange nz ng cpml z = true)

instance (nx ny nz ng cpml m x y z : Nat) : Decidable (Acceptable3 nx ny nz ng cpml m x y z) :=
  inferInstanceAs (Decidable (_ ∧ _))

theorem autoPatch3_spec (nx ny nz ng cpml npatchMin : Nat) :
    (∀ x y z, autoPatch3 nx ny nz ng cpml npatchMin = some (x, y, z) →
      x ∈ findDivisors nx ∧ y ∈ findDivisors ny ∧ z ∈ findDivisors nz ∧
      (Acceptable3 nx ny nz ng cpml npatchMin x y z ∨ ∀ x' ∈ findDivisors nx, ∀ y' ∈ findDivisors ny,
        ∀ z' ∈ findDivisors nz, ¬ Acceptable3 nx ny nz ng cpml npatchMin x' y' z')) ∧
    (autoPatch3 nx ny nz ng cpml npatchMin = none ↔
      findDivisors nx = [] ∨ findDivisors ny = [] ∨ findDivisors nz = []) := by
  unfold autoPatch3
  dsimp only
  generalize findDivisors nx = px
  generalize findDivisors ny = py
  generalize findDivisors nz = pz
  have key := fold_choice (px.flatMap fun x => py.flatMap fun y => pz.map fun z => (x, y, z))
    (fun c => Acceptable3 nx ny nz ng cpml npatchMin c.1 c.2.1 c.2.2) (fun c => c.1 * c.2.1 * c.2.2)
    (fun c => max (max (absDiff (nx / c.1) (ny / c.2.1)) (absDiff (ny / c.2.1) (nz / c.2.2)))
          (absDiff (nz / c.2.2) (nx / c.1))) (fun b c =>
    if c.1 * c.2.1 * c.2.2 < npatchMin then b
    else if inRange nx ng cpml c.1 || inRange ny ng cpml c.2.1 || inRange nz ng cpml c.2.2 then
      improve b (c.1 * c.2.1 * c.2.2)
        (max (max (absDiff (nx / c.1) (ny / c.2.1)) (absDiff (ny / c.2.1) (nz / c.2.2)))
          (absDiff (nz / c.2.2) (nx / c.1))) c
    else b) (by
      intro b c
      by_cases h1 : c.1 * c.2.1 * c.2.2 < npatchMin
      · rw [if_pos h1, if_neg fun h => Nat.not_lt.mpr h.1 h1]
      · rw [if_neg h1]
        by_cases h2 : (inRange nx ng cpml c.1 || inRange ny ng cpml c.2.1 || inRange nz ng cpml c.2.2) = true
        · rw [if_pos h2, if_pos ⟨by omega, by simpa [or_assoc] using h2⟩]
        · rw [if_neg h2, if_neg fun h => h2 (by simpa [or_assoc] using h.2)])
  have hmem : ∀ c : Nat × Nat × Nat, c ∈ (px.flatMap fun x => py.flatMap fun y => pz.map fun z => (x, y, z)) ↔
      c.1 ∈ px ∧ c.2.1 ∈ py ∧ c.2.2 ∈ pz := by
    rintro ⟨a, b, c⟩; simp
  generalize (List.foldl _ (Best.mk none none) _ : Best (Nat × Nat × Nat)).choice = ch at key
  cases ch with
  | some c =>
    obtain ⟨h1, h2⟩ := key.1 c rfl
    rw [hmem] at h1
    refine ⟨fun x y z h => ?_, ?_⟩
    · cases h; exact ⟨h1.1, h1.2.1, h1.2.2, Or.inl h2⟩
    · constructor
      · intro h; cases h
      · rintro (rfl | rfl | rfl)
        · simp at h1
        · simp at h1
        · simp at h1
  | none =>
    have hno := key.2 rfl
    cases px with
    | nil => exact ⟨fun x y z h => by simp at h, by simp⟩
    | cons a px =>
      cases py with
      | nil => exact ⟨fun x y z h => by simp at h, by simp⟩
      | cons b py =>
        cases pz with
        | nil => exact ⟨fun x y z h => by simp at h, by simp⟩
        | cons c pz =>
          refine ⟨fun x y z h => ?_, by simp⟩
          have h : some (a, b, c) = some (x, y, z) := h
          cases h
          refine ⟨by simp, by simp, by simp, Or.inr fun x' hx y' hy z' hz => ?_⟩
          exact hno (x', y', z') ((hmem _).mpr ⟨hx, hy, hz⟩)

/-- **C36 (2D).** Whatever the grid and the wanted number of patches: the counts chosen divide the grid, so the
configuration accepts them; there are at least two patches along each axis and each has at least two cells; if any choice
of divisors gives enough patches with sufficiently thick patches along one axis, then so does the result.

Partial: no choice is made when `nx` or `ny` is 1 or a prime (`auto_patch_prime_fails`); patches may be thinner than the
guard layer along the other axis (`auto_patch_thin_fails`). -/
theorem auto_patch2_partial {nx ny ng cpml npatchMin : Nat} (hx : 0 < nx) (hy : 0 < ny) (hng : 0 < ng) (hc : 0 < cpml) :
    ((∃ p, autoPatch2 nx ny ng cpml npatchMin = some p) ↔ (nx ≠ 1 ∧ ¬ nx.Prime) ∧ (ny ≠ 1 ∧ ¬ ny.Prime)) ∧
    ∀ x y, autoPatch2 nx ny ng cpml npatchMin = some (x, y) →
      (x ∣ nx ∧ 2 ≤ x ∧ 2 ≤ nx / x) ∧ (y ∣ ny ∧ 2 ≤ y ∧ 2 ≤ ny / y) ∧
      ((∃ x' y', x' ∣ nx ∧ 2 ≤ x' ∧ x' < nx ∧ y' ∣ ny ∧ 2 ≤ y' ∧ y' < ny ∧ npatchMin ≤ x' * y' ∧
          ((cpml ≤ nx / x' ∧ 2 * ng ≤ nx / x') ∨ (cpml ≤ ny / y' ∧ 2 * ng ≤ ny / y'))) →
        npatchMin ≤ x * y ∧ ((cpml ≤ nx / x ∧ 2 * ng ≤ nx / x) ∨ (cpml ≤ ny / y ∧ 2 * ng ≤ ny / y))) := by
  obtain ⟨h1, h2⟩ := autoPatch2_spec nx ny ng cpml npatchMin
  have two : ∀ {n p : Nat}, 0 < n → 2 ≤ p → p < n → p ∣ n → 2 ≤ n / p := by
    rintro n p hn h2 hlt ⟨e, rfl⟩
    rw [Nat.mul_div_cancel_left e (by omega)]
    by_contra hc
    have : e = 0 ∨ e = 1 := by omega
    rcases this with rfl | rfl <;> omega
  refine ⟨?_, fun x y hr => ?_⟩
  · have : (∃ p, autoPatch2 nx ny ng cpml npatchMin = some p) ↔ ¬ autoPatch2 nx ny ng cpml npatchMin = none := by
      cases autoPatch2 nx ny ng cpml npatchMin <;> simp
    rw [this, h2, findDivisors_nil hx, findDivisors_nil hy, not_or, not_or, not_or]
  · obtain ⟨hmx, hmy, h3⟩ := h1 x y hr
    obtain ⟨a1, a2, a3⟩ := (mem_findDivisors hx).mp hmx
    obtain ⟨b1, b2, b3⟩ := (mem_findDivisors hy).mp hmy
    refine ⟨⟨a3, a1, two hx a1 a2 a3⟩, ⟨b3, b1, two hy b1 b2 b3⟩, ?_⟩
    rintro ⟨x', y', c1, c2, c3, d1, d2, d3, hm, hth⟩
    have hac : Acceptable2 nx ny ng cpml npatchMin x' y' := by
      refine ⟨hm, ?_⟩
      rcases hth with h | h
      · exact Or.inl ((inRange_iff hng hc c1).mpr ⟨c2, fun _ => h, fun h0 => by omega⟩)
      · exact Or.inr ((inRange_iff hng hc d1).mpr ⟨d2, fun _ => h, fun h0 => by omega⟩)
    rcases h3 with h3 | h3
    · refine ⟨h3.1, ?_⟩
      rcases h3.2 with h | h
      · exact Or.inl (((inRange_iff hng hc a3).mp h).2.1 hx)
      · exact Or.inr (((inRange_iff hng hc b3).mp h).2.1 hy)
    · exact absurd hac (h3 x' ((mem_findDivisors hx).mpr ⟨c2, c3, c1⟩) y' ((mem_findDivisors hy).mpr ⟨d2, d3, d1⟩))

/-- **C36 (3D).** As in 2D, and partial for the same reasons. -/
theorem auto_patch3_partial {nx ny nz ng cpml npatchMin : Nat} (hx : 0 < nx) (hy : 0 < ny) (hz : 0 < nz) (hng : 0 < ng)
    (hc : 0 < cpml) :
    ((∃ p, autoPatch3 nx ny nz ng cpml npatchMin = some p) ↔
      (nx ≠ 1 ∧ ¬ nx.Prime) ∧ (ny ≠ 1 ∧ ¬ ny.Prime) ∧ (nz ≠ 1 ∧ ¬ nz.Prime)) ∧
    ∀ x y z, autoPatch3 nx ny nz ng cpml npatchMin = some (x, y, z) →
      (x ∣ nx ∧ 2 ≤ x ∧ 2 ≤ nx / x) ∧ (y ∣ ny ∧ 2 ≤ y ∧ 2 ≤ ny / y) ∧ (z ∣ nz ∧ 2 ≤ z ∧ 2 ≤ nz / z) ∧
      ((∃ x' y' z', x' ∣ nx ∧ 2 ≤ x' ∧ x' < nx ∧ y' ∣ ny ∧ 2 ≤ y' ∧ y' < ny ∧ z' ∣ nz ∧ 2 ≤ z' ∧ z' < nz ∧
          npatchMin ≤ x' * y' * z' ∧ ((cpml ≤ nx / x' ∧ 2 * ng ≤ nx / x') ∨ (cpml ≤ ny / y' ∧ 2 * ng ≤ ny / y') ∨
            (cpml ≤ nz / z' ∧ 2 * ng ≤ nz / z'))) →
        npatchMin ≤ x * y * z ∧ ((cpml ≤ nx / x ∧ 2 * ng ≤ nx / x) ∨ (cpml ≤ ny / y ∧ 2 * ng ≤ ny / y) ∨
            (cpml ≤ nz / z ∧ 2 * ng ≤ nz / z))) := by
  obtain ⟨h1, h2⟩ := autoPatch3_spec nx ny nz ng cpml npatchMin
  have two : ∀ {n p : Nat}, 0 < n → 2 ≤ p → p < n → p ∣ n → 2 ≤ n / p := by
    rintro n p hn h2 hlt ⟨e, rfl⟩
    rw [Nat.mul_div_cancel_left e (by omega)]
    by_contra hc
    have : e = 0 ∨ e = 1 := by omega
    rcases this with rfl | rfl <;> omega
  refine ⟨?_, fun x y z hr => ?_⟩
  · have : (∃ p, autoPatch3 nx ny nz ng cpml npatchMin = some p) ↔ ¬ autoPatch3 nx ny nz ng cpml npatchMin = none := by
      cases autoPatch3 nx ny nz ng cpml npatchMin <;> simp
    rw [this, h2, findDivisors_nil hx, findDivisors_nil hy, findDivisors_nil hz, not_or, not_or, not_or, not_or, not_or]
  · obtain ⟨hmx, hmy, hmz, h3⟩ := h1 x y z hr
    obtain ⟨a1, a2, a3⟩ := (mem_findDivisors hx).mp hmx
    obtain ⟨b1, b2, b3⟩ := (mem_findDivisors hy).mp hmy
    obtain ⟨e1, e2, e3⟩ := (mem_findDivisors hz).mp hmz
    refine ⟨⟨a3, a1, two hx a1 a2 a3⟩, ⟨b3, b1, two hy b1 b2 b3⟩, ⟨e3, e1, two hz e1 e2 e3⟩, ?_⟩
    rintro ⟨x', y', z', c1, c2, c3, d1, d2, d3, f1, f2, f3, hm, hth⟩
    have hac : Acceptable3 nx ny nz ng cpml npatchMin x' y' z' := by
      refine ⟨hm, ?_⟩
      rcases hth with h | h | h
      · exact Or.inl ((inRange_iff hng hc c1).mpr ⟨c2, fun _ => h, fun h0 => by omega⟩)
      · exact Or.inr (Or.inl ((inRange_iff hng hc d1).mpr ⟨d2, fun _ => h, fun h0 => by omega⟩))
      · exact Or.inr (Or.inr ((inRange_iff hng hc f1).mpr ⟨f2, fun _ => h, fun h0 => by omega⟩))
    rcases h3 with h3 | h3
    · refine ⟨h3.1, ?_⟩
      rcases h3.2 with h | h | h
      · exact Or.inl (((inRange_iff hng hc a3).mp h).2.1 hx)
      · exact Or.inr (Or.inl (((inRange_iff hng hc b3).mp h).2.1 hy))
      · exact Or.inr (Or.inr (((inRange_iff hng hc e3).mp h).2.1 hz))
    · exact absurd hac (h3 x' ((mem_findDivisors hx).mpr ⟨c2, c3, c1⟩) y' ((mem_findDivisors hy).mpr ⟨d2, d3, d1⟩)
        z' ((mem_findDivisors hz).mpr ⟨f2, f3, f1⟩))

/-- the fold keeps a choice that no acceptable candidate beats -/
theorem fold_best {α : Type} (l : List α) (ok : α → Prop) [DecidablePred ok] (np df : α → Nat)
    (f : Best α → α → Best α) (hf : ∀ b c, f b c = if ok c then improve b (np c) (df c) c else b) :
    ∀ c, (l.foldl f ⟨none, none⟩).choice = some c → ∀ c' ∈ l, ok c' → np c' ≤ np c → df c' ≤ df c → np c' = np c ∧ df c' = df c := by
  have main : ∀ (l seen : List α) (b : Best α), (∀ c, b.choice = some c → b.best = some (np c, df c)) →
      (∀ c ∈ seen, ok c → ∃ m d, b.best = some (m, d) ∧ (np c ≤ m → df c ≤ d → np c = m ∧ df c = d)) →
      (∀ c, (l.foldl f b).choice = some c → (l.foldl f b).best = some (np c, df c)) ∧
      (∀ c ∈ seen ++ l, ok c → ∃ m d, (l.foldl f b).best = some (m, d) ∧ (np c ≤ m → df c ≤ d → np c = m ∧ df c = d)) := by
    intro l
    induction l with
    | nil => intro seen b h1 h2; exact ⟨h1, fun c hc => h2 c (by simpa using hc)⟩
    | cons a l ih =>
      intro seen b h1 h2
      rw [List.foldl_cons, show seen ++ a :: l = (seen ++ [a]) ++ l by simp]
      by_cases ha : ok a
      · rw [hf, if_pos ha]
        unfold improve
        cases hb : b.best with
        | none =>
          refine ih _ _ (fun c hc => by cases hc; rfl) fun c hc hok => ⟨_, _, rfl, ?_⟩
          rcases List.mem_append.mp hc with hc | hc
          · obtain ⟨m, d, h, _⟩ := h2 c hc hok
            rw [hb] at h
            cases h
          · rw [List.mem_singleton.mp hc]; exact fun _ _ => ⟨rfl, rfl⟩
        | some md =>
          obtain ⟨m, d⟩ := md
          dsimp only
          by_cases hle : np a ≤ m ∧ df a ≤ d
          · rw [if_pos hle]
            refine ih _ _ (fun c hc => by cases hc; rfl) fun c hc hok => ⟨_, _, rfl, ?_⟩
            rcases List.mem_append.mp hc with hc | hc
            · obtain ⟨m', d', h, h'⟩ := h2 c hc hok
              rw [hb] at h
              cases h
              intro e1 e2
              have := h' (by omega) (by omega)
              omega
            · rw [List.mem_singleton.mp hc]; exact fun _ _ => ⟨rfl, rfl⟩
          · rw [if_neg hle]
            refine ih _ _ h1 fun c hc hok => ?_
            rcases List.mem_append.mp hc with hc | hc
            · exact h2 c hc hok
            · rw [List.mem_singleton.mp hc]; exact ⟨m, d, hb, fun e1 e2 => absurd ⟨e1, e2⟩ hle⟩
      · rw [hf, if_neg ha]
        refine ih _ _ h1 fun c hc hok => ?_
        rcases List.mem_append.mp hc with hc | hc
        · exact h2 c hc hok
        · rw [List.mem_singleton.mp hc] at hok; exact absurd hok ha
  obtain ⟨m1, m2⟩ := main l [] ⟨none, none⟩ (fun c hc => by cases hc) (fun c hc => by simp at hc)
  intro c hc c' hc' hok h1 h2
  obtain ⟨m, d, hm, hle⟩ := m2 c' (by simpa using hc') hok
  rw [m1 c hc] at hm
  cases hm
  exact hle h1 h2

theorem absDiff_eq {a b : Nat} : ((absDiff a b : Nat) : Int) = |(a : Int) - b| := by
  unfold absDiff
  rcases le_total (a : Int) b with h | h
  · rw [abs_of_nonpos (by omega)]; omega
  · rw [abs_of_nonneg (by omega)]; omega

theorem absDiff_le {a b c d : Nat} : absDiff a b ≤ absDiff c d ↔ |(a : Int) - b| ≤ |(c : Int) - d| := by
  rw [← absDiff_eq, ← absDiff_eq]
  exact Int.ofNat_le.symm

/-- **C36.** The choice is the best: no acceptable pair of counts has both fewer patches and patches closer to squares. -/
theorem auto_patch2_best {nx ny ng cpml npatchMin : Nat} (hx : 0 < nx) (hy : 0 < ny) (hng : 0 < ng) (hc : 0 < cpml) (x y : Nat)
    (hr : autoPatch2 nx ny ng cpml npatchMin = some (x, y)) (x' y' : Nat) (hx' : x' ∣ nx ∧ 2 ≤ x' ∧ x' < nx) (hy' : y' ∣ ny ∧ 2 ≤ y' ∧ y' < ny)
    (hm : npatchMin ≤ x' * y') (hth : (cpml ≤ nx / x' ∧ 2 * ng ≤ nx / x') ∨ (cpml ≤ ny / y' ∧ 2 * ng ≤ ny / y'))
    (h1 : x' * y' ≤ x * y) (h2 : |((nx / x' : Nat) : Int) - (ny / y' : Nat)| ≤ |((nx / x : Nat) : Int) - (ny / y : Nat)|) :
    x' * y' = x * y ∧ |((nx / x' : Nat) : Int) - (ny / y' : Nat)| = |((nx / x : Nat) : Int) - (ny / y : Nat)| := by
  have hac : Acceptable2 nx ny ng cpml npatchMin x' y' := by
    refine ⟨hm, ?_⟩
    rcases hth with h | h
    · exact Or.inl ((inRange_iff hng hc hx'.1).mpr ⟨hx'.2.1, fun _ => h, fun h0 => by omega⟩)
    · exact Or.inr ((inRange_iff hng hc hy'.1).mpr ⟨hy'.2.1, fun _ => h, fun h0 => by omega⟩)
  have mx := (mem_findDivisors hx).mpr ⟨hx'.2.1, hx'.2.2, hx'.1⟩
  have my := (mem_findDivisors hy).mpr ⟨hy'.2.1, hy'.2.2, hy'.1⟩
  unfold autoPatch2 at hr
  dsimp only at hr
  have hf : ∀ (b : Best (Nat × Nat)) (c : Nat × Nat), (if c.1 * c.2 < npatchMin then b
    else if inRange nx ng cpml c.1 || inRange ny ng cpml c.2 then
      improve b (c.1 * c.2) (absDiff (nx / c.1) (ny / c.2)) c
    else b) = if Acceptable2 nx ny ng cpml npatchMin c.1 c.2 then improve b (c.1 * c.2) (absDiff (nx / c.1) (ny / c.2)) c else b := by
    intro b c
    by_cases h1 : c.1 * c.2 < npatchMin
    · rw [if_pos h1, if_neg fun h => Nat.not_lt.mpr h.1 h1]
    · rw [if_neg h1]
      by_cases h2 : (inRange nx ng cpml c.1 || inRange ny ng cpml c.2) = true
      · rw [if_pos h2, if_pos ⟨by omega, by simpa using h2⟩]
      · rw [if_neg h2, if_neg fun h => h2 (by simpa using h.2)]
  have key := fold_best ((findDivisors nx).flatMap fun x => (findDivisors ny).map fun y => (x, y))
    (fun c => Acceptable2 nx ny ng cpml npatchMin c.1 c.2) (fun c => c.1 * c.2) (fun c => absDiff (nx / c.1) (ny / c.2)) _ hf
  have key2 := (fold_choice ((findDivisors nx).flatMap fun x => (findDivisors ny).map fun y => (x, y))
    (fun c => Acceptable2 nx ny ng cpml npatchMin c.1 c.2) (fun c => c.1 * c.2) (fun c => absDiff (nx / c.1) (ny / c.2)) _ hf).2
  have hmem : (x', y') ∈ ((findDivisors nx).flatMap fun x => (findDivisors ny).map fun y => (x, y)) := by
    simp [mx, my]
  generalize (List.foldl _ (Best.mk none none) _ : Best (Nat × Nat)).choice = ch at key key2 hr
  cases ch with
  | none => exact absurd hac (key2 rfl _ hmem)
  | some c =>
    cases hr
    obtain ⟨e1, e2⟩ := key (x, y) rfl (x', y') hmem hac h1 (absDiff_le.mpr h2)
    exact ⟨e1, by rw [← absDiff_eq, ← absDiff_eq]; exact congrArg _ e2⟩

/-- the largest difference between the sides of a patch -/
def unevenness (a b c : Nat) : Int := max (max |(a : Int) - b| |(b : Int) - c|) |(c : Int) - a|

theorem unevenness_eq (a b c : Nat) : ((max (max (absDiff a b) (absDiff b c)) (absDiff c a) : Nat) : Int) = unevenness a b c := by
  unfold unevenness
  rw [Nat.cast_max, Nat.cast_max, absDiff_eq, absDiff_eq, absDiff_eq]

/-- **C36 (3D).** The choice is the best: no acceptable triple of counts has both fewer patches and patches closer to cubes. -/
theorem auto_patch3_best {nx ny nz ng cpml npatchMin : Nat} (hx : 0 < nx) (hy : 0 < ny) (hz : 0 < nz) (hng : 0 < ng) (hc : 0 < cpml) (x y z : Nat)
    (hr : autoPatch3 nx ny nz ng cpml npatchMin = some (x, y, z)) (x' y' z' : Nat) (hx' : x' ∣ nx ∧ 2 ≤ x' ∧ x' < nx) (hy' : y' ∣ ny ∧ 2 ≤ y' ∧ y' < ny)
    (hz' : z' ∣ nz ∧ 2 ≤ z' ∧ z' < nz) (hm : npatchMin ≤ x' * y' * z')
    (hth : (cpml ≤ nx / x' ∧ 2 * ng ≤ nx / x') ∨ (cpml ≤ ny / y' ∧ 2 * ng ≤ ny / y') ∨ (cpml ≤ nz / z' ∧ 2 * ng ≤ nz / z'))
    (h1 : x' * y' * z' ≤ x * y * z) (h2 : unevenness (nx / x') (ny / y') (nz / z') ≤ unevenness (nx / x) (ny / y) (nz / z)) :
    x' * y' * z' = x * y * z ∧ unevenness (nx / x') (ny / y') (nz / z') = unevenness (nx / x) (ny / y) (nz / z) := by
  have hac : Acceptable3 nx ny nz ng cpml npatchMin x' y' z' := by
    refine ⟨hm, ?_⟩
    rcases hth with h | h | h
    · exact Or.inl ((inRange_iff hng hc hx'.1).mpr ⟨hx'.2.1, fun _ => h, fun h0 => by omega⟩)
    · exact Or.inr (Or.inl ((inRange_iff hng hc hy'.1).mpr ⟨hy'.2.1, fun _ => h, fun h0 => by omega⟩))
    · exact Or.inr (Or.inr ((inRange_iff hng hc hz'.1).mpr ⟨hz'.2.1, fun _ => h, fun h0 => by omega⟩))
  have mx := (mem_findDivisors hx).mpr ⟨hx'.2.1, hx'.2.2, hx'.1⟩
  have my := (mem_findDivisors hy).mpr ⟨hy'.2.1, hy'.2.2, hy'.1⟩
  have mz := (mem_findDivisors hz).mpr ⟨hz'.2.1, hz'.2.2, hz'.1⟩
  unfold autoPatch3 at hr
  dsimp only at hr
  have hf : ∀ (b : Best (Nat × Nat × Nat)) (c : Nat × Nat × Nat), (if c.1 * c.2.1 * c.2.2 < npatchMin then b
    else if inRange nx ng cpml c.1 || inRange ny ng cpml c.2.1 || inRange nz ng cpml c.2.2 then
      improve b (c.1 * c.2.1 * c.2.2) (max (max (absDiff (nx / c.1) (ny / c.2.1)) (absDiff (ny / c.2.1) (nz / c.2.2)))
          (absDiff (nz / c.2.2) (nx / c.1))) c
    else b) = if Acceptable3 nx ny nz ng cpml npatchMin c.1 c.2.1 c.2.2 then improve b (c.1 * c.2.1 * c.2.2)
        (max (max (absDiff (nx / c.1) (ny / c.2.1)) (absDiff (ny / c.2.1) (nz / c.2.2))) (absDiff (nz / c.2.2) (nx / c.1))) c else b := by
    intro b c
    by_cases h1 : c.1 * c.2.1 * c.2.2 < npatchMin
    · rw [if_pos h1, if_neg fun h => Nat.not_lt.mpr h.1 h1]
    · rw [if_neg h1]
      by_cases h2 : (inRange nx ng cpml c.1 || inRange ny ng cpml c.2.1 || inRange nz ng cpml c.2.2) = true
      · rw [if_pos h2, if_pos ⟨by omega, by simpa [or_assoc] using h2⟩]
      · rw [if_neg h2, if_neg fun h => h2 (by simpa [or_assoc] using h.2)]
  have hmem0 : (x', y', z') ∈ ((findDivisors nx).flatMap fun x => (findDivisors ny).flatMap fun y => (findDivisors nz).map fun z => (x, y, z)) := by
    simp [mx, my, mz]
  have key := fold_best ((findDivisors nx).flatMap fun x => (findDivisors ny).flatMap fun y => (findDivisors nz).map fun z => (x, y, z))
    (fun c => Acceptable3 nx ny nz ng cpml npatchMin c.1 c.2.1 c.2.2) (fun c => c.1 * c.2.1 * c.2.2)
    (fun c => max (max (absDiff (nx / c.1) (ny / c.2.1)) (absDiff (ny / c.2.1) (nz / c.2.2))) (absDiff (nz / c.2.2) (nx / c.1))) _ hf
  have key2 := (fold_choice ((findDivisors nx).flatMap fun x => (findDivisors ny).flatMap fun y => (findDivisors nz).map fun z => (x, y, z))
    (fun c => Acceptable3 nx ny nz ng cpml npatchMin c.1 c.2.1 c.2.2) (fun c => c.1 * c.2.1 * c.2.2)
    (fun c => max (max (absDiff (nx / c.1) (ny / c.2.1)) (absDiff (ny / c.2.1) (nz / c.2.2))) (absDiff (nz / c.2.2) (nx / c.1))) _ hf).2
  generalize (List.foldl _ (Best.mk none none) _ : Best (Nat × Nat × Nat)).choice = ch at key key2 hr
  cases ch with
  | none => exact absurd hac (key2 rfl _ hmem0)
  | some c =>
    cases hr
    rw [← unevenness_eq, ← unevenness_eq] at h2 ⊢
    obtain ⟨e1, e2⟩ := key (x, y, z) rfl (x', y', z') hmem0 hac h1 (by exact_mod_cast h2)
    exact ⟨e1, by exact_mod_cast e2⟩

/-- a grid with a prime number of cells along one axis: the choice raises an `IndexError`, although the
configuration accepts such grids -/
theorem auto_patch_prime_fails : ∀ ny ng cpml m : Nat, ∀ p, p.Prime → autoPatch2 p ny ng cpml m = none := by
  intro ny ng cpml m p hp
  exact (autoPatch2_spec p ny ng cpml m).2.mpr (Or.inl ((findDivisors_nil hp.pos).mpr (Or.inr hp)))

/-- the default layers (3 guard cells, 6 cells of absorbing boundary) on a 12 × 4 grid: patches of 6 × 2 cells, thinner than
the guard layer -/
theorem auto_patch_thin_fails : autoPatch2 12 4 3 6 4 = some (2, 2) := by decide +kernel

/-- a 128 × 128 grid, 4 threads -/
example : autoPatch2 128 128 3 6 16 = some (4, 4) := by decide +kernel

example : autoPatch3 64 64 32 3 6 16 = some (4, 2, 2) := by decide +kernel

end Verif.AutoPatch
