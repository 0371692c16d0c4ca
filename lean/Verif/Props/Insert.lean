import Verif.Model.Insert
import Mathlib.Tactic.Positivity
import Mathlib.Tactic.Ring
import Mathlib.Tactic.Linarith
/-! # C86 — a new particle goes to the first dead slot -/
namespace Verif.Insert

/-- specification: `i` is the first dead slot at or after `istart` -/
def FirstDead (dead : List Bool) (istart i : Nat) : Prop :=
  istart ≤ i ∧ dead[i]? = some true ∧ ∀ j, istart ≤ j → j < i → dead[j]? ≠ some true

theorem inner_spec (dead : List Bool) : ∀ (n j : Nat),
    (∀ i, inner dead j n = some i → j ≤ i ∧ i < j + n ∧ dead[i]? = some true ∧ ∀ k, j ≤ k → k < i → dead[k]? ≠ some true) ∧
    (inner dead j n = none → ∀ k, j ≤ k → k < j + n → dead[k]? ≠ some true) := by
  intro n
  induction n with
  | zero => intro j; exact ⟨by simp [inner], fun _ k h1 h2 => by omega⟩
  | succ n ih =>
    intro j
    unfold inner
    by_cases h : dead.getD j false = true
    · have hj : dead[j]? = some true := by
        rw [List.getD_eq_getElem?_getD] at h
        cases e : dead[j]? with
        | none => rw [e] at h; simp at h
        | some b => rw [e] at h; simp at h; rw [h]
      rw [if_pos h]
      refine ⟨fun i hi => ?_, by simp⟩
      have : j = i := by simpa using hi
      subst this
      exact ⟨le_refl _, by omega, hj, fun k h1 h2 => by omega⟩
    · have hj : dead[j]? ≠ some true := by
        intro e; apply h; rw [List.getD_eq_getElem?_getD, e]; rfl
      rw [if_neg h]
      obtain ⟨i1, i2⟩ := ih (j + 1)
      refine ⟨fun i hi => ?_, fun hn k h1 h2 => ?_⟩
      · obtain ⟨a, b, c, d⟩ := i1 i hi
        refine ⟨by omega, by omega, c, fun k h1 h2 => ?_⟩
        by_cases e : k = j
        · rw [e]; exact hj
        · exact d k (by omega) h2
      · by_cases e : k = j
        · rw [e]; exact hj
        · exact i2 hn k (by omega) (by omega)

theorem word_zero (l : List Bool) : word l = 0 ↔ ∀ b ∈ l, b = false := by
  induction l with
  | nil => simp [word]
  | cons b l ih =>
    have e : word (b :: l) = b.toNat + 256 * word l := rfl
    rw [e, List.forall_mem_cons, ← ih]
    cases b <;> simp

/-- **C86** (search). For every array and every start: the slot found is the first dead one at or after the start, and none is
found only if there is none. -/
theorem search_first (dead : List Bool) (istart : Nat) :
    (∀ i, search dead istart = some i ↔ FirstDead dead istart i) ∧
    (search dead istart = none ↔ ∀ j, istart ≤ j → dead[j]? ≠ some true) := by
  have main : ∀ m istart, dead.length - istart = m →
      (∀ i, search dead istart = some i → FirstDead dead istart i) ∧
      (search dead istart = none → ∀ j, istart ≤ j → dead[j]? ≠ some true) := by
    intro m
    induction m using Nat.strong_induction_on with
    | _ m ih =>
      intro i hm
      unfold search
      by_cases h1 : i < dead.length
      · -- going on with the next block
        have cont : (∀ k, i ≤ k → k < i + 8 → dead[k]? ≠ some true) →
            (∀ r, search dead (i + 8) = some r → FirstDead dead i r) ∧
            (search dead (i + 8) = none → ∀ j, i ≤ j → dead[j]? ≠ some true) := by
          intro hk
          obtain ⟨a, b⟩ := ih (dead.length - (i + 8)) (by omega) (i + 8) rfl
          refine ⟨fun r hr => ?_, fun hn j hj => ?_⟩
          · obtain ⟨c1, c2, c3⟩ := a r hr
            refine ⟨by omega, c2, fun j h1 h2 => ?_⟩
            by_cases e : j < i + 8
            · exact hk j h1 e
            · exact c3 j (by omega) h2
          · by_cases e : j < i + 8
            · exact hk j hj e
            · exact b hn j (by omega)
        have found : ∀ n, (i + n ≤ dead.length → i + n = dead.length ∨ n = 8) → i + n ≤ dead.length →
            (∀ r, (match inner dead i n with | some j => some j | none => search dead (i + 8)) = some r → FirstDead dead i r) ∧
            ((match inner dead i n with | some j => some j | none => search dead (i + 8)) = none →
              ∀ j, i ≤ j → dead[j]? ≠ some true) := by
          intro n hn hle
          obtain ⟨i1, i2⟩ := inner_spec dead n i
          cases e : inner dead i n with
          | some j =>
            obtain ⟨a, b, c, d⟩ := i1 j e
            refine ⟨fun r hr => ?_, fun h => by simp at h⟩
            have : j = r := by simpa using hr
            subst this
            exact ⟨a, c, d⟩
          | none =>
            refine cont fun k h1 h2 => ?_
            by_cases hk : k < i + n
            · exact i2 e k h1 hk
            · rcases hn hle with h | h
              · rw [List.getElem?_eq_none (by omega)]; simp
              · omega
        rw [if_pos h1]
        by_cases h2 : i + 8 ≤ dead.length
        · rw [if_pos h2]
          by_cases h3 : word ((dead.drop i).take 8) ≠ 0
          · rw [if_pos h3]; exact found 8 (fun _ => .inr rfl) h2
          · rw [if_neg h3]
            refine cont fun k h4 h5 h6 => ?_
            have h7 := (word_zero _).mp (not_not.mp h3)
            have : (true : Bool) ∈ (dead.drop i).take 8 := by
              refine List.mem_of_getElem? (i := k - i) ?_
              rw [List.getElem?_take_of_lt (by omega), List.getElem?_drop, show i + (k - i) = k from by omega]
              exact h6
            exact absurd (h7 _ this) (by decide)
        · rw [if_neg h2]; exact found (dead.length - i) (fun _ => .inl (by omega)) (by omega)
      · rw [if_neg h1]
        refine ⟨fun r h => by simp at h, fun _ j hj => ?_⟩
        rw [List.getElem?_eq_none (by omega)]; simp
  obtain ⟨m1, m2⟩ := main _ istart rfl
  refine ⟨fun i => ⟨m1 i, fun h => ?_⟩, m2, fun h => ?_⟩
  · cases e : search dead istart with
    | none => exact absurd h.2.1 (m2 e i h.1)
    | some r =>
      obtain ⟨a, b, c⟩ := m1 r e
      rcases Nat.lt_trichotomy r i with hlt | heq | hgt
      · exact absurd b (h.2.2 r a hlt)
      · rw [heq]
      · exact absurd h.2.1 (c i h.1 hgt)
  · cases e : search dead istart with
    | none => rfl
    | some r => exact absurd (m1 r e).2.1 (h r (m1 r e).1)

/-- the living particles of a patch, with their slots -/
def Alive (a : Arrays) (i : Nat) (p : Part) : Prop := a.dead[i]? = some false ∧ a.parts[i]? = some p

/-- **C86** (insertion). If there is a dead slot at or after the start, afterwards exactly one more particle is alive, the new one,
in that first dead slot, with the given position, momentum and weight and the inverse Lorentz factor of its momentum; every other
living particle is untouched. If there is none, nothing changes and the caller is told. -/
theorem insert_at (a : Arrays) (hl : a.parts.length = a.dead.length) (istart : Nat) (x y z ux uy uz w : ℝ) :
    (∀ i, FirstDead a.dead istart i →
      (insertAt a istart x y z ux uy uz w).2 = some i ∧
      ∃ p : Part, p.x = x ∧ p.y = y ∧ p.z = z ∧ p.ux = ux ∧ p.uy = uy ∧ p.uz = uz ∧ p.w = w ∧
        0 < p.invGamma ∧ p.invGamma ^ 2 * (1 + ux ^ 2 + uy ^ 2 + uz ^ 2) = 1 ∧
        ∀ j q, Alive (insertAt a istart x y z ux uy uz w).1 j q ↔ (Alive a j q ∧ j ≠ i) ∨ (j = i ∧ q = p)) ∧
    ((∀ j, istart ≤ j → a.dead[j]? ≠ some true) → insertAt a istart x y z ux uy uz w = (a, none)) := by
  obtain ⟨s1, s2⟩ := search_first a.dead istart
  constructor
  · intro i hi
    have e := (s1 i).mpr hi
    unfold insertAt
    rw [e]
    have hi' : i < a.dead.length := (List.getElem?_eq_some_iff.mp hi.2.1).1
    refine ⟨rfl, ⟨x, y, z, ux, uy, uz, 1 / Real.sqrt (ux * ux + uy * uy + uz * uz + 1), w⟩, rfl, rfl, rfl, rfl, rfl, rfl, rfl, ?_, ?_, ?_⟩
    · show 0 < 1 / Real.sqrt (ux * ux + uy * uy + uz * uz + 1)
      have : 0 < ux * ux + uy * uy + uz * uz + 1 := by nlinarith [mul_self_nonneg ux, mul_self_nonneg uy, mul_self_nonneg uz]
      exact div_pos one_pos (Real.sqrt_pos.mpr this)
    · show (1 / Real.sqrt (ux * ux + uy * uy + uz * uz + 1)) ^ 2 * _ = 1
      have : 0 < ux * ux + uy * uy + uz * uz + 1 := by nlinarith [mul_self_nonneg ux, mul_self_nonneg uy, mul_self_nonneg uz]
      rw [div_pow, Real.sq_sqrt this.le, one_pow, show 1 + ux ^ 2 + uy ^ 2 + uz ^ 2 = ux * ux + uy * uy + uz * uz + 1 from by ring,
        one_div, inv_mul_cancel₀ this.ne']
    · intro j q
      unfold Alive
      by_cases hj : j = i
      · subst hj
        simp only [ne_eq, not_true_eq_false, and_false, true_and, false_or]
        rw [List.getElem?_set_self hi', List.getElem?_set_self (by omega)]
        constructor
        · rintro ⟨_, h⟩; exact (Option.some.inj h).symm
        · rintro rfl; exact ⟨rfl, rfl⟩
      · simp only [hj, ne_eq, not_false_eq_true, and_true, false_and, or_false]
        rw [List.getElem?_set_ne (Ne.symm hj), List.getElem?_set_ne (Ne.symm hj)]
  · intro h
    unfold insertAt
    rw [s2.mpr h]

/-- the numbers of dead slots, patch by patch -/
theorem sum_dead (parts : List (List Bool)) (i : Nat) (d : List Bool) (h : parts[i]? = some d) :
    (sumDead parts)[i]? = some (d.count true) := by
  have : ∀ (d : List Bool) (n : Nat), d.foldl (fun n b => n + b.toNat) n = n + d.count true := by
    intro d
    induction d with
    | nil => intro n; rfl
    | cons b d ih => intro n; rw [List.foldl_cons, ih]; cases b <;> simp <;> omega
  unfold sumDead
  rw [List.getElem?_map, h]
  simp [this]

/-- eleven slots, the first dead one after slot 2 is slot 9 -/
example : FirstDead [true, false, false, false, false, false, false, false, false, true, true] 2 9 := by
  refine ⟨by norm_num, rfl, ?_⟩
  decide +kernel

example : search [true, false, false, false, false, false, false, false, false, true, true] 2 = some 9 := by decide +kernel

end Verif.Insert
