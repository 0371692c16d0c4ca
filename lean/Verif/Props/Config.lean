import Verif.Model.Config
import Verif.Props.AutoPatch
import Verif.Props.WholeRun
/-!
# C104 — the constructor accepts exactly the documented set-ups, and an accepted set-up is a well-posed simulation

Specification vocabulary: `Documented` (what the documentation of `Simulation` asks of the arguments), `Root` (the values of
`s**-0.5`), `conf` (the numbers of a set-up as C66 needs them).
-/
namespace Verif.Config
open Verif.Deposit Verif.WholeRun Verif.SyncFields

variable {k : Nat}

/-- Specification: the arguments are such as the documentation asks for: positive numbers of cells, cell sizes, numbers of patches
that divide those of the cells, a CFL factor in (0, 1], guard cells and absorbing layers, and not both of a number of steps and a
time -/
structure Documented (A : Args k) (np : Fin k → Int) : Prop where
  cells : ∀ a, 0 < A.n a
  size : ∀ a, 0 < A.d a
  patches : ∀ a, 0 < np a
  divides : ∀ a, np a ∣ A.n a
  steps : ∀ s, A.nsteps = some s → 0 < s
  time : ∀ t, A.simTime = some t → 0 < t
  cfl : 0 < A.cfl ∧ A.cfl ≤ 1
  guard : 0 < A.ng
  layer : 0 < A.thick
  one : A.nsteps = none ∨ A.simTime = none

/-- Specification: values of `s**-0.5` for positive `s`: exact, or rounded down -/
def Root (root : ℚ → ℚ) : Prop := ∀ s, 0 < s → 0 < root s ∧ root s ^ 2 * s ≤ 1

/-- the simulation that belongs to arguments with the numbers of patches `np` -/
def simOf (root : ℚ → ℚ) (A : Args k) (np : Fin k → Int) : Sim k :=
  ⟨A.n, A.d, np, fun a => A.n a / np a, fun a => A.n a * A.d a, A.cfl * root (invSq A.d) / lightSpeed, A.nsteps, A.simTime,
    A.ng, A.thick, A.bc⟩

theorem ok_iff (A : Args k) : (fieldsOk A && afterOk A) = true ↔ Documented A A.np := by
  unfold fieldsOk afterOk
  simp only [Bool.and_eq_true, decide_eq_true_eq, Option.all_eq_true, Bool.not_eq_true', Bool.and_eq_false_iff, Option.isSome_eq_false_iff,
    Option.isNone_iff_eq_none]
  constructor
  · rintro ⟨⟨⟨⟨⟨⟨⟨⟨⟨h1, h2⟩, h3⟩, h4⟩, h5⟩, h6⟩, h7⟩, h8⟩, h9⟩, h10, h11⟩
    exact ⟨h1, h2, h3, fun a => Int.dvd_of_emod_eq_zero (h10 a), h4, h5, ⟨h6, h7⟩, h8, h9, h11⟩
  · intro h
    exact ⟨⟨⟨⟨⟨⟨⟨⟨⟨h.cells, h.size⟩, h.patches⟩, h.steps⟩, h.time⟩, h.cfl.1⟩, h.cfl.2⟩, h.guard⟩, h.layer⟩,
      fun a => Int.emod_eq_zero_of_dvd (h.divides a), h.one⟩

theorem validate_iff (root : ℚ → ℚ) (A : Args k) (S : Sim k) : validate root A = .ok S ↔ Documented A A.np ∧ S = simOf root A A.np := by
  unfold validate
  constructor
  · intro h
    split at h
    · rename_i hv
      exact ⟨(ok_iff A).mp hv, (Except.ok.inj h).symm⟩
    · cases h
  · rintro ⟨h, rfl⟩
    rw [if_pos ((ok_iff A).mpr h)]
    rfl

/-- C104: arguments with all numbers of patches given are accepted exactly if they are as documented, and the simulation has them -/
theorem accepted_iff (root : ℚ → ℚ) (auto : (Fin k → Nat) → Nat → Nat → Option (Fin k → Nat)) {A : Args k} (hnp : ∀ a, A.np a ≠ 0)
    (S : Sim k) : construct root auto A = .ok S ↔ Documented A A.np ∧ S = simOf root A A.np := by
  unfold construct autoPatch
  rw [if_neg fun ⟨a, ha⟩ => hnp a ha]
  exact validate_iff root A S

theorem auto_iff (root : ℚ → ℚ) (auto : (Fin k → Nat) → Nat → Nat → Option (Fin k → Nat)) {A : Args k} (hnp : ∃ a, A.np a = 0) (S : Sim k) :
    construct root auto A = .ok S ↔ ∃ np, auto (fun a => (A.n a).toNat) A.ng.toNat A.thick.toNat = some np ∧
      Documented A (fun a => np a) ∧ S = simOf root A fun a => np a := by
  unfold construct autoPatch
  rw [if_pos hnp]
  constructor
  · intro h
    split at h
    · rename_i A' hA
      split at hA
      · split at hA
        · rename_i np hn
          have : { A with np := fun a => (np a : Int) } = A' := Except.ok.inj hA
          subst this
          obtain ⟨h1, h2⟩ := (validate_iff root _ S).mp h
          exact ⟨np, hn, ⟨h1.cells, h1.size, h1.patches, h1.divides, h1.steps, h1.time, h1.cfl, h1.guard, h1.layer, h1.one⟩, h2⟩
        · cases hA
      · cases hA
    · cases h
  · rintro ⟨np, hn, hd, rfl⟩
    rw [if_pos ⟨hd.cells, hd.guard, hd.layer⟩, hn]
    exact (validate_iff root _ _).mpr
      ⟨⟨hd.cells, hd.size, hd.patches, hd.divides, hd.steps, hd.time, hd.cfl, hd.guard, hd.layer, hd.one⟩, rfl⟩

theorem toNat_pos {z : Int} (h : 0 < z) : 0 < z.toNat := by omega

/-- C104 in 2D with a number of patches left to the program: the set-up is accepted exactly if the other arguments are as documented
and the numbers of cells along both axes are not 1 and not prime; the numbers of patches then divide them -/
theorem accepted_auto2 (root : ℚ → ℚ) (threads : Nat) {A : Args 2} (hnp : ∃ a, A.np a = 0) :
    (∃ S, construct root (auto2 threads) A = .ok S) ↔ (∃ np, Documented A np) ∧ ∀ a, A.n a ≠ 1 ∧ ¬ (A.n a).toNat.Prime := by
  constructor
  · rintro ⟨S, hS⟩
    obtain ⟨np, h1, h2, _⟩ := (auto_iff root _ hnp S).mp hS
    have h1' : (AutoPatch.autoPatch2 (A.n 0).toNat (A.n 1).toNat A.ng.toNat A.thick.toNat (threads * 4)).map (fun c => ![c.1, c.2]) = some np := h1
    obtain ⟨c, hc, _⟩ := Option.map_eq_some_iff.mp h1'
    obtain ⟨⟨x1, x2⟩, y1, y2⟩ := (AutoPatch.auto_patch2_partial (npatchMin := threads * 4) (toNat_pos (h2.cells 0)) (toNat_pos (h2.cells 1))
      (toNat_pos h2.guard) (toNat_pos h2.layer)).1.mp ⟨c, hc⟩
    refine ⟨⟨_, h2⟩, fun a => ?_⟩
    match a with
    | 0 => exact ⟨fun e => x1 (by rw [e]; rfl), x2⟩
    | 1 => exact ⟨fun e => y1 (by rw [e]; rfl), y2⟩
  · rintro ⟨⟨np, h⟩, ha⟩
    have hs := AutoPatch.auto_patch2_partial (npatchMin := threads * 4) (toNat_pos (h.cells 0)) (toNat_pos (h.cells 1))
      (toNat_pos h.guard) (toNat_pos h.layer)
    obtain ⟨⟨x, y⟩, hc⟩ := hs.1.mpr ⟨⟨fun e => (ha 0).1 (by have := h.cells 0; omega), (ha 0).2⟩,
      fun e => (ha 1).1 (by have := h.cells 1; omega), (ha 1).2⟩
    obtain ⟨hx, hy, _⟩ := hs.2 x y hc
    have e0 : ((A.n 0).toNat : Int) = A.n 0 := Int.toNat_of_nonneg (h.cells 0).le
    have e1 : ((A.n 1).toNat : Int) = A.n 1 := Int.toNat_of_nonneg (h.cells 1).le
    refine ⟨_, (auto_iff root _ hnp _).mpr ⟨![x, y], ?_, ⟨h.cells, h.size, fun a => ?_, fun a => ?_, h.steps, h.time, h.cfl, h.guard,
      h.layer, h.one⟩, rfl⟩⟩
    · exact congrArg (Option.map fun c : Nat × Nat => ![c.1, c.2]) hc
    · match a with
      | 0 => show 0 < (x : Int); omega
      | 1 => show 0 < (y : Int); omega
    · match a with
      | 0 => show (x : Int) ∣ A.n 0; rw [← e0]; exact_mod_cast hx.1
      | 1 => show (y : Int) ∣ A.n 1; rw [← e1]; exact_mod_cast hy.1

/-- C104 in 3D with a number of patches left to the program -/
theorem accepted_auto3 (root : ℚ → ℚ) (threads : Nat) {A : Args 3} (hnp : ∃ a, A.np a = 0) :
    (∃ S, construct root (auto3 threads) A = .ok S) ↔ (∃ np, Documented A np) ∧ ∀ a, A.n a ≠ 1 ∧ ¬ (A.n a).toNat.Prime := by
  constructor
  · rintro ⟨S, hS⟩
    obtain ⟨np, h1, h2, _⟩ := (auto_iff root _ hnp S).mp hS
    have h1' : (AutoPatch.autoPatch3 (A.n 0).toNat (A.n 1).toNat (A.n 2).toNat A.ng.toNat A.thick.toNat (threads * 4)).map
      (fun c => ![c.1, c.2.1, c.2.2]) = some np := h1
    obtain ⟨c, hc, _⟩ := Option.map_eq_some_iff.mp h1'
    obtain ⟨⟨x1, x2⟩, ⟨y1, y2⟩, z1, z2⟩ := (AutoPatch.auto_patch3_partial (npatchMin := threads * 4) (toNat_pos (h2.cells 0))
      (toNat_pos (h2.cells 1)) (toNat_pos (h2.cells 2)) (toNat_pos h2.guard) (toNat_pos h2.layer)).1.mp ⟨c, hc⟩
    refine ⟨⟨_, h2⟩, fun a => ?_⟩
    match a with
    | 0 => exact ⟨fun e => x1 (by rw [e]; rfl), x2⟩
    | 1 => exact ⟨fun e => y1 (by rw [e]; rfl), y2⟩
    | 2 => exact ⟨fun e => z1 (by rw [e]; rfl), z2⟩
  · rintro ⟨⟨np, h⟩, ha⟩
    have hs := AutoPatch.auto_patch3_partial (npatchMin := threads * 4) (toNat_pos (h.cells 0)) (toNat_pos (h.cells 1))
      (toNat_pos (h.cells 2)) (toNat_pos h.guard) (toNat_pos h.layer)
    obtain ⟨⟨x, y, z⟩, hc⟩ := hs.1.mpr ⟨⟨fun e => (ha 0).1 (by have := h.cells 0; omega), (ha 0).2⟩,
      ⟨fun e => (ha 1).1 (by have := h.cells 1; omega), (ha 1).2⟩, fun e => (ha 2).1 (by have := h.cells 2; omega), (ha 2).2⟩
    obtain ⟨hx, hy, hz, _⟩ := hs.2 x y z hc
    have e0 : ((A.n 0).toNat : Int) = A.n 0 := Int.toNat_of_nonneg (h.cells 0).le
    have e1 : ((A.n 1).toNat : Int) = A.n 1 := Int.toNat_of_nonneg (h.cells 1).le
    have e2 : ((A.n 2).toNat : Int) = A.n 2 := Int.toNat_of_nonneg (h.cells 2).le
    refine ⟨_, (auto_iff root _ hnp _).mpr ⟨![x, y, z], ?_, ⟨h.cells, h.size, fun a => ?_, fun a => ?_, h.steps, h.time, h.cfl, h.guard,
      h.layer, h.one⟩, rfl⟩⟩
    · exact congrArg (Option.map fun c : Nat × Nat × Nat => ![c.1, c.2.1, c.2.2]) hc
    · match a with
      | 0 => show 0 < (x : Int); omega
      | 1 => show 0 < (y : Int); omega
      | 2 => show 0 < (z : Int); omega
    · match a with
      | 0 => show (x : Int) ∣ A.n 0; rw [← e0]; exact_mod_cast hx.1
      | 1 => show (y : Int) ∣ A.n 1; rw [← e1]; exact_mod_cast hy.1
      | 2 => show (z : Int) ∣ A.n 2; rw [← e2]; exact_mod_cast hz.1

theorem accepted_doc {root : ℚ → ℚ} {auto : (Fin k → Nat) → Nat → Nat → Option (Fin k → Nat)} {A : Args k} {S : Sim k}
    (h : construct root auto A = .ok S) : ∃ np, Documented A np ∧ S = simOf root A np := by
  by_cases hnp : ∃ a, A.np a = 0
  · obtain ⟨np, _, h1, h2⟩ := (auto_iff root auto hnp S).mp h
    exact ⟨_, h1, h2⟩
  · exact ⟨_, (accepted_iff root auto (fun a ha => hnp ⟨a, ha⟩) S).mp h⟩

/-- C104: an accepted simulation has the cells the user asked for, the patches cover them exactly, and the domain is as long as its
cells -/
theorem accepted_geometry {root : ℚ → ℚ} {auto : (Fin k → Nat) → Nat → Nat → Option (Fin k → Nat)} {A : Args k} {S : Sim k}
    (h : construct root auto A = .ok S) (a : Fin k) :
    S.n a = A.n a ∧ S.d a = A.d a ∧ 0 < S.np a ∧ 0 < S.per a ∧ S.np a * S.per a = S.n a ∧ S.L a = S.np a * S.per a * S.d a := by
  obtain ⟨np, hd, rfl⟩ := accepted_doc h
  have e : np a * (A.n a / np a) = A.n a := Int.mul_ediv_cancel' (hd.divides a)
  refine ⟨rfl, rfl, hd.patches a, ?_, e, ?_⟩
  · show 0 < A.n a / np a
    exact Int.ediv_pos_of_pos_of_dvd (hd.cells a) (hd.patches a).le (hd.divides a)
  · show (A.n a : ℚ) * A.d a = (np a : ℚ) * ((A.n a / np a : Int) : ℚ) * A.d a
    have : (A.n a : ℚ) = (np a : ℚ) * ((A.n a / np a : Int) : ℚ) := by exact_mod_cast e.symm
    rw [this]

theorem invSq_sum (d : Fin k → ℚ) : invSq d = ∑ a, 1 / d a ^ 2 := by
  unfold invSq
  rw [← List.ofFn_eq_map, List.sum_ofFn]

/-- C104: the time step of an accepted simulation: `get_cfl` gives the factor the user asked for, the step is within the limit of the
field solver, and light crosses less than a cell of any axis in a step -/
theorem accepted_step {root : ℚ → ℚ} (hr : Root root) {auto : (Fin k → Nat) → Nat → Nat → Option (Fin k → Nat)} {A : Args k} {S : Sim k}
    (h : construct root auto A = .ok S) (hk : 2 ≤ k) :
    0 < S.dt ∧ getCfl root S = A.cfl ∧ (lightSpeed * S.dt) ^ 2 * (∑ a, 1 / S.d a ^ 2) ≤ A.cfl ^ 2 ∧ A.cfl ≤ 1 ∧
      ∀ a, lightSpeed * S.dt < S.d a := by
  obtain ⟨np, hd, rfl⟩ := accepted_doc h
  have hc : (0 : ℚ) < lightSpeed := by unfold lightSpeed; norm_num
  have hpos : ∀ a : Fin k, 0 < 1 / A.d a ^ 2 := fun a => one_div_pos.mpr (pow_pos (hd.size a) 2)
  have hs : 0 < invSq A.d := by
    rw [invSq_sum]
    exact Finset.sum_pos (fun a _ => hpos a) ⟨⟨0, by omega⟩, Finset.mem_univ _⟩
  obtain ⟨r0, r1⟩ := hr _ hs
  have hdt : lightSpeed * (simOf root A np).dt = A.cfl * root (invSq A.d) := by
    show lightSpeed * (A.cfl * root (invSq A.d) / lightSpeed) = _
    field_simp
  have h0 : 0 < (simOf root A np).dt := div_pos (mul_pos hd.cfl.1 r0) hc
  have hlim : (lightSpeed * (simOf root A np).dt) ^ 2 * (∑ a, 1 / A.d a ^ 2) ≤ A.cfl ^ 2 := by
    rw [hdt, ← invSq_sum, mul_pow, mul_assoc]
    exact (mul_le_mul_of_nonneg_left r1 (sq_nonneg _)).trans (by rw [mul_one])
  refine ⟨h0, ?_, hlim, hd.cfl.2, fun a => ?_⟩
  · show A.cfl * root (invSq A.d) / lightSpeed / (root (invSq A.d) / lightSpeed) = A.cfl
    have := r0.ne'
    field_simp
  · obtain ⟨b, hb⟩ : ∃ b : Fin k, b ≠ a := by
      by_cases h0 : a = ⟨0, by omega⟩
      · exact ⟨⟨1, by omega⟩, by rw [h0]; simp⟩
      · exact ⟨⟨0, by omega⟩, fun e => h0 e.symm⟩
    have hlt : 1 / A.d a ^ 2 < ∑ a, 1 / A.d a ^ 2 := by
      rw [← Finset.add_sum_erase _ _ (Finset.mem_univ a)]
      have : 0 < ∑ x ∈ Finset.univ.erase a, 1 / A.d x ^ 2 :=
        Finset.sum_pos (fun x _ => hpos x) ⟨b, Finset.mem_erase.mpr ⟨hb, Finset.mem_univ _⟩⟩
      linarith
    have hq : 0 < lightSpeed * (simOf root A np).dt := mul_pos hc h0
    have h1 : (lightSpeed * (simOf root A np).dt) ^ 2 * (1 / A.d a ^ 2) < 1 := by
      refine lt_of_lt_of_le (mul_lt_mul_of_pos_left hlt (pow_pos hq 2)) (hlim.trans ?_)
      exact pow_le_one₀ hd.cfl.1.le hd.cfl.2
    have h2 : (lightSpeed * (simOf root A np).dt) ^ 2 < A.d a ^ 2 := by
      rw [mul_one_div, div_lt_one (pow_pos (hd.size a) 2)] at h1
      exact h1
    exact lt_of_pow_lt_pow_left₀ 2 (hd.size a).le h2

/-- the numbers of a set-up as C66 needs them; `rs` is the `1/sqrt` of the push -/
def conf (S : Sim k) (c2 eps0 : ℚ) (rs : ℚ → ℚ) : Conf k :=
  ⟨fun a => (S.np a).toNat, fun a => (S.per a).toNat, S.ng.toNat, S.d, c2, eps0, S.dt, rs⟩

/-- C104: every accepted set-up with at least three guard cells and patches at least as wide as their guard cells meets the
conditions of C66 and of all other properties of complete runs, so that they hold for it.
Missing for the full property: fewer guard cells and narrower patches, which the constructor accepts too
(`accepted_admissible_fails`). -/
theorem accepted_admissible_partial {root : ℚ → ℚ} (hr : Root root) {auto : (Fin k → Nat) → Nat → Nat → Option (Fin k → Nat)} {A : Args k}
    {S : Sim k} (h : construct root auto A = .ok S) (hk : 2 ≤ k) (hg : 3 ≤ S.ng) (hw : ∀ a, S.ng ≤ S.per a) (c2 eps0 : ℚ) {rs : ℚ → ℚ}
    (hrs : ∀ s, 1 ≤ s → rs s ^ 2 * s ≤ 1) : Admissible (conf S c2 eps0 rs) 1 where
  patches a := toNat_pos (accepted_geometry h a).2.2.1
  guard := by show 3 ≤ S.ng.toNat; omega
  wide a := by
    show S.ng.toNat ≤ (S.per a).toNat
    have := hw a
    omega
  cell a := by
    obtain ⟨np, hd, rfl⟩ := accepted_doc h
    exact hd.size a
  step := (accepted_step hr h hk).1.ne'
  speed := zero_le_one
  root s hs := by
    show rs s ^ 2 * s ≤ 1 ^ 2
    rw [one_pow]
    exact hrs s hs
  courant a := by
    obtain ⟨h0, _, _, _, h1⟩ := accepted_step hr h hk
    show lightSpeed * |S.dt| * 1 ≤ S.d a
    rw [abs_of_pos h0, mul_one]
    exact (h1 a).le

/-- C104: `run()` without arguments makes as many steps as were asked for, or as many whole steps as fit in the time asked for, and
refuses if neither was given -/
theorem asked_length {root : ℚ → ℚ} (hr : Root root) {auto : (Fin k → Nat) → Nat → Nat → Option (Fin k → Nat)} {A : Args k} {S : Sim k}
    (h : construct root auto A = .ok S) (hk : 2 ≤ k) :
    (∀ m, A.nsteps = some m → RunLoop.handleNsteps S.nsteps S.simTime S.dt 0 none none = some m) ∧
    (∀ T, A.simTime = some T → ∃ m : Int, RunLoop.handleNsteps S.nsteps S.simTime S.dt 0 none none = some m ∧ 0 ≤ m ∧
      m * S.dt ≤ T ∧ T < (m + 1) * S.dt) ∧
    (A.nsteps = none → A.simTime = none → RunLoop.handleNsteps S.nsteps S.simTime S.dt 0 none none = none) := by
  have hdt := (accepted_step hr h hk).1
  obtain ⟨np, hd, rfl⟩ := accepted_doc h
  have e1 : (simOf root A np).nsteps = A.nsteps := rfl
  have e2 : (simOf root A np).simTime = A.simTime := rfl
  refine ⟨fun m hm => ?_, fun T hT => ?_, fun h1 h2 => ?_⟩
  · unfold RunLoop.handleNsteps
    rw [e1, hm]
  · have hn : A.nsteps = none := by
      rcases hd.one with h | h
      · exact h
      · rw [h] at hT; cases hT
    have hT0 : 0 ≤ T / (simOf root A np).dt := div_nonneg (hd.time T hT).le hdt.le
    refine ⟨⌊T / (simOf root A np).dt⌋, ?_, Int.floor_nonneg.mpr hT0, ?_, ?_⟩
    · unfold RunLoop.handleNsteps RunLoop.truncDiv
      rw [e1, e2, hn, hT]
      dsimp only
      rw [if_pos hT0]
    · exact (le_div_iff₀ hdt).mp (Int.floor_le _)
    · exact (div_lt_iff₀ hdt).mp (Int.lt_floor_add_one _)
  · unfold RunLoop.handleNsteps
    rw [e1, e2, h1, h2]

/-! ## what the constructor accepts although it should not -/

/-- a 2D set-up of 16 by 16 cells -/
def exArgs (np : Fin 2 → Int) (ng : Int) : Args 2 :=
  ⟨![16, 16], ![1, 1], np, some 10, none, 1, ng, 6, fun _ _ => some .periodic⟩

/-- values of `s**-0.5`, rounded down -/
def exRoot (s : ℚ) : ℚ := if s = 2 then 7 / 10 else 1 / (s + 1)

theorem exRoot_ok : Root exRoot := by
  intro s hs
  unfold exRoot
  split
  · rename_i h
    subst h
    norm_num
  · refine ⟨by positivity, ?_⟩
    rw [div_pow, one_pow, div_mul_eq_mul_div, one_mul, div_le_one (by positivity)]
    nlinarith

theorem exArgs_doc {np : Fin 2 → Int} {ng : Int} (h0 : 0 < np 0 ∧ np 0 ∣ 16) (h1 : 0 < np 1 ∧ np 1 ∣ 16) (hg : 0 < ng) :
    Documented (exArgs np ng) np where
  cells a := match a with | 0 => by show (0 : Int) < 16; decide | 1 => by show (0 : Int) < 16; decide
  size a := match a with | 0 => one_pos | 1 => one_pos
  patches a := match a with | 0 => h0.1 | 1 => h1.1
  divides a := match a with | 0 => h0.2 | 1 => h1.2
  steps s hs := by cases hs; decide
  time t ht := by cases ht
  cfl := ⟨one_pos, le_refl _⟩
  guard := hg
  layer := by show (0 : Int) < 6; decide
  one := Or.inr rfl

theorem exGiven (auto : (Fin 2 → Nat) → Nat → Nat → Option (Fin 2 → Nat)) {p q ng : Int} (h0 : 0 < p ∧ p ∣ 16) (h1 : 0 < q ∧ q ∣ 16)
    (hg : 0 < ng) : construct exRoot auto (exArgs ![p, q] ng) = .ok (simOf exRoot (exArgs ![p, q] ng) ![p, q]) :=
  (accepted_iff exRoot auto (A := exArgs ![p, q] ng) (fun a => match a with | 0 => h0.1.ne' | 1 => h1.1.ne') _).mpr
    ⟨exArgs_doc (np := ![p, q]) h0 h1 hg, rfl⟩

/-- C104, defect: one guard cell is accepted, and so are patches that are narrower than their guard cells -/
theorem accepted_admissible_fails : ∃ A A' : Args 2, ∃ S S' : Sim 2,
    construct exRoot (auto2 1) A = .ok S ∧ construct exRoot (auto2 1) A' = .ok S' ∧
    (∀ c2 eps0 rs β, ¬ Admissible (conf S c2 eps0 rs) β) ∧ ∀ c2 eps0 rs β, ¬ Admissible (conf S' c2 eps0 rs) β := by
  refine ⟨exArgs ![2, 2] 1, exArgs ![8, 2] 3, _, _, exGiven _ ⟨by decide, by decide⟩ ⟨by decide, by decide⟩ (by decide), exGiven _ ⟨by decide, by decide⟩ ⟨by decide, by decide⟩ (by decide),
    ?_, ?_⟩
  · intro c2 eps0 rs β h
    have : 3 ≤ ((1 : Int).toNat) := h.guard
    exact absurd this (by decide)
  · intro c2 eps0 rs β h
    have : (3 : Int).toNat ≤ ((16 : Int) / 8).toNat := h.wide 0
    exact absurd this (by decide)

/-- C104, defect: with one guard cell, which is accepted, a particle in cell 0 of a patch of eight cells that moves to cell -1 leaves
current in the memory of cell 8, the guard cell at the other end: the memory has no room for cell -2 -/
theorem one_guard_fails : ∃ (A : Args 2) (S : Sim 2), construct exRoot (auto2 1) A = .ok S ∧
    (∀ a, S.per a = 8) ∧ S.ng = 1 ∧ ∃ (x y : ℚ) (p : Mom), (-1 / 2 ≤ x ∧ x < 1 / 2) ∧ (7 / 2 ≤ y ∧ y < 9 / 2) ∧
      |p.vx * S.dt| ≤ S.d 0 ∧ |p.vy * S.dt| ≤ S.d 1 ∧
      (deposit2 ⟨8 + 2 * 1, 1, 0⟩ ⟨8 + 2 * 1, 1, 0⟩ S.dt 1 x y p ⟨fun _ => 0, fun _ => 0, fun _ => 0, fun _ => 0⟩).rho
        (index ![8, 8] 1 ![8, 4]) ≠ 0 := by
  have hi : invSq (![1, 1] : Fin 2 → ℚ) = 2 := by
    rw [invSq_sum, Fin.sum_univ_two]
    show (1 : ℚ) / 1 ^ 2 + 1 / 1 ^ 2 = 2
    norm_num
  have hx : exRoot 2 = 7 / 10 := if_pos rfl
  refine ⟨exArgs ![2, 2] 1, _, exGiven _ ⟨by decide, by decide⟩ ⟨by decide, by decide⟩ (by decide), fun a => match a with | 0 => rfl | 1 => rfl, rfl,
    -1 / 2, 4, ⟨-3 / 4, 0, 0, 4 / 5, 1⟩, by norm_num, by norm_num, ?_, ?_, ?_⟩
  · show |(-3 / 4 * lightSpeed * (4 / 5)) * (1 * exRoot (invSq ![1, 1]) / lightSpeed)| ≤ 1
    rw [hi, hx]
    unfold lightSpeed
    rw [abs_le]
    norm_num
  · show |(0 * lightSpeed * (4 / 5)) * _| ≤ 1
    norm_num
  · have ha : ∀ (i : Int) (j : Nat), wrapIdx (8 + 2 * 1) i j = (i + ((j : Int) - 2)) % ((8 + 2 * 1 : Nat) : Int) :=
      fun i j => wrapIdx_eq _ (by decide) i j
    unfold deposit2 Deposit.cells2 row2 body2
    simp only [ha]
    have : (simOf exRoot (exArgs ![2, 2] 1) ![2, 2]).dt = 1 * (7 / 10) / lightSpeed := by
      show 1 * exRoot (invSq ![1, 1]) / lightSpeed = _
      rw [hi, hx]
    rw [this]
    decide +kernel

/-- C104, defect: a number of patches that the user gave is not kept if another one is left to the program -/
theorem patches_overwritten_fails : ∃ (A : Args 2) (S : Sim 2), construct exRoot (auto2 1) A = .ok S ∧ A.np 0 = 8 ∧ S.np 0 = 2 := by
  refine ⟨exArgs ![8, 0] 3, simOf exRoot (exArgs ![8, 0] 3) fun a => ((![2, 2] : Fin 2 → Nat) a : Int),
    (auto_iff exRoot (auto2 1) (A := exArgs ![8, 0] 3) ⟨1, rfl⟩ _).mpr ⟨![2, 2], by decide +kernel, ?_, rfl⟩, rfl, rfl⟩
  have h := exArgs_doc (np := ![2, 2]) (ng := 3) ⟨by decide, by decide⟩ ⟨by decide, by decide⟩ (by decide)
  exact ⟨h.cells, h.size, fun a => match a with | 0 => by decide | 1 => by decide, fun a => match a with | 0 => by decide | 1 => by decide,
    h.steps, h.time, h.cfl, h.guard, h.layer, h.one⟩

/-- C104, defect: a dictionary of boundary conditions without some side is accepted, and the start stops with a `KeyError` -/
theorem missing_side_fails : ∃ (A : Args 2) (S : Sim 2), construct exRoot (auto2 1) A = .ok S ∧ sides S = none := by
  refine ⟨{ exArgs ![2, 2] 3 with bc := fun a _ => if a = 0 then some .pml else none }, _,
    (accepted_iff exRoot (auto2 1) (A := { exArgs ![2, 2] 3 with bc := fun a _ => if a = 0 then some .pml else none })
      (fun a => match a with | 0 => by decide | 1 => by decide) _).mpr ⟨?_, rfl⟩, ?_⟩
  · have h := exArgs_doc (np := ![2, 2]) (ng := 3) ⟨by decide, by decide⟩ ⟨by decide, by decide⟩ (by decide)
    exact ⟨h.cells, h.size, h.patches, h.divides, h.steps, h.time, h.cfl, h.guard, h.layer, h.one⟩
  · unfold sides
    rw [dif_neg]
    intro h
    exact absurd (h 1 true) (by decide)

/-! ## cases that meet the hypotheses -/

/-- an accepted set-up with three guard cells and patches of eight cells -/
example : ∃ S, construct exRoot (auto2 4) (exArgs ![2, 2] 3) = .ok S ∧ 3 ≤ S.ng ∧ (∀ a, S.ng ≤ S.per a) ∧ Root exRoot :=
  ⟨_, exGiven _ ⟨by decide, by decide⟩ ⟨by decide, by decide⟩ (by decide), by decide,
    fun a => match a with | 0 => by decide | 1 => by decide, exRoot_ok⟩

/-- an accepted set-up with the numbers of patches left to the program -/
example : ∃ A : Args 2, (∃ a, A.np a = 0) ∧ ∃ S, construct exRoot (auto2 1) A = .ok S := by
  refine ⟨exArgs ![0, 0] 3, ⟨0, rfl⟩, (accepted_auto2 exRoot 1 (A := exArgs ![0, 0] 3) ⟨0, rfl⟩).mpr ⟨⟨![2, 2], ?_⟩, fun a => ?_⟩⟩
  · have h := exArgs_doc (np := ![2, 2]) (ng := 3) ⟨by decide, by decide⟩ ⟨by decide, by decide⟩ (by decide)
    exact ⟨h.cells, h.size, h.patches, h.divides, h.steps, h.time, h.cfl, h.guard, h.layer, h.one⟩
  · match a with
    | 0 => exact ⟨by decide, by show ¬ Nat.Prime 16; decide⟩
    | 1 => exact ⟨by decide, by show ¬ Nat.Prime 16; decide⟩

/-- the same in 3D, for cells that are not cubes and a time instead of a number of steps -/
example : ∃ A : Args 3, (∃ a, A.np a = 0) ∧ A.simTime = some 5 ∧ ∃ S, construct exRoot (auto3 1) A = .ok S := by
  refine ⟨⟨![16, 8, 12], ![1, 2, 3], ![2, 0, 2], none, some 5, 19 / 20, 3, 6, fun _ _ => some .pml⟩, ⟨1, rfl⟩, rfl, (accepted_auto3 exRoot 1
    (A := ⟨![16, 8, 12], ![1, 2, 3], ![2, 0, 2], none, some 5, 19 / 20, 3, 6, fun _ _ => some .pml⟩) ⟨1, rfl⟩).mpr
    ⟨⟨![2, 2, 2], ⟨?_, ?_, ?_, ?_, (fun s hs => by cases hs), (fun t ht => by cases ht; norm_num), ⟨by norm_num, by norm_num⟩, (by decide), (by decide), Or.inl rfl⟩⟩, ?_⟩⟩
  · exact fun a => match a with | 0 => by decide | 1 => by decide | 2 => by decide
  · exact fun a => match a with | 0 => by decide | 1 => by decide | 2 => by decide
  · exact fun a => match a with | 0 => by decide | 1 => by decide | 2 => by decide
  · exact fun a => match a with | 0 => by decide | 1 => by decide | 2 => by decide
  · exact fun a => match a with
      | 0 => ⟨by decide, by show ¬ Nat.Prime 16; decide⟩
      | 1 => ⟨by decide, by show ¬ Nat.Prime 8; decide⟩
      | 2 => ⟨by decide, by show ¬ Nat.Prime 12; decide⟩

end Verif.Config
