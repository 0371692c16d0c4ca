import Verif.Props.Cpml
import Mathlib.Algebra.BigOperators.Intervals
import Mathlib.Tactic.LinearCombination
/-!
# Which boxes with absorbing layers can be set up, and how strong a layer is
-/
namespace Verif.Cpml

/-! ## specification -/

/-- how much a layer damps a wave that crosses it once, as an exponent: the conductivities of all its E and B cells, half a cell each, times the cell size
`d` along its axis over the speed of light -/
noncomputable def damping (L : LayerPar ℝ) (n : Nat) (c d : ℝ) : ℝ :=
  ∑ i ∈ Finset.range n, (sigmaAt L (startE L.mx n L.t) (stopE L.mx n L.t) (posE L.mx L.t) i +
    sigmaAt L (startB L.mx n L.t) (stopB L.mx n L.t) (posB L.mx L.t) i) / 2 * d / c

/-- the sides of a patch at which a layer has to be: the edges of the box it lies at whose boundary condition is `pml` -/
def sides {k : Nat} (np i : Fin k → Nat) (bc : Fin k → Bool → Bool) : Finset (Fin k × Bool) :=
  Finset.univ.filter fun s => (if s.2 then i s.1 + 1 = np s.1 else i s.1 = 0) ∧ bc s.1 s.2 = true

/-! ## proofs -/

theorem cubes (t : Nat) : ∑ k ∈ Finset.range t, ((((k : ℝ) + 1) / t) ^ 3 + (((k : ℝ) + 1 / 2) / t) ^ 3) * (t : ℝ) ^ 3 = ((t : ℝ) * (2 * t + 1)) ^ 2 / 8 := by
  by_cases h : t = 0
  · subst h; simp
  have key : ∀ m : Nat, ∑ k ∈ Finset.range m, (((k : ℝ) + 1) ^ 3 + ((k : ℝ) + 1 / 2) ^ 3) = ((m : ℝ) * (2 * m + 1)) ^ 2 / 8 := by
    intro m
    induction m with
    | zero => simp
    | succ m ih => rw [Finset.sum_range_succ, ih]; push_cast; ring
  rw [← key]
  refine Finset.sum_congr rfl fun k _ => ?_
  have : (t : ℝ) ≠ 0 := by exact_mod_cast h
  rw [div_pow, div_pow, ← add_div, div_mul_cancel₀ _ (by positivity)]

theorem sum_block (f : Nat → ℝ) {n s t : Nat} (h : s + t ≤ n) :
    ∑ i ∈ Finset.range n, (if s ≤ i ∧ i < s + t then f (i - s) else 0) = ∑ m ∈ Finset.range t, f m := by
  rw [← Finset.sum_filter]
  refine Finset.sum_bij' (fun i _ => i - s) (fun m _ => m + s) ?_ ?_ ?_ ?_ ?_
  · intro i hi; simp only [Finset.mem_filter, Finset.mem_range] at hi ⊢; omega
  · intro m hm; simp only [Finset.mem_filter, Finset.mem_range] at hm ⊢; omega
  · intro i hi; simp only [Finset.mem_filter, Finset.mem_range] at hi; omega
  · intro m hm; omega
  · intro i hi; rfl

theorem sum_pos (mx : Bool) (t : Nat) :
    (∑ m ∈ Finset.range t, (posE mx t m : ℝ) ^ 3) + ∑ m ∈ Finset.range t, (posB mx t m : ℝ) ^ 3 =
      ∑ k ∈ Finset.range t, ((((k : ℝ) + 1) / t) ^ 3 + (((k : ℝ) + 1 / 2) / t) ^ 3) := by
  rw [← Finset.sum_add_distrib]
  have up : ∀ m ∈ Finset.range t, (posE true t m : ℝ) ^ 3 + (posB true t m : ℝ) ^ 3 = (((m : ℝ) + 1) / t) ^ 3 + (((m : ℝ) + 1 / 2) / t) ^ 3 := by
    intro m hm
    rw [Finset.mem_range] at hm
    have ht : (t : ℝ) ≠ 0 := by have : t ≠ 0 := by omega
                                exact_mod_cast this
    have e : ((t - 1 - m : Nat) : ℝ) = (t : ℝ) - 1 - m := by
      rw [Nat.cast_sub (by omega), Nat.cast_sub (by omega)]; simp
    unfold posE posB
    simp only [if_true, e]
    congr 2 <;> (field_simp; ring)
  cases mx
  · rw [← Finset.sum_range_reflect]
    refine Finset.sum_congr rfl fun m hm => ?_
    rw [← up m hm]
    rfl
  · exact Finset.sum_congr rfl up

/-! ## theorems -/

/-- **C82, strength of a layer.** For every thickness, side, patch size and parameters a layer along x damps a wave that crosses it by the exponent
`sigma_max / 5 (2 t + 1)² / t` (about `0.8 sigma_max t`): it depends on the number of cells only, not on the cell size, the time step or the unit
of length. -/
theorem cpml_damping (L : LayerPar ℝ) {sigma_max c dx : ℝ} (hL : L.smax = sigmaMaxval sigma_max c dx) (hc : 0 < c) (hdx : 0 < dx) {n : Nat}
    (ht : 0 < L.t) (hn : L.t < n) : damping L n c dx = sigma_max / 5 * (2 * L.t + 1) ^ 2 / L.t := by
  have e1 : stopE L.mx n L.t = startE L.mx n L.t + L.t ∧ startE L.mx n L.t + L.t ≤ n := by
    unfold stopE startE
    cases L.mx <;> constructor <;> simp only [Bool.false_eq_true, if_true, if_false] <;> omega
  have e2 : stopB L.mx n L.t = startB L.mx n L.t + L.t ∧ startB L.mx n L.t + L.t ≤ n := by
    unfold stopB startB
    cases L.mx <;> constructor <;> simp only [Bool.false_eq_true, if_true, if_false] <;> omega
  have s1 := sum_block (fun m => L.smax * (posE L.mx L.t m : ℝ) ^ 3) e1.2
  have s2 := sum_block (fun m => L.smax * (posB L.mx L.t m : ℝ) ^ 3) e2.2
  unfold damping
  simp only [sigmaAt, e1.1, e2.1]
  simp only [div_eq_mul_inv, ← Finset.sum_mul]
  rw [Finset.sum_add_distrib, s1, s2, ← Finset.mul_sum, ← Finset.mul_sum, ← mul_add, sum_pos, hL]
  have hc3 := cubes L.t
  rw [← Finset.sum_mul] at hc3
  have ht' : (0 : ℝ) < L.t := by exact_mod_cast ht
  have hc4 : ∑ k ∈ Finset.range L.t, ((((k : ℝ) + 1) / L.t) ^ 3 + (((k : ℝ) + 1 / 2) / L.t) ^ 3) = (2 * (L.t : ℝ) + 1) ^ 2 / (8 * (L.t : ℝ)) := by
    rw [eq_div_iff (by positivity)]
    have : (L.t : ℝ) ^ 2 ≠ 0 := by positivity
    apply mul_left_cancel₀ this
    linear_combination 8 * hc3
  rw [hc4]
  unfold sigmaMaxval
  field_simp
  ring

/-- **Layers along y and z have another strength.** The conductivity of every layer is made with the cell size `dx`. A layer along an axis whose cells
have another size `d` damps `d / dx` times as much. -/
theorem cpml_damping_fails (L : LayerPar ℝ) {sigma_max c dx d : ℝ} (hL : L.smax = sigmaMaxval sigma_max c dx) (hs : 0 < sigma_max) (hc : 0 < c)
    (hdx : 0 < dx) {n : Nat} (ht : 0 < L.t) (hn : L.t < n) (hd : d ≠ dx) :
    damping L n c d = d / dx * (sigma_max / 5 * (2 * L.t + 1) ^ 2 / L.t) ∧ damping L n c d ≠ sigma_max / 5 * (2 * L.t + 1) ^ 2 / L.t := by
  have h1 : damping L n c d = d / dx * (sigma_max / 5 * (2 * L.t + 1) ^ 2 / L.t) := by
    rw [← cpml_damping L hL hc hdx ht hn]
    unfold damping
    rw [Finset.mul_sum]
    refine Finset.sum_congr rfl fun i _ => ?_
    field_simp
  refine ⟨h1, ?_⟩
  rw [h1]
  have ht' : (0 : ℝ) < L.t := by exact_mod_cast ht
  have hp : 0 < sigma_max / 5 * (2 * L.t + 1) ^ 2 / L.t := by positivity
  intro h
  have : d / dx = 1 := mul_right_cancel₀ hp.ne' (by rw [h, one_mul])
  exact hd ((div_eq_one_iff_eq hdx.ne').mp this)

/-- the defaults of the code: thickness 6, `sigma_max` 0.7 -/
example : let L : LayerPar ℝ := ⟨false, 6, 20, 15 / 100, sigmaMaxval (7 / 10) 3 (1 / 10)⟩
    damping L 20 3 (1 / 10) = 1183 / 300 := by
  intro L
  rw [cpml_damping L rfl (by norm_num) (by norm_num) (by decide) (by decide)]
  norm_num [L]

/-! ## set-up -/

theorem init3_iff (np n i : Fin 3 → Nat) (bc : Fin 3 → Bool → Bool) (t : Nat) (smax : ℚ) : ∀ (ss : List (Fin 3 × Bool)) (ls : List (Layer 3)),
    ls.length ≤ 3 → ((initPml addPml3 np n i bc t smax ss ls).isSome = true ↔
      (ss.filter (edge np i bc) = [] ∨ ∀ a, t < n a) ∧ ls.length + (ss.filter (edge np i bc)).length ≤ 3)
  | [], ls, h => by simp [initPml, h]
  | s :: ss, ls, h => by
    unfold initPml
    by_cases he : edge np i bc s = true
    · rw [if_pos he, List.filter_cons_of_pos he]
      by_cases hn : ∀ a, t < n a
      · rw [show buildChecked s.1 n ⟨s.2, t, 20, 15 / 100, smax⟩ = some (build s.1 (n s.1) ⟨s.2, t, 20, 15 / 100, smax⟩) from if_pos hn, Option.bind_some]
        unfold addPml3
        split
        · rename_i hl
          rw [Option.bind_some, show (fun (ls : List (Layer 3)) (l : Layer 3) => if ls.length < 3 then some (ls ++ [l]) else none) = addPml3 from rfl,
            init3_iff np n i bc t smax ss _ (by simp; omega)]
          simp only [hn, implies_true, or_true, true_and, List.length_append, List.length_cons, List.length_nil]
          omega
        · rename_i hl
          simp only [Option.bind_none, Option.isSome_none, Bool.false_eq_true, List.length_cons, false_iff]
          omega
      · rw [show buildChecked s.1 n ⟨s.2, t, 20, 15 / 100, smax⟩ = none from if_neg hn]
        simp [hn]
    · rw [if_neg he, List.filter_cons_of_neg he]
      exact init3_iff np n i bc t smax ss ls h

theorem edge_iff {k : Nat} (np i : Fin k → Nat) (bc : Fin k → Bool → Bool) (s : Fin k × Bool) : s ∈ sides np i bc ↔ edge np i bc s = true := by
  unfold sides edge
  obtain ⟨a, b⟩ := s
  cases b <;> simp

theorem card_sides {k : Nat} (np i : Fin k → Nat) (bc : Fin k → Bool → Bool) (ss : List (Fin k × Bool)) (hnd : ss.Nodup) (hall : ∀ s, s ∈ ss) :
    (ss.filter (edge np i bc)).length = (sides np i bc).card := by
  rw [← List.toFinset_card_of_nodup (hnd.filter _)]
  congr 1
  ext s
  rw [List.mem_toFinset, List.mem_filter, edge_iff]
  exact ⟨fun h => h.2, fun h => ⟨hall s, h⟩⟩

/-- **C82, set-up in 3D, partial.** The layers of a 3D patch can be built exactly if it needs none, or if every side of the patch is longer than the layer is
thick and it needs at most three. A patch that needs four or more, as when there is one patch along two or three axes with layers on both ends, raises. -/
theorem pml_setup3_partial (np n i : Fin 3 → Nat) (bc : Fin 3 → Bool → Bool) (t : Nat) (smax : ℚ) :
    (initPml3 np n i bc t smax).isSome = true ↔ sides np i bc = ∅ ∨ ((∀ a, t < n a) ∧ (sides np i bc).card ≤ 3) := by
  unfold initPml3
  rw [init3_iff _ _ _ _ _ _ _ _ (by simp)]
  have hc := card_sides np i bc [(0, false), (0, true), (1, false), (1, true), (2, false), (2, true)] (by decide) (by decide)
  rw [← List.length_eq_zero_iff, hc, List.length_nil, Finset.card_eq_zero]
  constructor
  · rintro ⟨h1 | h1, h2⟩
    · exact Or.inl h1
    · exact Or.inr ⟨h1, by omega⟩
  · rintro (h | ⟨h1, h2⟩)
    · exact ⟨Or.inl h, by simp [h]⟩
    · exact ⟨Or.inr h1, by omega⟩

/-- **C82, set-up in 2D, partial.** The layers of a 2D patch can be built exactly if it needs none, or if every side is longer than the layer is thick and it
does not need layers at both ends of one axis. -/
theorem pml_setup2_partial (np n i : Fin 2 → Nat) (bc : Fin 2 → Bool → Bool) (t : Nat) (smax : ℚ) :
    (initPml2 np n i bc t smax).isSome = true ↔
      sides np i bc = ∅ ∨ ((∀ a, t < n a) ∧ ∀ a, ¬ ((a, false) ∈ sides np i bc ∧ (a, true) ∈ sides np i bc)) := by
  have hemp : sides np i bc = ∅ ↔ ∀ s, edge np i bc s = false := by
    rw [Finset.eq_empty_iff_forall_notMem]
    exact forall_congr' fun s => by rw [edge_iff]; simp
  rw [hemp]
  simp only [edge_iff]
  have hall : (∀ s : Fin 2 × Bool, edge np i bc s = false) ↔
      edge np i bc (0, false) = false ∧ edge np i bc (0, true) = false ∧ edge np i bc (1, false) = false ∧ edge np i bc (1, true) = false := by
    constructor
    · exact fun h => ⟨h _, h _, h _, h _⟩
    · rintro ⟨h1, h2, h3, h4⟩ ⟨a, b⟩
      fin_cases a <;> cases b <;> assumption
  rw [hall]
  have hax : (∀ a : Fin 2, ¬ (edge np i bc (a, false) = true ∧ edge np i bc (a, true) = true)) ↔
      ¬ (edge np i bc (0, false) = true ∧ edge np i bc (0, true) = true) ∧ ¬ (edge np i bc (1, false) = true ∧ edge np i bc (1, true) = true) := by
    constructor
    · exact fun h => ⟨h 0, h 1⟩
    · rintro ⟨h1, h2⟩ a
      fin_cases a <;> assumption
  rw [hax]
  unfold initPml2
  by_cases hn : ∀ a, t < n a
  · have hb : ∀ (a : Fin 2) (mx : Bool), buildChecked a n ⟨mx, t, 20, 15 / 100, smax⟩ = some (build a (n a) ⟨mx, t, 20, 15 / 100, smax⟩) :=
      fun a mx => if_pos hn
    rcases h1 : edge np i bc (0, false) <;> rcases h2 : edge np i bc (0, true) <;> rcases h3 : edge np i bc (1, false) <;>
      rcases h4 : edge np i bc (1, true) <;> simp [initPml, addPml2, hb, h1, h2, h3, h4, hn, build]
  · have hb : ∀ (a : Fin 2) (mx : Bool), buildChecked a n ⟨mx, t, 20, 15 / 100, smax⟩ = none := fun a mx => if_neg hn
    rcases h1 : edge np i bc (0, false) <;> rcases h2 : edge np i bc (0, true) <;> rcases h3 : edge np i bc (1, false) <;>
      rcases h4 : edge np i bc (1, true) <;> simp [initPml, addPml2, hb, h1, h2, h3, h4, hn]

/-- one patch along every axis, absorbing boundaries all around: no 2D and no 3D box of that kind can be set up, whatever its size -/
theorem pml_one_patch_fails (t : Nat) (smax : ℚ) :
    (∀ n : Fin 2 → Nat, initPml2 (fun _ => 1) n (fun _ => 0) (fun _ _ => true) t smax = none) ∧
    ∀ n : Fin 3 → Nat, initPml3 (fun _ => 1) n (fun _ => 0) (fun _ _ => true) t smax = none := by
  refine ⟨fun n => ?_, fun n => ?_⟩
  · rw [← Option.not_isSome_iff_eq_none, pml_setup2_partial, not_or]
    have h : ∀ s, s ∈ sides (fun _ : Fin 2 => 1) (fun _ => 0) (fun _ _ => true) := fun s => by rw [edge_iff]; unfold edge; simp
    exact ⟨fun e => by have := h (0, false); rw [e] at this; simp at this, fun h' => h'.2 0 ⟨h _, h _⟩⟩
  · rw [← Option.not_isSome_iff_eq_none, pml_setup3_partial, not_or]
    have h : sides (fun _ : Fin 3 => 1) (fun _ => 0) (fun _ _ => true) = Finset.univ := by
      ext s; rw [edge_iff]; unfold edge; simp
    rw [h]
    refine ⟨fun e => Finset.univ_nonempty.ne_empty e, fun h' => ?_⟩
    have := h'.2
    revert this
    decide

/-- four patches in a square, absorbing boundaries all around, 16 cells and layers of 6: every patch can be set up -/
example (i : Fin 2 → Nat) : (initPml2 (fun _ => 2) (fun _ => 16) i (fun _ _ => true) 6 3).isSome = true := by
  rw [pml_setup2_partial]
  refine Or.inr ⟨by simp, fun a h => ?_⟩
  simp only [edge_iff, edge, Bool.false_eq_true, if_false, if_true, Bool.and_true, decide_eq_true_eq] at h
  omega

end Verif.Cpml
