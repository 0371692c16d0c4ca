import Verif.Proofs.Cpml
import Mathlib.Analysis.SpecialFunctions.Exp
import Mathlib.Tactic.Positivity
import Mathlib.Tactic.FieldSimp
/-!
# C53: the absorbing layers

`cpml_coeffs`: the numbers of a layer, for real parameters. `cpml_update2`, `cpml_update3`: one field update of a patch, in every state its layers can be
in, is the one of the specification; `cpml_outside2`, `cpml_outside3`: it is the plain update outside of the layers; `cpml_inactive2`,
`cpml_inactive3`: and everywhere, if `sigma` is zero and `kappa` is one. `cpml_kappa_lost_fails`: a 3D patch with a layer on both sides of an axis uses
`kappa` of the upper layer only. `cpml_no_sigma_fails`: without `sigma` there is a division 0/0.
-/
namespace Verif.Cpml
open SyncFields Maxwell

/-! ### coefficients -/

/-- the numbers of one cell of a layer are what the scheme needs: no division by zero, `b` forgets, `c` takes up with the right sign -/
structure GoodCoeff (L : LayerPar ℝ) (dt d kappa sigma a : ℝ) : Prop where
  kappa_ge : 1 ≤ kappa
  kappa_le : kappa ≤ L.kmax
  sigma_pos : 0 < sigma
  sigma_le : sigma ≤ L.smax
  a_nonneg : 0 ≤ a
  a_le : a ≤ L.amax
  kappa_ne : kappa ≠ 0
  den_ne : sigma + kappa * a ≠ 0
  b_pos : 0 < Real.exp (-(sigma / kappa + a) * dt)
  b_le : Real.exp (-(sigma / kappa + a) * dt) ≤ 1
  c_le : ccoeff (Real.exp (-(sigma / kappa + a) * dt)) kappa sigma a d ≤ 0

theorem goodCoeff {L : LayerPar ℝ} (hk : 1 ≤ L.kmax) (ha : 0 ≤ L.amax) (hs : 0 < L.smax) {dt d : ℝ} (hdt : 0 ≤ dt) (hd : 0 < d) {p : ℝ} (hp : 0 < p)
    (hp1 : p ≤ 1) : GoodCoeff L dt d (1 + (L.kmax - 1) * p ^ 3) (L.smax * p ^ 3) (L.amax * (1 - p) ^ 1) := by
  have hp3 : 0 < p ^ 3 := by positivity
  have hp31 : p ^ 3 ≤ 1 := pow_le_one₀ hp.le hp1
  have k1 : (1 : ℝ) ≤ 1 + (L.kmax - 1) * p ^ 3 := by nlinarith
  have k2 : 1 + (L.kmax - 1) * p ^ 3 ≤ L.kmax := by nlinarith
  have s1 : 0 < L.smax * p ^ 3 := by positivity
  have s2 : L.smax * p ^ 3 ≤ L.smax := by nlinarith
  have a1 : 0 ≤ L.amax * (1 - p) ^ 1 := by rw [pow_one]; exact mul_nonneg ha (by linarith)
  have a2 : L.amax * (1 - p) ^ 1 ≤ L.amax := by rw [pow_one]; nlinarith
  generalize 1 + (L.kmax - 1) * p ^ 3 = K at *
  generalize L.smax * p ^ 3 = S at *
  generalize L.amax * (1 - p) ^ 1 = A at *
  have kp : 0 < K := by linarith
  have den : 0 < S + K * A := by
    have := mul_nonneg kp.le a1
    linarith
  have hb : Real.exp (-(S / K + A) * dt) ≤ 1 := by
    rw [Real.exp_le_one_iff]
    have : 0 ≤ S / K + A := add_nonneg (div_nonneg s1.le kp.le) a1
    nlinarith
  refine ⟨k1, k2, s1, s2, a1, a2, kp.ne', den.ne', Real.exp_pos _, hb, ?_⟩
  unfold ccoeff
  apply div_nonpos_of_nonpos_of_nonneg _ hd.le
  apply div_nonpos_of_nonpos_of_nonneg _ den.le
  apply div_nonpos_of_nonpos_of_nonneg _ kp.le
  exact mul_nonpos_of_nonpos_of_nonneg (by linarith) s1.le

theorem posE_range (mx : Bool) {t m : Nat} (hm : m < t) : (0 : ℝ) < posE mx t m ∧ posE mx t m ≤ (1 : ℝ) := by
  have ht : (0 : ℝ) < t := by exact_mod_cast (by omega : 0 < t)
  unfold posE
  have key : ∀ q : Nat, q < t → (0 : ℝ) < 1 - (q : ℝ) / t ∧ 1 - (q : ℝ) / t ≤ 1 := by
    intro q hq
    have h1 : (q : ℝ) / t < 1 := by rw [div_lt_one ht]; exact_mod_cast hq
    have h2 : 0 ≤ (q : ℝ) / t := by positivity
    constructor <;> linarith
  cases mx
  · exact key m hm
  · exact key (t - 1 - m) (by omega)

theorem posB_range (mx : Bool) {t m : Nat} (hm : m < t) : (0 : ℝ) < posB mx t m ∧ posB mx t m ≤ (1 : ℝ) := by
  have ht : (0 : ℝ) < t := by exact_mod_cast (by omega : 0 < t)
  unfold posB
  have key : ∀ q : Nat, q < t → (0 : ℝ) < 1 - ((q : ℝ) + 1 / 2) / t ∧ 1 - ((q : ℝ) + 1 / 2) / t ≤ 1 := by
    intro q hq
    have h0 : (q : ℝ) + 1 ≤ t := by exact_mod_cast hq
    have h1 : ((q : ℝ) + 1 / 2) / t < 1 := by rw [div_lt_one ht]; linarith
    have h2 : 0 ≤ ((q : ℝ) + 1 / 2) / t := by positivity
    constructor <;> linarith
  cases mx
  · exact key m hm
  · exact key (t - 1 - m) (by omega)

/-- **C53** for every thickness, patch size, side and depth, and all parameters with `kappa_max ≥ 1`, `a_max ≥ 0`, `sigma_max > 0`: the cells of a layer are
cells of the patch, the numbers of every cell of the layer are good, for E and for B, and outside of the layer they are those of the plain update -/
theorem cpml_coeffs (L : LayerPar ℝ) {sigma_max c dx : ℝ} (hL : L.smax = sigmaMaxval sigma_max c dx) (hs : 0 < sigma_max) (hc : 0 < c) (hdx : 0 < dx)
    (hk : 1 ≤ L.kmax) (ha : 0 ≤ L.amax) {n : Nat} (ht : 0 < L.t) (hn : L.t < n) {dt d : ℝ} (hdt : 0 ≤ dt) (hd : 0 < d) :
    (stopE L.mx n L.t ≤ n ∧ stopE L.mx n L.t = startE L.mx n L.t + L.t) ∧ (stopB L.mx n L.t ≤ n ∧ stopB L.mx n L.t = startB L.mx n L.t + L.t) ∧
    (∀ i, startE L.mx n L.t ≤ i → i < stopE L.mx n L.t →
      GoodCoeff L dt d (kappaAt L (startE L.mx n L.t) (stopE L.mx n L.t) (posE L.mx L.t) i)
        (sigmaAt L (startE L.mx n L.t) (stopE L.mx n L.t) (posE L.mx L.t) i) (aAt L (startE L.mx n L.t) (stopE L.mx n L.t) (posE L.mx L.t) i)) ∧
    (∀ i, startB L.mx n L.t ≤ i → i < stopB L.mx n L.t →
      GoodCoeff L dt d (kappaAt L (startB L.mx n L.t) (stopB L.mx n L.t) (posB L.mx L.t) i)
        (sigmaAt L (startB L.mx n L.t) (stopB L.mx n L.t) (posB L.mx L.t) i) (aAt L (startB L.mx n L.t) (stopB L.mx n L.t) (posB L.mx L.t) i)) ∧
    (∀ start stop (pos : Nat → ℝ) i, ¬ (start ≤ i ∧ i < stop) →
      kappaAt L start stop pos i = 1 ∧ sigmaAt L start stop pos i = 0 ∧ aAt L start stop pos i = 0) := by
  have hsm : 0 < L.smax := by
    rw [hL]; unfold sigmaMaxval; positivity
  have e1 : stopE L.mx n L.t ≤ n ∧ stopE L.mx n L.t = startE L.mx n L.t + L.t := by
    unfold stopE startE
    cases L.mx <;> constructor <;> simp only [Bool.false_eq_true, if_true, if_false] <;> omega
  have e2 : stopB L.mx n L.t ≤ n ∧ stopB L.mx n L.t = startB L.mx n L.t + L.t := by
    unfold stopB startB
    cases L.mx <;> constructor <;> simp only [Bool.false_eq_true, if_true, if_false] <;> omega
  refine ⟨e1, e2, ?_, ?_, ?_⟩
  · intro i h1 h2
    unfold kappaAt sigmaAt aAt
    rw [if_pos ⟨h1, h2⟩, if_pos ⟨h1, h2⟩, if_pos ⟨h1, h2⟩]
    obtain ⟨p1, p2⟩ := posE_range L.mx (t := L.t) (m := i - startE L.mx n L.t) (by omega)
    exact goodCoeff hk ha hsm hdt hd p1 p2
  · intro i h1 h2
    unfold kappaAt sigmaAt aAt
    rw [if_pos ⟨h1, h2⟩, if_pos ⟨h1, h2⟩, if_pos ⟨h1, h2⟩]
    obtain ⟨p1, p2⟩ := posB_range L.mx (t := L.t) (m := i - startB L.mx n L.t) (by omega)
    exact goodCoeff hk ha hsm hdt hd p1 p2
  · intro start stop pos i h
    unfold kappaAt sigmaAt aAt
    rw [if_neg h, if_neg h, if_neg h]
    exact ⟨rfl, rfl, rfl⟩

/-- the defaults of the code meet the hypotheses: thickness 6 of 20 cells, `kappa_max` 20, `a_max` 0.15, `sigma_max` 0.7 -/
example : let L : LayerPar ℝ := ⟨true, 6, 20, 15 / 100, sigmaMaxval (7 / 10) 299792458 (1 / 1000000)⟩
    (1 : ℝ) ≤ L.kmax ∧ 0 ≤ L.amax ∧ 0 < L.t ∧ L.t < 20 ∧ (0 : ℝ) < 7 / 10 := by
  norm_num

/-- at the wall the layer is full, E cells of the lower side: `kappa` is `kappa_max`, `sigma` is `sigma_maxval`, `a` is 0 -/
theorem cpml_wall {F : Type} [Field F] [CharZero F] (L : LayerPar F) (n : Nat) (ht : 0 < L.t) (hmx : L.mx = false) :
    kappaAt L (startE L.mx n L.t) (stopE L.mx n L.t) (posE L.mx L.t) 0 = L.kmax ∧
    sigmaAt L (startE L.mx n L.t) (stopE L.mx n L.t) (posE L.mx L.t) 0 = L.smax ∧
    aAt L (startE L.mx n L.t) (stopE L.mx n L.t) (posE L.mx L.t) 0 = 0 := by
  have hst : startE L.mx n L.t ≤ 0 ∧ 0 < stopE L.mx n L.t := by
    unfold startE stopE; rw [hmx]; exact ⟨le_refl _, ht⟩
  have h0 : startE L.mx n L.t = 0 := by omega
  have hp : (posE L.mx L.t (0 - startE L.mx n L.t) : F) = 1 := by
    rw [h0]; unfold posE; rw [hmx]; simp
  unfold kappaAt sigmaAt aAt
  rw [if_pos hst, if_pos hst, if_pos hst, hp]
  refine ⟨by ring, by ring, by ring⟩

/-- the hypothesis `sigma_max > 0` is needed: without it the outermost E cell of a lower layer divides by `sigma + kappa a = 0`, whatever the other
parameters are. Only a direct call of the constructor can reach it, `Simulation` uses the default 0.7 -/
theorem cpml_no_sigma_fails (L : LayerPar ℝ) (n : Nat) (ht : 0 < L.t) (hmx : L.mx = false) (hs : L.smax = sigmaMaxval 0 1 1) :
    sigmaAt L (startE L.mx n L.t) (stopE L.mx n L.t) (posE L.mx L.t) 0 +
      kappaAt L (startE L.mx n L.t) (stopE L.mx n L.t) (posE L.mx L.t) 0 * aAt L (startE L.mx n L.t) (stopE L.mx n L.t) (posE L.mx L.t) 0 = 0 := by
  obtain ⟨_, h2, h3⟩ := cpml_wall L n ht hmx
  rw [h2, h3, hs]
  unfold sigmaMaxval
  ring

/-! ### the layers of a patch -/

/-- a layer made by a constructor on a patch with `n` cells, whose auxiliary fields may have changed since -/
def Built {k : Nat} (n : Fin k → Nat) (l : Layer k) : Prop :=
  ∃ L : LayerPar ℚ, (∀ a, L.t < n a) ∧ l = { build l.axis (n l.axis) L with psiE := l.psiE, psiB := l.psiB }

variable {k : Nat}

theorem Built.stopE_le {n : Fin k → Nat} {l : Layer k} (h : Built n l) : l.stopE ≤ n l.axis := by
  obtain ⟨L, ht, e⟩ := h
  have : l.stopE = stopE L.mx (n l.axis) L.t := (congrArg Layer.stopE e).trans rfl
  rw [this]
  have := ht l.axis
  unfold stopE
  split <;> omega

theorem Built.stopB_le {n : Fin k → Nat} {l : Layer k} (h : Built n l) : l.stopB ≤ n l.axis := by
  obtain ⟨L, ht, e⟩ := h
  have : l.stopB = stopB L.mx (n l.axis) L.t := (congrArg Layer.stopB e).trans rfl
  rw [this]
  have := ht l.axis
  unfold stopB
  split <;> omega

theorem Built.kE_out {n : Fin k → Nat} {l : Layer k} (h : Built n l) {v : Fin k → Int} (hv : 0 ≤ v l.axis) (ho : ¬ l.InE v) :
    l.kE (v l.axis).toNat = 1 := by
  obtain ⟨L, ht, e⟩ := h
  have h1 : l.kE = kappaAt L l.startE l.stopE (posE L.mx L.t) := by rw [e]; rfl
  rw [h1]
  unfold kappaAt
  rw [if_neg]
  intro hc
  apply ho
  unfold Layer.InE
  constructor <;> omega

theorem Built.kB_out {n : Fin k → Nat} {l : Layer k} (h : Built n l) {v : Fin k → Int} (hv : 0 ≤ v l.axis) (ho : ¬ l.InB v) :
    l.kB (v l.axis).toNat = 1 := by
  obtain ⟨L, ht, e⟩ := h
  have h1 : l.kB = kappaAt L l.startB l.stopB (posB L.mx L.t) := by rw [e]; rfl
  rw [h1]
  unfold kappaAt
  rw [if_neg]
  intro hc
  apply ho
  unfold Layer.InB
  constructor <;> omega

theorem build_built (a : Fin k) (n : Fin k → Nat) (L : LayerPar ℚ) (h : ∀ a, L.t < n a) : Built n (build a (n a) L) := ⟨L, h, rfl⟩

/-- the sides that get a layer, in order -/
theorem initPml_eq {add : List (Layer k) → Layer k → Option (List (Layer k))} (hadd : ∀ ls l r, add ls l = some r → r = ls ++ [l])
    {np n i : Fin k → Nat} {bc : Fin k → Bool → Bool} {t : Nat} {smax : ℚ} :
    ∀ {sides : List (Fin k × Bool)} {ls r : List (Layer k)}, initPml add np n i bc t smax sides ls = some r →
      r = ls ++ (sides.filter (edge np i bc)).map (fun s => build s.1 (n s.1) ⟨s.2, t, 20, 15 / 100, smax⟩) ∧
      ((sides.filter (edge np i bc)) ≠ [] → ∀ a, t < n a)
  | [], ls, r, h => by
    simp only [initPml, Option.some.injEq] at h
    simp [h]
  | s :: ss, ls, r, h => by
    simp only [initPml] at h
    by_cases he : edge np i bc s = true
    · rw [if_pos he] at h
      unfold buildChecked at h
      by_cases ht : ∀ a, t < n a
      · rw [if_pos ht] at h
        rw [Option.bind_some] at h
        obtain ⟨ls1, h1, h2⟩ := Option.bind_eq_some_iff.mp h
        have := hadd _ _ _ h1
        subst this
        obtain ⟨h3, _⟩ := initPml_eq hadd h2
        rw [List.filter_cons_of_pos he]
        exact ⟨by rw [h3]; simp, fun _ => ht⟩
      · rw [if_neg ht] at h
        cases h
    · rw [if_neg he] at h
      rw [List.filter_cons_of_neg he]
      exact initPml_eq hadd h

theorem initPml_built {add : List (Layer k) → Layer k → Option (List (Layer k))} (hadd : ∀ ls l r, add ls l = some r → r = ls ++ [l])
    {np n i : Fin k → Nat} {bc : Fin k → Bool → Bool} {t : Nat} {smax : ℚ} {sides : List (Fin k × Bool)} {r : List (Layer k)}
    (h : initPml add np n i bc t smax sides [] = some r) : ∀ l ∈ r, Built n l := by
  obtain ⟨h1, h2⟩ := initPml_eq hadd h
  intro l hl
  rw [h1, List.nil_append] at hl
  obtain ⟨s, hs, rfl⟩ := List.mem_map.mp hl
  exact build_built _ _ _ (h2 (List.ne_nil_of_mem hs))

theorem addPml2_eq (ls : List (Layer 2)) (l : Layer 2) (r : List (Layer 2)) (h : addPml2 ls l = some r) : r = ls ++ [l] := by
  unfold addPml2 at h
  split at h
  · simpa using h.symm
  · split at h
    · simpa using h.symm
    · cases h
  · cases h

theorem addPml3_eq (ls : List (Layer 3)) (l : Layer 3) (r : List (Layer 3)) (h : addPml3 ls l = some r) : r = ls ++ [l] := by
  unfold addPml3 at h
  split at h
  · simpa using h.symm
  · cases h

theorem addPml2_axes {ls : List (Layer 2)} {l : Layer 2} {r : List (Layer 2)} (h : addPml2 ls l = some r) : (r.map Layer.axis).Nodup := by
  unfold addPml2 at h
  split at h
  · cases h; simp
  · rename_i l0
    split at h
    · rename_i hx
      cases h
      have : l0.axis ≠ l.axis := by
        intro e
        rw [e] at hx
        simp at hx
      simpa using this
    · cases h
  · cases h

theorem initPml2_axes' {np n i : Fin 2 → Nat} {bc : Fin 2 → Bool → Bool} {t : Nat} {smax : ℚ} :
    ∀ {sides : List (Fin 2 × Bool)} {ls r : List (Layer 2)}, (ls.map Layer.axis).Nodup → initPml addPml2 np n i bc t smax sides ls = some r →
      (r.map Layer.axis).Nodup
  | [], ls, r, hn, h => by
    simp only [initPml, Option.some.injEq] at h
    rw [← h]; exact hn
  | s :: ss, ls, r, hn, h => by
    simp only [initPml] at h
    split at h
    · obtain ⟨ls1, h1, h2⟩ := Option.bind_eq_some_iff.mp h
      obtain ⟨l, _, h4⟩ := Option.bind_eq_some_iff.mp h1
      exact initPml2_axes' (addPml2_axes h4) h2
    · exact initPml2_axes' hn h

/-- **C53** a 2D patch never has two layers on one axis: the assertion of `add_pml_boundary` stops the program otherwise -/
theorem cpml_axes2 {np n i : Fin 2 → Nat} {bc : Fin 2 → Bool → Bool} {t : Nat} {smax : ℚ} {ls : List (Layer 2)}
    (h : initPml2 np n i bc t smax = some ls) : (ls.map Layer.axis).Nodup := initPml2_axes' (by simp) h

theorem filter_axes3 (p : Fin 3 × Bool → Bool) (h : ∀ a, ¬ (p (a, false) = true ∧ p (a, true) = true)) :
    ((([(0, false), (0, true), (1, false), (1, true), (2, false), (2, true)] : List (Fin 3 × Bool)).filter p).map Prod.fst).Nodup := by
  have h0 := h 0
  have h1 := h 1
  have h2 := h 2
  simp only [List.filter_cons, List.filter_nil]
  cases e0 : p (0, false) <;> cases e1 : p (0, true) <;> cases e2 : p (1, false) <;> cases e3 : p (1, true) <;>
    cases e4 : p (2, false) <;> cases e5 : p (2, true) <;> simp_all

/-- **C53** a 3D patch has no two layers on one axis if every axis has at least two patches -/
theorem cpml_axes3_partial {np n i : Fin 3 → Nat} {bc : Fin 3 → Bool → Bool} {t : Nat} {smax : ℚ} {ls : List (Layer 3)}
    (h : initPml3 np n i bc t smax = some ls) (hnp : ∀ a, 2 ≤ np a) : (ls.map Layer.axis).Nodup := by
  obtain ⟨h1, _⟩ := initPml_eq addPml3_eq h
  have : ls.map Layer.axis = (([(0, false), (0, true), (1, false), (1, true), (2, false), (2, true)] : List (Fin 3 × Bool)).filter
      (edge np i bc)).map Prod.fst := by
    rw [h1, List.nil_append, List.map_map]
    rfl
  rw [this]
  apply filter_axes3
  rintro a ⟨e1, e2⟩
  unfold edge at e1 e2
  simp only [Bool.false_eq_true, if_false, if_true, Bool.and_eq_true, decide_eq_true_eq] at e1 e2
  have := hnp a
  omega

/-- which layers a patch gets: one for every side at the edge of the domain with an absorbing boundary -/
theorem cpml_layers3 {np n i : Fin 3 → Nat} {bc : Fin 3 → Bool → Bool} {t : Nat} {smax : ℚ} {ls : List (Layer 3)}
    (h : initPml3 np n i bc t smax = some ls) (l : Layer 3) :
    l ∈ ls ↔ ∃ a mx, bc a mx = true ∧ (if mx = true then i a + 1 = np a else i a = 0) ∧ l = build a (n a) ⟨mx, t, 20, 15 / 100, smax⟩ := by
  obtain ⟨h1, _⟩ := initPml_eq addPml3_eq h
  rw [h1, List.nil_append, List.mem_map]
  constructor
  · rintro ⟨⟨a, mx⟩, hs, rfl⟩
    have he := (List.mem_filter.mp hs).2
    unfold edge at he
    refine ⟨a, mx, ?_, ?_, rfl⟩
    · cases mx <;> simp_all
    · cases mx <;> simp_all
  · rintro ⟨a, mx, hb, hi, rfl⟩
    refine ⟨(a, mx), List.mem_filter.mpr ⟨?_, ?_⟩, rfl⟩
    · match a, mx with
      | 0, false => simp
      | 0, true => simp
      | 1, false => simp
      | 1, true => simp
      | 2, false => simp
      | 2, true => simp
    · unfold edge
      cases mx <;> simp_all

/-! ### `kappa` of a patch -/

theorem kapList_fold (sel : Layer k → Fin k → Nat → ℚ) (a : Fin k) : ∀ (ls : List (Layer k)) (g : Nat → ℚ),
    (∀ l ∈ ls, l.axis ≠ a) → ls.foldl (fun (g : Nat → ℚ) l => if l.axis = a then sel l a else g) g = g
  | [], _, _ => rfl
  | l :: ls, g, h => by
    rw [List.foldl_cons, if_neg (h l (by simp))]
    exact kapList_fold sel a ls g fun l' hl' => h l' (by simp [hl'])

theorem kapList_mem (sel : Layer k → Fin k → Nat → ℚ) {a : Fin k} {l : Layer k} (ha : l.axis = a) : ∀ (ls : List (Layer k)) (g : Nat → ℚ),
    (ls.map Layer.axis).Nodup → l ∈ ls → ls.foldl (fun (g : Nat → ℚ) l => if l.axis = a then sel l a else g) g = sel l a
  | [], _, _, h => by simp at h
  | l' :: ls, g, hn, h => by
    rw [List.map_cons, List.nodup_cons] at hn
    rw [List.foldl_cons]
    rcases List.mem_cons.mp h with rfl | h
    · rw [if_pos ha]
      apply kapList_fold
      intro l' hl' e
      exact hn.1 (by rw [ha, ← e]; exact List.mem_map_of_mem hl')
    · exact kapList_mem sel ha ls _ hn.2 h

/-- some layer's value, or the start value -/
theorem kapList_or (sel : Layer k → Fin k → Nat → ℚ) (a : Fin k) : ∀ (ls : List (Layer k)) (g : Nat → ℚ),
    ls.foldl (fun (g : Nat → ℚ) l => if l.axis = a then sel l a else g) g = g ∨
    ∃ l ∈ ls, l.axis = a ∧ ls.foldl (fun (g : Nat → ℚ) l => if l.axis = a then sel l a else g) g = sel l a
  | [], _ => Or.inl rfl
  | l :: ls, g => by
    rw [List.foldl_cons]
    by_cases h : l.axis = a
    · rw [if_pos h]
      rcases kapList_or sel a ls (sel l a) with e | ⟨l', h1, h2, h3⟩
      · exact Or.inr ⟨l, by simp, h, e⟩
      · exact Or.inr ⟨l', by simp [h1], h2, h3⟩
    · rw [if_neg h]
      rcases kapList_or sel a ls g with e | ⟨l', h1, h2, h3⟩
      · exact Or.inl e
      · exact Or.inr ⟨l', by simp [h1], h2, h3⟩

/-- **C53** with at most one layer per axis, the update uses the `kappa` of the layer of each axis, and 1 on axes without a layer; E and B -/
theorem cpml_kappa {ls : List (Layer k)} (hn : (ls.map Layer.axis).Nodup) (a : Fin k) (i : Nat) :
    (∀ l ∈ ls, l.axis = a → kappaListE ls a i = l.kE i ∧ kappaListB ls a i = l.kB i) ∧
    ((∀ l ∈ ls, l.axis ≠ a) → kappaListE ls a i = 1 ∧ kappaListB ls a i = 1) := by
  constructor
  · intro l hl ha
    cases ls with
    | nil => simp at hl
    | cons l0 ls =>
      constructor
      · unfold kappaListE
        dsimp only
        rw [kapList_mem Layer.kapE ha (l0 :: ls) _ hn hl]
        unfold Layer.kapE
        rw [if_pos ha]
      · unfold kappaListB
        dsimp only
        rw [kapList_mem Layer.kapB ha (l0 :: ls) _ hn hl]
        unfold Layer.kapB
        rw [if_pos ha]
  · intro h
    cases ls with
    | nil => exact ⟨rfl, rfl⟩
    | cons l0 ls =>
      constructor
      · unfold kappaListE
        dsimp only
        rw [kapList_fold Layer.kapE a (l0 :: ls) _ h]
        unfold Layer.kapE
        rw [if_neg (h l0 (by simp))]
      · unfold kappaListB
        dsimp only
        rw [kapList_fold Layer.kapB a (l0 :: ls) _ h]
        unfold Layer.kapB
        rw [if_neg (h l0 (by simp))]

theorem kappaListE_out {n : Fin k → Nat} {ls : List (Layer k)} (hb : ∀ l ∈ ls, Built n l) {v : Fin k → Int} (hv : Own n v)
    (ho : ∀ l ∈ ls, ¬ l.InE v) (a : Fin k) : kappaListE ls a (v a).toNat = 1 := by
  cases ls with
  | nil => rfl
  | cons l0 ls =>
    have one : ∀ l ∈ l0 :: ls, l.kapE a (v a).toNat = 1 := by
      intro l hl
      unfold Layer.kapE
      split
      · rename_i e
        rw [← e]
        exact (hb l hl).kE_out (hv _).1 (ho l hl)
      · rfl
    unfold kappaListE
    dsimp only
    rcases kapList_or Layer.kapE a (l0 :: ls) (l0.kapE a) with e | ⟨l, h1, _, e⟩
    · rw [e]; exact one l0 (by simp)
    · rw [e]; exact one l h1

theorem kappaListB_out {n : Fin k → Nat} {ls : List (Layer k)} (hb : ∀ l ∈ ls, Built n l) {v : Fin k → Int} (hv : Own n v)
    (ho : ∀ l ∈ ls, ¬ l.InB v) (a : Fin k) : kappaListB ls a (v a).toNat = 1 := by
  cases ls with
  | nil => rfl
  | cons l0 ls =>
    have one : ∀ l ∈ l0 :: ls, l.kapB a (v a).toNat = 1 := by
      intro l hl
      unfold Layer.kapB
      split
      · rename_i e
        rw [← e]
        exact (hb l hl).kB_out (hv _).1 (ho l hl)
      · rfl
    unfold kappaListB
    dsimp only
    rcases kapList_or Layer.kapB a (l0 :: ls) (l0.kapB a) with e | ⟨l, h1, _, e⟩
    · rw [e]; exact one l0 (by simp)
    · rw [e]; exact one l h1

/-- the layers of a 3D patch that has a lower and an upper layer on one axis (all of `z`, one patch along `z`): `kappa` of the lower layer is lost,
its cells are updated with `kappa = 1` although their `kappa` is `kappa_max` at the wall. For every thickness and size that can be built -/
theorem cpml_kappa_lost_fails (np n i : Fin 3 → Nat) (t : Nat) (smax : ℚ) (hn : ∀ a, 2 * t < n a) (ht : 0 < t) (h2 : np 2 = 1) (hi : i 2 = 0) :
    ∃ lo hi : Layer 3, initPml3 np n i (fun a _ => decide (a = 2)) t smax = some [lo, hi] ∧
      lo.InE ![0, 0, 0] ∧ lo.kE 0 = 20 ∧ kappaListE [lo, hi] 2 0 = 1 := by
  have hc : ∀ a, t < n a := fun a => by have := hn a; omega
  have hb : ∀ mx, buildChecked (2 : Fin 3) n ⟨mx, t, 20, 15 / 100, smax⟩ = some (build 2 (n 2) ⟨mx, t, 20, 15 / 100, smax⟩) := fun mx => if_pos hc
  have e0 : ∀ mx, edge np i (fun a _ => decide (a = 2)) (0, mx) = false := fun mx => by unfold edge; cases mx <;> simp
  have e1 : ∀ mx, edge np i (fun a _ => decide (a = 2)) (1, mx) = false := fun mx => by unfold edge; cases mx <;> simp
  have e2 : ∀ mx, edge np i (fun a _ => decide (a = 2)) (2, mx) = true := fun mx => by unfold edge; cases mx <;> simp [h2, hi]
  refine ⟨build 2 (n 2) ⟨false, t, 20, 15 / 100, smax⟩, build 2 (n 2) ⟨true, t, 20, 15 / 100, smax⟩, ?_, ?_, ?_, ?_⟩
  · unfold initPml3
    simp only [initPml, e0, e1, e2, hb, Bool.false_eq_true, if_false, if_true, Option.bind_some, addPml3, List.length_nil,
      List.nil_append]
    rfl
  · exact ⟨le_refl _, show (0 : Int) < (t : Int) by exact_mod_cast ht⟩
  · exact (cpml_wall (F := ℚ) ⟨false, t, 20, 15 / 100, smax⟩ (n 2) ht rfl).1
  · show (build 2 (n 2) ⟨true, t, 20, 15 / 100, smax⟩ : Layer 3).kapE 2 0 = 1
    show kappaAt _ (n 2 - t) (n 2) _ 0 = 1
    unfold kappaAt
    have := hn 2
    rw [if_neg (by omega)]

/-! ### one update -/

theorem afterE_built {n : Fin k → Nat} {ng : Nat} {P : Par k} {dt : ℚ} {ex : ℚ → ℚ} {b : V3 k} {l l' : Layer k} (h : l.AfterE P dt ex n ng b l')
    (hb : Built n l) : Built n l' ∧ l'.axis = l.axis := by
  have hax : l'.axis = l.axis := by rw [h.same]
  obtain ⟨L, ht, e⟩ := hb
  refine ⟨⟨L, ht, ?_⟩, hax⟩
  rw [hax]
  have := h.same
  rw [e] at this
  rw [this]

theorem afterB_built {n : Fin k → Nat} {ng : Nat} {P : Par k} {dt : ℚ} {ex : ℚ → ℚ} {b : V3 k} {l l' : Layer k} (h : l.AfterB P dt ex n ng b l')
    (hb : Built n l) : Built n l' ∧ l'.axis = l.axis := by
  have hax : l'.axis = l.axis := by rw [h.same]
  obtain ⟨L, ht, e⟩ := hb
  refine ⟨⟨L, ht, ?_⟩, hax⟩
  rw [hax]
  have := h.same
  rw [e] at this
  rw [this]

theorem forall2_built {n : Fin k → Nat} {R : Layer k → Layer k → Prop} (hR : ∀ l l', R l l' → Built n l → Built n l' ∧ l'.axis = l.axis) :
    ∀ {ls ls' : List (Layer k)}, List.Forall₂ R ls ls' → (∀ l ∈ ls, Built n l) → (∀ l ∈ ls', Built n l) ∧ ls'.map Layer.axis = ls.map Layer.axis
  | _, _, .nil, _ => by simp
  | _, _, .cons (a := l) (b := l') (l₁ := ls) (l₂ := ls') h hs, hb => by
    obtain ⟨h1, h2⟩ := hR _ _ h (hb _ (by simp))
    obtain ⟨i1, i2⟩ := forall2_built hR hs fun l hl => hb l (by simp [hl])
    constructor
    · intro l hl
      rcases List.mem_cons.mp hl with rfl | hl
      · exact h1
      · exact i1 l hl
    · rw [List.map_cons, List.map_cons, h2, i2]

/-- what the layers of a 2D patch can be: as made at the start, or after any E and B updates of the patch with any fields and time steps -/
inductive Reach2 (nx ny ng : Nat) (P : Par 2) (ex : ℚ → ℚ) : List (Layer 2) → Prop
  | init {np i : Fin 2 → Nat} {bc : Fin 2 → Bool → Bool} {t : Nat} {smax : ℚ} {ls : List (Layer 2)}
      (h : initPml2 np ![nx, ny] i bc t smax = some ls) : Reach2 nx ny ng P ex ls
  | stepE {ls : List (Layer 2)} (h : Reach2 nx ny ng P ex ls) (dt : ℚ) (f : Fields 2) : Reach2 nx ny ng P ex (solverE2 nx ny ng P dt ex ls f).2
  | stepB {ls : List (Layer 2)} (h : Reach2 nx ny ng P ex ls) (dt : ℚ) (f : Fields 2) : Reach2 nx ny ng P ex (solverB2 nx ny ng P dt ex ls f).2

theorem reach2_built {nx ny ng : Nat} {P : Par 2} {ex : ℚ → ℚ} {ls : List (Layer 2)} (h : Reach2 nx ny ng P ex ls) : ∀ l ∈ ls, Built ![nx, ny] l := by
  induction h with
  | init h => exact initPml_built addPml2_eq h
  | stepE _ dt f ih =>
    exact (forall2_built (fun _ _ h hb => afterE_built h hb) (solverE2_spec nx ny ng P dt ex _ f fun l hl => (ih l hl).stopE_le).layers ih).1
  | stepB _ dt f ih =>
    exact (forall2_built (fun _ _ h hb => afterB_built h hb) (solverB2_spec nx ny ng P dt ex _ f fun l hl => (ih l hl).stopB_le).layers ih).1

theorem reach2_axes {nx ny ng : Nat} {P : Par 2} {ex : ℚ → ℚ} {ls : List (Layer 2)} (h : Reach2 nx ny ng P ex ls) : (ls.map Layer.axis).Nodup := by
  induction h with
  | init h => exact cpml_axes2 h
  | stepE h dt f ih =>
    have hb := reach2_built h
    rw [(forall2_built (fun _ _ h hb => afterE_built h hb) (solverE2_spec nx ny ng P dt ex _ f fun l hl => (hb l hl).stopE_le).layers hb).2]
    exact ih
  | stepB h dt f ih =>
    have hb := reach2_built h
    rw [(forall2_built (fun _ _ h hb => afterB_built h hb) (solverB2_spec nx ny ng P dt ex _ f fun l hl => (hb l hl).stopB_le).layers hb).2]
    exact ih

/-- **C53** in every state the layers of a 2D patch can be in, an E and a B update are those of the specification: every derivative divided by
`kappa`, and in the cells of a layer the renewed auxiliary field added; all indices stay in the patch -/
theorem cpml_update2 {nx ny ng : Nat} {P : Par 2} {ex : ℚ → ℚ} {ls : List (Layer 2)} (h : Reach2 nx ny ng P ex ls) (dt : ℚ) (f : Fields 2) :
    SolvedE P dt ex ![nx, ny] ng (kappaListE ls) ls f (solverE2 nx ny ng P dt ex ls f) ∧
    SolvedB P dt ex ![nx, ny] ng (kappaListB ls) ls f (solverB2 nx ny ng P dt ex ls f) ∧
    ∀ l ∈ ls, l.stopE ≤ ![nx, ny] l.axis ∧ l.stopB ≤ ![nx, ny] l.axis :=
  ⟨solverE2_spec _ _ _ P dt ex ls f fun l hl => (reach2_built h l hl).stopE_le,
    solverB2_spec _ _ _ P dt ex ls f fun l hl => (reach2_built h l hl).stopB_le,
    fun l hl => ⟨(reach2_built h l hl).stopE_le, (reach2_built h l hl).stopB_le⟩⟩

/-- **C53** outside of the layers the update is the plain one -/
theorem cpml_outside2 {nx ny ng : Nat} {P : Par 2} {ex : ℚ → ℚ} {ls : List (Layer 2)} (h : Reach2 nx ny ng P ex ls) (dt : ℚ) (f : Fields 2)
    (d : Fin 3) (v : Fin 2 → Int) (hv : Own ![nx, ny] v) :
    ((∀ l ∈ ls, ¬ l.InE v) → (solverE2 nx ny ng P dt ex ls f).1.e d (index ![nx, ny] ng v) = f.e d (index ![nx, ny] ng v) +
      yeeE2 P dt (cellsOf ![nx, ny] ng f.b) (cellsOf ![nx, ny] ng f.j) d v) ∧
    ((∀ l ∈ ls, ¬ l.InB v) → (solverB2 nx ny ng P dt ex ls f).1.b d (index ![nx, ny] ng v) = f.b d (index ![nx, ny] ng v) +
      yeeB2 P dt (cellsOf ![nx, ny] ng f.e) d v) := by
  obtain ⟨hE, hB, _⟩ := cpml_update2 h dt f
  constructor
  · intro ho
    rw [hE.cells d v hv, stretchE2_one _ _ _ _ _ _ _ (kappaListE_out (reach2_built h) hv ho)]
    have : (ls.map fun l => l.addE P dt ex ![nx, ny] ng (cellsOf ![nx, ny] ng f.b) d v) = ls.map fun _ => 0 :=
      List.map_congr_left fun l hl => if_neg (ho l hl)
    rw [this]
    simp
  · intro ho
    rw [hB.cells d v hv, stretchB2_one _ _ _ _ _ _ (kappaListB_out (reach2_built h) hv ho)]
    have : (ls.map fun l => l.addB P dt ex ![nx, ny] ng (cellsOf ![nx, ny] ng f.e) d v) = ls.map fun _ => 0 :=
      List.map_congr_left fun l hl => if_neg (ho l hl)
    rw [this]
    simp

/-- what the layers of a 3D patch can be: as made at the start, or after any E and B updates of the patch with any fields and time steps -/
inductive Reach3 (nx ny nz ng : Nat) (P : Par 3) (ex : ℚ → ℚ) : List (Layer 3) → Prop
  | init {np i : Fin 3 → Nat} {bc : Fin 3 → Bool → Bool} {t : Nat} {smax : ℚ} {ls : List (Layer 3)}
      (h : initPml3 np ![nx, ny, nz] i bc t smax = some ls) : Reach3 nx ny nz ng P ex ls
  | stepE {ls : List (Layer 3)} (h : Reach3 nx ny nz ng P ex ls) (dt : ℚ) (f : Fields 3) : Reach3 nx ny nz ng P ex (solverE3 nx ny nz ng P dt ex ls f).2
  | stepB {ls : List (Layer 3)} (h : Reach3 nx ny nz ng P ex ls) (dt : ℚ) (f : Fields 3) : Reach3 nx ny nz ng P ex (solverB3 nx ny nz ng P dt ex ls f).2

theorem reach3_built {nx ny nz ng : Nat} {P : Par 3} {ex : ℚ → ℚ} {ls : List (Layer 3)} (h : Reach3 nx ny nz ng P ex ls) : ∀ l ∈ ls, Built ![nx, ny, nz] l := by
  induction h with
  | init h => exact initPml_built addPml3_eq h
  | stepE _ dt f ih =>
    exact (forall2_built (fun _ _ h hb => afterE_built h hb) (solverE3_spec nx ny nz ng P dt ex _ f fun l hl => (ih l hl).stopE_le).layers ih).1
  | stepB _ dt f ih =>
    exact (forall2_built (fun _ _ h hb => afterB_built h hb) (solverB3_spec nx ny nz ng P dt ex _ f fun l hl => (ih l hl).stopB_le).layers ih).1

/-- **C53** in every state the layers of a 3D patch can be in, an E and a B update are those of the specification: every derivative divided by
`kappa`, and in the cells of a layer the renewed auxiliary field added; all indices stay in the patch -/
theorem cpml_update3 {nx ny nz ng : Nat} {P : Par 3} {ex : ℚ → ℚ} {ls : List (Layer 3)} (h : Reach3 nx ny nz ng P ex ls) (dt : ℚ) (f : Fields 3) :
    SolvedE P dt ex ![nx, ny, nz] ng (kappaListE ls) ls f (solverE3 nx ny nz ng P dt ex ls f) ∧
    SolvedB P dt ex ![nx, ny, nz] ng (kappaListB ls) ls f (solverB3 nx ny nz ng P dt ex ls f) ∧
    ∀ l ∈ ls, l.stopE ≤ ![nx, ny, nz] l.axis ∧ l.stopB ≤ ![nx, ny, nz] l.axis :=
  ⟨solverE3_spec _ _ _ _ P dt ex ls f fun l hl => (reach3_built h l hl).stopE_le,
    solverB3_spec _ _ _ _ P dt ex ls f fun l hl => (reach3_built h l hl).stopB_le,
    fun l hl => ⟨(reach3_built h l hl).stopE_le, (reach3_built h l hl).stopB_le⟩⟩

/-- **C53** outside of the layers the update is the plain one -/
theorem cpml_outside3 {nx ny nz ng : Nat} {P : Par 3} {ex : ℚ → ℚ} {ls : List (Layer 3)} (h : Reach3 nx ny nz ng P ex ls) (dt : ℚ) (f : Fields 3)
    (d : Fin 3) (v : Fin 3 → Int) (hv : Own ![nx, ny, nz] v) :
    ((∀ l ∈ ls, ¬ l.InE v) → (solverE3 nx ny nz ng P dt ex ls f).1.e d (index ![nx, ny, nz] ng v) = f.e d (index ![nx, ny, nz] ng v) +
      yeeE3 P dt (cellsOf ![nx, ny, nz] ng f.b) (cellsOf ![nx, ny, nz] ng f.j) d v) ∧
    ((∀ l ∈ ls, ¬ l.InB v) → (solverB3 nx ny nz ng P dt ex ls f).1.b d (index ![nx, ny, nz] ng v) = f.b d (index ![nx, ny, nz] ng v) +
      yeeB3 P dt (cellsOf ![nx, ny, nz] ng f.e) d v) := by
  obtain ⟨hE, hB, _⟩ := cpml_update3 h dt f
  constructor
  · intro ho
    rw [hE.cells d v hv, stretchE3_one _ _ _ _ _ _ _ (kappaListE_out (reach3_built h) hv ho)]
    have : (ls.map fun l => l.addE P dt ex ![nx, ny, nz] ng (cellsOf ![nx, ny, nz] ng f.b) d v) = ls.map fun _ => 0 :=
      List.map_congr_left fun l hl => if_neg (ho l hl)
    rw [this]
    simp
  · intro ho
    rw [hB.cells d v hv, stretchB3_one _ _ _ _ _ _ (kappaListB_out (reach3_built h) hv ho)]
    have : (ls.map fun l => l.addB P dt ex ![nx, ny, nz] ng (cellsOf ![nx, ny, nz] ng f.e) d v) = ls.map fun _ => 0 :=
      List.map_congr_left fun l hl => if_neg (ho l hl)
    rw [this]
    simp

theorem forall2_right {α β : Type} {R : α → β → Prop} : ∀ {l : List α} {l' : List β}, List.Forall₂ R l l' → ∀ {y}, y ∈ l' → ∃ x ∈ l, R x y
  | _, _, .nil, _, h => by simp at h
  | _, _, .cons h hs, _, hy => by
    rcases List.mem_cons.mp hy with rfl | hy
    · exact ⟨_, by simp, h⟩
    · obtain ⟨x, hx, hr⟩ := forall2_right hs hy
      exact ⟨x, by simp [hx], hr⟩

/-- a layer without absorption: `sigma` 0, `kappa` 1, auxiliary fields 0 (and `a` not 0, or the code divides 0 by 0) -/
structure Inactive (l : Layer k) : Prop where
  kE : ∀ i, l.kE i = 1
  sE : ∀ i, l.sE i = 0
  aE : ∀ i, l.aE i ≠ 0
  kB : ∀ i, l.kB i = 1
  sB : ∀ i, l.sB i = 0
  aB : ∀ i, l.aB i ≠ 0
  psiE : ∀ d x, l.psiE d x = 0
  psiB : ∀ d x, l.psiB d x = 0

theorem Inactive.psiE' {l : Layer k} (h : Inactive l) (P : Par k) (dt : ℚ) (ex : ℚ → ℚ) (n : Fin k → Nat) (ng : Nat) (b : V3 k) (d : Fin 3) (v : Fin k → Int) :
    l.psiE' P dt ex n ng b d v = 0 := by
  unfold Layer.psiE' ccoeff
  dsimp only
  rw [h.psiE, h.sE]
  simp

theorem Inactive.psiB' {l : Layer k} (h : Inactive l) (P : Par k) (dt : ℚ) (ex : ℚ → ℚ) (n : Fin k → Nat) (ng : Nat) (b : V3 k) (d : Fin 3) (v : Fin k → Int) :
    l.psiB' P dt ex n ng b d v = 0 := by
  unfold Layer.psiB' ccoeff
  dsimp only
  rw [h.psiB, h.sB]
  simp

theorem Inactive.kappaE {ls : List (Layer k)} (h : ∀ l ∈ ls, Inactive l) (a : Fin k) (i : Nat) : kappaListE ls a i = 1 := by
  cases ls with
  | nil => rfl
  | cons l0 ls =>
    have one : ∀ l ∈ l0 :: ls, l.kapE a i = 1 := by
      intro l hl
      unfold Layer.kapE
      split
      · exact (h l hl).kE i
      · rfl
    unfold kappaListE
    dsimp only
    rcases kapList_or Layer.kapE a (l0 :: ls) (l0.kapE a) with e | ⟨l, h1, _, e⟩
    · rw [e]; exact one l0 (by simp)
    · rw [e]; exact one l h1

theorem Inactive.kappaB {ls : List (Layer k)} (h : ∀ l ∈ ls, Inactive l) (a : Fin k) (i : Nat) : kappaListB ls a i = 1 := by
  cases ls with
  | nil => rfl
  | cons l0 ls =>
    have one : ∀ l ∈ l0 :: ls, l.kapB a i = 1 := by
      intro l hl
      unfold Layer.kapB
      split
      · exact (h l hl).kB i
      · rfl
    unfold kappaListB
    dsimp only
    rcases kapList_or Layer.kapB a (l0 :: ls) (l0.kapB a) with e | ⟨l, h1, _, e⟩
    · rw [e]; exact one l0 (by simp)
    · rw [e]; exact one l h1

/-- **C53** with `sigma = 0` and `kappa = 1` the update is the plain one in every cell (2D), and the auxiliary fields stay 0 -/
theorem cpml_inactive2 (nx ny ng : Nat) (P : Par 2) (ex : ℚ → ℚ) (ls : List (Layer 2)) (hl : ∀ l ∈ ls, Inactive l)
    (hs : ∀ l ∈ ls, l.stopE ≤ ![nx, ny] l.axis ∧ l.stopB ≤ ![nx, ny] l.axis) (dt : ℚ) (f : Fields 2) :
    (∀ d v, Own ![nx, ny] v → (solverE2 nx ny ng P dt ex ls f).1.e d (index ![nx, ny] ng v) = f.e d (index ![nx, ny] ng v) +
      yeeE2 P dt (cellsOf ![nx, ny] ng f.b) (cellsOf ![nx, ny] ng f.j) d v) ∧
    (∀ d v, Own ![nx, ny] v → (solverB2 nx ny ng P dt ex ls f).1.b d (index ![nx, ny] ng v) = f.b d (index ![nx, ny] ng v) +
      yeeB2 P dt (cellsOf ![nx, ny] ng f.e) d v) ∧
    (∀ l' ∈ (solverE2 nx ny ng P dt ex ls f).2, ∀ d, d ≠ comp l'.axis → ∀ v, Own ![nx, ny] v → l'.psiE d (index ![nx, ny] ng v) = 0) ∧
    (∀ l' ∈ (solverB2 nx ny ng P dt ex ls f).2, ∀ d, d ≠ comp l'.axis → ∀ v, Own ![nx, ny] v → l'.psiB d (index ![nx, ny] ng v) = 0) := by
  have hE := solverE2_spec nx ny ng P dt ex ls f fun l h => (hs l h).1
  have hB := solverB2_spec nx ny ng P dt ex ls f fun l h => (hs l h).2
  have addE0 : ∀ l ∈ ls, ∀ d v, l.addE P dt ex ![nx, ny] ng (cellsOf ![nx, ny] ng f.b) d v = 0 := by
    intro l h d v
    unfold Layer.addE
    split
    · rw [(hl l h).psiE']; ring
    · rfl
  have addB0 : ∀ l ∈ ls, ∀ d v, l.addB P dt ex ![nx, ny] ng (cellsOf ![nx, ny] ng f.e) d v = 0 := by
    intro l h d v
    unfold Layer.addB
    split
    · rw [(hl l h).psiB']; ring
    · rfl
  refine ⟨?_, ?_, ?_, ?_⟩
  · intro d v hv
    rw [hE.cells d v hv, stretchE2_one _ _ _ _ _ _ _ (fun a => Inactive.kappaE hl a _)]
    have : (ls.map fun l => l.addE P dt ex ![nx, ny] ng (cellsOf ![nx, ny] ng f.b) d v) = ls.map fun _ => 0 :=
      List.map_congr_left fun l h => addE0 l h d v
    rw [this]
    simp
  · intro d v hv
    rw [hB.cells d v hv, stretchB2_one _ _ _ _ _ _ (fun a => Inactive.kappaB hl a _)]
    have : (ls.map fun l => l.addB P dt ex ![nx, ny] ng (cellsOf ![nx, ny] ng f.e) d v) = ls.map fun _ => 0 :=
      List.map_congr_left fun l h => addB0 l h d v
    rw [this]
    simp
  · intro l' hl' d hd v hv
    obtain ⟨l, hlm, ha⟩ := forall2_right hE.layers hl'
    have hax : l'.axis = l.axis := by rw [ha.same]
    rw [hax] at hd
    by_cases hi : l.InE v
    · rw [ha.inside d hd v hv hi, (hl l hlm).psiE']
    · rw [ha.outside d hd v hv hi, (hl l hlm).psiE]
  · intro l' hl' d hd v hv
    obtain ⟨l, hlm, ha⟩ := forall2_right hB.layers hl'
    have hax : l'.axis = l.axis := by rw [ha.same]
    rw [hax] at hd
    by_cases hi : l.InB v
    · rw [ha.inside d hd v hv hi, (hl l hlm).psiB']
    · rw [ha.outside d hd v hv hi, (hl l hlm).psiB]

/-- **C53** with `sigma = 0` and `kappa = 1` the update is the plain one in every cell (3D), and the auxiliary fields stay 0 -/
theorem cpml_inactive3 (nx ny nz ng : Nat) (P : Par 3) (ex : ℚ → ℚ) (ls : List (Layer 3)) (hl : ∀ l ∈ ls, Inactive l)
    (hs : ∀ l ∈ ls, l.stopE ≤ ![nx, ny, nz] l.axis ∧ l.stopB ≤ ![nx, ny, nz] l.axis) (dt : ℚ) (f : Fields 3) :
    (∀ d v, Own ![nx, ny, nz] v → (solverE3 nx ny nz ng P dt ex ls f).1.e d (index ![nx, ny, nz] ng v) = f.e d (index ![nx, ny, nz] ng v) +
      yeeE3 P dt (cellsOf ![nx, ny, nz] ng f.b) (cellsOf ![nx, ny, nz] ng f.j) d v) ∧
    (∀ d v, Own ![nx, ny, nz] v → (solverB3 nx ny nz ng P dt ex ls f).1.b d (index ![nx, ny, nz] ng v) = f.b d (index ![nx, ny, nz] ng v) +
      yeeB3 P dt (cellsOf ![nx, ny, nz] ng f.e) d v) ∧
    (∀ l' ∈ (solverE3 nx ny nz ng P dt ex ls f).2, ∀ d, d ≠ comp l'.axis → ∀ v, Own ![nx, ny, nz] v → l'.psiE d (index ![nx, ny, nz] ng v) = 0) ∧
    (∀ l' ∈ (solverB3 nx ny nz ng P dt ex ls f).2, ∀ d, d ≠ comp l'.axis → ∀ v, Own ![nx, ny, nz] v → l'.psiB d (index ![nx, ny, nz] ng v) = 0) := by
  have hE := solverE3_spec nx ny nz ng P dt ex ls f fun l h => (hs l h).1
  have hB := solverB3_spec nx ny nz ng P dt ex ls f fun l h => (hs l h).2
  have addE0 : ∀ l ∈ ls, ∀ d v, l.addE P dt ex ![nx, ny, nz] ng (cellsOf ![nx, ny, nz] ng f.b) d v = 0 := by
    intro l h d v
    unfold Layer.addE
    split
    · rw [(hl l h).psiE']; ring
    · rfl
  have addB0 : ∀ l ∈ ls, ∀ d v, l.addB P dt ex ![nx, ny, nz] ng (cellsOf ![nx, ny, nz] ng f.e) d v = 0 := by
    intro l h d v
    unfold Layer.addB
    split
    · rw [(hl l h).psiB']; ring
    · rfl
  refine ⟨?_, ?_, ?_, ?_⟩
  · intro d v hv
    rw [hE.cells d v hv, stretchE3_one _ _ _ _ _ _ _ (fun a => Inactive.kappaE hl a _)]
    have : (ls.map fun l => l.addE P dt ex ![nx, ny, nz] ng (cellsOf ![nx, ny, nz] ng f.b) d v) = ls.map fun _ => 0 :=
      List.map_congr_left fun l h => addE0 l h d v
    rw [this]
    simp
  · intro d v hv
    rw [hB.cells d v hv, stretchB3_one _ _ _ _ _ _ (fun a => Inactive.kappaB hl a _)]
    have : (ls.map fun l => l.addB P dt ex ![nx, ny, nz] ng (cellsOf ![nx, ny, nz] ng f.e) d v) = ls.map fun _ => 0 :=
      List.map_congr_left fun l h => addB0 l h d v
    rw [this]
    simp
  · intro l' hl' d hd v hv
    obtain ⟨l, hlm, ha⟩ := forall2_right hE.layers hl'
    have hax : l'.axis = l.axis := by rw [ha.same]
    rw [hax] at hd
    by_cases hi : l.InE v
    · rw [ha.inside d hd v hv hi, (hl l hlm).psiE']
    · rw [ha.outside d hd v hv hi, (hl l hlm).psiE]
  · intro l' hl' d hd v hv
    obtain ⟨l, hlm, ha⟩ := forall2_right hB.layers hl'
    have hax : l'.axis = l.axis := by rw [ha.same]
    rw [hax] at hd
    by_cases hi : l.InB v
    · rw [ha.inside d hd v hv hi, (hl l hlm).psiB']
    · rw [ha.outside d hd v hv hi, (hl l hlm).psiB]

/-- a corner patch of a 2D domain with two layers, as the code makes them; the update changes E in a cell of the layer by the stretched curl and `psi` -/
example : ∃ ls, initPml2 ![2, 2] ![8, 8] ![0, 1] (fun _ _ => true) 3 1 = some ls ∧ ls.length = 2 ∧ (∀ l ∈ ls, Built ![8, 8] l) ∧
    (ls.map Layer.axis).Nodup := by
  have h : ∃ ls, initPml2 ![2, 2] ![8, 8] ![0, 1] (fun _ _ => true) 3 1 = some ls ∧ ls.length = 2 := ⟨_, rfl, rfl⟩
  obtain ⟨ls, h1, h2⟩ := h
  exact ⟨ls, h1, h2, initPml_built addPml2_eq h1, cpml_axes2 h1⟩

/-- a patch too small for the layer is refused, as are two layers on the `y` axis of a 2D patch -/
example : (initPml2 ![2, 2] ![6, 8] ![0, 1] (fun _ _ => true) 6 1).isSome = false ∧
    (initPml2 ![4, 1] ![8, 8] ![1, 0] (fun _ _ => true) 3 1).isSome = false := ⟨rfl, rfl⟩

/-- inactive layers exist -/
example : ∃ l : Layer 2, Inactive l ∧ l.stopE ≤ ![8, 8] l.axis ∧ l.stopB ≤ ![8, 8] l.axis :=
  ⟨⟨0, 0, 3, 0, 3, fun _ => 1, fun _ => 0, fun _ => 1, fun _ => 1, fun _ => 0, fun _ => 1, fun _ _ => 0, fun _ _ => 0⟩,
    ⟨fun _ => rfl, fun _ => rfl, fun _ => one_ne_zero, fun _ => rfl, fun _ => rfl, fun _ => one_ne_zero, fun _ _ => rfl, fun _ _ => rfl⟩,
    by decide, by decide⟩

end Verif.Cpml
