import Verif.Model.SyncFields
import Verif.Proofs.Interleave
import Mathlib.Algebra.BigOperators.Group.Finset.Basic
import Mathlib.Algebra.BigOperators.Group.Finset.Piecewise
import Mathlib.Algebra.BigOperators.Group.List.Basic
import Mathlib.Algebra.Order.Field.Rat
import Mathlib.Tactic.Linarith
import Mathlib.Tactic.Ring
/-!
# Guard-cell exchange: closed forms
-/
namespace Verif.SyncFields
open Interleave
variable {k : Nat} {D : Type}

/-- cells of the array, own and guard, by their signed coordinates -/
def InRange (n : Fin k → Nat) (ng : Nat) (v : Fin k → Int) : Prop :=
  ∀ a, -(ng : Int) ≤ v a ∧ v a < n a + ng

/-- own cells of a patch -/
def Own (n : Fin k → Nat) (v : Fin k → Int) : Prop := ∀ a, 0 ≤ v a ∧ v a < n a

/-- on which side of its patch a coordinate lies -/
def side (n : Nat) (x : Int) : Int := if x < 0 then -1 else if x < n then 0 else 1

theorem Own.inRange {n : Fin k → Nat} {v : Fin k → Int} (h : Own n v) (ng : Nat) : InRange n ng v :=
  fun a => by have := h a; constructor <;> omega

theorem Own.side {n : Fin k → Nat} {v : Fin k → Int} (h : Own n v) (a : Fin k) : side (n a) (v a) = 0 := by
  have := h a
  unfold SyncFields.side; rw [if_neg (by omega), if_pos (by omega)]

theorem own_of_side {n : Fin k → Nat} {v : Fin k → Int} (h : ∀ a, SyncFields.side (n a) (v a) = 0) :
    Own n v := by
  intro a
  have := h a
  unfold SyncFields.side at this
  split at this
  · omega
  · split at this <;> omega

theorem wrapIx_inj {n ng : Nat} {x y : Int} (hx : -(ng : Int) ≤ x ∧ x < n + ng)
    (hy : -(ng : Int) ≤ y ∧ y < n + ng) (h : wrapIx (n + 2 * ng) x = wrapIx (n + 2 * ng) y) : x = y := by
  unfold wrapIx at h
  push_cast at h
  split at h <;> split at h <;> omega

theorem index_inj {n : Fin k → Nat} {ng : Nat} {v w : Fin k → Int} (hv : InRange n ng v)
    (hw : InRange n ng w) (h : index n ng v = index n ng w) : v = w := by
  funext a
  exact wrapIx_inj (hv a) (hw a) (congrFun h a)

/-- every cell is inside the array -/
theorem index_bounds {n : Fin k → Nat} {ng : Nat} {v : Fin k → Int} (hv : InRange n ng v) (a : Fin k) :
    0 ≤ index n ng v a ∧ index n ng v a < n a + 2 * ng := by
  have := hv a
  unfold index wrapIx
  split <;> push_cast <;> omega

theorem flat2_inj {NX NY : Nat} {u v : Fin 2 → Int} (hu : ∀ a, 0 ≤ u a ∧ u a < ![NX, NY] a)
    (hv : ∀ a, 0 ≤ v a ∧ v a < ![NX, NY] a) (h : flat2 NY u = flat2 NY v) : u = v := by
  have u1 := hu 1; have v1 := hv 1
  simp at u1 v1
  unfold flat2 at h
  have h0 : u 0 = v 0 := by
    have a : (u 1 + u 0 * NY) / NY = u 0 := by
      rw [Int.add_mul_ediv_right _ _ (by omega), Int.ediv_eq_zero_of_lt u1.1 u1.2]; omega
    have b : (v 1 + v 0 * NY) / NY = v 0 := by
      rw [Int.add_mul_ediv_right _ _ (by omega), Int.ediv_eq_zero_of_lt v1.1 v1.2]; omega
    rw [← a, ← b, h]
  have h1 : u 1 = v 1 := by rw [h0] at h; omega
  funext a
  match a with
  | 0 => exact h0
  | 1 => exact h1

theorem flat3_inj {NX NY NZ : Nat} {u v : Fin 3 → Int} (hu : ∀ a, 0 ≤ u a ∧ u a < ![NX, NY, NZ] a)
    (hv : ∀ a, 0 ≤ v a ∧ v a < ![NX, NY, NZ] a) (h : flat3 NY NZ u = flat3 NY NZ v) : u = v := by
  have u1 := hu 1; have v1 := hv 1; have u2 := hu 2; have v2 := hv 2
  simp at u1 v1 u2 v2
  unfold flat3 at h
  have e : ∀ w : Fin 3 → Int, w 2 + w 1 * NZ + w 0 * NY * NZ = w 2 + (w 1 + w 0 * NY) * NZ := by
    intro w; ring
  rw [e, e] at h
  have hq : u 1 + u 0 * NY = v 1 + v 0 * NY := by
    have a : (u 2 + (u 1 + u 0 * NY) * NZ) / NZ = u 1 + u 0 * NY := by
      rw [Int.add_mul_ediv_right _ _ (by omega), Int.ediv_eq_zero_of_lt u2.1 u2.2]; omega
    have b : (v 2 + (v 1 + v 0 * NY) * NZ) / NZ = v 1 + v 0 * NY := by
      rw [Int.add_mul_ediv_right _ _ (by omega), Int.ediv_eq_zero_of_lt v2.1 v2.2]; omega
    rw [← a, ← b, h]
  have h2 : u 2 = v 2 := by rw [hq] at h; omega
  have h0 : u 0 = v 0 := by
    have a : (u 1 + u 0 * NY) / NY = u 0 := by
      rw [Int.add_mul_ediv_right _ _ (by omega), Int.ediv_eq_zero_of_lt u1.1 u1.2]; omega
    have b : (v 1 + v 0 * NY) / NY = v 0 := by
      rw [Int.add_mul_ediv_right _ _ (by omega), Int.ediv_eq_zero_of_lt v1.1 v1.2]; omega
    rw [← a, ← b, hq]
  have h1 : u 1 = v 1 := by rw [h0] at hq; omega
  funext a
  match a with
  | 0 => exact h0
  | 1 => exact h1
  | 2 => exact h2

/-! ### the per-axis rules -/

/-- the per-axis block of the guard copy towards offset `o` -/
def guardRng (n ng : Nat) (o : Int) : Rng :=
  if o = -1 then ⟨-(ng : Int), (n : Int) - ng, ng⟩ else if o = 1 then ⟨n, 0, ng⟩ else ⟨0, 0, n⟩

/-- the per-axis block of the current folding from offset `o` -/
def currentRng (n ng : Nat) (o : Int) : Rng :=
  if o = -1 then ⟨0, n, ng⟩ else if o = 1 then ⟨(n : Int) - ng, -(ng : Int), ng⟩ else ⟨0, 0, n⟩

/-- what the tables, orders and loop nests of the C code must satisfy -/
structure Shape (s : Sync k D) (off : D → Fin k → Int) (opp : D → D) : Prop where
  complete : ∀ b, b ∈ s.order
  nodup : s.order.Nodup
  off_inj : ∀ b b', off b = off b' → b = b'
  off_unit : ∀ b a, off b a = -1 ∨ off b a = 0 ∨ off b a = 1
  off_opp : ∀ b a, off (opp b) a = -off b a
  off_ne : ∀ b, ∃ a, off b a ≠ 0
  mem_cells : ∀ w u, u ∈ s.cells w ↔ ∀ a, u a < w a
  nodup_cells : ∀ w, (s.cells w).Nodup
  thick : ∀ a, s.ng ≤ s.n a

/-- the neighbour table is symmetric and stays among the patches -/
structure NbrOK (s : Sync k D) (opp : D → D) : Prop where
  lt : ∀ p b q, p < s.npatches → s.nbr p b = some q → q < s.npatches
  sym : ∀ p b q, p < s.npatches → s.nbr p b = some q → s.nbr q (opp b) = some p

theorem mem_pairs {s : Sync k D} {off : D → Fin k → Int} {opp : D → D} (hs : Shape s off opp) {p : Nat}
    {x : Loc k × Loc k} : x ∈ s.pairs p ↔ ∃ b q, s.nbr p b = some q ∧ ∃ u : Fin k → Nat,
      (∀ a, u a < (s.tab b a).w) ∧ x.1 = (p, index s.n s.ng fun a => (s.tab b a).dst + u a) ∧
        x.2 = (q, index s.n s.ng fun a => (s.tab b a).src + u a) := by
  unfold Sync.pairs
  rw [List.mem_flatMap]
  constructor
  · rintro ⟨b, _, h⟩
    cases hq : s.nbr p b with
    | none => rw [hq] at h; simp at h
    | some q =>
      rw [hq] at h
      obtain ⟨u, hu, rfl⟩ := List.mem_map.mp h
      exact ⟨b, q, hq, u, (hs.mem_cells _ _).mp hu, rfl, rfl⟩
  · rintro ⟨b, q, hq, u, hu, h1, h2⟩
    refine ⟨b, hs.complete b, ?_⟩
    rw [hq]
    refine List.mem_map.mpr ⟨u, (hs.mem_cells _ _).mpr hu, ?_⟩
    rw [← h1, ← h2]

theorem guard_axis {n ng : Nat} (h : ng ≤ n) {o : Int} (ho : o = -1 ∨ o = 0 ∨ o = 1) {x y : Int} :
    (∃ u : Nat, u < (guardRng n ng o).w ∧ x = (guardRng n ng o).dst + u ∧
      y = (guardRng n ng o).src + u) ↔
      (-(ng : Int) ≤ x ∧ x < n + ng) ∧ side n x = o ∧ y = x - o * n := by
  unfold guardRng side
  rcases ho with rfl | rfl | rfl
  · rw [if_pos rfl]
    constructor
    · rintro ⟨u, hu, rfl, rfl⟩
      dsimp only at *
      refine ⟨by omega, ?_, by omega⟩
      rw [if_pos (by omega)]
    · rintro ⟨h1, h2, rfl⟩
      have hx : x < 0 := by split at h2 <;> [assumption; (split at h2 <;> omega)]
      exact ⟨(x + ng).toNat, by dsimp only; omega, by dsimp only; omega, by dsimp only; omega⟩
  · rw [if_neg (by decide), if_neg (by decide)]
    constructor
    · rintro ⟨u, hu, rfl, rfl⟩
      dsimp only at *
      refine ⟨by omega, ?_, by omega⟩
      rw [if_neg (by omega), if_pos (by omega)]
    · rintro ⟨h1, h2, rfl⟩
      have hx : 0 ≤ x ∧ x < n := by split at h2 <;> [omega; (split at h2 <;> omega)]
      exact ⟨x.toNat, by dsimp only; omega, by dsimp only; omega, by dsimp only; omega⟩
  · rw [if_neg (by decide), if_pos rfl]
    constructor
    · rintro ⟨u, hu, rfl, rfl⟩
      dsimp only at *
      refine ⟨by omega, ?_, by omega⟩
      rw [if_neg (by omega), if_neg (by omega)]
    · rintro ⟨h1, h2, rfl⟩
      have hx : n ≤ x := by split at h2 <;> [omega; (split at h2 <;> omega)]
      exact ⟨(x - n).toNat, by dsimp only; omega, by dsimp only; omega, by dsimp only; omega⟩

theorem current_eq_guard (n ng : Nat) {o : Int} (ho : o = -1 ∨ o = 0 ∨ o = 1) :
    (currentRng n ng o).dst = (guardRng n ng (-o)).src ∧
    (currentRng n ng o).src = (guardRng n ng (-o)).dst ∧
    (currentRng n ng o).w = (guardRng n ng (-o)).w := by
  rcases ho with rfl | rfl | rfl <;> simp [currentRng, guardRng]

/-- the source block of a guard copy -/
theorem src_own {n ng : Nat} (h : ng ≤ n) {x : Int} (hx : -(ng : Int) ≤ x ∧ x < n + ng) :
    0 ≤ x - side n x * n ∧ x - side n x * n < n := by
  unfold side
  split
  · omega
  · split <;> omega

/-- the pairs of the guard copy: every guard cell with a neighbour, read from the neighbour's own cell -/
theorem mem_guard_pairs {s : Sync k D} {off : D → Fin k → Int} {opp : D → D} (hs : Shape s off opp)
    (ht : ∀ b a, s.tab b a = guardRng (s.n a) s.ng (off b a)) {p : Nat} {x : Loc k × Loc k} :
    x ∈ s.pairs p ↔ ∃ b q v, s.nbr p b = some q ∧ InRange s.n s.ng v ∧
      (∀ a, side (s.n a) (v a) = off b a) ∧ x.1 = (p, index s.n s.ng v) ∧
      x.2 = (q, index s.n s.ng fun a => v a - off b a * s.n a) := by
  rw [mem_pairs hs]
  constructor
  · rintro ⟨b, q, hq, u, hu, h1, h2⟩
    have key : ∀ a, _ := fun a => (guard_axis (hs.thick a) (hs.off_unit b a)
      (x := (s.tab b a).dst + u a) (y := (s.tab b a).src + u a)).mp
      ⟨u a, by rw [← ht]; exact hu a, by rw [← ht], by rw [← ht]⟩
    refine ⟨b, q, _, hq, fun a => (key a).1, fun a => (key a).2.1, h1, ?_⟩
    rw [h2]
    congr 2
    funext a
    exact (key a).2.2
  · rintro ⟨b, q, v, hq, hv, hsd, h1, h2⟩
    have key : ∀ a, _ := fun a => (guard_axis (hs.thick a) (hs.off_unit b a)
      (x := v a) (y := v a - off b a * s.n a)).mpr ⟨hv a, hsd a, rfl⟩
    choose u hu hx hy using key
    refine ⟨b, q, hq, u, fun a => by rw [ht]; exact hu a, ?_, ?_⟩
    · rw [h1]; congr 2; funext a; rw [hx a, ht]
    · rw [h2]; congr 2; funext a; rw [hy a, ht]

/-- the pairs of the current folding: every guard cell of a neighbour that overlaps this patch, added to
the own cell it overlaps -/
theorem mem_current_pairs {s : Sync k D} {off : D → Fin k → Int} {opp : D → D} (hs : Shape s off opp)
    (ht : ∀ b a, s.tab b a = currentRng (s.n a) s.ng (off b a)) {p : Nat} {x : Loc k × Loc k} :
    x ∈ s.pairs p ↔ ∃ b q v, s.nbr p b = some q ∧ InRange s.n s.ng v ∧
      (∀ a, side (s.n a) (v a) = -off b a) ∧ x.2 = (q, index s.n s.ng v) ∧
      x.1 = (p, index s.n s.ng fun a => v a + off b a * s.n a) := by
  rw [mem_pairs hs]
  have hu' : ∀ b a, -off b a = -1 ∨ -off b a = 0 ∨ -off b a = 1 := by
    intro b a; rcases hs.off_unit b a with h | h | h <;> rw [h] <;> simp
  constructor
  · rintro ⟨b, q, hq, u, hu, h1, h2⟩
    have key : ∀ a, _ := fun a => (guard_axis (hs.thick a) (hu' b a)
      (x := (s.tab b a).src + u a) (y := (s.tab b a).dst + u a)).mp
      ⟨u a, by have := hu a; rw [ht, (current_eq_guard _ _ (hs.off_unit b a)).2.2] at this; exact this,
        by rw [ht, (current_eq_guard _ _ (hs.off_unit b a)).2.1],
        by rw [ht, (current_eq_guard _ _ (hs.off_unit b a)).1]⟩
    refine ⟨b, q, _, hq, fun a => (key a).1, fun a => (key a).2.1, h2, ?_⟩
    rw [h1]
    congr 2
    funext a
    rw [(key a).2.2]; ring
  · rintro ⟨b, q, v, hq, hv, hsd, h1, h2⟩
    have key : ∀ a, _ := fun a => (guard_axis (hs.thick a) (hu' b a)
      (x := v a) (y := v a - (-off b a) * s.n a)).mpr ⟨hv a, hsd a, rfl⟩
    choose u hu hx hy using key
    refine ⟨b, q, hq, u, fun a => ?_, ?_, ?_⟩
    · rw [ht, (current_eq_guard _ _ (hs.off_unit b a)).2.2]; exact hu a
    · rw [h2]; congr 2; funext a
      have := hy a
      rw [ht, (current_eq_guard _ _ (hs.off_unit b a)).1, ← this]; ring
    · rw [h1]; congr 2; funext a
      rw [ht, (current_eq_guard _ _ (hs.off_unit b a)).2.1, ← hx a]

/-! ### running copies -/

theorem run_copies : ∀ (l : List (Loc k × Loc k)) (m : Loc k → ℚ),
    (∀ x ∈ l, ∀ y ∈ l, x.2 ≠ y.1) → (∀ x ∈ l, ∀ y ∈ l, x.1 = y.1 → x.2 = y.2) →
    (∀ x ∈ l, run (l.map copyStep) m x.1 = m x.2) ∧
    ∀ c, (∀ x ∈ l, x.1 ≠ c) → run (l.map copyStep) m c = m c
  | [], m, _, _ => ⟨by simp, fun _ _ => rfl⟩
  | x :: l, m, h1, h2 => by
    rw [List.map_cons, run_cons]
    obtain ⟨i1, i2⟩ := run_copies l (copyStep x m)
      (fun a ha b hb => h1 a (by simp [ha]) b (by simp [hb]))
      (fun a ha b hb => h2 a (by simp [ha]) b (by simp [hb]))
    have hsrc : ∀ y ∈ x :: l, copyStep x m y.2 = m y.2 := by
      intro y hy
      unfold copyStep
      rw [if_neg (h1 y hy x (by simp))]
    constructor
    · intro y hy
      by_cases hmem : ∃ z ∈ l, z.1 = y.1
      · obtain ⟨z, hz, hzy⟩ := hmem
        rw [← hzy, i1 z hz, hsrc z (by simp [hz]), h2 z (by simp [hz]) y hy hzy]
      · have hne : ∀ z ∈ l, z.1 ≠ y.1 := fun z hz e => hmem ⟨z, hz, e⟩
        rw [i2 y.1 hne]
        rcases List.mem_cons.mp hy with rfl | hy'
        · unfold copyStep; rw [if_pos rfl]
        · exact absurd rfl (hne y hy')
    · intro c hc
      rw [i2 c (fun z hz => hc z (by simp [hz]))]
      unfold copyStep
      rw [if_neg (fun e => hc x (by simp) e.symm)]

theorem copy_local {R W : Loc k → Prop} {x : Loc k × Loc k} (hw : W x.1) (hr : R x.2) :
    Local R W (copyStep x) := by
  constructor
  · intro m l hl
    unfold copyStep
    rw [if_neg (fun e : l = x.1 => hl (e ▸ hw))]
  · intro m m' h l hl
    unfold copyStep
    by_cases e : l = x.1
    · rw [if_pos e, if_pos e]; exact h _ (Or.inl hr)
    · rw [if_neg e, if_neg e]; exact h _ (Or.inr hl)

/-- Guard copy, for every thread schedule. -/
theorem guard_run {s : Sync k D} {off : D → Fin k → Int} {opp : D → D} (hs : Shape s off opp)
    (ht : ∀ b a, s.tab b a = guardRng (s.n a) s.ng (off b a)) {m m' : Loc k → ℚ}
    (hr : s.GuardRun m m') :
    (∀ p b q v, p < s.npatches → s.nbr p b = some q → InRange s.n s.ng v →
      (∀ a, side (s.n a) (v a) = off b a) →
      m' (p, index s.n s.ng v) = m (q, index s.n s.ng fun a => v a - off b a * s.n a)) ∧
    (∀ l : Loc k, (∀ b q v, l.1 < s.npatches → s.nbr l.1 b = some q → InRange s.n s.ng v →
      (∀ a, side (s.n a) (v a) = off b a) → l.2 ≠ index s.n s.ng v) → m' l = m l) := by
  obtain ⟨sched, hsch, rfl⟩ := hr
  -- sources are own cells, destinations are guard cells
  have hsrcdst : ∀ p p' x y, x ∈ s.pairs p → y ∈ s.pairs p' → x.2 ≠ y.1 := by
    intro p p' x y hx hy e
    obtain ⟨b, q, v, hq, hv, hsd, h1, h2⟩ := (mem_guard_pairs hs ht).mp hx
    obtain ⟨b', q', v', hq', hv', hsd', h1', h2'⟩ := (mem_guard_pairs hs ht).mp hy
    rw [h2, h1'] at e
    have hown : Own s.n fun a => v a - off b a * s.n a := by
      intro a
      have := src_own (hs.thick a) (hv a)
      rwa [hsd a] at this
    have he := index_inj (hown.inRange s.ng) hv' (Prod.mk.inj e).2
    obtain ⟨a, ha⟩ := hs.off_ne b'
    have := hsd' a
    rw [← he, hown.side a] at this
    exact ha this.symm
  have hfun : ∀ p, ∀ x ∈ s.pairs p, ∀ y ∈ s.pairs p, x.1 = y.1 → x.2 = y.2 := by
    intro p x hx y hy e
    obtain ⟨b, q, v, hq, hv, hsd, h1, h2⟩ := (mem_guard_pairs hs ht).mp hx
    obtain ⟨b', q', v', hq', hv', hsd', h1', h2'⟩ := (mem_guard_pairs hs ht).mp hy
    rw [h1, h1'] at e
    have he := index_inj hv hv' (Prod.mk.inj e).2
    subst he
    have hb : b = b' := hs.off_inj _ _ (funext fun a => (hsd a).symm.trans (hsd' a))
    subst hb
    rw [hq] at hq'; cases hq'
    rw [h2, h2']
  let W : Nat → Loc k → Prop := fun t l => ∃ x ∈ s.pairs t, x.1 = l
  let R : Nat → Loc k → Prop := fun t l => ∃ x ∈ s.pairs t, x.2 = l
  have hdst : ∀ t l, W t l → l.1 = t := by
    rintro t l ⟨x, hx, rfl⟩
    obtain ⟨b, q, v, _, _, _, h1, _⟩ := (mem_guard_pairs hs ht).mp hx
    rw [h1]
  have hlocal : ∀ x ∈ sched, Local (R x.1) (W x.1) x.2 := by
    intro x hx
    obtain ⟨_, hmem⟩ := hsch.mem hx
    obtain ⟨y, hy, hy2⟩ := List.mem_map.mp hmem
    rw [← hy2]
    exact copy_local ⟨y, hy, rfl⟩ ⟨y, hy, rfl⟩
  have hRW : ∀ t u, t ≠ u → ∀ l, R t l → ¬ W u l := by
    rintro t u _ l ⟨x, hx, rfl⟩ ⟨y, hy, e⟩
    exact hsrcdst t u x y hx hy e.symm
  have hWW : ∀ t u, t ≠ u → ∀ l, W t l → ¬ W u l :=
    fun t u htu l h1 h2 => htu ((hdst t l h1).symm.trans (hdst u l h2))
  have hrun : ∀ l : Loc k, l.1 < s.npatches →
      run (sched.map Prod.snd) m l = run (s.guardProg l.1) m l := by
    intro l hl
    have := run_sched R W hRW hWW l.1 sched hlocal m m (fun _ _ => rfl) l
      (fun u hu h => hu (hdst u l h).symm)
    rwa [hsch l.1, if_pos hl] at this
  constructor
  · intro p b q v hp hq hv hsd
    rw [hrun _ hp]
    have := (run_copies (s.pairs p) m (fun x hx y hy => hsrcdst p p x y hx hy) (hfun p)).1
      ((p, index s.n s.ng v), (q, index s.n s.ng fun a => v a - off b a * s.n a))
      ((mem_guard_pairs hs ht).mpr ⟨b, q, v, hq, hv, hsd, rfl, rfl⟩)
    exact this
  · intro l hl
    by_cases hp : l.1 < s.npatches
    · rw [hrun l hp]
      refine (run_copies (s.pairs l.1) m (fun x hx y hy => hsrcdst l.1 l.1 x y hx hy) (hfun l.1)).2 l ?_
      intro x hx e
      obtain ⟨b, q, v, hq, hv, hsd, h1, _⟩ := (mem_guard_pairs hs ht).mp hx
      refine hl b q v hp hq hv hsd ?_
      rw [← e, h1]
    · refine run_frame (fun t l => W t l ∧ t < s.npatches) sched ?_ m l ?_
      · intro x hx m l hw
        refine (hlocal x hx).1 m l (fun h => hw ⟨h, (hsch.mem hx).1⟩)
      · rintro u ⟨h, hu⟩
        rw [hdst u l h] at hp; exact hp hu

/-! ### running the current folding -/

/-- `dst += src; src = 0` -/
def foldStep (x : Loc k × Loc k) (m : Loc k → ℚ) : Loc k → ℚ := zeroStep x (addStep x m)

theorem run_currentProg (s : Sync k D) (p : Nat) (m : Loc k → ℚ) :
    run (s.currentProg p) m = (s.pairs p).foldl (fun m x => foldStep x m) m := by
  unfold Sync.currentProg
  generalize s.pairs p = l
  induction l generalizing m with
  | nil => rfl
  | cons x l ih =>
    rw [List.flatMap_cons, List.foldl_cons, ← ih]
    rfl

theorem run_folds : ∀ (l : List (Loc k × Loc k)) (m : Loc k → ℚ),
    (∀ x ∈ l, ∀ y ∈ l, x.2 ≠ y.1) → (l.map Prod.snd).Nodup →
    (∀ x ∈ l, l.foldl (fun m x => foldStep x m) m x.2 = 0) ∧
    ∀ c, (∀ x ∈ l, x.2 ≠ c) → l.foldl (fun m x => foldStep x m) m c =
      m c + ((l.filter fun x => x.1 = c).map fun x => m x.2).sum
  | [], m, _, _ => ⟨by simp, fun c _ => by simp⟩
  | x :: l, m, h1, h2 => by
    rw [List.map_cons, List.nodup_cons] at h2
    rw [List.foldl_cons]
    obtain ⟨i1, i2⟩ := run_folds l (foldStep x m)
      (fun a ha b hb => h1 a (by simp [ha]) b (by simp [hb])) h2.2
    have hsrc : ∀ y ∈ l, foldStep x m y.2 = m y.2 := by
      intro y hy
      unfold foldStep zeroStep addStep
      rw [if_neg (fun e => h2.1 (by rw [← e]; exact List.mem_map.mpr ⟨y, hy, rfl⟩)),
        if_neg (h1 y (by simp [hy]) x (by simp))]
    have hx0 : foldStep x m x.2 = 0 := by unfold foldStep zeroStep; rw [if_pos rfl]
    have hxl : ∀ y ∈ l, y.2 ≠ x.2 := fun y hy e => h2.1 (by rw [← e]; exact List.mem_map.mpr ⟨y, hy, rfl⟩)
    constructor
    · intro y hy
      rcases List.mem_cons.mp hy with rfl | hy'
      · rw [i2 y.2 hxl, hx0]
        have : (l.filter fun z => z.1 = y.2) = [] := by
          rw [List.filter_eq_nil_iff]
          intro z hz
          simpa using fun e => h1 y (by simp) z (by simp [hz]) e.symm
        rw [this]; simp
      · exact i1 y hy'
    · intro c hc
      rw [i2 c (fun z hz => hc z (by simp [hz]))]
      have hmap : ((l.filter fun z => z.1 = c).map fun z => foldStep x m z.2) =
          (l.filter fun z => z.1 = c).map fun z => m z.2 :=
        List.map_congr_left fun z hz => hsrc z (List.mem_filter.mp hz).1
      rw [hmap]
      have hcx : foldStep x m c = if x.1 = c then m c + m x.2 else m c := by
        unfold foldStep zeroStep addStep
        rw [if_neg (fun e => hc x (by simp) e.symm)]
        by_cases e : c = x.1
        · rw [if_pos e, if_pos e.symm, e]
        · rw [if_neg e, if_neg (fun h => e h.symm)]
      rw [hcx]
      by_cases e : x.1 = c
      · rw [if_pos e, List.filter_cons_of_pos (by simpa using e), List.map_cons, List.sum_cons]; ring
      · rw [if_neg e, List.filter_cons_of_neg (by simpa using e)]

theorem add_local {W : Loc k → Prop} {x : Loc k × Loc k} (hw : W x.1) (hr : W x.2) :
    Local (fun _ => False) W (addStep x) := by
  constructor
  · intro m l hl
    unfold addStep
    rw [if_neg (fun e : l = x.1 => hl (e ▸ hw))]
  · intro m m' h l hl
    unfold addStep
    by_cases e : l = x.1
    · rw [if_pos e, if_pos e, h _ (Or.inr hr), h _ (Or.inr hw)]
    · rw [if_neg e, if_neg e]; exact h _ (Or.inr hl)

theorem zero_local {W : Loc k → Prop} {x : Loc k × Loc k} (hr : W x.2) :
    Local (fun _ => False) W (zeroStep x) := by
  constructor
  · intro m l hl
    unfold zeroStep
    rw [if_neg (fun e : l = x.2 => hl (e ▸ hr))]
  · intro m m' h l hl
    unfold zeroStep
    by_cases e : l = x.2
    · rw [if_pos e, if_pos e]
    · rw [if_neg e, if_neg e]; exact h _ (Or.inr hl)

section Current
variable {s : Sync k D} {off : D → Fin k → Int} {opp : D → D}

theorem current_src_ne_dst (hs : Shape s off opp)
    (ht : ∀ b a, s.tab b a = currentRng (s.n a) s.ng (off b a)) {p p' : Nat} {x y : Loc k × Loc k}
    (hx : x ∈ s.pairs p) (hy : y ∈ s.pairs p') : x.2 ≠ y.1 := by
  intro e
  obtain ⟨b, q, v, hq, hv, hsd, h2, h1⟩ := (mem_current_pairs hs ht).mp hx
  obtain ⟨b', q', v', hq', hv', hsd', h2', h1'⟩ := (mem_current_pairs hs ht).mp hy
  rw [h2, h1'] at e
  have hown : Own s.n fun a => v' a + off b' a * s.n a := by
    intro a
    have := src_own (hs.thick a) (hv' a)
    rw [hsd' a] at this
    dsimp only
    have e : v' a - -off b' a * (s.n a : Int) = v' a + off b' a * s.n a := by ring
    rwa [e] at this
  have he := index_inj hv (hown.inRange s.ng) (Prod.mk.inj e).2
  obtain ⟨a, ha⟩ := hs.off_ne b
  have := hsd a
  rw [he, hown.side a] at this
  omega

theorem current_src_owner (hs : Shape s off opp) (hn : NbrOK s opp)
    (ht : ∀ b a, s.tab b a = currentRng (s.n a) s.ng (off b a)) {p p' : Nat} (hp : p < s.npatches)
    (hp' : p' < s.npatches) {x y : Loc k × Loc k}
    (hx : x ∈ s.pairs p) (hy : y ∈ s.pairs p') (e : x.2 = y.2) : p = p' ∧ x.1 = y.1 := by
  obtain ⟨b, q, v, hq, hv, hsd, h2, h1⟩ := (mem_current_pairs hs ht).mp hx
  obtain ⟨b', q', v', hq', hv', hsd', h2', h1'⟩ := (mem_current_pairs hs ht).mp hy
  rw [h2, h2'] at e
  obtain ⟨rfl, e2⟩ := Prod.mk.inj e
  have he := index_inj hv hv' e2
  subst he
  have hb : b = b' := hs.off_inj _ _ (funext fun a => by have := hsd a; have := hsd' a; omega)
  subst hb
  have a := hn.sym p b q hp hq
  have c := hn.sym p' b q hp' hq'
  rw [a] at c
  cases c
  exact ⟨rfl, by rw [h1, h1']⟩

theorem current_nodup (hs : Shape s off opp)
    (ht : ∀ b a, s.tab b a = currentRng (s.n a) s.ng (off b a)) (p : Nat) :
    ((s.pairs p).map Prod.snd).Nodup := by
  unfold Sync.pairs
  rw [List.map_flatMap, List.nodup_flatMap]
  have hmem : ∀ b q (u : Fin k → Nat), s.nbr p b = some q → (∀ a, u a < (s.tab b a).w) →
      ∀ a, (-(s.ng : Int) ≤ (s.tab b a).src + u a ∧ (s.tab b a).src + u a < s.n a + s.ng) ∧
        side (s.n a) ((s.tab b a).src + u a) = -off b a := by
    intro b q u _ hu a
    have hu' : -off b a = -1 ∨ -off b a = 0 ∨ -off b a = 1 := by
      rcases hs.off_unit b a with h | h | h <;> rw [h] <;> simp
    have := (guard_axis (hs.thick a) hu' (x := (s.tab b a).src + u a)
      (y := (s.tab b a).dst + u a)).mp
      ⟨u a, by have := hu a; rw [ht, (current_eq_guard _ _ (hs.off_unit b a)).2.2] at this; exact this,
        by rw [ht, (current_eq_guard _ _ (hs.off_unit b a)).2.1],
        by rw [ht, (current_eq_guard _ _ (hs.off_unit b a)).1]⟩
    exact ⟨this.1, this.2.1⟩
  constructor
  · intro b _
    cases hq : s.nbr p b with
    | none => simp
    | some q =>
      dsimp only
      rw [List.map_map]
      refine List.Nodup.map_on ?_ (hs.nodup_cells _)
      intro u hu u' hu' e
      have h1 := hmem b q u hq ((hs.mem_cells _ _).mp hu)
      have h2 := hmem b q u' hq ((hs.mem_cells _ _).mp hu')
      have := index_inj (fun a => (h1 a).1) (fun a => (h2 a).1) (Prod.mk.inj e).2
      funext a
      have := congrFun this a
      omega
  · refine hs.nodup.imp ?_
    intro b b' hbb
    show List.Disjoint _ _
    intro l hl hl'
    beta_reduce at hl hl'
    cases hq : s.nbr p b with
    | none => rw [hq] at hl; simp at hl
    | some q =>
      cases hq' : s.nbr p b' with
      | none => rw [hq'] at hl'; simp at hl'
      | some q' =>
        rw [hq] at hl; rw [hq'] at hl'
        dsimp only at hl hl'
        rw [List.map_map] at hl hl'
        obtain ⟨u, hu, e1⟩ := List.mem_map.mp hl
        obtain ⟨u', hu', e2⟩ := List.mem_map.mp hl'
        have h1 := hmem b q u hq ((hs.mem_cells _ _).mp hu)
        have h2 := hmem b' q' u' hq' ((hs.mem_cells _ _).mp hu')
        have e : index s.n s.ng (fun a => (s.tab b a).src + u a) =
            index s.n s.ng (fun a => (s.tab b' a).src + u' a) := by
          have := e1.trans e2.symm
          exact (Prod.mk.inj this).2
        have := index_inj (fun a => (h1 a).1) (fun a => (h2 a).1) e
        apply hbb
        apply hs.off_inj
        funext a
        have e3 := congrFun this a
        have a1 := (h1 a).2
        have a2 := (h2 a).2
        rw [e3] at a1
        omega

/-- Current folding: every thread schedule gives the result of running the owning thread alone. -/
theorem current_sched (hs : Shape s off opp) (hn : NbrOK s opp)
    (ht : ∀ b a, s.tab b a = currentRng (s.n a) s.ng (off b a)) {m : Loc k → ℚ}
    {sched : List (Nat × Step (Loc k) ℚ)} (hsch : IsSchedule s.npatches s.currentProg sched) :
    (∀ t l, t < s.npatches → (∃ x ∈ s.pairs t, x.1 = l ∨ x.2 = l) →
      run (sched.map Prod.snd) m l = run (s.currentProg t) m l) ∧
    (∀ l, (∀ t, t < s.npatches → ¬ ∃ x ∈ s.pairs t, x.1 = l ∨ x.2 = l) →
      run (sched.map Prod.snd) m l = m l) := by
  let W : Nat → Loc k → Prop := fun t l => t < s.npatches ∧ ∃ x ∈ s.pairs t, x.1 = l ∨ x.2 = l
  have hlocal : ∀ x ∈ sched, Local (fun _ => False) (W x.1) x.2 := by
    intro x hx
    obtain ⟨hlt, hmem⟩ := hsch.mem hx
    obtain ⟨y, hy, hy2⟩ := List.mem_flatMap.mp hmem
    simp only [List.mem_cons, List.not_mem_nil, or_false] at hy2
    rcases hy2 with h | h
    · rw [h]; exact add_local ⟨hlt, y, hy, Or.inl rfl⟩ ⟨hlt, y, hy, Or.inr rfl⟩
    · rw [h]; exact zero_local ⟨hlt, y, hy, Or.inr rfl⟩
  have hWW : ∀ t u, t ≠ u → ∀ l, W t l → ¬ W u l := by
    rintro t u htu l ⟨h1, x, hx, ex⟩ ⟨h2, y, hy, ey⟩
    rcases ex with ex | ex <;> rcases ey with ey | ey
    · obtain ⟨b, q, v, hq, hv, hsd, e2, e1⟩ := (mem_current_pairs hs ht).mp hx
      obtain ⟨b', q', v', hq', hv', hsd', e2', e1'⟩ := (mem_current_pairs hs ht).mp hy
      have := ex.trans ey.symm
      rw [e1, e1'] at this
      exact htu (Prod.mk.inj this).1
    · exact current_src_ne_dst hs ht hy hx (ey.trans ex.symm)
    · exact current_src_ne_dst hs ht hx hy (ex.trans ey.symm)
    · exact htu (current_src_owner hs hn ht h1 h2 hx hy (ex.trans ey.symm)).1
  constructor
  · intro t l hlt hl
    have hWl : W t l := ⟨hlt, hl⟩
    have := run_sched (fun _ _ => False) W (fun _ _ _ _ h => h.elim) hWW t sched hlocal m m
      (fun _ _ => rfl) l (fun u hu h => hWW t u (Ne.symm hu) l hWl h)
    rwa [hsch t, if_pos hlt] at this
  · intro l hl
    exact run_frame W sched (fun x hx => (hlocal x hx).1) m l (fun u hu => hl u hu.1 hu.2)

/-- what an own cell receives from the direction `b` -/
def received (s : Sync k D) (off : D → Fin k → Int) (m : Loc k → ℚ) (p : Nat) (v : Fin k → Int) (b : D) :
    ℚ :=
  match s.nbr p b with
  | none => 0
  | some q =>
    if ∀ a, -(s.ng : Int) ≤ v a - off b a * s.n a ∧ v a - off b a * s.n a < s.n a + s.ng then
      m (q, index s.n s.ng fun a => v a - off b a * s.n a) else 0

theorem side_shift {n : Nat} {x o : Int} (h : 0 ≤ x ∧ x < n) (ho : o = -1 ∨ o = 0 ∨ o = 1) :
    side n (x - o * n) = -o := by
  unfold side
  rcases ho with rfl | rfl | rfl
  · rw [if_neg (by omega), if_neg (by omega)]; rfl
  · rw [if_neg (by omega), if_pos (by omega)]; rfl
  · rw [if_pos (by omega)]

theorem filter_sum_one {α : Type} [DecidableEq α] (l : List α) (hl : l.Nodup) (P : α → Prop)
    [DecidablePred P] (f : α → ℚ) (a : α) (ha : ∀ x ∈ l, P x ↔ x = a) :
    ((l.filter fun x => P x).map f).sum = if a ∈ l then f a else 0 := by
  have : (l.filter fun x => P x) = if a ∈ l then [a] else [] := by
    induction l with
    | nil => simp
    | cons x l ih =>
      rw [List.nodup_cons] at hl
      have ih' := ih hl.2 (fun y hy => ha y (by simp [hy]))
      have hx := ha x (by simp)
      by_cases e : x = a
      · rw [List.filter_cons_of_pos (by simpa using hx.mpr e), ih']
        subst e
        rw [if_neg hl.1, if_pos (by simp)]
      · rw [List.filter_cons_of_neg (by simpa using fun h => e (hx.mp h)), ih']
        by_cases h : a ∈ l
        · rw [if_pos h, if_pos (by simp [h])]
        · rw [if_neg h, if_neg (by simp [h, Ne.symm e])]
  rw [this]
  by_cases h : a ∈ l
  · rw [if_pos h, if_pos h]; simp
  · rw [if_neg h, if_neg h]; simp

theorem filter_flatMap_sum {α β : Type} (l : List α) (g : α → List β) (P : β → Bool) (f : β → ℚ) :
    (((l.flatMap g).filter P).map f).sum = (l.map fun a => (((g a).filter P).map f).sum).sum := by
  induction l with
  | nil => rfl
  | cons a l ih =>
    rw [List.flatMap_cons, List.filter_append, List.map_append, List.sum_append, ih, List.map_cons,
      List.sum_cons]

/-- the value thread `p` leaves in its own cell `v` -/
theorem received_sum (hs : Shape s off opp)
    (ht : ∀ b a, s.tab b a = currentRng (s.n a) s.ng (off b a)) (m : Loc k → ℚ) (p : Nat)
    {v : Fin k → Int} (hv : Own s.n v) :
    (((s.pairs p).filter fun x => x.1 = (p, index s.n s.ng v)).map fun x => m x.2).sum =
      (s.order.map (received s off m p v)).sum := by
  unfold Sync.pairs
  rw [filter_flatMap_sum]
  congr 1
  apply List.map_congr_left
  intro b _
  unfold received
  cases hq : s.nbr p b with
  | none => simp
  | some q =>
    dsimp only
    have ho := hs.off_unit b
    have hu' : ∀ a, -off b a = -1 ∨ -off b a = 0 ∨ -off b a = 1 := by
      intro a; rcases hs.off_unit b a with h | h | h <;> rw [h] <;> simp
    -- the only offset in the block that reaches v
    have hax : ∀ (u : Fin k → Nat), (∀ a, u a < (s.tab b a).w) →
        ∀ a, (-(s.ng : Int) ≤ (s.tab b a).src + u a ∧ (s.tab b a).src + u a < s.n a + s.ng) ∧
          side (s.n a) ((s.tab b a).src + u a) = -off b a ∧
          (s.tab b a).dst + u a = (s.tab b a).src + u a + off b a * s.n a := by
      intro u hu a
      have := (guard_axis (hs.thick a) (hu' a) (x := (s.tab b a).src + u a)
        (y := (s.tab b a).dst + u a)).mp
        ⟨u a, by have := hu a; rw [ht, (current_eq_guard _ _ (ho a)).2.2] at this; exact this,
          by rw [ht, (current_eq_guard _ _ (ho a)).2.1],
          by rw [ht, (current_eq_guard _ _ (ho a)).1]⟩
      refine ⟨this.1, this.2.1, ?_⟩
      rw [this.2.2]; ring
    have hdst : ∀ (u : Fin k → Nat), (∀ a, u a < (s.tab b a).w) →
        Own s.n fun a => (s.tab b a).dst + u a := by
      intro u hu a
      obtain ⟨h1, h2, h3⟩ := hax u hu a
      have := src_own (hs.thick a) h1
      rw [h2] at this
      dsimp only
      rw [h3]
      have e : (s.tab b a).src + (u a : Int) - -off b a * (s.n a : Int) =
          (s.tab b a).src + u a + off b a * s.n a := by ring
      rwa [e] at this
    rw [List.filter_map, List.map_map]
    have hcongr : ∀ u ∈ s.cells fun a => (s.tab b a).w,
        (((fun x : Loc k × Loc k => decide (x.1 = (p, index s.n s.ng v))) ∘ fun u =>
          ((p, index s.n s.ng fun a => (s.tab b a).dst + ↑(u a)),
            (q, index s.n s.ng fun a => (s.tab b a).src + ↑(u a)))) u) =
        decide (∀ a, (s.tab b a).dst + u a = v a) := by
      intro u hu
      have hu2 := (hs.mem_cells _ _).mp hu
      simp only [Function.comp]
      congr 1
      apply propext
      constructor
      · intro e a
        exact congrFun (index_inj ((hdst u hu2).inRange s.ng) (hv.inRange s.ng) (Prod.mk.inj e).2) a
      · intro e
        rw [funext e]
    rw [List.filter_congr hcongr]
    by_cases hin : ∀ a, -(s.ng : Int) ≤ v a - off b a * s.n a ∧ v a - off b a * s.n a < s.n a + s.ng
    · rw [if_pos hin]
      have key : ∀ a, _ := fun a => (guard_axis (hs.thick a) (hu' a)
        (x := v a - off b a * s.n a) (y := v a)).mpr
        ⟨hin a, side_shift (hv a) (ho a), by ring⟩
      choose u hu hx hy using key
      have hu2 : ∀ a, u a < (s.tab b a).w := fun a => by
        rw [ht, (current_eq_guard _ _ (ho a)).2.2]; exact hu a
      have hy2 : ∀ a, (s.tab b a).dst + u a = v a := fun a => by
        rw [ht, (current_eq_guard _ _ (ho a)).1]; exact (hy a).symm
      have hx2 : ∀ a, (s.tab b a).src + u a = v a - off b a * s.n a := fun a => by
        rw [ht, (current_eq_guard _ _ (ho a)).2.1]; exact (hx a).symm
      rw [filter_sum_one _ (hs.nodup_cells _) (fun u => ∀ a, (s.tab b a).dst + (u a : Int) = v a) _ u]
      · rw [if_pos ((hs.mem_cells _ _).mpr hu2)]
        simp only [Function.comp]
        rw [funext hx2]
      · intro u' _
        constructor
        · intro h
          funext a
          have := h a
          have := hy2 a
          omega
        · rintro rfl; exact hy2
    · rw [if_neg hin]
      have : ((s.cells fun a => (s.tab b a).w).filter fun u =>
          decide (∀ a, (s.tab b a).dst + (u a : Int) = v a)) = [] := by
        rw [List.filter_eq_nil_iff]
        intro u hu
        simp only [decide_eq_true_eq]
        intro h
        apply hin
        intro a
        obtain ⟨h1, h2, h3⟩ := hax u ((hs.mem_cells _ _).mp hu) a
        have e : v a - off b a * s.n a = (s.tab b a).src + u a := by rw [← h a, h3]; ring
        rw [e]; exact h1
      rw [this]; rfl

/-- Current folding, closed form, for every thread schedule. -/
theorem current_run (hs : Shape s off opp) (hn : NbrOK s opp)
    (ht : ∀ b a, s.tab b a = currentRng (s.n a) s.ng (off b a)) {m m' : Loc k → ℚ}
    (hr : s.CurrentRun m m') :
    (∀ p v, p < s.npatches → Own s.n v →
      m' (p, index s.n s.ng v) = m (p, index s.n s.ng v) + (s.order.map (received s off m p v)).sum) ∧
    (∀ p b q v, p < s.npatches → s.nbr p b = some q → InRange s.n s.ng v →
      (∀ a, side (s.n a) (v a) = off b a) → m' (p, index s.n s.ng v) = 0) ∧
    (∀ p v, p < s.npatches → InRange s.n s.ng v → ¬ Own s.n v →
      (∀ b q, (∀ a, side (s.n a) (v a) = off b a) → s.nbr p b ≠ some q) →
      m' (p, index s.n s.ng v) = m (p, index s.n s.ng v)) ∧
    (∀ l : Loc k, s.npatches ≤ l.1 → m' l = m l) := by
  obtain ⟨sched, hsch, rfl⟩ := hr
  obtain ⟨c1, c2⟩ := current_sched hs hn ht (m := m) hsch
  have closed := fun t => run_folds (s.pairs t) m
    (fun x hx y hy => current_src_ne_dst hs ht hx hy) (current_nodup hs ht t)
  have hoppopp : ∀ p b q, p < s.npatches → s.nbr p b = some q → s.nbr q (opp b) = some p := hn.sym
  refine ⟨?_, ?_, ?_, ?_⟩
  · intro p v hp hv
    have hnotsrc : ∀ t, ∀ x ∈ s.pairs t, x.2 ≠ (p, index s.n s.ng v) := by
      intro t x hx e
      obtain ⟨b, q, w, hq, hw, hsd, e2, _⟩ := (mem_current_pairs hs ht).mp hx
      rw [e2] at e
      have := index_inj hw (hv.inRange s.ng) (Prod.mk.inj e).2
      subst this
      obtain ⟨a, ha⟩ := hs.off_ne b
      have := hsd a
      rw [hv.side a] at this
      omega
    rw [← received_sum hs ht m p hv, ← (closed p).2 _ (hnotsrc p), ← run_currentProg]
    by_cases h : ∃ x ∈ s.pairs p, x.1 = (p, index s.n s.ng v) ∨ x.2 = (p, index s.n s.ng v)
    · exact c1 p _ hp h
    · rw [c2]
      · rw [run_currentProg, (closed p).2 _ (hnotsrc p)]
        have : ((s.pairs p).filter fun x => x.1 = (p, index s.n s.ng v)) = [] := by
          rw [List.filter_eq_nil_iff]
          intro x hx
          simpa using fun e => h ⟨x, hx, Or.inl e⟩
        rw [this]; simp
      · rintro t _ ⟨x, hx, e⟩
        rcases e with e | e
        · obtain ⟨b, q, w, hq, hw, hsd, e2, e1⟩ := (mem_current_pairs hs ht).mp hx
          have ee := e
          rw [e1] at ee
          have := (Prod.mk.inj ee).1
          subst this
          exact h ⟨x, hx, Or.inl e⟩
        · exact hnotsrc t x hx e
  · intro p b q v hp hq hv hsd
    -- the neighbour q drains this cell
    have hsym := hn.sym p b q hp hq
    have hx : ((q, index s.n s.ng fun a => v a + off (opp b) a * s.n a), (p, index s.n s.ng v)) ∈
        s.pairs q := by
      refine (mem_current_pairs hs ht).mpr ⟨opp b, p, v, hsym, hv, ?_, rfl, rfl⟩
      intro a
      rw [hsd a, hs.off_opp]; omega
    rw [c1 q _ (hn.lt p b q hp hq) ⟨_, hx, Or.inr rfl⟩, run_currentProg]
    exact (closed q).1 _ hx
  · intro p v hp hv hno hnb
    apply c2
    rintro t ht' ⟨x, hx, e⟩
    obtain ⟨b, q, w, hq, hw, hsd, e2, e1⟩ := (mem_current_pairs hs ht).mp hx
    rcases e with e | e
    · rw [e1] at e
      have hown : Own s.n fun a => w a + off b a * s.n a := by
        intro a
        have := src_own (hs.thick a) (hw a)
        rw [hsd a] at this
        dsimp only
        have e : w a - -off b a * (s.n a : Int) = w a + off b a * s.n a := by ring
        rwa [e] at this
      have := index_inj (hown.inRange s.ng) hv (Prod.mk.inj e).2
      rw [← this] at hno
      exact hno hown
    · rw [e2] at e
      obtain ⟨rfl, e3⟩ := Prod.mk.inj e
      have := index_inj hw hv e3
      subst this
      refine hnb (opp b) t ?_ (hn.sym t b q ht' hq)
      intro a
      rw [hsd a, hs.off_opp]
  · intro l hl
    apply c2
    rintro t ht' ⟨x, hx, e⟩
    obtain ⟨b, q, w, hq, hw, hsd, e2, e1⟩ := (mem_current_pairs hs ht).mp hx
    rcases e with e | e
    · rw [e1] at e; rw [← e] at hl; simp at hl; omega
    · rw [e2] at e; rw [← e] at hl
      have := hn.lt t b q ht' hq
      simp at hl; omega

theorem sum_foldStep (S : Finset (Loc k)) (x : Loc k × Loc k) (m : Loc k → ℚ) (h1 : x.1 ∈ S)
    (h2 : x.2 ∈ S) (hne : x.2 ≠ x.1) : ∑ l ∈ S, foldStep x m l = ∑ l ∈ S, m l := by
  have e : ∀ l, foldStep x m l = m l + (if l = x.1 then m x.2 else 0) - (if l = x.2 then m x.2 else 0) := by
    intro l
    unfold foldStep zeroStep addStep
    by_cases a : l = x.2
    · rw [if_pos a, if_pos a, if_neg (fun h => hne (a.symm.trans h)), a]; ring
    · rw [if_neg a, if_neg a]
      by_cases b : l = x.1
      · rw [if_pos b, if_pos b, b]; ring
      · rw [if_neg b, if_neg b]; ring
  rw [Finset.sum_congr rfl fun l _ => e l, Finset.sum_sub_distrib, Finset.sum_add_distrib,
    Finset.sum_ite_eq' S x.1, Finset.sum_ite_eq' S x.2, if_pos h1, if_pos h2]
  ring

/-- Current folding moves values, it neither creates nor loses any: the sum over any finite set of cells
containing all the touched ones is unchanged, for every thread schedule. -/
theorem current_total (hs : Shape s off opp) (hn : NbrOK s opp)
    (ht : ∀ b a, s.tab b a = currentRng (s.n a) s.ng (off b a)) {m m' : Loc k → ℚ}
    (hr : s.CurrentRun m m') (S : Finset (Loc k))
    (hS : ∀ t, t < s.npatches → ∀ x ∈ s.pairs t, x.1 ∈ S ∧ x.2 ∈ S) :
    ∑ l ∈ S, m' l = ∑ l ∈ S, m l := by
  obtain ⟨sched, hsch, rfl⟩ := hr
  have hseq := isSchedule_seq s.npatches s.currentProg
  have heq : run (sched.map Prod.snd) m =
      run ((((List.range s.npatches).flatMap fun t => (s.currentProg t).map fun f => (t, f))).map
        Prod.snd) m := by
    funext l
    obtain ⟨c1, c2⟩ := current_sched hs hn ht (m := m) hsch
    obtain ⟨d1, d2⟩ := current_sched hs hn ht (m := m) hseq
    by_cases h : ∃ t, t < s.npatches ∧ ∃ x ∈ s.pairs t, x.1 = l ∨ x.2 = l
    · obtain ⟨t, h1, h2⟩ := h
      rw [c1 t l h1 h2, d1 t l h1 h2]
    · have h' : ∀ t, t < s.npatches → ¬ ∃ x ∈ s.pairs t, x.1 = l ∨ x.2 = l :=
        fun t h1 h2 => h ⟨t, h1, h2⟩
      rw [c2 l h', d2 l h']
  rw [heq]
  have hthread : ∀ t, t < s.npatches → ∀ m : Loc k → ℚ,
      ∑ l ∈ S, run (s.currentProg t) m l = ∑ l ∈ S, m l := by
    intro t ht' m
    rw [run_currentProg]
    have : ∀ (l : List (Loc k × Loc k)), (∀ x ∈ l, x ∈ s.pairs t) → ∀ m : Loc k → ℚ,
        ∑ c ∈ S, l.foldl (fun m x => foldStep x m) m c = ∑ c ∈ S, m c := by
      intro l
      induction l with
      | nil => intro _ m; rfl
      | cons x l ih =>
        intro h m
        rw [List.foldl_cons, ih (fun y hy => h y (by simp [hy]))]
        have hx := h x (by simp)
        exact sum_foldStep S x m (hS t ht' x hx).1 (hS t ht' x hx).2 (current_src_ne_dst hs ht hx hx)
    exact this _ (fun x hx => hx) m
  have hprefix : ∀ n, n ≤ s.npatches → ∀ m : Loc k → ℚ,
      ∑ l ∈ S, run ((((List.range n).flatMap fun t => (s.currentProg t).map fun f => (t, f))).map
        Prod.snd) m l = ∑ l ∈ S, m l := by
    intro n
    induction n with
    | zero => intro _ m; rfl
    | succ n ih =>
      intro hn' m
      rw [List.range_succ, List.flatMap_append, List.map_append, List.flatMap_singleton, List.map_map]
      have e : ∀ a b : List (Step (Loc k) ℚ), run (a ++ b) m = run b (run a m) := by
        intro a b; unfold run; rw [List.foldl_append]
      rw [e]
      have : (Prod.snd ∘ fun f => (n, f)) = (id : Step (Loc k) ℚ → Step (Loc k) ℚ) := rfl
      rw [this, List.map_id, hthread n (by omega), ih (by omega)]
  exact hprefix s.npatches le_rfl m

end Current

/-! ### the tables of the C code -/

/-- offsets of a 2D boundary per axis -/
def off2 (b : B2) : Fin 2 → Int := ![b.offset.1, b.offset.2]

/-- offsets of a 3D boundary per axis -/
def off3 (b : B3) : Fin 3 → Int := ![b.offset.1, b.offset.2.1, b.offset.2.2]

theorem mem_cells2 (w : Fin 2 → Nat) (u : Fin 2 → Nat) : u ∈ cells2 w ↔ ∀ a, u a < w a := by
  unfold cells2
  simp only [List.mem_flatMap, List.mem_range, List.mem_map]
  constructor
  · rintro ⟨i, hi, j, hj, rfl⟩ a
    match a with
    | 0 => exact hi
    | 1 => exact hj
  · intro h
    refine ⟨u 0, h 0, u 1, h 1, ?_⟩
    funext a
    match a with
    | 0 => rfl
    | 1 => rfl

theorem mem_cells3 (w : Fin 3 → Nat) (u : Fin 3 → Nat) : u ∈ cells3 w ↔ ∀ a, u a < w a := by
  unfold cells3
  simp only [List.mem_flatMap, List.mem_range, List.mem_map]
  constructor
  · rintro ⟨i, hi, j, hj, l, hl, rfl⟩ a
    match a with
    | 0 => exact hi
    | 1 => exact hj
    | 2 => exact hl
  · intro h
    refine ⟨u 0, h 0, u 1, h 1, u 2, h 2, ?_⟩
    funext a
    match a with
    | 0 => rfl
    | 1 => rfl
    | 2 => rfl

theorem nodup_cells2 (w : Fin 2 → Nat) : (cells2 w).Nodup := by
  unfold cells2
  rw [List.nodup_flatMap]
  constructor
  · intro i _
    refine List.Nodup.map ?_ List.nodup_range
    intro x y h
    exact congrFun h 1
  · refine List.nodup_range.imp ?_
    intro i i' hi
    show List.Disjoint _ _
    intro u hu hu'
    obtain ⟨_, _, rfl⟩ := List.mem_map.mp hu
    obtain ⟨_, _, h⟩ := List.mem_map.mp hu'
    exact hi (congrFun h 0).symm

theorem nodup_cells3 (w : Fin 3 → Nat) : (cells3 w).Nodup := by
  unfold cells3
  rw [List.nodup_flatMap]
  constructor
  · intro i _
    rw [List.nodup_flatMap]
    constructor
    · intro j _
      refine List.Nodup.map ?_ List.nodup_range
      intro x y h
      exact congrFun h 2
    · refine List.nodup_range.imp ?_
      intro j j' hj
      show List.Disjoint _ _
      intro u hu hu'
      obtain ⟨_, _, rfl⟩ := List.mem_map.mp hu
      obtain ⟨_, _, h⟩ := List.mem_map.mp hu'
      exact hj (congrFun h 1).symm
  · refine List.nodup_range.imp ?_
    intro i i' hi
    show List.Disjoint _ _
    intro u hu hu'
    obtain ⟨_, _, hu⟩ := List.mem_flatMap.mp hu
    obtain ⟨_, _, rfl⟩ := List.mem_map.mp hu
    obtain ⟨_, _, hu'⟩ := List.mem_flatMap.mp hu'
    obtain ⟨_, _, h⟩ := List.mem_map.mp hu'
    exact hi (congrFun h 0).symm

theorem off2_inj (b b' : B2) (h : off2 b = off2 b') : b = b' := by
  have h0 : b.offset.1 = b'.offset.1 := congrFun h 0
  have h1 : b.offset.2 = b'.offset.2 := congrFun h 1
  revert h0 h1
  cases b <;> cases b' <;> simp [B2.offset]

theorem off3_inj (b b' : B3) (h : off3 b = off3 b') : b = b' := by
  have h0 : b.offset.1 = b'.offset.1 := congrFun h 0
  have h1 : b.offset.2.1 = b'.offset.2.1 := congrFun h 1
  have h2 : b.offset.2.2 = b'.offset.2.2 := congrFun h 2
  have key : ∀ b b' : B3, b.offset = b'.offset → b = b' := by
    intro b b'
    cases b <;> cases b' <;> first | (intro _; rfl) | (intro h; exact absurd h (by decide))
  exact key b b' (Prod.ext h0 (Prod.ext h1 h2))

theorem off2_unit (b : B2) (a : Fin 2) : off2 b a = -1 ∨ off2 b a = 0 ∨ off2 b a = 1 := by
  match a with
  | 0 => cases b <;> simp [off2, B2.offset]
  | 1 => cases b <;> simp [off2, B2.offset]

theorem off3_unit (b : B3) (a : Fin 3) : off3 b a = -1 ∨ off3 b a = 0 ∨ off3 b a = 1 := by
  match a with
  | 0 => cases b <;> simp [off3, B3.offset]
  | 1 => cases b <;> simp [off3, B3.offset]
  | 2 => cases b <;> simp [off3, B3.offset]

theorem off2_opp (b : B2) (a : Fin 2) : off2 b.opp a = -off2 b a := by
  match a with
  | 0 => cases b <;> rfl
  | 1 => cases b <;> rfl

theorem off3_opp (b : B3) (a : Fin 3) : off3 b.opp a = -off3 b a := by
  match a with
  | 0 => cases b <;> rfl
  | 1 => cases b <;> rfl
  | 2 => cases b <;> rfl

theorem off2_ne (b : B2) : ∃ a, off2 b a ≠ 0 := by
  cases b
  all_goals first | exact ⟨0, by decide⟩ | exact ⟨1, by decide⟩

theorem off3_ne (b : B3) : ∃ a, off3 b a ≠ 0 := by
  cases b
  all_goals first | exact ⟨0, by decide⟩ | exact ⟨1, by decide⟩ | exact ⟨2, by decide⟩

theorem shape2 (s : Sync 2 B2) (h1 : ∀ b, b ∈ s.order) (h2 : s.order.Nodup) (h3 : s.cells = cells2)
    (h4 : ∀ a, s.ng ≤ s.n a) : Shape s off2 B2.opp :=
  ⟨h1, h2, off2_inj, off2_unit, off2_opp, off2_ne, by rw [h3]; exact mem_cells2,
    by rw [h3]; exact nodup_cells2, h4⟩

theorem shape3 (s : Sync 3 B3) (h1 : ∀ b, b ∈ s.order) (h2 : s.order.Nodup) (h3 : s.cells = cells3)
    (h4 : ∀ a, s.ng ≤ s.n a) : Shape s off3 B3.opp :=
  ⟨h1, h2, off3_inj, off3_unit, off3_opp, off3_ne, by rw [h3]; exact mem_cells3,
    by rw [h3]; exact nodup_cells3, h4⟩

theorem guardTab2_eq (nx ny ng : Nat) (b : B2) (a : Fin 2) :
    guardTab2 nx ny ng b a = guardRng (![nx, ny] a) ng (off2 b a) := by
  match a with
  | 0 => cases b <;> rfl
  | 1 => cases b <;> rfl

theorem currentTab2_eq (nx ny ng : Nat) (b : B2) (a : Fin 2) :
    currentTab2 nx ny ng b a = currentRng (![nx, ny] a) ng (off2 b a) := by
  match a with
  | 0 => cases b <;> rfl
  | 1 => cases b <;> rfl

theorem guardTab3_eq (nx ny nz ng : Nat) (b : B3) (a : Fin 3) :
    guardTab3 nx ny nz ng b a = guardRng (![nx, ny, nz] a) ng (off3 b a) := by
  match a with
  | 0 => cases b <;> rfl
  | 1 => cases b <;> rfl
  | 2 => cases b <;> rfl

theorem currentTab3_eq (nx ny nz ng : Nat) (b : B3) (a : Fin 3) :
    currentTab3 nx ny nz ng b a = currentRng (![nx, ny, nz] a) ng (off3 b a) := by
  match a with
  | 0 => cases b <;> rfl
  | 1 => cases b <;> rfl
  | 2 => cases b <;> rfl

theorem guard2_shape {nx ny ng N : Nat} {nbr : Nat → B2 → Option Nat} (hx : ng ≤ nx) (hy : ng ≤ ny) :
    Shape (syncGuard2 nx ny ng N nbr) off2 B2.opp := by
  refine shape2 _ ?_ ?_ rfl ?_
  · intro b; show b ∈ guardOrder2; cases b <;> decide
  · show guardOrder2.Nodup; decide
  · intro a
    match a with
    | 0 => exact hx
    | 1 => exact hy

theorem current2_shape {nx ny ng N : Nat} {nbr : Nat → B2 → Option Nat} (hx : ng ≤ nx) (hy : ng ≤ ny) :
    Shape (syncCurrents2 nx ny ng N nbr) off2 B2.opp := by
  refine shape2 _ ?_ ?_ rfl ?_
  · intro b; show b ∈ currentOrder2; cases b <;> decide
  · show currentOrder2.Nodup; decide
  · intro a
    match a with
    | 0 => exact hx
    | 1 => exact hy

theorem guard3_shape {nx ny nz ng N : Nat} {nbr : Nat → B3 → Option Nat} (hx : ng ≤ nx) (hy : ng ≤ ny)
    (hz : ng ≤ nz) : Shape (syncGuard3 nx ny nz ng N nbr) off3 B3.opp := by
  refine shape3 _ ?_ ?_ rfl ?_
  · intro b; show b ∈ guardOrder3; cases b <;> decide
  · show guardOrder3.Nodup; decide
  · intro a
    match a with
    | 0 => exact hx
    | 1 => exact hy
    | 2 => exact hz

theorem current3_shape {nx ny nz ng N : Nat} {nbr : Nat → B3 → Option Nat} (hx : ng ≤ nx) (hy : ng ≤ ny)
    (hz : ng ≤ nz) : Shape (syncCurrents3 nx ny nz ng N nbr) off3 B3.opp := by
  refine shape3 _ ?_ ?_ rfl ?_
  · intro b; show b ∈ currentOrder3; cases b <;> decide
  · show currentOrder3.Nodup; decide
  · intro a
    match a with
    | 0 => exact hx
    | 1 => exact hy
    | 2 => exact hz

end Verif.SyncFields
