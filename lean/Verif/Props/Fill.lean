import Verif.Model.Fill
import Mathlib.Algebra.BigOperators.Group.List.Basic
import Mathlib.Algebra.BigOperators.Ring.List
import Mathlib.Data.List.Nodup
import Mathlib.Tactic.Ring
import Mathlib.Tactic.FieldSimp
import Mathlib.Tactic.Linarith
import Mathlib.Tactic.Positivity
import Mathlib.Tactic.FinCases
import Mathlib.Tactic.IntervalCases
import Mathlib.Tactic.Push
/-! # C38 — counting and filling agree -/
namespace Verif.Fill

/-- specification: `x` lies in the cell of size `h` around the grid point `c` -/
def InCell {k : Nat} (h c x : Fin k → ℚ) : Prop := ∀ d, c d - h d / 2 ≤ x d ∧ x d < c d + h d / 2

instance {k : Nat} (h c x : Fin k → ℚ) : Decidable (InCell h c x) := Fintype.decidableForallFintype

/-- specification: the cells where particles are created -/
def Accepted {k : Nat} (p : Profile k) (c : Fin k → ℚ) : Prop := p.densMin < p.dens c

instance {k : Nat} (p : Profile k) (c : Fin k → ℚ) : Decidable (Accepted p c) := Rat.instDecidableLt _ _

section generic
variable {k : Nat} (p : Profile k) (h : Fin k → ℚ) (u : Nat → Nat → Fin k → ℚ)

/-- the particles written, in order -/
def written : List (Fin k → ℚ) → Nat → List (Slot k)
  | [], _ => []
  | c :: cs, j => (if Accepted p c then cellParticles p h (u j) c else []) ++ written cs (j + 1)

theorem length_cellParticles (u : Nat → Fin k → ℚ) (c : Fin k → ℚ) :
    (cellParticles p h u c).length = (p.ppc c).toNat := by simp [cellParticles]

theorem count_foldl (cells : List (Fin k → ℚ)) (n : ℤ) :
    cells.foldl (fun n c => if p.dens c > p.densMin then n + p.ppc c else n) n = n + count p cells := by
  unfold count
  induction cells generalizing n with
  | nil => simp
  | cons c cs ih =>
    rw [List.foldl_cons, List.foldl_cons, ih, ih (if p.dens c > p.densMin then 0 + p.ppc c else 0)]
    by_cases hc : p.dens c > p.densMin
    · rw [if_pos hc, if_pos hc]; ring
    · rw [if_neg hc, if_neg hc]; ring

theorem count_cons (c : Fin k → ℚ) (cs : List (Fin k → ℚ)) :
    count p (c :: cs) = (if Accepted p c then p.ppc c else 0) + count p cs := by
  conv_lhs => unfold count
  rw [List.foldl_cons, count_foldl]
  by_cases hc : Accepted p c
  · rw [if_pos hc, if_pos (show p.dens c > p.densMin from hc)]; ring
  · rw [if_neg hc, if_neg (show ¬ p.dens c > p.densMin from hc)]

theorem count_written (cells : List (Fin k → ℚ)) (j : Nat) (hp : ∀ c ∈ cells, Accepted p c → 0 ≤ p.ppc c) :
    count p cells = (written p h u cells j).length := by
  induction cells generalizing j with
  | nil => rfl
  | cons c cs ih =>
    rw [count_cons, ih (j + 1) fun c hc => hp c (by simp [hc]), written, List.length_append]
    by_cases hc : Accepted p c
    · rw [if_pos hc, if_pos hc, length_cellParticles]
      have := hp c (by simp) hc
      omega
    · rw [if_neg hc, if_neg hc]; simp

theorem fillCells_eq (cells : List (Fin k → ℚ)) (j : Nat) (pre : List (Option (Slot k))) (n : Nat)
    (hp : ∀ c ∈ cells, Accepted p c → 0 < p.ppc c) (hn : n = (written p h u cells j).length) :
    fillCells p h u cells j pre.length (pre ++ List.replicate n none) =
      some (pre ++ (written p h u cells j).map some) := by
  induction cells generalizing j pre n with
  | nil =>
    have h0 : n = 0 := hn
    subst h0
    rfl
  | cons c cs ih =>
    have hp' : ∀ c ∈ cs, Accepted p c → 0 < p.ppc c := fun c hc => hp c (by simp [hc])
    rw [fillCells]
    by_cases hc : Accepted p c
    · have hpos := hp c (by simp) hc
      rw [if_pos (show p.dens c > p.densMin from hc), if_neg (by omega)]
      rw [written, if_pos hc, List.length_append, length_cellParticles] at hn
      rw [if_neg (by simp only [List.length_append, List.length_replicate]; omega), if_neg (by omega)]
      have e : (pre ++ List.replicate n (none : Option (Slot k))).take pre.length ++
          (cellParticles p h (u j) c).map some ++
          (pre ++ List.replicate n (none : Option (Slot k))).drop (pre.length + (p.ppc c).toNat) =
          (pre ++ (cellParticles p h (u j) c).map some) ++
            List.replicate (written p h u cs (j + 1)).length none := by
        rw [List.take_left', List.drop_append]
        · simp only [List.drop_eq_nil_of_le (Nat.le_add_right pre.length (p.ppc c).toNat), List.nil_append,
            List.drop_replicate]
          congr 2
          omega
        · rfl
      have e2 : pre.length + (p.ppc c).toNat = (pre ++ (cellParticles p h (u j) c).map some).length := by
        rw [List.length_append, List.length_map, length_cellParticles]
      rw [e, e2, ih (j + 1) _ _ hp' rfl, written, if_pos hc]
      simp
    · rw [if_neg (show ¬ p.dens c > p.densMin from hc)]
      rw [written, if_neg hc, List.nil_append] at hn ⊢
      exact ih (j + 1) pre n hp' hn

/-- the spacing is positive and the draws are in `[0,1)` -/
structure Draws : Prop where
  pos : ∀ d, 0 < h d
  lo : ∀ j i d, 0 ≤ u j i d
  hi : ∀ j i d, u j i d < 1

variable {p h u}

theorem cell_own (hd : Draws h u) (j : Nat) (c : Fin k → ℚ) (s : Slot k) (hs : s ∈ cellParticles p h (u j) c) :
    InCell h c s.pos ∧ s.w = p.dens c * (∏ d, h d) / p.ppc c := by
  obtain ⟨i, hi, rfl⟩ := List.mem_map.mp hs
  refine ⟨fun d => ?_, rfl⟩
  have h1 := hd.pos d
  have h2 := hd.lo j i d
  have h3 := hd.hi j i d
  dsimp only
  constructor
  · have := mul_nonneg h1.le h2
    linarith
  · have := mul_pos h1 (sub_pos.mpr h3)
    linarith

theorem cell_other {c c' x : Fin k → ℚ} (hsep : ∃ d, h d ≤ |c d - c' d|) (h1 : InCell h c x) (h2 : InCell h c' x) :
    False := by
  obtain ⟨d, hd⟩ := hsep
  have a := h1 d
  have b := h2 d
  have : |c d - c' d| < h d := abs_lt.mpr ⟨by linarith, by linarith⟩
  linarith

/-- grid points lie at least one spacing apart along some axis -/
def Apart (h : Fin k → ℚ) (cells : List (Fin k → ℚ)) : Prop := cells.Pairwise fun c c' => ∃ d, h d ≤ |c d - c' d|

theorem written_filter (hd : Draws h u) (cells : List (Fin k → ℚ)) (hs : Apart h cells) (j : Nat)
    (c : Fin k → ℚ) (hc : c ∈ cells) :
    ∃ j', (written p h u cells j).filter (fun s => InCell h c s.pos) =
      if Accepted p c then cellParticles p h (u j') c else [] := by
  have none_of : ∀ (cs : List (Fin k → ℚ)) (j : Nat), (∀ c' ∈ cs, ∃ d, h d ≤ |c d - c' d|) →
      (written p h u cs j).filter (fun s => InCell h c s.pos) = [] := by
    intro cs
    induction cs with
    | nil => intro j _; rfl
    | cons c' cs ih =>
      intro j hh
      rw [written, List.filter_append, ih (j + 1) fun x hx => hh x (by simp [hx]), List.append_nil]
      by_cases ha : Accepted p c'
      · rw [if_pos ha, List.filter_eq_nil_iff]
        intro s hs' hin
        exact cell_other (hh c' (by simp)) (of_decide_eq_true hin) (cell_own hd j c' s hs').1
      · rw [if_neg ha]; rfl
  induction cells generalizing j with
  | nil => simp at hc
  | cons c' cs ih =>
    obtain ⟨hs1, hs2⟩ := List.pairwise_cons.mp hs
    rw [written, List.filter_append]
    rcases List.mem_cons.mp hc with rfl | hc
    · refine ⟨j, ?_⟩
      rw [none_of cs (j + 1) hs1, List.append_nil]
      by_cases ha : Accepted p c
      · rw [if_pos ha, List.filter_eq_self]
        intro s hs'
        exact decide_eq_true (cell_own hd j c s hs').1
      · rw [if_neg ha]; rfl
    · obtain ⟨j', hj⟩ := ih hs2 (j + 1) hc
      refine ⟨j', ?_⟩
      rw [hj]
      have : (if Accepted p c' then cellParticles p h (u j) c' else []).filter (fun s => InCell h c s.pos) = [] := by
        by_cases ha : Accepted p c'
        · rw [if_pos ha, List.filter_eq_nil_iff]
          intro s hs' hin
          exact cell_other (hs1 c hc) (cell_own hd j c' s hs').1 (of_decide_eq_true hin)
        · rw [if_neg ha]; rfl
      rw [this, List.nil_append]

theorem written_mem (hd : Draws h u) (cells : List (Fin k → ℚ)) (j : Nat) (s : Slot k)
    (hs : s ∈ written p h u cells j) : ∃ c ∈ cells, Accepted p c ∧ InCell h c s.pos ∧
      s.w = p.dens c * (∏ d, h d) / p.ppc c := by
  induction cells generalizing j with
  | nil => simp [written] at hs
  | cons c cs ih =>
    rw [written] at hs
    rcases List.mem_append.mp hs with hs | hs
    · by_cases ha : Accepted p c
      · rw [if_pos ha] at hs
        exact ⟨c, by simp, ha, cell_own hd j c s hs⟩
      · rw [if_neg ha] at hs; simp at hs
    · obtain ⟨c', h1, h2⟩ := ih (j + 1) hs
      exact ⟨c', by simp [h1], h2⟩

/-- specification: what filling a patch with the grid points `cells` must achieve. `n` slots were reserved, `a` are the
arrays afterwards. -/
structure Filled (p : Profile k) (h : Fin k → ℚ) (cells : List (Fin k → ℚ)) (n : ℤ) (a : List (Option (Slot k))) : Prop where
  /-- the arrays have the reserved size -/
  size : (a.length : ℤ) = n
  /-- no slot stays uninitialised -/
  complete : ∀ x ∈ a, x ≠ none
  /-- every particle lies in a cell where the density exceeds the minimum, and carries its share of that cell -/
  own : ∀ s, some s ∈ a → ∃ c ∈ cells, Accepted p c ∧ InCell h c s.pos ∧ s.w = p.dens c * (∏ d, h d) / p.ppc c
  /-- every such cell receives exactly the requested number of particles, every other cell none -/
  number : ∀ c ∈ cells, (((a.filterMap id).filter fun s => InCell h c s.pos).length : ℤ) = if Accepted p c then p.ppc c else 0
  /-- the weights in such a cell add up to density times cell volume -/
  weight : ∀ c ∈ cells, (((a.filterMap id).filter fun s => InCell h c s.pos).map (·.w)).sum =
    if Accepted p c then p.dens c * ∏ d, h d else 0

theorem filled (hd : Draws h u) (cells : List (Fin k → ℚ)) (hs : Apart h cells)
    (hp : ∀ c ∈ cells, Accepted p c → 0 < p.ppc c) :
    ∃ a0 a, reserve k (count p cells) = some a0 ∧ fillCells p h u cells 0 0 a0 = some a ∧
      Filled p h cells (count p cells) a := by
  have hcnt := count_written p h u cells 0 fun c hc ha => (hp c hc ha).le
  have h0 : ¬ count p cells < 0 := by omega
  refine ⟨List.replicate (count p cells).toNat none, (written p h u cells 0).map some, if_neg h0, ?_, ?_⟩
  · have := fillCells_eq p h u cells 0 [] (count p cells).toNat hp (by omega)
    simpa using this
  · have e : ((written p h u cells 0).map some).filterMap id = written p h u cells 0 := by
      rw [List.filterMap_map]; simp
    refine ⟨by rw [List.length_map]; omega, ?_, ?_, ?_, ?_⟩
    · intro x hx
      obtain ⟨s, _, rfl⟩ := List.mem_map.mp hx
      simp
    · intro s hs'
      obtain ⟨s', h1, h2⟩ := List.mem_map.mp hs'
      cases h2
      exact written_mem hd cells 0 s h1
    · intro c hc
      rw [e]
      obtain ⟨j', hj⟩ := written_filter (p := p) hd cells hs 0 c hc
      rw [hj]
      by_cases ha : Accepted p c
      · rw [if_pos ha, if_pos ha, length_cellParticles]
        have := hp c hc ha
        omega
      · rw [if_neg ha, if_neg ha]; rfl
    · intro c hc
      rw [e]
      obtain ⟨j', hj⟩ := written_filter (p := p) hd cells hs 0 c hc
      rw [hj]
      by_cases ha : Accepted p c
      · rw [if_pos ha, if_pos ha]
        have hpos := hp c hc ha
        unfold cellParticles
        rw [List.map_map]
        have : ((fun s : Slot k => s.w) ∘ fun i => (⟨fun d => (-h d / 2 + (h d / 2 - -h d / 2) * u j' i d) + c d,
            p.dens c * (∏ d, h d) / p.ppc c⟩ : Slot k)) = fun _ => p.dens c * (∏ d, h d) / p.ppc c := rfl
        rw [this, List.map_const', List.sum_replicate, List.length_range, nsmul_eq_mul]
        have h1 : ((p.ppc c).toNat : ℚ) = (p.ppc c : ℚ) := by
          have : (((p.ppc c).toNat : ℤ) : ℚ) = (p.ppc c : ℚ) := by rw [Int.toNat_of_nonneg hpos.le]
          exact_mod_cast this
        have h2 : (p.ppc c : ℚ) ≠ 0 := by exact_mod_cast hpos.ne'
        rw [h1]
        field_simp
      · rw [if_neg ha, if_neg ha]; rfl

end generic

/-- the axes of one patch -/
def axes {k : Nat} (n : Fin k → Nat) (h x0 : Fin k → ℚ) : Fin k → List ℚ := fun d => axis (n d) (h d) (x0 d)

theorem spacing_axis (n : Nat) (hn : 2 ≤ n) (h x0 : ℚ) : spacing (axis n h x0) = some h := by
  obtain ⟨m, rfl⟩ : ∃ m, n = m + 2 := ⟨n - 2, by omega⟩
  unfold axis
  rw [List.range_succ_eq_map, List.range_succ_eq_map]
  simp [spacing]

theorem axis_apart (n : Nat) (h x0 : ℚ) (hh : 0 < h) : (axis n h x0).Pairwise fun a b => h ≤ |a - b| := by
  unfold axis
  rw [List.pairwise_map]
  apply List.Pairwise.imp _ List.pairwise_lt_range
  intro a b hab
  have : (a : ℚ) + 1 ≤ b := by exact_mod_cast hab
  rw [abs_sub_comm]
  refine le_trans ?_ (le_abs_self _)
  nlinarith

theorem cells2_apart (n : Fin 2 → Nat) (h x0 : Fin 2 → ℚ) (hh : ∀ d, 0 < h d) : Apart h (cells2 (axes n h x0)) := by
  unfold Apart cells2
  rw [List.pairwise_flatMap]
  refine ⟨fun x _ => ?_, ?_⟩
  · rw [List.pairwise_map]
    exact (axis_apart _ _ _ (hh 1)).imp fun hab => ⟨1, by simpa using hab⟩
  · refine (axis_apart _ _ _ (hh 0)).imp fun hab => ?_
    intro c hc c' hc'
    obtain ⟨y, _, rfl⟩ := List.mem_map.mp hc
    obtain ⟨y', _, rfl⟩ := List.mem_map.mp hc'
    exact ⟨0, by simpa using hab⟩

theorem cells3_apart (n : Fin 3 → Nat) (h x0 : Fin 3 → ℚ) (hh : ∀ d, 0 < h d) : Apart h (cells3 (axes n h x0)) := by
  unfold Apart cells3
  rw [List.pairwise_flatMap]
  refine ⟨fun x _ => ?_, ?_⟩
  · rw [List.pairwise_flatMap]
    refine ⟨fun y _ => ?_, ?_⟩
    · rw [List.pairwise_map]
      exact (axis_apart _ _ _ (hh 2)).imp fun hab => ⟨2, by simpa using hab⟩
    · refine (axis_apart _ _ _ (hh 1)).imp fun hab => ?_
      intro c hc c' hc'
      obtain ⟨y, _, rfl⟩ := List.mem_map.mp hc
      obtain ⟨y', _, rfl⟩ := List.mem_map.mp hc'
      exact ⟨1, by simpa using hab⟩
  · refine (axis_apart _ _ _ (hh 0)).imp fun hab => ?_
    intro c hc c' hc'
    obtain ⟨y, _, hc⟩ := List.mem_flatMap.mp hc
    obtain ⟨y', _, hc'⟩ := List.mem_flatMap.mp hc'
    obtain ⟨z, _, rfl⟩ := List.mem_map.mp hc
    obtain ⟨z', _, rfl⟩ := List.mem_map.mp hc'
    exact ⟨0, by simpa using hab⟩

/-- specification: `c` is a grid point of the patch -/
def GridPoint {k : Nat} (n : Fin k → Nat) (h x0 c : Fin k → ℚ) : Prop := ∀ d, ∃ i < n d, c d = i * h d + x0 d

theorem mem_axis (n : Nat) (h x0 a : ℚ) : a ∈ axis n h x0 ↔ ∃ i < n, a = i * h + x0 := by
  unfold axis
  simp only [List.mem_map, List.mem_range]
  constructor
  · rintro ⟨i, hi, rfl⟩; exact ⟨i, hi, rfl⟩
  · rintro ⟨i, hi, rfl⟩; exact ⟨i, hi, rfl⟩

theorem mem_cells2 (n : Fin 2 → Nat) (h x0 c : Fin 2 → ℚ) : c ∈ cells2 (axes n h x0) ↔ GridPoint n h x0 c := by
  unfold cells2 GridPoint axes
  simp only [List.mem_flatMap, List.mem_map, mem_axis]
  constructor
  · rintro ⟨x, hx, y, hy, rfl⟩ d
    fin_cases d
    · exact hx
    · exact hy
  · intro hc
    refine ⟨c 0, hc 0, c 1, hc 1, ?_⟩
    funext d; fin_cases d <;> rfl

theorem mem_cells3 (n : Fin 3 → Nat) (h x0 c : Fin 3 → ℚ) : c ∈ cells3 (axes n h x0) ↔ GridPoint n h x0 c := by
  unfold cells3 GridPoint axes
  simp only [List.mem_flatMap, List.mem_map, mem_axis]
  constructor
  · rintro ⟨x, hx, y, hy, z, hz, rfl⟩ d
    fin_cases d
    · exact hx
    · exact hy
    · exact hz
  · intro hc
    refine ⟨c 0, hc 0, c 1, hc 1, c 2, hc 2, ?_⟩
    funext d; fin_cases d <;> rfl

/-- **C38** in 2D. For every density and ppc function with a positive number of particles wherever the density exceeds
the minimum, every patch with at least two cells per axis and every random draw: as many particles are written as were
reserved, no slot stays uninitialised, none is written out of bounds (the fill succeeds), every particle lies in its own cell,
and every cell above the minimum density gets exactly its number of particles with total weight density × cell size.

Partial: a ppc of 0 above the minimum density raises (`fill_zero_ppc_fails`), and a patch of one cell per axis reads its axis
out of bounds (`fill_one_cell_fails`). -/
theorem fill2_partial (p : Profile 2) (n : Fin 2 → Nat) (hn : ∀ d, 2 ≤ n d) (h x00 x0 : Fin 2 → ℚ)
    (u : Nat → Nat → Fin 2 → ℚ) (hd : Draws h u)
    (hp : ∀ c, GridPoint n h x0 c → Accepted p c → 0 < p.ppc c) :
    ∃ a, fillPatch2 p u (axes n h x00) (axes n h x0) = some a ∧
      Filled p h (cells2 (axes n h x0)) (count p (cells2 (axes n h x0))) a := by
  obtain ⟨a0, a, h1, h2, h3⟩ := filled (p := p) hd (cells2 (axes n h x0)) (cells2_apart n h x0 hd.pos)
    fun c hc => hp c ((mem_cells2 n h x0 c).mp hc)
  refine ⟨a, ?_, h3⟩
  have eh : ![h 0, h 1] = h := by funext d; fin_cases d <;> rfl
  unfold fillPatch2
  have e : ∀ d, spacing (axes n h x00 d) = some (h d) := fun d => spacing_axis _ (hn d) _ _
  rw [h1, e 0, e 1]
  simp only [Option.bind_eq_bind, Option.bind_some, eh]
  exact h2

/-- **C38** in 3D. -/
theorem fill3_partial (p : Profile 3) (n : Fin 3 → Nat) (hn : ∀ d, 2 ≤ n d) (h x00 x0 : Fin 3 → ℚ)
    (u : Nat → Nat → Fin 3 → ℚ) (hd : Draws h u)
    (hp : ∀ c, GridPoint n h x0 c → Accepted p c → 0 < p.ppc c) :
    ∃ a, fillPatch3 p u (axes n h x00) (axes n h x0) = some a ∧
      Filled p h (cells3 (axes n h x0)) (count p (cells3 (axes n h x0))) a := by
  obtain ⟨a0, a, h1, h2, h3⟩ := filled (p := p) hd (cells3 (axes n h x0)) (cells3_apart n h x0 hd.pos)
    fun c hc => hp c ((mem_cells3 n h x0 c).mp hc)
  refine ⟨a, ?_, h3⟩
  have eh : ![h 0, h 1, h 2] = h := by funext d; fin_cases d <;> rfl
  unfold fillPatch3
  have e : ∀ d, spacing (axes n h x00 d) = some (h d) := fun d => spacing_axis _ (hn d) _ _
  rw [h1, e 0, e 1, e 2]
  simp only [Option.bind_eq_bind, Option.bind_some, eh]
  exact h2

/-- counting accepts a ppc of 0 above the minimum density (it reserves nothing for the cell), filling divides by it -/
theorem fill_zero_ppc_fails {k : Nat} (p : Profile k) (h : Fin k → ℚ) (u : Nat → Nat → Fin k → ℚ)
    (cells : List (Fin k → ℚ)) (c : Fin k → ℚ) (hc : c ∈ cells) (ha : Accepted p c) (h0 : p.ppc c = 0)
    (j i : Nat) (a : List (Option (Slot k))) : fillCells p h u cells j i a = none := by
  induction cells generalizing j i a with
  | nil => simp at hc
  | cons c' cs ih =>
    rw [fillCells]
    rcases List.mem_cons.mp hc with rfl | hc
    · rw [if_pos (show p.dens c > p.densMin from ha), h0]
      by_cases hl : a.length < i + (0 : ℤ).toNat
      · rw [if_neg (by omega), if_pos hl]
      · rw [if_neg (by omega), if_neg hl, if_pos rfl]
    · by_cases h1 : p.dens c' > p.densMin
      · rw [if_pos h1]
        split
        · rfl
        · split
          · rfl
          · split
            · rfl
            · exact ih hc _ _ _
      · rw [if_neg h1]; exact ih hc _ _ _

/-- one cell per patch along an axis: the cell size is read out of bounds -/
theorem fill_one_cell_fails (p : Profile 2) (u : Nat → Nat → Fin 2 → ℚ) (ny : Nat) (h x00 x0 : Fin 2 → ℚ) :
    fillPatch2 p u (axes ![1, ny] h x00) (axes ![1, ny] h x0) = none := by
  unfold fillPatch2
  have : spacing (axes ![1, ny] h x00 0) = none := rfl
  rw [this]
  cases reserve 2 (count p (cells2 (axes ![1, ny] h x0))) <;> rfl

/-- a profile: density 2 to the right of 0, one particle per cell for small y, three above -/
def exProfile : Profile 2 := ⟨fun c => if 0 < c 0 then 2 else 0, 1, fun c => if c 1 < 1 then 1 else 3⟩

/-- the hypotheses are met, and 2·3 cells with 4 of them filled give 8 particles -/
example : Draws (fun _ : Fin 2 => (1 : ℚ)) (fun _ _ _ => 1/3) ∧ (∀ c, 0 < exProfile.ppc c) ∧
    count exProfile (cells2 (axes ![3, 2] (fun _ => 1) (fun _ => 0))) = 8 := by
  refine ⟨⟨fun _ => by norm_num, fun _ _ _ => by norm_num, fun _ _ _ => by norm_num⟩, fun c => ?_, by decide +kernel⟩
  show 0 < if c 1 < 1 then (1 : ℤ) else 3
  split <;> norm_num

/-- the same profile in 3D, with two cells along z -/
def exProfile3 : Profile 3 := ⟨fun c => if 0 < c 0 then 2 else 0, 1, fun c => if c 1 < 1 then 1 else 3⟩

example : Draws (fun _ : Fin 3 => (1 : ℚ)) (fun _ _ _ => 1/3) ∧ (∀ c, 0 < exProfile3.ppc c) ∧
    count exProfile3 (cells3 (axes ![3, 2, 2] (fun _ => 1) (fun _ => 0))) = 16 := by
  refine ⟨⟨fun _ => by norm_num, fun _ _ _ => by norm_num, fun _ _ _ => by norm_num⟩, fun c => ?_, by decide +kernel⟩
  show 0 < if c 1 < 1 then (1 : ℤ) else 3
  split <;> norm_num

end Verif.Fill
