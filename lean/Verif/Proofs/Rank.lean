import Verif.Model.Rank
import Mathlib.Data.Fintype.EquivFin
import Mathlib.Data.List.Count
import Mathlib.Logic.Equiv.Fin.Basic
import Mathlib.Data.Fintype.Card
/-! Lemmas for C27: the relabelling of METIS parts is a permutation. -/
namespace Verif.Rank

theorem argmaxFrom_mem (f : Nat → Nat) (i k : Nat) :
    i ≤ argmaxFrom f i k ∧ argmaxFrom f i k ≤ i + k := by
  induction k with
  | zero => simp [argmaxFrom]
  | succ k ih =>
    simp only [argmaxFrom]
    by_cases h : f (argmaxFrom f i k) < f (i + (k + 1))
    · rw [if_pos h]; omega
    · rw [if_neg h]; omega

theorem argmaxFrom_max (f : Nat → Nat) (i k c : Nat) (h1 : i ≤ c) (h2 : c ≤ i + k) :
    f c ≤ f (argmaxFrom f i k) := by
  induction k with
  | zero => simp [argmaxFrom]; have : c = i := by omega
            rw [this]
  | succ k ih =>
    simp only [argmaxFrom]
    by_cases h : f (argmaxFrom f i k) < f (i + (k + 1))
    · rw [if_pos h]
      by_cases hc : c = i + (k + 1)
      · rw [hc]
      · have := ih (by omega); omega
    · rw [if_neg h]
      by_cases hc : c = i + (k + 1)
      · rw [hc]; omega
      · exact ih (by omega)

/-- a function that permutes the numbers below `n` -/
structure PermBelow (n : Nat) (f : Nat → Nat) : Prop where
  lt : ∀ k, k < n → f k < n
  inj : ∀ k l, k < n → l < n → f k = f l → k = l

theorem PermBelow.surj {n : Nat} {f : Nat → Nat} (h : PermBelow n f) (j : Nat) (hj : j < n) :
    ∃ k, k < n ∧ f k = j := by
  let g : Fin n → Fin n := fun k => ⟨f k, h.lt k k.2⟩
  have hg : Function.Injective g := fun a b e => Fin.ext (h.inj a b a.2 b.2 (congrArg Fin.val e))
  obtain ⟨k, hk⟩ := (Finite.injective_iff_surjective.mp hg) ⟨j, hj⟩
  exact ⟨k, k.2, congrArg Fin.val hk⟩

theorem swapAt_perm {n : Nat} {f : Nat → Nat} (h : PermBelow n f) {i j : Nat} (hi : i < n) (hj : j < n) :
    PermBelow n (swapAt f i j) := by
  constructor
  · intro k hk
    unfold swapAt
    split
    · exact h.lt _ hj
    · split
      · exact h.lt _ hi
      · exact h.lt _ hk
  · intro k l hk hl e
    unfold swapAt at e
    have inj := fun a b ha hb => h.inj a b ha hb
    split at e <;> split at e <;> (try split at e) <;> (try split at e) <;>
      first
        | (have := inj _ _ hj hj e; omega)
        | (have := inj _ _ hj hi e; omega)
        | (have := inj _ _ hi hj e; omega)
        | (have := inj _ _ hi hi e; omega)
        | (have := inj _ _ hj hl e; omega)
        | (have := inj _ _ hi hl e; omega)
        | (have := inj _ _ hk hj e; omega)
        | (have := inj _ _ hk hi e; omega)
        | exact inj _ _ hk hl e

theorem sortCols_succ (n : Nat) (matrix : Nat → Nat → Nat) (order0 : Nat → Nat) (k : Nat) :
    sortCols n matrix order0 (k + 1) = stepCol n (sortCols n matrix order0 k) k := by
  simp [sortCols, List.range_succ, List.foldl_append]

theorem sortCols_inv (n : Nat) (matrix : Nat → Nat → Nat) (order0 : Nat → Nat)
    (h0 : PermBelow n order0) (k : Nat) (hk : k ≤ n) :
    PermBelow n (sortCols n matrix order0 k).order ∧
    ∀ r c, (sortCols n matrix order0 k).arr r c = matrix r ((sortCols n matrix order0 k).order c) := by
  induction k with
  | zero => exact ⟨h0, fun _ _ => rfl⟩
  | succ k ih =>
    obtain ⟨hp, ha⟩ := ih (by omega)
    rw [sortCols_succ]
    have hm := argmaxFrom_mem ((sortCols n matrix order0 k).arr k) k (n - 1 - k)
    refine ⟨swapAt_perm hp (by omega) (by omega), fun r c => ?_⟩
    show swapAt ((sortCols n matrix order0 k).arr r) _ _ c = matrix r (swapAt _ _ _ c)
    unfold swapAt
    split
    · exact ha _ _
    · split
      · exact ha _ _
      · exact ha _ _

theorem invertOrder_spec (n : Nat) (order : Nat → Nat) (h : PermBelow n order) (k : Nat) (hk : k < n) :
    invertOrder n order (order k) = some k := by
  have key : ∀ m, m ≤ n → ∀ k, k < m →
      (List.range m).foldl (fun (m : Nat → Option Nat) k => fun j => if j = order k then some k else m j)
        (fun _ => none) (order k) = some k := by
    intro m
    induction m with
    | zero => intro _ k hk; omega
    | succ m ih =>
      intro hm k hk
      rw [List.range_succ, List.foldl_append]
      simp only [List.foldl_cons, List.foldl_nil]
      by_cases e : k = m
      · rw [e, if_pos rfl]
      · rw [if_neg (fun h' => e (h.inj k m (by omega) (by omega) h'))]
        exact ih (by omega) k (by omega)
  exact key n (Nat.le_refl n) k hk

/-- the label map is a permutation `π` of the ranks -/
theorem argSortRows_perm (n : Nat) (matrix : Nat → Nat → Nat) (order0 : Nat → Nat)
    (h0 : PermBelow n order0) :
    ∃ π : Nat → Nat, PermBelow n π ∧ ∀ j, j < n → argSortRows n matrix order0 j = some (π j) := by
  have hp := (sortCols_inv n matrix order0 h0 n (Nat.le_refl n)).1
  have hex : ∀ j, ∃ k, j < n → (k < n ∧ (sortCols n matrix order0 n).order k = j) := by
    intro j
    by_cases hj : j < n
    · obtain ⟨k, hk⟩ := hp.surj j hj; exact ⟨k, fun _ => hk⟩
    · exact ⟨0, fun h => absurd h hj⟩
  choose π hπ using hex
  refine ⟨π, ⟨fun k hk => (hπ k hk).1, fun k l hk hl e => ?_⟩, fun j hj => ?_⟩
  · rw [← (hπ k hk).2, ← (hπ l hl).2, e]
  · have := invertOrder_spec n _ hp (π j) (hπ j hj).1
    rw [(hπ j hj).2] at this
    exact this

theorem mapM_some {α β : Type} (f : α → Option β) (g : α → β) (l : List α) (h : ∀ a ∈ l, f a = some (g a)) :
    l.mapM f = some (l.map g) := by
  induction l with
  | nil => rfl
  | cons a l ih =>
    rw [List.mapM_cons, h a (by simp), ih (fun b hb => h b (by simp [hb]))]
    rfl

/-- when the parts are the previous ranks up to labels (`match`), column `match i` ends up in
position `i` -/
theorem sortCols_match (n : Nat) (matrix : Nat → Nat → Nat) (order0 mt : Nat → Nat)
    (h0 : PermBelow n order0) (hm : PermBelow n mt)
    (hpos : ∀ i, i < n → 0 < matrix i (mt i))
    (hzero : ∀ i j, i < n → j < n → j ≠ mt i → matrix i j = 0) (k : Nat) (hk : k ≤ n) :
    ∀ i, i < k → (sortCols n matrix order0 k).order i = mt i := by
  induction k with
  | zero => intro i hi; omega
  | succ k ih =>
    have ih := ih (by omega)
    obtain ⟨hp, ha⟩ := sortCols_inv n matrix order0 h0 k (by omega)
    rw [sortCols_succ]
    obtain ⟨c, hc, ec⟩ := hp.surj (mt k) (hm.lt k (by omega))
    have hck : k ≤ c := by
      by_contra hlt
      have := ih c (by omega)
      rw [ec] at this
      have := hm.inj k c (by omega) hc this
      omega
    have hmem := argmaxFrom_mem ((sortCols n matrix order0 k).arr k) k (n - 1 - k)
    have hmax := argmaxFrom_max ((sortCols n matrix order0 k).arr k) k (n - 1 - k) c hck (by omega)
    have hx : (sortCols n matrix order0 k).order
        (argmaxFrom ((sortCols n matrix order0 k).arr k) k (n - 1 - k)) = mt k := by
      by_contra hne
      rw [ha, ha, ec, hzero k _ (by omega) (hp.lt _ (by omega)) hne] at hmax
      have := hpos k (by omega)
      omega
    intro i hi
    show swapAt (sortCols n matrix order0 k).order _ _ i = mt i
    unfold swapAt
    by_cases e : i = k
    · rw [if_pos e, hx, e]
    · rw [if_neg e, if_neg (by omega)]
      exact ih i (by omega)

end Verif.Rank
