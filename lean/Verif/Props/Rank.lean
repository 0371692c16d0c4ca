import Verif.Proofs.Rank
import Mathlib.Algebra.BigOperators.Group.Finset.Basic
import Mathlib.Algebra.BigOperators.Group.Finset.Piecewise
import Mathlib.Algebra.BigOperators.Group.Finset.Sigma
import Mathlib.Algebra.Order.Field.Rat
import Mathlib.Data.List.Perm.Basic
/-!
# C27 — patch-to-rank assignment

Specification vocabulary: `load w ranks r` is the total weight of the patches that the list `ranks`
puts on rank `r`.  METIS' answer `metis`, the previous ranks `prev` and the tie-breaking column order
`order0` are arbitrary.
-/
namespace Verif.RankProps
open Verif.Rank

/-- total weight of the patches that `ranks` (entry `p` = rank of patch `p`) places on rank `r` -/
def load (w : Nat → ℚ) (ranks : List Nat) (r : Nat) : ℚ :=
  ∑ p ∈ Finset.range ranks.length, if ranks[p]? = some r then w p else 0

theorem permBelow_of_perm {n : Nat} {f : Nat → Nat} (h : ((List.range n).map f).Perm (List.range n)) :
    PermBelow n f := by
  constructor
  · intro k hk
    have : f k ∈ (List.range n).map f := List.mem_map.mpr ⟨k, List.mem_range.mpr hk, rfl⟩
    exact List.mem_range.mp (h.mem_iff.mp this)
  · intro k l hk hl e
    have hnd : ((List.range n).map f).Nodup := h.nodup_iff.mpr List.nodup_range
    exact List.inj_on_of_nodup_map hnd (List.mem_range.mpr hk) (List.mem_range.mpr hl) e

theorem sum_counts (n : Nat) (l : List Nat) (h : ∀ r ∈ l, r < n) :
    ((List.range n).map fun i => l.count i).sum = l.length := by
  induction l with
  | nil => simp
  | cons a l ih =>
    have ih := ih (fun r hr => h r (by simp [hr]))
    have ha := h a (by simp)
    simp only [List.count_cons, List.length_cons]
    rw [List.sum_map_add, ih]
    congr 1
    have : ∀ m, ((List.range m).map fun i => if (a == i) = true then 1 else 0).sum = if a < m then 1 else 0 := by
      intro m
      induction m with
      | zero => simp
      | succ m ihm =>
        rw [List.range_succ, List.map_append, List.sum_append, ihm]
        by_cases e : a = m
        · subst e; simp
        · by_cases hl : a < m
          · simp [e, hl]; omega
          · have : ¬ a < m + 1 := by omega
            simp [e, hl, this]
    rw [this, if_pos ha]

/-- **C27.** For every number of ranks, every METIS answer with part numbers in range, every previous
assignment and every tie-breaking order: `compute_rank` returns one rank in `[0, nrank)` for every
patch; two patches share a rank exactly when METIS put them in the same part, and the relabelling is a
permutation of the ranks, so part loads are only permuted; the reported patch counts are the true
ones and add up to the number of patches. -/
theorem compute_rank_partition (nrank : Nat) (metis : List Nat) (hm : ∀ r ∈ metis, r < nrank)
    (prev : Option (List Nat)) (order0 : Nat → Nat)
    (h0 : ((List.range nrank).map order0).Perm (List.range nrank)) :
    ∃ ranks counts, computeRank nrank metis prev order0 = some (ranks, counts) ∧
      ranks.length = metis.length ∧ (∀ r ∈ ranks, r < nrank) ∧
      (∀ p q : Nat, p < metis.length → q < metis.length →
        (ranks[p]? = ranks[q]? ↔ metis[p]? = metis[q]?)) ∧
      (∃ π : Nat → Nat, ((List.range nrank).map π).Perm (List.range nrank) ∧
        ∀ (w : Nat → ℚ) (j : Nat), j < nrank → load w ranks (π j) = load w metis j) ∧
      counts.length = nrank ∧ (∀ i, i < nrank → counts[i]? = some (ranks.count i)) ∧
      counts.sum = metis.length := by
  obtain ⟨π, hπ, hf⟩ := argSortRows_perm nrank (nsame (prevOrZero metis.length prev) metis) order0
    (permBelow_of_perm h0)
  have hmap : metis.mapM (argSortRows nrank (nsame (prevOrZero metis.length prev) metis) order0)
      = some (metis.map π) := mapM_some _ π metis (fun a ha => hf a (hm a ha))
  have hlt : ∀ r ∈ metis.map π, r < nrank := by
    intro r hr
    obtain ⟨a, ha, rfl⟩ := List.mem_map.mp hr
    exact hπ.lt a (hm a ha)
  refine ⟨metis.map π, (List.range nrank).map fun i => (metis.map π).count i, ?_, by simp, hlt, ?_, ?_,
    by simp, ?_, ?_⟩
  · unfold computeRank; rw [hmap]
  · intro p q hp hq
    simp only [List.getElem?_map, List.getElem?_eq_getElem hp, List.getElem?_eq_getElem hq,
      Option.map_some, Option.some.injEq]
    constructor
    · exact hπ.inj _ _ (hm _ (List.getElem_mem hp)) (hm _ (List.getElem_mem hq))
    · intro e; rw [e]
  · refine ⟨π, ?_, ?_⟩
    · have hnd : ((List.range nrank).map π).Nodup := by
        rw [List.nodup_map_iff_inj_on List.nodup_range]
        intro a ha b hb e
        exact hπ.inj a b (List.mem_range.mp ha) (List.mem_range.mp hb) e
      refine (List.perm_ext_iff_of_nodup hnd List.nodup_range).mpr (fun a => ?_)
      rw [List.mem_map, List.mem_range]
      constructor
      · rintro ⟨b, hb, rfl⟩; exact hπ.lt b (List.mem_range.mp hb)
      · intro ha
        obtain ⟨k, hk, e⟩ := hπ.surj a ha
        exact ⟨k, List.mem_range.mpr hk, e⟩
    · intro w j hj
      unfold load
      rw [List.length_map]
      refine Finset.sum_congr rfl (fun p hp => ?_)
      have hp := Finset.mem_range.mp hp
      simp only [List.getElem?_map, List.getElem?_eq_getElem hp, Option.map_some, Option.some.injEq]
      by_cases e : metis[p] = j
      · rw [if_pos e, if_pos (by rw [e])]
      · rw [if_neg e, if_neg (fun h => e (hπ.inj _ _ (hm _ (List.getElem_mem hp)) hj h))]
  · intro i hi; simp [hi]
  · rw [sum_counts nrank _ hlt, List.length_map]

/-- 5 patches, 3 ranks; METIS calls the previous rank 0 "2", rank 1 "0" and rank 2 "1" and moves
patch 4 from rank 2 to the part of rank 0: only patch 4 changes rank. -/
example : computeRank 3 [2, 2, 0, 1, 2] (some [0, 0, 1, 2, 2]) (fun k => 2 - k)
    = some ([0, 0, 1, 2, 0], [3, 1, 1]) ∧ (∀ r ∈ [2, 2, 0, 1, 2], r < 3) ∧
    ((List.range 3).map fun k => 2 - k).Perm (List.range 3) := by
  refine ⟨by decide, by decide, by decide⟩

/-- **C27, stability.** If METIS returns the current partition under other part names (`name i` is its
name for rank `i`) and no rank is empty, then no patch changes rank. -/
theorem same_partition_keeps_ranks (nrank : Nat) (prev : List Nat) (hp : ∀ r ∈ prev, r < nrank)
    (hne : ∀ r, r < nrank → r ∈ prev) (name : Nat → Nat)
    (hname : ((List.range nrank).map name).Perm (List.range nrank)) (order0 : Nat → Nat)
    (h0 : ((List.range nrank).map order0).Perm (List.range nrank)) :
    ∃ counts, computeRank nrank (prev.map name) (some prev) order0 = some (prev, counts) := by
  have hn := permBelow_of_perm hname
  have ho := permBelow_of_perm h0
  have hsame : ∀ i j, nsame prev (prev.map name) i j
      = (prev.filter fun r => r = i ∧ name r = j).length := by
    intro i j
    unfold nsame
    have hz : ∀ l : List Nat, l.zip (l.map name) = l.map fun r => (r, name r) := by
      intro l; induction l with
      | nil => rfl
      | cons a l ih => simp [ih]
    rw [hz, List.filter_map, List.length_map]
    rfl
  have hord := sortCols_match nrank (nsame prev (prev.map name)) order0 name ho hn
    (by
      intro i hi
      rw [hsame]
      refine List.length_pos_of_mem (a := i) ?_
      rw [List.mem_filter]
      exact ⟨hne i hi, by simp⟩)
    (by
      intro i j hi hj hij
      rw [hsame, List.length_eq_zero_iff, List.filter_eq_nil_iff]
      intro r _ h
      have h := of_decide_eq_true h
      exact hij (by rw [← h.2, h.1]))
    nrank (Nat.le_refl _)
  have hperm := (sortCols_inv nrank (nsame prev (prev.map name)) order0 ho nrank (Nat.le_refl _)).1
  have hmap : (prev.map name).mapM (argSortRows nrank (nsame prev (prev.map name)) order0)
      = some prev := by
    have : ∀ l : List Nat, (∀ r ∈ l, r < nrank) →
        (l.map name).mapM (argSortRows nrank (nsame prev (prev.map name)) order0) = some l := by
      intro l
      induction l with
      | nil => intro _; rfl
      | cons a l ih =>
        intro hl
        have ha : argSortRows nrank (nsame prev (prev.map name)) order0 (name a) = some a := by
          have := invertOrder_spec nrank _ hperm a (hl a (by simp))
          rw [hord a (hl a (by simp))] at this
          exact this
        rw [List.map_cons, List.mapM_cons, ha, ih (fun r hr => hl r (by simp [hr]))]
        rfl
    exact this prev hp
  refine ⟨(List.range nrank).map fun i => prev.count i, ?_⟩
  unfold computeRank
  rw [prevOrZero, hmap]

example : (∀ r ∈ [1, 0, 2, 1], r < 3) ∧ (∀ r, r < 3 → r ∈ [1, 0, 2, 1]) ∧
    ((List.range 3).map fun k => (k + 1) % 3).Perm (List.range 3) ∧
    computeRank 3 ([1, 0, 2, 1].map fun k => (k + 1) % 3) (some [1, 0, 2, 1]) id
      = some ([1, 0, 2, 1], [1, 2, 1]) := by
  refine ⟨by decide, by decide, by decide, by decide⟩

/-- The relabelling is greedy and **does not maximise** the number of patches that stay: rows are
served in rank order.  With overlap counts `[[2, 3], [0, 3]]` the best labelling keeps 5 of 8
patches, `compute_rank` keeps 3. -/
theorem relabelling_not_optimal :
    ∃ (metis prev best : List Nat) (counts ranks : List Nat),
      computeRank 2 metis (some prev) id = some (ranks, counts) ∧
      (∀ p q, p < 8 → q < 8 → (best[p]? = best[q]? ↔ metis[p]? = metis[q]?)) ∧
      ((ranks.zip prev).filter fun x => x.1 = x.2).length <
        ((best.zip prev).filter fun x => x.1 = x.2).length :=
  ⟨[0, 0, 1, 1, 1, 1, 1, 1], [0, 0, 0, 0, 0, 1, 1, 1], [0, 0, 1, 1, 1, 1, 1, 1], [6, 2],
    [1, 1, 0, 0, 0, 0, 0, 0], by decide, fun _ _ _ _ => Iff.rfl, by decide⟩

end Verif.RankProps
