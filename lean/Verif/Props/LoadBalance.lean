import Verif.Proofs.LoadBalance
import Verif.Model.Rank
import Verif.Model.Neighbors
import Mathlib.Tactic.IntervalCases
import Mathlib.Tactic.Linarith
import Mathlib.Algebra.Order.Field.Rat
/-!
# C28 — load balancing moves patches without losing any

`Job R n own newRanks` (Verif/Proofs/LoadBalance.lean) says that `R` ranks together own patches
`0 .. n-1`, each exactly once, each patch knows the rank it is on, and `newRanks` names a rank below
`R` for each patch (what C27 proves of `compute_rank`).  `Steps k (start …) s` is an arbitrary
interleaving of the ranks' MPI calls.
-/
namespace Verif.LoadBalanceProps
open Verif.LoadBalance Verif.Message

variable {α : Type}

/-- **C28.** For every distribution of the patches and every new rank map: every rank can compute its
exchange plan (no `KeyError`/`ValueError`); whatever the interleaving, the exchange never deadlocks
and stops after a bounded number of calls; when it stops no message is left over, and rank `r` holds
exactly the patches the new map names, each once, with contents unchanged and `rank = r`; and its
`indices` list matches. -/
theorem balance_moves_patches (R n : Nat) (own : Nat → Patches α) (newRanks : List Nat)
    (h : Job R n own newRanks) :
    ∃ pl : Nat → Plan α, (∀ r, r < R → plan R own newRanks r = some (pl r)) ∧
      ∀ (k : Nat) (s : Net (Patch α)),
        Steps k (start R (fun r => (pl r).sends) (fun r => (pl r).recvs)) s →
        k ≤ ∑ r ∈ Finset.range R, ((pl r).sends.length + (pl r).recvs.length + 1) ∧
        ((∃ s', Step s s') ∨
          ((∀ r, s.prog r = []) ∧ s.flight = [] ∧
            ∀ r, r < R → ∀ final, final = (pl r).finish r (s.got r) →
              final.indices = final.patches.map (·.index) ∧ final.indices.Nodup ∧
              ∀ q, q ∈ final.patches ↔ q.rank = r ∧ newRanks[q.index]? = some r ∧
                ∃ r', r' < R ∧ ∃ p ∈ (own r').patches, p.index = q.index ∧ p.data = q.data)) := by
  have hex : ∀ r, ∃ pl, r < R → (plan R own newRanks r = some pl ∧ PlanSpec R own newRanks r pl) := by
    intro r
    by_cases hr : r < R
    · obtain ⟨pl, hpl⟩ := plan_spec h hr; exact ⟨pl, fun _ => hpl⟩
    · exact ⟨⟨⟨[], []⟩, [], []⟩, fun h' => absurd h' hr⟩
  choose pl hpl using hex
  refine ⟨pl, fun r hr => (hpl r hr).1, fun k s hs => ?_⟩
  have hM := matched_of_plans h (fun r hr => (hpl r hr).2)
  obtain ⟨hk, hfin⟩ := delivers hM hs
  refine ⟨hk, ?_⟩
  by_cases hst : ∃ s', Step s s'
  · exact Or.inl hst
  right
  obtain ⟨h1, h2, h3⟩ := hfin (fun t ht => hst ⟨t, ht⟩)
  refine ⟨h1, h2, ?_⟩
  rintro r hr final rfl
  obtain ⟨hps⟩ := hpl r hr
  rename_i hspec
  obtain ⟨hw, hp⟩ := finish_spec (pl r) r hspec.wf (s.got r)
  have hgot := h3 r hr
  -- received patches: index = tag, owned by the sender
  have hg : List.Forall₂ (fun st (p : Patch α) => p.index = st.2 ∧ p ∈ (own st.1).patches)
      (pl r).recvs (s.got r) := by
    rw [List.forall₂_iff_get] at hgot ⊢
    refine ⟨hgot.1, fun i h1 h2 => ?_⟩
    have hm := hgot.2 i h1 h2
    have hin : (pl r).recvs.get ⟨i, h1⟩ ∈ (pl r).recvs := List.get_mem _ _
    have hs := (((hpl r hr).2.recv _ _).mp hin).2.1
    have := ((hpl _ hs).2.send r _ _).mp hm
    exact ⟨this.2.1.symm, this.1⟩
  have hgidx : (s.got r).map (·.index) = (pl r).recvs.map (·.2) := by
    clear hp hw hgot
    generalize (pl r).recvs = V at hg
    generalize s.got r = G at hg
    induction hg with
    | nil => rfl
    | cons h' _ ih => rw [List.map_cons, List.map_cons, ih, h'.1]
  refine ⟨hw, ?_, ?_⟩
  · rw [hw, hp, List.map_append, List.map_map]
    have : ((fun x : Patch α => x.index) ∘ fun q : Patch α => { q with rank := r }) = (fun x => x.index) := rfl
    rw [this, hgidx, hspec.kept]
    refine List.nodup_append.mpr ⟨(h.nodup hr).sublist (List.filter_sublist.map _), hspec.recvTags, ?_⟩
    intro a ha b hb e
    subst e
    obtain ⟨p, hp', e⟩ := List.mem_map.mp ha
    obtain ⟨x, hx, e'⟩ := List.mem_map.mp hb
    obtain ⟨g1, g2, g3, g4⟩ := (hspec.recv x.1 x.2).mp hx
    have hin := (List.mem_filter.mp hp').1
    exact g4 (h.unique g2 hr g3 (List.mem_map.mpr ⟨p, hin, by rw [e, e']⟩))
  · intro q
    rw [hp, List.mem_append, hspec.kept, List.mem_filter]
    constructor
    · rintro (⟨hq, hd⟩ | hq)
      · exact ⟨h.rank r hr q hq, of_decide_eq_true hd, r, hr, q, hq, rfl, rfl⟩
      · obtain ⟨p, hpg, rfl⟩ := List.mem_map.mp hq
        have : ∃ st ∈ (pl r).recvs, p.index = st.2 ∧ p ∈ (own st.1).patches := by
          clear hp hw hgot hq hgidx
          generalize (pl r).recvs = V at hg
          generalize s.got r = G at hg hpg
          induction hg with
          | nil => simp at hpg
          | cons h' _ ih =>
            rcases List.mem_cons.mp hpg with e | e
            · exact ⟨_, by simp, e ▸ h'⟩
            · obtain ⟨st, hst', h'⟩ := ih e
              exact ⟨st, by simp [hst'], h'⟩
        obtain ⟨st, hst', e1, e2⟩ := this
        obtain ⟨g1, g2, g3, g4⟩ := (hspec.recv st.1 st.2).mp hst'
        exact ⟨rfl, by rw [← e1] at g1; exact g1, st.1, g2, p, e2, rfl, rfl⟩
    · rintro ⟨hqr, hq2, r', hr', p, hp1, hp2, hp3⟩
      by_cases e : r' = r
      · subst e
        left
        have hpr := h.rank r' hr' p hp1
        have : p = q := by
          obtain ⟨a, b, c⟩ := p; obtain ⟨a', b', c'⟩ := q
          simp only at hp2 hp3 hqr hpr
          subst hp2 hp3 hqr hpr; rfl
        subst this
        exact ⟨hp1, by simpa using hq2⟩
      · right
        have hrecv : (r', q.index) ∈ (pl r).recvs :=
          (hspec.recv r' q.index).mpr ⟨hq2, hr', List.mem_map.mpr ⟨p, hp1, hp2⟩, e⟩
        have hi : q.index ∈ (s.got r).map (·.index) := by
          rw [hgidx]; exact List.mem_map.mpr ⟨_, hrecv, rfl⟩
        obtain ⟨p', hp', e'⟩ := List.mem_map.mp hi
        have : ∃ st ∈ (pl r).recvs, p'.index = st.2 ∧ p' ∈ (own st.1).patches := by
          clear hp hw hgot hgidx hi
          generalize (pl r).recvs = V at hg
          generalize s.got r = G at hg hp'
          induction hg with
          | nil => simp at hp'
          | cons h' _ ih =>
            rcases List.mem_cons.mp hp' with e | e
            · exact ⟨_, by simp, e ▸ h'⟩
            · obtain ⟨st, hst', h'⟩ := ih e
              exact ⟨st, by simp [hst'], h'⟩
        obtain ⟨st, hst', e1, e2⟩ := this
        obtain ⟨g1, g2, g3, g4⟩ := (hspec.recv st.1 st.2).mp hst'
        have hr1 : st.1 = r' := h.unique g2 hr' (List.mem_map.mpr ⟨p', e2, rfl⟩)
          (List.mem_map.mpr ⟨p, hp1, by rw [hp2, e']⟩)
        rw [hr1] at e2
        have : p' = p := List.inj_on_of_nodup_map (h.nodup hr') e2 hp1 (by rw [e', hp2])
        subst this
        refine List.mem_map.mpr ⟨p', hp', ?_⟩
        obtain ⟨a, b, c⟩ := p'; obtain ⟨a', b', c'⟩ := q
        simp only at hp2 hp3 hqr
        subst hp2 hp3 hqr; rfl

/-- non-vacuity: two ranks swap patches 1 and 2 -/
def exOwn : Nat → Patches String
  | 0 => ⟨[⟨0, 0, "a"⟩, ⟨1, 0, "b"⟩], [0, 1]⟩
  | _ => ⟨[⟨3, 1, "d"⟩, ⟨2, 1, "c"⟩], [3, 2]⟩

example : Job 2 4 exOwn [0, 1, 0, 1] ∧
    (plan 2 exOwn [0, 1, 0, 1] 0).map (fun p => (p.sends.map fun x => (x.1, x.2.1), p.recvs))
      = some ([(1, 1)], [(1, 2)]) := by
  refine ⟨⟨?_, ?_, ?_, rfl, by decide⟩, by decide⟩
  · intro r hr
    interval_cases r <;> rfl
  · decide
  · intro r hr p hp
    interval_cases r <;> simp [exOwn] at hp <;> rcases hp with rfl | rfl <;> rfl

/-- **C28, neighbour ranks after balancing.** `_compute_distribution` computes the neighbour ranks on
the complete list sorted by index, so both the 2D code (rank map) and the 3D code (position in the
list) name the new rank of the neighbour patch, or `-1` when that is the patch's own rank or there is
no neighbour. -/
theorem balanced_neighbour_ranks (newRanks : List Nat) (myRank idx r : Nat)
    (h : newRanks[idx]? = some r) :
    Neighbors.neighborRank2 (fun i => newRanks[i]?) myRank idx
      = some (if r = myRank then -1 else (r : Int)) ∧
    Neighbors.neighborRank3 newRanks (fun _ => none) myRank idx
      = some (if r = myRank then -1 else (r : Int)) ∧
    Neighbors.neighborRank2 (fun i => newRanks[i]?) myRank (-1) = some (-1) ∧
    Neighbors.neighborRank3 newRanks (fun _ => none) myRank (-1) = some (-1) := by
  refine ⟨?_, ?_, rfl, rfl⟩
  · unfold Neighbors.neighborRank2
    simp only [Int.toNat_natCast, h]
    rw [if_pos (by omega)]
    by_cases e : r = myRank <;> simp [e]
  · unfold Neighbors.neighborRank3
    rw [if_pos (by omega), Int.toNat_natCast, h]
    by_cases e : r = myRank <;> simp [e]

example : ([0, 1, 1, 0] : List Nat)[2]? = some 1 := rfl

/-- **The rebalance decision is collective only if no rank is empty.**  If every rank owns a patch,
all ranks enter the `allgather` (and hence compute the same decision from the same totals)... -/
theorem rebalance_collective (R : Nat) (loads : Nat → List Rat) (h : ∀ r, r < R → loads r ≠ []) :
    ∀ r, r < R → rebalanceCall (loads r) = some (loads r).sum := by
  intro r hr
  unfold rebalanceCall
  rw [if_neg (fun h' => h r hr (List.length_eq_zero_iff.mp h'))]

/-- ... but a rank without patches leaves `should_rebalance` before the collective while the others
wait in it (load_balancer.py 248-255): for 2 ranks with all 3 patches on rank 0 (a legal METIS
answer, which `compute_rank` passes on), rank 0 enters the collective and rank 1 never does. -/
theorem rebalance_decision_hangs_fails :
    ∃ (metis : List Nat) (ranks counts : List Nat),
      Rank.computeRank 2 metis none id = some (ranks, counts) ∧ (∀ r ∈ metis, r < 2) ∧
      (rebalanceCall ((ranks.filter (· = 0)).map fun _ => (1 : Rat))).isSome = true ∧
      rebalanceCall ((ranks.filter (· = 1)).map fun _ => (1 : Rat)) = none :=
  ⟨[0, 0, 0], [0, 0, 0], [3, 0], by decide, by decide, by decide, by decide⟩

theorem foldl_max_ge (l : List Rat) (x : Rat) : x ≤ l.foldl max x ∧ (∀ y ∈ l, y ≤ l.foldl max x) ∧
    (l.foldl max x = x ∨ l.foldl max x ∈ l) := by
  induction l generalizing x with
  | nil => exact ⟨le_refl _, by simp, Or.inl rfl⟩
  | cons a l ih =>
    obtain ⟨h1, h2, h3⟩ := ih (max x a)
    rw [List.foldl_cons]
    refine ⟨le_trans (le_max_left _ _) h1, ?_, ?_⟩
    · intro y hy
      rcases List.mem_cons.mp hy with rfl | hy
      · exact le_trans (le_max_right _ _) h1
      · exact h2 y hy
    · rcases h3 with h3 | h3
      · rw [h3]
        rcases max_choice x a with h | h
        · exact Or.inl h
        · exact Or.inr (by rw [h]; exact List.mem_cons_self)
      · exact Or.inr (List.mem_cons_of_mem _ h3)

theorem foldl_min_le (l : List Rat) (x : Rat) : l.foldl min x ≤ x ∧ (∀ y ∈ l, l.foldl min x ≤ y) ∧
    (l.foldl min x = x ∨ l.foldl min x ∈ l) := by
  induction l generalizing x with
  | nil => exact ⟨le_refl _, by simp, Or.inl rfl⟩
  | cons a l ih =>
    obtain ⟨h1, h2, h3⟩ := ih (min x a)
    rw [List.foldl_cons]
    refine ⟨le_trans h1 (min_le_left _ _), ?_, ?_⟩
    · intro y hy
      rcases List.mem_cons.mp hy with rfl | hy
      · exact le_trans h1 (min_le_right _ _)
      · exact h2 y hy
    · rcases h3 with h3 | h3
      · rw [h3]
        rcases min_choice x a with h | h
        · exact Or.inl h
        · exact Or.inr (by rw [h]; exact List.mem_cons_self)
      · exact Or.inr (List.mem_cons_of_mem _ h3)

/-- **When to rebalance.** With a positive total load, the patches are redistributed exactly when two ranks differ by more than
the threshold times the average load. -/
theorem rebalance_iff (threshold : Rat) (totals : List Rat) (hpos : 0 < totals.sum) :
    decision threshold totals = true ↔
      ∃ a ∈ totals, ∃ b ∈ totals, a - b > threshold * (totals.sum / totals.length) := by
  have hne : totals ≠ [] := by rintro rfl; simp at hpos
  obtain ⟨x, l, rfl⟩ := List.exists_cons_of_ne_nil hne
  have hlen : (0 : Rat) < (x :: l).length := by simp; positivity
  have havg : 0 < (x :: l).sum / ((x :: l).length : Rat) := div_pos hpos hlen
  obtain ⟨_, m2, m3⟩ := foldl_max_ge (x :: l) x
  obtain ⟨_, n2, n3⟩ := foldl_min_le (x :: l) x
  have mm : (x :: l).foldl max x ∈ x :: l := by
    rcases m3 with h | h
    · rw [h]; exact List.mem_cons_self
    · exact h
  have nn : (x :: l).foldl min x ∈ x :: l := by
    rcases n3 with h | h
    · rw [h]; exact List.mem_cons_self
    · exact h
  have e : decision threshold (x :: l) = decide (((x :: l).foldl max x - (x :: l).foldl min x) /
      ((x :: l).sum / ((x :: l).length : Rat)) > threshold) := by
    unfold decision
    dsimp only [List.headD_cons]
    rw [if_neg havg.ne']
  rw [e, decide_eq_true_iff, gt_iff_lt, lt_div_iff₀ havg]
  constructor
  · intro h; exact ⟨_, mm, _, nn, h⟩
  · rintro ⟨a, ha, b, hb, h⟩
    have := m2 a ha
    have := n2 b hb
    linarith

/-- without any load nothing is redistributed -/
theorem no_load_no_rebalance (threshold : Rat) (totals : List Rat) (h : totals.sum = 0) : decision threshold totals = false := by
  unfold decision
  dsimp only
  rw [h, zero_div, if_pos rfl]

example : (0 : Rat) < ([3, 1] : List Rat).sum ∧ decision (1 / 2) [3, 1] = true ∧ decision 2 [3, 1] = false := by decide +kernel

end Verif.LoadBalanceProps
