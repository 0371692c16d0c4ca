import Verif.Model.LoadBalance
import Verif.Proofs.Message
import Mathlib.Data.List.Sort
import Mathlib.Data.List.Nodup
/-! Lemmas for C28. -/
namespace Verif.LoadBalance
open Verif.Message
variable {α : Type}

theorem eraseIdx_idxOf (l : List (Patch α)) (i : Nat) (hnd : (l.map (·.index)).Nodup) :
    l.eraseIdx ((l.map (·.index)).idxOf i) = l.filter (fun p => p.index ≠ i) ∧
    (l.map (·.index)).erase i = (l.filter (fun p => p.index ≠ i)).map (·.index) := by
  induction l with
  | nil => simp
  | cons a l ih =>
    rw [List.map_cons, List.nodup_cons] at hnd
    by_cases e : a.index = i
    · have hall : l.filter (fun p => p.index ≠ i) = l := by
        rw [List.filter_eq_self]
        intro p hp
        simp only [ne_eq, decide_not, Bool.not_eq_eq_eq_not, Bool.not_true, decide_eq_false_iff_not]
        intro h
        exact hnd.1 (List.mem_map.mpr ⟨p, hp, by rw [h, e]⟩)
      have h2 : (a :: l).filter (fun p => p.index ≠ i) = l.filter (fun p => p.index ≠ i) :=
        List.filter_cons_of_neg (by simp [e])
      rw [h2, hall, List.map_cons, e]
      simp
    · obtain ⟨h1, h2⟩ := ih hnd.2
      have h3 : (a :: l).filter (fun p => p.index ≠ i) = a :: l.filter (fun p => p.index ≠ i) :=
        List.filter_cons_of_pos (by simp [e])
      rw [h3, List.map_cons, List.map_cons, List.idxOf_cons_ne _ e, List.eraseIdx_cons_succ, h1]
      refine ⟨rfl, ?_⟩
      rw [List.erase_cons_tail (by simpa using e), h2]

/-- the two lists of a `Patches` object agree -/
def WF (ps : Patches α) : Prop := ps.indices = ps.patches.map (·.index)

theorem pop_spec (ps : Patches α) (hw : WF ps) (hnd : (ps.patches.map (·.index)).Nodup) (i : Nat)
    (hi : i ∈ ps.patches.map (·.index)) :
    ∃ p ps', ps.pop i = some (p, ps') ∧ WF ps' ∧ ps'.patches = ps.patches.filter (fun p => p.index ≠ i) ∧
      p ∈ ps.patches ∧ p.index = i := by
  unfold Patches.pop
  rw [hw, if_pos hi]
  have hlt : (ps.patches.map (·.index)).idxOf i < ps.patches.length := by
    have := List.idxOf_lt_length_iff.mpr hi
    simpa using this
  rw [List.getElem?_eq_getElem hlt]
  obtain ⟨h1, h2⟩ := eraseIdx_idxOf ps.patches i hnd
  refine ⟨_, _, rfl, ?_, h1, List.getElem_mem hlt, ?_⟩
  · unfold WF
    rw [h1, h2]
  · have := List.getElem_idxOf (List.idxOf_lt_length_iff.mpr hi)
    rw [List.getElem_map] at this
    exact this

theorem popAll_spec (l : List Nat) : ∀ (ps : Patches α), WF ps → (ps.patches.map (·.index)).Nodup →
    l.Nodup → (∀ i ∈ l, i ∈ ps.patches.map (·.index)) →
    ∃ out kept, popAll ps l = some (out, kept) ∧ WF kept ∧
      kept.patches = ps.patches.filter (fun p => p.index ∉ l) ∧
      out.map (·.index) = l ∧ ∀ p ∈ out, p ∈ ps.patches := by
  induction l with
  | nil => intro ps hw _ _ _; exact ⟨[], ps, rfl, hw, by simp, rfl, by simp⟩
  | cons i l ih =>
    intro ps hw hnd hl hsub
    obtain ⟨p, ps1, e1, hw1, hp1, hm, hi⟩ := pop_spec ps hw hnd i (hsub i (by simp))
    rw [List.nodup_cons] at hl
    have hnd1 : (ps1.patches.map (·.index)).Nodup := by
      rw [hp1]; exact hnd.sublist (List.filter_sublist.map _)
    obtain ⟨out, kept, e2, hw2, hp2, ho, hom⟩ := ih ps1 hw1 hnd1 hl.2 (by
      intro j hj
      have := hsub j (by simp [hj])
      rw [hp1]
      obtain ⟨q, hq, eq⟩ := List.mem_map.mp this
      refine List.mem_map.mpr ⟨q, List.mem_filter.mpr ⟨hq, ?_⟩, eq⟩
      have : q.index ≠ i := by rw [eq]; intro h; exact hl.1 (h ▸ hj)
      simpa using this)
    refine ⟨p :: out, kept, ?_, hw2, ?_, ?_, ?_⟩
    · simp only [popAll, e1, e2]
    · rw [hp2, hp1, List.filter_filter]
      congr 1
      funext q
      simp only [List.mem_cons, not_or, ne_eq, decide_not, Bool.decide_and]
      rw [Bool.and_comm]
    · rw [List.map_cons, hi, ho]
    · intro q hq
      rcases List.mem_cons.mp hq with e | e
      · rw [e]; exact hm
      · have := hom q e
        rw [hp1] at this
        exact (List.mem_filter.mp this).1

section job
variable {R n : Nat} {own : Nat → Patches α} {newRanks : List Nat}

/-- a consistent job state: the ranks together own patches 0..n-1, each exactly once -/
structure Job (R n : Nat) (own : Nat → Patches α) (newRanks : List Nat) : Prop where
  wf : ∀ r, r < R → WF (own r)
  all : ((List.range R).flatMap fun r => (own r).patches.map (·.index)).Perm (List.range n)
  rank : ∀ r, r < R → ∀ p ∈ (own r).patches, p.rank = r
  len : newRanks.length = n
  lt : ∀ r ∈ newRanks, r < R

theorem Job.nodup (h : Job R n own newRanks) {r : Nat} (hr : r < R) :
    ((own r).patches.map (·.index)).Nodup := by
  have := h.all.nodup_iff.mpr List.nodup_range
  rw [List.nodup_flatMap] at this
  exact this.1 r (List.mem_range.mpr hr)

theorem Job.unique (h : Job R n own newRanks) {r s i : Nat} (hr : r < R) (hs : s < R)
    (h1 : i ∈ (own r).patches.map (·.index)) (h2 : i ∈ (own s).patches.map (·.index)) : r = s := by
  have := h.all.nodup_iff.mpr List.nodup_range
  rw [List.nodup_flatMap] at this
  by_contra hne
  have hp := this.2
  rcases Nat.lt_or_gt_of_ne hne with hlt | hlt
  · have := (List.pairwise_iff_getElem.mp hp) r s (by simpa using hr) (by simpa using hs) hlt
    simp only [List.getElem_range] at this
    exact this h1 h2
  · have := (List.pairwise_iff_getElem.mp hp) s r (by simpa using hs) (by simpa using hr) hlt
    simp only [List.getElem_range] at this
    exact this h2 h1

theorem Job.owner (h : Job R n own newRanks) {i : Nat} :
    i < n ↔ ∃ r, r < R ∧ i ∈ (own r).patches.map (·.index) := by
  have := h.all.mem_iff (a := i)
  rw [List.mem_range, List.mem_flatMap] at this
  rw [← this]
  constructor
  · rintro ⟨r, hr, hi⟩; exact ⟨r, List.mem_range.mp hr, hi⟩
  · rintro ⟨r, hr, hi⟩; exact ⟨r, List.mem_range.mpr hr, hi⟩

theorem Job.sorted (h : Job R n own newRanks) : allSorted R own = List.range n := by
  unfold allSorted
  refine List.Perm.eq_of_pairwise (le := fun a b => a ≤ b) ?_ ?_ ?_ ?_
  · intro a b _ _ h1 h2; exact Nat.le_antisymm h1 h2
  · exact List.pairwise_insertionSort _ _
  · exact List.pairwise_le_range
  · exact (List.perm_insertionSort _ _).trans h.all

theorem Job.mem_assignment (h : Job R n own newRanks) (i r : Nat) :
    (i, r) ∈ assignment R own newRanks ↔ newRanks[i]? = some r := by
  unfold assignment
  rw [h.sorted, List.mem_iff_getElem?]
  constructor
  · rintro ⟨k, hk⟩
    rw [List.getElem?_zip_eq_some] at hk
    obtain ⟨h1, h2⟩ := hk
    have : k = i := by
      rw [List.getElem?_eq_some_iff] at h1
      obtain ⟨_, e⟩ := h1
      simpa using e
    rw [← this]; exact h2
  · intro hi
    refine ⟨i, ?_⟩
    rw [List.getElem?_zip_eq_some]
    refine ⟨?_, hi⟩
    have : i < n := by
      rw [← h.len]
      exact (List.getElem?_eq_some_iff.mp hi).1
    simp [this]

theorem Job.mem_patchesNew (h : Job R n own newRanks) (i r : Nat) :
    i ∈ patchesNew R own newRanks r ↔ newRanks[i]? = some r := by
  unfold patchesNew
  rw [List.mem_map]
  constructor
  · rintro ⟨⟨a, b⟩, hx, rfl⟩
    obtain ⟨h1, h2⟩ := List.mem_filter.mp hx
    have : b = r := of_decide_eq_true h2
    rw [← h.mem_assignment, ← this]; exact h1
  · intro hi
    exact ⟨(i, r), List.mem_filter.mpr ⟨(h.mem_assignment i r).mpr hi, by simp⟩, rfl⟩

theorem Job.nodup_patchesNew (h : Job R n own newRanks) (r : Nat) :
    (patchesNew R own newRanks r).Nodup := by
  unfold patchesNew
  have : ((assignment R own newRanks).map (·.1)).Nodup := by
    unfold assignment
    rw [h.sorted, List.map_fst_zip (by rw [List.length_range, h.len])]
    exact List.nodup_range
  exact this.sublist (List.filter_sublist.map _)

theorem lookup_of_mem {β : Type} (l : List (Nat × β)) (h : (l.map (·.1)).Nodup) (i : Nat) (b : β)
    (hm : (i, b) ∈ l) : l.lookup i = some b := by
  induction l with
  | nil => simp at hm
  | cons a l ih =>
    rw [List.map_cons, List.nodup_cons] at h
    obtain ⟨a1, a2⟩ := a
    rcases List.mem_cons.mp hm with e | e
    · obtain ⟨rfl, rfl⟩ := Prod.mk.inj e
      simp [List.lookup]
    · have : i ≠ a1 := by
        rintro rfl
        exact h.1 (List.mem_map.mpr ⟨_, e, rfl⟩)
      have hb : (i == a1) = false := by simpa using this
      rw [List.lookup_cons, hb]
      exact ih h.2 e

theorem Job.indexToNew (h : Job R n own newRanks) {i r : Nat} (hi : newRanks[i]? = some r) :
    indexToNew R own newRanks i = some r := by
  unfold LoadBalance.indexToNew
  refine lookup_of_mem _ ?_ i r (by rw [List.mem_reverse]; exact (h.mem_assignment i r).mpr hi)
  rw [List.map_reverse, List.nodup_reverse]
  unfold assignment
  rw [h.sorted, List.map_fst_zip (by rw [List.length_range, h.len])]
  exact List.nodup_range

theorem Job.indexToOld (h : Job R n own newRanks) {i r : Nat} (hr : r < R)
    (hi : i ∈ (own r).patches.map (·.index)) : indexToOld own R i = some r := by
  unfold LoadBalance.indexToOld
  have key : ∀ m, m ≤ R → (List.range m).foldl
      (fun acc r => if i ∈ (own r).patches.map (·.index) then some r else acc) none
        = if r < m then some r else none := by
    intro m
    induction m with
    | zero => intro _; simp
    | succ m ih =>
      intro hm
      rw [List.range_succ, List.foldl_append, ih (by omega)]
      simp only [List.foldl_cons, List.foldl_nil]
      by_cases e : i ∈ (own m).patches.map (·.index)
      · have := h.unique hr (by omega) hi e
        rw [if_pos e, if_pos (by omega), this]
      · rw [if_neg e]
        have : r ≠ m := fun e' => e (e' ▸ hi)
        by_cases hlt : r < m
        · rw [if_pos hlt, if_pos (by omega)]
        · rw [if_neg hlt, if_neg (by omega)]
  rw [key R (Nat.le_refl R), if_pos hr]

theorem sendList_spec (h : Job R n own newRanks) (out : List (Patch α))
    (ho : ∀ p ∈ out, p.index < n) :
    ∃ l, sendList R own newRanks out = some l ∧ l.map (fun x => x.2.2) = out ∧
      ∀ x ∈ l, x.2.1 = x.2.2.index ∧ newRanks[x.2.2.index]? = some x.1 := by
  induction out with
  | nil => exact ⟨[], rfl, rfl, by simp⟩
  | cons p out ih =>
    obtain ⟨l, e, h1, h2⟩ := ih (fun q hq => ho q (by simp [hq]))
    have hp := ho p (by simp)
    have hg : newRanks[p.index]? = some (newRanks[p.index]'(by rw [h.len]; exact hp)) :=
      List.getElem?_eq_getElem _
    refine ⟨(newRanks[p.index]'(by rw [h.len]; exact hp), p.index, p) :: l, ?_, by rw [List.map_cons, h1], ?_⟩
    · unfold sendList at e ⊢
      rw [List.mapM_cons, e, h.indexToNew hg]
      rfl
    · intro x hx
      rcases List.mem_cons.mp hx with e' | e'
      · rw [e']; exact ⟨rfl, hg⟩
      · exact h2 x e'

theorem recvList_spec (h : Job R n own newRanks) {r : Nat} (is : List Nat)
    (hi : ∀ i ∈ is, i < n ∧ i ∉ (own r).patches.map (·.index)) :
    ∃ l, recvList R own r is = some l ∧ l.map (·.2) = is ∧
      ∀ x ∈ l, x.1 < R ∧ x.2 ∈ (own x.1).patches.map (·.index) := by
  induction is with
  | nil => exact ⟨[], rfl, rfl, by simp⟩
  | cons i is ih =>
    obtain ⟨l, e, h1, h2⟩ := ih (fun q hq => hi q (by simp [hq]))
    obtain ⟨hn, hno⟩ := hi i (by simp)
    obtain ⟨s, hs, hsi⟩ := h.owner.mp hn
    have hsr : s ≠ r := fun e => hno (e ▸ hsi)
    refine ⟨(s, i) :: l, ?_, by rw [List.map_cons, h1], ?_⟩
    · simp only [recvList, h.indexToOld hs hsi, e, if_neg hsr]
    · intro x hx
      rcases List.mem_cons.mp hx with e' | e'
      · rw [e']; exact ⟨hs, hsi⟩
      · exact h2 x e'

/-- what the plan of rank `r` looks like -/
structure PlanSpec (R : Nat) (own : Nat → Patches α) (newRanks : List Nat) (r : Nat) (pl : Plan α) :
    Prop where
  wf : WF pl.kept
  kept : pl.kept.patches = (own r).patches.filter (fun p => decide (newRanks[p.index]? = some r))
  sendTags : (pl.sends.map (fun x => x.2.1)).Nodup
  send : ∀ d t p, (d, t, p) ∈ pl.sends ↔
    p ∈ (own r).patches ∧ t = p.index ∧ newRanks[p.index]? = some d ∧ d ≠ r
  recvTags : (pl.recvs.map (fun x => x.2)).Nodup
  recv : ∀ s t, (s, t) ∈ pl.recvs ↔
    newRanks[t]? = some r ∧ s < R ∧ t ∈ (own s).patches.map (·.index) ∧ s ≠ r

theorem plan_spec (h : Job R n own newRanks) {r : Nat} (hr : r < R) :
    ∃ pl, plan R own newRanks r = some pl ∧ PlanSpec R own newRanks r pl := by
  have hmem : ∀ p ∈ (own r).patches, p.index < n := fun p hp =>
    h.owner.mpr ⟨r, hr, List.mem_map.mpr ⟨p, hp, rfl⟩⟩
  obtain ⟨out, kept, e1, hw, hk, ho, hom⟩ := popAll_spec
    (((own r).patches.map (·.index)).filter fun i => i ∉ patchesNew R own newRanks r) (own r)
    (h.wf r hr) (h.nodup hr) ((h.nodup hr).filter _)
    (fun i hi => (List.mem_filter.mp hi).1)
  obtain ⟨s, e2, hs1, hs2⟩ := sendList_spec h out (fun p hp => hmem p (hom p hp))
  obtain ⟨v, e3, hv1, hv2⟩ := recvList_spec h (r := r)
    ((patchesNew R own newRanks r).filter fun i => i ∉ (own r).patches.map (·.index))
    (by
      intro i hi
      obtain ⟨h1, h2⟩ := List.mem_filter.mp hi
      have := (h.mem_patchesNew i r).mp h1
      refine ⟨?_, of_decide_eq_true h2⟩
      rw [← h.len]; exact (List.getElem?_eq_some_iff.mp this).1)
  refine ⟨⟨kept, s, v⟩, ?_, ?_⟩
  · unfold plan
    simp only [e1, e2, e3]
  · refine ⟨hw, ?_, ?_, ?_, ?_, ?_⟩
    · show kept.patches = _
      rw [hk]
      refine List.filter_congr (fun p hp => ?_)
      rw [decide_eq_decide, List.mem_filter]
      rw [not_and]
      have h1 : p.index ∈ (own r).patches.map (·.index) := List.mem_map.mpr ⟨p, hp, rfl⟩
      constructor
      · intro h2
        have := h2 h1
        rw [← h.mem_patchesNew]
        simpa using this
      · intro h2 _
        rw [← h.mem_patchesNew] at h2
        simpa using h2
    · show (s.map (fun x => x.2.1)).Nodup
      have : s.map (fun x => x.2.1) = out.map (·.index) := by
        rw [← hs1, List.map_map]
        exact List.map_congr_left (fun x hx => (hs2 x hx).1)
      rw [this, ho]
      exact (h.nodup hr).filter _
    · intro d t p
      constructor
      · intro hx
        obtain ⟨h1, h2⟩ := hs2 _ hx
        have hp : p ∈ out := by rw [← hs1]; exact List.mem_map.mpr ⟨_, hx, rfl⟩
        refine ⟨hom p hp, h1, h2, ?_⟩
        have : p.index ∈ ((own r).patches.map (·.index)).filter fun i => i ∉ patchesNew R own newRanks r := by
          rw [← ho]; exact List.mem_map.mpr ⟨p, hp, rfl⟩
        have := of_decide_eq_true (List.mem_filter.mp this).2
        rw [h.mem_patchesNew] at this
        intro e
        simp only at h2
        rw [h2, e] at this
        exact this rfl
      · rintro ⟨h1, h2, h3, h4⟩
        have : p.index ∈ out.map (·.index) := by
          rw [ho, List.mem_filter]
          refine ⟨List.mem_map.mpr ⟨p, h1, rfl⟩, ?_⟩
          rw [decide_eq_true_iff, h.mem_patchesNew, h3]
          intro e; exact h4 (Option.some.inj e)
        obtain ⟨q, hq, eq⟩ := List.mem_map.mp this
        have hpq : q = p := List.inj_on_of_nodup_map (h.nodup hr) (hom q hq) h1 eq
        rw [hpq, ← hs1] at hq
        obtain ⟨x, hx, ex⟩ := List.mem_map.mp hq
        obtain ⟨g1, g2⟩ := hs2 x hx
        obtain ⟨x1, x2, x3⟩ := x
        simp only at ex g1 g2
        subst ex
        rw [h3] at g2
        rw [h2, Option.some.inj g2, ← g1]
        exact hx
    · show (v.map (fun x => x.2)).Nodup
      rw [hv1]; exact (h.nodup_patchesNew r).filter _
    · intro s' t
      constructor
      · intro hx
        obtain ⟨h1, h2⟩ := hv2 _ hx
        have ht : t ∈ (patchesNew R own newRanks r).filter fun i => i ∉ (own r).patches.map (·.index) := by
          rw [← hv1]; exact List.mem_map.mpr ⟨_, hx, rfl⟩
        obtain ⟨h3, h4⟩ := List.mem_filter.mp ht
        refine ⟨(h.mem_patchesNew t r).mp h3, h1, h2, ?_⟩
        rintro rfl
        exact (of_decide_eq_true h4) h2
      · rintro ⟨h1, h2, h3, h4⟩
        have ht : t ∈ v.map (·.2) := by
          rw [hv1, List.mem_filter]
          refine ⟨(h.mem_patchesNew t r).mpr h1, ?_⟩
          rw [decide_eq_true_iff]
          intro h5
          exact h4 (h.unique h2 hr h3 h5)
        obtain ⟨x, hx, ex⟩ := List.mem_map.mp ht
        obtain ⟨g1, g2⟩ := hv2 x hx
        obtain ⟨x1, x2⟩ := x
        simp only at ex g1 g2
        subst ex
        rw [h.unique h2 g1 h3 g2]
        exact hx

theorem matched_of_plans (h : Job R n own newRanks) {pl : Nat → Plan α}
    (hp : ∀ r, r < R → PlanSpec R own newRanks r (pl r)) :
    Matched R (fun r => (pl r).sends) (fun r => (pl r).recvs) := by
  refine ⟨?_, ?_, ?_, ?_⟩
  · intro r hr
    have := (hp r hr).sendTags
    have e : (pl r).sends.map (fun x => x.2.1) = ((pl r).sends.map (fun x => (x.1, x.2.1))).map (·.2) := by
      rw [List.map_map]; rfl
    rw [e] at this
    exact this.of_map
  · intro r hr
    exact (hp r hr).recvTags.of_map
  · intro s hs d t m hm
    obtain ⟨h1, h2, h3, h4⟩ := ((hp s hs).send d t m).mp hm
    have hd : d < R := h.lt d (List.mem_of_getElem? h3)
    refine ⟨hd, ((hp d hd).recv s t).mpr ⟨h2 ▸ h3, hs, ?_, fun e => h4 e.symm⟩⟩
    exact List.mem_map.mpr ⟨m, h1, h2.symm⟩
  · intro d hd s t hx
    obtain ⟨h1, h2, h3, h4⟩ := ((hp d hd).recv s t).mp hx
    obtain ⟨p, hpm, e⟩ := List.mem_map.mp h3
    exact ⟨h2, p, ((hp s h2).send d t p).mpr ⟨hpm, e.symm, by rw [e]; exact h1, fun e' => h4 e'.symm⟩⟩

theorem finish_spec (pl : Plan α) (r : Nat) (hw : WF pl.kept) (got : List (Patch α)) :
    WF (pl.finish r got) ∧
    (pl.finish r got).patches = pl.kept.patches ++ got.map (fun q => { q with rank := r }) := by
  unfold Plan.finish
  have : ∀ (got : List (Patch α)) (ps : Patches α), WF ps →
      WF (got.foldl (fun ps q => ps.append { q with rank := r }) ps) ∧
      (got.foldl (fun ps q => ps.append { q with rank := r }) ps).patches
        = ps.patches ++ got.map (fun q => { q with rank := r }) := by
    intro got
    induction got with
    | nil => intro ps hw; simpa using hw
    | cons q got ih =>
      intro ps hw
      rw [List.foldl_cons]
      have hw' : WF (ps.append { q with rank := r }) := by
        unfold WF Patches.append
        rw [List.map_append, hw]
        rfl
      obtain ⟨h1, h2⟩ := ih _ hw'
      refine ⟨h1, ?_⟩
      rw [h2]
      simp [Patches.append]
  exact this got pl.kept hw

end job
end Verif.LoadBalance
