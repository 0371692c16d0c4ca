import Verif.Proofs.SyncFields
import Verif.Proofs.Neighbors
import Mathlib.Data.Fintype.Pi
import Mathlib.Order.Interval.Finset.Basic
import Mathlib.Data.Int.Interval
import Mathlib.Algebra.BigOperators.Ring.Finset
import Mathlib.Algebra.BigOperators.Group.Finset.Sigma
/-!
# Guard-cell exchange in terms of global cells
-/
namespace Verif.SyncFields
open Neighbors Interleave
variable {k : Nat} {D : Type}

/-- Specification: on an axis of `np` patches of `n` cells, cell `i` of patch `c` and cell `i'` of patch
`c'` are the same point of the global grid (a periodic axis is a ring of `np * n` cells). Cells may lie
in the guard, i.e. outside `0 … n-1`. -/
def SameAxis (np n : Nat) (bc : AxisBC) (c : Nat) (i : Int) (c' : Nat) (i' : Int) : Prop :=
  if bc.lo = .periodic then (c * n + i : Int) ≡ c' * n + i' [ZMOD (np * n : Int)]
  else (c * n + i : Int) = c' * n + i'

instance (np n : Nat) (bc : AxisBC) (c : Nat) (i : Int) (c' : Nat) (i' : Int) :
    Decidable (SameAxis np n bc c i c' i') := by unfold SameAxis; infer_instance

/-- where the patches of a process lie in the patch grid -/
structure Place (k : Nat) where
  np : Fin k → Nat
  bc : Fin k → AxisBC
  coord : Nat → Fin k → Nat

/-- Specification: cell `w` of local patch `u` and cell `v` of local patch `t` are the same global cell -/
def Place.Same (g : Place k) (n : Fin k → Nat) (u : Nat) (w : Fin k → Int) (t : Nat) (v : Fin k → Int) :
    Prop :=
  ∀ a, SameAxis (g.np a) (n a) (g.bc a) (g.coord u a) (w a) (g.coord t a) (v a)

instance (g : Place k) (n : Fin k → Nat) (u : Nat) (w : Fin k → Int) (t : Nat) (v : Fin k → Int) :
    Decidable (g.Same n u w t v) := by unfold Place.Same; infer_instance

theorem SameAxis.symm {np n : Nat} {bc : AxisBC} {c c' : Nat} {i i' : Int}
    (h : SameAxis np n bc c i c' i') : SameAxis np n bc c' i' c i := by
  unfold SameAxis at *
  split
  · rw [if_pos ‹_›] at h; exact h.symm
  · rw [if_neg ‹_›] at h; exact h.symm

theorem Place.Same.symm {g : Place k} {n : Fin k → Nat} {u t : Nat} {w v : Fin k → Int}
    (h : g.Same n u w t v) : g.Same n t v u w := fun a => (h a).symm

/-- every cell of the array of a patch -/
def allCells (n : Fin k → Nat) (ng : Nat) : Finset (Fin k → Int) :=
  Fintype.piFinset fun a => Finset.Ico (-(ng : Int)) (n a + ng)

theorem mem_allCells {n : Fin k → Nat} {ng : Nat} {w : Fin k → Int} :
    w ∈ allCells n ng ↔ InRange n ng w := by
  unfold allCells InRange
  rw [Fintype.mem_piFinset]
  simp only [Finset.mem_Ico]

theorem sameAxis_iff {np n ng : Nat} {bc : AxisBC} (hng : ng ≤ n) {c c' : Nat} (hc' : c' < np) {i i' : Int}
    (hi : -(ng : Int) ≤ i ∧ i < n + ng) (hi' : 0 ≤ i' ∧ i' < n) :
    SameAxis np n bc c i c' i' ↔ Adj np bc c (side n i) c' ∧ i' = i - side n i * n := by
  have hr := src_own hng hi
  set o := side n i with ho
  have hn : 0 < n := by omega
  have e : (c * n + i : Int) = (c + o) * n + (i - o * n) := by ring
  unfold SameAxis Adj
  rw [e]
  by_cases hbc : bc.lo = .periodic
  · rw [if_pos hbc, if_pos hbc]
    constructor
    · intro h
      have h1 : (i - o * n) ≡ i' [ZMOD n] := by
        have := h.of_mul_left (np : Int)
        unfold Int.ModEq at this ⊢
        rw [Int.add_comm, Int.add_mul_emod_self_right, Int.add_comm (c' * n : Int),
          Int.add_mul_emod_self_right] at this
        exact this
      have h2 : i - o * n = i' := by
        unfold Int.ModEq at h1
        rwa [Int.emod_eq_of_lt hr.1 hr.2, Int.emod_eq_of_lt hi'.1 hi'.2] at h1
      refine ⟨⟨hc', ?_⟩, h2.symm⟩
      rw [h2] at h
      have h3 := Int.ModEq.add_right_cancel' i' h
      exact (Int.ModEq.mul_right_cancel' (by omega) h3).symm
    · rintro ⟨⟨_, h⟩, h2⟩
      rw [← h2]
      have := (h.symm.mul_right' (c := (n : Int)))
      exact this.add_right i'
  · rw [if_neg hbc, if_neg hbc]
    constructor
    · intro h
      have hm : (i - o * n) = i' := by
        have h1 : ((c + o) * n + (i - o * n) : Int) % n = (c' * n + i') % n := by rw [h]
        rw [Int.add_comm, Int.add_mul_emod_self_right, Int.add_comm (c' * n : Int),
          Int.add_mul_emod_self_right, Int.emod_eq_of_lt hr.1 hr.2, Int.emod_eq_of_lt hi'.1 hi'.2] at h1
        exact h1
      refine ⟨⟨hc', ?_⟩, hm.symm⟩
      rw [hm] at h
      have h3 : ((c + o) * n : Int) = c' * n := by linarith
      exact (Int.eq_of_mul_eq_mul_right (by omega) h3).symm
    · rintro ⟨⟨_, h⟩, h2⟩
      rw [← h2, h]

/-- what the neighbour table means: entry `b` of patch `t` is the local patch one step away -/
structure NbrGeo (s : Sync k D) (g : Place k) (off : D → Fin k → Int) : Prop where
  spec : ∀ t b u, t < s.npatches → (s.nbr t b = some u ↔
    u < s.npatches ∧ ∀ a, Adj (g.np a) (g.bc a) (g.coord t a) (off b a) (g.coord u a))
  bound : ∀ t, t < s.npatches → ∀ a, g.coord t a < g.np a
  inj : ∀ t u, t < s.npatches → u < s.npatches → g.coord t = g.coord u → t = u
  dirs : ∀ d : Fin k → Int, (∀ a, d a = -1 ∨ d a = 0 ∨ d a = 1) → (∃ a, d a ≠ 0) → ∃ b, off b = d

theorem side_unit (n : Nat) (x : Int) : side n x = -1 ∨ side n x = 0 ∨ side n x = 1 := by
  unfold side; split
  · simp
  · split <;> simp

theorem adj_zero {np : Nat} {bc : AxisBC} {c c' : Nat} (hc : c < np) :
    Adj np bc c 0 c' ↔ c' = c := by
  unfold Adj
  rw [Int.add_zero]
  constructor
  · rintro ⟨h, h2⟩
    split at h2
    · have := modEq_small (by omega) (by omega) (by omega) (by omega) h2; omega
    · omega
  · rintro rfl
    refine ⟨hc, ?_⟩
    split <;> rfl

section
variable {s : Sync k D} {g : Place k} {off : D → Fin k → Int} {opp : D → D}

theorem NbrGeo.ok (hg : NbrGeo s g off) (hs : Shape s off opp) : NbrOK s opp := by
  constructor
  · intro p b q hp h
    exact ((hg.spec p b q hp).mp h).1
  · intro p b q hp h
    obtain ⟨hq, ha⟩ := (hg.spec p b q hp).mp h
    refine (hg.spec q (opp b) p hq).mpr ⟨hp, fun a => ?_⟩
    rw [hs.off_opp]
    exact (ha a).symm (hg.bound p hp a)

/-- a guard or own cell against an own cell -/
theorem same_iff (hs : Shape s off opp) (hg : NbrGeo s g off) {u t : Nat} (ht : t < s.npatches)
    {w v : Fin k → Int} (hw : InRange s.n s.ng w) (hv : Own s.n v) :
    g.Same s.n u w t v ↔
      (∀ a, Adj (g.np a) (g.bc a) (g.coord u a) (side (s.n a) (w a)) (g.coord t a)) ∧
        v = fun a => w a - side (s.n a) (w a) * s.n a := by
  unfold Place.Same
  constructor
  · intro h
    have := fun a => (sameAxis_iff (hs.thick a) (hg.bound t ht a) (hw a) (hv a)).mp (h a)
    exact ⟨fun a => (this a).1, funext fun a => (this a).2⟩
  · rintro ⟨h1, h2⟩ a
    exact (sameAxis_iff (hs.thick a) (hg.bound t ht a) (hw a) (hv a)).mpr ⟨h1 a, congrFun h2 a⟩

/-- two own cells: the same global cell only if they are the same cell -/
theorem same_own (hs : Shape s off opp) (hg : NbrGeo s g off) {u t : Nat} (hu : u < s.npatches)
    (ht : t < s.npatches) {w v : Fin k → Int} (hw : Own s.n w) (hv : Own s.n v) :
    g.Same s.n u w t v ↔ u = t ∧ w = v := by
  rw [same_iff hs hg ht (hw.inRange _) hv]
  constructor
  · rintro ⟨h1, h2⟩
    refine ⟨hg.inj u t hu ht (funext fun a => ?_), ?_⟩
    · have := h1 a
      rw [hw.side a, adj_zero (hg.bound u hu a)] at this
      exact this.symm
    · rw [h2]; funext a; rw [hw.side a]; simp
  · rintro ⟨rfl, rfl⟩
    refine ⟨fun a => ?_, funext fun a => ?_⟩
    · rw [hw.side a, adj_zero (hg.bound u hu a)]
    · rw [hw.side a]; simp

theorem dir_of_guard (hg : NbrGeo s g off) {w : Fin k → Int} (hno : ¬ Own s.n w) :
    ∃ b, off b = fun a => side (s.n a) (w a) := by
  refine hg.dirs _ (fun a => side_unit _ _) ?_
  by_contra h
  push Not at h
  exact hno (own_of_side h)

/-- **guard exchange in global terms** -/
theorem guard_global (hs : Shape s off opp) (hg : NbrGeo s g off)
    (ht : ∀ b a, s.tab b a = guardRng (s.n a) s.ng (off b a)) {m m' : Loc k → ℚ}
    (hr : s.GuardRun m m') :
    (∀ t w, t < s.npatches → Own s.n w →
      m' (t, index s.n s.ng w) = m (t, index s.n s.ng w)) ∧
    (∀ t w u v, t < s.npatches → u < s.npatches → InRange s.n s.ng w → Own s.n v →
      g.Same s.n t w u v → m' (t, index s.n s.ng w) = m (u, index s.n s.ng v)) ∧
    (∀ t w, t < s.npatches → InRange s.n s.ng w →
      (¬ ∃ u v, u < s.npatches ∧ Own s.n v ∧ g.Same s.n t w u v) →
      m' (t, index s.n s.ng w) = m (t, index s.n s.ng w)) := by
  obtain ⟨r1, r2⟩ := guard_run hs ht hr
  have hown : ∀ t w, t < s.npatches → Own s.n w →
      m' (t, index s.n s.ng w) = m (t, index s.n s.ng w) := by
    intro t w _ hw
    apply r2
    intro b q v _ _ hv hsd e
    have := index_inj (hw.inRange s.ng) hv e
    subst this
    obtain ⟨a, ha⟩ := hs.off_ne b
    exact ha ((hsd a).symm.trans (hw.side a))
  refine ⟨hown, ?_, ?_⟩
  · intro t w u v htt hu hw hv hsame
    by_cases ho : Own s.n w
    · obtain ⟨rfl, rfl⟩ := (same_own hs hg htt hu ho hv).mp hsame
      exact hown t w htt ho
    · obtain ⟨h1, h2⟩ := (same_iff hs hg hu hw hv).mp hsame
      obtain ⟨b, hb⟩ := dir_of_guard hg ho
      have hb' := fun a => (congrFun hb a)
      have hn : s.nbr t b = some u := (hg.spec t b u htt).mpr ⟨hu, fun a => by rw [hb' a]; exact h1 a⟩
      rw [r1 t b u w htt hn hw (fun a => (hb' a).symm), h2]
      congr 2
      congr 1
      funext a
      rw [hb' a]
  · intro t w htt hw hno
    apply r2
    intro b q v _ hq hv hsd e
    have := index_inj hw hv e
    subst this
    obtain ⟨hq1, hq2⟩ := (hg.spec t b q htt).mp hq
    have hv' : Own s.n fun a => w a - side (s.n a) (w a) * s.n a := fun a => src_own (hs.thick a) (hv a)
    exact hno ⟨q, _, hq1, hv',
      (same_iff hs hg hq1 hv hv').mpr ⟨fun a => by rw [hsd a]; exact hq2 a, rfl⟩⟩

/-- the directions received from, summed, are the guard copies of the cell -/
theorem received_eq [DecidableEq D] (hs : Shape s off opp) (hg : NbrGeo s g off) (m : Loc k → ℚ) {t : Nat}
    (htt : t < s.npatches) {v : Fin k → Int} (hv : Own s.n v) :
    m (t, index s.n s.ng v) + (s.order.map (received s off m t v)).sum =
      ∑ u ∈ Finset.range s.npatches, ∑ w ∈ allCells s.n s.ng,
        if g.Same s.n u w t v then m (u, index s.n s.ng w) else 0 := by
  classical
  rw [← Finset.sum_product', ← Finset.sum_filter]
  set P := ((Finset.range s.npatches ×ˢ allCells s.n s.ng).filter
    fun x => g.Same s.n x.1 x.2 t v) with hP
  have hmemP : ∀ x, x ∈ P ↔ x.1 < s.npatches ∧ InRange s.n s.ng x.2 ∧ g.Same s.n x.1 x.2 t v := by
    intro x
    rw [hP, Finset.mem_filter, Finset.mem_product, Finset.mem_range, mem_allCells]
    tauto
  rw [← Finset.sum_filter_add_sum_filter_not P (fun x => Own s.n x.2)]
  congr 1
  · have : P.filter (fun x => Own s.n x.2) = {(t, v)} := by
      ext ⟨u, w⟩
      rw [Finset.mem_filter, hmemP, Finset.mem_singleton]
      constructor
      · rintro ⟨⟨h1, h2, h3⟩, h4⟩
        obtain ⟨rfl, rfl⟩ := (same_own hs hg h1 htt h4 hv).mp h3
        rfl
      · intro h
        obtain ⟨rfl, rfl⟩ := Prod.mk.inj h
        exact ⟨⟨htt, hv.inRange _, (same_own hs hg htt htt hv hv).mpr ⟨rfl, rfl⟩⟩, hv⟩
    rw [this, Finset.sum_singleton]
  · rw [← List.sum_toFinset _ hs.nodup]
    have key : ∀ b u, s.nbr t b = some u → InRange s.n s.ng (fun a => v a - off b a * s.n a) →
        (u, fun a => v a - off b a * s.n a) ∈ P.filter (fun x => ¬ Own s.n x.2) := by
      intro b u hu hin
      rw [Finset.mem_filter, hmemP]
      obtain ⟨hu1, hu2⟩ := (hg.spec t b u htt).mp hu
      have hsd : ∀ a, side (s.n a) (v a - off b a * s.n a) = -off b a :=
        fun a => side_shift (hv a) (hs.off_unit b a)
      refine ⟨⟨hu1, hin, (same_iff hs hg htt hin hv).mpr ⟨fun a => ?_, funext fun a => ?_⟩⟩, ?_⟩
      · rw [hsd a]; exact (hu2 a).symm (hg.bound t htt a)
      · rw [hsd a]; ring
      · intro ho
        obtain ⟨a, ha⟩ := hs.off_ne b
        have := ho.side a
        rw [hsd a] at this
        omega
    let B := s.order.toFinset.filter fun b =>
      ∃ u, s.nbr t b = some u ∧ InRange s.n s.ng (fun a => v a - off b a * s.n a)
    have hsub : ∑ b ∈ s.order.toFinset, received s off m t v b = ∑ b ∈ B, received s off m t v b := by
      symm
      apply Finset.sum_subset (Finset.filter_subset _ _)
      intro b hb hnb
      unfold received
      cases hq : s.nbr t b with
      | none => rfl
      | some q =>
        dsimp only
        rw [if_neg]
        intro h
        exact hnb (Finset.mem_filter.mpr ⟨hb, q, hq, h⟩)
    rw [hsub]
    refine Finset.sum_bij (fun b hb => ((s.nbr t b).getD 0, fun a => v a - off b a * s.n a)) ?_ ?_ ?_ ?_
    · intro b hb
      obtain ⟨_, u, hu, hin⟩ := Finset.mem_filter.mp hb
      rw [hu]
      exact key b u hu hin
    · intro b hb b' hb' e
      apply hs.off_inj
      funext a
      have := congrFun (Prod.mk.inj e).2 a
      have h1 := side_shift (hv a) (hs.off_unit b a)
      have h2 := side_shift (hv a) (hs.off_unit b' a)
      rw [this, h2] at h1
      omega
    · rintro ⟨u, w⟩ hx
      rw [Finset.mem_filter, hmemP] at hx
      obtain ⟨⟨h1, h2, h3⟩, h4⟩ := hx
      obtain ⟨hadj, hvw⟩ := (same_iff hs hg htt h2 hv).mp h3
      obtain ⟨b, hb⟩ := dir_of_guard hg h4
      have hob : ∀ a, off (opp b) a = -side (s.n a) (w a) := fun a => by rw [hs.off_opp, hb]
      have hn : s.nbr t (opp b) = some u :=
        (hg.spec t (opp b) u htt).mpr ⟨h1, fun a => by
          rw [hob a]; exact (hadj a).symm (hg.bound u h1 a)⟩
      have hw : (fun a => v a - off (opp b) a * s.n a) = w := by
        funext a
        rw [hob a, hvw]; ring
      refine ⟨opp b, Finset.mem_filter.mpr ⟨List.mem_toFinset.mpr (hs.complete _), u, hn, ?_⟩, ?_⟩
      · rw [hw]; exact h2
      · rw [hw, hn]; rfl
    · intro b hb
      obtain ⟨_, u, hu, hin⟩ := Finset.mem_filter.mp hb
      unfold received
      rw [hu]
      dsimp only
      exact if_pos hin

/-- **current folding in global terms** -/
theorem current_global [DecidableEq D] (hs : Shape s off opp) (hg : NbrGeo s g off)
    (ht : ∀ b a, s.tab b a = currentRng (s.n a) s.ng (off b a)) {m m' : Loc k → ℚ}
    (hr : s.CurrentRun m m') :
    (∀ t v, t < s.npatches → Own s.n v → m' (t, index s.n s.ng v) =
      ∑ u ∈ Finset.range s.npatches, ∑ w ∈ allCells s.n s.ng,
        if g.Same s.n u w t v then m (u, index s.n s.ng w) else 0) ∧
    (∀ u w, u < s.npatches → InRange s.n s.ng w → ¬ Own s.n w →
      (∃ t v, t < s.npatches ∧ Own s.n v ∧ g.Same s.n u w t v) → m' (u, index s.n s.ng w) = 0) ∧
    (∀ u w, u < s.npatches → InRange s.n s.ng w → ¬ Own s.n w →
      (¬ ∃ t v, t < s.npatches ∧ Own s.n v ∧ g.Same s.n u w t v) →
      m' (u, index s.n s.ng w) = m (u, index s.n s.ng w)) := by
  obtain ⟨r1, r2, r3, _⟩ := current_run hs (hg.ok hs) ht hr
  refine ⟨?_, ?_, ?_⟩
  · intro t v htt hv
    rw [r1 t v htt hv, received_eq hs hg m htt hv]
  · rintro u w hu hw hno ⟨t, v, htt, hv, hsame⟩
    obtain ⟨h1, h2⟩ := (same_iff hs hg htt hw hv).mp hsame
    obtain ⟨b, hb⟩ := dir_of_guard hg hno
    have hb' := fun a => (congrFun hb a)
    exact r2 u b t w hu ((hg.spec u b t hu).mpr ⟨htt, fun a => by rw [hb' a]; exact h1 a⟩) hw
      (fun a => (hb' a).symm)
  · intro u w hu hw hno hnone
    refine r3 u w hu hw hno ?_
    intro b q hsd hq
    obtain ⟨hq1, hq2⟩ := (hg.spec u b q hu).mp hq
    have hv' : Own s.n fun a => w a - side (s.n a) (w a) * s.n a := fun a => src_own (hs.thick a) (hw a)
    exact hnone ⟨q, _, hq1, hv',
      (same_iff hs hg hq1 hw hv').mpr ⟨fun a => by rw [hsd a]; exact hq2 a, rfl⟩⟩

/-- calling it twice changes nothing more -/
theorem current_twice [DecidableEq D] (hs : Shape s off opp) (hg : NbrGeo s g off)
    (ht : ∀ b a, s.tab b a = currentRng (s.n a) s.ng (off b a)) {m m' m'' : Loc k → ℚ}
    (hr : s.CurrentRun m m') (hr' : s.CurrentRun m' m'') (t : Nat) (w : Fin k → Int)
    (htt : t < s.npatches) (hw : InRange s.n s.ng w) :
    m'' (t, index s.n s.ng w) = m' (t, index s.n s.ng w) := by
  obtain ⟨a1, a2, a3⟩ := current_global hs hg ht hr
  obtain ⟨b1, b2, b3⟩ := current_global hs hg ht hr'
  by_cases ho : Own s.n w
  · rw [b1 t w htt ho]
    rw [Finset.sum_eq_single t]
    · rw [Finset.sum_eq_single w]
      · rw [if_pos ((same_own hs hg htt htt ho ho).mpr ⟨rfl, rfl⟩)]
      · intro w' hw' hne
        by_cases hsame : g.Same s.n t w' t w
        · rw [if_pos hsame]
          by_cases ho' : Own s.n w'
          · exact absurd ((same_own hs hg htt htt ho' ho).mp hsame).2 hne
          · exact a2 t w' htt (mem_allCells.mp hw') ho' ⟨t, w, htt, ho, hsame⟩
        · rw [if_neg hsame]
      · intro h; exact absurd (mem_allCells.mpr hw) h
    · intro u hu hne
      apply Finset.sum_eq_zero
      intro w' hw'
      have hu' := Finset.mem_range.mp hu
      by_cases hsame : g.Same s.n u w' t w
      · rw [if_pos hsame]
        by_cases ho' : Own s.n w'
        · exact absurd ((same_own hs hg hu' htt ho' ho).mp hsame).1 hne
        · exact a2 u w' hu' (mem_allCells.mp hw') ho' ⟨t, w, htt, ho, hsame⟩
      · rw [if_neg hsame]
    · intro h; exact absurd (Finset.mem_range.mpr htt) h
  · by_cases hex : ∃ t' v, t' < s.npatches ∧ Own s.n v ∧ g.Same s.n t w t' v
    · rw [b2 t w htt hw ho hex, a2 t w htt hw ho hex]
    · exact b3 t w htt hw ho hex

/-- total over all cells of all patches -/
theorem current_total_global (hs : Shape s off opp) (hg : NbrGeo s g off)
    (ht : ∀ b a, s.tab b a = currentRng (s.n a) s.ng (off b a)) {m m' : Loc k → ℚ}
    (hr : s.CurrentRun m m') :
    ∑ t ∈ Finset.range s.npatches, ∑ w ∈ allCells s.n s.ng, m' (t, index s.n s.ng w) =
      ∑ t ∈ Finset.range s.npatches, ∑ w ∈ allCells s.n s.ng, m (t, index s.n s.ng w) := by
  classical
  let S : Finset (Loc k) :=
    (Finset.range s.npatches ×ˢ allCells s.n s.ng).image fun x => (x.1, index s.n s.ng x.2)
  have hsum : ∀ f : Loc k → ℚ, ∑ t ∈ Finset.range s.npatches, ∑ w ∈ allCells s.n s.ng,
      f (t, index s.n s.ng w) = ∑ l ∈ S, f l := by
    intro f
    rw [← Finset.sum_product', Finset.sum_image]
    rintro ⟨a, v⟩ h1 ⟨b, w⟩ h2 e
    simp only [Finset.coe_product, Set.mem_prod, Finset.mem_coe] at h1 h2
    obtain ⟨e1, e2⟩ := Prod.mk.inj e
    dsimp only at e1 e2
    rw [e1, index_inj (mem_allCells.mp h1.2) (mem_allCells.mp h2.2) e2]
  rw [hsum, hsum]
  refine current_total hs (hg.ok hs) ht hr S ?_
  intro t htt x hx
  obtain ⟨b, q, v, hq, hv, hsd, h2, h1⟩ := (mem_current_pairs hs ht).mp hx
  have hown : Own s.n fun a => v a + off b a * s.n a := by
    intro a
    have := src_own (hs.thick a) (hv a)
    rw [hsd a] at this
    dsimp only
    have e : v a - -off b a * (s.n a : Int) = v a + off b a * s.n a := by ring
    rwa [e] at this
  constructor
  · rw [h1]
    exact Finset.mem_image.mpr ⟨(t, _), Finset.mem_product.mpr
      ⟨Finset.mem_range.mpr htt, mem_allCells.mpr (hown.inRange s.ng)⟩, rfl⟩
  · rw [h2]
    exact Finset.mem_image.mpr ⟨(q, v), Finset.mem_product.mpr
      ⟨Finset.mem_range.mpr ((hg.spec t b q htt).mp hq).1, mem_allCells.mpr hv⟩, rfl⟩
end

/-! ### the neighbour tables of the code -/

/-- places of the local patches in the 2D patch grid -/
def place2 (npx npy : Nat) (bx by' : AxisBC) (loc : List P2) : Place 2 :=
  ⟨![npx, npy], ![bx, by'], fun t => match loc[t]? with
    | some p => ![p.ix, p.iy]
    | none => ![0, 0]⟩

/-- places of the local patches in the 3D patch grid -/
def place3 (npx npy npz : Nat) (bx by' bz : AxisBC) (loc : List P3) : Place 3 :=
  ⟨![npx, npy, npz], ![bx, by', bz], fun t => match loc[t]? with
    | some p => ![p.ix, p.iy, p.iz]
    | none => ![0, 0, 0]⟩

theorem dirs2 (d : Fin 2 → Int) (h : ∀ a, d a = -1 ∨ d a = 0 ∨ d a = 1) (hne : ∃ a, d a ≠ 0) :
    ∃ b, off2 b = d := by
  have e : d = ![d 0, d 1] := by funext a; match a with | 0 => rfl | 1 => rfl
  rcases h 0 with h0 | h0 | h0 <;> rcases h 1 with h1 | h1 | h1 <;> rw [h0, h1] at e
  · exact ⟨.xminymin, e.symm⟩
  · exact ⟨.xmin, e.symm⟩
  · exact ⟨.xminymax, e.symm⟩
  · exact ⟨.ymin, e.symm⟩
  · obtain ⟨a, ha⟩ := hne
    match a with
    | 0 => exact absurd h0 ha
    | 1 => exact absurd h1 ha
  · exact ⟨.ymax, e.symm⟩
  · exact ⟨.xmaxymin, e.symm⟩
  · exact ⟨.xmax, e.symm⟩
  · exact ⟨.xmaxymax, e.symm⟩

theorem dirs3 (d : Fin 3 → Int) (h : ∀ a, d a = -1 ∨ d a = 0 ∨ d a = 1) (hne : ∃ a, d a ≠ 0) :
    ∃ b, off3 b = d := by
  have e : d = ![d 0, d 1, d 2] := by funext a; match a with | 0 => rfl | 1 => rfl | 2 => rfl
  rcases h 0 with h0 | h0 | h0 <;> rcases h 1 with h1 | h1 | h1 <;> rcases h 2 with h2 | h2 | h2 <;>
    rw [h0, h1, h2] at e
  · exact ⟨.xminyminzmin, e.symm⟩
  · exact ⟨.xminymin, e.symm⟩
  · exact ⟨.xminyminzmax, e.symm⟩
  · exact ⟨.xminzmin, e.symm⟩
  · exact ⟨.xmin, e.symm⟩
  · exact ⟨.xminzmax, e.symm⟩
  · exact ⟨.xminymaxzmin, e.symm⟩
  · exact ⟨.xminymax, e.symm⟩
  · exact ⟨.xminymaxzmax, e.symm⟩
  · exact ⟨.yminzmin, e.symm⟩
  · exact ⟨.ymin, e.symm⟩
  · exact ⟨.yminzmax, e.symm⟩
  · exact ⟨.zmin, e.symm⟩
  · obtain ⟨a, ha⟩ := hne
    match a with
    | 0 => exact absurd h0 ha
    | 1 => exact absurd h1 ha
    | 2 => exact absurd h2 ha
  · exact ⟨.zmax, e.symm⟩
  · exact ⟨.ymaxzmin, e.symm⟩
  · exact ⟨.ymax, e.symm⟩
  · exact ⟨.ymaxzmax, e.symm⟩
  · exact ⟨.xmaxyminzmin, e.symm⟩
  · exact ⟨.xmaxymin, e.symm⟩
  · exact ⟨.xmaxyminzmax, e.symm⟩
  · exact ⟨.xmaxzmin, e.symm⟩
  · exact ⟨.xmax, e.symm⟩
  · exact ⟨.xmaxzmax, e.symm⟩
  · exact ⟨.xmaxymaxzmin, e.symm⟩
  · exact ⟨.xmaxymax, e.symm⟩
  · exact ⟨.xmaxymaxzmax, e.symm⟩

theorem nbrGeo2 {npx npy : Nat} {bx by' : AxisBC} (hx : bx.Paired) (hy : by'.Paired) {ps loc : List P2}
    (hg : Grid2 npx npy ps) (hsub : ∀ p ∈ loc, p ∈ ps) (hnd : loc.Nodup) {s : Sync 2 B2}
    (hN : s.npatches = loc.length) (hnbr : s.nbr = neighborIpatch2 npx npy bx by' ps loc) :
    NbrGeo s (place2 npx npy bx by' loc) off2 := by
  have hget : ∀ t, t < loc.length → ∃ p, loc[t]? = some p ∧
      (place2 npx npy bx by' loc).coord t = ![p.ix, p.iy] := by
    intro t ht
    refine ⟨loc[t], List.getElem?_eq_getElem ht, ?_⟩
    show (match loc[t]? with
      | some p => ![p.ix, p.iy]
      | none => ![0, 0]) = _
    rw [List.getElem?_eq_getElem ht]
  constructor
  · intro t b u ht
    rw [hN] at ht
    obtain ⟨p, hp, hcp⟩ := hget t ht
    rw [hnbr, neighborIpatch2_some hx hy hg hsub hnd, hN]
    constructor
    · rintro ⟨p', q, hp', hq, h1, h2⟩
      rw [hp] at hp'; cases hp'
      have hu : u < loc.length := by
        rcases Nat.lt_or_ge u loc.length with h | h
        · exact h
        · rw [List.getElem?_eq_none h] at hq; simp at hq
      obtain ⟨q', hq', hcq⟩ := hget u hu
      rw [hq] at hq'; cases hq'
      refine ⟨hu, fun a => ?_⟩
      rw [hcp, hcq]
      match a with
      | 0 => exact h1
      | 1 => exact h2
    · rintro ⟨hu, ha⟩
      obtain ⟨q, hq, hcq⟩ := hget u hu
      rw [hcp, hcq] at ha
      exact ⟨p, q, hp, hq, ha 0, ha 1⟩
  · intro t ht a
    rw [hN] at ht
    obtain ⟨p, hp, hcp⟩ := hget t ht
    have := hg.bound p (hsub p (List.mem_of_getElem? hp))
    rw [hcp]
    match a with
    | 0 => exact this.1
    | 1 => exact this.2
  · intro t u ht hu e
    rw [hN] at ht hu
    obtain ⟨p, hp, hcp⟩ := hget t ht
    obtain ⟨q, hq, hcq⟩ := hget u hu
    rw [hcp, hcq] at e
    have := hg.coordInj p (hsub p (List.mem_of_getElem? hp)) q (hsub q (List.mem_of_getElem? hq))
      (congrFun e 0) (congrFun e 1)
    subst this
    exact (List.getElem?_inj ht hnd).mp (hp.trans hq.symm)
  · exact dirs2

theorem nbrGeo3 {npx npy npz : Nat} {bx by' bz : AxisBC} (hx : bx.Paired) (hy : by'.Paired)
    (hz : bz.Paired) {ps loc : List P3}
    (hg : Grid3 npx npy npz ps) (hsub : ∀ p ∈ loc, p ∈ ps) (hnd : loc.Nodup) {s : Sync 3 B3}
    (hN : s.npatches = loc.length) (hnbr : s.nbr = neighborIpatch3 npx npy npz bx by' bz ps loc) :
    NbrGeo s (place3 npx npy npz bx by' bz loc) off3 := by
  have hget : ∀ t, t < loc.length → ∃ p, loc[t]? = some p ∧
      (place3 npx npy npz bx by' bz loc).coord t = ![p.ix, p.iy, p.iz] := by
    intro t ht
    refine ⟨loc[t], List.getElem?_eq_getElem ht, ?_⟩
    show (match loc[t]? with
      | some p => ![p.ix, p.iy, p.iz]
      | none => ![0, 0, 0]) = _
    rw [List.getElem?_eq_getElem ht]
  constructor
  · intro t b u ht
    rw [hN] at ht
    obtain ⟨p, hp, hcp⟩ := hget t ht
    rw [hnbr, neighborIpatch3_some hx hy hz hg hsub hnd, hN]
    constructor
    · rintro ⟨p', q, hp', hq, h1, h2, h3⟩
      rw [hp] at hp'; cases hp'
      have hu : u < loc.length := by
        rcases Nat.lt_or_ge u loc.length with h | h
        · exact h
        · rw [List.getElem?_eq_none h] at hq; simp at hq
      obtain ⟨q', hq', hcq⟩ := hget u hu
      rw [hq] at hq'; cases hq'
      refine ⟨hu, fun a => ?_⟩
      rw [hcp, hcq]
      match a with
      | 0 => exact h1
      | 1 => exact h2
      | 2 => exact h3
    · rintro ⟨hu, ha⟩
      obtain ⟨q, hq, hcq⟩ := hget u hu
      rw [hcp, hcq] at ha
      exact ⟨p, q, hp, hq, ha 0, ha 1, ha 2⟩
  · intro t ht a
    rw [hN] at ht
    obtain ⟨p, hp, hcp⟩ := hget t ht
    have := hg.bound p (hsub p (List.mem_of_getElem? hp))
    rw [hcp]
    match a with
    | 0 => exact this.1
    | 1 => exact this.2.1
    | 2 => exact this.2.2
  · intro t u ht hu e
    rw [hN] at ht hu
    obtain ⟨p, hp, hcp⟩ := hget t ht
    obtain ⟨q, hq, hcq⟩ := hget u hu
    rw [hcp, hcq] at e
    have := hg.coordInj p (hsub p (List.mem_of_getElem? hp)) q (hsub q (List.mem_of_getElem? hq))
      (congrFun e 0) (congrFun e 1) (congrFun e 2)
    subst this
    exact (List.getElem?_inj ht hnd).mp (hp.trans hq.symm)
  · exact dirs3

end Verif.SyncFields
