import Mathlib.Order.Defs.LinearOrder
import Mathlib.Data.List.Basic
import Mathlib.Tactic.Linarith
import Mathlib.Algebra.BigOperators.Group.Finset.Basic
import Mathlib.Algebra.Order.BigOperators.Group.Finset
import Verif.Model.Job
/-!
# C111 — a job ends when one of its ranks fails
-/
namespace Verif.Job

/-! ## specification -/

/-- Specification: the states a job can get into, whatever the order in which its ranks proceed -/
inductive After (P : Script) : Nat → State → Prop where
  | start : After P 0 Job.start
  | move {n J J' r} : After P n J → r < P.ranks → Job.move P r J = some J' → After P (n + 1) J'

/-- Specification: rank `r` is at the end of the script or has left it by an exception -/
def Done (P : Script) (J : State) (r : Nat) : Prop := J.place r = .before P.steps ∨ ∃ i s, J.place r = .left i s

/-- Specification: no process of the job is left: it was aborted or all ranks are done -/
def Ended (P : Script) (J : State) : Prop := J.aborted ≠ none ∨ ∀ r, r < P.ranks → Done P J r

/-- Specification: no rank can proceed -/
def Stuck (P : Script) (J : State) : Prop := ∀ r, r < P.ranks → move P r J = none

/-- Specification: rank `r` fails in step `i`, if it gets there -/
def Throws (P : Script) (r i : Nat) : Prop := ∃ s, P.op r i = .throw s

/-- Specification: no rank fails outside of `run` -/
def Guarded (P : Script) : Prop := ∀ r, r < P.ranks → ∀ i, i < P.entry → i < P.steps → ¬ Throws P r i

/-! ## invariants -/

/-- ranks that were not stopped are in the script, and have passed no step in which they fail -/
structure Inv (P : Script) (J : State) : Prop where
  inside : ∀ r, r < P.ranks → ∀ i, J.place r = .before i → i ≤ P.steps ∧ ∀ j, j < i → ¬ Throws P r j
  out : ∀ r, r < P.ranks → ∀ i s, J.place r = .left i s → i < P.steps ∧ P.op r i = .throw s ∧
    (P.entry ≤ i → P.ranks = 1) ∧ ∀ j, j < i → ¬ Throws P r j
  code : ∀ c, J.aborted = some c → c = 1 ∧ 1 < P.ranks ∧ ∃ r, r < P.ranks ∧ ∃ i, P.entry ≤ i ∧ i < P.steps ∧ Throws P r i

theorem inv_start (P : Script) : Inv P start where
  inside r _ i h := by
    cases h
    exact ⟨Nat.zero_le _, fun j hj => absurd hj (Nat.not_lt_zero j)⟩
  out r _ i s h := by cases h
  code c h := by cases h

theorem move_cases {P : Script} {r : Nat} {J J' : State} (h : move P r J = some J') :
    J.aborted = none ∧ ∃ i, J.place r = .before i ∧ i < P.steps ∧
      ((∃ s, P.op r i = .throw s ∧ J' = caught P r i s J) ∨
       ((∃ w, P.op r i = .go w ∧ ∀ s, s < P.ranks → w s = true → (J.place s).reached i = true) ∧ J' = J.put r (.before (i + 1)))) := by
  unfold move at h
  split at h
  · cases h
  · rename_i ha
    refine ⟨ha, ?_⟩
    split at h
    · cases h
    · rename_i i hp
      split at h
      · cases h
      · rename_i hi
        refine ⟨i, hp, Nat.lt_of_not_le hi, ?_⟩
        split at h
        · rename_i s hop
          exact .inl ⟨s, hop, (Option.some.inj h).symm⟩
        · rename_i w hop
          split at h
          · rename_i hall
            refine .inr ⟨⟨w, hop, fun s hs hw => ?_⟩, (Option.some.inj h).symm⟩
            have := List.all_eq_true.mp hall s (List.mem_range.mpr hs)
            rw [hw] at this
            simpa using this
          · cases h

theorem put_same (J : State) (r : Nat) (p : Place) : (J.put r p).place r = p := if_pos rfl
theorem put_other (J : State) {r s : Nat} (h : s ≠ r) (p : Place) : (J.put r p).place s = J.place s := if_neg h

theorem Inv.move {P : Script} {r : Nat} {J J' : State} (H : Inv P J) (hr : r < P.ranks) (h : Job.move P r J = some J') : Inv P J' := by
  obtain ⟨ha, i, hp, hi, ⟨s, hop, rfl⟩ | ⟨⟨w, hop, hw⟩, rfl⟩⟩ := move_cases h
  · unfold caught
    split
    · rename_i hc
      refine ⟨H.inside, H.out, ?_⟩
      intro c hcc
      exact ⟨(Option.some.inj hcc).symm, hc.2, r, hr, i, hc.1, hi, s, hop⟩
    · rename_i hc
      refine ⟨?_, ?_, fun c hcc => H.code c hcc⟩
      · intro t ht j hj
        by_cases e : t = r
        · subst e
          rw [put_same] at hj
          cases hj
        · rw [put_other J e] at hj
          exact H.inside t ht j hj
      · intro t ht j s' hj
        by_cases e : t = r
        · subst e
          rw [put_same] at hj
          cases hj
          refine ⟨hi, hop, fun he => ?_, (H.inside t ht _ hp).2⟩
          have : ¬ 1 < P.ranks := fun h1 => hc ⟨he, h1⟩
          omega
        · rw [put_other J e] at hj
          exact H.out t ht j s' hj
  · refine ⟨?_, ?_, fun c hcc => H.code c hcc⟩
    · intro t ht j hj
      by_cases e : t = r
      · subst e
        rw [put_same] at hj
        cases hj
        refine ⟨hi, fun j hj => ?_⟩
        rcases Nat.lt_succ_iff_lt_or_eq.mp hj with hj | rfl
        · exact (H.inside t ht i hp).2 j hj
        · rintro ⟨s, hs⟩
          rw [hop] at hs
          cases hs
      · rw [put_other J e] at hj
        exact H.inside t ht j hj
    · intro t ht j s' hj
      by_cases e : t = r
      · subst e
        rw [put_same] at hj
        cases hj
      · rw [put_other J e] at hj
        exact H.out t ht j s' hj

theorem After.inv {P : Script} {n : Nat} {J : State} (h : After P n J) : Inv P J := by
  induction h with
  | start => exact inv_start P
  | move _ hr hm ih => exact ih.move hr hm

/-! ## no execution goes on forever -/

/-- the number of steps a rank has made -/
def Place.made : Place → Nat
  | .before i => i
  | .left i _ => i + 1

/-- steps of all ranks, and one for the abort -/
def work (P : Script) (J : State) : Nat := (∑ r ∈ Finset.range P.ranks, (J.place r).made) + if J.aborted = none then 0 else 1

theorem work_move {P : Script} {r : Nat} {J J' : State} (hr : r < P.ranks) (h : move P r J = some J') : work P J' = work P J + 1 := by
  have key : ∀ p : Place, p.made = (J.place r).made + 1 → ∑ s ∈ Finset.range P.ranks, ((J.put r p).place s).made
      = (∑ s ∈ Finset.range P.ranks, (J.place s).made) + 1 := by
    intro p hp
    have hm := Finset.mem_range.mpr hr
    rw [← Finset.add_sum_erase _ _ hm, ← Finset.add_sum_erase (Finset.range P.ranks) (fun s => (J.place s).made) hm, put_same, hp]
    have : ∑ s ∈ (Finset.range P.ranks).erase r, ((J.put r p).place s).made = ∑ s ∈ (Finset.range P.ranks).erase r, (J.place s).made :=
      Finset.sum_congr rfl fun s hs => by rw [put_other J (Finset.mem_erase.mp hs).1]
    rw [this]
    omega
  obtain ⟨ha, i, hp, hi, ⟨s, hop, rfl⟩ | ⟨_, rfl⟩⟩ := move_cases h
  · unfold caught
    by_cases hc : P.entry ≤ i ∧ 1 < P.ranks
    · rw [if_pos hc]
      unfold work
      rw [if_pos ha]
      rfl
    · rw [if_neg hc]
      unfold work
      rw [key _ (by rw [hp]; rfl)]
      show (_ + 1) + (if J.aborted = none then 0 else 1) = _
      omega
  · unfold work
    rw [key _ (by rw [hp]; rfl)]
    show (_ + 1) + (if J.aborted = none then 0 else 1) = _
    omega

theorem After.count {P : Script} {n : Nat} {J : State} (h : After P n J) : work P J = n := by
  induction h with
  | start => unfold work Job.start Place.made; simp
  | move _ hr hm ih => rw [work_move hr hm, ih]

/-- C111: however the ranks proceed, the job makes at most as many moves as its ranks have steps, and one for the abort: it
cannot go on forever. -/
theorem bounded {P : Script} {n : Nat} {J : State} (h : After P n J) : n ≤ P.ranks * P.steps + 1 := by
  rw [← h.count]
  have hi := h.inv
  have : ∑ r ∈ Finset.range P.ranks, (J.place r).made ≤ ∑ _r ∈ Finset.range P.ranks, P.steps := by
    refine Finset.sum_le_sum fun r hr => ?_
    have hr := Finset.mem_range.mp hr
    cases hp : J.place r with
    | before i => exact (hi.inside r hr i hp).1
    | left i s => exact (hi.out r hr i s hp).1
  rw [Finset.sum_const, Finset.card_range, Nat.nsmul_eq_mul] at this
  unfold work
  split <;> omega

/-! ## no rank waits forever -/

/-- C111 for scripts in which no rank fails outside of `run`: whatever the order in which the ranks proceed, as long as the job has
not ended, some rank can proceed: no rank waits for a rank that has failed. Together with `bounded`, every job ends. Missing for
the full property: failures outside of `run`, after which other ranks wait forever (`outside_fails`). -/
theorem no_wait_partial {P : Script} (hg : Guarded P) {n : Nat} {J : State} (h : After P n J) : Ended P J ∨ ¬ Stuck P J := by
  by_cases ha : J.aborted = none
  swap
  · exact .inl (.inl ha)
  have hi := h.inv
  by_cases hd : ∀ r, r < P.ranks → Done P J r
  · exact .inl (.inr hd)
  refine .inr fun hst => ?_
  push Not at hd
  obtain ⟨r0, hr0, hn0⟩ := hd
  -- the ranks still in the script, and the one of them that has made the fewest steps
  have ex : ∃ i r, r < P.ranks ∧ J.place r = .before i ∧ i < P.steps := by
    cases hp : J.place r0 with
    | before i =>
      refine ⟨i, r0, hr0, hp, lt_of_le_of_ne (hi.inside r0 hr0 i hp).1 fun e => hn0 (.inl ?_)⟩
      rw [hp, e]
    | left i s => exact absurd (.inr ⟨i, s, hp⟩) hn0
  classical
  obtain ⟨r, hr, hp, hlt⟩ := Nat.find_spec ex
  have hmin : ∀ s, s < P.ranks → ∀ j, J.place s = .before j → Nat.find ex ≤ j := by
    intro s hs j hj
    by_cases hj' : j < P.steps
    · exact Nat.find_min' ex ⟨s, hs, hj, hj'⟩
    · omega
  have hm := hst r hr
  unfold move at hm
  rw [ha, hp] at hm
  dsimp only at hm
  rw [if_neg (Nat.not_le.mpr hlt)] at hm
  split at hm
  · cases hm
  · rename_i w hop
    split at hm
    · cases hm
    · rename_i hall
      apply hall
      refine List.all_eq_true.mpr fun s hs => ?_
      have hs := List.mem_range.mp hs
      cases hq : J.place s with
      | before j =>
        have : (Place.before j).reached (Nat.find ex) = true := decide_eq_true (hmin s hs j hq)
        rw [this, Bool.or_true]
      | left j st =>
        obtain ⟨o1, o2, o3, _⟩ := hi.out s hs j st hq
        have hent : P.entry ≤ j := by
          by_contra hlt'
          exact hg s hs j (by omega) o1 ⟨st, o2⟩
        have h1 := o3 hent
        have : s = r := by omega
        subst this
        rw [hp] at hq
        cases hq

/-- C111: how a job ends, if no rank fails outside of `run`. If no rank fails, all ranks get to the end. If some rank fails
and there are several ranks, all are ended with exit status 1. A single rank that fails ends with its own exception, where it failed first. -/
theorem outcome_partial {P : Script} (hg : Guarded P) {n : Nat} {J : State} (h : After P n J) (hs : Stuck P J) :
    ((∀ r, r < P.ranks → ∀ i, i < P.steps → ¬ Throws P r i) → J.aborted = none ∧ ∀ r, r < P.ranks → J.place r = .before P.steps) ∧
    ((∃ r, r < P.ranks ∧ ∃ i, i < P.steps ∧ Throws P r i) → 1 < P.ranks → J.aborted = some 1) ∧
    (P.ranks = 1 → ∀ i s, i < P.steps → P.op 0 i = .throw s → (∀ j, j < i → ¬ Throws P 0 j) → J.aborted = none ∧ J.place 0 = .left i s) := by
  have hi := h.inv
  have he := (no_wait_partial hg h).resolve_right (not_not_intro hs)
  refine ⟨fun hno => ?_, fun ⟨r, hr, i, hlt, ht⟩ h1 => ?_, fun h1 i s hlt hop hfirst => ?_⟩
  · have ha : J.aborted = none := by
      cases hab : J.aborted with
      | none => rfl
      | some c =>
        obtain ⟨_, _, r, hr, i, _, hlt, ht⟩ := hi.code c hab
        exact absurd ht (hno r hr i hlt)
    refine ⟨ha, fun r hr => ?_⟩
    rcases he with hab | hd
    · exact absurd ha hab
    · rcases hd r hr with e | ⟨i, s, e⟩
      · exact e
      · obtain ⟨o1, o2, _⟩ := hi.out r hr i s e
        exact absurd ⟨s, o2⟩ (hno r hr i o1)
  · cases hab : J.aborted with
    | some c => rw [(hi.code c hab).1]
    | none =>
      exfalso
      rcases he with hab' | hd
      · exact hab' hab
      · rcases hd r hr with e | ⟨j, s, e⟩
        · exact (hi.inside r hr _ e).2 i hlt ht
        · obtain ⟨o1, o2, o3, _⟩ := hi.out r hr j s e
          have hent : P.entry ≤ j := by
            by_contra hlt'
            exact hg r hr j (by omega) o1 ⟨s, o2⟩
          have := o3 hent
          omega
  · have hr : 0 < P.ranks := by omega
    have ha : J.aborted = none := by
      cases hab : J.aborted with
      | none => rfl
      | some c => have := (hi.code c hab).2.1; omega
    refine ⟨ha, ?_⟩
    have left_first : ∀ j s', J.place 0 = .left j s' → (∀ l, l < j → ¬ Throws P 0 l) → J.place 0 = .left i s := by
      intro j s' e hj
      obtain ⟨_, o2, _, _⟩ := hi.out 0 hr j s' e
      have hji : j = i := by
        rcases Nat.lt_trichotomy j i with hl | rfl | hl
        · exact absurd ⟨s', o2⟩ (hfirst j hl)
        · rfl
        · exact absurd ⟨s, hop⟩ (hj i hl)
      subst hji
      rw [o2] at hop
      cases hop
      exact e
    rcases he with hab | hd
    · exact absurd ha hab
    · rcases hd 0 hr with e | ⟨j, s', e⟩
      · exact absurd ⟨s, hop⟩ ((hi.inside 0 hr _ e).2 i hlt)
      · exact left_first j s' e (hi.out 0 hr j s' e).2.2.2

/-- The full property is false: of two ranks the first fails outside of `run` (in `initialize()` called by the script, say), the second
waits for it in a collective call forever. -/
theorem outside_fails : ∃ (P : Script) (n : Nat) (J : State), P.ranks = 2 ∧ After P n J ∧ Stuck P J ∧ ¬ Ended P J ∧ ¬ Done P J 1 := by
  let P : Script := ⟨2, 2, 1, fun r i => if r = 0 ∧ i = 0 then .throw 1 else .go fun _ => true⟩
  have h1 : After P 1 (start.put 0 (.left 0 1)) := .move (r := 0) .start (by decide) rfl
  have hn : ¬ Done P (start.put 0 (.left 0 1)) 1 := by
    rintro (h | ⟨i, s, h⟩)
    · cases h
    · cases h
  refine ⟨P, 1, _, rfl, h1, ?_, ?_, hn⟩
  · intro r hr
    match r, hr with
    | 0, _ => rfl
    | 1, _ => rfl
    | (r + 2), hr => exact absurd (show r + 2 < 2 from hr) (by omega)
  · rintro (h | h)
    · exact h rfl
    · exact hn (h 1 (by decide))

/-- False as well that a script ends with the same exit status on one and on several ranks: `sys.exit(0)` in a callback of all ranks ends one
rank with status 0, and two ranks with status 1. -/
theorem status_fails : ∃ op : Nat → Nat → Op,
    (∃ n J, After ⟨1, 1, 0, op⟩ n J ∧ Stuck ⟨1, 1, 0, op⟩ J ∧ J.place 0 = .left 0 0) ∧
    (∀ n J, After ⟨2, 1, 0, op⟩ n J → Stuck ⟨2, 1, 0, op⟩ J → J.aborted = some 1) := by
  refine ⟨fun _ _ => .throw 0, ⟨1, start.put 0 (.left 0 0), .move (r := 0) .start (by decide) rfl, ?_, rfl⟩, fun n J h hs => ?_⟩
  · intro r hr
    match r, hr with
    | 0, _ => rfl
    | (r + 1), hr => exact absurd (show r + 1 < 1 from hr) (by omega)
  · exact (outcome_partial (P := ⟨2, 1, 0, fun _ _ => .throw 0⟩) (fun r _ i hi _ => absurd hi (Nat.not_lt_zero i)) h hs).2.1
      ⟨0, by decide, 0, by decide, 0, rfl⟩ (by decide)

/-! ## cases that meet the hypotheses -/

/-- three ranks that initialise, synchronise in `run`, and of which the last fails in step 2 while the others wait for it -/
def exScript : Script := ⟨3, 4, 1, fun r i => if r = 2 ∧ i = 2 then .throw 1 else .go fun _ => i != 0⟩

example : Guarded exScript ∧ (∃ r, r < exScript.ranks ∧ ∃ i, i < exScript.steps ∧ Throws exScript r i) ∧ 1 < exScript.ranks := by
  refine ⟨?_, ⟨2, by decide, 2, by decide, 1, rfl⟩, by decide⟩
  intro r _ i hi _ ⟨s, hs⟩
  have h0 : i = 0 := Nat.lt_one_iff.mp hi
  subst h0
  unfold exScript at hs
  dsimp only at hs
  split at hs
  · rename_i h; exact absurd h.2 (by decide)
  · cases hs

/-- ranks 0 and 1 get to step 2 and wait there, then rank 2 follows and fails -/
example : ∃ J, After exScript 7 J ∧ Stuck exScript J ∧ J.aborted = some 1 :=
  ⟨_, .move (r := 2) (.move (r := 2) (.move (r := 1) (.move (r := 0) (.move (r := 2) (.move (r := 1) (.move (r := 0) .start
    (by decide) rfl) (by decide) rfl) (by decide) rfl) (by decide) rfl) (by decide) rfl) (by decide) rfl) (by decide) rfl,
    fun _ _ => rfl, rfl⟩

end Verif.Job
