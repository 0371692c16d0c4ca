import Verif.Model.Interleave
/-!
# Threads with separated footprints: every interleaving gives the sequential result
-/
namespace Verif.Interleave
variable {L V : Type}

/-- the step writes only `W`, and what it writes depends only on `R` and `W` -/
def Local (R W : L → Prop) (f : Step L V) : Prop :=
  (∀ m l, ¬ W l → f m l = m l) ∧
  ∀ m m', (∀ l, R l ∨ W l → m l = m' l) → ∀ l, W l → f m l = f m' l

theorem run_cons (f : Step L V) (fs) (m : L → V) : run (f :: fs) m = run fs (f m) := rfl

theorem proj_cons_self (t : Nat) (f : Step L V) (s) : proj t ((t, f) :: s) = f :: proj t s := by
  simp [proj]

theorem proj_cons_ne {t u : Nat} (h : u ≠ t) (f : Step L V) (s) :
    proj t ((u, f) :: s) = proj t s := by
  simp [proj, h]

/-- Non-interference: off the locations other threads write, an interleaved run equals the run of
thread `t` alone. -/
theorem run_sched (R W : Nat → L → Prop)
    (hR : ∀ t u, t ≠ u → ∀ l, R t l → ¬ W u l) (hW : ∀ t u, t ≠ u → ∀ l, W t l → ¬ W u l) (t : Nat) :
    ∀ (sched : List (Nat × Step L V)), (∀ x ∈ sched, Local (R x.1) (W x.1) x.2) → ∀ (m m' : L → V),
      (∀ l, (∀ u, u ≠ t → ¬ W u l) → m l = m' l) →
      ∀ l, (∀ u, u ≠ t → ¬ W u l) → run (sched.map Prod.snd) m l = run (proj t sched) m' l
  | [], _, m, m', h, l, hl => h l hl
  | (u, f) :: s, hloc, m, m', h, l, hl => by
    rw [List.map_cons, run_cons]
    have hf : Local (R u) (W u) f := hloc (u, f) (by simp)
    have hs : ∀ x ∈ s, Local (R x.1) (W x.1) x.2 := fun x hx => hloc x (by simp [hx])
    by_cases hu : u = t
    · subst hu
      rw [proj_cons_self, run_cons]
      refine run_sched R W hR hW u s hs _ _ ?_ l hl
      intro k hk
      by_cases hw : W u k
      · refine hf.2 m m' ?_ k hw
        intro j hj
        apply h
        intro v hv
        rcases hj with hj | hj
        · exact hR u v (Ne.symm hv) j hj
        · exact hW u v (Ne.symm hv) j hj
      · show f m k = f m' k
        rw [hf.1 m k hw, hf.1 m' k hw]; exact h k hk
    · rw [proj_cons_ne hu]
      refine run_sched R W hR hW t s hs _ _ ?_ l hl
      intro k hk
      show f m k = m' k
      rw [hf.1 m k (hk u hu)]; exact h k hk

/-- locations no thread writes keep their value -/
theorem run_frame (W : Nat → L → Prop) :
    ∀ (sched : List (Nat × Step L V)), (∀ x ∈ sched, ∀ m l, ¬ W x.1 l → x.2 m l = m l) →
      ∀ (m : L → V) (l : L), (∀ u, ¬ W u l) → run (sched.map Prod.snd) m l = m l
  | [], _, m, l, _ => rfl
  | (u, f) :: s, h, m, l, hl => by
    rw [List.map_cons, run_cons, run_frame W s (fun x hx => h x (by simp [hx])) _ l hl]
    exact h (u, f) (by simp) m l (hl u)

/-- the steps of a schedule belong to the programs -/
theorem IsSchedule.mem {n : Nat} {prog : Nat → List (Step L V)} {sched : List (Nat × Step L V)}
    (h : IsSchedule n prog sched) {x : Nat × Step L V} (hx : x ∈ sched) : x.1 < n ∧ x.2 ∈ prog x.1 := by
  have hm : x.2 ∈ proj x.1 sched := by
    unfold proj
    exact List.mem_map.mpr ⟨x, by simp [List.mem_filter, hx], rfl⟩
  rw [h x.1] at hm
  split at hm
  · exact ⟨‹_›, hm⟩
  · simp at hm

/-- the sequential execution is a schedule -/
theorem isSchedule_seq (n : Nat) (prog : Nat → List (Step L V)) :
    IsSchedule n prog ((List.range n).flatMap fun t => (prog t).map fun f => (t, f)) := by
  intro t
  have key : ∀ k, proj t ((List.range k).flatMap fun t => (prog t).map fun f => (t, f)) =
      if t < k then prog t else [] := by
    intro k
    induction k with
    | zero => simp [proj]
    | succ k ih =>
      rw [List.range_succ, List.flatMap_append]
      have ha : ∀ a b : List (Nat × Step L V), proj t (a ++ b) = proj t a ++ proj t b := by
        intro a b; simp [proj]
      rw [ha, ih, List.flatMap_singleton]
      by_cases hk : t = k
      · subst hk
        have : proj t ((prog t).map fun f => (t, f)) = prog t := by
          unfold proj
          rw [List.filter_eq_self.mpr]
          · rw [List.map_map]; simp [Function.comp_def]
          · intro x hx; obtain ⟨f, _, rfl⟩ := List.mem_map.mp hx; simp
        rw [this]; simp
      · have : proj t ((prog k).map fun f => (k, f)) = [] := by
          unfold proj
          rw [List.filter_eq_nil_iff.mpr]
          · rfl
          · intro x hx; obtain ⟨f, _, rfl⟩ := List.mem_map.mp hx; simp; exact fun h => hk h.symm
        rw [this, List.append_nil]
        by_cases h : t < k
        · rw [if_pos h, if_pos (by omega)]
        · rw [if_neg h, if_neg (by omega)]
  exact key n

end Verif.Interleave
