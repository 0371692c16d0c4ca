import Verif.Model.Collective
import Mathlib.Algebra.BigOperators.Group.List.Basic
import Mathlib.Tactic.Linarith
import Mathlib.Tactic.FinCases
/-!
# Lemmas on the machine of communication calls
-/
namespace Verif.Collective

/-! ## the machine -/

theorem colls_append (m : Com) (a b : List Call) : colls m (a ++ b) = colls m a ++ colls m b := by
  simp [colls]

theorem reach_le (J : Job) (n : Nat) (s : State) (h : J.Reach n s) (r : Nat) (hr : r < J.ranks) :
    s r ≤ (J.prog r).length := by
  induction h with
  | start => simp
  | step _ hs ih =>
    obtain ⟨a, c, _, hc, _, rfl⟩ := hs
    obtain ⟨hlt, _⟩ := List.getElem?_eq_some_iff.mp hc
    by_cases e : r = a
    · subst e; simpa using Nat.succ_le_of_lt hlt
    · simpa [e] using ih

theorem sum_update (R : Nat) (s : State) (r : Nat) (hr : r < R) :
    ((List.range R).map fun q => if q = r then s r + 1 else s q).sum = ((List.range R).map s).sum + 1 := by
  induction R with
  | zero => omega
  | succ R ih =>
    simp only [List.range_succ, List.map_append, List.sum_append, List.map_cons, List.map_nil, List.sum_cons,
      List.sum_nil]
    by_cases e : r = R
    · subst e
      have : (List.range r).map (fun q => if q = r then s r + 1 else s q) = (List.range r).map s := by
        apply List.map_congr_left
        intro q hq
        have := List.mem_range.mp hq
        rw [if_neg (by omega)]
      rw [this]
      simp; omega
    · rw [ih (by omega), if_neg (fun h => e h.symm)]
      omega

theorem reach_sum (J : Job) (n : Nat) (s : State) (h : J.Reach n s) : n = ((List.range J.ranks).map s).sum := by
  induction h with
  | start => simp
  | step _ hs ih =>
    obtain ⟨a, c, ha, _, _, rfl⟩ := hs
    rw [sum_update _ _ _ ha, ← ih]

theorem sum_le (R : Nat) (f g : Nat → Nat) (h : ∀ r, r < R → f r ≤ g r) :
    ((List.range R).map f).sum ≤ ((List.range R).map g).sum := by
  induction R with
  | zero => simp
  | succ R ih =>
    simp only [List.range_succ, List.map_append, List.sum_append, List.map_cons, List.map_nil, List.sum_cons,
      List.sum_nil]
    have := ih fun r hr => h r (by omega)
    have := h R (by omega)
    omega

/-- every execution is finite -/
theorem reach_bounded (J : Job) (n : Nat) (s : State) (h : J.Reach n s) :
    n ≤ ((List.range J.ranks).map fun r => (J.prog r).length).sum := by
  rw [reach_sum J n s h]
  exact sum_le _ _ _ fun r hr => reach_le J n s h r hr

/-- every wait comes after its post -/
def Balanced (l : List Call) : Prop :=
  ∀ p t, l[p]? = some (.wait t) → (l.take p).count (.wait t) < (l.take p).count (.post t)

theorem progress (J : Job) (P : List Call) (hP : ∀ r, r < J.ranks → J.prog r = P) (hb : Balanced P) (n : Nat)
    (s : State) (h : J.Reach n s) : J.Done s ∨ ∃ s', J.Step s s' := by
  classical
  by_cases hd : J.Done s
  · exact Or.inl hd
  right
  obtain ⟨r0, hr0, hne⟩ : ∃ r, r < J.ranks ∧ s r ≠ (J.prog r).length := by
    simpa [Job.Done] using hd
  have hex : ∃ v, ∃ r, r < J.ranks ∧ s r = v := ⟨_, r0, hr0, rfl⟩
  obtain ⟨r, hr, hv⟩ := Nat.find_spec hex
  have hmin : ∀ q, q < J.ranks → s r ≤ s q := by
    intro q hq
    rw [hv]
    exact Nat.find_min' hex ⟨q, hq, rfl⟩
  have hlt : s r < P.length := by
    have h1 := hmin r0 hr0
    have h2 := reach_le J n s h r0 hr0
    rw [hP r0 hr0] at h2 hne
    omega
  have hc : (J.prog r)[s r]? = some P[s r] := by
    rw [hP r hr]
    exact List.getElem?_eq_getElem hlt
  refine ⟨_, r, P[s r], hr, hc, ?_, rfl⟩
  have hsplit : ∀ q, q < J.ranks → J.entered s q = P.take (s r) ++ P[s r] :: ((P.drop (s r + 1)).take (s q - s r)) := by
    intro q hq
    have hle := hmin q hq
    unfold Job.entered
    rw [hP q hq]
    have e : s q + 1 = (s r + 1) + (s q - s r) := by omega
    rw [e, List.take_add, List.take_succ_eq_append_getElem hlt, List.append_assoc]
    rfl
  cases hk : P[s r] with
  | coll m k =>
    intro q hq
    rw [hsplit q hq, hk, colls_append, hP r hr]
    simp [colls]
  | post t => trivial
  | wait t =>
    rw [Job.returns]
    intro q hq _
    have hw := hb (s r) t (by rw [List.getElem?_eq_getElem hlt, hk])
    rw [hsplit q hq, List.count_append, hP r hr]
    omega

/-- the collectives a rank has returned from have been entered by all the ranks -/
theorem reach_matched (J : Job) (n : Nat) (s : State) (h : J.Reach n s) :
    ∀ r, r < J.ranks → ∀ (m : Com) (i : Nat) (k : Kind), (colls m ((J.prog r).take (s r)))[i]? = some k →
      ∀ q, q < J.ranks → (colls m (J.entered s q))[i]? = some k := by
  induction h with
  | start =>
    intro r _ m i k hk
    simp [colls] at hk
  | @step n s s' hr hs ih =>
    obtain ⟨a, c, ha, hc, hret, rfl⟩ := hs
    obtain ⟨hlt, hget⟩ := List.getElem?_eq_some_iff.mp hc
    have mono : ∀ (m : Com) (i : Nat) (k : Kind) q, (colls m (J.entered s q))[i]? = some k →
        (colls m (J.entered (fun q => if q = a then s a + 1 else s q) q))[i]? = some k := by
      intro m i k q hk
      have hpre : colls m (J.entered s q) <+: colls m (J.entered (fun q => if q = a then s a + 1 else s q) q) := by
        apply List.IsPrefix.filterMap
        unfold Job.entered
        apply List.take_prefix_take_left
        show s q + 1 ≤ (if q = a then s a + 1 else s q) + 1
        by_cases e : q = a
        · subst e; simp
        · simp [e]
      obtain ⟨t, ht⟩ := hpre
      rw [← ht, List.getElem?_append_left]
      · exact hk
      · exact (List.getElem?_eq_some_iff.mp hk).1
    intro r hr' m i k hk q hq
    by_cases e : r = a
    · subst e
      simp only [if_true] at hk
      rw [List.take_succ_eq_append_getElem hlt, colls_append] at hk
      by_cases hi : i < (colls m ((J.prog r).take (s r))).length
      · rw [List.getElem?_append_left hi] at hk
        exact mono m i k q (ih r hr' m i k hk q hq)
      · rw [List.getElem?_append_right (by omega)] at hk
        rw [hget] at hk
        cases c with
        | post t => simp [colls] at hk
        | wait t => simp [colls] at hk
        | coll m' k' =>
          by_cases em : m' = m
          · subst em
            have hk1 : (colls m' [Call.coll m' k']) = [k'] := by simp [colls]
            rw [hk1] at hk
            have h0 : i - (colls m' ((J.prog r).take (s r))).length = 0 := by
              have := (List.getElem?_eq_some_iff.mp hk).1
              simp at this
              omega
            rw [h0] at hk
            have hkk : k' = k := by simpa using hk
            have hi' : i = (colls m' ((J.prog r).take (s r))).length := by omega
            subst hkk
            rw [hi']
            exact mono _ _ _ q (hret q hq)
          · simp [colls, em] at hk
    · simp only [if_neg e] at hk
      exact mono m i k q (ih r hr' m i k hk q hq)

/-- if all the ranks come to their end, they made the same collective calls in the same order -/
theorem done_colls (J : Job) (n : Nat) (s : State) (h : J.Reach n s) (hd : J.Done s) (r q : Nat) (hr : r < J.ranks)
    (hq : q < J.ranks) (m : Com) : colls m (J.prog r) = colls m (J.prog q) := by
  have key : ∀ a b, a < J.ranks → b < J.ranks → ∀ (i : Nat) (k : Kind), (colls m (J.prog a))[i]? = some k →
      (colls m (J.prog b))[i]? = some k := by
    intro a b ha hb i k hk
    have := reach_matched J n s h a ha m i k (by rw [hd a ha, List.take_length]; exact hk) b hb
    unfold Job.entered at this
    rwa [hd b hb, List.take_of_length_le (by omega)] at this
  apply List.ext_getElem?
  intro i
  cases e : (colls m (J.prog r))[i]? with
  | some k => exact (key r q hr hq i k e).symm
  | none =>
    cases e' : (colls m (J.prog q))[i]? with
    | none => rfl
    | some k => rw [key q r hq hr i k e'] at e; cases e

/-! ## posts and waits of the programs -/

/-- the number of open posts with tag `t` after `l`; `none` when something is awaited before it is posted -/
def bal (t : Tag) : Nat → List Call → Option Nat
  | n, [] => some n
  | n, .post t' :: l => bal t (if t' = t then n + 1 else n) l
  | n, .wait t' :: l => if t' = t then (match n with | 0 => none | n + 1 => bal t n l) else bal t n l
  | n, .coll _ _ :: l => bal t n l

theorem bal_append (t : Tag) (a b : List Call) (n : Nat) : bal t n (a ++ b) = (bal t n a).bind fun k => bal t k b := by
  induction a generalizing n with
  | nil => rfl
  | cons x a ih =>
    cases x with
    | coll m k => exact ih n
    | post t' => exact ih _
    | wait t' =>
      simp only [List.cons_append, bal]
      by_cases e : t' = t
      · rw [if_pos e, if_pos e]
        cases n with
        | zero => rfl
        | succ n => exact ih n
      · rw [if_neg e, if_neg e]
        exact ih n

theorem bal_count (t : Tag) (l : List Call) (n n' : Nat) (h : bal t n l = some n') (p : Nat)
    (hp : l[p]? = some (.wait t)) : (l.take p).count (.wait t) < n + (l.take p).count (.post t) := by
  induction l generalizing n p with
  | nil => simp at hp
  | cons x l ih =>
    cases p with
    | zero =>
      simp only [List.getElem?_cons_zero, Option.some.injEq] at hp
      subst hp
      simp only [bal, if_true] at h
      cases n with
      | zero => simp at h
      | succ n => simp
    | succ p =>
      simp only [List.getElem?_cons_succ] at hp
      simp only [List.take_succ_cons, List.count_cons]
      cases x with
      | coll m k =>
        have := ih n h p hp
        simpa using this
      | post t' =>
        have := ih _ h p hp
        by_cases e : t' = t
        · subst e; simp at this ⊢; omega
        · simp [e] at this ⊢; omega
      | wait t' =>
        simp only [bal] at h
        by_cases e : t' = t
        · subst e
          rw [if_pos rfl] at h
          cases n with
          | zero => simp at h
          | succ n =>
            have := ih n h p hp
            simp
            omega
        · rw [if_neg e] at h
          have := ih n h p hp
          simp [e]
          omega

/-- as many posts as waits, and never a wait before its post -/
def Neutral (l : List Call) : Prop := ∀ t n, bal t n l = some n

theorem Neutral.balanced {l : List Call} (h : Neutral l) : Balanced l := by
  intro p t hp
  have := bal_count t l 0 0 (h t 0) p hp
  omega

theorem Neutral.append {a b : List Call} (ha : Neutral a) (hb : Neutral b) : Neutral (a ++ b) := by
  intro t n
  rw [bal_append, ha t n]
  exact hb t n

theorem neutral_nil : Neutral [] := fun _ _ => rfl

theorem neutral_coll (m : Com) (l : List Kind) : Neutral (l.map (.coll m)) := by
  intro t n
  induction l with
  | nil => rfl
  | cons k l ih => exact ih

theorem neutral_flatMap {α : Type} (f : α → List Call) (l : List α) (h : ∀ x ∈ l, Neutral (f x)) :
    Neutral (l.flatMap f) := by
  induction l with
  | nil => exact neutral_nil
  | cons x l ih =>
    rw [List.flatMap_cons]
    exact (h x (by simp)).append (ih fun y hy => h y (by simp [hy]))

theorem neutral_pair (t : Tag) : Neutral [.post t, .wait t] := by
  intro t' n
  by_cases e : t = t' <;> simp [bal, e]

theorem bal_counts (t : Tag) (l : List Nat) (n : Nat) :
    bal t n (l.flatMap fun i => [.post (.count i), .wait (.count i), .coll .particles .barrier, .post (.data i)]) =
      some (n + (match t with | .data i => l.count i | _ => 0)) := by
  induction l generalizing n with
  | nil => cases t <;> simp [bal]
  | cons i l ih =>
    rw [List.flatMap_cons, bal_append]
    cases t with
    | data j =>
      by_cases e : i = j
      · subst e
        simp [bal, ih]
        omega
      · simp [bal, ih, e]
    | count j => by_cases e : i = j <;> simp [bal, ih, e]
    | e => simp [bal, ih]
    | b => simp [bal, ih]
    | j => simp [bal, ih]
    | patch => simp [bal, ih]

theorem bal_datas (t : Tag) (l : List Nat) (n : Nat) :
    bal t (n + (match t with | .data i => l.count i | _ => 0)) (l.map fun i => .wait (.data i)) = some n := by
  induction l generalizing n with
  | nil => cases t <;> simp [bal]
  | cons i l ih =>
    cases t with
    | data j =>
      have ih' := ih n
      simp only at ih'
      by_cases e : i = j
      · subst e
        simp only [List.count_cons_self, List.map_cons, bal, if_true, ← Nat.add_assoc]
        exact ih'
      · simp only [List.count_cons, List.map_cons, bal]
        rw [if_neg (by simpa using e), if_neg (by simpa using e)]
        exact ih'
    | count j => simpa [bal] using ih n
    | e => simpa [bal] using ih n
    | b => simpa [bal] using ih n
    | j => simpa [bal] using ih n
    | patch => simpa [bal] using ih n

theorem neutral_particles (nspec : Nat) : Neutral (particleCalls nspec) := by
  intro t n
  unfold particleCalls
  rw [bal_append, bal_counts]
  exact bal_datas t (List.range nspec) n

theorem neutral_rebalance : Neutral rebalanceCalls := by
  have : rebalanceCalls = [Kind.gather, .gather, .gather, .scatter, .bcast, .allgather].map (.coll .base) ++
      ([.post .patch, .wait .patch] ++ [Kind.allgather].map (.coll .base)) := rfl
  rw [this]
  exact (neutral_coll _ _).append ((neutral_pair _).append (neutral_coll _ _))

/-- the two halves of the current exchange -/
def isSync (op : RunLoop.Op) : Bool :=
  match op with
  | .syncCurrentsStart | .syncCurrentsWait => true
  | _ => false

theorem neutral_op (w : World) (nspec i : Nat) (k : RunLoop.Clock) (op : RunLoop.Op) (h : isSync op = false) :
    Neutral (callsOf w nspec ⟨i, k, op⟩) := by
  cases op with
  | stage s j =>
    cases s
    case init => exact (neutral_coll _ _).append (neutral_coll .base [.barrier])
    case final => exact (neutral_coll .base [.barrier]).append (neutral_coll _ _)
    all_goals exact neutral_coll _ _
  | syncGuardE => exact neutral_pair _
  | syncGuardB => exact neutral_pair _
  | mpiParticles => exact neutral_particles _
  | rebalance => exact neutral_rebalance
  | syncCurrentsStart => simp [isSync] at h
  | syncCurrentsWait => simp [isSync] at h
  | _ => exact neutral_nil

/-- the calls of the operations `l` of step `i` -/
abbrev opCalls (w : World) (nspec i : Nat) (k : RunLoop.Clock) (l : List RunLoop.Op) : List Call :=
  (l.map fun op => RunLoop.Ev.mk i k op).flatMap (callsOf w nspec)

theorem opCalls_append (w : World) (nspec i : Nat) (k : RunLoop.Clock) (a b : List RunLoop.Op) :
    opCalls w nspec i k (a ++ b) = opCalls w nspec i k a ++ opCalls w nspec i k b := by
  simp [opCalls]

theorem neutral_ops (w : World) (nspec i : Nat) (k : RunLoop.Clock) (l : List RunLoop.Op)
    (h : ∀ op ∈ l, isSync op = false) : Neutral (opCalls w nspec i k l) := by
  apply neutral_flatMap
  intro e he
  obtain ⟨op, hop, rfl⟩ := List.mem_map.mp he
  exact neutral_op w nspec i k op (h op hop)

theorem isSync_species (c : RunLoop.Config) (i : Nat) : ∀ op ∈ RunLoop.speciesOps c i, isSync op = false := by
  unfold RunLoop.speciesOps
  by_cases h1 : c.unified i <;> by_cases h2 : c.radiation i <;> by_cases h3 : c.pairs i <;>
    simp [h1, h2, h3, isSync]

theorem isSync_create (c : RunLoop.Config) (i : Nat) : ∀ op ∈ RunLoop.createOps c i, isSync op = false := by
  unfold RunLoop.createOps
  by_cases h2 : c.radiation i <;> by_cases h3 : c.pairs i <;> simp [h2, h3, isSync]

/-- the operations of a step before the currents are posted, between posting and waiting, and after -/
theorem stepOps_split (c : RunLoop.Config) (o : RunLoop.Oracle) : ∃ A B C : List RunLoop.Op,
    RunLoop.stepOps c o = A ++ [.syncCurrentsStart] ++ B ++ [.syncCurrentsWait] ++ C ∧
    (∀ op ∈ A, isSync op = false) ∧ (∀ op ∈ B, isSync op = false) ∧ (∀ op ∈ C, isSync op = false) := by
  refine ⟨[.stage .start none, .updateE, .syncGuardE, .updateB, .syncGuardB, .stage .maxwell1 none] ++
      ((List.range c.nspec).filter o.sortEnabled).map .sort ++ (if c.collision then [.collide] else []) ++
      [.resetCurrents] ++ ((List.range c.nspec).filter o.pushEnabled).flatMap (RunLoop.speciesOps c),
    ((List.range c.nspec).filter o.createEnabled).flatMap (RunLoop.createOps c) ++ [.mpiParticles, .syncParticles],
    (if o.rebalance then [.rebalance] else []) ++
      [.updateLists, .stage .qedCreate none, .updateB, .stage .laser none, .syncGuardB, .updateE, .syncGuardE,
       .stage .maxwell2 none, .stage .end_ none], by simp [RunLoop.stepOps], ?_, ?_, ?_⟩
  · intro op hop
    simp only [List.mem_append, List.mem_flatMap] at hop
    rcases hop with (((h | h) | h) | h) | ⟨j, _, h⟩
    · fin_cases h <;> rfl
    · obtain ⟨j, _, rfl⟩ := List.mem_map.mp h; rfl
    · by_cases e : c.collision
      · simp [e] at h; subst h; rfl
      · simp [e] at h
    · simp at h; subst h; rfl
    · exact isSync_species c j op h
  · intro op hop
    simp only [List.mem_append, List.mem_flatMap] at hop
    rcases hop with ⟨j, _, h⟩ | h
    · exact isSync_create c j op h
    · fin_cases h <;> rfl
  · intro op hop
    simp only [List.mem_append] at hop
    rcases hop with h | h
    · by_cases e : o.rebalance
      · simp [e] at h; subst h; rfl
      · simp [e] at h
    · fin_cases h <;> rfl

theorem neutral_step (w : World) (c : RunLoop.Config) (o : RunLoop.Oracle) (i : Nat) (k : RunLoop.Clock) :
    Neutral (opCalls w c.nspec i k (RunLoop.stepOps c o)) := by
  obtain ⟨A, B, C, e, hA, hB, hC⟩ := stepOps_split c o
  rw [e]
  simp only [opCalls_append]
  have h1 := neutral_ops w c.nspec i k A hA
  have h2 := neutral_ops w c.nspec i k B hB
  have h3 := neutral_ops w c.nspec i k C hC
  refine Neutral.append ?_ h3
  intro t n
  by_cases hs : w.needSync i
  · have e1 : opCalls w c.nspec i k [.syncCurrentsStart] = [.coll .base .barrier, .post .j] := by
      simp [opCalls, callsOf, hs]
    have e2 : opCalls w c.nspec i k [.syncCurrentsWait] = [.wait .j, .coll .base .allgather] := by
      simp [opCalls, callsOf, hs]
    rw [e1, e2, bal_append, bal_append, bal_append, h1 t n]
    by_cases et : Tag.j = t
    · subst et
      simp [bal, h2 .j (n + 1)]
    · simp [bal, h2 t n, et]
  · have e1 : opCalls w c.nspec i k [.syncCurrentsStart] = [] := by
      simp [opCalls, callsOf, hs]
    have e2 : opCalls w c.nspec i k [.syncCurrentsWait] = [.coll .base .allgather] := by
      simp [opCalls, callsOf, hs]
    rw [e1, e2, bal_append, bal_append, bal_append, h1 t n]
    simp [bal, h2 t n]

theorem neutral_loop (w : World) (c : RunLoop.Config) (dt : ℚ) (o : Nat → RunLoop.Oracle) (left istep : Nat)
    (k : RunLoop.Clock) : Neutral ((RunLoop.loop c dt o left istep k).trace.flatMap (callsOf w c.nspec)) := by
  induction left generalizing istep k with
  | zero => exact neutral_nil
  | succ left ih =>
    simp only [RunLoop.loop]
    by_cases h1 : (o istep).dump
    · rw [if_pos h1]; exact neutral_step w c _ _ _
    · rw [if_neg h1]
      by_cases h2 : (o istep).stop
      · rw [if_pos h2]; exact neutral_step w c _ _ _
      · rw [if_neg h2]
        simp only [List.flatMap_append]
        exact (neutral_step w c _ _ _).append (ih _ _)

theorem neutral_end (x : RunLoop.Outcome) : Neutral (endCalls x) := by
  cases x
  · exact neutral_nil
  · exact neutral_coll .base [.barrier, .barrier, .barrier]
  · exact neutral_nil

/-! ## the programs of the ranks -/

/-- everything after the `init` stage -/
def loopCalls (w : World) (c : RunLoop.Config) (dt : ℚ) (o : Nat → RunLoop.Oracle) (left istep : Nat)
    (k : RunLoop.Clock) : List Call :=
  let r := RunLoop.loop c dt o left istep k
  r.trace.flatMap (callsOf w c.nspec) ++
    ((if r.outcome = .done then [⟨r.clock.itime, r.clock, .stage .final none⟩] else []).flatMap (callsOf w c.nspec) ++
      endCalls r.outcome)

theorem run_eq (c : RunLoop.Config) (dt : ℚ) (o : Nat → RunLoop.Oracle) (n : Nat) (k : RunLoop.Clock) :
    RunLoop.run c dt none none o (some n) none k =
      let r := RunLoop.loop c dt o n k.itime k
      some ⟨⟨k.itime, k, .stage .init none⟩ :: r.trace ++
        (if r.outcome = .done then [⟨r.clock.itime, r.clock, .stage .final none⟩] else []), r.clock, r.outcome⟩ := by
  have : (((n : Int) + (k.itime : Int)) - (k.itime : Int)).toNat = n := by omega
  simp only [RunLoop.run, RunLoop.handleNsteps, Option.map_some, this]

theorem prog_eq (R : Nat) (peer : Tag → Nat → Nat → Nat → Prop) (w : World) (c : RunLoop.Config) (dt : ℚ)
    (base : Nat → RunLoop.Oracle) (dump stop : Nat → Nat → Bool) (n : Nat) (k : RunLoop.Clock) (r : Nat) :
    (job R peer w c dt base dump stop n k).prog r =
      callsOf w c.nspec ⟨k.itime, k, .stage .init none⟩ ++ loopCalls w c dt (oracle base dump stop r) n k.itime k := by
  simp only [job, run_eq, calls, loopCalls]
  simp [List.append_assoc]

theorem neutral_prog (R : Nat) (peer : Tag → Nat → Nat → Nat → Prop) (w : World) (c : RunLoop.Config) (dt : ℚ)
    (base : Nat → RunLoop.Oracle) (dump stop : Nat → Nat → Bool) (n : Nat) (k : RunLoop.Clock) (r : Nat) :
    Neutral ((job R peer w c dt base dump stop n k).prog r) := by
  rw [prog_eq]
  refine (neutral_op w _ _ _ _ rfl).append ((neutral_loop w c dt _ _ _ _).append (Neutral.append ?_ (neutral_end _)))
  apply neutral_flatMap
  intro e he
  by_cases h : (RunLoop.loop c dt (oracle base dump stop r) n k.itime k).outcome = .done
  · rw [if_pos h] at he
    simp only [List.mem_singleton] at he
    subst he
    exact neutral_op w _ _ _ _ rfl
  · rw [if_neg h] at he
    simp at he

theorem allgather_step (w : World) (c : RunLoop.Config) (o : RunLoop.Oracle) (i : Nat) (k : RunLoop.Clock) :
    Kind.allgather ∈ colls .base (opCalls w c.nspec i k (RunLoop.stepOps c o)) := by
  obtain ⟨A, B, C, e, _⟩ := stepOps_split c o
  rw [e]
  simp only [opCalls_append, colls_append, List.mem_append]
  left; right
  simp [opCalls, callsOf, colls]

theorem allgather_loop (w : World) (c : RunLoop.Config) (dt : ℚ) (o : Nat → RunLoop.Oracle) (left istep : Nat)
    (k : RunLoop.Clock) : Kind.allgather ∈ colls .base (loopCalls w c dt o (left + 1) istep k) := by
  unfold loopCalls
  rw [colls_append, List.mem_append]
  left
  simp only [RunLoop.loop]
  by_cases h1 : (o istep).dump
  · rw [if_pos h1]; exact allgather_step w c _ _ _
  · rw [if_neg h1]
    by_cases h2 : (o istep).stop
    · rw [if_pos h2]; exact allgather_step w c _ _ _
    · rw [if_neg h2]
      simp only [List.flatMap_append, colls_append, List.mem_append]
      exact Or.inl (allgather_step w c _ _ _)

/-- how one more step unfolds -/
theorem loopCalls_succ (w : World) (c : RunLoop.Config) (dt : ℚ) (o : Nat → RunLoop.Oracle) (left istep : Nat)
    (k : RunLoop.Clock) : loopCalls w c dt o (left + 1) istep k =
      opCalls w c.nspec istep k (RunLoop.stepOps c (o istep)) ++
        if (o istep).dump then endCalls .dumped else if (o istep).stop then []
        else loopCalls w c dt o left (istep + 1) ⟨k.itime + 1, k.time + dt⟩ := by
  unfold loopCalls
  simp only [RunLoop.loop]
  by_cases h1 : (o istep).dump
  · simp [h1]
  · by_cases h2 : (o istep).stop
    · simp [h1, h2, endCalls]
    · simp [h1, h2, List.append_assoc]

end Verif.Collective
