import Verif.Model.CurrentSync
import Verif.Props.MpiFields
import Verif.Props.Callbacks
/-!
# C33 — the currents are synchronised exactly once before they are used

Specification: `deposited δ evs` is the sum of everything deposited since the arrays were last reset; `total m t v` is
the sum of what lies in `m` on the global cell of cell `v` of patch `t`, over all cells (own and guard) of all patches.
-/
namespace Verif.SyncFields
open Verif.RunLoop (Op Ev Stage)
open Verif.Neighbors

variable {k : Nat} {D : Type}

/-- Specification: deposits since the last reset, in the order of the trace -/
def deposited (δ : Nat → Nat → Loc k → ℚ) (evs : List Ev) : Loc k → ℚ :=
  evs.foldl (fun d e => match e.op with
    | .resetCurrents => fun _ => 0
    | .unified i => fun l => d l + δ e.istep i l
    | .deposit i => fun l => d l + δ e.istep i l
    | _ => d) fun _ => 0

/-- Specification: everything on the global cell of cell `v` of patch `t` -/
def total (n : Fin k → Nat) (ng N : Nat) (g : Place k) (m : Loc k → ℚ) (t : Nat) (v : Fin k → Int) : ℚ :=
  ∑ u ∈ Finset.range N, ∑ w ∈ allCells n ng, if g.Same n u w t v then at' n ng m u w else 0

/-- what the exchange of one system does (proved below for the 2D and the 3D system) -/
structure Reduces [DecidableEq D] (S : CurrentSys k D) (n : Fin k → Nat) (ng N : Nat) (g : Place k) : Prop where
  red : ∀ rk m m', CurrentExchange (S.loc rk) (S.rem rk) m m' →
    (∀ t v, t < N → Own n v → at' n ng m' t v = total n ng N g m t v) ∧
    (∀ u w, u < N → InRange n ng w → ¬ Own n w →
      (∃ t v, t < N ∧ Own n v ∧ g.Same n u w t v) → at' n ng m' u w = 0)
  own : ∀ u w t v, u < N → t < N → Own n w → Own n v → (g.Same n u w t v ↔ u = t ∧ w = v)
  legal : ∀ rk (fills adds : List (MpiStep k D)),
    fills.Perm ((S.rem rk).elements.map fun e => .fill e.1 e.2.1 e.2.2) →
    adds.Perm ((S.rem rk).elements.map fun e => .add e.1 e.2.1 e.2.2) → (S.rem rk).Legal (fills ++ adds)
  single : ∀ rk, S.nrank = 1 → (∀ p, rk p < 1) → (S.rem rk).elements = []

section Generic
variable {n : Fin k → Nat} {ng N : Nat} {g : Place k}

/-- own cells hold everything deposited on their global cell, folded guard cells are empty -/
def Folded (n : Fin k → Nat) (ng N : Nat) (g : Place k) (m d : Loc k → ℚ) : Prop :=
  (∀ t v, t < N → Own n v → at' n ng m t v = total n ng N g d t v) ∧
  ∀ u w, u < N → InRange n ng w → ¬ Own n w → (∃ t v, t < N ∧ Own n v ∧ g.Same n u w t v) → at' n ng m u w = 0

/-- nothing is lost: the sums per global cell agree -/
def SameTotal (n : Fin k → Nat) (ng N : Nat) (g : Place k) (m d : Loc k → ℚ) : Prop :=
  ∀ t v, t < N → Own n v → total n ng N g m t v = total n ng N g d t v

variable [DecidableEq D] {S : CurrentSys k D}

theorem Folded.sameTotal (hR : Reduces S n ng N g) {m d : Loc k → ℚ} (h : Folded n ng N g m d) :
    SameTotal n ng N g m d := by
  intro t v ht hv
  rw [← h.1 t v ht hv]
  unfold total
  rw [Finset.sum_eq_single t]
  · rw [Finset.sum_eq_single v]
    · rw [if_pos ((hR.own t v t v ht ht hv hv).mpr ⟨rfl, rfl⟩)]
    · intro w hw hne
      by_cases hs : g.Same n t w t v
      · rw [if_pos hs]
        by_cases ho : Own n w
        · exact absurd ((hR.own t w t v ht ht ho hv).mp hs).2 hne
        · exact h.2 t w ht (mem_allCells.mp hw) ho ⟨t, v, ht, hv, hs⟩
      · rw [if_neg hs]
    · intro hno
      exact absurd (mem_allCells.mpr (hv.inRange ng)) hno
  · intro u hu hne
    apply Finset.sum_eq_zero
    intro w hw
    by_cases hs : g.Same n u w t v
    · rw [if_pos hs]
      have hu' := Finset.mem_range.mp hu
      by_cases ho : Own n w
      · exact absurd ((hR.own u w t v hu' ht ho hv).mp hs).1 hne
      · exact h.2 u w hu' (mem_allCells.mp hw) ho ⟨t, v, ht, hv, hs⟩
    · rw [if_neg hs]
  · intro hno
    exact absurd (Finset.mem_range.mpr ht) hno

theorem total_add (n : Fin k → Nat) (ng N : Nat) (g : Place k) (m d : Loc k → ℚ) (t : Nat) (v : Fin k → Int) :
    total n ng N g (fun l => m l + d l) t v = total n ng N g m t v + total n ng N g d t v := by
  unfold total
  rw [← Finset.sum_add_distrib]
  apply Finset.sum_congr rfl
  intro u _
  rw [← Finset.sum_add_distrib]
  apply Finset.sum_congr rfl
  intro w _
  by_cases h : g.Same n u w t v
  · rw [if_pos h, if_pos h, if_pos h]; rfl
  · rw [if_neg h, if_neg h, if_neg h, add_zero]

theorem SameTotal.add {m d : Loc k → ℚ} (h : SameTotal n ng N g m d) (x : Loc k → ℚ) :
    SameTotal n ng N g (fun l => m l + x l) (fun l => d l + x l) := by
  intro t v ht hv
  rw [total_add, total_add, h t v ht hv]

/-- a completed exchange folds -/
theorem folded_exchange (hR : Reduces S n ng N g) {rk : Nat → Nat} {m m' d : Loc k → ℚ}
    (h : CurrentExchange (S.loc rk) (S.rem rk) m m') (hd : SameTotal n ng N g m d) : Folded n ng N g m' d := by
  obtain ⟨a, b⟩ := hR.red rk m m' h
  exact ⟨fun t v ht hv => (a t v ht hv).trans (hd t v ht hv), b⟩

/-! ### invariants -/

/-- ranks stay in range -/
def RkOK (S : CurrentSys k D) (s : CurrentSt k D) : Prop := ∀ p, s.rk p < S.nrank

/-- no sync in flight and everything folded -/
def Clean (n : Fin k → Nat) (ng N : Nat) (g : Place k) (s : CurrentSt k D) (d : Loc k → ℚ) : Prop :=
  s.handle = none ∧ Folded n ng N g s.mem d

/-- deposits going on -/
def Dirty (n : Fin k → Nat) (ng N : Nat) (g : Place k) (s : CurrentSt k D) (d : Loc k → ℚ) : Prop :=
  s.handle = none ∧ SameTotal n ng N g s.mem d ∧ (s.synced = true → Folded n ng N g s.mem d)

/-- folded, or a sync in flight that will fold -/
def Closing (S : CurrentSys k D) (n : Fin k → Nat) (ng N : Nat) (g : Place k) (s : CurrentSt k D) (d : Loc k → ℚ) :
    Prop :=
  Clean n ng N g s d ∨ (s.handle ≠ none ∧ s.synced = false ∧ ∀ s', S.Wait s s' → Folded n ng N g s'.mem d)

theorem Clean.dirty (hR : Reduces S n ng N g) {s : CurrentSt k D} {d : Loc k → ℚ} (h : Clean n ng N g s d) :
    Dirty n ng N g s d := ⟨h.1, h.2.sameTotal hR, fun _ => h.2⟩

theorem wait_none {s s' : CurrentSt k D} (hn : s.handle = none) (h : S.Wait s s') : s' = s := by
  unfold CurrentSys.Wait at h; rw [hn] at h; exact h

theorem wait_handle {s s' : CurrentSt k D} (h : S.Wait s s') : s'.handle = none ∧ s'.rk = s.rk := by
  unfold CurrentSys.Wait at h
  cases hn : s.handle with
  | none => rw [hn] at h; dsimp only at h; subst h; exact ⟨hn, rfl⟩
  | some x => rw [hn] at h; dsimp only at h; obtain ⟨_, _, e⟩ := h; subst e; exact ⟨rfl, rfl⟩

theorem start_rk {s s' : CurrentSt k D} (h : S.Start s s') : s'.rk = s.rk := by
  unfold CurrentSys.Start at h
  split at h
  · subst h; rfl
  · obtain ⟨m1, _, h⟩ := h
    split at h
    · subst h; rfl
    · obtain ⟨_, _, _, h⟩ := h; subst h; rfl

theorem start_closing (hR : Reduces S n ng N g) {s s' : CurrentSt k D} {d : Loc k → ℚ} (hrk : RkOK S s)
    (hs : Dirty n ng N g s d) (h : S.Start s s') : Closing S n ng N g s' d := by
  unfold CurrentSys.Start at h
  by_cases hc : s.synced = true ∨ s.handle.isSome = true
  · rw [if_pos hc] at h
    subst h
    rcases hc with hc | hc
    · exact Or.inl ⟨hs.1, hs.2.2 hc⟩
    · rw [hs.1] at hc; cases hc
  · rw [if_neg hc] at h
    obtain ⟨m1, hm1, h⟩ := h
    by_cases h1 : S.nrank = 1
    · rw [if_pos h1] at h
      subst h
      refine Or.inl ⟨hs.1, ?_⟩
      have hel := hR.single s.rk h1 (fun p => by have := hrk p; rw [h1] at this; exact this)
      have hx : CurrentExchange (S.loc s.rk) (S.rem s.rk) s.mem m1 := by
        refine ⟨m1, hm1, [], fun _ _ _ => 0, ?_, rfl⟩
        have := hR.legal s.rk [] [] (by rw [hel]; exact List.Perm.nil) (by rw [hel]; exact List.Perm.nil)
        exact this
      exact folded_exchange hR hx hs.2.1
    · rw [if_neg h1] at h
      obtain ⟨fills, buf0, hf, h⟩ := h
      subst h
      refine Or.inr ⟨fun e => (by cases e), ?_, ?_⟩
      · show s.synced = false
        have : ¬ s.synced = true := fun e => hc (Or.inl e)
        simpa using this
      · intro s'' hw
        obtain ⟨adds, ha, e⟩ : ∃ adds : List (MpiStep k D), _ ∧ s'' = _ := hw
        subst e
        have hx : CurrentExchange (S.loc s.rk) (S.rem s.rk) s.mem
            ((fills ++ adds).foldl (S.rem s.rk).exec ⟨m1, buf0⟩).mem :=
          ⟨m1, hm1, fills ++ adds, buf0, hR.legal s.rk fills adds hf ha, rfl⟩
        rw [List.foldl_append] at hx
        exact folded_exchange hR hx hs.2.1

theorem wait_clean {s s' : CurrentSt k D} {d : Loc k → ℚ} (hs : Closing S n ng N g s d) (h : S.Wait s s') :
    Clean n ng N g s' d := by
  rcases hs with hs | hs
  · rw [wait_none hs.1 h]; exact hs
  · exact ⟨(wait_handle h).1, hs.2.2 s' h⟩

theorem sync_rk {s s' : CurrentSt k D} (h : S.Sync s s') : s'.rk = s.rk := by
  unfold CurrentSys.Sync at h
  split at h
  · subst h; rfl
  · obtain ⟨s1, h1, h2⟩ := h; rw [(wait_handle h2).2, start_rk h1]

theorem sync_clean (hR : Reduces S n ng N g) {s s' : CurrentSt k D} {d : Loc k → ℚ} (hrk : RkOK S s)
    (hs : Dirty n ng N g s d ∨ Closing S n ng N g s d) (h : S.Sync s s') : Clean n ng N g s' d := by
  unfold CurrentSys.Sync at h
  by_cases hc : s.synced = true
  · rw [if_pos hc] at h
    subst h
    rcases hs with hs | hs | hs
    · exact ⟨hs.1, hs.2.2 hc⟩
    · exact hs
    · rw [hs.2.1] at hc; cases hc
  · rw [if_neg hc] at h
    obtain ⟨s1, h1, h2⟩ := h
    rcases hs with hs | hs | hs
    · exact wait_clean (start_closing hR hrk hs h1) h2
    · exact wait_clean (start_closing hR hrk (hs.dirty hR) h1) h2
    · unfold CurrentSys.Start at h1
      rw [if_pos (Or.inr (Option.isSome_iff_ne_none.mpr hs.1))] at h1
      subst h1
      exact wait_clean (Or.inr hs) h2

/-- the three phases a step goes through -/
inductive Phase
  | clean | dirty | closing
deriving DecidableEq

def Inv (S : CurrentSys k D) (n : Fin k → Nat) (ng N : Nat) (g : Place k) (ph : Phase) (s : CurrentSt k D)
    (d : Loc k → ℚ) : Prop :=
  RkOK S s ∧ match ph with
  | .clean => Clean n ng N g s d
  | .dirty => Dirty n ng N g s d
  | .closing => Closing S n ng N g s d

theorem call_inv (hR : Reduces S n ng N g) {c : Call} (hc : c ≠ .start) {ph : Phase} {s s' : CurrentSt k D}
    {d : Loc k → ℚ} (hs : Inv S n ng N g ph s d) (h : S.CallRel c s s') : Inv S n ng N g ph s' d := by
  obtain ⟨hrk, hs⟩ := hs
  have weaken : ∀ {s'' : CurrentSt k D}, s''.rk = s.rk → Clean n ng N g s'' d → Inv S n ng N g ph s'' d := by
    intro s'' e hcl
    refine ⟨fun p => by rw [e]; exact hrk p, ?_⟩
    cases ph with
    | clean => exact hcl
    | dirty => exact hcl.dirty hR
    | closing => exact Or.inl hcl
  cases c with
  | start => exact absurd rfl hc
  | sync =>
    refine weaken (sync_rk h) (sync_clean hR hrk ?_ h)
    cases ph with
    | clean => exact Or.inl (Clean.dirty hR hs)
    | dirty => exact Or.inl hs
    | closing => exact Or.inr hs
  | wait =>
    cases ph with
    | clean => rw [wait_none (Clean.dirty hR hs).1 h]; exact ⟨hrk, hs⟩
    | dirty => rw [wait_none hs.1 h]; exact ⟨hrk, hs⟩
    | closing => exact weaken (wait_handle h).2 (wait_clean hs h)

theorem calls_inv (hR : Reduces S n ng N g) {cs : List Call} (hc : Call.start ∉ cs) {ph : Phase}
    {s s' : CurrentSt k D} {d : Loc k → ℚ} (hs : Inv S n ng N g ph s d) (h : S.Calls cs s s') :
    Inv S n ng N g ph s' d := by
  induction h with
  | nil s => exact hs
  | cons h1 _ ih =>
    exact ih (fun e => hc (by simp [e])) (call_inv hR (fun e => hc (by simp [e])) hs h1)

/-- After `sync_currents` has returned, no further call of a callback exchanges anything: the state, with its
memory, stays what it is, until the next reset or deposit. `hs` (a finished sync has no handle) holds at every point
of a run, see `history_sync_once`. -/
theorem sync_currents_once {S : CurrentSys k D} {s s' : CurrentSt k D} (h : S.Sync s s') (cs : List Call)
    {s'' : CurrentSt k D} (hc : S.Calls cs s' s'') (hs : s.synced = true → s.handle = none) : s'' = s' := by
  have key : s'.synced = true ∧ s'.handle = none := by
    unfold CurrentSys.Sync at h
    by_cases h0 : s.synced = true
    · rw [if_pos h0] at h; subst h; exact ⟨h0, hs h0⟩
    · rw [if_neg h0] at h
      obtain ⟨s1, h1, h2⟩ := h
      unfold CurrentSys.Wait at h2
      cases hn : s1.handle with
      | some x =>
        rw [hn] at h2; dsimp only at h2; obtain ⟨_, _, e⟩ := h2; subst e; exact ⟨rfl, rfl⟩
      | none =>
        rw [hn] at h2; dsimp only at h2; subst h2
        refine ⟨?_, hn⟩
        unfold CurrentSys.Start at h1
        by_cases hb : s.synced = true ∨ s.handle.isSome = true
        · rw [if_pos hb] at h1; subst h1
          rcases hb with hb | hb
          · exact hb
          · rw [hn] at hb; cases hb
        · rw [if_neg hb] at h1
          obtain ⟨m1, _, h1⟩ := h1
          split at h1
          · subst h1; rfl
          · obtain ⟨_, _, _, h1⟩ := h1; subst h1; cases hn
  clear h hs
  induction hc with
  | nil s => rfl
  | @cons c cs a b d h1 _ ih =>
    have e : b = a := by
      cases c with
      | sync => have h2 : S.Sync a b := h1
                unfold CurrentSys.Sync at h2; rw [if_pos key.1] at h2; exact h2
      | start => have h2 : S.Start a b := h1
                 unfold CurrentSys.Start at h2; rw [if_pos (Or.inl key.1)] at h2; exact h2
      | wait => exact wait_none key.2 h1
    subst e
    exact ih key

end Generic

/-! ### the phases of a trace -/

/-- phase after an operation; `none` if the operation is not allowed in this phase -/
def Phase.next : Phase → Op → Option Phase
  | .closing, .resetCurrents => none
  | _, .resetCurrents => some .dirty
  | .dirty, .unified _ => some .dirty
  | _, .unified _ => none
  | .dirty, .deposit _ => some .dirty
  | _, .deposit _ => none
  | .dirty, .syncCurrentsStart => some .closing
  | _, .syncCurrentsStart => none
  | .closing, .syncCurrentsWait => some .clean
  | _, .syncCurrentsWait => none
  | .clean, .updateE => some .clean
  | _, .updateE => none
  | .clean, .rebalance => some .clean
  | _, .rebalance => none
  | ph, _ => some ph

def Phase.after (ph : Phase) : List Op → Option Phase
  | [] => some ph
  | op :: ops => (ph.next op).bind fun ph' => ph'.after ops

theorem after_append (ph : Phase) (a b : List Op) :
    ph.after (a ++ b) = (ph.after a).bind fun ph' => ph'.after b := by
  induction a generalizing ph with
  | nil => rfl
  | cons x a ih =>
    show (ph.next x).bind _ = ((ph.next x).bind _).bind _
    cases ph.next x with
    | none => rfl
    | some p => exact ih p

theorem after_stay {ph : Phase} {ops : List Op} (h : ∀ op ∈ ops, ph.next op = some ph) : ph.after ops = some ph := by
  induction ops with
  | nil => rfl
  | cons x ops ih =>
    show (ph.next x).bind _ = _
    rw [h x (by simp)]
    exact ih fun op ho => h op (by simp [ho])

theorem after_step (c : RunLoop.Config) (o : RunLoop.Oracle) :
    Phase.clean.after (RunLoop.stepOps c o) = some .clean := by
  unfold RunLoop.stepOps
  have h1 : Phase.clean.after [Op.stage .start none, .updateE, .syncGuardE, .updateB, .syncGuardB,
      .stage .maxwell1 none] = some .clean := rfl
  have h2 : Phase.clean.after (((List.range c.nspec).filter o.sortEnabled).map Op.sort) = some .clean :=
    after_stay fun op ho => by obtain ⟨i, _, rfl⟩ := List.mem_map.mp ho; rfl
  have h3 : Phase.clean.after (if c.collision then [Op.collide] else []) = some .clean := by
    by_cases hc : c.collision = true
    · rw [if_pos hc]; rfl
    · rw [if_neg hc]; rfl
  have h4 : Phase.dirty.after (((List.range c.nspec).filter o.pushEnabled).flatMap (RunLoop.speciesOps c)) =
      some .dirty := by
    refine after_stay fun op ho => ?_
    obtain ⟨i, _, ho⟩ := List.mem_flatMap.mp ho
    unfold RunLoop.speciesOps at ho
    by_cases a : c.unified i = true <;> by_cases b : c.radiation i = true <;> by_cases d : c.pairs i = true <;>
      simp only [a, b, d, if_true, if_false, Bool.false_eq_true, List.append_nil, List.cons_append, List.nil_append, List.mem_cons,
        List.not_mem_nil, or_false] at ho <;>
      rcases ho with rfl | rfl | rfl | rfl | rfl | rfl | rfl | rfl | rfl | rfl | rfl | rfl | rfl | rfl <;> rfl
  have h5 : Phase.closing.after (((List.range c.nspec).filter o.createEnabled).flatMap (RunLoop.createOps c)) =
      some .closing := by
    refine after_stay fun op ho => ?_
    obtain ⟨i, _, ho⟩ := List.mem_flatMap.mp ho
    unfold RunLoop.createOps at ho
    by_cases b : c.radiation i = true <;> by_cases d : c.pairs i = true <;>
      simp only [b, d, if_true, if_false, Bool.false_eq_true, List.append_nil, List.cons_append, List.nil_append, List.mem_cons,
        List.not_mem_nil, or_false] at ho
    · rcases ho with rfl | rfl <;> rfl
    · subst ho; rfl
    · subst ho; rfl
  have h6 : Phase.clean.after (if o.rebalance then [Op.rebalance] else []) = some .clean := by
    by_cases hc : o.rebalance = true
    · rw [if_pos hc]; rfl
    · rw [if_neg hc]; rfl
  simp only [after_append, h1, h2, h3, Option.bind_some]
  have e1 : Phase.clean.after [Op.resetCurrents] = some .dirty := rfl
  have e2 : Phase.dirty.after [Op.syncCurrentsStart] = some .closing := rfl
  have e3 : Phase.closing.after [Op.mpiParticles, .syncParticles, .syncCurrentsWait] = some .clean := rfl
  rw [e1, Option.bind_some, h4, Option.bind_some, e2, Option.bind_some, h5, Option.bind_some, e3, Option.bind_some, h6,
    Option.bind_some]
  rfl

theorem after_loop (c : RunLoop.Config) (dt : ℚ) (o : Nat → RunLoop.Oracle) (left istep : Nat) (k : RunLoop.Clock) :
    Phase.clean.after ((RunLoop.loop c dt o left istep k).trace.map Ev.op) = some .clean := by
  induction left generalizing istep k with
  | zero => rfl
  | succ left ih =>
    rw [RunLoop.loop]
    have hs : Phase.clean.after (((RunLoop.stepOps c (o istep)).map fun op => Ev.mk istep k op).map Ev.op) =
        some .clean := by
      rw [List.map_map]
      have : (Ev.op ∘ fun op => Ev.mk istep k op) = id := rfl
      rw [this, List.map_id]
      exact after_step c (o istep)
    by_cases hd : (o istep).dump = true
    · rw [if_pos hd]; exact hs
    · rw [if_neg hd]
      by_cases ht : (o istep).stop = true
      · dsimp only; rw [if_pos ht]; exact hs
      · dsimp only; rw [if_neg ht, List.map_append, after_append, hs]; exact ih _ _

theorem after_run {c : RunLoop.Config} {dt : ℚ} {cfgN : Option Int} {cfgT : Option ℚ} {o : Nat → RunLoop.Oracle}
    {nsteps : Option Int} {simTime : Option ℚ} {k : RunLoop.Clock} {r : RunLoop.Result}
    (h : RunLoop.run c dt cfgN cfgT o nsteps simTime k = some r) :
    Phase.clean.after (r.trace.map Ev.op) = some .clean := by
  unfold RunLoop.run at h
  obtain ⟨total, _, rfl⟩ := Option.map_eq_some_iff.mp h
  dsimp only
  rw [List.map_append, List.map_cons, after_append]
  have hl : Phase.clean.after (Ev.op ⟨k.itime, k, .stage .init none⟩ ::
      (RunLoop.loop c dt o (total - (k.itime : Int)).toNat k.itime k).trace.map Ev.op) = some .clean :=
    after_loop c dt o _ _ _
  rw [hl, Option.bind_some]
  by_cases hd : (RunLoop.loop c dt o (total - (k.itime : Int)).toNat k.itime k).outcome = .done
  · rw [if_pos hd]; rfl
  · rw [if_neg hd]; rfl

/-- the events of any sequence of calls of `run`, each with its own arguments, configuration of modules and clock -/
inductive RunHistory : List Ev → Prop
  | nil : RunHistory []
  | run {evs c dt cfgN cfgT o nsteps simTime k r} : RunHistory evs →
      RunLoop.run c dt cfgN cfgT o nsteps simTime k = some r → RunHistory (evs ++ r.trace)

theorem after_history {evs : List Ev} (h : RunHistory evs) : Phase.clean.after (evs.map Ev.op) = some .clean := by
  induction h with
  | nil => rfl
  | run _ hr ih => rw [List.map_append, after_append, ih]; exact after_run hr

section Generic
variable {n : Fin k → Nat} {ng N : Nat} {g : Place k} [DecidableEq D] {S : CurrentSys k D}

theorem deposited_snoc (δ : Nat → Nat → Loc k → ℚ) (evs : List Ev) (e : Ev) :
    deposited δ (evs ++ [e]) = match e.op with
    | .resetCurrents => fun _ => 0
    | .unified i => fun l => deposited δ evs l + δ e.istep i l
    | .deposit i => fun l => deposited δ evs l + δ e.istep i l
    | _ => deposited δ evs := by
  unfold deposited
  rw [List.foldl_append]; rfl

theorem folded_zero : Folded n ng N g (fun _ => 0) fun _ => 0 := by
  refine ⟨fun t v _ _ => ?_, fun _ _ _ _ _ _ => rfl⟩
  unfold total
  symm
  apply Finset.sum_eq_zero
  intro u _
  apply Finset.sum_eq_zero
  intro w _
  by_cases h : g.Same n u w t v
  · rw [if_pos h]; rfl
  · rw [if_neg h]

theorem evs_inv (hR : Reduces S n ng N g) {δ : Nat → Nat → Loc k → ℚ} {calls : Nat → Stage → Option Nat → List Call}
    (hcalls : ∀ i st sp, Call.start ∉ calls i st sp) {s s' : CurrentSt k D} (hrk : RkOK S s)
    (h0 : s.mem = fun _ => 0) (hh : s.handle = none) {evs : List Ev} (h : S.Evs δ calls evs s s') {ph : Phase}
    (hp : Phase.clean.after (evs.map Ev.op) = some ph) : Inv S n ng N g ph s' (deposited δ evs) := by
  induction h generalizing ph with
  | nil s =>
    cases hp
    exact ⟨hrk, hh, by rw [h0]; exact folded_zero⟩
  | @snoc evs e s s1 s2 _ hop ih =>
    rw [List.map_append, after_append] at hp
    obtain ⟨ph1, hp1, hp2⟩ := Option.bind_eq_some_iff.mp hp
    have hi := ih hrk h0 hh hp1
    have hp3 : ph1.next e.op = some ph := by
      have h : (ph1.next e.op).bind some = some ph := hp2
      cases hx : ph1.next e.op with
      | none => rw [hx] at h; cases h
      | some p => rw [hx] at h; exact h
    rw [deposited_snoc]
    revert hop hp3
    cases e.op with
    | resetCurrents =>
      intro hop hp3
      have hop : s2 = _ := hop
      subst hop
      have hz : ∀ h : s1.handle = none, Inv S n ng N g .dirty
          ({ s1 with mem := fun _ => 0, synced := false } : CurrentSt k D) fun _ => 0 :=
        fun h => ⟨hi.1, h, fun _ _ _ _ => rfl, fun e => by cases e⟩
      cases ph1 with
      | clean => cases hp3; exact hz hi.2.1
      | dirty => cases hp3; exact hz hi.2.1
      | closing => cases hp3
    | unified i =>
      intro hop hp3
      have hop : s2 = _ := hop
      subst hop
      cases ph1 with
      | dirty => cases hp3; exact ⟨hi.1, hi.2.1, hi.2.2.1.add _, fun e => by cases e⟩
      | clean => cases hp3
      | closing => cases hp3
    | deposit i =>
      intro hop hp3
      have hop : s2 = _ := hop
      subst hop
      cases ph1 with
      | dirty => cases hp3; exact ⟨hi.1, hi.2.1, hi.2.2.1.add _, fun e => by cases e⟩
      | clean => cases hp3
      | closing => cases hp3
    | syncCurrentsStart =>
      intro hop hp3
      cases ph1 with
      | dirty =>
        cases hp3
        exact ⟨fun p => by rw [start_rk hop]; exact hi.1 p, start_closing hR hi.1 hi.2 hop⟩
      | clean => cases hp3
      | closing => cases hp3
    | syncCurrentsWait =>
      intro hop hp3
      cases ph1 with
      | closing =>
        cases hp3
        exact ⟨fun p => by rw [(wait_handle hop).2]; exact hi.1 p, wait_clean hi.2 hop⟩
      | clean => cases hp3
      | dirty => cases hp3
    | rebalance =>
      intro hop hp3
      obtain ⟨rk', hr, hop⟩ : ∃ rk' : Nat → Nat, (∀ p, rk' p < S.nrank) ∧ s2 = _ := hop
      subst hop
      cases ph1 with
      | clean => cases hp3; exact ⟨hr, hi.2⟩
      | closing => cases hp3
      | dirty => cases hp3
    | stage st i =>
      intro hop hp3
      have : ph1 = ph := by cases ph1 <;> cases hp3 <;> rfl
      subst this
      exact calls_inv hR (hcalls _ _ _) hi hop
    | _ =>
      intro hop hp3
      have hop : s2 = s1 := hop
      subst hop
      cases ph1 <;> cases hp3 <;> exact hi

/-- in every history, before the fields are advanced and before patches change ranks, no sync is in flight and the
own cells hold all deposits -/
theorem history_clean (hR : Reduces S n ng N g) {δ : Nat → Nat → Loc k → ℚ}
    {calls : Nat → Stage → Option Nat → List Call} (hcalls : ∀ i st sp, Call.start ∉ calls i st sp)
    {s s' : CurrentSt k D} (hrk : RkOK S s) (h0 : s.mem = fun _ => 0) (hh : s.handle = none) {pre post : List Ev}
    {e : Ev} (hist : RunHistory (pre ++ e :: post)) (he : e.op = .updateE ∨ e.op = .rebalance)
    (h : S.Evs δ calls pre s s') :
    s'.handle = none ∧ ∀ t v, t < N → Own n v → at' n ng s'.mem t v = total n ng N g (deposited δ pre) t v := by
  have ha := after_history hist
  rw [List.map_append, after_append] at ha
  obtain ⟨ph, h1, h2⟩ := Option.bind_eq_some_iff.mp ha
  have hi := evs_inv hR hcalls hrk h0 hh h h1
  have : ph = .clean := by
    have h2 : (ph.next e.op).bind _ = _ := h2
    rcases he with he | he <;> rw [he] at h2 <;> cases ph <;> first | rfl | cases h2
  subst this
  exact ⟨hi.2.1, hi.2.2.1⟩

/-- every prefix of a history is in a phase -/
theorem prefix_phase {pre post : List Ev} (hist : RunHistory (pre ++ post)) :
    ∃ ph, Phase.clean.after (pre.map Ev.op) = some ph := by
  have ha := after_history hist
  rw [List.map_append, after_append] at ha
  obtain ⟨ph, h1, _⟩ := Option.bind_eq_some_iff.mp ha
  exact ⟨ph, h1⟩

theorem history_sync (hR : Reduces S n ng N g) {δ : Nat → Nat → Loc k → ℚ}
    {calls : Nat → Stage → Option Nat → List Call} (hcalls : ∀ i st sp, Call.start ∉ calls i st sp)
    {s s1 s' : CurrentSt k D} (hrk : RkOK S s) (h0 : s.mem = fun _ => 0) (hh : s.handle = none)
    {pre post : List Ev} (hist : RunHistory (pre ++ post)) (h : S.Evs δ calls pre s s1) {cs : List Call}
    (hcs : Call.start ∉ cs) {s2 : CurrentSt k D} (h2 : S.Calls cs s1 s2) (hsync : S.Sync s2 s') :
    s'.handle = none ∧ ∀ t v, t < N → Own n v → at' n ng s'.mem t v = total n ng N g (deposited δ pre) t v := by
  obtain ⟨ph, hp⟩ := prefix_phase hist
  have hi := calls_inv hR hcs (evs_inv hR hcalls hrk h0 hh h hp) h2
  have hc : Clean n ng N g s' (deposited δ pre) := by
    refine sync_clean hR hi.1 ?_ hsync
    cases ph with
    | clean => exact Or.inl (Clean.dirty hR hi.2)
    | dirty => exact Or.inl hi.2
    | closing => exact Or.inr hi.2
  exact ⟨hc.1, hc.2.1⟩

/-- at every point of a run, after any calls, a `sync_currents` followed by any calls exchanges nothing more -/
theorem history_sync_once (hR : Reduces S n ng N g) {δ : Nat → Nat → Loc k → ℚ}
    {calls : Nat → Stage → Option Nat → List Call} (hcalls : ∀ i st sp, Call.start ∉ calls i st sp)
    {s s1 s' : CurrentSt k D} (hrk : RkOK S s) (h0 : s.mem = fun _ => 0) (hh : s.handle = none)
    {pre post : List Ev} (hist : RunHistory (pre ++ post)) (h : S.Evs δ calls pre s s1) {cs cs' : List Call}
    (hcs : Call.start ∉ cs) {s2 s3 : CurrentSt k D} (h2 : S.Calls cs s1 s2) (hsync : S.Sync s2 s')
    (h3 : S.Calls cs' s' s3) : s3 = s' := by
  obtain ⟨ph, hp⟩ := prefix_phase hist
  have hi := calls_inv hR hcs (evs_inv hR hcalls hrk h0 hh h hp) h2
  refine sync_currents_once hsync cs' h3 fun hsy => ?_
  obtain ⟨_, hi⟩ := hi
  cases ph with
  | clean => exact hi.1
  | dirty => exact hi.1
  | closing =>
    rcases hi with hi | hi
    · exact hi.1
    · rw [hi.2.1] at hsy; cases hsy

end Generic

/-! ### the 2D and the 3D system -/

/-- all buffers first (in any order), then all additions (in any order) -/
theorem legal_fills_adds {k : Nat} {D : Type} [DecidableEq D] (rem : Mpi k D)
    {off : D → Fin k → Int} (hr : MpiShape rem off) (hn : NbrOK rem.asSync rem.opp) {fills adds : List (MpiStep k D)}
    (hF : fills.Perm (rem.elements.map fun e => .fill e.1 e.2.1 e.2.2))
    (hA : adds.Perm (rem.elements.map fun e => .add e.1 e.2.1 e.2.2)) : rem.Legal (fills ++ adds) := by
  refine ⟨hF.append hA, ?_⟩
  intro l1 l2 p b u q hsp hq
  have hmemE := @mem_elements k D rem hr.shape.complete hr.shape.mem_cells
  have nofill : MpiStep.add p b u ∉ fills := by
    intro h
    obtain ⟨_, _, e⟩ := List.mem_map.mp (hF.mem_iff.mp h)
    cases e
  have hadd : (p, b, u) ∈ rem.elements := by
    have : MpiStep.add p b u ∈ fills ++ adds := by rw [hsp]; simp
    rcases List.mem_append.mp this with h | h
    · exact absurd h nofill
    · obtain ⟨⟨_, _, _⟩, h, e⟩ := List.mem_map.mp (hA.mem_iff.mp h)
      injection e with a b c
      dsimp only at a b c
      rw [← a, ← b, ← c]; exact h
  obtain ⟨hp, _, hu⟩ := hmemE.mp hadd
  have hw : ∀ a, (rem.tab (rem.opp b) a).w = (rem.tab b a).w := by
    intro a
    have h := hr.shape.off_unit b a
    rw [hr.tab, hr.tab, hr.shape.off_opp]; unfold mpiRng currentRng
    rcases h with h | h | h <;> rw [h] <;> simp
  have hel : (q, rem.opp b, u) ∈ rem.elements :=
    hmemE.mpr ⟨hn.lt p b q hp hq, ⟨p, hn.sym p b q hp hq⟩, fun a => by rw [hw]; exact hu a⟩
  have hf : MpiStep.fill q (rem.opp b) u ∈ fills := hF.mem_iff.mpr (List.mem_map.mpr ⟨_, hel, rfl⟩)
  rcases List.append_eq_append_iff.mp hsp with ⟨c, h1, _⟩ | ⟨c, h1, h2⟩
  · rw [h1]; exact List.mem_append_left _ hf
  · cases c with
    | nil => rw [h1] at hf; simpa using hf
    | cons y c =>
      have hy : y = MpiStep.add p b u := by
        have := h2; simp at this; exact this.1.symm
      exact absurd (by rw [h1, hy]; simp) nofill

/-- without remote neighbours no message -/
theorem elements_single {k : Nat} {D : Type} [DecidableEq D] (rem : Mpi k D)
    {off : D → Fin k → Int} (hr : MpiShape rem off) (h : ∀ p b, rem.nbr p b = none) : rem.elements = [] := by
  apply List.eq_nil_iff_forall_not_mem.mpr
  rintro ⟨p, b, u⟩ hm
  obtain ⟨_, ⟨q, hq⟩, _⟩ := (@mem_elements k D rem hr.shape.complete hr.shape.mem_cells).mp hm
  rw [h] at hq; cases hq

theorem remote_single {D : Type} {rk : Nat → Nat} (h : ∀ p, rk p < 1) (nbr : Nat → D → Option Nat) (p : Nat) (b : D) :
    remoteNbr rk nbr p b = none := by
  cases hq : remoteNbr rk nbr p b with
  | none => rfl
  | some q =>
    have := (remoteNbr_some.mp hq).2
    have h1 := h p; have h2 := h q
    omega

theorem NbrOK.remote {g : Sync k D} {rem : Mpi k D} (h : NbrOK g rem.opp) (rk : Nat → Nat)
    (hN : rem.npatches = g.npatches) (hnbr : rem.nbr = remoteNbr rk g.nbr) : NbrOK rem.asSync rem.opp := by
  constructor
  · intro p b q hp hq
    have hq' : rem.nbr p b = some q := hq
    rw [hnbr] at hq'
    show q < rem.npatches
    rw [hN]
    exact h.lt p b q (by rw [← hN]; exact hp) (remoteNbr_some.mp hq').1
  · intro p b q hp hq
    have hq' : rem.nbr p b = some q := hq
    rw [hnbr] at hq'
    show rem.nbr q (rem.opp b) = some p
    rw [hnbr]
    exact remoteNbr_some.mpr ⟨h.sym p b q (by rw [← hN]; exact hp) (remoteNbr_some.mp hq').1,
      fun e => (remoteNbr_some.mp hq').2 e.symm⟩

theorem reduces2 {npx npy nx ny ng : Nat} (hngx : ng ≤ nx) (hngy : ng ≤ ny)
    {bx by' : AxisBC} (hx : bx.Paired) (hy : by'.Paired) (nrank : Nat) :
    Reduces (currentSys2 (createPatches2 npx npy).length nx ny ng (gridNbr2 npx npy bx by') nrank) ![nx, ny] ng
      (createPatches2 npx npy).length (place2 npx npy bx by' (createPatches2 npx npy)) := by
  have hs := current2_shape (N := (createPatches2 npx npy).length) (nbr := gridNbr2 npx npy bx by') hngx hngy
  have hg := nbrGeo2 (s := syncCurrents2 nx ny ng (createPatches2 npx npy).length (gridNbr2 npx npy bx by'))
    hx hy (grid_createPatches2 npx npy) (fun _ h => h) (nodup_createPatches2 npx npy) rfl rfl
  refine ⟨?_, ?_, ?_, ?_⟩
  · intro rk m m' h
    obtain ⟨a, b, _⟩ := mpi_current_reduction2_partial hngx hngy hx hy rk h
    exact ⟨a, b⟩
  · intro u w t v hu ht hw hv
    exact same_own hs hg hu ht hw hv
  · intro rk fills adds hf ha
    exact legal_fills_adds _ (mpiCurrents2_shape hngx hngy) (NbrOK.remote (hg.ok hs) rk rfl rfl) hf ha
  · intro rk _ h
    exact elements_single _ (mpiCurrents2_shape hngx hngy) (remote_single h _)

theorem reduces3 {npx npy npz nx ny nz ng : Nat} (hngx : ng ≤ nx) (hngy : ng ≤ ny) (hngz : ng ≤ nz)
    {bx by' bz : AxisBC} (hx : bx.Paired) (hy : by'.Paired) (hz : bz.Paired) (nrank : Nat) :
    Reduces (currentSys3 (createPatches3 npx npy npz).length nx ny nz ng (gridNbr3 npx npy npz bx by' bz) nrank)
      ![nx, ny, nz] ng (createPatches3 npx npy npz).length (place3 npx npy npz bx by' bz (createPatches3 npx npy npz)) := by
  have hs := current3_shape (N := (createPatches3 npx npy npz).length) (nbr := gridNbr3 npx npy npz bx by' bz)
    hngx hngy hngz
  have hg := nbrGeo3 (s := syncCurrents3 nx ny nz ng (createPatches3 npx npy npz).length (gridNbr3 npx npy npz bx by' bz))
    hx hy hz (grid_createPatches3 npx npy npz) (fun _ h => h) (nodup_createPatches3 npx npy npz) rfl rfl
  refine ⟨?_, ?_, ?_, ?_⟩
  · intro rk m m' h
    obtain ⟨a, b, _⟩ := mpi_current_reduction3_partial hngx hngy hngz hx hy hz rk h
    exact ⟨a, b⟩
  · intro u w t v hu ht hw hv
    exact same_own hs hg hu ht hw hv
  · intro rk fills adds hf ha
    exact legal_fills_adds _ (mpiCurrents3_shape hngx hngy hngz) (NbrOK.remote (hg.ok hs) rk rfl rfl) hf ha
  · intro rk _ h
    exact elements_single _ (mpiCurrents3_shape hngx hngy hngz) (remote_single h _)

/-- **C33 (2D).** In every history of calls of `run`, whatever is deposited and whichever callbacks call the blocking
`sync_currents` at any stage, any number of times: whenever the electric field is about to be advanced, and whenever
patches are about to change ranks, no synchronisation is in flight and every own cell holds exactly once everything
deposited on it since the reset, by whichever patch.

Partial: on more than one rank `+=` on a cell is taken as indivisible (see C30); callbacks that call only
`sync_currents_start` are excluded (`lone_start_fails`). -/
theorem currents_before_use2_partial {npx npy nx ny ng : Nat} (hngx : ng ≤ nx) (hngy : ng ≤ ny) {bx by' : AxisBC}
    (hx : bx.Paired) (hy : by'.Paired) (nrank : Nat) {δ : Nat → Nat → Loc 2 → ℚ}
    {calls : Nat → Stage → Option Nat → List Call} (hcalls : ∀ i st sp, Call.start ∉ calls i st sp)
    {s s' : CurrentSt 2 B2} (hrk : ∀ p, s.rk p < nrank) (h0 : s.mem = fun _ => 0) (hh : s.handle = none)
    {pre post : List Ev} {e : Ev} (hist : RunHistory (pre ++ e :: post)) (he : e.op = .updateE ∨ e.op = .rebalance)
    (h : (currentSys2 (createPatches2 npx npy).length nx ny ng (gridNbr2 npx npy bx by') nrank).Evs δ calls pre s s') :
    s'.handle = none ∧ ∀ t v, t < (createPatches2 npx npy).length → Own ![nx, ny] v →
      at' ![nx, ny] ng s'.mem t v = total ![nx, ny] ng (createPatches2 npx npy).length
        (place2 npx npy bx by' (createPatches2 npx npy)) (deposited δ pre) t v :=
  history_clean (reduces2 hngx hngy hx hy nrank) hcalls hrk h0 hh hist he h

/-- **C33 (3D).** As in 2D. -/
theorem currents_before_use3_partial {npx npy npz nx ny nz ng : Nat} (hngx : ng ≤ nx) (hngy : ng ≤ ny) (hngz : ng ≤ nz)
    {bx by' bz : AxisBC} (hx : bx.Paired) (hy : by'.Paired) (hz : bz.Paired) (nrank : Nat)
    {δ : Nat → Nat → Loc 3 → ℚ} {calls : Nat → Stage → Option Nat → List Call}
    (hcalls : ∀ i st sp, Call.start ∉ calls i st sp)
    {s s' : CurrentSt 3 B3} (hrk : ∀ p, s.rk p < nrank) (h0 : s.mem = fun _ => 0) (hh : s.handle = none)
    {pre post : List Ev} {e : Ev} (hist : RunHistory (pre ++ e :: post)) (he : e.op = .updateE ∨ e.op = .rebalance)
    (h : (currentSys3 (createPatches3 npx npy npz).length nx ny nz ng (gridNbr3 npx npy npz bx by' bz) nrank).Evs
      δ calls pre s s') :
    s'.handle = none ∧ ∀ t v, t < (createPatches3 npx npy npz).length → Own ![nx, ny, nz] v →
      at' ![nx, ny, nz] ng s'.mem t v = total ![nx, ny, nz] ng (createPatches3 npx npy npz).length
        (place3 npx npy npz bx by' bz (createPatches3 npx npy npz)) (deposited δ pre) t v :=
  history_clean (reduces3 hngx hngy hngz hx hy hz nrank) hcalls hrk h0 hh hist he h

/-- **C33, one rank (2D).** The same without the restriction on `+=` across ranks. -/
theorem currents_before_use_single2 {npx npy nx ny ng : Nat} (hngx : ng ≤ nx) (hngy : ng ≤ ny) {bx by' : AxisBC}
    (hx : bx.Paired) (hy : by'.Paired) {δ : Nat → Nat → Loc 2 → ℚ}
    {calls : Nat → Stage → Option Nat → List Call} (hcalls : ∀ i st sp, Call.start ∉ calls i st sp)
    {s s' : CurrentSt 2 B2} (hrk : ∀ p, s.rk p < 1) (h0 : s.mem = fun _ => 0) (hh : s.handle = none)
    {pre post : List Ev} {e : Ev} (hist : RunHistory (pre ++ e :: post)) (he : e.op = .updateE ∨ e.op = .rebalance)
    (h : (currentSys2 (createPatches2 npx npy).length nx ny ng (gridNbr2 npx npy bx by') 1).Evs δ calls pre s s') :
    s'.handle = none ∧ ∀ t v, t < (createPatches2 npx npy).length → Own ![nx, ny] v →
      at' ![nx, ny] ng s'.mem t v = total ![nx, ny] ng (createPatches2 npx npy).length
        (place2 npx npy bx by' (createPatches2 npx npy)) (deposited δ pre) t v :=
  history_clean (reduces2 hngx hngy hx hy 1) hcalls hrk h0 hh hist he h

/-- **C33, a callback that calls `sync_currents` (2D).** At whatever moment of whatever history a callback runs, and
whatever the callbacks before it in the same stage called: after its `sync_currents` the own cells hold everything
deposited so far. -/
theorem sync_currents_result2_partial {npx npy nx ny ng : Nat} (hngx : ng ≤ nx) (hngy : ng ≤ ny) {bx by' : AxisBC}
    (hx : bx.Paired) (hy : by'.Paired) (nrank : Nat) {δ : Nat → Nat → Loc 2 → ℚ}
    {calls : Nat → Stage → Option Nat → List Call} (hcalls : ∀ i st sp, Call.start ∉ calls i st sp)
    {s s1 s2 s' : CurrentSt 2 B2} (hrk : ∀ p, s.rk p < nrank) (h0 : s.mem = fun _ => 0) (hh : s.handle = none)
    {pre post : List Ev} (hist : RunHistory (pre ++ post)) {cs : List Call} (hcs : Call.start ∉ cs) :
    ∀ S, S = currentSys2 (createPatches2 npx npy).length nx ny ng (gridNbr2 npx npy bx by') nrank →
      S.Evs δ calls pre s s1 → S.Calls cs s1 s2 → S.Sync s2 s' →
    s'.handle = none ∧ ∀ t v, t < (createPatches2 npx npy).length → Own ![nx, ny] v →
      at' ![nx, ny] ng s'.mem t v = total ![nx, ny] ng (createPatches2 npx npy).length
        (place2 npx npy bx by' (createPatches2 npx npy)) (deposited δ pre) t v := by
  rintro _ rfl h h2 h3
  exact history_sync (reduces2 hngx hngy hx hy nrank) hcalls hrk h0 hh hist h hcs h2 h3

/-- as in 2D -/
theorem sync_currents_result3_partial {npx npy npz nx ny nz ng : Nat} (hngx : ng ≤ nx) (hngy : ng ≤ ny) (hngz : ng ≤ nz)
    {bx by' bz : AxisBC} (hx : bx.Paired) (hy : by'.Paired) (hz : bz.Paired) (nrank : Nat)
    {δ : Nat → Nat → Loc 3 → ℚ}
    {calls : Nat → Stage → Option Nat → List Call} (hcalls : ∀ i st sp, Call.start ∉ calls i st sp)
    {s s1 s2 s' : CurrentSt 3 B3} (hrk : ∀ p, s.rk p < nrank) (h0 : s.mem = fun _ => 0) (hh : s.handle = none)
    {pre post : List Ev} (hist : RunHistory (pre ++ post)) {cs : List Call} (hcs : Call.start ∉ cs) :
    ∀ S, S = currentSys3 (createPatches3 npx npy npz).length nx ny nz ng (gridNbr3 npx npy npz bx by' bz) nrank →
      S.Evs δ calls pre s s1 → S.Calls cs s1 s2 → S.Sync s2 s' →
    s'.handle = none ∧ ∀ t v, t < (createPatches3 npx npy npz).length → Own ![nx, ny, nz] v →
      at' ![nx, ny, nz] ng s'.mem t v = total ![nx, ny, nz] ng (createPatches3 npx npy npz).length
        (place3 npx npy npz bx by' bz (createPatches3 npx npy npz)) (deposited δ pre) t v := by
  rintro _ rfl h h2 h3
  exact history_sync (reduces3 hngx hngy hngz hx hy hz nrank) hcalls hrk h0 hh hist h hcs h2 h3

/-- Exactly once: after a `sync_currents` anywhere in a run, whatever the callbacks call next (even a lone start), no
current is exchanged again and no cell changes. -/
theorem sync_currents_once2 {npx npy nx ny ng : Nat} (hngx : ng ≤ nx) (hngy : ng ≤ ny) {bx by' : AxisBC}
    (hx : bx.Paired) (hy : by'.Paired) (nrank : Nat) {δ : Nat → Nat → Loc 2 → ℚ}
    {calls : Nat → Stage → Option Nat → List Call} (hcalls : ∀ i st sp, Call.start ∉ calls i st sp)
    {s s1 s2 s' s3 : CurrentSt 2 B2} (hrk : ∀ p, s.rk p < nrank) (h0 : s.mem = fun _ => 0) (hh : s.handle = none)
    {pre post : List Ev} (hist : RunHistory (pre ++ post)) {cs cs' : List Call} (hcs : Call.start ∉ cs) :
    ∀ S, S = currentSys2 (createPatches2 npx npy).length nx ny ng (gridNbr2 npx npy bx by') nrank →
      S.Evs δ calls pre s s1 → S.Calls cs s1 s2 → S.Sync s2 s' → S.Calls cs' s' s3 → s3 = s' := by
  rintro _ rfl h h2 h3 h4
  exact history_sync_once (reduces2 hngx hngy hx hy nrank) hcalls hrk h0 hh hist h hcs h2 h3 h4

/-- as in 2D -/
theorem sync_currents_once3 {npx npy npz nx ny nz ng : Nat} (hngx : ng ≤ nx) (hngy : ng ≤ ny) (hngz : ng ≤ nz)
    {bx by' bz : AxisBC} (hx : bx.Paired) (hy : by'.Paired) (hz : bz.Paired) (nrank : Nat)
    {δ : Nat → Nat → Loc 3 → ℚ}
    {calls : Nat → Stage → Option Nat → List Call} (hcalls : ∀ i st sp, Call.start ∉ calls i st sp)
    {s s1 s2 s' s3 : CurrentSt 3 B3} (hrk : ∀ p, s.rk p < nrank) (h0 : s.mem = fun _ => 0) (hh : s.handle = none)
    {pre post : List Ev} (hist : RunHistory (pre ++ post)) {cs cs' : List Call} (hcs : Call.start ∉ cs) :
    ∀ S, S = currentSys3 (createPatches3 npx npy npz).length nx ny nz ng (gridNbr3 npx npy npz bx by' bz) nrank →
      S.Evs δ calls pre s s1 → S.Calls cs s1 s2 → S.Sync s2 s' → S.Calls cs' s' s3 → s3 = s' := by
  rintro _ rfl h h2 h3 h4
  exact history_sync_once (reduces3 hngx hngy hngz hx hy hz nrank) hcalls hrk h0 hh hist h hcs h2 h3 h4

/-! ### executions exist, and what a lone `sync_currents_start` does -/

section Seq
variable [DecidableEq D]

/-- one particular execution: patches one after the other, buffers and additions in order -/
def CurrentSys.seqStart (S : CurrentSys k D) (s : CurrentSt k D) : CurrentSt k D :=
  if s.synced = true ∨ s.handle.isSome = true then s
  else
    let m1 := Interleave.run (((List.range (S.loc s.rk).npatches).flatMap fun t =>
      ((S.loc s.rk).currentProg t).map fun f => (t, f)).map Prod.snd) s.mem
    if S.nrank = 1 then { s with mem := m1, synced := true }
    else
      let r := ((S.rem s.rk).elements.map fun e => MpiStep.fill e.1 e.2.1 e.2.2).foldl (S.rem s.rk).exec
        ⟨m1, fun _ _ _ => 0⟩
      { s with mem := r.mem, handle := some (s.rk, r.buf) }

def CurrentSys.seqWait (S : CurrentSys k D) (s : CurrentSt k D) : CurrentSt k D :=
  match s.handle with
  | none => s
  | some h => { s with
      mem := (((S.rem h.1).elements.map fun e => MpiStep.add e.1 e.2.1 e.2.2).foldl (S.rem h.1).exec ⟨s.mem, h.2⟩).mem,
      handle := none, synced := true }

def CurrentSys.seqCall (S : CurrentSys k D) : Call → CurrentSt k D → CurrentSt k D
  | .sync => fun s => if s.synced = true then s else S.seqWait (S.seqStart s)
  | .start => S.seqStart
  | .wait => S.seqWait

def CurrentSys.seqOp (S : CurrentSys k D) (δ : Nat → Loc k → ℚ) (calls : Stage → Option Nat → List Call) :
    Op → CurrentSt k D → CurrentSt k D
  | .resetCurrents => fun s => { s with mem := fun _ => 0, synced := false }
  | .unified i => fun s => { s with mem := fun l => s.mem l + δ i l, synced := false }
  | .deposit i => fun s => { s with mem := fun l => s.mem l + δ i l, synced := false }
  | .syncCurrentsStart => S.seqStart
  | .syncCurrentsWait => S.seqWait
  | .stage st i => fun s => (calls st i).foldl (fun s c => S.seqCall c s) s
  | _ => id

theorem seqStart_rel (S : CurrentSys k D) (s : CurrentSt k D) : S.Start s (S.seqStart s) := by
  unfold CurrentSys.Start CurrentSys.seqStart
  by_cases hc : s.synced = true ∨ s.handle.isSome = true
  · rw [if_pos hc, if_pos hc]
  · rw [if_neg hc, if_neg hc]
    refine ⟨_, ⟨_, Interleave.isSchedule_seq _ _, rfl⟩, ?_⟩
    by_cases h1 : S.nrank = 1
    · rw [if_pos h1]; dsimp only; rw [if_pos h1]
    · rw [if_neg h1]; dsimp only; rw [if_neg h1]
      exact ⟨_, _, List.Perm.refl _, rfl⟩

theorem seqWait_rel (S : CurrentSys k D) (s : CurrentSt k D) : S.Wait s (S.seqWait s) := by
  unfold CurrentSys.Wait CurrentSys.seqWait
  cases hh : s.handle with
  | none => rfl
  | some h => exact ⟨_, List.Perm.refl _, rfl⟩

theorem seqCall_rel (S : CurrentSys k D) (c : Call) (s : CurrentSt k D) : S.CallRel c s (S.seqCall c s) := by
  cases c with
  | sync =>
    show S.Sync s _
    unfold CurrentSys.Sync CurrentSys.seqCall
    by_cases hc : s.synced = true
    · rw [if_pos hc]; dsimp only; rw [if_pos hc]
    · rw [if_neg hc]; dsimp only; rw [if_neg hc]; exact ⟨_, seqStart_rel S s, seqWait_rel S _⟩
  | start => exact seqStart_rel S s
  | wait => exact seqWait_rel S s

theorem seqCalls_rel (S : CurrentSys k D) (cs : List Call) (s : CurrentSt k D) :
    S.Calls cs s (cs.foldl (fun s c => S.seqCall c s) s) := by
  induction cs generalizing s with
  | nil => exact .nil s
  | cons c cs ih => exact .cons (seqCall_rel S c s) (ih _)

theorem seqOp_rel (S : CurrentSys k D) (δ : Nat → Loc k → ℚ) (calls : Stage → Option Nat → List Call) (op : Op)
    (hop : op ≠ .rebalance) (s : CurrentSt k D) : S.OpRel δ calls op s (S.seqOp δ calls op s) := by
  cases op with
  | rebalance => exact absurd rfl hop
  | syncCurrentsStart => exact seqStart_rel S s
  | syncCurrentsWait => exact seqWait_rel S s
  | stage st i => exact seqCalls_rel S _ s
  | _ => rfl

/-- the state after a trace without rebalancing, in this execution -/
def CurrentSys.seqEvs (S : CurrentSys k D) (δ : Nat → Nat → Loc k → ℚ) (calls : Nat → Stage → Option Nat → List Call)
    (evs : List Ev) (s : CurrentSt k D) : CurrentSt k D :=
  evs.foldl (fun s e => S.seqOp (δ e.istep) (calls e.istep) e.op s) s

theorem seqEvs_rel (S : CurrentSys k D) (δ : Nat → Nat → Loc k → ℚ) (calls : Nat → Stage → Option Nat → List Call)
    (evs : List Ev) (h : ∀ e ∈ evs, e.op ≠ .rebalance) (s : CurrentSt k D) :
    S.Evs δ calls evs s (S.seqEvs δ calls evs s) := by
  induction evs using List.reverseRecOn with
  | nil => exact .nil s
  | append_singleton evs e ih =>
    have : S.seqEvs δ calls (evs ++ [e]) s = S.seqOp (δ e.istep) (calls e.istep) e.op (S.seqEvs δ calls evs s) := by
      unfold CurrentSys.seqEvs; rw [List.foldl_append]; rfl
    rw [this]
    exact .snoc (ih fun x hx => h x (by simp [hx])) (seqOp_rel S _ _ _ (h e (by simp)) _)

end Seq

/-- two species, unified pusher, one step without dump, stop or rebalancing -/
def demoConfig : RunLoop.Config := ⟨2, fun _ => true, fun _ => false, fun _ => false, false⟩
def demoOracle : Nat → RunLoop.Oracle := fun _ => ⟨fun _ => true, fun _ => true, fun _ => true, false, false, false⟩
def demoTrace : List Ev := ((RunLoop.run demoConfig 1 none none demoOracle (some 1) none ⟨0, 0⟩).map (·.trace)).getD []

/-- the second species deposits 1 into the guard cell of patch 0 that lies on the only own cell of patch 1 -/
def demoDeposit : Nat → Nat → Loc 2 → ℚ := fun _ i l =>
  if i = 1 ∧ l = (0, index ![1, 1] 1 ![1, 0]) then 1 else 0

/-- two patches on two ranks -/
def demoSys : CurrentSys 2 B2 :=
  currentSys2 (createPatches2 2 1).length 1 1 1 (gridNbr2 2 1 ⟨.pml, .pml⟩ ⟨.pml, .pml⟩) 2

def demoStart : CurrentSt 2 B2 := ⟨fun _ => 0, fun p => p % 2, none, false⟩

/-- the trace up to the second advance of the electric field -/
def demoPre : List Ev := demoTrace.take ((demoTrace.length - 1) - (demoTrace.reverse.findIdx fun e => e.op = .updateE))
def demoPost : List Ev := demoTrace.drop (demoPre.length + 1)

theorem demo_split : demoTrace = demoPre ++ ⟨0, ⟨0, 0⟩, .updateE⟩ :: demoPost := by decide +kernel

theorem demo_history : RunHistory (demoPre ++ ⟨0, ⟨0, 0⟩, .updateE⟩ :: demoPost) := by
  rw [← demo_split]
  obtain ⟨r, hr⟩ : ∃ r, RunLoop.run demoConfig 1 none none demoOracle (some 1) none ⟨0, 0⟩ = some r := ⟨_, rfl⟩
  have h : demoTrace = [] ++ r.trace := by unfold demoTrace; rw [hr]; rfl
  rw [h]
  exact .run .nil hr

theorem demo_quiet : ∀ e ∈ demoPre, e.op ≠ .rebalance := by decide +kernel

theorem demo_total : total ![1, 1] 1 (createPatches2 2 1).length
    (place2 2 1 ⟨.pml, .pml⟩ ⟨.pml, .pml⟩ (createPatches2 2 1)) (deposited demoDeposit demoPre) 1 ![0, 0] = 1 := by
  decide +kernel

/-- A callback that calls only `sync_currents_start` during the deposition of the first of two species: what the second
species deposits into a guard cell never reaches the patch it belongs to, although the run loop starts and waits for a
synchronisation afterwards. -/
theorem lone_start_fails : ∃ (calls : Nat → Stage → Option Nat → List Call) (pre post : List Ev) (e : Ev)
    (s s' : CurrentSt 2 B2), (∀ i st sp, calls i st sp = if st = .currentDeposition then [Call.start] else []) ∧
    (∀ p, s.rk p < 2) ∧ s.mem = (fun _ => 0) ∧ s.handle = none ∧ RunHistory (pre ++ e :: post) ∧ e.op = .updateE ∧
    (currentSys2 (createPatches2 2 1).length 1 1 1 (gridNbr2 2 1 ⟨.pml, .pml⟩ ⟨.pml, .pml⟩) 2).Evs demoDeposit calls
      pre s s' ∧
    at' ![1, 1] 1 s'.mem 1 ![0, 0] = 0 ∧
    total ![1, 1] 1 (createPatches2 2 1).length (place2 2 1 ⟨.pml, .pml⟩ ⟨.pml, .pml⟩ (createPatches2 2 1))
      (deposited demoDeposit pre) 1 ![0, 0] = 1 := by
  refine ⟨fun _ st _ => if st = .currentDeposition then [Call.start] else [], demoPre, demoPost, _, demoStart, _,
    fun _ _ _ => rfl, fun p => Nat.mod_lt p (by decide), rfl, rfl, demo_history, rfl,
    seqEvs_rel _ _ _ _ demo_quiet _, ?_, demo_total⟩
  decide +kernel

/-- the hypotheses of `currents_before_use2_partial` are met, with a callback that synchronises during the deposition
of each species; the deposit arrives -/
example : ∃ s', (∀ i st sp, Call.start ∉ (fun (_ : Nat) (st : Stage) (_ : Option Nat) =>
      if st = .currentDeposition then [Call.sync, .wait] else []) i st sp) ∧
    RunHistory (demoPre ++ ⟨0, ⟨0, 0⟩, .updateE⟩ :: demoPost) ∧
    demoSys.Evs demoDeposit (fun _ st _ => if st = .currentDeposition then [Call.sync, .wait] else []) demoPre
      demoStart s' ∧ at' ![1, 1] 1 s'.mem 1 ![0, 0] = 1 := by
  refine ⟨_, ?_, demo_history, seqEvs_rel _ _ _ _ demo_quiet _, ?_⟩
  · intro i st sp
    by_cases h : st = .currentDeposition
    · dsimp only; rw [if_pos h]; decide
    · dsimp only; rw [if_neg h]; decide
  · decide +kernel

/-- a concrete case of `sync_currents_once2`: two ranks, a run up to the E update, then a sync and further calls -/
example : ∃ s1 s' s3, demoSys.Evs demoDeposit (fun _ _ _ => []) demoPre demoStart s1 ∧ demoSys.Sync s1 s' ∧
    demoSys.Calls [.sync, .start, .wait] s' s3 ∧ at' ![1, 1] 1 s3.mem 1 ![0, 0] = 1 :=
  ⟨_, _, _, seqEvs_rel _ _ _ _ demo_quiet _, seqCall_rel _ .sync _, seqCalls_rel _ _ _, by decide +kernel⟩

end Verif.SyncFields
