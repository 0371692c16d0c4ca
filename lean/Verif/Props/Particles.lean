import Verif.Proofs.Particles
import Mathlib.Tactic.NormNum

/-!
# Properties of particle containers (C01, C03, C04)

Specification vocabulary: `row p i` is everything stored about slot `i`, `living p` the list of rows
of the living slots.
-/
namespace Verif.Particles

/-- Everything the container stores about slot `i`: all float attributes (in `attrs` order), the id. -/
def row (p : Parts) (i : Nat) : List (Option F64) × Option Nat :=
  (p.names.map fun a => (p.arr a)[i]?, p.ids[i]?)

/-- Indices of living slots. -/
def livingIdx (p : Parts) : List Nat :=
  (List.range p.npart).filter fun i => p.dead[i]? == some false

/-- The living particles, with all their data. -/
def living (p : Parts) : List (List (Option F64) × Option Nat) := (livingIdx p).map (row p)

/-- Living QED particles, including the event flag. -/
def QParts.living (q : QParts) : List ((List (Option F64) × Option Nat) × Option Bool) :=
  (livingIdx q.base).map fun i => (row q.base i, q.event[i]?)

/-! ## C03 prune -/

theorem argsort_facts {p : Parts} (hp : Consistent p) {idx : List Nat} (h : IsArgsort p.dead idx) :
    idx.length = p.npart ∧ ∀ i ∈ idx, i < p.npart := by
  obtain ⟨_, _, hd, _⟩ := hp
  refine ⟨by simpa [hd] using h.1.length_eq, fun i hi => ?_⟩
  have := h.1.mem_iff.1 hi
  simpa [hd] using this

theorem living_core {γ} {p : Parts} (hp : Consistent p) {idx : List Nat}
    (h : IsArgsort p.dead idx) {m : Nat} (hm : m ≤ p.npart) (hn : nAlive p ≤ m) (g : Nat → γ) :
    (((List.range m).filter fun j => p.dead[idx.getD j 0]? == some false).map
      fun j => g (idx.getD j 0)).Perm ((livingIdx p).map g) := by
  obtain ⟨hl, hr⟩ := argsort_facts hp h
  obtain ⟨_, _, hd, _⟩ := hp
  have e1 : ((List.range m).filter fun j => p.dead[idx.getD j 0]? == some false).map
      (fun j => g (idx.getD j 0)) =
      ((idx.take m).filter fun i => p.dead[i]? == some false).map g := by
    rw [take_eq_map_range idx (by omega), List.filter_map, List.map_map]
    rfl
  have pe : ∀ l : List Nat, (∀ i ∈ l, i < p.npart) →
      l.filter (fun i => p.dead[i]? == some false) = l.filter (fun i => !p.dead.getD i false) := by
    intro l hl
    apply List.filter_congr
    intro i hi
    have := hl i hi
    simp [List.getD_eq_getElem?_getD, List.getElem?_eq_getElem (show i < p.dead.length by omega)]
  have hcount : (idx.filter fun i => !p.dead.getD i false).length = nAlive p := by
    rw [(h.1.filter _).length_eq, hd, ← pe _ (by simp)]
    unfold nAlive
    rw [List.count_eq_countP, List.countP_eq_length_filter]
    have : p.dead = (List.range p.npart).map fun i => p.dead.getD i false := by
      apply List.ext_getElem
      · simp [hd]
      · intro i h1 h2; simp [List.getD_eq_getElem?_getD, h1]
    conv_rhs => rw [this]
    rw [List.filter_map, List.length_map, pe _ (by simp)]
    congr 1
    apply List.filter_congr
    intro i _
    simp
  rw [e1, pe _ (fun i hi => hr i (List.mem_of_mem_take hi)),
    sorted_split (fun i => p.dead.getD i false) idx h.2 m (by omega), ← pe _ hr]
  apply List.Perm.map
  have := h.1.filter fun i => p.dead[i]? == some false
  rw [hd] at this
  exact this

/-- **C03** `prune` keeps exactly the living particles with all their data, for every admissible
argsort result and every non-negative buffer factor; array lengths stay consistent, the container
never grows, and all slots shed are dead. -/
theorem prune_keeps_living (argsort : List Bool → List Nat)
    (hs : ∀ d, IsArgsort d (argsort d)) (p : Parts) (hp : Consistent p)
    (extra : Rat) (he : 0 ≤ extra) :
    (living (prune argsort p extra).1).Perm (living p) ∧
    Consistent (prune argsort p extra).1 ∧
    (prune argsort p extra).1.npart ≤ p.npart ∧
    (prune argsort p extra).1.created = p.created := by
  unfold prune
  by_cases hc : p.npart ≤ pruneSize (nAlive p) extra
  · simp only [hc, if_true]
    exact ⟨List.Perm.refl _, hp, le_refl _, trivial⟩
  · simp only [hc, if_false]
    have h := hs p.dead
    have hn := le_pruneSize (nAlive p) he
    obtain ⟨hl, hr⟩ := argsort_facts hp h
    have hm : pruneSize (nAlive p) extra ≤ p.npart := by omega
    refine ⟨?_, ?_, hm, trivial⟩
    · refine List.Perm.trans (List.Perm.of_eq ?_) (living_core hp h hm hn (row p))
      unfold living livingIdx
      simp only
      obtain ⟨ha, hi, hd, hw, hg⟩ := hp
      have hf : ((List.range (pruneSize (nAlive p) extra)).filter fun i =>
          (npResize false (gather p.dead (argsort p.dead)) (pruneSize (nAlive p) extra))[i]?
            == some false) =
          (List.range (pruneSize (nAlive p) extra)).filter
            fun j => p.dead[(argsort p.dead).getD j 0]? == some false := by
        apply List.filter_congr
        intro j hj
        rw [getElem?_resize_gather _ _ _ (by omega) (by simpa using hj) (by rw [hd]; exact hr)]
      rw [hf]
      apply List.map_congr_left
      intro j hj
      have hj : j < pruneSize (nAlive p) extra := by
        simpa using (List.mem_filter.1 hj).1
      unfold row
      simp only
      refine Prod.ext ?_ ?_
      · apply List.map_congr_left
        intro a haa
        simp only [haa, if_true]
        rw [getElem?_resize_gather _ _ _ (by omega) hj (by rw [ha a haa]; exact hr)]
      · rw [getElem?_resize_gather _ _ _ (by omega) hj (by rw [hi]; exact hr)]
    · obtain ⟨ha, hi, hd, hw, hg⟩ := hp
      refine ⟨fun a haa => ?_, npResize_length _ _ _, npResize_length _ _ _, hw, hg⟩
      simp only at haa
      simp only [haa, if_true]
      exact npResize_length _ _ _

/-- **C03 (QED containers)** the event flags travel with their particles and stay aligned. -/
theorem qed_prune_keeps_living (argsort : List Bool → List Nat)
    (hs : ∀ d, IsArgsort d (argsort d)) (q : QParts) (hp : Consistent q.base)
    (hev : q.event.length = q.base.npart) (extra : Rat) (he : 0 ≤ extra) :
    (QParts.living (q.prune argsort extra)).Perm q.living ∧
    (q.prune argsort extra).event.length = (q.prune argsort extra).base.npart := by
  unfold QParts.prune prune
  by_cases hc : q.base.npart ≤ pruneSize (nAlive q.base) extra
  · simp only [hc, if_true]
    refine ⟨?_, npResize_length _ _ _⟩
    rw [npResize_take _ _ (by omega), ← hev, List.take_length]
  · simp only [hc, if_false]
    refine ⟨?_, npResize_length _ _ _⟩
    have h := hs q.base.dead
    have hn := le_pruneSize (nAlive q.base) he
    obtain ⟨hl, hr⟩ := argsort_facts hp h
    have hm : pruneSize (nAlive q.base) extra ≤ q.base.npart := by omega
    refine List.Perm.trans (List.Perm.of_eq ?_)
      (living_core hp h hm hn fun i => (row q.base i, q.event[i]?))
    unfold QParts.living livingIdx
    simp only
    obtain ⟨ha, hi, hd, hw, hg⟩ := hp
    have hf : ((List.range (pruneSize (nAlive q.base) extra)).filter fun i =>
        (npResize false (gather q.base.dead (argsort q.base.dead))
          (pruneSize (nAlive q.base) extra))[i]? == some false) =
        (List.range (pruneSize (nAlive q.base) extra)).filter
          fun j => q.base.dead[(argsort q.base.dead).getD j 0]? == some false := by
      apply List.filter_congr
      intro j hj
      rw [getElem?_resize_gather _ _ _ (by omega) (by simpa using hj) (by rw [hd]; exact hr)]
    rw [hf]
    apply List.map_congr_left
    intro j hj
    have hj : j < pruneSize (nAlive q.base) extra := by
      simpa using (List.mem_filter.1 hj).1
    unfold row
    simp only
    refine Prod.ext (Prod.ext ?_ ?_) ?_
    · apply List.map_congr_left
      intro a haa
      simp only [haa, if_true]
      rw [getElem?_resize_gather _ _ _ (by omega) hj (by rw [ha a haa]; exact hr)]
    · simp only
      rw [getElem?_resize_gather _ _ _ (by omega) hj (by rw [hi]; exact hr)]
    · simp only
      rw [getElem?_resize_gather _ _ _ (by omega) hj (by rw [hev]; exact hr)]

/-! ## C04 extend -/

/-- **C04** `extend` on an ordinary container: for `n ≤ 0` nothing happens; for `n > 0` it either
raises (exactly when the 32-bit id counter would overflow) or keeps all old slots bit for bit and
appends `n` dead slots of weight 0. -/
theorem extend_appends_dead (p : Parts) (hp : Consistent p) (n : Int) :
    (n ≤ 0 → extend p n = .ok p) ∧
    (0 < n → 2 ^ 32 < p.created + n → extend p n = .error .assertion) ∧
    (0 < n → p.created + n ≤ 2 ^ 32 → ∃ p', extend p n = .ok p' ∧ Consistent p' ∧
      p'.npart = p.npart + n ∧ p'.names = p.names ∧ p'.extended = true ∧
      (∀ i < p.npart, row p' i = row p i ∧ p'.dead[i]? = p.dead[i]?) ∧
      (∀ i, p.npart ≤ i → i < p'.npart → p'.dead[i]? = some true ∧
        (p'.arr "w")[i]? = some (.val 0)) ∧
      living p' = living p) := by
  refine ⟨fun h => ?_, fun h1 h2 => ?_, fun h1 h2 => ?_⟩
  · unfold extend; rw [if_pos h]
  · obtain ⟨m, rfl⟩ : ∃ m : Nat, n = m := ⟨n.toNat, by omega⟩
    exact extend_err (by omega) (by omega)
  · obtain ⟨m, rfl⟩ : ∃ m : Nat, n = m := ⟨n.toNat, by omega⟩
    have e := extend_eq hp (n := m) (by omega) (by omega)
    refine ⟨_, e, consistent_extend hp e, ?_, rfl, rfl, ?_⟩
    · simp; omega
    obtain ⟨ha, hi, hd, hw, hg⟩ := hp
    have hrow : ∀ i < p.npart, row { p with
      arr := fun a => if a = "w" then p.arr a ++ List.replicate m (.val 0)
                      else if a ∈ p.names then p.arr a ++ List.replicate m .nan else p.arr a
      ids := p.ids ++ (List.range' p.created m).map
              fun i => (p.rank <<< 50) ||| (p.ipatch <<< 32) ||| i
      created := p.created + m
      dead := p.dead ++ List.replicate m true
      npart := m + p.npart
      extended := true } i = row p i := by
      intro i hip
      refine Prod.ext ?_ ?_
      · apply List.map_congr_left
        intro a haa
        have := ha a haa
        by_cases e : a = "w"
        · simp only [e, if_true]; subst e
          rw [List.getElem?_append_left (by omega)]
        · simp only [e, haa, if_true, if_false]
          rw [List.getElem?_append_left (by omega)]
      · simp only [row]
        rw [List.getElem?_append_left (by omega)]
    refine ⟨fun i hip => ⟨hrow i hip, ?_⟩, fun i h1 h2 => ⟨?_, ?_⟩, ?_⟩
    · simp only
      rw [List.getElem?_append_left (by omega)]
    · simp only at h2 ⊢
      rw [List.getElem?_append_right (by omega)]
      rw [List.getElem?_replicate, if_pos (by omega)]
    · simp only at h2
      have := ha _ hw
      simp only [if_true]
      rw [List.getElem?_append_right (by omega)]
      rw [List.getElem?_replicate, if_pos (by omega)]
    · unfold living livingIdx
      simp only
      rw [Nat.add_comm m, List.range_add, List.filter_append, List.map_append]
      have h0 : (((List.range m).map (p.npart + ·)).filter
          fun i => (p.dead ++ List.replicate m true)[i]? == some false) = [] := by
        rw [List.filter_eq_nil_iff]
        intro i hi
        obtain ⟨j, hj, rfl⟩ := List.mem_map.1 hi
        have hj := List.mem_range.1 hj
        rw [List.getElem?_append_right (by omega)]
        rw [List.getElem?_replicate, if_pos (by omega)]
        decide
      rw [h0, List.map_nil, List.append_nil]
      have h1 : ((List.range p.npart).filter
          fun i => (p.dead ++ List.replicate m true)[i]? == some false) =
          (List.range p.npart).filter fun i => p.dead[i]? == some false := by
        apply List.filter_congr
        intro i hi
        have := List.mem_range.1 hi
        rw [List.getElem?_append_left (by omega)]
      rw [h1]
      apply List.map_congr_left
      intro i hi
      have := List.mem_range.1 (List.mem_filter.1 hi).1
      have := hrow i this
      rw [Nat.add_comm m] at this
      exact this

/-- **C04 (QED containers), partial**: for `n > 0` the event flags of existing particles are kept and
the new slots have no event.  Missing: `n ≤ 0`, see `qed_extend_zero_fails`. -/
theorem qed_extend_positive_partial (q : QParts) (hev : q.event.length = q.base.npart)
    (n : Nat) (hn : 0 < n) (q' : QParts) (h : q.extend n = .ok q') :
    q'.event = q.event ++ List.replicate n false ∧ extend q.base n = .ok q'.base := by
  unfold QParts.extend at h
  rw [if_neg (by omega)] at h
  simp only [Bind.bind, Except.bind, pure, Except.pure] at h
  cases hb : extend q.base n with
  | error e => rw [hb] at h; cases h
  | ok b =>
    rw [hb] at h
    cases h
    refine ⟨?_, rfl⟩
    have : ((n : Int) + q.base.npart).toNat = n + q.event.length := by omega
    rw [this]
    exact setFrom_resize _ _ _ hn

/-- A one-particle QED container whose particle has a pending event. -/
def oneEvent : QParts where
  base := { names := baseNames, arr := fun _ => [.val 0], ids := [0], dead := [false], npart := 1,
            created := 1, extended := false, rank := 0, ipatch := 0 }
  event := [true]

/-- **C04 is false for QED containers**: `extend(0)` must change nothing, but `event[-0:] = False`
clears every event flag of the container. -/
theorem qed_extend_zero_fails :
    ∃ q : QParts, Consistent q.base ∧ q.event.length = q.base.npart ∧
      ∃ q', q.extend 0 = .ok q' ∧ q'.event ≠ q.event := by
  refine ⟨oneEvent, ?_, rfl, _, rfl, by decide⟩
  exact ⟨fun _ _ => rfl, rfl, rfl, by decide, by decide⟩

/-- **C04 is false for QED containers** with negative `n` as well: the flag array becomes shorter
than the particle arrays. -/
theorem qed_extend_negative_fails :
    ∃ q : QParts, Consistent q.base ∧ q.event.length = q.base.npart ∧
      ∃ q', q.extend (-1) = .ok q' ∧ q'.event.length ≠ q'.base.npart := by
  refine ⟨oneEvent, ?_, rfl, _, rfl, by decide⟩
  exact ⟨fun _ _ => rfl, rfl, rfl, by decide, by decide⟩

/-! ## C01 ids -/

/-- Operations that can be applied to a container. -/
inductive Op where
  | init (n : Int)
  | extend (n : Int)
  | prune (argsort : List Bool → List Nat) (extra : Rat)

/-- Apply one operation; the second component are the ids handed out by it, i.e. the ids of the
slots the operation creates. -/
def Op.apply (o : Op) (p : Parts) : Except Err (Parts × List Nat) :=
  match o with
  | .init n => do let p' ← initParts p n; return (p', p'.ids)
  | .extend n => do let p' ← Particles.extend p n; return (p', p'.ids.drop p.ids.length)
  | .prune s e => return ((Particles.prune s p e).1, [])

/-- A world of containers (one per patch and rank, all of one species) under a history of
operations; collects all ids ever handed out. -/
def runOps {ι : Type} [DecidableEq ι] :
    (ι → Parts) → List (ι × Op) → Except Err ((ι → Parts) × List Nat)
  | w, [] => .ok (w, [])
  | w, (c, o) :: h => do
    let (p', new) ← o.apply (w c)
    let (w', rest) ← runOps (fun k => if k = c then p' else w k) h
    return (w', new ++ rest)

/-- invariant used in the induction: ids handed out from now on by container `c` encode a local
counter at least `created` -/
theorem apply_ids {p p' : Parts} {o : Op} {new : List Nat} (hl : p.ids.length = p.npart)
    (hk : p.ipatch < 2 ^ 18) (hc : p.created ≤ 2 ^ 32) (h : o.apply p = .ok (p', new)) :
    p'.ids.length = p'.npart ∧ p'.rank = p.rank ∧ p'.ipatch = p.ipatch ∧
    p.created ≤ p'.created ∧ p'.created ≤ 2 ^ 32 ∧
    new = (List.range' p.created (p'.created - p.created)).map
      fun i => p.rank * 2 ^ 50 + p.ipatch * 2 ^ 32 + i := by
  have enc : ∀ s c, s + c ≤ 2 ^ 32 → ((List.range' s c).map
        fun i => (p.rank <<< 50) ||| (p.ipatch <<< 32) ||| i) =
      (List.range' s c).map fun i => p.rank * 2 ^ 50 + p.ipatch * 2 ^ 32 + i := by
    intro s c hsc
    apply List.map_congr_left
    intro i hi
    have := List.mem_range'_1.1 hi
    exact encode_eq hk (by omega)
  cases o with
  | init n =>
    simp only [Op.apply, initParts] at h
    by_cases hn : 0 ≤ n
    · rw [if_pos hn] at h
      by_cases hcc : p.created + n.toNat ≤ 2 ^ 32
      · rw [generateIds_ok hcc] at h
        simp only [Bind.bind, Except.bind, pure, Except.pure] at h
        cases h
        refine ⟨by simp, rfl, rfl, by simp, hcc, ?_⟩
        simp only [Nat.add_sub_cancel_left]
        exact enc _ _ hcc
      · rw [generateIds_err hcc] at h; cases h
    · rw [if_neg hn] at h; cases h
  | extend n =>
    simp only [Op.apply] at h
    by_cases hn : n ≤ 0
    · unfold extend at h
      rw [if_pos hn] at h
      simp only [Bind.bind, Except.bind, pure, Except.pure] at h
      cases h
      exact ⟨hl, rfl, rfl, le_refl _, hc, by simp⟩
    · obtain ⟨m, rfl⟩ : ∃ m : Nat, n = m := ⟨n.toNat, by omega⟩
      by_cases hcc : p.created + m ≤ 2 ^ 32
      · unfold extend at h
        rw [if_neg hn] at h
        have hm : ((m : Int) + p.npart).toNat = m + p.npart := by omega
        simp only [hm, Int.toNat_natCast] at h
        rw [generateIds_ok hcc] at h
        simp only [Bind.bind, Except.bind, pure, Except.pure] at h
        rw [← hl, setFrom_resize _ _ _ (by omega), setFromArr_append _ _ _ (n := m) (by omega)
          (by simp) (by simp)] at h
        simp only at h
        cases h
        refine ⟨by simp; omega, rfl, rfl, by simp, hcc, ?_⟩
        simp only [Nat.add_sub_cancel_left, List.drop_left]
        exact enc _ _ hcc
      · rw [extend_err (by omega) hcc] at h; cases h
  | prune s e =>
    simp only [Op.apply, pure, Except.pure] at h
    cases h
    unfold prune
    by_cases hcc : p.npart ≤ pruneSize (nAlive p) e
    · simp only [hcc, if_true]
      exact ⟨hl, trivial, trivial, le_refl _, hc, by simp⟩
    · simp only [hcc, if_false]
      exact ⟨npResize_length _ _ _, trivial, trivial, le_refl _, hc, by simp⟩

/-- what the log contains -/
theorem runOps_mem {ι : Type} [DecidableEq ι] :
    ∀ (h : List (ι × Op)) (w w' : ι → Parts) (log : List Nat),
    (∀ c, (w c).ids.length = (w c).npart ∧ (w c).ipatch < 2 ^ 18 ∧ (w c).created ≤ 2 ^ 32) →
    (∀ c c', c ≠ c' → ((w c).rank, (w c).ipatch) ≠ ((w c').rank, (w c').ipatch)) →
    runOps w h = .ok (w', log) →
    log.Nodup ∧ ∀ x ∈ log, ∃ c ∈ h.map Prod.fst, ∃ i, (w c).created ≤ i ∧ i < 2 ^ 32 ∧
      x = (w c).rank * 2 ^ 50 + (w c).ipatch * 2 ^ 32 + i
  | [], w, w', log, _, _, h => by
    simp only [runOps] at h; cases h; exact ⟨List.nodup_nil, by simp⟩
  | (c, o) :: t, w, w', log, hw, hd, h => by
    simp only [runOps, Bind.bind, Except.bind, pure, Except.pure] at h
    cases ha : o.apply (w c) with
    | error e => rw [ha] at h; cases h
    | ok r =>
      obtain ⟨p', new⟩ := r
      rw [ha] at h
      simp only at h
      cases hr : runOps (fun k => if k = c then p' else w k) t with
      | error e => rw [hr] at h; cases h
      | ok r =>
        obtain ⟨w2, rest⟩ := r
        rw [hr] at h
        simp only at h
        cases h
        obtain ⟨h1, h2, h3⟩ := hw c
        obtain ⟨g1, g2, g3, g4, g5, g6⟩ := apply_ids h1 h2 h3 ha
        have ih := runOps_mem t (fun k => if k = c then p' else w k) w' rest
          (by
            intro k
            by_cases e : k = c
            · subst e; simp only [if_true]; exact ⟨g1, by omega, g5⟩
            · simp only [e, if_false]; exact hw k)
          (by
            intro k k' hk
            have hrank : ∀ j, ((fun k => if k = c then p' else w k) j).rank = (w j).rank := by
              intro j; by_cases e : j = c
              · subst e; simp [g2]
              · simp [e]
            have hpat : ∀ j, ((fun k => if k = c then p' else w k) j).ipatch = (w j).ipatch := by
              intro j; by_cases e : j = c
              · subst e; simp [g3]
              · simp [e]
            rw [hrank, hrank, hpat, hpat]
            exact hd k k' hk) hr
        obtain ⟨ih1, ih2⟩ := ih
        refine ⟨?_, ?_⟩
        · rw [List.nodup_append]
          refine ⟨?_, ih1, ?_⟩
          · rw [g6]
            apply List.Nodup.map _ List.nodup_range'
            intro a b hab; simpa using hab
          · intro a ha b hb hab
            subst hab
            rw [g6] at ha
            obtain ⟨i, hi, rfl⟩ := List.mem_map.1 ha
            have hi := List.mem_range'_1.1 hi
            obtain ⟨k, _, j, hj1, hj2, hj3⟩ := ih2 _ hb
            by_cases e : k = c
            · subst e
              simp only [if_true] at hj1 hj3
              rw [g2, g3] at hj3
              omega
            · simp only [e, if_false] at hj3
              have hp1 := (hw k).2.1
              have := hd k c e
              apply this
              have e1 : (w k).rank = (w c).rank := by omega
              have e2 : (w k).ipatch = (w c).ipatch := by omega
              rw [e1, e2]
        · intro x hx
          rcases List.mem_append.1 hx with hx | hx
          · rw [g6] at hx
            obtain ⟨i, hi, rfl⟩ := List.mem_map.1 hx
            have hi := List.mem_range'_1.1 hi
            exact ⟨c, by simp, i, hi.1, by omega, rfl⟩
          · obtain ⟨k, hk, j, hj1, hj2, hj3⟩ := ih2 x hx
            refine ⟨k, by simp at hk ⊢; right; exact hk, j, ?_, hj2, ?_⟩
            · by_cases e : k = c
              · subst e; simp only [if_true] at hj1; omega
              · simp only [e, if_false] at hj1; exact hj1
            · by_cases e : k = c
              · subst e; simp only [if_true] at hj3; rw [g2, g3] at hj3; exact hj3
              · simp only [e, if_false] at hj3; exact hj3

/-- **C01** For any family of freshly constructed containers with pairwise different
(rank, patch) and any successful history of initialize / extend / prune calls, all ids handed out
are pairwise different, and an id determines the rank (top 14 bits) and patch (next 18 bits) of its
container. -/
theorem ids_unique {ι : Type} [DecidableEq ι] (rk ip : ι → Nat) (comm : Nat) (w : ι → Parts)
    (hmk : ∀ c, mk' (some (ip c)) (some (rk c)) comm = .ok (w c))
    (hd : ∀ c c', c ≠ c' → (rk c, ip c) ≠ (rk c', ip c'))
    (h : List (ι × Op)) (w' : ι → Parts) (log : List Nat)
    (hr : runOps w h = .ok (w', log)) :
    log.Nodup ∧
    ∀ x ∈ log, x < 2 ^ 64 ∧
      ∃ c ∈ h.map Prod.fst, x / 2 ^ 50 = rk c ∧ x / 2 ^ 32 % 2 ^ 18 = ip c := by
  have hw : ∀ c, (w c).rank = rk c ∧ (w c).ipatch = ip c ∧ rk c < 2 ^ 14 ∧ ip c < 2 ^ 18 ∧
      (w c).ids.length = (w c).npart ∧ (w c).created = 0 := by
    intro c
    have := hmk c
    unfold mk' at this
    dsimp only at this
    by_cases hb : rk c < 2 ^ 14 ∧ ip c < 2 ^ 18
    · rw [if_pos (by exact hb)] at this
      have e := Except.ok.inj this
      rw [← e]
      exact ⟨rfl, rfl, hb.1, hb.2, rfl, rfl⟩
    · rw [if_neg (by exact hb)] at this; cases this
  obtain ⟨h1, h2⟩ := runOps_mem h w w' log
    (fun c => ⟨(hw c).2.2.2.2.1, by rw [(hw c).2.1]; exact (hw c).2.2.2.1,
      by rw [(hw c).2.2.2.2.2]; omega⟩)
    (by intro c c' hcc; rw [(hw c).1, (hw c').1, (hw c).2.1, (hw c').2.1]; exact hd c c' hcc) hr
  refine ⟨h1, fun x hx => ?_⟩
  obtain ⟨c, hc, i, _, hi2, hx⟩ := h2 x hx
  obtain ⟨a, b, c1, c2, _, _⟩ := hw c
  rw [a, b] at hx
  refine ⟨by omega, c, hc, by omega, by omega⟩

/-- Leaving `rank` unspecified breaks the premise of C01: whatever the MPI rank is, the container
gets rank 0 (the `finally` clause), so two MPI ranks hand out the same ids. -/
theorem unspecified_rank_fails :
    ∃ (p q : Parts), mk' (some 0) none 0 = .ok p ∧ mk' (some 0) none 1 = .ok q ∧
      ∃ p' q', initParts p 1 = .ok p' ∧ initParts q 1 = .ok q' ∧ p'.ids = q'.ids ∧ p'.ids ≠ [] := by
  refine ⟨_, _, rfl, rfl, _, _, rfl, rfl, rfl, ?_⟩
  decide

/-! ### The hypotheses are met by concrete containers -/

/-- three slots, the middle one dead -/
def sample : Parts where
  names := baseNames
  arr := fun _ => [.val 1, .nan, .val 3]
  ids := [0, 1, 2]
  dead := [false, true, false]
  npart := 3
  created := 3
  extended := false
  rank := 0
  ipatch := 0

example : Consistent sample := ⟨fun _ _ => rfl, rfl, rfl, by decide, by decide⟩
/-- an argsort exists for every mask -/
def stdArgsort (d : List Bool) : List Nat :=
  (List.range d.length).filter (fun i => !d.getD i false) ++
    (List.range d.length).filter (fun i => d.getD i false)
example : IsArgsort sample.dead (stdArgsort sample.dead) := by
  unfold IsArgsort; decide
theorem stdArgsort_ok (d : List Bool) : IsArgsort d (stdArgsort d) := by
  constructor
  · refine List.Perm.trans List.perm_append_comm ?_
    exact List.filter_append_perm (fun i => d.getD i false) (List.range d.length)
  · unfold stdArgsort
    rw [List.pairwise_append]
    refine ⟨?_, ?_, ?_⟩
    · apply List.pairwise_of_forall_mem_list
      intro a ha b hb hab
      have := (List.mem_filter.1 ha).2
      simp [List.getD_eq_getElem?_getD] at this hab
      rw [this] at hab; cases hab
    · apply List.pairwise_of_forall_mem_list
      intro a ha b hb _
      exact (List.mem_filter.1 hb).2
    · intro a ha b hb hab
      have := (List.mem_filter.1 ha).2
      simp [List.getD_eq_getElem?_getD] at this hab
      rw [this] at hab; cases hab
/-- pruning the sample really removes the dead slot and keeps ids 0 and 2 -/
example : (prune stdArgsort sample 0).1.ids = [0, 2] := by decide +kernel
/-- `ids_unique` applies to a non-trivial history on two containers of different patches -/
def twoFresh : Fin 2 → Parts := fun c =>
  { names := baseNames, arr := fun _ => [], ids := [], dead := [], npart := 0,
    created := 0, extended := false, rank := 0, ipatch := c.val }
example : (∀ c, mk' (some c.val) (some 0) 0 = .ok (twoFresh c)) ∧
    (∀ c c' : Fin 2, c ≠ c' → ((0 : Nat), c.val) ≠ (0, c'.val)) ∧
    ∃ w' log, runOps twoFresh [(0, .init 2), (1, .init 3), (0, .extend 2)] = .ok (w', log) ∧
      log = [0, 1, 2 ^ 32, 2 ^ 32 + 1, 2 ^ 32 + 2, 2, 3] := by
  refine ⟨?_, by decide, _, _, rfl, by decide⟩
  intro c
  match c with
  | 0 => rfl
  | 1 => rfl

end Verif.Particles
