import Verif.Model.MpiFields
import Verif.Proofs.SyncGlobal
/-!
# Lemmas on the field exchange between processes
-/
namespace Verif.SyncFields
open Interleave

variable {k : Nat} {D : Type}

/-! ### the tables -/

/-- the per-axis block of the current exchange between ranks -/
def mpiRng (n ng : Nat) (o : Int) : Rng :=
  ⟨(currentRng n ng o).dst, (currentRng n ng (-o)).src, (currentRng n ng o).w⟩

theorem mpiCurrentTab2_eq (nx ny ng : Nat) (b : B2) (a : Fin 2) :
    mpiCurrentTab2 nx ny ng b a = mpiRng (![nx, ny] a) ng (off2 b a) := by
  match a with
  | 0 => cases b <;> rfl
  | 1 => cases b <;> rfl

theorem mpiCurrentTab3_eq (nx ny nz ng : Nat) (b : B3) (a : Fin 3) :
    mpiCurrentTab3 nx ny nz ng b a = mpiRng (![nx, ny, nz] a) ng (off3 b a) := by
  match a with
  | 0 => cases b <;> rfl
  | 1 => cases b <;> rfl
  | 2 => cases b <;> rfl

/-! ### one exchange as a `Sync` -/

/-- the exchange between ranks seen as (destination, source) pairs -/
def Mpi.asSync (s : Mpi k D) : Sync k D :=
  ⟨s.n, s.ng, s.npatches, s.nbr, s.order,
    fun b a => ⟨(s.tab b a).dst, (s.tab (s.opp b) a).src, (s.tab b a).w⟩, s.cells⟩

/-- destination and source of a message element -/
def Mpi.pairOf (s : Mpi k D) (e : Nat × D × (Fin k → Nat)) : Loc k × Loc k :=
  ((e.1, index s.n s.ng fun a => (s.tab e.2.1 a).dst + e.2.2 a),
    match s.nbr e.1 e.2.1 with
    | none => (e.1, index s.n s.ng fun a => (s.tab e.2.1 a).dst + e.2.2 a)
    | some q => (q, index s.n s.ng fun a => (s.tab (s.opp e.2.1) a).src + e.2.2 a))

/-- the guard cell a message element is taken from -/
def Mpi.srcOf (s : Mpi k D) (e : Nat × D × (Fin k → Nat)) : Loc k :=
  (e.1, index s.n s.ng fun a => (s.tab e.2.1 a).src + e.2.2 a)

theorem elements_pairs (s : Mpi k D) :
    s.elements.map s.pairOf = (List.range s.npatches).flatMap s.asSync.pairs := by
  unfold Mpi.elements Sync.pairs
  rw [List.map_flatMap]
  congr 1
  funext p
  rw [List.map_flatMap]
  show _ = s.order.flatMap _
  congr 1
  funext b
  show List.map s.pairOf _ = match s.nbr p b with
    | none => []
    | some q => _
  cases hq : s.nbr p b with
  | none => rfl
  | some q =>
    dsimp only
    rw [List.map_map]
    show _ = List.map _ (s.cells _)
    apply List.map_congr_left
    intro u _
    show s.pairOf (p, b, u) = _
    unfold Mpi.pairOf
    dsimp only
    rw [hq]
    rfl

theorem mem_elements (s : Mpi k D) (hc : ∀ b, b ∈ s.order)
    (hcells : ∀ w u, u ∈ s.cells w ↔ ∀ a, u a < w a) {p : Nat} {b : D} {u : Fin k → Nat} :
    (p, b, u) ∈ s.elements ↔ p < s.npatches ∧ (∃ q, s.nbr p b = some q) ∧ ∀ a, u a < (s.tab b a).w := by
  unfold Mpi.elements
  simp only [List.mem_flatMap, List.mem_range]
  constructor
  · rintro ⟨p', hp', b', hb', h⟩
    cases hq : s.nbr p' b' with
    | none => rw [hq] at h; simp at h
    | some q =>
      rw [hq] at h
      obtain ⟨u', hu', e⟩ := List.mem_map.mp h
      injection e with e1 e2
      injection e2 with e2 e3
      subst e1; subst e2; subst e3
      exact ⟨hp', ⟨q, hq⟩, (hcells _ _).mp hu'⟩
  · rintro ⟨hp, ⟨q, hq⟩, hu⟩
    refine ⟨p, hp, b, hc b, ?_⟩
    rw [hq]
    exact List.mem_map.mpr ⟨u, (hcells _ _).mpr hu, rfl⟩

theorem nodup_elements (s : Mpi k D) (ho : s.order.Nodup) (hn : ∀ w, (s.cells w).Nodup) :
    s.elements.Nodup := by
  unfold Mpi.elements
  rw [List.nodup_flatMap]
  have inner : ∀ p b e, (e ∈ match s.nbr p b with
      | none => []
      | some _ => (s.cells fun a => (s.tab b a).w).map fun u => (p, b, u)) → e.1 = p ∧ e.2.1 = b := by
    intro p b e he
    cases hq : s.nbr p b with
    | none => rw [hq] at he; simp at he
    | some q =>
      rw [hq] at he
      obtain ⟨u, _, rfl⟩ := List.mem_map.mp he
      exact ⟨rfl, rfl⟩
  constructor
  · intro p _
    rw [List.nodup_flatMap]
    constructor
    · intro b _
      cases hq : s.nbr p b with
      | none => simp
      | some q =>
        dsimp only
        refine List.Nodup.map ?_ (hn _)
        intro u u' e
        injection e with _ e
        injection e
    · refine ho.imp ?_
      intro b b' hbb e he he'
      exact hbb ((inner p b e he).2.symm.trans (inner p b' e he').2)
  · refine List.nodup_range.imp ?_
    intro p p' hpp e he he'
    obtain ⟨b, _, h1⟩ := List.mem_flatMap.mp he
    obtain ⟨b', _, h2⟩ := List.mem_flatMap.mp he'
    exact hpp ((inner p b e h1).1.symm.trans (inner p' b' e h2).1)

/-- what tables, orders and loop nests of the exchange between ranks must satisfy -/
structure MpiShape (s : Mpi k D) (off : D → Fin k → Int) : Prop where
  shape : Shape s.asSync off s.opp
  tab : ∀ b a, s.tab b a = mpiRng (s.n a) s.ng (off b a)
  opp_opp : ∀ b, s.opp (s.opp b) = b

section
variable {s : Mpi k D} {off : D → Fin k → Int}

theorem MpiShape.asSync_tab (hs : MpiShape s off) (b : D) (a : Fin k) :
    s.asSync.tab b a = currentRng (s.n a) s.ng (off b a) := by
  show (⟨(s.tab b a).dst, (s.tab (s.opp b) a).src, (s.tab b a).w⟩ : Rng) = _
  rw [hs.tab, hs.tab, hs.shape.off_opp]
  unfold mpiRng
  dsimp only
  rw [neg_neg]

theorem MpiShape.src (hs : MpiShape s off) {p : Nat} {b : D} {u : Fin k → Nat}
    (hu : ∀ a, u a < (s.tab b a).w) (a : Fin k) :
    (-(s.ng : Int) ≤ (s.tab b a).src + u a ∧ (s.tab b a).src + u a < s.n a + s.ng) ∧
      side (s.n a) ((s.tab b a).src + u a) = off b a := by
  have h := hs.shape.off_unit b a
  have hu' : -off b a = -1 ∨ -off b a = 0 ∨ -off b a = 1 := by
    rcases h with h | h | h <;> rw [h] <;> simp
  have e := current_eq_guard (s.n a) s.ng hu'
  have e0 := current_eq_guard (s.n a) s.ng h
  have hw : (guardRng (s.n a) s.ng (off b a)).w = (s.tab b a).w := by
    rw [hs.tab]; unfold mpiRng guardRng currentRng
    rcases h with h | h | h <;> rw [h] <;> simp
  have hsrc : (s.tab b a).src = (guardRng (s.n a) s.ng (off b a)).dst := by
    rw [hs.tab]; unfold mpiRng; dsimp only; rw [e.2.1, neg_neg]
  have := (guard_axis (show s.ng ≤ s.n a from hs.shape.thick a) h (x := (s.tab b a).src + u a)
    (y := (guardRng (s.n a) s.ng (off b a)).src + u a)).mp
      ⟨u a, by rw [hw]; exact hu a, by rw [hsrc], rfl⟩
  exact ⟨this.1, this.2.1⟩

theorem MpiShape.src_inj (hs : MpiShape s off) {e e' : Nat × D × (Fin k → Nat)} (he : e ∈ s.elements)
    (he' : e' ∈ s.elements) (h : s.srcOf e = s.srcOf e') : e = e' := by
  obtain ⟨p, b, u⟩ := e
  obtain ⟨p', b', u'⟩ := e'
  obtain ⟨_, _, hu⟩ := (mem_elements s hs.shape.complete hs.shape.mem_cells).mp he
  obtain ⟨_, _, hu'⟩ := (mem_elements s hs.shape.complete hs.shape.mem_cells).mp he'
  have h1 := fun a => hs.src (p := p) hu a
  have h2 := fun a => hs.src (p := p') hu' a
  obtain ⟨hp, hi⟩ := Prod.mk.inj h
  have hv := index_inj (fun a => (h1 a).1) (fun a => (h2 a).1) hi
  have hb : b = b' := by
    apply hs.shape.off_inj
    funext a
    have e3 := congrFun hv a
    have a1 := (h1 a).2
    have a2 := (h2 a).2
    rw [e3] at a1
    rw [← a1, ← a2]
  subst hb
  have hu2 : u = u' := by
    funext a
    have e3 := congrFun hv a
    omega
  have hp' : p = p' := hp
  subst hp'; subst hu2
  rfl

theorem MpiShape.src_pair (hs : MpiShape s off) (hn : NbrOK s.asSync s.opp)
    {e : Nat × D × (Fin k → Nat)} (he : e ∈ s.elements) :
    ∃ q, q < s.npatches ∧ ∃ x ∈ s.asSync.pairs q, x.2 = s.srcOf e := by
  obtain ⟨p, b, u⟩ := e
  obtain ⟨hp, ⟨q, hq⟩, hu⟩ := (mem_elements s hs.shape.complete hs.shape.mem_cells).mp he
  have hs' := hn.sym p b q hp hq
  refine ⟨q, hn.lt p b q hp hq, ((q, _), (p, _)),
    (mem_pairs hs.shape).mpr ⟨s.opp b, p, hs', u, ?_, rfl, rfl⟩, ?_⟩
  · intro a
    show u a < (s.tab (s.opp b) a).w
    have h := hs.shape.off_unit b a
    have : (s.tab (s.opp b) a).w = (s.tab b a).w := by
      rw [hs.tab, hs.tab, hs.shape.off_opp]; unfold mpiRng currentRng
      rcases h with h | h | h <;> rw [h] <;> simp
    rw [this]; exact hu a
  · show (p, index s.n s.ng fun a => (s.tab (s.opp (s.opp b)) a).src + u a) = _
    rw [hs.opp_opp]
    rfl

theorem MpiShape.src_ne_dst (hs : MpiShape s off) (hn : NbrOK s.asSync s.opp)
    {e e' : Nat × D × (Fin k → Nat)} (he : e ∈ s.elements) (he' : e' ∈ s.elements) :
    s.srcOf e ≠ (s.pairOf e').1 := by
  obtain ⟨q, _, x, hx, hxe⟩ := hs.src_pair hn he
  have hm : s.pairOf e' ∈ s.elements.map s.pairOf := List.mem_map_of_mem he'
  rw [elements_pairs] at hm
  obtain ⟨p', _, hp'⟩ := List.mem_flatMap.mp hm
  rw [← hxe]
  exact current_src_ne_dst hs.shape hs.asSync_tab hx hp'

/-- the element an addition works on -/
def addElem : MpiStep k D → Option (Nat × D × (Fin k → Nat))
  | .fill _ _ _ => none
  | .add p b u => some (p, b, u)

variable [DecidableEq D]

/-- Current exchange, closed form after any prefix of any legal order. -/
theorem mpi_prefix (hs : MpiShape s off) (hn : NbrOK s.asSync s.opp) (m : Loc k → ℚ)
    (buf0 : Nat → D → (Fin k → Nat) → ℚ) {sched : List (MpiStep k D)} (hl : s.Legal sched) :
    ∀ l1 l2, sched = l1 ++ l2 →
      (∀ p b u, .fill p b u ∈ l1 →
        (l1.foldl s.exec ⟨m, buf0⟩).buf p b u = m (s.srcOf (p, b, u)) ∧
        (l1.foldl s.exec ⟨m, buf0⟩).mem (s.srcOf (p, b, u)) = 0) ∧
      (∀ c, (∀ p b u, .fill p b u ∈ l1 → s.srcOf (p, b, u) ≠ c) →
        (l1.foldl s.exec ⟨m, buf0⟩).mem c = m c +
          (((l1.filterMap addElem).filter fun e => (s.pairOf e).1 = c).map fun e => m (s.pairOf e).2).sum) := by
  have hnd : sched.Nodup := by
    refine hl.1.nodup_iff.mpr ?_
    have he := nodup_elements s hs.shape.nodup hs.shape.nodup_cells
    unfold Mpi.steps
    refine List.Nodup.append (he.map ?_) (he.map ?_) ?_
    · rintro ⟨_, _, _⟩ ⟨_, _, _⟩ e; injection e with a b c; dsimp only at a b c; rw [a, b, c]
    · rintro ⟨_, _, _⟩ ⟨_, _, _⟩ e; injection e with a b c; dsimp only at a b c; rw [a, b, c]
    · intro x hx hy
      obtain ⟨_, _, rfl⟩ := List.mem_map.mp hx
      obtain ⟨_, _, e⟩ := List.mem_map.mp hy
      cases e
  have hfill : ∀ p b u, .fill p b u ∈ sched → (p, b, u) ∈ s.elements := by
    intro p b u h
    rcases List.mem_append.mp (hl.1.mem_iff.mp h) with h | h
    · obtain ⟨⟨_, _, _⟩, h, e⟩ := List.mem_map.mp h
      injection e with a b c
      dsimp only at a b c
      rw [← a, ← b, ← c]; exact h
    · obtain ⟨_, _, e⟩ := List.mem_map.mp h
      cases e
  have hadd : ∀ p b u, .add p b u ∈ sched → (p, b, u) ∈ s.elements := by
    intro p b u h
    rcases List.mem_append.mp (hl.1.mem_iff.mp h) with h | h
    · obtain ⟨_, _, e⟩ := List.mem_map.mp h
      cases e
    · obtain ⟨⟨_, _, _⟩, h, e⟩ := List.mem_map.mp h
      injection e with a b c
      dsimp only at a b c
      rw [← a, ← b, ← c]; exact h
  intro l1
  induction l1 using List.reverseRecOn with
  | nil =>
    intro l2 _
    refine ⟨fun p b u h => absurd h (List.not_mem_nil), fun c _ => ?_⟩
    show m c = m c + _
    simp
  | append_singleton l x ih =>
    intro l2 h2
    obtain ⟨i1, i2⟩ := ih (x :: l2) (by rw [h2]; simp)
    have hsub : ∀ y, y ∈ l ++ [x] → y ∈ sched := fun y hy => by
      rw [h2]; exact List.mem_append_left _ hy
    rw [List.foldl_append]
    show (∀ p b u, _ → (s.exec _ x).buf p b u = _ ∧ (s.exec _ x).mem _ = 0) ∧
      ∀ c, _ → (s.exec _ x).mem c = _
    generalize hst : l.foldl s.exec ⟨m, buf0⟩ = st at *
    have hxl : x ∉ l := by
      intro h
      rw [h2] at hnd
      have := (List.nodup_append.mp hnd).1
      exact (List.nodup_append.mp this).2.2 x h x (by simp) rfl
    cases x with
    | fill p b u =>
      have hel := hfill p b u (hsub _ (by simp))
      -- the cell still has its old value
      have hold : st.mem (s.srcOf (p, b, u)) = m (s.srcOf (p, b, u)) := by
        rw [i2]
        · have : ((l.filterMap addElem).filter fun e => (s.pairOf e).1 = s.srcOf (p, b, u)) = [] := by
            rw [List.filter_eq_nil_iff]
            intro e he
            obtain ⟨y, hy, hye⟩ := List.mem_filterMap.mp he
            cases y with
            | fill _ _ _ => simp [addElem] at hye
            | add p' b' u' =>
              simp only [addElem, Option.some.injEq] at hye
              subst hye
              simp only [decide_eq_true_eq]
              exact fun e => hs.src_ne_dst hn hel (hadd p' b' u' (hsub _ (by simp [hy]))) e.symm
          rw [this]; simp
        · intro p' b' u' hm e
          have := hs.src_inj (hfill p' b' u' (hsub _ (by simp [hm]))) hel e
          injection this with a c
          injection c with c d
          subst a; subst c; subst d
          exact hxl hm
      constructor
      · intro p' b' u' hm
        by_cases e : p' = p ∧ b' = b ∧ u' = u
        · obtain ⟨rfl, rfl, rfl⟩ := e
          refine ⟨(if_pos ⟨rfl, rfl, rfl⟩).trans hold, if_pos rfl⟩
        · have hm' : MpiStep.fill p' b' u' ∈ l := by
            rcases List.mem_append.mp hm with h | h
            · exact h
            · exfalso; apply e
              simp only [List.mem_singleton, MpiStep.fill.injEq] at h
              exact h
          obtain ⟨j1, j2⟩ := i1 p' b' u' hm'
          refine ⟨(if_neg e).trans j1, ?_⟩
          by_cases e2 : s.srcOf (p', b', u') = s.srcOf (p, b, u)
          · exact if_pos e2
          · exact (if_neg e2).trans j2
      · intro c hc
        have hne : c ≠ s.srcOf (p, b, u) := fun e => hc p b u (by simp) e.symm
        refine (if_neg hne).trans ?_
        rw [i2 c (fun p' b' u' hm => hc p' b' u' (by simp [hm])), List.filterMap_append]
        have hz : ([MpiStep.fill p b u].filterMap addElem) = [] := rfl
        rw [hz, List.append_nil]
    | add p b u =>
      have hel := hadd p b u (hsub _ (by simp))
      obtain ⟨hp, ⟨q, hq⟩, hu⟩ := (mem_elements s hs.shape.complete hs.shape.mem_cells).mp hel
      have hbuf : st.buf q (s.opp b) u = m (s.pairOf (p, b, u)).2 := by
        have hf := hl.2 l l2 p b u q (by rw [h2]; simp) hq
        rw [(i1 q (s.opp b) u hf).1]
        unfold Mpi.pairOf
        dsimp only
        rw [hq]
        rfl
      have hexec : s.exec st (.add p b u) = MpiState.mk (fun l =>
          if l = (s.pairOf (p, b, u)).1 then (st.mem (s.pairOf (p, b, u)).1 + st.buf q (s.opp b) u)
          else st.mem l) st.buf := by
        show (match s.nbr p b with | none => st | some q => _) = _
        rw [hq]
        rfl
      rw [hexec]
      constructor
      · intro p' b' u' hm
        have hm' : MpiStep.fill p' b' u' ∈ l := by
          rcases List.mem_append.mp hm with h | h
          · exact h
          · simp at h
        obtain ⟨j1, j2⟩ := i1 p' b' u' hm'
        exact ⟨j1, (if_neg (hs.src_ne_dst hn (hfill p' b' u' (hsub _ (by simp [hm']))) hel)).trans j2⟩
      · intro c hc
        have ic := i2 c (fun p' b' u' hm => hc p' b' u' (by simp [hm]))
        rw [List.filterMap_append, List.filter_append, List.map_append, List.sum_append]
        have hsing : ([MpiStep.add p b u].filterMap addElem) = [(p, b, u)] := rfl
        rw [hsing]
        by_cases e : c = (s.pairOf (p, b, u)).1
        · refine (if_pos e).trans ?_
          rw [← e, ic, hbuf]
          simp only [List.filter_cons, e, decide_true, if_true, List.filter_nil, List.map_cons,
            List.map_nil, List.sum_cons, List.sum_nil]
          ring
        · refine (if_neg e).trans ?_
          rw [ic]
          have : decide ((s.pairOf (p, b, u)).1 = c) = false := decide_eq_false (fun h => e h.symm)
          simp only [List.filter_cons, this, List.filter_nil, List.map_nil, List.sum_nil, add_zero]
          simp

theorem filterMap_steps (s : Mpi k D) : s.steps.filterMap addElem = s.elements := by
  unfold Mpi.steps
  rw [List.filterMap_append, List.filterMap_map, List.filterMap_map]
  have h1 : (s.elements.filterMap (addElem ∘ fun e => MpiStep.fill e.1 e.2.1 e.2.2)) = [] := by
    rw [List.filterMap_eq_nil_iff]; intros; rfl
  have h2 : (s.elements.filterMap (addElem ∘ fun e => MpiStep.add e.1 e.2.1 e.2.2)) = s.elements := by
    rw [show (addElem ∘ fun e : Nat × D × (Fin k → Nat) => MpiStep.add e.1 e.2.1 e.2.2) = some from rfl]
    exact List.filterMap_some
  rw [h1, h2]; rfl

/-- Current exchange between ranks, closed form for every legal order. -/
theorem mpi_current_run (hs : MpiShape s off) (hn : NbrOK s.asSync s.opp) (m : Loc k → ℚ)
    (buf0 : Nat → D → (Fin k → Nat) → ℚ) {sched : List (MpiStep k D)} (hl : s.Legal sched)
    {m' : Loc k → ℚ} (hm' : m' = (sched.foldl s.exec ⟨m, buf0⟩).mem) :
    (∀ p v, p < s.npatches → Own s.n v → m' (p, index s.n s.ng v) =
      m (p, index s.n s.ng v) + (s.order.map (received s.asSync off m p v)).sum) ∧
    (∀ p b q v, p < s.npatches → s.nbr p b = some q → InRange s.n s.ng v →
      (∀ a, side (s.n a) (v a) = off b a) → m' (p, index s.n s.ng v) = 0) ∧
    (∀ p v, InRange s.n s.ng v → ¬ Own s.n v →
      (∀ b q, (∀ a, side (s.n a) (v a) = off b a) → s.nbr p b ≠ some q) →
      m' (p, index s.n s.ng v) = m (p, index s.n s.ng v)) := by
  obtain ⟨c1, c2⟩ := mpi_prefix hs hn m buf0 hl sched [] (by simp)
  rw [← hm'] at c1 c2
  have hfill : ∀ p b u, .fill p b u ∈ sched ↔ (p, b, u) ∈ s.elements := by
    intro p b u
    rw [hl.1.mem_iff]
    unfold Mpi.steps
    rw [List.mem_append]
    constructor
    · rintro (h | h)
      · obtain ⟨⟨_, _, _⟩, h, e⟩ := List.mem_map.mp h
        injection e with a b c
        dsimp only at a b c
        rw [← a, ← b, ← c]; exact h
      · obtain ⟨_, _, e⟩ := List.mem_map.mp h
        cases e
    · intro h
      exact Or.inl (List.mem_map.mpr ⟨_, h, rfl⟩)
  have hmemE := @mem_elements k D s hs.shape.complete hs.shape.mem_cells
  -- source cells and their sides
  have hsrcside : ∀ p b u v, (p, b, u) ∈ s.elements → InRange s.n s.ng v →
      ∀ p', s.srcOf (p, b, u) = (p', index s.n s.ng v) → p = p' ∧ ∀ a, side (s.n a) (v a) = off b a := by
    intro p b u v he hv p' e
    obtain ⟨_, _, hu⟩ := hmemE.mp he
    have h1 := fun a => hs.src (p := p) hu a
    obtain ⟨e1, e2⟩ := Prod.mk.inj e
    have := index_inj (fun a => (h1 a).1) hv e2
    exact ⟨e1, fun a => by rw [← this]; exact (h1 a).2⟩
  -- the additions into a cell
  have hsum : ∀ c : Loc k, (((sched.filterMap addElem).filter fun e => (s.pairOf e).1 = c).map
      fun e => m (s.pairOf e).2).sum = ((((List.range s.npatches).flatMap s.asSync.pairs).filter
        fun x => x.1 = c).map fun x => m x.2).sum := by
    intro c
    have hp : (sched.filterMap addElem).Perm s.elements := by
      have := hl.1.filterMap addElem
      rwa [filterMap_steps] at this
    rw [((hp.filter _).map _).sum_eq, ← elements_pairs, List.filter_map, List.map_map]
    rfl
  refine ⟨?_, ?_, ?_⟩
  · intro p v hp hv
    rw [c2, hsum, filter_flatMap_sum]
    · congr 1
      have hzero : ∀ p', p' ≠ p → (((s.asSync.pairs p').filter
          fun x => x.1 = (p, index s.n s.ng v)).map fun x => m x.2).sum = 0 := by
        intro p' hpp
        have : ((s.asSync.pairs p').filter fun x => x.1 = (p, index s.n s.ng v)) = [] := by
          rw [List.filter_eq_nil_iff]
          intro x hx
          simp only [decide_eq_true_eq]
          intro e
          obtain ⟨b, q, _, u, _, e1, _⟩ := (mem_pairs hs.shape).mp hx
          rw [e1] at e
          exact hpp (Prod.mk.inj e).1
        rw [this]; rfl
      have hrs := received_sum hs.shape hs.asSync_tab m p hv
      refine Eq.trans ?_ hrs
      have : ∀ N, p < N → ((List.range N).map fun a => (((s.asSync.pairs a).filter
          fun x => x.1 = (p, index s.n s.ng v)).map fun x => m x.2).sum).sum =
          (((s.asSync.pairs p).filter fun x => x.1 = (p, index s.n s.ng v)).map fun x => m x.2).sum := by
        intro N
        induction N with
        | zero => intro h; omega
        | succ N ih =>
          intro h
          rw [List.range_succ, List.map_append, List.sum_append]
          by_cases e : p = N
          · subst e
            have hz : ((List.range p).map fun a => (((s.asSync.pairs a).filter
                fun x => x.1 = (p, index s.n s.ng v)).map fun x => m x.2).sum).sum = 0 := by
              apply List.sum_eq_zero
              intro y hy
              obtain ⟨a, ha, rfl⟩ := List.mem_map.mp hy
              exact hzero a (by have := List.mem_range.mp ha; omega)
            rw [hz]; simp
          · rw [ih (by omega)]
            simp only [List.map_cons, List.map_nil, List.sum_cons, List.sum_nil]
            rw [hzero N (fun h => e h.symm)]; simp
      exact this _ hp
    · intro p' b u hm e
      obtain ⟨_, hsd⟩ := hsrcside p' b u v ((hfill _ _ _).mp hm) (hv.inRange s.ng) p e
      obtain ⟨a, ha⟩ := hs.shape.off_ne b
      have := hsd a
      rw [hv.side a] at this
      exact ha this.symm
  · intro p b q v hp hq hv hsd
    have : ∃ u : Fin k → Nat, (∀ a, u a < (s.tab b a).w) ∧ ∀ a, v a = (s.tab b a).src + u a := by
      have key : ∀ a, ∃ u : Nat, u < (s.tab b a).w ∧ v a = (s.tab b a).src + u := by
        intro a
        have h := hs.shape.off_unit b a
        obtain ⟨u, h1, h2, _⟩ := (guard_axis (show s.ng ≤ s.n a from hs.shape.thick a) h (x := v a)
          (y := v a - off b a * s.n a)).mpr ⟨hv a, hsd a, rfl⟩
        have hu' : -off b a = -1 ∨ -off b a = 0 ∨ -off b a = 1 := by
          rcases h with h | h | h <;> rw [h] <;> simp
        have e := current_eq_guard (s.n a) s.ng hu'
        refine ⟨u, ?_, ?_⟩
        · have hw : (guardRng (s.n a) s.ng (off b a)).w = (s.tab b a).w := by
            rw [hs.tab]; unfold mpiRng guardRng currentRng
            rcases h with h | h | h <;> rw [h] <;> simp
          rwa [← hw]
        · have hsrc : (s.tab b a).src = (guardRng (s.n a) s.ng (off b a)).dst := by
            rw [hs.tab]; unfold mpiRng; dsimp only; rw [e.2.1, neg_neg]
          rw [hsrc]; exact h2
      choose u h1 h2 using key
      exact ⟨u, h1, h2⟩
    obtain ⟨u, hu, huv⟩ := this
    have he : (p, b, u) ∈ s.elements := hmemE.mpr ⟨hp, ⟨q, hq⟩, hu⟩
    have := (c1 p b u ((hfill _ _ _).mpr he)).2
    have hloc : s.srcOf (p, b, u) = (p, index s.n s.ng v) := by
      unfold Mpi.srcOf
      congr 2
      funext a
      exact (huv a).symm
    rwa [hloc] at this
  · intro p v hv hno hnb
    rw [c2, hsum]
    · have : (((List.range s.npatches).flatMap s.asSync.pairs).filter
          fun x => x.1 = (p, index s.n s.ng v)) = [] := by
        rw [List.filter_eq_nil_iff]
        intro x hx
        simp only [decide_eq_true_eq]
        intro e
        obtain ⟨p', _, hx⟩ := List.mem_flatMap.mp hx
        obtain ⟨b, q, w, hq, hw, hsd, e2, e1⟩ := (mem_current_pairs hs.shape hs.asSync_tab).mp hx
        rw [e1] at e
        have hown : Own s.n fun a => w a + off b a * s.n a := by
          intro a
          have := src_own (hs.shape.thick a) (hw a)
          have hsd' : side (s.n a) (w a) = -off b a := hsd a
          have this : 0 ≤ w a - side (s.n a) (w a) * (s.n a : Int) ∧
            w a - side (s.n a) (w a) * (s.n a : Int) < s.n a := this
          rw [hsd'] at this
          dsimp only
          have e : w a - -off b a * (s.n a : Int) = w a + off b a * s.n a := by ring
          rwa [e] at this
        have := index_inj (hown.inRange s.ng) hv (Prod.mk.inj e).2
        exact hno (this ▸ hown)
      rw [this]; simp
    · intro p' b u hm e
      have he := (hfill _ _ _).mp hm
      obtain ⟨hpp, hsd⟩ := hsrcside p' b u v he hv p e
      subst hpp
      obtain ⟨_, ⟨q, hq⟩, _⟩ := hmemE.mp he
      exact hnb b q hsd hq

end

/-! ### all ranks together give what one rank would give -/

theorem localNbr_some {rk : Nat → Nat} {nbr : Nat → D → Option Nat} {p : Nat} {b : D} {q : Nat} :
    localNbr rk nbr p b = some q ↔ nbr p b = some q ∧ rk q = rk p := by
  unfold localNbr
  rw [Option.filter_eq_some_iff]
  simp

theorem remoteNbr_some {rk : Nat → Nat} {nbr : Nat → D → Option Nat} {p : Nat} {b : D} {q : Nat} :
    remoteNbr rk nbr p b = some q ↔ nbr p b = some q ∧ rk q ≠ rk p := by
  unfold remoteNbr
  rw [Option.filter_eq_some_iff]
  simp

/-- the local part of an exchange on every rank -/
def Sync.restrict (g : Sync k D) (nbr : Nat → D → Option Nat) : Sync k D := { g with nbr := nbr }

theorem Shape.restrict {g : Sync k D} {off : D → Fin k → Int} {opp : D → D} (h : Shape g off opp)
    (nbr : Nat → D → Option Nat) : Shape (g.restrict nbr) off opp :=
  ⟨h.complete, h.nodup, h.off_inj, h.off_unit, h.off_opp, h.off_ne, h.mem_cells, h.nodup_cells, h.thick⟩

theorem NbrOK.local {g : Sync k D} {opp : D → D} (h : NbrOK g opp) (rk : Nat → Nat) :
    NbrOK (g.restrict (localNbr rk g.nbr)) opp where
  lt := fun p b q hp hq => h.lt p b q hp (localNbr_some.mp hq).1
  sym := fun p b q hp hq => localNbr_some.mpr
    ⟨h.sym p b q hp (localNbr_some.mp hq).1, (localNbr_some.mp hq).2.symm⟩

theorem received_none {s : Sync k D} {off : D → Fin k → Int} {m : Loc k → ℚ} {p : Nat} {v : Fin k → Int}
    {b : D} (h : s.nbr p b = none) : received s off m p v b = 0 := by
  unfold received; rw [h]

theorem received_some {s : Sync k D} {off : D → Fin k → Int} {m : Loc k → ℚ} {p : Nat} {v : Fin k → Int}
    {b : D} {q : Nat} (h : s.nbr p b = some q) : received s off m p v b =
    if ∀ a, -(s.ng : Int) ≤ v a - off b a * s.n a ∧ v a - off b a * s.n a < s.n a + s.ng then
      m (q, index s.n s.ng fun a => v a - off b a * s.n a) else 0 := by
  unfold received; rw [h]

theorem current_ranks [DecidableEq D] {g : Sync k D} {rem : Mpi k D} {rk : Nat → Nat} {off : D → Fin k → Int}
    (hs : Shape g off rem.opp) (hn : NbrOK g rem.opp)
    (ht : ∀ b a, g.tab b a = currentRng (g.n a) g.ng (off b a)) (hr : MpiShape rem off)
    (hN : rem.npatches = g.npatches) (hnn : rem.n = g.n) (hng : rem.ng = g.ng)
    (hnbr : rem.nbr = remoteNbr rk g.nbr) {m m' m'' : Loc k → ℚ}
    (hx : CurrentExchange (g.restrict (localNbr rk g.nbr)) rem m m') (hg : g.CurrentRun m m'') :
    ∀ p v, p < g.npatches → InRange g.n g.ng v →
      m' (p, index g.n g.ng v) = m'' (p, index g.n g.ng v) := by
  obtain ⟨m1, hloc, sched, buf0, hl, hm'⟩ := hx
  have hnr : NbrOK rem.asSync rem.opp := by
    constructor
    · intro p b q hp hq
      have hq' : rem.nbr p b = some q := hq
      rw [hnbr] at hq'
      show q < rem.npatches
      rw [hN]
      exact hn.lt p b q (by rw [← hN]; exact hp) (remoteNbr_some.mp hq').1
    · intro p b q hp hq
      have hq' : rem.nbr p b = some q := hq
      rw [hnbr] at hq'
      show rem.nbr q (rem.opp b) = some p
      rw [hnbr]
      exact remoteNbr_some.mpr ⟨hn.sym p b q (by rw [← hN]; exact hp) (remoteNbr_some.mp hq').1,
        fun e => (remoteNbr_some.mp hq').2 e.symm⟩
  obtain ⟨g1, g2, g3, _⟩ := current_run hs hn ht hg
  obtain ⟨l1, l2, l3, _⟩ := current_run (hs.restrict _) (hn.local rk) ht hloc
  obtain ⟨r1, r2, r3⟩ := mpi_current_run hr hnr m1 buf0 hl hm'
  rw [hN, hnn, hng] at r1
  rw [hN, hnn, hng] at r2
  rw [hnn, hng] at r3
  intro p v hp hv
  by_cases hown : Own g.n v
  · rw [r1 p v hp hown, g1 p v hp hown]
    have e1 := l1 p v hp hown
    have e1' : m1 (p, index g.n g.ng v) = m (p, index g.n g.ng v) +
      (g.order.map (received (g.restrict (localNbr rk g.nbr)) off m p v)).sum := e1
    rw [e1', add_assoc]
    congr 1
    have hperm : rem.order.Perm g.order :=
      (List.perm_ext_iff_of_nodup hr.shape.nodup hs.nodup).mpr
        (fun b => ⟨fun _ => hs.complete b, fun _ => hr.shape.complete b⟩)
    rw [(hperm.map _).sum_eq, ← List.sum_map_add]
    congr 1
    apply List.map_congr_left
    intro b _
    cases hq : g.nbr p b with
    | none =>
      have e1 : localNbr rk g.nbr p b = none := by unfold localNbr; rw [hq]; rfl
      have e2 : remoteNbr rk g.nbr p b = none := by unfold remoteNbr; rw [hq]; rfl
      rw [received_none (s := g.restrict (localNbr rk g.nbr)) e1, received_none (s := rem.asSync) (show rem.nbr p b = _ by rw [hnbr]; exact e2),
        received_none hq, add_zero]
    | some q =>
      by_cases hrk : rk q = rk p
      · have e1 : localNbr rk g.nbr p b = some q := localNbr_some.mpr ⟨hq, hrk⟩
        have e2 : remoteNbr rk g.nbr p b = none := by
          unfold remoteNbr; rw [hq]; simp [hrk]
        rw [received_some (s := g.restrict (localNbr rk g.nbr)) e1, received_none (s := rem.asSync) (show rem.nbr p b = _ by rw [hnbr]; exact e2),
          received_some hq, add_zero]
        rfl
      · have e1 : localNbr rk g.nbr p b = none := by
          unfold localNbr; rw [hq]; simp [hrk]
        have e2 : remoteNbr rk g.nbr p b = some q := remoteNbr_some.mpr ⟨hq, hrk⟩
        rw [received_none (s := g.restrict (localNbr rk g.nbr)) e1, received_some (s := rem.asSync) (show rem.nbr p b = _ by rw [hnbr]; exact e2),
          received_some hq, zero_add]
        show (if ∀ a, -(rem.ng : Int) ≤ v a - off b a * rem.n a ∧ v a - off b a * rem.n a < rem.n a + rem.ng
          then m1 (q, index rem.n rem.ng fun a => v a - off b a * rem.n a) else 0) = _
        rw [hnn, hng]
        by_cases hcond : ∀ a, -(g.ng : Int) ≤ v a - off b a * g.n a ∧ v a - off b a * g.n a < g.n a + g.ng
        · rw [if_pos hcond, if_pos hcond]
          have hside : ∀ a, side (g.n a) (v a - off b a * g.n a) = off (rem.opp b) a := fun a => by
            rw [hs.off_opp]; exact side_shift (hown a) (hs.off_unit b a)
          refine l3 q (fun a => v a - off b a * g.n a) (hn.lt p b q hp hq) hcond ?_ ?_
          · intro ho
            obtain ⟨a, ha⟩ := hs.off_ne (rem.opp b)
            exact ha ((hside a).symm.trans (Own.side ho a))
          · intro b' q' hb' hq'
            have hbb : b' = rem.opp b := hs.off_inj _ _ (funext fun a => (hb' a).symm.trans (hside a))
            subst hbb
            have := localNbr_some.mp hq'
            rw [hn.sym p b q hp hq] at this
            obtain ⟨e, hrk'⟩ := this
            injection e with e
            subst e
            exact hrk hrk'.symm
        · rw [if_neg hcond, if_neg hcond]
  · -- a guard cell
    by_cases hnb : ∃ b q, (∀ a, side (g.n a) (v a) = off b a) ∧ g.nbr p b = some q
    · obtain ⟨b, q, hsd, hq⟩ := hnb
      rw [g2 p b q v hp hq hv hsd]
      by_cases hrk : rk q = rk p
      · have hz : m1 (p, index g.n g.ng v) = 0 :=
          l2 p b q v hp (localNbr_some.mpr ⟨hq, hrk⟩) hv hsd
        rw [r3 p v hv hown ?_, hz]
        intro b' q' hb' hq'
        have hbb : b' = b := hs.off_inj _ _ (funext fun a => (hb' a).symm.trans (hsd a))
        subst hbb
        rw [hnbr] at hq'
        have := remoteNbr_some.mp hq'
        rw [hq] at this
        obtain ⟨e, h2⟩ := this
        injection e with e
        exact h2 (e ▸ hrk)
      · exact r2 p b q v hp (by rw [hnbr]; exact remoteNbr_some.mpr ⟨hq, hrk⟩) hv hsd
    · have hnone : ∀ b q, (∀ a, side (g.n a) (v a) = off b a) → g.nbr p b ≠ some q :=
        fun b q h1 h2 => hnb ⟨b, q, h1, h2⟩
      rw [g3 p v hp hv hown hnone, r3 p v hv hown ?_]
      · exact l3 p v hp hv hown fun b q h1 h2 => hnone b q h1 (localNbr_some.mp h2).1
      · intro b q h1 h2
        rw [hnbr] at h2
        exact hnone b q h1 (remoteNbr_some.mp h2).1

/-! ### guard cells -/

/-- the per-axis block of the guard exchange between ranks, raw array positions -/
def mpiGuardRng (n ng : Nat) (o : Int) : Rng :=
  if o = -1 then ⟨((n + 2 * ng : Nat) : Int) - ng, 0, ng⟩
  else if o = 1 then ⟨((n + 2 * ng : Nat) : Int) - 2 * ng, ((n + 2 * ng : Nat) : Int) - 3 * ng, ng⟩
  else ⟨0, 0, n + 2 * ng - 2 * ng⟩

theorem mpiGuardTab2_eq (nx ny ng : Nat) (b : B2) (a : Fin 2) :
    mpiGuardTab2 (nx + 2 * ng) (ny + 2 * ng) ng b a = mpiGuardRng (![nx, ny] a) ng (off2 b a) := by
  match a with
  | 0 => cases b <;> rfl
  | 1 => cases b <;> rfl

theorem mpiGuardTab3_eq (nx ny nz ng : Nat) (b : B3) (a : Fin 3) :
    mpiGuardTab3 (nx + 2 * ng) (ny + 2 * ng) (nz + 2 * ng) ng b a =
      mpiGuardRng (![nx, ny, nz] a) ng (off3 b a) := by
  match a with
  | 0 => cases b <;> rfl
  | 1 => cases b <;> rfl
  | 2 => cases b <;> rfl

/-- the subarrays sent and received are the cells the local copy would use -/
theorem mpiGuardRng_eq {n ng : Nat} (h : ng ≤ n) {o : Int} (ho : o = -1 ∨ o = 0 ∨ o = 1) :
    (mpiGuardRng n ng o).w = (guardRng n ng o).w ∧ ∀ u : Nat, u < (guardRng n ng o).w →
      (mpiGuardRng n ng o).dst + u = wrapIx (n + 2 * ng) ((guardRng n ng o).dst + u) ∧
      (mpiGuardRng n ng (-o)).src + u = wrapIx (n + 2 * ng) ((guardRng n ng o).src + u) := by
  unfold wrapIx
  rcases ho with rfl | rfl | rfl
  · have e1 : guardRng n ng (-1) = ⟨-(ng : Int), (n : Int) - ng, ng⟩ := rfl
    have e2 : mpiGuardRng n ng (-1) = ⟨((n + 2 * ng : Nat) : Int) - ng, 0, ng⟩ := rfl
    have e3 : mpiGuardRng n ng (- -1) =
      ⟨((n + 2 * ng : Nat) : Int) - 2 * ng, ((n + 2 * ng : Nat) : Int) - 3 * ng, ng⟩ := rfl
    rw [e1, e2, e3]
    dsimp only
    refine ⟨rfl, fun u hu => ⟨?_, ?_⟩⟩
    · rw [if_neg (by omega)]; omega
    · rw [if_pos (by omega)]; omega
  · have e1 : guardRng n ng 0 = ⟨0, 0, n⟩ := rfl
    have e2 : mpiGuardRng n ng 0 = ⟨0, 0, n + 2 * ng - 2 * ng⟩ := rfl
    rw [e1, neg_zero, e2]
    dsimp only
    refine ⟨by omega, fun u hu => ⟨?_, ?_⟩⟩
    · rw [if_pos (by omega)]
    · rw [if_pos (by omega)]
  · have e1 : guardRng n ng 1 = ⟨n, 0, ng⟩ := rfl
    have e2 : mpiGuardRng n ng 1 =
      ⟨((n + 2 * ng : Nat) : Int) - 2 * ng, ((n + 2 * ng : Nat) : Int) - 3 * ng, ng⟩ := rfl
    have e3 : mpiGuardRng n ng (-1) = ⟨((n + 2 * ng : Nat) : Int) - ng, 0, ng⟩ := rfl
    rw [e1, e2, e3]
    dsimp only
    refine ⟨rfl, fun u hu => ⟨?_, ?_⟩⟩
    · rw [if_pos (by omega)]; omega
    · rw [if_pos (by omega)]

theorem mem_mpi_guard_pairs {g : Sync k D} {rem : Mpi k D} {off : D → Fin k → Int}
    (hs : Shape g off rem.opp) (ht : ∀ b a, g.tab b a = guardRng (g.n a) g.ng (off b a))
    (hrt : ∀ b a, rem.tab b a = mpiGuardRng (g.n a) g.ng (off b a)) (hc : ∀ b, b ∈ rem.order)
    (hcells : rem.cells = g.cells) {p : Nat} {x : Loc k × Loc k} :
    x ∈ rem.guardPairs p ↔ ∃ b q v, rem.nbr p b = some q ∧ InRange g.n g.ng v ∧
      (∀ a, side (g.n a) (v a) = off b a) ∧ x.1 = (p, index g.n g.ng v) ∧
      x.2 = (q, index g.n g.ng fun a => v a - off b a * g.n a) := by
  have h1 : x ∈ rem.guardPairs p ↔ ∃ b q, rem.nbr p b = some q ∧ ∃ u : Fin k → Nat,
      (∀ a, u a < (g.tab b a).w) ∧ x.1 = (p, index g.n g.ng fun a => (g.tab b a).dst + u a) ∧
        x.2 = (q, index g.n g.ng fun a => (g.tab b a).src + u a) := by
    have hw : ∀ b, (fun a => (rem.tab b a).w) = fun a => (g.tab b a).w := by
      intro b; funext a
      rw [hrt, ht, (mpiGuardRng_eq (hs.thick a) (hs.off_unit b a)).1]
    have hpos : ∀ b (u : Fin k → Nat), (∀ a, u a < (g.tab b a).w) →
        (fun a => (rem.tab b a).dst + (u a : Int)) = index g.n g.ng (fun a => (g.tab b a).dst + u a) ∧
        (fun a => (rem.tab (rem.opp b) a).src + (u a : Int)) =
          index g.n g.ng (fun a => (g.tab b a).src + u a) := by
      intro b u hu
      constructor
      · funext a
        have := ((mpiGuardRng_eq (hs.thick a) (hs.off_unit b a)).2 (u a) (by rw [← ht]; exact hu a)).1
        unfold index
        dsimp only
        rw [hrt, ht, this]
      · funext a
        have := ((mpiGuardRng_eq (hs.thick a) (hs.off_unit b a)).2 (u a) (by rw [← ht]; exact hu a)).2
        unfold index
        dsimp only
        rw [hrt, ht, hs.off_opp, this]
    unfold Mpi.guardPairs
    rw [List.mem_flatMap]
    constructor
    · rintro ⟨b, _, h⟩
      cases hq : rem.nbr p b with
      | none => rw [hq] at h; simp at h
      | some q =>
        rw [hq] at h
        obtain ⟨u, hu, rfl⟩ := List.mem_map.mp h
        rw [hw, hcells] at hu
        have hu' := (hs.mem_cells _ _).mp hu
        refine ⟨b, q, hq, u, hu', ?_, ?_⟩
        · exact congrArg (Prod.mk p) (hpos b u hu').1
        · exact congrArg (Prod.mk q) (hpos b u hu').2
    · rintro ⟨b, q, hq, u, hu, h1, h2⟩
      refine ⟨b, hc b, ?_⟩
      rw [hq]
      refine List.mem_map.mpr ⟨u, ?_, ?_⟩
      · rw [hw, hcells]; exact (hs.mem_cells _ _).mpr hu
      · refine Prod.ext ?_ ?_
        · rw [h1]; exact congrArg (Prod.mk p) (hpos b u hu).1
        · rw [h2]; exact congrArg (Prod.mk q) (hpos b u hu).2
  rw [h1]
  -- same as for one process
  have h2 := @mem_guard_pairs k D (g.restrict rem.nbr) off rem.opp (hs.restrict _) ht p x
  rw [mem_pairs (hs.restrict _)] at h2
  exact h2

theorem guard_ranks {g : Sync k D} {rem : Mpi k D} {rk : Nat → Nat} {off : D → Fin k → Int}
    (hs : Shape g off rem.opp) (ht : ∀ b a, g.tab b a = guardRng (g.n a) g.ng (off b a))
    (hrt : ∀ b a, rem.tab b a = mpiGuardRng (g.n a) g.ng (off b a)) (hc : ∀ b, b ∈ rem.order)
    (hcells : rem.cells = g.cells) (hN : rem.npatches = g.npatches)
    (hnbr : rem.nbr = remoteNbr rk g.nbr) {m m' m'' : Loc k → ℚ}
    (hx : GuardExchange (g.restrict (localNbr rk g.nbr)) rem m m') (hg : g.GuardRun m m'') :
    m' = m'' := by
  obtain ⟨copies, hperm, rfl⟩ := hx
  -- the copies of all ranks are the copies of one process
  have hmem : ∀ x, x ∈ copies ↔ ∃ p b q v, p < g.npatches ∧ g.nbr p b = some q ∧ InRange g.n g.ng v ∧
      (∀ a, side (g.n a) (v a) = off b a) ∧ x.1 = (p, index g.n g.ng v) ∧
      x.2 = (q, index g.n g.ng fun a => v a - off b a * g.n a) := by
    intro x
    rw [hperm.mem_iff, List.mem_append, List.mem_flatMap, List.mem_flatMap]
    simp only [List.mem_range]
    constructor
    · rintro (⟨p, hp, h⟩ | ⟨p, hp, h⟩)
      · obtain ⟨b, q, v, hq, h⟩ := (mem_guard_pairs (s := g.restrict (localNbr rk g.nbr)) (hs.restrict _) ht).mp h
        exact ⟨p, b, q, v, hp, (localNbr_some.mp hq).1, h⟩
      · obtain ⟨b, q, v, hq, h⟩ := (mem_mpi_guard_pairs hs ht hrt hc hcells).mp h
        rw [hnbr] at hq
        exact ⟨p, b, q, v, by rw [← hN]; exact hp, (remoteNbr_some.mp hq).1, h⟩
    · rintro ⟨p, b, q, v, hp, hq, h⟩
      by_cases hrk : rk q = rk p
      · exact Or.inl ⟨p, hp, (mem_guard_pairs (s := g.restrict (localNbr rk g.nbr)) (hs.restrict _) ht).mpr
          ⟨b, q, v, localNbr_some.mpr ⟨hq, hrk⟩, h⟩⟩
      · refine Or.inr ⟨p, by rw [hN]; exact hp, (mem_mpi_guard_pairs hs ht hrt hc hcells).mpr
          ⟨b, q, v, ?_, h⟩⟩
        rw [hnbr]; exact remoteNbr_some.mpr ⟨hq, hrk⟩
  have hsrcdst : ∀ x ∈ copies, ∀ y ∈ copies, x.2 ≠ y.1 := by
    intro x hx y hy e
    obtain ⟨p, b, q, v, hp, hq, hv, hsd, h1, h2⟩ := (hmem x).mp hx
    obtain ⟨p', b', q', v', hp', hq', hv', hsd', h1', h2'⟩ := (hmem y).mp hy
    rw [h2, h1'] at e
    have hown : Own g.n fun a => v a - off b a * g.n a := by
      intro a
      have := src_own (hs.thick a) (hv a)
      rwa [hsd a] at this
    have he := index_inj (hown.inRange g.ng) hv' (Prod.mk.inj e).2
    obtain ⟨a, ha⟩ := hs.off_ne b'
    have := hsd' a
    rw [← he, hown.side a] at this
    exact ha this.symm
  have hfun : ∀ x ∈ copies, ∀ y ∈ copies, x.1 = y.1 → x.2 = y.2 := by
    intro x hx y hy e
    obtain ⟨p, b, q, v, hp, hq, hv, hsd, h1, h2⟩ := (hmem x).mp hx
    obtain ⟨p', b', q', v', hp', hq', hv', hsd', h1', h2'⟩ := (hmem y).mp hy
    rw [h1, h1'] at e
    obtain ⟨rfl, e2⟩ := Prod.mk.inj e
    have he := index_inj hv hv' e2
    subst he
    have hb : b = b' := hs.off_inj _ _ (funext fun a => (hsd a).symm.trans (hsd' a))
    subst hb
    rw [hq] at hq'
    injection hq' with hq'
    rw [h2, h2', hq']
  obtain ⟨c1, c2⟩ := run_copies copies m hsrcdst hfun
  obtain ⟨g1, g2⟩ := guard_run hs ht hg
  funext l
  by_cases h : ∃ x ∈ copies, x.1 = l
  · obtain ⟨x, hx, rfl⟩ := h
    rw [c1 x hx]
    obtain ⟨p, b, q, v, hp, hq, hv, hsd, h1, h2⟩ := (hmem x).mp hx
    rw [h1, h2, g1 p b q v hp hq hv hsd]
  · rw [c2 l (fun x hx e => h ⟨x, hx, e⟩), g2 l]
    intro b q v hp hq hv hsd e
    exact h ⟨(l, (q, index g.n g.ng fun a => v a - off b a * g.n a)),
      (hmem _).mpr ⟨l.1, b, q, v, hp, hq, hv, hsd, Prod.ext rfl e, rfl⟩, rfl⟩

end Verif.SyncFields
