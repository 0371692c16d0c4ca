import Verif.Model.Resume
import Verif.Props.Lists
import Verif.Props.RunLoop
import Verif.Props.MovingWindow
import Verif.Props.WholeRun
/-!
# C88 — a restarted simulation goes on like one that was not interrupted
-/
namespace Verif.Resume

/-! ## the lists of the modules -/
section Lists
open Verif.Lists

theorem load_cont {w : Lists.World} (i p : Nat) : ((load w).cont i p).ref = ⟨(w.cont i p).ref.obj + 1, 0⟩ := rfl

theorem load_pusher {w : Lists.World} (hw : Good w) (i p : Nat) : (load w).pusher i p = w.pusher i p := by
  show (if (w.cont i p).ext then _ else w.pusher i p) = _
  rw [hw.calm i p]
  rfl

theorem obj_ne (r : Ref) : r ≠ ⟨r.obj + 1, 0⟩ := by
  intro h
  have := congrArg Ref.obj h
  simp at this

theorem load_sel {w : Lists.World} (hw : Good w) (i p : Nat) : ((unpickle w).cont i p).ext = false := hw.calm i p

/-- after a restart the pusher of every species, in every patch, and the QED modules hold other arrays than the containers -/
theorem restart_stale_fails (w : Lists.World) (hw : Good w) (i p : Nat) :
    (load w).pusher i p ≠ ((load w).cont i p).ref ∧
    (∀ r, w.rad i = some r → ∃ r', (load w).rad i = some r' ∧ r'.own p ≠ ((load w).cont i p).ref) ∧
    (∀ r, w.pair i = some r → ∃ r', (load w).pair i = some r' ∧ r'.own p ≠ ((load w).cont i p).ref) := by
  refine ⟨?_, ?_, ?_⟩
  · rw [load_pusher hw, load_cont, hw.fresh (.pusher i) p]
    exact obj_ne _
  · intro r hr
    refine ⟨r.refresh (unpickle w) i fun p => ((unpickle w).cont i p).ext || ((unpickle w).cont r.pho p).ext, ?_, ?_⟩
    · show (w.rad i).map _ = _
      rw [hr]
      rfl
    · rw [load_cont]
      show (if (((unpickle w).cont i p).ext || ((unpickle w).cont r.pho p).ext) = true then _ else r.own p) ≠ _
      rw [load_sel hw, load_sel hw, (hw.fresh (.rad i) r hr p).1]
      exact obj_ne _
  · intro r hr
    refine ⟨r.refresh (unpickle w) i fun p => ((unpickle w).cont i p).ext || ((unpickle w).cont r.ele p).ext || ((unpickle w).cont r.pos p).ext, ?_, ?_⟩
    · show (w.pair i).map _ = _
      rw [hr]
      rfl
    · rw [load_cont]
      show (if (((unpickle w).cont i p).ext || ((unpickle w).cont r.ele p).ext || ((unpickle w).cont r.pos p).ext) = true then _ else r.own p) ≠ _
      rw [load_sel hw, load_sel hw, load_sel hw, (hw.fresh (.pair i) r hr p).1]
      exact obj_ne _

/-- and the pusher stays so: whatever follows, as long as that container is not changed and patches do not migrate, it works on the arrays of the dump -/
theorem restart_stays_stale_fails (w : Lists.World) (hw : Good w) (i p : Nat) (evs : List Lists.Ev)
    (hc : ∀ pre post, evs = pre ++ post → (Lists.run (load w) pre).cont i p = (load w).cont i p)
    (hr : ∀ e ∈ evs, ∀ c, e ≠ .rebalance c) : ¬ Fresh (Lists.run (load w) evs) (.pusher i) :=
  window_stays_stale_fails i p evs (load w) (restart_stale_fails w hw i p).1 rfl hc hr

/-- Specification: nothing of what was stale is used: every species is pushed by the unified pusher, without QED modules -/
structure Plain (S : StepIn) : Prop where
  unified : ∀ i, S.unified i = true
  noRad : ∀ i, S.hasRad i = false
  noPair : ∀ i, S.hasPair i = false

/-- the same containers, sorters and collision lists -/
structure Same (w v : Lists.World) : Prop where
  cont : w.cont = v.cont
  sorter : w.sorter = v.sorter
  bucket : w.bucket = v.bucket
  coll : w.coll = v.coll

/-- an event that neither uses nor depends on the lists of pushers and QED modules -/
def PlainEv : Lists.Ev → Prop
  | .call (.pusher _) | .call (.rad _) | .call (.pair _) | .radCreate .. | .pairCreate .. => False
  | _ => True

theorem Same.exec {w v : Lists.World} (h : Same w v) {e : Lists.Ev} (he : PlainEv e) : Same (exec w e) (exec v e) := by
  obtain ⟨c, p, s, b, l, r, q⟩ := w
  obtain ⟨c', p', s', b', l', r', q'⟩ := v
  obtain ⟨h1, h2, h3, h4⟩ := h
  dsimp only at h1 h2 h3 h4
  subst h1 h2 h3 h4
  cases e with
  | call m =>
    cases m with
    | sorter i => exact ⟨rfl, rfl, rfl, rfl⟩
    | coll => exact ⟨rfl, rfl, rfl, rfl⟩
    | direct i => exact ⟨rfl, rfl, rfl, rfl⟩
    | pusher i => exact he.elim
    | rad i => exact he.elim
    | pair i => exact he.elim
  | extend i p n =>
    simp only [Lists.exec, extend]
    split <;> exact ⟨rfl, rfl, rfl, rfl⟩
  | prune i p n =>
    simp only [Lists.exec, prune]
    split <;> exact ⟨rfl, rfl, rfl, rfl⟩
  | init i p n => exact ⟨rfl, rfl, rfl, rfl⟩
  | updateLists => exact ⟨rfl, rfl, rfl, rfl⟩
  | radUpdate i => exact ⟨rfl, rfl, rfl, rfl⟩
  | pairUpdate i => exact ⟨rfl, rfl, rfl, rfl⟩
  | radCreate i ns => exact he.elim
  | pairCreate i a b => exact he.elim
  | rebalance c => exact ⟨rfl, rfl, rfl, rfl⟩
  | sorterGenerate => exact ⟨rfl, rfl, rfl, rfl⟩

theorem Same.run {evs : List Lists.Ev} : ∀ {w v : Lists.World}, Same w v → (∀ e ∈ evs, PlainEv e) → Same (Lists.run w evs) (Lists.run v evs) := by
  induction evs with
  | nil => exact fun h _ => h
  | cons e evs ih => exact fun h he => ih (h.exec (he e (by simp))) fun e' h' => he e' (by simp [h'])

theorem Same.fresh {w v : Lists.World} (h : Same w v) {m : Mod} (hm : PlainEv (.call m)) (hf : Fresh v m) : Fresh w m := by
  cases m with
  | pusher i => exact hm.elim
  | rad i => exact hm.elim
  | pair i => exact hm.elim
  | direct i => trivial
  | sorter i => exact sorter_always_fresh w i
  | coll =>
    intro c hc
    rw [h.coll] at hc
    rw [h.cont, h.bucket]
    exact hf c hc

theorem Same.calls {w v : Lists.World} (h : Same w v) {evs : List Lists.Ev} (he : ∀ e ∈ evs, PlainEv e) (hf : CallsFresh v evs) : CallsFresh w evs := by
  intro pre m post e
  refine (h.run ?_).fresh (he _ ?_) (hf pre m post e)
  · intro e' h'
    exact he e' (by rw [e]; simp [h'])
  · rw [e]; simp

theorem plain_grow (g : Grow) : PlainEv g.ev := by cases g <;> trivial

theorem plain_stage (s : Stage) : ∀ e ∈ s.evs, PlainEv e := by
  intro e he
  obtain ⟨gs, _, h⟩ := List.mem_flatMap.mp he
  cases gs with
  | nil => simp at h
  | cons g gs =>
    rcases List.mem_append.mp h with h | h
    · obtain ⟨g', _, rfl⟩ := List.mem_map.mp h
      exact plain_grow g'
    · rw [List.mem_singleton.mp h]
      trivial

theorem plain_step {S : StepIn} (hS : Plain S) : ∀ e ∈ stepEvs S, PlainEv e := by
  intro e he
  unfold stepEvs at he
  simp only [List.mem_append] at he
  rcases he with (((((((he | he) | he) | he) | he) | he) | he) | he) | he
  · exact plain_stage _ e he
  · obtain ⟨i, _, rfl⟩ := List.mem_map.mp he
    trivial
  · cases hc : S.hasColl with
    | false => rw [hc] at he; simp at he
    | true =>
      rw [hc] at he
      rw [List.mem_singleton.mp he]
      trivial
  · obtain ⟨i, _, h⟩ := List.mem_flatMap.mp he
    unfold speciesEvs at h
    rw [hS.unified i, if_pos rfl] at h
    rcases List.mem_append.mp h with h | h
    · rw [List.mem_singleton.mp h]
      trivial
    · exact plain_stage _ e h
  · obtain ⟨i, _, h⟩ := List.mem_flatMap.mp he
    unfold createEvs at h
    rw [hS.noRad i, hS.noPair i] at h
    simp at h
  · obtain ⟨i, _, rfl⟩ := List.mem_map.mp he
    trivial
  · cases hr : S.rebalance with
    | none => rw [hr] at he; simp [rebalanceEvs] at he
    | some c =>
      rw [hr] at he
      rw [List.mem_singleton.mp he]
      trivial
  · rw [List.mem_singleton.mp he]
    trivial
  · exact plain_stage _ e he

/-- C88, for simulations whose species are all pushed by the unified pusher and have no QED modules: after a restart every module that is called works on the current arrays
of every patch, in any number of steps with any callbacks, exchanges and rebalancing. Missing for the full property: the split path and the QED modules, which work on the arrays
of the dump (`restart_stale_fails`). -/
theorem restart_fresh_partial (w : Lists.World) (hw : Good w) (steps : List StepIn) (hS : ∀ S ∈ steps, Plain S) :
    CallsFresh (load w) (steps.flatMap stepEvs) := by
  have h : Same (load w) { load w with pusher := fun i p => ((load w).cont i p).ref, rad := fun _ => none, pair := fun _ => none } := ⟨rfl, rfl, rfl, rfl⟩
  refine h.calls ?_ (lists_fresh steps _ ?_).1
  · intro e he
    obtain ⟨S, hS', h⟩ := List.mem_flatMap.mp he
    exact plain_step (hS S hS') e h
  · refine ⟨fun _ _ => rfl, fun m => ?_⟩
    cases m with
    | pusher i => exact fun p => rfl
    | sorter i => exact sorter_always_fresh _ i
    | rad i => intro r hr; cases hr
    | pair i => intro r hr; cases hr
    | direct i => trivial
    | coll =>
      intro c hc
      change (w.coll.map _).map _ = some c at hc
      rw [Option.map_map] at hc
      obtain ⟨c0, _, rfl⟩ := Option.map_eq_some_iff.mp hc
      refine ⟨fun i p => ?_, fun i => rfl⟩
      show (if (w.cont i p).ext then _ else _) = _
      rw [hw.calm i p]
      rfl

/-- the first rebalancing after the restart generates all lists again; so would `update_patches` in place of `update_lists` in the loader -/
theorem restart_repaired (w : Lists.World) :
    (∀ c, Good (exec (load w) (.rebalance c))) ∧ Good (updatePatches (unpickle w)) :=
  ⟨fun _ => good_updatePatches _, good_updatePatches _⟩

/-! ## the particles -/

/-- the particles are those of the dump -/
theorem restart_seen {α : Type} (w : Lists.World) (m : Mem α) (i p : Nat) : seen (load w) (unpickleMem w m) i p = seen w m i p :=
  if_pos rfl

/-- Any number of pushes of a species on the split path after a restart leave the particles where they were at the dump; the same pushes without the restart move them. -/
theorem restarted_split_stands_still_fails {α : Type} (w : Lists.World) (hw : Good w) (m : Mem α) (i p : Nat) (fs : List (Nat → α → α)) :
    seen (load w) (fs.foldl (fun m f => push (load w) i f m) (unpickleMem w m)) i p = seen w m i p ∧
    seen w (fs.foldl (fun m f => push w i f m) m) i p = fs.foldl (fun a f => f p a) (seen w m i p) := by
  constructor
  · rw [← restart_seen w m i p]
    generalize unpickleMem w m = m'
    induction fs generalizing m' with
    | nil => rfl
    | cons f fs ih =>
      rw [List.foldl_cons, ih]
      exact if_neg fun h => (restart_stale_fails w hw i p).1 h.2.symm
  · induction fs generalizing m with
    | nil => rfl
    | cons f fs ih =>
      rw [List.foldl_cons, ih, List.foldl_cons]
      congr 1
      exact if_pos ⟨rfl, (hw.fresh (.pusher i) p).symm⟩

/-- C88, one species on the unified path: pushes after a restart change the particles as they would without it. Missing: the split path. -/
theorem restarted_unified_partial {α : Type} (w : Lists.World) (m : Mem α) (i p : Nat) (fs : List (Nat → α → α)) :
    seen (load w) (fs.foldl (fun m f => direct (load w) i f m) (unpickleMem w m)) i p =
      seen w (fs.foldl (fun m f => direct w i f m) m) i p := by
  have key : ∀ (v : Lists.World) (m : Mem α), seen v (fs.foldl (fun m f => direct v i f m) m) i p = fs.foldl (fun a f => f p a) (seen v m i p) := by
    intro v
    induction fs with
    | nil => exact fun _ => rfl
    | cons f fs ih =>
      intro m
      rw [List.foldl_cons, ih, List.foldl_cons]
      congr 1
      exact if_pos ⟨rfl, rfl⟩
  rw [key, key, restart_seen]

/-- the sample world of C55 with steps of which every species is on the unified path -/
example : Good sampleWorld ∧ Plain { sampleStep with unified := fun _ => true, hasRad := fun _ => false, hasPair := fun _ => false } :=
  ⟨good_updatePatches _, ⟨fun _ => rfl, fun _ => rfl, fun _ => rfl⟩⟩

/-- positions moved by 3 twice: 1 → 7 without, 1 → 1 with a restart -/
example : seen (load sampleWorld) ([fun _ a => a + 3, fun _ a => a + 3].foldl (fun m f => push (load sampleWorld) 0 f m) (unpickleMem sampleWorld fun _ _ _ => (1 : Nat))) 0 0 = 1 ∧
    seen sampleWorld ([fun _ a => a + 3, fun _ a => a + 3].foldl (fun m f => push sampleWorld 0 f m) fun _ _ _ => (1 : Nat)) 0 0 = 7 := by
  decide +kernel
end Lists

/-! ## the files of the ranks -/
section Files
open Verif.WholeRun Verif.Maxwell Verif.Pusher
variable {k : Nat}

theorem mem_shards {N R' : Nat} {rk : Nat → Nat} {x : St k} {t : Nat} {d : PatchData k} :
    (t, d) ∈ (List.range R').flatMap (shard N rk x) ↔ t < N ∧ rk t < R' ∧ d = patch x t := by
  simp only [shard, List.mem_flatMap, List.mem_range, List.mem_map, List.mem_filter, beq_iff_eq, Prod.mk.injEq]
  constructor
  · rintro ⟨r, hr, t', ⟨ht, he⟩, rfl, rfl⟩
    exact ⟨ht, he ▸ hr, rfl⟩
  · rintro ⟨ht, hr, rfl⟩
    exact ⟨rk t, hr, t, ⟨ht, rfl⟩, rfl, rfl⟩

/-- read by as many ranks as wrote them, the files give every patch exactly once, with the contents it had -/
theorem restart_complete {N R : Nat} {rk : Nat → Nat} {x : St k} (hr : ∀ t, t < N → rk t < R) :
    ∃ fs, readShards N R rk x R = some fs ∧ (fs.map Prod.fst).Perm (List.range N) ∧ ∀ t d, (t, d) ∈ fs → d = patch x t := by
  refine ⟨_, if_pos (le_refl _), ?_, fun t d h => (mem_shards.mp h).2.2⟩
  have e : ((List.range R).flatMap (shard N rk x)).map Prod.fst = (List.range R).flatMap fun r => (List.range N).filter fun t => rk t == r := by
    rw [List.map_flatMap]
    congr 1
    funext r
    simp [shard, List.map_map, Function.comp_def]
  rw [e, List.perm_ext_iff_of_nodup ?_ List.nodup_range]
  · intro t
    simp only [List.mem_flatMap, List.mem_range, List.mem_filter, beq_iff_eq]
    exact ⟨fun ⟨_, _, h, _⟩ => h, fun h => ⟨rk t, hr t h, h, rfl⟩⟩
  · rw [List.nodup_flatMap]
    refine ⟨fun r _ => List.nodup_range.filter _, ?_⟩
    refine List.nodup_range.imp fun {a b} hab => ?_
    intro t h1 h2
    simp only [List.mem_filter, beq_iff_eq] at h1 h2
    exact hab (h1.2.symm.trans h2.2)

/-- read by fewer ranks, the files are read without an error and the patches of the other ranks are lost -/
theorem restart_fewer_ranks_fails {N R R' : Nat} {rk : Nat → Nat} {x : St k} (hR : R' ≤ R) {t : Nat} (ht : R' ≤ rk t) :
    ∃ fs, readShards N R rk x R' = some fs ∧ ∀ d, (t, d) ∉ fs :=
  ⟨_, if_pos hR, fun _ h => by have := (mem_shards.mp h).2.1; omega⟩

/-- more ranks than files: the loader fails -/
theorem restart_more_ranks {N R R' : Nat} {rk : Nat → Nat} {x : St k} (hR : R < R') : readShards N R rk x R' = none :=
  if_neg (by omega)

/-- Specification: `y` holds what was read: every patch is one of the files -/
def Holds (N : Nat) (fs : List (Nat × PatchData k)) (y : St k) : Prop := ∀ t, t < N → (t, patch y t) ∈ fs

theorem clouds {N : Nat} (hN : 0 < N) : ∀ {a b : List (Species × (Nat → List (Slot k)))},
    (∀ t, t < N → (a.map fun s => (s.1.toKind, s.2 t)) = b.map fun s => (s.1.toKind, s.2 t)) → cloudOf N a = cloudOf N b
  | [], [], _ => rfl
  | [], s :: b, h => by have := h 0 hN; simp at this
  | s :: a, [], h => by have := h 0 hN; simp at this
  | s :: a, s' :: b, h => by
    have h1 : cloudOf N a = cloudOf N b := clouds hN fun t ht => (List.cons.inj (h t ht)).2
    have h2 : s.1.toKind = s'.1.toKind := congrArg Prod.fst (List.cons.inj (h 0 hN)).1
    have h3 : particles N s.2 = particles N s'.2 := by
      unfold particles
      refine List.flatMap_congr fun t ht => ?_
      rw [show s.2 t = s'.2 t from congrArg Prod.snd (List.cons.inj (h t (List.mem_range.mp ht))).1]
    show (s.1.toKind, particles N s.2) :: cloudOf N a = (s'.1.toKind, particles N s'.2) :: cloudOf N b
    rw [h1, h2, h3]

theorem Starts.restored {C : Conf k} {N : Nat} {co : Nat → Fin k → Nat} {β : ℚ} {x y : St k} {W : WholeRun.World k} (h : Starts C N co β x W)
    (hN : 0 < N) (he : ∀ t, t < N → patch y t = patch x t) : Starts C N co β y W := by
  have hf : ∀ t, t < N → y.fld t = x.fld t := fun t ht => congrArg PatchData.fld (he t ht)
  have hp : ∀ t, t < N → (y.parts.map fun s => (s.1.toKind, s.2 t)) = x.parts.map fun s => (s.1.toKind, s.2 t) :=
    fun t ht => congrArg PatchData.parts (he t ht)
  refine ⟨⟨?_, ?_, ?_, ?_⟩, ?_, h.period⟩
  · intro t ht; rw [hf t ht]; exact h.agrees.e t ht
  · intro t ht; rw [hf t ht]; exact h.agrees.b t ht
  · intro t ht; rw [hf t ht]; exact h.agrees.j t ht
  · rw [clouds hN hp]; exact h.agrees.species
  · intro a ha t ht s hs
    have h1 : (a.1.toKind, a.2 t) ∈ y.parts.map fun s => (s.1.toKind, s.2 t) := List.mem_map.mpr ⟨a, ha, rfl⟩
    rw [hp t ht] at h1
    obtain ⟨b, hb, e⟩ := List.mem_map.mp h1
    have e2 : b.2 t = a.2 t := congrArg Prod.snd e
    exact h.inside b hb t ht s (e2 ▸ hs)

theorem run_add (Φ : Phys k) (W : WholeRun.World k) (i j : Nat) : WholeRun.World.run Φ (WholeRun.World.run Φ W i) j = WholeRun.World.run Φ W (i + j) := by
  induction j with
  | zero => rfl
  | succ j ih =>
    show (WholeRun.World.run Φ (WholeRun.World.run Φ W i) j).step Φ = (WholeRun.World.run Φ W (i + j)).step Φ
    rw [ih]

theorem Holds.patch_eq {N R : Nat} {rk : Nat → Nat} {x y : St k} {fs : List (Nat × PatchData k)} (hf : readShards N R rk x R = some fs)
    (h : Holds N fs y) : ∀ t, t < N → patch y t = patch x t := by
  intro t ht
  have e : (List.range R).flatMap (shard N rk x) = fs := Option.some.inj ((if_pos (le_refl R)).symm.trans hf)
  have := h t ht
  rw [← e] at this
  exact (mem_shards.mp this).2.2

/-- C88 in 2D: a run on any patches and any rank layout that changes from step to step is dumped after `i` steps and read back by as many ranks; the fields and particles of the
resumed run after `j` steps are those of the undivided simulation after `i + j` steps, whatever rank layouts follow. For species on the unified path (`_hu`): only for these is
a step of the resumed program the step of the model (`restart_fresh_partial`). Missing for the full property: species on the split path, which stand still
(`restarted_split_stands_still_fails`), QED modules, the moving window (`restarted_window_fails`) and reading with another number of ranks. -/
theorem restarted_run2_partial {C : Conf 2} {β : ℚ} (hC : Admissible C β) {W : WholeRun.World 2} {rk rk' : Nat → Nat → Nat} {x y : Nat → St 2}
    (h0 : Starts C (sys2 C).npatches C.coord2 β (x 0) W) (hrun : Run (sys2 C) rk x) (i R : Nat) {fs : List (Nat × PatchData 2)}
    (hf : readShards (sys2 C).npatches R (rk i) (x i) R = some fs) (hy : Holds (sys2 C).npatches fs (y 0))
    (_hu : ∀ a ∈ (y 0).parts, a.1.unified = true) (hrun' : Run (sys2 C) rk' y) (j : Nat) :
    Agrees C (sys2 C).npatches C.coord2 (y j) (undividedRun2 C W (i + j)) ∧ Inside C (sys2 C).npatches C.coord2 β (y j) := by
  have h := follows2.mp (run_follows hC.facts2 hC.bounds2 (follows2.mpr h0) hrun i)
  have hN : 0 < (sys2 C).npatches := by
    show 0 < (Neighbors.createPatches2 (C.np 0) (C.np 1)).length
    simp [Neighbors.createPatches2, hC.patches 0, hC.patches 1]
  have h1 := run_is_undivided2 hC (Starts.restored h hN (Holds.patch_eq hf hy)) hrun' j
  have e : undividedRun2 C (WholeRun.World.run C.phys2 W i) j = undividedRun2 C W (i + j) := run_add _ W i j
  rw [← e]
  exact h1

/-- the same in 3D -/
theorem restarted_run3_partial {C : Conf 3} {β : ℚ} (hC : Admissible C β) {W : WholeRun.World 3} {rk rk' : Nat → Nat → Nat} {x y : Nat → St 3}
    (h0 : Starts C (sys3 C).npatches C.coord3 β (x 0) W) (hu0 : ∀ a ∈ (x 0).parts, a.1.unified = true) (hrun : Run (sys3 C) rk x) (i R : Nat)
    {fs : List (Nat × PatchData 3)} (hf : readShards (sys3 C).npatches R (rk i) (x i) R = some fs) (hy : Holds (sys3 C).npatches fs (y 0))
    (hu : ∀ a ∈ (y 0).parts, a.1.unified = true) (hrun' : Run (sys3 C) rk' y) (j : Nat) :
    Agrees C (sys3 C).npatches C.coord3 (y j) (undividedRun3 C W (i + j)) ∧ Inside C (sys3 C).npatches C.coord3 β (y j) := by
  have h := (follows3.mp (run_follows hC.facts3 hC.bounds3 (follows3.mpr ⟨h0, hu0⟩) hrun i)).1
  have hN : 0 < (sys3 C).npatches := by
    show 0 < (Neighbors.createPatches3 (C.np 0) (C.np 1) (C.np 2)).length
    simp [Neighbors.createPatches3, hC.patches 0, hC.patches 1, hC.patches 2]
  have h1 := run_is_undivided3_partial hC (Starts.restored h hN (Holds.patch_eq hf hy)) hu hrun' j
  have e : undividedRun3 C (WholeRun.World.run C.phys3 W i) j = undividedRun3 C W (i + j) := run_add _ W i j
  rw [← e]
  exact h1

/-- two patches on two ranks, dumped after three steps: the files give every patch and there is a resumed run -/
example : ∃ (x y : Nat → St 2) (fs : List (Nat × PatchData 2)), Admissible (exConf 2 ![2, 1] ![4, 3]) 1 ∧
    Starts (exConf 2 ![2, 1] ![4, 3]) (sys2 (exConf 2 ![2, 1] ![4, 3])).npatches (exConf 2 ![2, 1] ![4, 3]).coord2 1 (x 0) (exWorld 2) ∧
    Run (sys2 (exConf 2 ![2, 1] ![4, 3])) (fun i t => (i + t) % 2) x ∧
    readShards (sys2 (exConf 2 ![2, 1] ![4, 3])).npatches 2 (fun t => (3 + t) % 2) (x 3) 2 = some fs ∧
    Holds (sys2 (exConf 2 ![2, 1] ![4, 3])).npatches fs (y 0) ∧ (∀ a ∈ (y 0).parts, a.1.unified = true) ∧
    Run (sys2 (exConf 2 ![2, 1] ![4, 3])) (fun i t => (3 + i + t) % 2) y := by
  have a1 : Admissible (exConf 2 ![2, 1] ![4, 3]) 1 :=
    exConf_ok (fun a => match a with | 0 => by decide | 1 => by decide) (fun a => match a with | 0 => by decide | 1 => by decide)
  have s1 := exStarts (np := ![2, 1]) (n := ![4, 3]) (N := (sys2 (exConf 2 ![2, 1] ![4, 3])).npatches)
    (co := (exConf 2 ![2, 1] ![4, 3]).coord2) (fun a => match a with | 0 => by decide | 1 => by decide) (by decide)
    (by funext a; match a with | 0 => rfl | 1 => rfl) true
  obtain ⟨x, e1, r1⟩ := runs2 a1 s1 (fun i t => (i + t) % 2)
  have sx : Starts _ _ _ 1 (x 0) (exWorld 2) := e1 ▸ s1
  have h := follows2.mp (run_follows a1.facts2 a1.bounds2 (follows2.mpr sx) r1 3)
  let z : St 2 := ⟨(x 3).fld, (x 3).parts.map fun a => (⟨a.1.toKind, true⟩, a.2)⟩
  have hz : ∀ t, patch z t = patch (x 3) t := by
    intro t
    show PatchData.mk _ _ = PatchData.mk _ _
    congr 1
    show ((x 3).parts.map fun a => ((⟨a.1.toKind, true⟩ : Species), a.2)).map _ = _
    rw [List.map_map]
    rfl
  obtain ⟨y, e2, r2⟩ := runs2 a1 (Starts.restored h (by decide) fun t _ => hz t) (fun i t => (3 + i + t) % 2)
  have hr : ∀ t, t < (sys2 (exConf 2 ![2, 1] ![4, 3])).npatches → (fun t => (3 + t) % 2) t < 2 := fun t _ => Nat.mod_lt _ (by decide)
  refine ⟨x, y, _, a1, sx, r1, if_pos (le_refl _), ?_, ?_, r2⟩
  · intro t ht
    rw [e2, hz]
    exact mem_shards.mpr ⟨ht, hr t ht, rfl⟩
  · rw [e2]
    intro a ha
    obtain ⟨b, _, rfl⟩ := List.mem_map.mp ha
    rfl

end Files

/-! ## the callbacks -/
section Clock
open Verif.RunLoop

theorem loop_split {o : Nat → Oracle} (ho : Quiet o) (c : Config) (dt : ℚ) (a b s : Nat) (k : Clock) :
    (loop c dt o (a + b) s k).trace = (loop c dt o a s k).trace ++ (loop c dt o b (s + a) ⟨k.itime + a, k.time + a * dt⟩).trace ∧
    (loop c dt o (a + b) s k).clock = (loop c dt o b (s + a) ⟨k.itime + a, k.time + a * dt⟩).clock := by
  induction a generalizing s k with
  | zero =>
    have e : (⟨k.itime + 0, k.time + ((0 : Nat) : ℚ) * dt⟩ : Clock) = k := by
      cases k; simp
    rw [e, Nat.zero_add, Nat.add_zero]
    exact ⟨rfl, rfl⟩
  | succ a ih =>
    have h := ho s
    have e1 : ∀ n, loop c dt o (n + 1) s k = ⟨(stepOps c (o s)).map (fun op => Ev.mk s k op) ++ (loop c dt o n (s + 1) ⟨k.itime + 1, k.time + dt⟩).trace,
        (loop c dt o n (s + 1) ⟨k.itime + 1, k.time + dt⟩).clock, (loop c dt o n (s + 1) ⟨k.itime + 1, k.time + dt⟩).outcome⟩ := by
      intro n
      rw [loop]
      exact (if_neg (by rw [h.1]; exact Bool.false_ne_true)).trans (if_neg (by rw [h.2]; exact Bool.false_ne_true))
    have e2 : (⟨k.itime + 1 + a, k.time + dt + a * dt⟩ : Clock) = ⟨k.itime + (a + 1), k.time + ((a + 1 : Nat) : ℚ) * dt⟩ := by
      congr 1
      · omega
      · push_cast; ring
    obtain ⟨i1, i2⟩ := ih (s + 1) ⟨k.itime + 1, k.time + dt⟩
    rw [e2, show s + 1 + a = s + (a + 1) by omega] at i1 i2
    rw [show a + 1 + b = a + b + 1 by omega, e1 (a + b), e1 a]
    dsimp only
    exact ⟨by rw [i1, List.append_assoc], i2⟩

theorem loop_range {o : Nat → Oracle} (c : Config) (dt : ℚ) (n s : Nat) (k : Clock) :
    ∀ e ∈ (loop c dt o n s k).trace, s ≤ e.istep ∧ e.istep < s + n := by
  induction n generalizing s k with
  | zero => intro e he; simp [loop] at he
  | succ n ih =>
    intro e he
    have base : ∀ e ∈ (stepOps c (o s)).map (fun op => Ev.mk s k op), s ≤ e.istep ∧ e.istep < s + (n + 1) := by
      intro e he
      obtain ⟨op, _, rfl⟩ := List.mem_map.mp he
      exact ⟨le_refl _, by show s < _; omega⟩
    rw [loop] at he
    dsimp only at he
    split at he
    · exact base e he
    · split at he
      · exact base e he
      · rcases List.mem_append.mp he with he | he
        · exact base e he
        · have := ih (s + 1) _ e he
          omega

/-- C88, the schedule: a run of `n` steps from a clock in sync that is not interrupted, and the run that is dumped at the end of step `i` of it, loaded and told to do the remaining
steps: operations, steps and clock readings after step `i` are the same, and so are the callbacks that are called (but the stage `init` is run again). -/
theorem restarted_schedule (c : Config) (dt : ℚ) (cfgN : Option Int) (cfgT : Option ℚ) {o : Nat → Oracle} (ho : Quiet o) (k : Clock) (hk : InSync dt k)
    (n i : Nat) (h1 : k.itime ≤ i) (h2 : i < k.itime + n) (saved : Clock) (hs : saved.itime = i) :
    ∃ r r', run c dt cfgN cfgT o (some n) none k = some r ∧
      run c dt cfgN cfgT o (some ((k.itime + n - (i + 1) : Nat) : Int)) none (RunLoop.load dt saved) = some r' ∧
      r.trace.filter (fun e => decide (i < e.istep)) = r'.trace.tail ∧ r'.trace.head? = some ⟨i + 1, RunLoop.load dt saved, .stage .init none⟩ ∧
      r.clock = r'.clock ∧ ∀ cbs table, (fired cbs table dt r.trace).filter (fun f => decide (i < f.istep)) = fired cbs table dt r'.trace.tail := by
  obtain ⟨a, ha⟩ : ∃ a, i + 1 = k.itime + a := ⟨i + 1 - k.itime, by omega⟩
  obtain ⟨b, hb⟩ : ∃ b, n = a + b := ⟨n - a, by omega⟩
  have hl : RunLoop.load dt saved = ⟨k.itime + a, k.time + a * dt⟩ := by
    unfold RunLoop.load
    rw [hs, ha, hk]
    congr 1
    push_cast
    ring
  have hnb : k.itime + n - (i + 1) = b := by omega
  rw [hnb, hl, ha]
  have t1 : ((n : Int) + (k.itime : Int) - (k.itime : Int)).toNat = a + b := by omega
  have t2 : ((b : Int) + ((k.itime + a : Nat) : Int) - ((k.itime + a : Nat) : Int)).toNat = b := by omega
  obtain ⟨s1, s2⟩ := loop_split ho c dt a b k.itime k
  have q1 := loop_quiet ho c dt (a + b) k.itime k
  have q2 := loop_quiet ho c dt b (k.itime + a) ⟨k.itime + a, k.time + a * dt⟩
  have c2 : (loop c dt o b (k.itime + a) ⟨k.itime + a, k.time + a * dt⟩).clock.itime = k.itime + a + b := by
    obtain ⟨m, _, _, hd, _⟩ := loop_steps c dt o b (k.itime + a) ⟨k.itime + a, k.time + a * dt⟩
    obtain ⟨e1, e2⟩ := hd q2
    rw [e2, e1]
  have hfilt : ∀ {P : Ev → Bool} {l : List Ev}, (∀ e ∈ l, P e = true) → l.filter P = l := fun h => List.filter_eq_self.mpr h
  have hrun : ∃ r r', run c dt cfgN cfgT o (some n) none k = some r ∧
      run c dt cfgN cfgT o (some (b : Int)) none ⟨k.itime + a, k.time + a * dt⟩ = some r' ∧
      r.trace.filter (fun e => decide (i < e.istep)) = r'.trace.tail ∧
      r'.trace.head? = some ⟨k.itime + a, ⟨k.itime + a, k.time + a * dt⟩, .stage .init none⟩ ∧ r.clock = r'.clock := by
    refine ⟨_, _, rfl, rfl, ?_, rfl, ?_⟩
    · dsimp only
      rw [t1, t2, q1, q2, if_pos rfl, if_pos rfl, s1, s2]
      rw [List.cons_append, List.cons_append, List.tail_cons, List.filter_cons_of_neg (by simp; omega), List.append_assoc, List.filter_append]
      rw [List.filter_eq_nil_iff.mpr, List.nil_append]
      · apply hfilt
        intro e he
        rw [decide_eq_true_eq]
        rcases List.mem_append.mp he with he | he
        · have := loop_range c dt b (k.itime + a) _ e he
          omega
        · rw [List.mem_singleton.mp he]
          dsimp only
          omega
      · intro e he
        have := loop_range c dt a k.itime _ e he
        rw [decide_eq_true_eq]
        omega
    · dsimp only
      rw [t1, t2, s2]
  obtain ⟨r, r', g1, g2, g3, g4, g5⟩ := hrun
  refine ⟨r, r', g1, g2, g3, g4, g5, fun cbs table => ?_⟩
  rw [← g3]
  unfold fired
  have step : ∀ e : Ev, (firedBy cbs table dt e).filter (fun f => decide (i < f.istep)) = if i < e.istep then firedBy cbs table dt e else [] := by
    intro e
    have hi : ∀ f ∈ firedBy cbs table dt e, f.istep = e.istep := by
      intro f hf
      unfold firedBy at hf
      split at hf
      · obtain ⟨m, _, hm⟩ := List.mem_filterMap.mp hf
        split at hm
        · split at hm
          · cases hm; rfl
          · cases hm
        · cases hm
      · simp at hf
    split
    · next h =>
      refine List.filter_eq_self.mpr fun f hf => ?_
      rw [hi f hf]
      exact decide_eq_true h
    · next h =>
      refine List.filter_eq_nil_iff.mpr fun f hf => ?_
      rw [hi f hf, decide_eq_true_eq]
      exact h
  induction r.trace with
  | nil => rfl
  | cons e l ih =>
    rw [List.flatMap_cons, List.filter_append, ih, step e, List.filter_cons]
    by_cases h : i < e.istep
    · rw [if_pos h, if_pos (decide_eq_true h), List.flatMap_cons]
    · rw [if_neg h, if_neg (by simpa using h), List.nil_append]

end Clock

/-! ## the moving window -/
section Window
open Verif.MovingWindow

/-- The moving window keeps its counters in the callback, which is not in the dump. A new one shifts by a patch at its first call, at a moment where the one of the uninterrupted run
does not: every patch changes its column, and the patch in the first column loses its fields. -/
theorem restarted_window_fails (W : Cfg) (s : WinSt) (t0 τ time v : ℚ) (hs : s.start = some t0) (hn : s.num ≠ 0) (hτ : s.this = some τ) (ht : t0 ≤ time)
    (hv : 0 ≤ v * W.dt) (h1 : -W.Lp < τ + v * W.dt) (h2 : τ + v * W.dt < W.Lp) (hp : 2 ≤ W.npx) (hi : ∀ p ∈ s.patches, p.ix < W.npx) :
    (call W time v s).patches = s.patches ∧
    (call W time v (fresh (some t0) s.patches)).patches = s.patches.map (fun p => shiftRight W { p with pmlx := false }) ∧
    ∀ p ∈ s.patches, (shiftRight W { p with pmlx := false }).ix ≠ p.ix ∧
      (p.ix = 0 → ∀ j, (shiftRight W { p with pmlx := false }).field j = 0) := by
  refine ⟨?_, ?_, ?_⟩
  · unfold call
    rw [hs, hτ]
    dsimp only [Option.getD_some]
    rw [if_neg (not_lt.mpr ht), if_neg (not_le.mpr h2), if_neg (not_le.mpr h1), if_neg hn]
  · unfold call fresh
    dsimp only [Option.getD_some, Option.getD_none]
    rw [if_neg (not_lt.mpr ht), if_pos (le_add_of_nonneg_right hv), if_pos rfl]
    dsimp only
    rw [List.map_map]
    rfl
  · intro p hp'
    have hlt := hi p hp'
    unfold shiftRight
    dsimp only
    by_cases h : p.ix = 0
    · rw [if_pos h]
      refine ⟨?_, fun _ _ => rfl⟩
      show W.npx - 1 ≠ p.ix
      omega
    · rw [if_neg h]
      refine ⟨?_, fun h' => absurd h' h⟩
      show p.ix - 1 ≠ p.ix
      omega

/-- two calls of the window of the sample, then a restart -/
example : ∃ τ, (calls exCfg [(0, 3), (1, 3)] (fresh (some 0) exRanks.flatten)).this = some τ ∧
    (calls exCfg [(0, 3), (1, 3)] (fresh (some 0) exRanks.flatten)).start = some 0 ∧
    (calls exCfg [(0, 3), (1, 3)] (fresh (some 0) exRanks.flatten)).num ≠ 0 ∧ -exCfg.Lp < τ + 1 * exCfg.dt ∧ τ + 1 * exCfg.dt < exCfg.Lp ∧
    ∀ p ∈ (calls exCfg [(0, 3), (1, 3)] (fresh (some 0) exRanks.flatten)).patches, p.ix < exCfg.npx :=
  ⟨2, by decide +kernel, by decide +kernel, by decide +kernel, by decide +kernel, by decide +kernel, by decide +kernel⟩
end Window

end Verif.Resume
