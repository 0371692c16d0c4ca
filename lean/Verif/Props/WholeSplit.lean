import Verif.Props.WholeRun
import Verif.Props.Pusher
/-!
# C66, 3D runs on the split path

The code's split path does not move particles in 3D (`push_position` knows two dimensions only). Complete 3D runs in
which all species take this path: every particle stays where it is for ever, so runs do not follow the undivided
simulation.
-/
namespace Verif.WholeRun
open Verif.Maxwell Verif.SyncFields Verif.Pusher Verif.Deposit Verif.Geometry Verif.Neighbors Verif.MpiExchange
open Verif.PicStep (field zeroAcc)

/-- Specification: the places of the particles of every species, without their momenta -/
def places {k : Nat} (cl : List (Kind × List (Ptc k))) : List (Kind × List (Ptc k)) :=
  cl.map fun s => (s.1, s.2.map fun p => ⟨p.pos, ⟨0, 0, 0, 0, 0⟩⟩)

/-- a list of slots in which only momenta and stored fields have changed -/
def Kept {k : Nat} (a b : List (Slot k)) : Prop := List.Forall₂ (fun s s' => s'.pos = s.pos ∧ s'.dead = s.dead) a b

/-- the slots after the split path in 3D -/
theorem split3_kept (rs : ℚ → ℚ) (R : RunPar 3) (Ps : List (PatchSt 3)) (t : Nat) (P : PatchSt 3) (hP : Ps[t]? = some P) :
    ∃ P', (split3 rs R Ps)[t]? = some P' ∧ Kept P.parts P'.parts := by
  unfold split3 split
  simp only [List.getElem?_map, hP, Option.map_some]
  refine ⟨_, rfl, ?_⟩
  have e32 : ¬ ((3 : Nat) = 2) := by decide
  show Kept P.parts (splitPush (1 / 2 * R.dt) (splitBoris _ (splitInterp _ (splitPush (1 / 2 * R.dt) P.parts))))
  unfold splitPush
  rw [if_neg e32, if_neg e32]
  unfold splitBoris splitInterp
  rw [List.map_map]
  have a : ∀ (K : Kern 3) (s : Slot 3), (skipDeadNan (storeInterp K) s).pos = s.pos ∧ (skipDeadNan (storeInterp K) s).dead = s.dead := by
    intro K s
    unfold skipDeadNan
    split
    · exact ⟨rfl, rfl⟩
    · split
      · exact ⟨rfl, rfl⟩
      · unfold storeInterp
        split <;> exact ⟨rfl, rfl⟩
  have b : ∀ (bor : FieldsAt ℚ → Mo ℚ → Mo ℚ) (s : Slot 3), (skipDead (storeMom bor) s).pos = s.pos ∧
      (skipDead (storeMom bor) s).dead = s.dead := by
    intro bor s
    unfold skipDead
    split <;> exact ⟨rfl, rfl⟩
  unfold Kept
  induction P.parts with
  | nil => exact .nil
  | cons s l ih => exact .cons ⟨(b _ _).1.trans (a _ _).1, (b _ _).2.trans (a _ _).2⟩ ih

/-- the particles after the species loop in 3D, if all species take the split path -/
theorem loop_kept {C : Conf 3} (σ : Dom 3) (parts : List (Species × (Nat → List (Slot 3))))
    (hs : ∀ a ∈ parts, a.1.unified = false) (acc : Nat → Acc 3) :
    List.Forall₂ (fun a b => b.1 = a.1 ∧ ∀ t, t < (sys3 C).npatches → Kept (a.2 t) (b.2 t)) parts
      (speciesLoop (sys3 C) σ parts acc).1 := by
  induction parts generalizing acc with
  | nil => exact .nil
  | cons a rest ih =>
    obtain ⟨sp, ps⟩ := a
    have hsp : sp.unified = false := hs _ List.mem_cons_self
    refine .cons ⟨rfl, ?_⟩ (ih (fun a ha => hs a (List.mem_cons_of_mem _ ha)) _)
    intro t ht
    have hg : (gather (sys3 C) σ ps acc)[t]? = some ⟨ps t, σ t, acc t, (sys3 C).origin t⟩ := by
      unfold gather
      rw [List.getElem?_map, List.getElem?_range ht]
      rfl
    obtain ⟨P', e, hk⟩ := split3_kept C.rs (C.runPar sp) _ t _ hg
    have hpush : (sys3 C).push sp (gather (sys3 C) σ ps acc) = split3 C.rs (C.runPar sp) (gather (sys3 C) σ ps acc) := by
      show pushSpecies3 sp.unified C.rs (C.runPar sp) _ = _
      unfold pushSpecies3
      rw [hsp]
      rfl
    show Kept (ps t) (((((sys3 C).push sp (gather (sys3 C) σ ps acc))[t]?).map PatchSt.parts).getD (ps t))
    rw [hpush, e]
    exact hk

section Gen
variable {k : Nat}

theorem kept_mem {a b : List (Slot k)} (h : Kept a b) {s' : Slot k} (hs : s' ∈ b) :
    ∃ s ∈ a, s'.pos = s.pos ∧ s'.dead = s.dead := by
  unfold Kept at h
  induction h with
  | nil => cases hs
  | cons h1 _ ih =>
    rcases List.mem_cons.mp hs with rfl | hs
    · exact ⟨_, List.mem_cons_self, h1⟩
    · obtain ⟨s, h2, h3⟩ := ih hs
      exact ⟨s, List.mem_cons_of_mem _ h2, h3⟩

/-- the place of a particle -/
def placeOf (p : Ptc k) : Ptc k := ⟨p.pos, ⟨0, 0, 0, 0, 0⟩⟩

theorem kept_places {a b : List (Slot k)} (h : Kept a b) :
    (b.filterMap ptc).map placeOf = (a.filterMap ptc).map placeOf := by
  unfold Kept at h
  induction h with
  | nil => rfl
  | @cons s s' l l' h1 _ ih =>
    have e : (ptc s').map placeOf = (ptc s).map placeOf := by
      unfold ptc
      rw [h1.1, h1.2]
      split
      · rfl
      · cases nums s.pos <;> rfl
    cases h2 : ptc s with
    | none =>
      rw [h2] at e
      have h3 : ptc s' = none := by cases h3 : ptc s' with | none => rfl | some v => rw [h3] at e; cases e
      rw [List.filterMap_cons_none h2, List.filterMap_cons_none h3, ih]
    | some v =>
      rw [h2] at e
      cases h3 : ptc s' with
      | none => rw [h3] at e; cases e
      | some v' =>
        rw [h3] at e
        rw [List.filterMap_cons_some h2, List.filterMap_cons_some h3, List.map_cons, List.map_cons, ih]
        injection e with e
        rw [e]

theorem particles_kept {N : Nat} {a b : Nat → List (Slot k)} (h : ∀ t, t < N → Kept (a t) (b t)) :
    (particles N b).map placeOf = (particles N a).map placeOf := by
  unfold particles
  rw [List.map_flatMap, List.map_flatMap]
  apply List.flatMap_congr
  intro t ht
  exact kept_places (h t (List.mem_range.mp ht))

theorem SameParticles.places {L : Fin k → ℚ} {a b : List (Ptc k)} (h : SameParticles L a b) :
    SameParticles L (a.map placeOf) (b.map placeOf) :=
  h.map (f := placeOf) fun p q hpq => ⟨rfl, hpq.2⟩
end Gen

/-- every living particle has coordinates and lies in the patch that stores it -/
def Placed (C : Conf 3) (parts : List (Species × (Nat → List (Slot 3)))) : Prop :=
  ∀ a ∈ parts, ∀ t, t < (sys3 C).npatches → ∀ s ∈ a.2 t, s.dead = false → ∃ v, nums s.pos = some v ∧
    Ins C.n (C.coord3 t) C.d v

theorem sorted_split {C : Conf 3} {a b : List (Species × (Nat → List (Slot 3)))} (h : Sorted a b)
    (hp : Placed C a) (hs : ∀ z ∈ a, z.1.unified = false) : Placed C b ∧ ∀ z ∈ b, z.1.unified = false := by
  unfold Sorted at h
  induction h with
  | nil => exact ⟨(fun z hz => nomatch hz), (fun z hz => nomatch hz)⟩
  | @cons x y l l' h1 _ ih =>
    obtain ⟨i1, i2⟩ := ih (fun z hz => hp z (List.mem_cons_of_mem _ hz)) (fun z hz => hs z (List.mem_cons_of_mem _ hz))
    constructor
    · intro z hz t ht s hs' hd
      rcases List.mem_cons.mp hz with rfl | hz
      · exact hp x List.mem_cons_self t ht s ((h1.2 t).mem_iff.mp hs') hd
      · exact i1 z hz t ht s hs' hd
    · intro z hz
      rcases List.mem_cons.mp hz with rfl | hz
      · rw [h1.1]; exact hs x List.mem_cons_self
      · exact i2 z hz

/-- the species loop leaves the particles in their patches -/
theorem loop_placed {C : Conf 3} (σ : Dom 3) {parts : List (Species × (Nat → List (Slot 3)))} (hp : Placed C parts)
    (hs : ∀ a ∈ parts, a.1.unified = false) (acc : Nat → Acc 3) : Placed C (speciesLoop (sys3 C) σ parts acc).1 := by
  have h := loop_kept (C := C) σ parts hs acc
  generalize (speciesLoop (sys3 C) σ parts acc).1 = l at h
  clear hs
  induction h with
  | nil => exact fun z hz => nomatch hz
  | @cons x y l l' h1 _ ih =>
    intro z hz t ht s hs' hd
    rcases List.mem_cons.mp hz with rfl | hz
    · obtain ⟨s0, m0, e1, e2⟩ := kept_mem (h1.2 t ht) hs'
      obtain ⟨v, hv⟩ := hp x List.mem_cons_self t ht s0 m0 (e2 ▸ hd)
      exact ⟨v, by rw [e1]; exact hv.1, hv.2⟩
    · exact ih (fun z hz => hp z (List.mem_cons_of_mem _ hz)) z hz t ht s hs' hd

theorem placed_near {C : Conf 3} {β : ℚ} (hC : Admissible C β) {n : Fin 3 → Nat} (hn : n = C.n) {t : Nat} {v : Fin 3 → ℚ}
    (h : Ins C.n (C.coord3 t) C.d v) : Nearby n (C.coord3 t) C.d v := by
  subst hn
  intro i
  have h0 := hC.cell i
  obtain ⟨h1, h2⟩ := h i
  constructor <;> linarith

/-- one step -/
theorem step_frozen {C : Conf 3} {β : ℚ} (hC : Admissible C β) {rk rk' : Nat → Nat} {x x' : St 3} (hp : Placed C x.parts)
    (hs : ∀ a ∈ x.parts, a.1.unified = false) (hstep : Step (sys3 C) rk rk' x x') :
    SameCloud (fun a => C.np a * C.n a * C.d a) (places (cloudOf (sys3 C).npatches x'.parts))
      (places (cloudOf (sys3 C).npatches x.parts)) ∧ Placed C x'.parts ∧ ∀ a ∈ x'.parts, a.1.unified = false := by
  obtain ⟨σ1, σ2, σ3, σ4, parts1, b1, b2, a3, b4, a5, b6, b7⟩ := hstep
  clear b1 b2 b4 b6 b7
  obtain ⟨p1, s1⟩ := sorted_split a3 hp hs
  have p2 := loop_placed (C := C) σ2 p1 s1 fun _ => zeroAcc
  have k2 := loop_kept (C := C) σ2 parts1 s1 fun _ => zeroAcc
  generalize (speciesLoop (sys3 C) σ2 parts1 fun _ => zeroAcc).1 = l at a5 p2 k2
  have hnv : (sys3 C).solver.sync.n = C.n := vec3 C.n
  have hnpv : C.place3.np = C.np := vec3 C.np
  have c1 : SameCloud (fun a => C.np a * C.n a * C.d a) (places (cloudOf (sys3 C).npatches parts1))
      (places (cloudOf (sys3 C).npatches x.parts)) := by
    have h := sorted_cloud (N := (sys3 C).npatches) (L := fun a => C.np a * C.n a * C.d a) a3
    exact h.map (f := fun _ => placeOf) fun κ p q hpq => ⟨rfl, hpq.2⟩
  have c2 : places (cloudOf (sys3 C).npatches l) = places (cloudOf (sys3 C).npatches parts1) := by
    clear a5 p2 c1 p1 s1 a3
    induction k2 with
    | nil => rfl
    | @cons y z m m' h1 _ ih =>
      show (z.1.toKind, (particles _ z.2).map placeOf) :: places (cloudOf _ m') = (y.1.toKind, (particles _ y.2).map placeOf) :: places (cloudOf _ m)
      rw [ih, h1.1, particles_kept h1.2]
  have s2 : ∀ a ∈ l, a.1.unified = false := by
    clear a5 p2 c1 c2 p1 a3
    induction k2 with
    | nil => exact fun a ha => nomatch ha
    | @cons y z m m' h1 _ ih =>
      intro a ha
      rcases List.mem_cons.mp ha with rfl | ha
      · rw [h1.1]; exact s1 y List.mem_cons_self
      · exact ih (fun a ha => s1 a (List.mem_cons_of_mem _ ha)) a ha
  rw [← c2] at c1
  suffices h : SameCloud (fun a => C.np a * C.n a * C.d a) (places (cloudOf (sys3 C).npatches x'.parts))
      (places (cloudOf (sys3 C).npatches l)) ∧ Placed C x'.parts ∧ ∀ a ∈ x'.parts, a.1.unified = false from
    ⟨h.1.trans c1, h.2⟩
  clear c1 c2 k2 p1 s1 a3
  generalize x'.parts = ys at a5
  induction a5 with
  | nil => exact ⟨.nil, (fun z hz => nomatch hz), (fun z hz => nomatch hz)⟩
  | @cons y z m m' h1 _ ih =>
    obtain ⟨i1, i2, i3⟩ := ih (fun a ha => p2 a (List.mem_cons_of_mem _ ha)) (fun a ha => s2 a (List.mem_cons_of_mem _ ha))
    obtain ⟨e, ord2, ord3, blank, s', o2, o3, hs', hz⟩ := h1
    obtain ⟨s'', q1, q2, q3⟩ := hC.facts3.exch y.2 (fun t ht s hs hd => by
      obtain ⟨v, h1, h2⟩ := p2 y List.mem_cons_self t ht s hs hd
      exact ⟨v, h1, placed_near hC hnv h2⟩) rk ord2 ord3 blank o2 o3
    rw [hs'] at q1
    injection q1 with q1
    subst q1
    have ez : z.2 = fun t => (s' t).map (sys3 C).unpack := funext hz
    rw [hnv, hnpv] at q2
    simp only [List.filter_true] at q2
    rw [hnv] at q3
    refine ⟨.cons ⟨by show z.1.toKind = y.1.toKind; rw [e], ?_⟩ i1, ?_, ?_⟩
    · show SameParticles _ ((particles _ z.2).map placeOf) ((particles _ y.2).map placeOf)
      rw [ez]
      exact SameParticles.places q2
    · intro w hw t ht s hs hd
      rcases List.mem_cons.mp hw with rfl | hw
      · exact q3 t ht s (by rw [← hz t]; exact hs) hd
      · exact i2 w hw t ht s hs hd
    · intro w hw
      rcases List.mem_cons.mp hw with rfl | hw
      · rw [e]; exact s2 y List.mem_cons_self
      · exact i3 w hw

/-- **C66 in 3D, split path.** In every 3D run in which all species take the split path, on any patches, ranks and
schedules and in any fields, the particles stay at their places for ever. -/
theorem split_run3_frozen {C : Conf 3} {β : ℚ} (hC : Admissible C β) {W : World 3} {rk : Nat → Nat → Nat} {x : Nat → St 3}
    (h0 : Starts C (sys3 C).npatches C.coord3 β (x 0) W) (hs : ∀ a ∈ (x 0).parts, a.1.unified = false)
    (hrun : Run (sys3 C) rk x) (i : Nat) :
    SameCloud (fun a => C.np a * C.n a * C.d a) (places (cloudOf (sys3 C).npatches (x i).parts))
      (places (cloudOf (sys3 C).npatches (x 0).parts)) := by
  have hp0 : Placed C (x 0).parts := fun a ha t ht s hs hd => by
    obtain ⟨v, h1, h2, _⟩ := h0.inside a ha t ht s hs hd
    exact ⟨v, h1, h2⟩
  suffices h : SameCloud (fun a => C.np a * C.n a * C.d a) (places (cloudOf (sys3 C).npatches (x i).parts))
      (places (cloudOf (sys3 C).npatches (x 0).parts)) ∧ Placed C (x i).parts ∧ ∀ a ∈ (x i).parts, a.1.unified = false from h.1
  induction i with
  | zero => exact ⟨forall₂_self (fun a => ⟨rfl, .of_perm (.refl _)⟩) _, hp0, hs⟩
  | succ i ih =>
    obtain ⟨a1, a2, a3⟩ := ih
    obtain ⟨b1, b2, b3⟩ := step_frozen hC a2 a3 (hrun i)
    exact ⟨b1.trans a1, b2, b3⟩

/-- runs on the split path exist -/
theorem split_runs3 {C : Conf 3} {β : ℚ} (hC : Admissible C β) {x0 : St 3} {W : World 3}
    (h0 : Starts C (sys3 C).npatches C.coord3 β x0 W) (hs : ∀ a ∈ x0.parts, a.1.unified = false) (rk : Nat → Nat → Nat) :
    ∃ x, x 0 = x0 ∧ Run (sys3 C) rk x := by
  have hp0 : Placed C x0.parts := fun a ha t ht s hs hd => by
    obtain ⟨v, h1, h2, _⟩ := h0.inside a ha t ht s hs hd
    exact ⟨v, h1, h2⟩
  have F := hC.facts3
  have hnv : (sys3 C).solver.sync.n = C.n := vec3 C.n
  let T := {y : St 3 // Placed C y.parts ∧ ∀ a ∈ y.parts, a.1.unified = false}
  have key : ∀ i (y : T), ∃ z : T, Step (sys3 C) (rk i) (rk (i + 1)) y.1 z.1 := by
    rintro i ⟨y, hp, hs⟩
    obtain ⟨σ1, a1⟩ := guardE_ex F (rk i) ((sys3 C).solver.stepE (1 / 2 * (sys3 C).dt) y.fld)
    obtain ⟨σ2, a2⟩ := guardB_ex F (rk i) ((sys3 C).solver.stepB (1 / 2 * (sys3 C).dt) σ1)
    have a3 : Sorted y.parts y.parts := forall₂_self (fun a => ⟨rfl, fun t => .refl _⟩) _
    have p2 := loop_placed (C := C) σ2 hp hs fun _ => zeroAcc
    choose m hm using fun c : Fin 3 => F.curEx (rk i)
      (fun l => field ((speciesLoop (sys3 C) σ2 y.parts fun _ => zeroAcc).2 l.1) c.castSucc l.2)
    have hparts : ∃ z, List.Forall₂ (Exchanged (sys3 C) (rk i)) (speciesLoop (sys3 C) σ2 y.parts fun _ => zeroAcc).1 z := by
      obtain ⟨bl⟩ := F.blank
      generalize (speciesLoop (sys3 C) σ2 y.parts fun _ => zeroAcc).1 = l at p2
      clear a1 a2 a3 hm m
      induction l with
      | nil => exact ⟨[], .nil⟩
      | cons a l ih =>
        obtain ⟨z, hz⟩ := ih fun a ha => p2 a (List.mem_cons_of_mem _ ha)
        obtain ⟨s', hs', _⟩ := F.exch a.2 (fun t ht s hs hd => by
          obtain ⟨v, h1, h2⟩ := p2 a List.mem_cons_self t ht s hs hd
          exact ⟨v, h1, placed_near hC hnv h2⟩) (rk i) (List.range (sys3 C).npatches) (List.range (sys3 C).npatches) bl
          (.refl _) (.refl _)
        exact ⟨(a.1, fun t => (s' t).map (sys3 C).unpack) :: z,
          .cons ⟨rfl, _, _, bl, s', .refl _, .refl _, hs', fun t => rfl⟩ hz⟩
    obtain ⟨z, hz⟩ := hparts
    obtain ⟨σ4, a6⟩ := guardB_ex F (rk (i + 1)) ((sys3 C).solver.stepB (1 / 2 * (sys3 C).dt)
      fun t => { σ2 t with j := fun c v => m c (t, v) })
    obtain ⟨σ5, a7⟩ := guardE_ex F (rk (i + 1)) ((sys3 C).solver.stepE (1 / 2 * (sys3 C).dt) σ4)
    have st : Step (sys3 C) (rk i) (rk (i + 1)) y ⟨σ5, z⟩ :=
      ⟨σ1, σ2, fun t => { σ2 t with j := fun c v => m c (t, v) }, σ4, y.parts, a1, a2, a3,
        ⟨fun t => ⟨rfl, rfl⟩, fun c => hm c⟩, hz, a6, a7⟩
    exact ⟨⟨⟨σ5, z⟩, (step_frozen hC hp hs st).2⟩, st⟩
  choose nx hnx using key
  exact ⟨fun i => (Nat.rec (motive := fun _ => T) ⟨x0, hp0, hs⟩ (fun i y => nx i y) i).1, rfl, fun i => hnx i _⟩

/-- **C66 in 3D does not hold on the split path**: an electron with 3/5 of the speed of light in a box of 4 × 3 × 3 cells;
after one step the undivided simulation has moved it, the program has not. -/
theorem run_is_undivided3_fails : ∃ (C : Conf 3) (β : ℚ) (W : World 3) (rk : Nat → Nat → Nat) (x : Nat → St 3),
    Admissible C β ∧ Starts C (sys3 C).npatches C.coord3 β (x 0) W ∧ Run (sys3 C) rk x ∧
    ¬ Agrees C (sys3 C).npatches C.coord3 (x 1) (undividedRun3 C W 1) := by
  have a1 : Admissible (exConf 3 ![1, 1, 1] ![4, 3, 3]) 1 :=
    exConf_ok (fun a => match a with | 0 => by decide | 1 => by decide | 2 => by decide)
      (fun a => match a with | 0 => by decide | 1 => by decide | 2 => by decide)
  have s1 := exStarts (np := ![1, 1, 1]) (n := ![4, 3, 3]) (N := (sys3 (exConf 3 ![1, 1, 1] ![4, 3, 3])).npatches)
    (co := (exConf 3 ![1, 1, 1] ![4, 3, 3]).coord3) (fun a => match a with | 0 => by decide | 1 => by decide | 2 => by decide)
    (by decide) (by funext a; match a with | 0 => rfl | 1 => rfl | 2 => rfl) false
  have hs : ∀ a ∈ (exState 3 false).parts, a.1.unified = false := by
    intro a ha
    rcases List.mem_singleton.mp ha with rfl
    rfl
  obtain ⟨x, e, r⟩ := split_runs3 a1 s1 hs (fun _ _ => 0)
  refine ⟨_, 1, exWorld 3, _, x, a1, e ▸ s1, r, ?_⟩
  intro hag
  have h1 := split_run3_frozen a1 (e ▸ s1) (e ▸ hs) r 1
  have h2 := hag.species
  rw [e] at h1
  have h3 := s1.agrees.species
  have pl : ∀ {a b : List (Kind × List (Ptc 3))} {L : Fin 3 → ℚ}, SameCloud L a b → SameCloud L (places a) (places b) :=
    fun h => h.map (f := fun _ => placeOf) fun κ p q hpq => ⟨rfl, hpq.2⟩
  have h4 := ((pl h2).symm.trans h1).trans (pl h3)
  -- one species with one particle on both sides
  obtain ⟨_, h5⟩ := (List.forall₂_cons.mp h4).1
  obtain ⟨b, hb, hf⟩ := h5
  rcases List.perm_singleton.mp hb with rfl
  have hx := (List.forall₂_cons.mp hf).1.2 0
  obtain ⟨z, hz⟩ := hx
  let Φ := phys3 (fun a => (![1, 1, 1] : Fin 3 → Nat) a * (![4, 3, 3] : Fin 3 → Nat) a) (fun _ => 1) (lightSpeed ^ 2) 1
    (1 / (2 * lightSpeed)) fun s => 1 / s
  let q := pushed Φ ⟨-1, 1⟩ (midField Φ (exWorld 3).fld) ⟨fun _ => 1, exMom⟩
  have hq : q.pos 0 = 1 + z * 4 := by
    have : q.pos 0 = 1 + z * (((![1, 1, 1] : Fin 3 → Nat) 0 : ℚ) * ((![4, 3, 3] : Fin 3 → Nat) 0 : ℚ) * 1) := hz
    rw [this]
    norm_num
  -- where the undivided simulation has moved it
  have hpos : q.pos 0 = 1 + 3 / 20 + lightSpeed * (1 / 2) * (1 / (2 * lightSpeed)) * (q.mom.invGamma * uAt q.mom 0) := by
    show (1 : ℚ) + lightSpeed * (1 / 2) * (1 / (2 * lightSpeed)) * exMom.invGamma * uAt exMom 0
      + lightSpeed * (1 / 2) * (1 / (2 * lightSpeed)) * q.mom.invGamma * uAt q.mom 0 = _
    have : lightSpeed * (1 / 2) * (1 / (2 * lightSpeed)) * exMom.invGamma * uAt exMom 0 = 3 / 20 := by
      unfold lightSpeed exMom uAt; norm_num
    rw [this]; ring
  have hb : |q.mom.invGamma * uAt q.mom 0| ≤ 1 / 2 := by
    have hg : q.mom.invGamma = 1 / (1 + q.mom.ux * q.mom.ux + q.mom.uy * q.mom.uy + q.mom.uz * q.mom.uz) := rfl
    rw [hg]
    show |1 / (1 + q.mom.ux * q.mom.ux + q.mom.uy * q.mom.uy + q.mom.uz * q.mom.uz) * q.mom.ux| ≤ 1 / 2
    generalize q.mom.ux = a
    generalize q.mom.uy = b
    generalize q.mom.uz = c
    have hs : 0 < 1 + a * a + b * b + c * c := by nlinarith [mul_self_nonneg a, mul_self_nonneg b, mul_self_nonneg c]
    rw [one_div, inv_mul_eq_div, abs_le, le_div_iff₀ hs, div_le_iff₀ hs]
    constructor <;> nlinarith [mul_self_nonneg b, mul_self_nonneg c, mul_self_nonneg (a - 1), mul_self_nonneg (a + 1)]
  have hc : lightSpeed * (1 / 2) * (1 / (2 * lightSpeed)) = (1 / 4 : ℚ) := by unfold lightSpeed; norm_num
  rw [hc] at hpos
  obtain ⟨b1, b2⟩ := abs_le.mp hb
  have l1 : (0 : ℚ) < z := by linarith
  have l2 : (z : ℚ) < 1 := by linarith
  have l1' : (0 : ℤ) < z := by exact_mod_cast l1
  have l2' : z < (1 : ℤ) := by exact_mod_cast l2
  omega


/-- a run of an electron on the split path, on two patches, exists; the electron has a momentum along the first axis -/
example : ∃ x : Nat → St 3, Admissible (exConf 3 ![2, 1, 1] ![4, 3, 3]) 1 ∧
    Starts (exConf 3 ![2, 1, 1] ![4, 3, 3]) (sys3 (exConf 3 ![2, 1, 1] ![4, 3, 3])).npatches (exConf 3 ![2, 1, 1] ![4, 3, 3]).coord3 1 (x 0) (exWorld 3) ∧
    (∀ a ∈ (x 0).parts, a.1.unified = false) ∧ Run (sys3 (exConf 3 ![2, 1, 1] ![4, 3, 3])) (fun _ _ => 0) x ∧ exMom.ux ≠ 0 := by
  have a1 : Admissible (exConf 3 ![2, 1, 1] ![4, 3, 3]) 1 :=
    exConf_ok (fun a => match a with | 0 => by decide | 1 => by decide | 2 => by decide)
      (fun a => match a with | 0 => by decide | 1 => by decide | 2 => by decide)
  have s1 := exStarts (np := ![2, 1, 1]) (n := ![4, 3, 3]) (N := (sys3 (exConf 3 ![2, 1, 1] ![4, 3, 3])).npatches)
    (co := (exConf 3 ![2, 1, 1] ![4, 3, 3]).coord3) (fun a => match a with | 0 => by decide | 1 => by decide | 2 => by decide)
    (by decide) (by funext a; match a with | 0 => rfl | 1 => rfl | 2 => rfl) false
  have hs : ∀ a ∈ (exState 3 false).parts, a.1.unified = false := by
    intro a ha
    rcases List.mem_singleton.mp ha with rfl
    rfl
  obtain ⟨x, e, r⟩ := split_runs3 a1 s1 hs (fun _ _ => 0)
  exact ⟨x, a1, e ▸ s1, e ▸ hs, r, by decide +kernel⟩

end Verif.WholeRun
