import Verif.Proofs.WholePml
import Verif.Proofs.WholePml2
import Verif.Proofs.WholePml3
import Verif.Props.WholeRun
import Verif.Props.CpmlRun
/-!
# C69 — complete runs with absorbing layers do not depend on patches, ranks, schedules, sorting and the path of the push

Specification vocabulary: `Verif/Spec/CpmlRun.lean` (one grid with layers), `Verif/Spec/WholeRun.lean` (what particles see and
do), `Verif/Spec/WholePml.lean` (the undivided simulation `LWorld.run`), `Admissible` of `Verif/Props/WholeRun.lean` (limits of
a configuration), and below (`LAgrees`, `LStarts`).
-/
namespace Verif.WholePml
open Verif.Maxwell Verif.SyncFields Verif.Pusher Verif.Deposit Verif.Geometry Verif.Neighbors Verif.MpiExchange
open Verif.PicStep (field zeroAcc)
open Verif.Cpml (PConf PDom PSys axisBC pmlSys2 pmlSys3 Whole Grid Inits2 Inits3 order2 order3)
open Verif.WholeRun (Species Kind Ptc Phys SameCloud SameParticles SamePtc cloudOf Admissible onGrid Stored Inside Bounds
  speciesLoop Sorted Sys len)

section Gen
variable {k : Nat}

/-- Specification: the program shows the undivided simulation: every stored cell of `E` and `B` of every patch, and every own
cell of the currents, holds the value of the undivided grid there; every species has the same particles, up to their order and
whole lengths of the domain along periodic axes -/
structure LAgrees (C : LConf k) (N : Nat) (coord : Nat → Fin k → Nat) (x : LSt k) (U : LWorld k) : Prop where
  e : ∀ t, t < N → ∀ f v, Stored C.n C.ng v → (x.dom.fld t).e f (index C.n C.ng v) = U.grid.e f (onGrid C.n (coord t) v)
  b : ∀ t, t < N → ∀ f v, Stored C.n C.ng v → (x.dom.fld t).b f (index C.n C.ng v) = U.grid.b f (onGrid C.n (coord t) v)
  j : ∀ t, t < N → ∀ f v, Stored C.n 0 v → (x.dom.fld t).j f (index C.n C.ng v) = U.grid.j f (onGrid C.n (coord t) v)
  species : SameCloud (fun i => if C.pml i = true then 0 else C.np i * C.n i * C.par.d i) (cloudOf N x.parts) U.cloud

/-- Specification: a state and the undivided simulation it begins with: the fields repeat along the periodic axes, the
auxiliary fields of the layers are zero, and every living particle lies in the patch that stores it and is not faster than
`β` -/
structure LStarts (C : LConf k) (N : Nat) (coord : Nat → Fin k → Nat) (β : ℚ) (x : LSt k) (U : LWorld k) : Prop where
  agrees : LAgrees C N coord x U
  inside : Inside C.conf N coord β ⟨x.dom.fld, x.parts⟩
  grid : C.whole.Starts U.grid

/-- Specification: no living particle is in a layer: those of `thick` cells at the ends of the absorbing axes -/
def OutsideLayers (C : LConf k) (N : Nat) (x : LSt k) : Prop :=
  ∀ a ∈ x.parts, ∀ t, t < N → ∀ s ∈ a.2 t, s.dead = false → ∃ v, nums s.pos = some v ∧
    ∀ i, C.pml i = true → C.thick * C.par.d i - C.par.d i / 2 ≤ v i ∧
      v i ≤ ((C.np i * C.n i : Nat) - C.thick) * C.par.d i - C.par.d i / 2

theorem mem_forall₂ {α γ : Type} {R : α → γ → Prop} {a : List α} {b : List γ} (h : List.Forall₂ R a b) {p : α} (hp : p ∈ a) :
    ∃ q ∈ b, R p q := by
  induction h with
  | nil => cases hp
  | cons h1 _ ih =>
    rcases List.mem_cons.mp hp with rfl | hp
    · exact ⟨_, List.mem_cons_self, h1⟩
    · obtain ⟨q, hq, e⟩ := ih hp
      exact ⟨q, List.mem_cons_of_mem _ hq, e⟩

theorem SameCloud.places {L : Fin k → ℚ} {a b : List (Kind × List (Ptc k))} (hab : SameCloud L a b) {P : (Fin k → ℚ) → Prop}
    (hP : ∀ x y : Fin k → ℚ, (∀ i, ∃ z : ℤ, x i = y i + z * L i) → P y → P x)
    (h : ∀ s ∈ b, ∀ p ∈ s.2, P p.pos) : ∀ s ∈ a, ∀ p ∈ s.2, P p.pos := by
  induction hab with
  | nil => intro s hs; cases hs
  | cons h1 _ ih =>
    intro s hs p hp
    rcases List.mem_cons.mp hs with rfl | hs
    · obtain ⟨b', hperm, hf⟩ := h1.2
      obtain ⟨q, hq, hpq⟩ := mem_forall₂ hf hp
      exact hP _ _ hpq.2 (h _ List.mem_cons_self q (hperm.mem_iff.mp hq))
    · exact ih (fun s hs => h s (List.mem_cons_of_mem _ hs)) s hs p hp

/-- the particles that are left after a step are between the layers -/
theorem step_free (W : Whole k) (Φ : Phys k) (U : LWorld k) : ∀ s ∈ (U.step W Φ).cloud, ∀ p ∈ s.2, Free W p.pos := by
  intro s hs p hp
  obtain ⟨s', _, rfl⟩ := List.mem_map.mp hs
  exact of_decide_eq_true (List.mem_filter.mp hp).2

section
variable {D : Type} {A : Type} {s : Sync k D} {g : Place k} {C : LConf k} {N : Nat} {coord : Nat → Fin k → Nat}
  {sides : List (Fin k × Bool)} {UN : Species → Prop} {β : ℚ} {x : LSt k} {U : LWorld k}

theorem LFollows.agrees (h : LFollows N s g C.whole sides (period C.np C.n C.par.d C.pml) UN β x U) (hn : s.n = C.n) (hg : s.ng = C.ng)
    (hN : s.npatches = N) (hc : g.coord = coord) :
    LAgrees C N coord x U ∧ Inside C.conf N coord β ⟨x.dom.fld, x.parts⟩ := by
  obtain ⟨⟨e, b, j, _⟩, _, c, gd, _⟩ := h
  rw [hn, hg, hN] at e b
  rw [hn, hg, hN] at j
  rw [hn] at gd
  subst hc
  exact ⟨⟨e, b, fun t ht f v hv => j t ht f v (WholeRun.stored_zero.mp hv), c⟩, gd⟩

theorem LFollows.outside (h : LFollows N s g C.whole sides (period C.np C.n C.par.d C.pml) UN β x U)
    (hf : ∀ s ∈ U.cloud, ∀ p ∈ s.2, Free C.whole p.pos) : OutsideLayers C N x := by
  intro a ha t ht sl hsl hdd
  obtain ⟨v, hv, _⟩ := h.good a ha t ht sl hsl hdd
  refine ⟨v, hv, ?_⟩
  have := SameCloud.places h.cloud (P := Free C.whole) (fun y z hyz hz i hp => by
    obtain ⟨w, hw⟩ := hyz i
    unfold period at hw
    rw [if_pos (show C.pml i = true from hp), mul_zero, add_zero] at hw
    rw [hw]
    exact hz i hp) hf (a.1.toKind, WholeRun.particles N a.2) (List.mem_map.mpr ⟨a, ha, rfl⟩) ⟨v, sl.mom⟩
    (List.mem_flatMap.mpr ⟨t, List.mem_range.mpr ht, List.mem_filterMap.mpr ⟨sl, hsl, WholeRun.ptc_some hdd hv⟩⟩)
  exact this
end

theorem lrun_exists {D A : Type} [DecidableEq D] {Y : Sys k D A} {P : PSys k D} {Φ : Phys k} {s : Sync k D} {g : Place k}
    {off : D → Fin k → Int} {opp : D → D} {W : Whole k} {sides : List (Fin k × Bool)} {L : Fin k → ℚ} {UN : Species → Prop}
    {K : Species → (Fin k → ℚ) → Fields k → Kern k} (F : LFacts Y P Φ s g off opp W sides L UN K)
    {β : ℚ} (B : Bounds s.n 3 W.par.d Φ.rs Φ.dt β) {x0 : LSt k} {U : LWorld k}
    (h : LFollows Y.npatches s g W sides L UN β x0 U) (rk : Nat → Nat → Nat) : ∃ x, x 0 = x0 ∧ LRun Y P rk x := by
  have key : ∀ i (y : {y : LSt k // ∃ V, LFollows Y.npatches s g W sides L UN β y V}),
      ∃ z : {y : LSt k // ∃ V, LFollows Y.npatches s g W sides L UN β y V}, LStep Y P (rk i) (rk (i + 1)) y.1 z.1 := by
    rintro i ⟨y, V, hy⟩
    obtain ⟨z, hz⟩ := lstep_exists F B hy (rk i) (rk (i + 1))
    exact ⟨⟨z, _, lstep_follows F B hy hz⟩, hz⟩
  choose nx hnx using key
  exact ⟨fun i => (Nat.rec (motive := fun _ => {y : LSt k // ∃ V, LFollows Y.npatches s g W sides L UN β y V}) ⟨x0, U, h⟩
    (fun i y => nx i y) i).1, rfl, fun i => hnx i _⟩

/-- two states that show the same undivided simulation on different patches show the same -/
theorem lagree_agree {C C' : LConf k} {N N' : Nat} {co co' : Nat → Fin k → Nat} {x x' : LSt k} {U : LWorld k}
    (h : LAgrees C N co x U) (h' : LAgrees C' N' co' x' U) (hper : C.whole.Periodic U.grid.e ∧ C.whole.Periodic U.grid.b)
    (hw : C'.whole = C.whole) :
    (∀ t, t < N → ∀ t', t' < N' → ∀ v v', Stored C.n C.ng v → Stored C'.n C'.ng v' →
      (∀ a, if C.pml a = true then onGrid C.n (co t) v a = onGrid C'.n (co' t') v' a else
        onGrid C.n (co t) v a ≡ onGrid C'.n (co' t') v' a [ZMOD ((C.np a * C.n a : Nat) : Int)]) → ∀ f,
      (x.dom.fld t).e f (index C.n C.ng v) = (x'.dom.fld t').e f (index C'.n C'.ng v') ∧
      (x.dom.fld t).b f (index C.n C.ng v) = (x'.dom.fld t').b f (index C'.n C'.ng v')) ∧
    SameCloud (fun i => if C.pml i = true then 0 else C.np i * C.n i * C.par.d i) (cloudOf N x.parts) (cloudOf N' x'.parts) := by
  refine ⟨?_, ?_⟩
  · intro t ht t' ht' v v' hv hv' he f
    exact ⟨by rw [h.e t ht f v hv, h'.e t' ht' f v' hv', hper.1 f _ _ he],
      by rw [h.b t ht f v hv, h'.b t' ht' f v' hv', hper.2 f _ _ he]⟩
  · have h2 := h'.species
    have : (fun i => if C'.pml i = true then (0 : ℚ) else C'.np i * C'.n i * C'.par.d i)
        = fun i => if C.pml i = true then 0 else C.np i * C.n i * C.par.d i := by
      funext i
      have e1 : C'.pml = C.pml := congrArg Whole.pml hw
      have e2 : C'.par = C.par := congrArg Whole.par hw
      have e3 : C'.np i * C'.n i = C.np i * C.n i := congrFun (congrArg Whole.N hw) i
      rw [e1, e2, ← Nat.cast_mul, ← Nat.cast_mul, e3]
    rw [this] at h2
    exact h.species.trans h2.symm
end Gen

/-! ## two dimensions -/

/-- Specification: the undivided 2D simulation with the parameters of a configuration -/
noncomputable def undividedRun2 (C : LConf 2) (U : LWorld 2) : Nat → LWorld 2 :=
  LWorld.run C.whole (lphys2 C.whole C.dt C.rs) U

theorem lfacts2 {C : LConf 2} {β : ℚ} (h : Admissible C.conf β) (hth : 0 < C.thick) {lay : Nat → List (Cpml.Layer 2)}
    (hi : Inits2 C.toPConf lay) :
    LFacts (lsys2 C) (pmlSys2 C.toPConf) C.phys2 C.sync2 C.place2 off2 B2.opp C.whole order2 (period C.np C.n C.par.d C.pml)
      (fun _ => True) C.conf.kern2 := by
  have two := Cpml.two2 C.toPConf h.patches hi
  exact ⟨pushFacts2 C h.guard h.wide h.cell h.step h.patches (fun a hp => ⟨hth, (two a hp).1 a⟩),
    Cpml.facts2 C.toPConf (le_trans (by decide) h.guard) h.wide two, rfl, rfl, rfl, rfl, rfl, fun cl => curOpen_per2 _ _ cl⟩

theorem bounds2 {C : LConf 2} {β : ℚ} (h : Admissible C.conf β) :
    Bounds C.sync2.n 3 C.whole.par.d C.phys2.rs C.phys2.dt β := by
  have hb := h.bounds
  have e : C.sync2.n = C.n := Cpml.nvec2 C.n
  rw [e]
  obtain ⟨_, h2, h3, h4, h5, h6⟩ := hb
  exact ⟨le_refl _, h2, h3, h4, h5, h6⟩

theorem follows2 {C : LConf 2} {β : ℚ} {x : LSt 2} {U : LWorld 2} (hi : Inits2 C.toPConf x.dom.lay)
    (h : LStarts C (lsys2 C).npatches C.coord2 β x U) :
    LFollows (lsys2 C).npatches C.sync2 C.place2 C.whole order2 (period C.np C.n C.par.d C.pml) (fun _ => True) β x U := by
  refine ⟨Cpml.rep2 hi h.grid (fun t ht d v hv => ⟨h.agrees.e t ht d v hv, h.agrees.b t ht d v hv⟩)
    (fun t ht d v hv => h.agrees.j t ht d v (WholeRun.stored_zero.mpr hv)), h.grid.per, h.agrees.species, ?_, fun _ _ => trivial⟩
  have e : C.sync2.n = C.n := Cpml.nvec2 C.n
  rw [e]
  exact h.inside

theorem lrun2 {C : LConf 2} {β : ℚ} (hC : Admissible C.conf β) (hth : 0 < C.thick) {U : LWorld 2} {rk : Nat → Nat → Nat}
    {x : Nat → LSt 2} (hi : Inits2 C.toPConf (x 0).dom.lay) (h0 : LStarts C (lsys2 C).npatches C.coord2 β (x 0) U)
    (hrun : LRun2 C rk x) (i : Nat) :
    LFollows (lsys2 C).npatches C.sync2 C.place2 C.whole order2 (period C.np C.n C.par.d C.pml) (fun _ => True) β (x i)
      (undividedRun2 C U i) :=
  lrun_follows (lfacts2 hC hth hi) (bounds2 hC) (follows2 hi h0) hrun i

/-- C69: in every run of the 2D program with absorbing layers, on any patches the set-up of the layers accepts, any
rank layout that may change in every step, with any schedule of the exchanges, any order the sorters leave and either path of the push for each species,
every state shows the undivided simulation with layers after the same number of steps, and every particle is stored by the
patch it lies in. -/
theorem run_is_undivided2 {C : LConf 2} {β : ℚ} (hC : Admissible C.conf β) (hth : 0 < C.thick) {U : LWorld 2}
    {rk : Nat → Nat → Nat} {x : Nat → LSt 2} (hi : Inits2 C.toPConf (x 0).dom.lay)
    (h0 : LStarts C (lsys2 C).npatches C.coord2 β (x 0) U) (hrun : LRun2 C rk x) (i : Nat) :
    LAgrees C (lsys2 C).npatches C.coord2 (x i) (undividedRun2 C U i) ∧
      Inside C.conf (lsys2 C).npatches C.coord2 β ⟨(x i).dom.fld, (x i).parts⟩ :=
  (lrun2 hC hth hi h0 hrun i).agrees (Cpml.nvec2 C.n) rfl rfl (funext fun t => Cpml.place2_coord C.toPConf t)

/-- C69: after every step no living particle is in a layer. -/
theorem layers_are_empty2 {C : LConf 2} {β : ℚ} (hC : Admissible C.conf β) (hth : 0 < C.thick) {U : LWorld 2}
    {rk : Nat → Nat → Nat} {x : Nat → LSt 2} (hi : Inits2 C.toPConf (x 0).dom.lay)
    (h0 : LStarts C (lsys2 C).npatches C.coord2 β (x 0) U) (hrun : LRun2 C rk x) (i : Nat) :
    OutsideLayers C (lsys2 C).npatches (x (i + 1)) :=
  (lrun2 hC hth hi h0 hrun (i + 1)).outside (step_free _ _ _)

/-- C69: two runs of the 2D program on the same domain with layers that begin with the same fields and particles, with
different patches, guard cells, rank layouts, schedules and orders and paths of the push, agree after every number of
steps: cells on the same place of the domain hold the same fields, and the particles are the same up to order and whole lengths
of the domain along the periodic axes. -/
theorem decomposition_independent2 {C C' : LConf 2} {β : ℚ} (hC : Admissible C.conf β) (hC' : Admissible C'.conf β)
    (hth : 0 < C.thick) (hw : C'.whole = C.whole) (ht : C'.dt = C.dt) (hs : C'.rs = C.rs) {U : LWorld 2}
    {rk rk' : Nat → Nat → Nat} {x x' : Nat → LSt 2} (hi : Inits2 C.toPConf (x 0).dom.lay) (hi' : Inits2 C'.toPConf (x' 0).dom.lay)
    (h0 : LStarts C (lsys2 C).npatches C.coord2 β (x 0) U) (h0' : LStarts C' (lsys2 C').npatches C'.coord2 β (x' 0) U)
    (hrun : LRun2 C rk x) (hrun' : LRun2 C' rk' x') (i : Nat) :
    (∀ t, t < (lsys2 C).npatches → ∀ t', t' < (lsys2 C').npatches → ∀ v v', Stored C.n C.ng v → Stored C'.n C'.ng v' →
      (∀ a, if C.pml a = true then onGrid C.n (C.coord2 t) v a = onGrid C'.n (C'.coord2 t') v' a else
        onGrid C.n (C.coord2 t) v a ≡ onGrid C'.n (C'.coord2 t') v' a [ZMOD ((C.np a * C.n a : Nat) : Int)]) → ∀ f,
      ((x i).dom.fld t).e f (index C.n C.ng v) = ((x' i).dom.fld t').e f (index C'.n C'.ng v') ∧
      ((x i).dom.fld t).b f (index C.n C.ng v) = ((x' i).dom.fld t').b f (index C'.n C'.ng v')) ∧
    SameCloud (fun a => if C.pml a = true then 0 else C.np a * C.n a * C.par.d a) (cloudOf (lsys2 C).npatches (x i).parts)
      (cloudOf (lsys2 C').npatches (x' i).parts) := by
  have h := lrun2 hC hth hi h0 hrun i
  have h1 := (run_is_undivided2 hC hth hi h0 hrun i).1
  have hth' : 0 < C'.thick := by rw [show C'.thick = C.thick from congrArg Whole.thick hw]; exact hth
  have h' := (run_is_undivided2 hC' hth' hi' h0' hrun' i).1
  have e : undividedRun2 C' U i = undividedRun2 C U i := by
    unfold undividedRun2
    rw [hw, ht, hs]
  rw [e] at h'
  exact lagree_agree h1 h' ⟨h.per.e, h.per.b⟩ hw

/-- C69: no run of the 2D program with layers gets stuck: from every state it reaches there is a next one, whatever ranks
the balancer chooses; and whatever the schedules, the sorters and the orders of the particle exchange, no particle index leaves
its array and no particle is lost between ranks. -/
theorem run_continues2 {C : LConf 2} {β : ℚ} (hC : Admissible C.conf β) (hth : 0 < C.thick) {U : LWorld 2}
    {rk : Nat → Nat → Nat} {x : Nat → LSt 2} (hi : Inits2 C.toPConf (x 0).dom.lay)
    (h0 : LStarts C (lsys2 C).npatches C.coord2 β (x 0) U) (hrun : LRun2 C rk x) (i : Nat) :
    (∀ r r', ∃ y, LStep (lsys2 C) (pmlSys2 C.toPConf) r r' (x i) y) ∧
    ∀ r x1 x2 parts1, (pmlSys2 C.toPConf).SyncE r ((pmlSys2 C.toPConf).stepE (1 / 2 * C.dt) (x i).dom) x1 →
      (pmlSys2 C.toPConf).SyncB r ((pmlSys2 C.toPConf).stepB (1 / 2 * C.dt) x1) x2 → Sorted (x i).parts parts1 →
      ∀ a ∈ (speciesLoop (lsys2 C) x2.fld parts1 fun _ => zeroAcc).1, ∀ ord2 ord3 blank,
        ord2.Perm (List.range (lsys2 C).npatches) → ord3.Perm (List.range (lsys2 C).npatches) →
        parSync ((lsys2 C).geo blank) r ord2 ord3 (fun t => (a.2 t).map (lsys2 C).pack) ≠ none := by
  have h := lrun2 hC hth hi h0 hrun i
  have F := lfacts2 hC hth hi
  refine ⟨fun r r' => lstep_exists F (bounds2 hC) h r r', ?_⟩
  intro r x1 x2 parts1 a1 a2 a3 a ha o2 o3 bl p2 p3
  obtain ⟨s', hs⟩ := lexchange_defined F (bounds2 hC) h a1 a2 a3 a ha o2 o3 bl p2 p3
  rw [hs]
  simp

/-- there are runs from every such state, for every sequence of rank layouts -/
theorem runs2 {C : LConf 2} {β : ℚ} (hC : Admissible C.conf β) (hth : 0 < C.thick) {x0 : LSt 2} {U : LWorld 2}
    (hi : Inits2 C.toPConf x0.dom.lay) (h0 : LStarts C (lsys2 C).npatches C.coord2 β x0 U) (rk : Nat → Nat → Nat) :
    ∃ x, x 0 = x0 ∧ LRun2 C rk x :=
  lrun_exists (lfacts2 hC hth hi) (bounds2 hC) (follows2 hi h0) rk

/-! ## three dimensions

In 3D the code loses the stretching of a layer if an absorbing axis has a single patch (`Verif.Cpml.cpml_single_patch3_fails`), and
its split path does not move particles (`Verif.WholeSplit`), so the properties hold for two patches or more on absorbing axes and
species on the unified path. -/

/-- Specification: the undivided 3D simulation with the parameters of a configuration -/
noncomputable def undividedRun3 (C : LConf 3) (U : LWorld 3) : Nat → LWorld 3 :=
  LWorld.run C.whole (lphys3 C.whole C.dt C.rs) U

theorem lfacts3 {C : LConf 3} {β : ℚ} (h : Admissible C.conf β) (hth : 0 < C.thick) {lay : Nat → List (Cpml.Layer 3)}
    (hi : Inits3 C.toPConf lay) (htwo : ∀ a, C.pml a = true → 2 ≤ C.np a) :
    LFacts (lsys3 C) (pmlSys3 C.toPConf) C.phys3 C.sync3 C.place3 off3 B3.opp C.whole order3 (period C.np C.n C.par.d C.pml)
      (fun sp => sp.unified = true) C.conf.kern3 := by
  have two : ∀ a, C.pml a = true → (∀ a, C.thick < C.n a) ∧ 2 ≤ C.np a := by
    intro a hp
    obtain ⟨u, hu, hc⟩ := Cpml.place3_full C.toPConf (fun _ => 0) h.patches
    exact ⟨Cpml.thick_fits (W := C.whole) Cpml.addPml3_eq (by decide) (hi u hu) (fun b => by rw [hc]) hp, htwo a hp⟩
  exact ⟨pushFacts3 C h.guard h.wide h.cell h.step h.patches (fun a hp => ⟨hth, (two a hp).1 a⟩),
    Cpml.facts3 C.toPConf (le_trans (by decide) h.guard) h.wide two, rfl, rfl, rfl, rfl, rfl, fun cl => curOpen_per3 _ _ cl⟩

theorem bounds3 {C : LConf 3} {β : ℚ} (h : Admissible C.conf β) :
    Bounds C.sync3.n 3 C.whole.par.d C.phys3.rs C.phys3.dt β := by
  have hb := h.bounds
  have e : C.sync3.n = C.n := Cpml.nvec3 C.n
  rw [e]
  obtain ⟨_, h2, h3, h4, h5, h6⟩ := hb
  exact ⟨le_refl _, h2, h3, h4, h5, h6⟩

theorem follows3 {C : LConf 3} {β : ℚ} {x : LSt 3} {U : LWorld 3} (hi : Inits3 C.toPConf x.dom.lay)
    (h : LStarts C (lsys3 C).npatches C.coord3 β x U) (hu : ∀ a ∈ x.parts, a.1.unified = true) :
    LFollows (lsys3 C).npatches C.sync3 C.place3 C.whole order3 (period C.np C.n C.par.d C.pml) (fun sp => sp.unified = true) β x U := by
  refine ⟨Cpml.rep3 hi h.grid (fun t ht d v hv => ⟨h.agrees.e t ht d v hv, h.agrees.b t ht d v hv⟩)
    (fun t ht d v hv => h.agrees.j t ht d v (WholeRun.stored_zero.mpr hv)), h.grid.per, h.agrees.species, ?_, hu⟩
  have e : C.sync3.n = C.n := Cpml.nvec3 C.n
  rw [e]
  exact h.inside

theorem lrun3 {C : LConf 3} {β : ℚ} (hC : Admissible C.conf β) (hth : 0 < C.thick) (htwo : ∀ a, C.pml a = true → 2 ≤ C.np a) {U : LWorld 3} {rk : Nat → Nat → Nat}
    {x : Nat → LSt 3} (hi : Inits3 C.toPConf (x 0).dom.lay) (h0 : LStarts C (lsys3 C).npatches C.coord3 β (x 0) U)
    (hu : ∀ a ∈ (x 0).parts, a.1.unified = true)
    (hrun : LRun3 C rk x) (i : Nat) :
    LFollows (lsys3 C).npatches C.sync3 C.place3 C.whole order3 (period C.np C.n C.par.d C.pml) (fun sp => sp.unified = true) β (x i)
      (undividedRun3 C U i) :=
  lrun_follows (lfacts3 hC hth hi htwo) (bounds3 hC) (follows3 hi h0 hu) hrun i

/-- C69 in 3D: in every run of the 3D program with absorbing layers (two patches or more on absorbing axes, species on the unified path), on any patches the set-up of the layers accepts, any
rank layout that may change in every step, with any schedule of the exchanges and any order the sorters leave,
every state shows the undivided simulation with layers after the same number of steps, and every particle is stored by the
patch it lies in. Missing for the full property: a single patch on an absorbing
axis, and species on the split path. -/
theorem run_is_undivided3_partial {C : LConf 3} {β : ℚ} (hC : Admissible C.conf β) (hth : 0 < C.thick) (htwo : ∀ a, C.pml a = true → 2 ≤ C.np a) {U : LWorld 3}
    {rk : Nat → Nat → Nat} {x : Nat → LSt 3} (hi : Inits3 C.toPConf (x 0).dom.lay)
    (h0 : LStarts C (lsys3 C).npatches C.coord3 β (x 0) U)
    (hu : ∀ a ∈ (x 0).parts, a.1.unified = true) (hrun : LRun3 C rk x) (i : Nat) :
    LAgrees C (lsys3 C).npatches C.coord3 (x i) (undividedRun3 C U i) ∧
      Inside C.conf (lsys3 C).npatches C.coord3 β ⟨(x i).dom.fld, (x i).parts⟩ :=
  (lrun3 hC hth htwo hi h0 hu hrun i).agrees (Cpml.nvec3 C.n) rfl rfl (funext fun t => Cpml.place3_coord C.toPConf t)

/-- C69 in 3D: after every step no living particle is in a layer. Missing for the full property: a single patch on an absorbing
axis, and species on the split path. -/
theorem layers_are_empty3_partial {C : LConf 3} {β : ℚ} (hC : Admissible C.conf β) (hth : 0 < C.thick) (htwo : ∀ a, C.pml a = true → 2 ≤ C.np a) {U : LWorld 3}
    {rk : Nat → Nat → Nat} {x : Nat → LSt 3} (hi : Inits3 C.toPConf (x 0).dom.lay)
    (h0 : LStarts C (lsys3 C).npatches C.coord3 β (x 0) U)
    (hu : ∀ a ∈ (x 0).parts, a.1.unified = true) (hrun : LRun3 C rk x) (i : Nat) :
    OutsideLayers C (lsys3 C).npatches (x (i + 1)) :=
  (lrun3 hC hth htwo hi h0 hu hrun (i + 1)).outside (step_free _ _ _)

/-- C69 in 3D: two runs of the 3D program on the same domain with layers that begin with the same fields and particles, with
different patches, guard cells, rank layouts, schedules and orders, agree after every number of
steps: cells on the same place of the domain hold the same fields, and the particles are the same up to order and whole lengths
of the domain along the periodic axes. Missing for the full property: a single patch on an absorbing
axis, and species on the split path. -/
theorem decomposition_independent3_partial {C C' : LConf 3} {β : ℚ} (hC : Admissible C.conf β) (hC' : Admissible C'.conf β)
    (hth : 0 < C.thick) (htwo : ∀ a, C.pml a = true → 2 ≤ C.np a) (htwo' : ∀ a, C'.pml a = true → 2 ≤ C'.np a) (hw : C'.whole = C.whole) (ht : C'.dt = C.dt) (hs : C'.rs = C.rs) {U : LWorld 3}
    {rk rk' : Nat → Nat → Nat} {x x' : Nat → LSt 3} (hi : Inits3 C.toPConf (x 0).dom.lay) (hi' : Inits3 C'.toPConf (x' 0).dom.lay)
    (h0 : LStarts C (lsys3 C).npatches C.coord3 β (x 0) U) (h0' : LStarts C' (lsys3 C').npatches C'.coord3 β (x' 0) U)
    (hu : ∀ a ∈ (x 0).parts, a.1.unified = true)
    (hu' : ∀ a ∈ (x' 0).parts, a.1.unified = true)
    (hrun : LRun3 C rk x) (hrun' : LRun3 C' rk' x') (i : Nat) :
    (∀ t, t < (lsys3 C).npatches → ∀ t', t' < (lsys3 C').npatches → ∀ v v', Stored C.n C.ng v → Stored C'.n C'.ng v' →
      (∀ a, if C.pml a = true then onGrid C.n (C.coord3 t) v a = onGrid C'.n (C'.coord3 t') v' a else
        onGrid C.n (C.coord3 t) v a ≡ onGrid C'.n (C'.coord3 t') v' a [ZMOD ((C.np a * C.n a : Nat) : Int)]) → ∀ f,
      ((x i).dom.fld t).e f (index C.n C.ng v) = ((x' i).dom.fld t').e f (index C'.n C'.ng v') ∧
      ((x i).dom.fld t).b f (index C.n C.ng v) = ((x' i).dom.fld t').b f (index C'.n C'.ng v')) ∧
    SameCloud (fun a => if C.pml a = true then 0 else C.np a * C.n a * C.par.d a) (cloudOf (lsys3 C).npatches (x i).parts)
      (cloudOf (lsys3 C').npatches (x' i).parts) := by
  have h := lrun3 hC hth htwo hi h0 hu hrun i
  have h1 := (run_is_undivided3_partial hC hth htwo hi h0 hu hrun i).1
  have hth' : 0 < C'.thick := by rw [show C'.thick = C.thick from congrArg Whole.thick hw]; exact hth
  have h' := (run_is_undivided3_partial hC' hth' htwo' hi' h0' hu' hrun' i).1
  have e : undividedRun3 C' U i = undividedRun3 C U i := by
    unfold undividedRun3
    rw [hw, ht, hs]
  rw [e] at h'
  exact lagree_agree h1 h' ⟨h.per.e, h.per.b⟩ hw

/-- C69 in 3D: no run of the 3D program with layers gets stuck: from every state it reaches there is a next one, whatever ranks
the balancer chooses; and whatever the schedules, the sorters and the orders of the particle exchange, no particle index leaves
its array and no particle is lost between ranks. Missing for the full property: a single patch on an absorbing
axis, and species on the split path. -/
theorem run_continues3_partial {C : LConf 3} {β : ℚ} (hC : Admissible C.conf β) (hth : 0 < C.thick) (htwo : ∀ a, C.pml a = true → 2 ≤ C.np a) {U : LWorld 3}
    {rk : Nat → Nat → Nat} {x : Nat → LSt 3} (hi : Inits3 C.toPConf (x 0).dom.lay)
    (h0 : LStarts C (lsys3 C).npatches C.coord3 β (x 0) U)
    (hu : ∀ a ∈ (x 0).parts, a.1.unified = true) (hrun : LRun3 C rk x) (i : Nat) :
    (∀ r r', ∃ y, LStep (lsys3 C) (pmlSys3 C.toPConf) r r' (x i) y) ∧
    ∀ r x1 x2 parts1, (pmlSys3 C.toPConf).SyncE r ((pmlSys3 C.toPConf).stepE (1 / 2 * C.dt) (x i).dom) x1 →
      (pmlSys3 C.toPConf).SyncB r ((pmlSys3 C.toPConf).stepB (1 / 2 * C.dt) x1) x2 → Sorted (x i).parts parts1 →
      ∀ a ∈ (speciesLoop (lsys3 C) x2.fld parts1 fun _ => zeroAcc).1, ∀ ord2 ord3 blank,
        ord2.Perm (List.range (lsys3 C).npatches) → ord3.Perm (List.range (lsys3 C).npatches) →
        parSync ((lsys3 C).geo blank) r ord2 ord3 (fun t => (a.2 t).map (lsys3 C).pack) ≠ none := by
  have h := lrun3 hC hth htwo hi h0 hu hrun i
  have F := lfacts3 hC hth hi htwo
  refine ⟨fun r r' => lstep_exists F (bounds3 hC) h r r', ?_⟩
  intro r x1 x2 parts1 a1 a2 a3 a ha o2 o3 bl p2 p3
  obtain ⟨s', hs⟩ := lexchange_defined F (bounds3 hC) h a1 a2 a3 a ha o2 o3 bl p2 p3
  rw [hs]
  simp

/-- there are runs from every such state, for every sequence of rank layouts -/
theorem runs3 {C : LConf 3} {β : ℚ} (hC : Admissible C.conf β) (hth : 0 < C.thick) (htwo : ∀ a, C.pml a = true → 2 ≤ C.np a) {x0 : LSt 3} {U : LWorld 3}
    (hi : Inits3 C.toPConf x0.dom.lay) (h0 : LStarts C (lsys3 C).npatches C.coord3 β x0 U) (hu : ∀ a ∈ x0.parts, a.1.unified = true) (rk : Nat → Nat → Nat) :
    ∃ x, x 0 = x0 ∧ LRun3 C rk x :=
  lrun_exists (lfacts3 hC hth hi htwo) (bounds3 hC) (follows3 hi h0 hu) rk

/-! ## cases that meet the hypotheses -/

/-- `k` axes, absorbing along the first, with layers of one cell; an electron at cell (1, 1, …) that moves in a field along `y`;
`1/sqrt(s)` replaced by `1/s`, `exp(q)` by `1/(1 + q^2)` -/
def exL (k : Nat) (np n : Fin k → Nat) : LConf k :=
  ⟨⟨np, n, 3, fun a => decide (a.val = 0), 1, 3, ⟨fun _ => 1, lightSpeed ^ 2, 1⟩, fun q => 1 / (1 + q * q)⟩, 1 / (2 * lightSpeed), fun s => 1 / s⟩

def exU (k : Nat) : LWorld k :=
  ⟨⟨fun f _ => if f = 1 then 5 else 0, fun _ _ => 0, fun _ _ => 0, fun _ _ _ => 0, fun _ _ _ => 0⟩, (WholeRun.exWorld k).cloud⟩
def exX (k : Nat) (lay : Nat → List (Cpml.Layer k)) (un : Bool) : LSt k :=
  ⟨⟨(WholeRun.exState k un).fld, lay⟩, (WholeRun.exState k un).parts⟩

theorem exLStarts {k : Nat} {np n : Fin k → Nat} {N : Nat} {co : Nat → Fin k → Nat} (hn : ∀ a, 3 ≤ n a) (hN : 0 < N)
    (hc : co 0 = fun _ => 0) (lay : Nat → List (Cpml.Layer k)) (un : Bool) : LStarts (exL k np n) N co 1 (exX k lay un) (exU k) where
  agrees := ⟨fun _ _ _ _ _ => rfl, fun _ _ _ _ _ => rfl, fun _ _ _ _ _ => rfl, WholeRun.exSpecies hN _ un⟩
  inside := (WholeRun.exStarts (np := np) hn hN hc un).inside
  grid := ⟨fun _ _ _ _ => rfl, fun _ _ _ _ => rfl, fun _ _ _ _ => rfl, fun _ _ _ => rfl, fun _ _ _ => rfl⟩

/-- the electron is between the layers; a particle half a cell further left than the middle of the first cell is in one -/
example : Free (exL 2 ![2, 1] ![6, 3]).whole (fun _ => 1) ∧ ¬ Free (exL 2 ![2, 1] ![6, 3]).whole (fun _ => 0) := by decide +kernel

/-- 2D: a run on two patches that change their rank in every step, with the split path, and a run on three patches with the
unified path, on the same domain and from the same world, meet the hypotheses -/
example : ∃ x x' : Nat → LSt 2,
    Admissible (exL 2 ![2, 1] ![6, 3]).conf 1 ∧ Admissible (exL 2 ![3, 1] ![4, 3]).conf 1 ∧
    (exL 2 ![3, 1] ![4, 3]).whole = (exL 2 ![2, 1] ![6, 3]).whole ∧
    Inits2 (exL 2 ![2, 1] ![6, 3]).toPConf (x 0).dom.lay ∧ Inits2 (exL 2 ![3, 1] ![4, 3]).toPConf (x' 0).dom.lay ∧
    LStarts (exL 2 ![2, 1] ![6, 3]) (lsys2 (exL 2 ![2, 1] ![6, 3])).npatches (exL 2 ![2, 1] ![6, 3]).coord2 1 (x 0) (exU 2) ∧
    LStarts (exL 2 ![3, 1] ![4, 3]) (lsys2 (exL 2 ![3, 1] ![4, 3])).npatches (exL 2 ![3, 1] ![4, 3]).coord2 1 (x' 0) (exU 2) ∧
    LRun2 (exL 2 ![2, 1] ![6, 3]) (fun i t => (i + t) % 2) x ∧ LRun2 (exL 2 ![3, 1] ![4, 3]) (fun _ _ => 0) x' := by
  have a1 : Admissible (exL 2 ![2, 1] ![6, 3]).conf 1 := WholeRun.exConf_ok (np := ![2, 1]) (n := ![6, 3])
    (fun a => match a with | 0 => by decide | 1 => by decide) (fun a => match a with | 0 => by decide | 1 => by decide)
  have a2 : Admissible (exL 2 ![3, 1] ![4, 3]).conf 1 := WholeRun.exConf_ok (np := ![3, 1]) (n := ![4, 3])
    (fun a => match a with | 0 => by decide | 1 => by decide) (fun a => match a with | 0 => by decide | 1 => by decide)
  have i1 : Inits2 (exL 2 ![2, 1] ![6, 3]).toPConf (Cpml.exLay (exL 2 ![2, 1] ![6, 3]).toPConf) := Cpml.exInits _ (by decide +kernel)
  have i2 : Inits2 (exL 2 ![3, 1] ![4, 3]).toPConf (Cpml.exLay (exL 2 ![3, 1] ![4, 3]).toPConf) := Cpml.exInits _ (by decide +kernel)
  have s1 := exLStarts (np := ![2, 1]) (n := ![6, 3]) (N := (lsys2 (exL 2 ![2, 1] ![6, 3])).npatches)
    (co := (exL 2 ![2, 1] ![6, 3]).coord2) (fun a => match a with | 0 => by decide | 1 => by decide) (by decide)
    (by funext a; match a with | 0 => rfl | 1 => rfl) (Cpml.exLay (exL 2 ![2, 1] ![6, 3]).toPConf) false
  have s2 := exLStarts (np := ![3, 1]) (n := ![4, 3]) (N := (lsys2 (exL 2 ![3, 1] ![4, 3])).npatches)
    (co := (exL 2 ![3, 1] ![4, 3]).coord2) (fun a => match a with | 0 => by decide | 1 => by decide) (by decide)
    (by funext a; match a with | 0 => rfl | 1 => rfl) (Cpml.exLay (exL 2 ![3, 1] ![4, 3]).toPConf) true
  obtain ⟨x, e1, r1⟩ := runs2 a1 (by decide) i1 s1 (fun i t => (i + t) % 2)
  obtain ⟨x', e2, r2⟩ := runs2 a2 (by decide) i2 s2 (fun _ _ => 0)
  refine ⟨x, x', a1, a2, ?_, e1 ▸ i1, e2 ▸ i2, e1 ▸ s1, e2 ▸ s2, r1, r2⟩
  unfold exL PConf.whole
  congr 1
  funext a
  match a with
  | 0 => rfl
  | 1 => rfl

/-- 3D: the same with two patches on two ranks, on the unified path -/
example : ∃ x : Nat → LSt 3, Admissible (exL 3 ![2, 1, 1] ![4, 3, 3]).conf 1 ∧
    (∀ a, (exL 3 ![2, 1, 1] ![4, 3, 3]).pml a = true → 2 ≤ (exL 3 ![2, 1, 1] ![4, 3, 3]).np a) ∧
    Inits3 (exL 3 ![2, 1, 1] ![4, 3, 3]).toPConf (x 0).dom.lay ∧
    LStarts (exL 3 ![2, 1, 1] ![4, 3, 3]) (lsys3 (exL 3 ![2, 1, 1] ![4, 3, 3])).npatches
      (exL 3 ![2, 1, 1] ![4, 3, 3]).coord3 1 (x 0) (exU 3) ∧
    (∀ a ∈ (x 0).parts, a.1.unified = true) ∧ LRun3 (exL 3 ![2, 1, 1] ![4, 3, 3]) (fun _ t => t) x := by
  have a1 : Admissible (exL 3 ![2, 1, 1] ![4, 3, 3]).conf 1 := WholeRun.exConf_ok (np := ![2, 1, 1]) (n := ![4, 3, 3])
    (fun a => match a with | 0 => by decide | 1 => by decide | 2 => by decide)
    (fun a => match a with | 0 => by decide | 1 => by decide | 2 => by decide)
  have t1 : ∀ a, (exL 3 ![2, 1, 1] ![4, 3, 3]).pml a = true → 2 ≤ (exL 3 ![2, 1, 1] ![4, 3, 3]).np a := by decide
  let C := (exL 3 ![2, 1, 1] ![4, 3, 3]).toPConf
  have i1 : Inits3 C fun t => (Cpml.initPml3 C.np C.n (C.coord3 t) (fun a _ => C.pml a) C.thick C.smax).getD [] := by
    have hs : ∀ t, t < (pmlSys3 C).npatches → (Cpml.initPml3 C.np C.n (C.coord3 t) (fun a _ => C.pml a) C.thick C.smax).isSome = true := by
      decide +kernel
    intro t ht
    have := hs t ht
    dsimp only
    cases e : Cpml.initPml3 C.np C.n (C.coord3 t) (fun a _ => C.pml a) C.thick C.smax with
    | none => rw [e] at this; cases this
    | some r => rfl
  have s1 := exLStarts (np := ![2, 1, 1]) (n := ![4, 3, 3]) (N := (lsys3 (exL 3 ![2, 1, 1] ![4, 3, 3])).npatches)
    (co := (exL 3 ![2, 1, 1] ![4, 3, 3]).coord3) (fun a => match a with | 0 => by decide | 1 => by decide | 2 => by decide)
    (by decide) (by funext a; match a with | 0 => rfl | 1 => rfl | 2 => rfl)
    (fun t => (Cpml.initPml3 C.np C.n (C.coord3 t) (fun a _ => C.pml a) C.thick C.smax).getD []) true
  have hu : ∀ a ∈ (WholeRun.exState 3 true).parts, a.1.unified = true := by
    intro a ha
    rcases List.mem_singleton.mp ha with rfl
    rfl
  obtain ⟨x, e1, r1⟩ := runs3 a1 (by decide) t1 i1 s1 hu (fun _ t => t)
  exact ⟨x, a1, t1, e1 ▸ i1, e1 ▸ s1, e1 ▸ hu, r1⟩

end Verif.WholePml
