import Verif.Model.Density
import Verif.Props.CurrentSync
/-!
# C49 — the density of one species
-/
namespace Verif.SyncFields
open Verif.RunLoop (Op Ev Stage Config Oracle Clock stepOps speciesOps createOps)
open Verif.Neighbors

variable {k : Nat} {D : Type}

/-- Specification: `rho` is what a callback finds after its `sync_currents`, after the events `evs` and whatever the callbacks before it
in the same stage called -/
def SyncedAt [DecidableEq D] (S : CurrentSys k D) (δ : Nat → Nat → Loc k → ℚ) (calls : Nat → Stage → Option Nat → List Call) (s0 : CurrentSt k D)
    (evs : List Ev) (rho : Loc k → ℚ) : Prop :=
  ∃ cs s1 s2 s', Call.start ∉ cs ∧ S.Evs δ calls evs s0 s1 ∧ S.Calls cs s1 s2 ∧ S.Sync s2 s' ∧ rho = s'.mem

section Trace
variable (target : Nat) (q : ℚ) (fires : Nat → Bool) (snap : List Ev → Loc k → ℚ)

theorem densRun_append (a b : List Ev) : ∀ (pre : List Ev) (st : DensSt k),
    densRun target q fires snap pre (a ++ b) st =
      (densRun target q fires snap pre a st).bind (densRun target q fires snap (pre ++ a) b) := by
  induction a with
  | nil => intro pre st; rw [List.append_nil]; rfl
  | cons e a ih =>
    intro pre st
    show (densEvent target q fires (snap pre) e st).bind _ = ((densEvent target q fires (snap pre) e st).bind _).bind _
    cases densEvent target q fires (snap pre) e st with
    | none => rfl
    | some st1 =>
      show densRun target q fires snap (pre ++ [e]) (a ++ b) st1 = (densRun target q fires snap (pre ++ [e]) a st1).bind _
      rw [ih, List.append_assoc]; rfl

/-- the callback does nothing at this operation -/
def Quiet (op : Op) : Prop := ∀ i, op = .stage .currentDeposition (some i) → i ≠ target ∧ (target ≠ 0 → i ≠ target - 1)

theorem densEvent_quiet {e : Ev} (h : Quiet target e.op) (rho : Loc k → ℚ) (st : DensSt k) :
    densEvent target q fires rho e st = some st := by
  unfold densEvent
  split
  · rename_i i hop
    obtain ⟨h1, h2⟩ := h i hop
    unfold densCall
    by_cases hf : fires e.istep = true
    · rw [if_pos hf]
      by_cases ht : target = 0
      · rw [if_pos ht, if_neg (by omega)]
      · rw [if_neg ht, if_neg (h2 ht), if_neg h1]
    · rw [if_neg hf]
  · rfl

theorem densRun_quiet (evs : List Ev) (h : ∀ e ∈ evs, Quiet target e.op) : ∀ (pre : List Ev) (st : DensSt k),
    densRun target q fires snap pre evs st = some st := by
  induction evs with
  | nil => intro pre st; rfl
  | cons e evs ih =>
    intro pre st
    show (densEvent target q fires (snap pre) e st).bind _ = _
    rw [densEvent_quiet target q fires (h e List.mem_cons_self)]
    exact ih (fun x hx => h x (List.mem_cons_of_mem _ hx)) _ _

/-- the operations of a species before its callbacks -/
def body (c : Config) (i : Nat) : List Op :=
  if c.unified i then [.unified i]
   else [.pushPosition i, .stage .pushPosition1 (some i), .interpolate i, .stage .interpolator (some i)] ++
     (if c.radiation i then [.radiate i] else []) ++ (if c.pairs i then [.pairs i] else []) ++
     [.stage .qed (some i), .pushMomentum i, .stage .pushMomentum (some i), .pushPosition i,
      .stage .pushPosition2 (some i), .deposit i]

theorem speciesOps_body (c : Config) (i : Nat) : speciesOps c i = body c i ++ [.stage .currentDeposition (some i)] := rfl

theorem body_quiet (c : Config) (i : Nat) : ∀ op ∈ body c i, Quiet target op := by
  intro op hop j hj
  subst hj
  unfold body at hop
  by_cases a : c.unified i = true <;> by_cases b : c.radiation i = true <;> by_cases d : c.pairs i = true <;>
    simp [a, b, d] at hop

theorem deposited_body (δ : Nat → Nat → Loc k → ℚ) (c : Config) (i istep : Nat) (clk : Clock) (evs : List Ev) :
    deposited δ (evs ++ (body c i).map (Ev.mk istep clk)) = fun l => deposited δ evs l + δ istep i l := by
  unfold deposited body
  rw [List.foldl_append]
  by_cases a : c.unified i = true <;> by_cases b : c.radiation i = true <;> by_cases d : c.pairs i = true <;>
    simp [a, b, d]

/-- what comes before and after the species loop -/
def before (c : Config) (o : Oracle) : List Op :=
  [.stage .start none, .updateE, .syncGuardE, .updateB, .syncGuardB, .stage .maxwell1 none] ++
  ((List.range c.nspec).filter o.sortEnabled).map .sort ++
  (if c.collision then [.collide] else [])

def afterLoop (c : Config) (o : Oracle) : List Op :=
  [.syncCurrentsStart] ++
  ((List.range c.nspec).filter o.createEnabled).flatMap (createOps c) ++
  [.mpiParticles, .syncParticles, .syncCurrentsWait] ++
  (if o.rebalance then [.rebalance] else []) ++
  [.updateLists, .stage .qedCreate none, .updateB, .stage .laser none, .syncGuardB, .updateE, .syncGuardE,
   .stage .maxwell2 none, .stage .end_ none]

theorem stepOps_split (c : Config) (o : Oracle) : stepOps c o =
    before c o ++ [Op.resetCurrents] ++ ((List.range c.nspec).filter o.pushEnabled).flatMap (speciesOps c) ++ afterLoop c o := by
  unfold stepOps before afterLoop
  simp only [List.append_assoc]

theorem before_quiet (c : Config) (o : Oracle) : ∀ op ∈ before c o, Quiet target op := by
  intro op hop j hj
  subst hj
  unfold before at hop
  by_cases a : c.collision = true <;> simp [a] at hop

theorem afterLoop_quiet (c : Config) (o : Oracle) : ∀ op ∈ afterLoop c o, Quiet target op := by
  intro op hop j hj
  subst hj
  unfold afterLoop createOps at hop
  by_cases a : o.rebalance = true <;> simp [a, List.mem_flatMap] at hop <;>
  · obtain ⟨i, _, hop⟩ := hop
    by_cases b : c.radiation i = true <;> by_cases d : c.pairs i = true <;> simp [b, d] at hop

theorem species_quiet (c : Config) (l : List Nat) (h : ∀ i ∈ l, i ≠ target ∧ (target ≠ 0 → i ≠ target - 1)) :
    ∀ op ∈ l.flatMap (speciesOps c), Quiet target op := by
  intro op hop
  obtain ⟨i, hi, hop⟩ := List.mem_flatMap.mp hop
  rw [speciesOps_body] at hop
  rcases List.mem_append.mp hop with hop | hop
  · exact body_quiet target c i op hop
  · rw [List.mem_singleton] at hop
    intro j hj
    rw [hop] at hj
    cases hj
    exact h i hi

theorem quiet_map {l : List Op} {istep : Nat} {clk : Clock} (h : ∀ op ∈ l, Quiet target op) :
    ∀ e ∈ l.map (Ev.mk istep clk), Quiet target e.op := by
  intro e he
  obtain ⟨op, hop, rfl⟩ := List.mem_map.mp he
  exact h op hop

/-- the species before, the target and the species after it -/
theorem species_split (c : Config) (f : Nat → Bool) (ht : target < c.nspec) :
    ∃ l2, (List.range c.nspec).filter f = (List.range target).filter f ++ (if f target then [target] else []) ++ l2 ∧
      ∀ i ∈ l2, target < i := by
  obtain ⟨m, hm⟩ : ∃ m, c.nspec = target + (1 + m) := ⟨c.nspec - target - 1, by omega⟩
  refine ⟨(((List.range m).map (1 + ·)).map (target + ·)).filter f, ?_, ?_⟩
  · rw [hm, List.range_add, List.range_add, List.filter_append, List.map_append, List.filter_append, List.append_assoc]
    congr 2
    by_cases h : f target = true <;> simp [h]
  · intro i hi
    obtain ⟨j, hj, rfl⟩ := List.mem_map.mp (List.mem_filter.mp hi).1
    obtain ⟨j', _, rfl⟩ := List.mem_map.mp hj
    omega

/-- a whole step, when the target and (if there is one) the species before it are enabled -/
theorem densRun_step (c : Config) (o : Oracle) (istep : Nat) (clk : Clock) (A : List Ev) (st : DensSt k)
    (ht : target < c.nspec) (he : o.pushEnabled target = true) (hp : target ≠ 0 → o.pushEnabled (target - 1) = true)
    (hf : fires istep = true) :
    ∃ X rest, (stepOps c o).map (Ev.mk istep clk) = X ++ (body c target).map (Ev.mk istep clk) ++ rest ∧
      (target = 0 → (∃ Y, X = Y ++ [⟨istep, clk, .resetCurrents⟩]) ∧
        densRun target q fires snap A ((stepOps c o).map (Ev.mk istep clk)) st =
          some ⟨st.prev, st.out ++ [(istep, fun l => snap (A ++ X ++ (body c target).map (Ev.mk istep clk)) l / q)]⟩) ∧
      (target ≠ 0 → ∃ Y, X = Y ++ [⟨istep, clk, .stage .currentDeposition (some (target - 1))⟩] ∧
        densRun target q fires snap A ((stepOps c o).map (Ev.mk istep clk)) st =
          some ⟨none, st.out ++ [(istep, fun l => (snap (A ++ X ++ (body c target).map (Ev.mk istep clk)) l - snap (A ++ Y) l) / q)]⟩) := by
  obtain ⟨l2, hl, hl2⟩ := species_split target c o.pushEnabled ht
  rw [if_pos he] at hl
  by_cases h0 : target = 0
  · subst h0
    refine ⟨(before c o ++ [Op.resetCurrents]).map (Ev.mk istep clk),
      ([Op.stage .currentDeposition (some 0)] ++ l2.flatMap (speciesOps c) ++ afterLoop c o).map (Ev.mk istep clk), ?_, ?_, fun h => absurd rfl h⟩
    · rw [stepOps_split, hl, ← List.map_append, ← List.map_append]
      simp only [List.range_zero, List.filter_nil, List.nil_append, List.cons_append, List.flatMap_cons, speciesOps_body,
        List.append_assoc]
    · intro _
      refine ⟨⟨(before c o).map (Ev.mk istep clk), by rw [List.map_append]; rfl⟩, ?_⟩
      have e : (stepOps c o).map (Ev.mk istep clk) = ((before c o ++ [Op.resetCurrents]).map (Ev.mk istep clk) ++
          (body c 0).map (Ev.mk istep clk)) ++ ([⟨istep, clk, .stage .currentDeposition (some 0)⟩] ++
          (l2.flatMap (speciesOps c) ++ afterLoop c o).map (Ev.mk istep clk)) := by
        rw [stepOps_split, hl]
        simp only [List.range_zero, List.filter_nil, List.nil_append, List.singleton_append, List.flatMap_cons, speciesOps_body,
          List.append_assoc, List.map_append, List.map_cons, List.map_nil, List.cons_append]
      rw [e, densRun_append, densRun_quiet 0 q fires snap, Option.bind_some, densRun_append]
      · have hev : densRun 0 q fires snap (A ++ ((before c o ++ [Op.resetCurrents]).map (Ev.mk istep clk) ++
            (body c 0).map (Ev.mk istep clk))) [⟨istep, clk, .stage .currentDeposition (some 0)⟩] st =
            some ⟨st.prev, st.out ++ [(istep, fun l => snap (A ++ ((before c o ++ [Op.resetCurrents]).map (Ev.mk istep clk) ++
            (body c 0).map (Ev.mk istep clk))) l / q)]⟩ := by
          show (densEvent 0 q fires _ _ st).bind _ = _
          unfold densEvent densCall
          dsimp only
          rw [if_pos hf]; rfl
        rw [hev, Option.bind_some, densRun_quiet 0 q fires snap, List.append_assoc]
        refine quiet_map 0 fun op hop => ?_
        rcases List.mem_append.mp hop with hop | hop
        · exact species_quiet 0 c l2 (fun i hi => ⟨by have := hl2 i hi; omega, fun h => absurd rfl h⟩) op hop
        · exact afterLoop_quiet 0 c o op hop
      · rw [← List.map_append]
        refine quiet_map 0 fun op hop => ?_
        rcases List.mem_append.mp hop with hop | hop
        · rcases List.mem_append.mp hop with hop | hop
          · exact before_quiet 0 c o op hop
          · rw [List.mem_singleton] at hop; subst hop; intro i hi; cases hi
        · exact body_quiet 0 c 0 op hop
  · obtain ⟨l1, hl1, hl1'⟩ : ∃ l1, (List.range target).filter o.pushEnabled = l1 ++ [target - 1] ∧ ∀ i ∈ l1, i < target - 1 := by
      refine ⟨(List.range (target - 1)).filter o.pushEnabled, ?_, fun i hi => List.mem_range.mp (List.mem_filter.mp hi).1⟩
      have : target = (target - 1) + 1 := by omega
      conv_lhs => rw [this, List.range_succ, List.filter_append]
      congr 1
      simp [hp h0]
    rw [hl1] at hl
    have e : (stepOps c o).map (Ev.mk istep clk) = ((before c o ++ [Op.resetCurrents] ++ l1.flatMap (speciesOps c) ++ body c (target - 1)).map (Ev.mk istep clk)) ++
        ([⟨istep, clk, .stage .currentDeposition (some (target - 1))⟩] ++ ((body c target).map (Ev.mk istep clk) ++
        ([⟨istep, clk, .stage .currentDeposition (some target)⟩] ++
        (l2.flatMap (speciesOps c) ++ afterLoop c o).map (Ev.mk istep clk)))) := by
      rw [stepOps_split, hl]
      simp only [List.flatMap_append, List.flatMap_cons, List.flatMap_nil, List.append_nil, speciesOps_body,
        List.append_assoc, List.map_append, List.map_cons, List.map_nil, List.cons_append, List.nil_append]
    refine ⟨((before c o ++ [Op.resetCurrents] ++ l1.flatMap (speciesOps c) ++ body c (target - 1)).map (Ev.mk istep clk)) ++
        [⟨istep, clk, .stage .currentDeposition (some (target - 1))⟩], [⟨istep, clk, .stage .currentDeposition (some target)⟩] ++
        (l2.flatMap (speciesOps c) ++ afterLoop c o).map (Ev.mk istep clk), ?_, fun h => absurd h h0, fun _ =>
        ⟨((before c o ++ [Op.resetCurrents] ++ l1.flatMap (speciesOps c) ++ body c (target - 1)).map (Ev.mk istep clk)), rfl, ?_⟩⟩
    · rw [e]; simp only [List.append_assoc]
    · rw [e, densRun_append, densRun_quiet target q fires snap, Option.bind_some, densRun_append]
      · have hev : ∀ pre : List Ev, densRun target q fires snap pre [⟨istep, clk, .stage .currentDeposition (some (target - 1))⟩] st =
            some ⟨some (snap pre), st.out⟩ := by
          intro pre
          show (densEvent target q fires _ _ st).bind _ = _
          unfold densEvent densCall
          dsimp only
          rw [if_pos hf, if_neg h0, if_pos rfl]; rfl
        have hev2 : ∀ (pre : List Ev) (m : Loc k → ℚ), densRun target q fires snap pre [⟨istep, clk, .stage .currentDeposition (some target)⟩] ⟨some m, st.out⟩ =
            some ⟨none, st.out ++ [(istep, fun l => (snap pre l - m l) / q)]⟩ := by
          intro pre m
          show (densEvent target q fires _ _ _).bind _ = _
          unfold densEvent densCall
          dsimp only
          rw [if_pos hf, if_neg h0, if_neg (by omega), if_pos rfl]; rfl
        rw [hev, Option.bind_some, densRun_append, densRun_quiet target q fires snap _ (quiet_map target (body_quiet target c target)),
          Option.bind_some, densRun_append, hev2, Option.bind_some, densRun_quiet target q fires snap]
        · simp only [List.append_assoc]
        · refine quiet_map target fun op hop => ?_
          rcases List.mem_append.mp hop with hop | hop
          · exact species_quiet target c l2 (fun i hi => ⟨by have := hl2 i hi; omega, fun _ => by have := hl2 i hi; omega⟩) op hop
          · exact afterLoop_quiet target c o op hop
      · refine quiet_map target fun op hop => ?_
        rcases List.mem_append.mp hop with hop | hop
        · rcases List.mem_append.mp hop with hop | hop
          · rcases List.mem_append.mp hop with hop | hop
            · exact before_quiet target c o op hop
            · rw [List.mem_singleton] at hop; subst hop; intro i hi; cases hi
          · exact species_quiet target c l1 (fun i hi => ⟨by have := hl1' i hi; omega, fun _ => by have := hl1' i hi; omega⟩) op hop
        · exact body_quiet target c _ op hop

end Trace

section Generic
variable [DecidableEq D] {n : Fin k → Nat} {ng N : Nat} {g : Place k} {S : CurrentSys k D}

/-- one step of any history -/
theorem density_step (hR : Reduces S n ng N g) {δ : Nat → Nat → Loc k → ℚ}
    {calls : Nat → Stage → Option Nat → List Call} (hcalls : ∀ i st sp, Call.start ∉ calls i st sp)
    {s0 : CurrentSt k D} (hrk : RkOK S s0) (h0 : s0.mem = fun _ => 0) (hh : s0.handle = none)
    {A Z : List Ev} (c : Config) (o : Oracle) (istep : Nat) (clk : Clock)
    (hist : RunHistory (A ++ (stepOps c o).map (Ev.mk istep clk) ++ Z))
    (snap : List Ev → Loc k → ℚ)
    (hsnap : ∀ P, P <+: A ++ (stepOps c o).map (Ev.mk istep clk) → SyncedAt S δ calls s0 P (snap P))
    (target : Nat) (q : ℚ) (fires : Nat → Bool) (hf : fires istep = true)
    (ht : target < c.nspec) (he : o.pushEnabled target = true) (hp : target ≠ 0 → o.pushEnabled (target - 1) = true) (st : DensSt k) :
    ∃ st' rho, densRun target q fires snap A ((stepOps c o).map (Ev.mk istep clk)) st = some st' ∧
      st'.out = st.out ++ [(istep, rho)] ∧
      ∀ t v, t < N → Own n v → at' n ng rho t v = total n ng N g (δ istep target) t v / q := by
  obtain ⟨X, rest, hX, hA, hB⟩ := densRun_step target q fires snap c o istep clk A st ht he hp hf
  have hval : ∀ P, P <+: A ++ (stepOps c o).map (Ev.mk istep clk) → ∀ t v, t < N → Own n v →
      at' n ng (snap P) t v = total n ng N g (deposited δ P) t v := by
    intro P hP t v htN hv
    obtain ⟨cs, s1, s2, s', hcs, h1, h2, h3, hrho⟩ := hsnap P hP
    obtain ⟨R, hR'⟩ := hP
    have hist' : RunHistory (P ++ (R ++ Z)) := by rw [← List.append_assoc, hR']; exact hist
    rw [hrho]
    exact (history_sync hR hcalls hrk h0 hh hist' h1 hcs h2 h3).2 t v htN hv
  have hpre2 : A ++ X ++ (body c target).map (Ev.mk istep clk) <+: A ++ (stepOps c o).map (Ev.mk istep clk) := by
    rw [hX]; exact ⟨rest, by simp only [List.append_assoc]⟩
  by_cases ht0 : target = 0
  · obtain ⟨⟨Y, hY⟩, hr⟩ := hA ht0
    refine ⟨_, _, hr, rfl, fun t v htN hv => ?_⟩
    show at' n ng (snap _) t v / q = _
    rw [hval _ hpre2 t v htN hv, deposited_body, hY]
    congr 2
    funext l
    rw [← List.append_assoc, deposited_snoc]
    simp
  · obtain ⟨Y, hY, hr⟩ := hB ht0
    refine ⟨_, _, hr, rfl, fun t v htN hv => ?_⟩
    show (at' n ng (snap _) t v - at' n ng (snap (A ++ Y)) t v) / q = _
    rw [hval _ hpre2 t v htN hv, hval (A ++ Y) (by rw [hX, hY]; exact ⟨_, by simp only [List.append_assoc]; rfl⟩) t v htN hv,
      deposited_body, total_add, hY, ← List.append_assoc, deposited_snoc]
    simp

end Generic

/-- **C49 (2D), partial.** In every step of every history, whatever the species deposit, whatever other callbacks synchronise at
whatever stage, whatever other species are enabled: if the target species is enabled and so is the species before it in the
list (unless the target is the first), the callback writes exactly one density in the step, and on every own cell it is the charge
the target species deposited on that cell in this step, from whichever patch, divided by the charge of the species.
Missing: the species before the target is disabled (`density_after_disabled_fails`, `density_stale_fails`). -/
theorem species_density2_partial {npx npy nx ny ng : Nat} (hngx : ng ≤ nx) (hngy : ng ≤ ny) {bx by' : AxisBC}
    (hx : bx.Paired) (hy : by'.Paired) (nrank : Nat) {δ : Nat → Nat → Loc 2 → ℚ}
    {calls : Nat → Stage → Option Nat → List Call} (hcalls : ∀ i st sp, Call.start ∉ calls i st sp)
    {s0 : CurrentSt 2 B2} (hrk : ∀ p, s0.rk p < nrank) (h0 : s0.mem = fun _ => 0) (hh : s0.handle = none)
    {A Z : List Ev} (c : Config) (o : Oracle) (istep : Nat) (clk : Clock)
    (hist : RunHistory (A ++ (stepOps c o).map (Ev.mk istep clk) ++ Z)) (snap : List Ev → Loc 2 → ℚ)
    (hsnap : ∀ P, P <+: A ++ (stepOps c o).map (Ev.mk istep clk) →
      SyncedAt (currentSys2 (createPatches2 npx npy).length nx ny ng (gridNbr2 npx npy bx by') nrank) δ calls s0 P (snap P))
    (target : Nat) (q : ℚ) (fires : Nat → Bool) (hf : fires istep = true)
    (ht : target < c.nspec) (he : o.pushEnabled target = true) (hp : target ≠ 0 → o.pushEnabled (target - 1) = true) (st : DensSt 2) :
    ∃ st' rho, densRun target q fires snap A ((stepOps c o).map (Ev.mk istep clk)) st = some st' ∧
      st'.out = st.out ++ [(istep, rho)] ∧
      ∀ t v, t < (createPatches2 npx npy).length → Own ![nx, ny] v → at' ![nx, ny] ng rho t v =
        total ![nx, ny] ng (createPatches2 npx npy).length (place2 npx npy bx by' (createPatches2 npx npy)) (δ istep target) t v / q :=
  density_step (reduces2 hngx hngy hx hy nrank) hcalls hrk h0 hh c o istep clk hist snap hsnap target q fires hf ht he hp st

/-- **C49 (3D), partial.** As in 2D. -/
theorem species_density3_partial {npx npy npz nx ny nz ng : Nat} (hngx : ng ≤ nx) (hngy : ng ≤ ny) (hngz : ng ≤ nz)
    {bx by' bz : AxisBC} (hx : bx.Paired) (hy : by'.Paired) (hz : bz.Paired) (nrank : Nat) {δ : Nat → Nat → Loc 3 → ℚ}
    {calls : Nat → Stage → Option Nat → List Call} (hcalls : ∀ i st sp, Call.start ∉ calls i st sp)
    {s0 : CurrentSt 3 B3} (hrk : ∀ p, s0.rk p < nrank) (h0 : s0.mem = fun _ => 0) (hh : s0.handle = none)
    {A Z : List Ev} (c : Config) (o : Oracle) (istep : Nat) (clk : Clock)
    (hist : RunHistory (A ++ (stepOps c o).map (Ev.mk istep clk) ++ Z)) (snap : List Ev → Loc 3 → ℚ)
    (hsnap : ∀ P, P <+: A ++ (stepOps c o).map (Ev.mk istep clk) →
      SyncedAt (currentSys3 (createPatches3 npx npy npz).length nx ny nz ng (gridNbr3 npx npy npz bx by' bz) nrank) δ calls s0 P (snap P))
    (target : Nat) (q : ℚ) (fires : Nat → Bool) (hf : fires istep = true)
    (ht : target < c.nspec) (he : o.pushEnabled target = true) (hp : target ≠ 0 → o.pushEnabled (target - 1) = true) (st : DensSt 3) :
    ∃ st' rho, densRun target q fires snap A ((stepOps c o).map (Ev.mk istep clk)) st = some st' ∧
      st'.out = st.out ++ [(istep, rho)] ∧
      ∀ t v, t < (createPatches3 npx npy npz).length → Own ![nx, ny, nz] v → at' ![nx, ny, nz] ng rho t v =
        total ![nx, ny, nz] ng (createPatches3 npx npy npz).length (place3 npx npy npz bx by' bz (createPatches3 npx npy npz))
          (δ istep target) t v / q :=
  density_step (reduces3 hngx hngy hngz hx hy hz nrank) hcalls hrk h0 hh c o istep clk hist snap hsnap target q fires hf ht he hp st

/-! ### the species before the target is disabled -/

/-- a step in which the target is enabled and the species before it is not -/
theorem densRun_skipped (target : Nat) (q : ℚ) (fires : Nat → Bool) (snap : List Ev → Loc k → ℚ) (c : Config) (o : Oracle)
    (istep : Nat) (clk : Clock) (A : List Ev) (ht : target < c.nspec) (h0 : target ≠ 0) (he : o.pushEnabled target = true)
    (hp : o.pushEnabled (target - 1) = false) (hf : fires istep = true) :
    ∃ X, ∀ st : DensSt k, densRun target q fires snap A ((stepOps c o).map (Ev.mk istep clk)) st =
      match st.prev with
      | none => none
      | some m => some ⟨none, st.out ++ [(istep, fun l => (snap (A ++ X) l - m l) / q)]⟩ := by
  obtain ⟨l2, hl, hl2⟩ := species_split target c o.pushEnabled ht
  rw [if_pos he] at hl
  have e : (stepOps c o).map (Ev.mk istep clk) = ((before c o ++ [Op.resetCurrents] ++
      ((List.range target).filter o.pushEnabled).flatMap (speciesOps c) ++ body c target).map (Ev.mk istep clk)) ++
      ([⟨istep, clk, .stage .currentDeposition (some target)⟩] ++ (l2.flatMap (speciesOps c) ++ afterLoop c o).map (Ev.mk istep clk)) := by
    rw [stepOps_split, hl]
    simp only [List.flatMap_append, List.flatMap_cons, List.flatMap_nil, List.append_nil, speciesOps_body,
      List.append_assoc, List.map_append, List.map_cons, List.map_nil, List.cons_append, List.nil_append]
  refine ⟨(before c o ++ [Op.resetCurrents] ++
      ((List.range target).filter o.pushEnabled).flatMap (speciesOps c) ++ body c target).map (Ev.mk istep clk), fun st => ?_⟩
  rw [e, densRun_append, densRun_quiet target q fires snap, Option.bind_some, densRun_append]
  · have hev : ∀ pre : List Ev, densRun target q fires snap pre [⟨istep, clk, .stage .currentDeposition (some target)⟩] st =
        match st.prev with
        | none => none
        | some m => some ⟨none, st.out ++ [(istep, fun l => (snap pre l - m l) / q)]⟩ := by
      intro pre
      show (densEvent target q fires _ _ _).bind _ = _
      unfold densEvent densCall
      dsimp only
      rw [if_pos hf, if_neg h0, if_neg (by omega), if_pos rfl]
      cases st.prev <;> rfl
    rw [hev]
    cases st.prev with
    | none => rfl
    | some m =>
      dsimp only
      rw [Option.bind_some, densRun_quiet target q fires snap]
      refine quiet_map target fun op hop => ?_
      rcases List.mem_append.mp hop with hop | hop
      · exact species_quiet target c l2 (fun i hi => ⟨by have := hl2 i hi; omega, fun _ => by have := hl2 i hi; omega⟩) op hop
      · exact afterLoop_quiet target c o op hop
  · refine quiet_map target fun op hop => ?_
    rcases List.mem_append.mp hop with hop | hop
    · rcases List.mem_append.mp hop with hop | hop
      · rcases List.mem_append.mp hop with hop | hop
        · exact before_quiet target c o op hop
        · rw [List.mem_singleton] at hop; subst hop; intro i hi; cases hi
      · refine species_quiet target c _ (fun i hi => ?_) op hop
        have h1 := List.mem_filter.mp hi
        have h2 := List.mem_range.mp h1.1
        refine ⟨by omega, fun _ heq => ?_⟩
        have h3 := h1.2
        rw [heq, hp] at h3
        cases h3
    · exact body_quiet target c _ op hop

/-- **C49 is false when the species before the target is disabled.** The callback raises in every such step (unless an old value is
left over, see below), whatever the fields are. -/
theorem density_after_disabled_fails (target : Nat) (q : ℚ) (fires : Nat → Bool) (snap : List Ev → Loc k → ℚ) (c : Config) (o : Oracle)
    (istep : Nat) (clk : Clock) (A : List Ev) (ht : target < c.nspec) (h0 : target ≠ 0) (he : o.pushEnabled target = true)
    (hp : o.pushEnabled (target - 1) = false) (hf : fires istep = true) (st : DensSt k) (hst : st.prev = none) :
    densRun target q fires snap A ((stepOps c o).map (Ev.mk istep clk)) st = none := by
  obtain ⟨X, hX⟩ := densRun_skipped target q fires snap c o istep clk A ht h0 he hp hf
  rw [hX st, hst]

/-- **C49 is false in a quieter way.** One step with the target disabled and the species before it enabled leaves the charge density of
that step behind. If in the next step it is the other way round, the callback subtracts that old density: the result is neither an
error nor the density of the species. -/
theorem density_stale_fails (target : Nat) (q : ℚ) (fires : Nat → Bool) (snap : List Ev → Loc k → ℚ) (c : Config) (o1 o2 : Oracle)
    (i1 i2 : Nat) (k1 k2 : Clock) (A : List Ev) (ht : target < c.nspec) (h0 : target ≠ 0)
    (hp1 : o1.pushEnabled (target - 1) = true) (he1 : o1.pushEnabled target = false)
    (hp2 : o2.pushEnabled (target - 1) = false) (he2 : o2.pushEnabled target = true)
    (hf1 : fires i1 = true) (hf2 : fires i2 = true) (st : DensSt k) :
    ∃ X Y, X <+: (stepOps c o1).map (Ev.mk i1 k1) ∧ densRun target q fires snap A
      ((stepOps c o1).map (Ev.mk i1 k1) ++ (stepOps c o2).map (Ev.mk i2 k2)) st =
      some ⟨none, st.out ++ [(i2, fun l => (snap (A ++ (stepOps c o1).map (Ev.mk i1 k1) ++ Y) l - snap (A ++ X) l) / q)]⟩ := by
  obtain ⟨l2, hl, hl2⟩ := species_split target c o1.pushEnabled ht
  rw [if_neg (by rw [he1]; simp), List.append_nil] at hl
  obtain ⟨l1, hl1, hl1'⟩ : ∃ l1, (List.range target).filter o1.pushEnabled = l1 ++ [target - 1] ∧ ∀ i ∈ l1, i < target - 1 := by
    refine ⟨(List.range (target - 1)).filter o1.pushEnabled, ?_, fun i hi => List.mem_range.mp (List.mem_filter.mp hi).1⟩
    have : target = (target - 1) + 1 := by omega
    conv_lhs => rw [this, List.range_succ, List.filter_append]
    congr 1
    simp [hp1]
  rw [hl1] at hl
  have e : (stepOps c o1).map (Ev.mk i1 k1) = ((before c o1 ++ [Op.resetCurrents] ++ l1.flatMap (speciesOps c) ++ body c (target - 1)).map (Ev.mk i1 k1)) ++
      ([⟨i1, k1, .stage .currentDeposition (some (target - 1))⟩] ++ (l2.flatMap (speciesOps c) ++ afterLoop c o1).map (Ev.mk i1 k1)) := by
    rw [stepOps_split, hl]
    simp only [List.flatMap_append, List.flatMap_cons, List.flatMap_nil, List.append_nil, speciesOps_body,
      List.append_assoc, List.map_append, List.map_cons, List.map_nil, List.cons_append, List.nil_append]
  obtain ⟨Y, hY⟩ := densRun_skipped target q fires snap c o2 i2 k2 (A ++ (stepOps c o1).map (Ev.mk i1 k1)) ht h0 he2 hp2 hf2
  refine ⟨_, Y, ⟨_, e.symm⟩, ?_⟩
  have h1 : densRun target q fires snap A ((stepOps c o1).map (Ev.mk i1 k1)) st = some ⟨some (snap (A ++
      ((before c o1 ++ [Op.resetCurrents] ++ l1.flatMap (speciesOps c) ++ body c (target - 1)).map (Ev.mk i1 k1)))), st.out⟩ := by
    rw [e, densRun_append, densRun_quiet target q fires snap, Option.bind_some, densRun_append]
    · have hev : ∀ pre : List Ev, densRun target q fires snap pre [⟨i1, k1, .stage .currentDeposition (some (target - 1))⟩] st =
          some ⟨some (snap pre), st.out⟩ := by
        intro pre
        show (densEvent target q fires _ _ st).bind _ = _
        unfold densEvent densCall
        dsimp only
        rw [if_pos hf1, if_neg h0, if_pos rfl]; rfl
      rw [hev, Option.bind_some, densRun_quiet target q fires snap]
      refine quiet_map target fun op hop => ?_
      rcases List.mem_append.mp hop with hop | hop
      · exact species_quiet target c l2 (fun i hi => ⟨by have := hl2 i hi; omega, fun _ => by have := hl2 i hi; omega⟩) op hop
      · exact afterLoop_quiet target c o1 op hop
    · refine quiet_map target fun op hop => ?_
      rcases List.mem_append.mp hop with hop | hop
      · rcases List.mem_append.mp hop with hop | hop
        · rcases List.mem_append.mp hop with hop | hop
          · exact before_quiet target c o1 op hop
          · rw [List.mem_singleton] at hop; subst hop; intro i hi; cases hi
        · exact species_quiet target c l1 (fun i hi => ⟨by have := hl1' i hi; omega, fun _ => by have := hl1' i hi; omega⟩) op hop
      · exact body_quiet target c _ op hop
  rw [densRun_append, h1, Option.bind_some, hY]

/-! ### slices of other ranks -/

/-- **C49, `ExtractSpeciesDensity` with a slice, partial.** A slice received from another rank is read correctly when it keeps all cells along
the last axis, or has a single row. -/
theorem extract_remote_partial {V : Type} (ny numx numy : Nat) (hny : numy ≤ ny) (h : numy = ny ∨ numx = 1) (data : Nat → Nat → V) (old : Nat → V)
    (i j : Nat) (hi : i < numx) (hj : j < numy) : readBuf ny (recvFlat numx numy data old) i j = data i j := by
  unfold readBuf recvFlat
  have key : i * ny + j = i * numy + j := by
    rcases h with h | h
    · rw [h]
    · have : i = 0 := by omega
      rw [this, Nat.zero_mul, Nat.zero_mul]
  rw [key, if_pos]
  · rw [Nat.mul_comm, Nat.mul_add_div (by omega), Nat.div_eq_of_lt hj, Nat.add_zero, Nat.mul_add_mod, Nat.mod_eq_of_lt hj]
  · calc i * numy + j < i * numy + numy := by omega
      _ = (i + 1) * numy := by rw [Nat.succ_mul]
      _ ≤ numx * numy := Nat.mul_le_mul_right _ hi

/-- **C49 is false for `ExtractSpeciesDensity` with a slice on several ranks.** If the slice drops cells along the last axis and has more than one
row, the first entry of the second row of what is stored is not that of the message: it is a later entry, or whatever the buffer
held before. -/
theorem extract_remote_fails {V : Type} (ny numx numy : Nat) (h1 : numy < ny) (h2 : 0 < numy) (h3 : 1 < numx) (data : Nat → Nat → V)
    (old : Nat → V) : readBuf ny (recvFlat numx numy data old) 1 0 =
      if ny < numx * numy then data (ny / numy) (ny % numy) else old ny := by
  unfold readBuf recvFlat
  rw [Nat.one_mul, Nat.add_zero]

/-- the wrong entry is really another one: two of three columns, two rows -/
example : readBuf 3 (recvFlat 2 2 (fun i j => 10 * i + j + 1) fun _ => 0) 1 0 = 12 ∧
    readBuf 3 (recvFlat 2 2 (fun i j => 10 * i + j + 1) fun _ => 0) 1 1 = 0 := by decide

/-- the hypotheses of `species_density2_partial`: two species, two patches on two ranks, the second species is the target -/
example : ∃ (snap : List Ev → Loc 2 → ℚ), (∀ i st sp, Call.start ∉ (fun (_ : Nat) (_ : Stage) (_ : Option Nat) => ([] : List Call)) i st sp) ∧
    RunHistory ([⟨0, ⟨0, 0⟩, .stage .init none⟩] ++ (stepOps demoConfig (demoOracle 0)).map (Ev.mk 0 ⟨0, 0⟩) ++ [⟨1, ⟨1, 1⟩, .stage .final none⟩]) ∧
    (∀ P, P <+: [⟨0, ⟨0, 0⟩, .stage .init none⟩] ++ (stepOps demoConfig (demoOracle 0)).map (Ev.mk 0 ⟨0, 0⟩) →
      SyncedAt demoSys demoDeposit (fun _ _ _ => []) demoStart P (snap P)) ∧
    (1 < demoConfig.nspec ∧ (demoOracle 0).pushEnabled 1 = true ∧ (demoOracle 0).pushEnabled 0 = true) := by
  refine ⟨fun P => (demoSys.seqCall .sync (demoSys.seqEvs demoDeposit (fun _ _ _ => []) P demoStart)).mem, fun _ _ _ => List.not_mem_nil, ?_, ?_, by decide⟩
  · have h : [⟨0, ⟨0, 0⟩, .stage .init none⟩] ++ (stepOps demoConfig (demoOracle 0)).map (Ev.mk 0 ⟨0, 0⟩) ++ [⟨1, ⟨1, 1⟩, .stage .final none⟩] =
        demoPre ++ ⟨0, ⟨0, 0⟩, .updateE⟩ :: demoPost := by decide +kernel
    rw [h]; exact demo_history
  · intro P hP
    refine ⟨[], _, _, _, List.not_mem_nil, seqEvs_rel demoSys demoDeposit _ P ?_ demoStart, .nil _, seqCall_rel demoSys .sync _, rfl⟩
    intro e he
    have hmem := hP.subset he
    have hall : ∀ e ∈ ([⟨0, ⟨0, 0⟩, .stage .init none⟩] ++ (stepOps demoConfig (demoOracle 0)).map (Ev.mk 0 ⟨0, 0⟩)), e.op ≠ Op.rebalance := by
      decide +kernel
    exact hall e hmem

end Verif.SyncFields
