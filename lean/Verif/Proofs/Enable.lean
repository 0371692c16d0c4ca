import Verif.Model.Enable
import Verif.Spec.Enable
import Verif.Proofs.Kicks
/-!
# Enabling and disabling: lemmas
-/
namespace Verif.Enable
open Verif.Maxwell Verif.SyncFields Verif.Pusher Verif.Deposit Verif.Geometry Verif.Neighbors Verif.MpiExchange Verif.WholeRun
open Verif.PicStep (field zeroAcc)

variable {k : Nat}

theorem chosen_sub {α : Type*} {on : Nat → Bool} {l : List α} {a : α} (h : a ∈ chosen on l) : a ∈ l := by
  induction l generalizing on with
  | nil => exact h
  | cons b l ih =>
    unfold chosen at h
    split at h
    · rcases List.mem_cons.mp h with rfl | h
      · exact List.mem_cons_self
      · exact List.mem_cons_of_mem _ (ih h)
    · exact List.mem_cons_of_mem _ (ih h)

theorem chosen_mapOn {α : Type*} (f : α → α) (on : Nat → Bool) (l : List α) :
    chosen on (mapOn f on l) = (chosen on l).map f := by
  induction l generalizing on with
  | nil => rfl
  | cons b l ih =>
    unfold mapOn chosen
    split
    · rw [ih]; rfl
    · exact ih _

theorem chosen_map {α β : Type*} (f : α → β) (on : Nat → Bool) (l : List α) : chosen on (l.map f) = (chosen on l).map f := by
  induction l generalizing on with
  | nil => rfl
  | cons b l ih =>
    rw [List.map_cons]
    unfold chosen
    split
    · rw [ih]; rfl
    · exact ih _

theorem mem_mapOn {α : Type*} {f : α → α} {on : Nat → Bool} {l : List α} {b : α} (h : b ∈ mapOn f on l) :
    b ∈ l ∨ ∃ a ∈ chosen on l, b = f a := by
  induction l generalizing on with
  | nil => cases h
  | cons a l ih =>
    unfold mapOn at h
    unfold chosen
    rcases List.mem_cons.mp h with rfl | h
    · split
      · exact .inr ⟨a, List.mem_cons_self, rfl⟩
      · exact .inl List.mem_cons_self
    · rcases ih h with h | ⟨a', h, e⟩
      · exact .inl (List.mem_cons_of_mem _ h)
      · refine .inr ⟨a', ?_, e⟩
        split
        · exact List.mem_cons_of_mem _ h
        · exact h

theorem map_mapOn {α β : Type*} {f : α → α} {g : β → β} {h : α → β} {on : Nat → Bool} {l : List α}
    (hc : ∀ a ∈ l, h (f a) = g (h a)) : (mapOn f on l).map h = mapOn g on (l.map h) := by
  induction l generalizing on with
  | nil => rfl
  | cons a l ih =>
    show h (if on 0 then f a else a) :: (mapOn f (fun i => on (i + 1)) l).map h
      = (if on 0 then g (h a) else h a) :: mapOn g (fun i => on (i + 1)) (l.map h)
    rw [ih fun a ha => hc a (List.mem_cons_of_mem _ ha)]
    congr 1
    split
    · exact hc a List.mem_cons_self
    · rfl

theorem forall₂_mapOn {α β : Type*} {R : α → β → Prop} {f : α → α} {g : β → β} {on : Nat → Bool} {l : List α} {m : List β}
    (h : List.Forall₂ R l m) (hR : ∀ a b, R a b → R (f a) (g b)) : List.Forall₂ R (mapOn f on l) (mapOn g on m) := by
  induction h generalizing on with
  | nil => exact .nil
  | cons h1 _ ih =>
    unfold mapOn
    refine .cons ?_ ih
    split
    · exact hR _ _ h1
    · exact h1

theorem forall₂_chosen {α β : Type*} {R : α → β → Prop} {on : Nat → Bool} {l : List α} {m : List β}
    (h : List.Forall₂ R l m) : List.Forall₂ R (chosen on l) (chosen on m) := by
  induction h generalizing on with
  | nil => exact .nil
  | cons h1 _ ih =>
    unfold chosen
    split
    · exact .cons h1 ih
    · exact ih

theorem mapOn_true {α : Type*} (f : α → α) (l : List α) : mapOn f (fun _ => true) l = l.map f := by
  induction l with
  | nil => rfl
  | cons a l ih => unfold mapOn; rw [if_pos rfl, ih]; rfl

theorem chosen_true {α : Type*} (l : List α) : chosen (fun _ => true) l = l := by
  induction l with
  | nil => rfl
  | cons a l ih => unfold chosen; rw [if_pos rfl, ih]

section Core
variable {D A : Type} [DecidableEq D] {Y : Sys k D A} {Φ : Phys k} {g : Place k} {d : Fin k → ℚ} {UN : Species → Prop}
  {K : Species → (Fin k → ℚ) → Fields k → Kern k} (F : Facts Y Φ g d UN K)

/-- the push of one species -/
def pushPart (Y : Sys k D A) (Φ : Phys k) (K : Species → (Fin k → ℚ) → Fields k → Kern k) (σ : Dom k)
    (a : Species × (Nat → List (Slot k))) : Species × (Nat → List (Slot k)) :=
  (a.1, fun t => if t < Y.npatches then (a.2 t).map (adv Y Φ K σ a.1 t) else a.2 t)

include F in
theorem loopOn_eq (σ : Dom k) (on : Nat → Bool) (parts : List (Species × (Nat → List (Slot k)))) (hun : ∀ a ∈ parts, UN a.1)
    (hl : ∀ a ∈ parts, ∀ t, t < Y.npatches → ∀ s ∈ a.2 t, s.dead = false → nums s.pos ≠ none)
    (acc : Nat → Acc k) :
    speciesLoopOn Y σ on parts acc = (mapOn (pushPart Y Φ K σ) on parts,
      fun t => if t < Y.npatches then
        (pushedParts Y Φ K σ (chosen on parts)).foldl (fun ac a => (a.2 t).foldl (depChecked (K a.1 (Y.origin t) (σ t))) ac) (acc t)
        else acc t) := by
  induction parts generalizing acc on with
  | nil =>
    show ([], acc) = _
    unfold mapOn chosen pushedParts
    simp
  | cons a rest ih =>
    obtain ⟨sp, ps⟩ := a
    have ihs := fun on' acc' => ih on' (fun a ha => hun a (List.mem_cons_of_mem _ ha))
      (fun a ha => hl a (List.mem_cons_of_mem _ ha)) acc'
    unfold speciesLoopOn mapOn chosen
    by_cases h0 : on 0 = true
    · simp only [h0, if_true]
      have h1 := loop_eq F.toPushFacts σ [(sp, ps)] (fun a ha => hun a (by
          rcases List.mem_singleton.mp ha with rfl; exact List.mem_cons_self))
        (fun a ha => hl a (by rcases List.mem_singleton.mp ha with rfl; exact List.mem_cons_self)) acc
      unfold speciesLoop speciesLoop at h1
      dsimp only at h1
      have hp := congrArg Prod.fst h1
      have ha := congrArg Prod.snd h1
      dsimp only at hp ha
      rw [ihs]
      have ha' := fun t => congrFun ha t
      have hp' : (sp, fun t => (Option.map PatchSt.parts (Y.push sp (gather Y σ ps acc))[t]?).getD (ps t))
          = pushPart Y Φ K σ (sp, ps) := (List.cons.inj hp).1
      refine Prod.ext ?_ ?_
      · show _ :: _ = _ :: _
        rw [hp']
      · funext t
        dsimp only
        rw [ha' t]
        by_cases ht : t < Y.npatches
        · simp only [ht, if_true]
          rfl
        · simp only [ht, if_false]
    · rw [Bool.not_eq_true] at h0
      simp only [h0, Bool.false_eq_true, if_false]
      rw [ihs]

variable {β : ℚ} (B : Bounds Y.solver.sync.n Y.solver.sync.ng d Φ.rs Φ.dt β)
include F B

/-- what is behind the species loop of a step with flags -/
theorem loopOn_facts {σ : Dom k} {G : GF k} (on : Nat → Bool) (r2 : Rep Y.solver g σ G) (p2 : G.Per g.np Y.solver.sync.n)
    (parts : List (Species × (Nat → List (Slot k)))) (hgood : Good Y.npatches Y.solver.sync.n g.coord d β parts) :
    cloudOf Y.npatches (mapOn (pushPart Y Φ K σ) on parts)
      = mapOn (fun s => (s.1, s.2.map (pushed Φ s.1 G))) on (cloudOf Y.npatches parts) ∧
    ∀ a ∈ mapOn (pushPart Y Φ K σ) on parts, ∀ t, t < Y.npatches → ∀ s ∈ a.2 t, s.dead = false → ∃ v, nums s.pos = some v ∧
      (∀ i : Fin k, |s.mom.invGamma * uAt s.mom i| ≤ β) ∧ Nearby Y.solver.sync.n (g.coord t) d v := by
  constructor
  · unfold cloudOf
    refine map_mapOn fun a ha => ?_
    have h1 := (pushedParts_facts F.toPushFacts B r2 p2 [a] (fun b hb => by
      rcases List.mem_singleton.mp hb with rfl; exact hgood b ha)).1
    unfold cloudOf pushedParts at h1
    exact (List.cons.inj h1).1
  · intro a ha t ht s hs hd
    rcases mem_mapOn ha with ha | ⟨b, hb, rfl⟩
    · obtain ⟨v, h1, h2, h3⟩ := hgood a ha t ht s hs hd
      refine ⟨v, h1, h3, fun i => ?_⟩
      have := B.d_pos i
      have := h2 i
      constructor <;> linarith
    · obtain ⟨v, h1, h2, h3, _⟩ := (pushedParts_facts F.toPushFacts B r2 p2 [b] (fun c hc => by
        rcases List.mem_singleton.mp hc with rfl; exact hgood c (chosen_sub hb))).2 (pushPart Y Φ K σ b)
          List.mem_cons_self t ht s hs hd
      exact ⟨v, h1, h2, h3⟩

/-- one step of the program with flags is one step of the undivided simulation with flags -/
theorem flagStep_follows {on : Nat → Bool} {rk rk' : Nat → Nat} {x x' : St k} {W : World k} (h : Follows Y g d UN β x W)
    (hstep : FlagStep Y on rk rk' x x') : Follows Y g d UN β x' (W.stepOn Φ on) := by
  obtain ⟨σ1, σ2, σ3, σ4, parts1, a1, a2, a3, a4, a5, a6, a7⟩ := hstep
  have hhalf : Y.solver.Half1 Y.dt x.fld σ2 := ⟨σ1, guardE_sync F a1, guardB_sync F a2⟩
  obtain ⟨r2, p2⟩ := F.mid _ _ _ h.per h.rep hhalf
  have g1 := sorted_good a3 h.good
  have u1 := sorted_un a3 h.un
  have hl : ∀ a ∈ parts1, ∀ t, t < Y.npatches → ∀ s ∈ a.2 t, s.dead = false → nums s.pos ≠ none := by
    intro a ha t ht s hs hd
    obtain ⟨v, hv, _⟩ := g1 a ha t ht s hs hd
    rw [hv]; simp
  rw [loopOn_eq F σ2 on parts1 u1 hl] at a4 a5
  dsimp only at a4 a5
  obtain ⟨c1, c2⟩ := loopOn_facts F B on r2 p2 parts1 g1
  obtain ⟨d1, d2⟩ := pushedParts_facts F.toPushFacts B r2 p2 (chosen on parts1) (fun a ha => g1 a (chosen_sub ha))
  have hsame : SameCloud (len g.np Y.solver.sync.n d) (cloudOf Y.npatches (mapOn (pushPart Y Φ K σ2) on parts1))
      (W.stepOn Φ on).cloud := by
    rw [c1]
    refine forall₂_mapOn ((sorted_cloud a3).trans h.cloud) ?_
    intro a b hab
    have := SameCloud.map (f := fun κ => pushed Φ κ (midField Φ W.fld))
      (fun κ p q => pushed_same F.toPushFacts p2 κ p q) (List.Forall₂.cons hab .nil)
    exact (List.forall₂_cons.mp this).1
  have hcloud : cloudOf Y.npatches (pushedParts Y Φ K σ2 (chosen on parts1))
      = chosen on (cloudOf Y.npatches (mapOn (pushPart Y Φ K σ2) on parts1)) := by
    rw [d1, c1, chosen_mapOn]
    unfold cloudOf
    rw [chosen_map]
  obtain ⟨x1, x2, x3⟩ := exchanged_facts F.toPushFacts a5 c2
  have hcur : ∀ c : Fin 3, ∀ t v, t < Y.npatches → Own Y.solver.sync.n v →
      (σ3 t).j c (index Y.solver.sync.n Y.solver.sync.ng v)
        = Φ.cur (chosen on (W.stepOn Φ on).cloud) c (globalCell Y.solver.sync.n (g.coord t) v) := by
    intro c t v ht hv
    have := F.currents σ2 (pushedParts Y Φ K σ2 (chosen on parts1)) _ rk c _
      (fun t ht => (if_pos ht).trans rfl) (fun t ht => if_neg ht)
      (fun z hz t ht s hs hd => by
        obtain ⟨v, h1, _, _, h4⟩ := d2 z hz t ht s hs hd
        exact ⟨v, h1, h4⟩) (a4.2 c) t v ht hv
    dsimp only at this
    rw [this]
    have hc := F.cur_congr _ _ (show SameCloud _ (cloudOf Y.npatches (pushedParts Y Φ K σ2 (chosen on parts1)))
        (chosen on (W.stepOn Φ on).cloud) by rw [hcloud]; exact forall₂_chosen hsame) (fun s hs p hp i => by
      unfold cloudOf at hs
      obtain ⟨z, hz, rfl⟩ := List.mem_map.mp hs
      obtain ⟨t, ht, s, hs, e⟩ := mem_particles.mp hp
      obtain ⟨e1, e2, e3⟩ := ptc_eq e
      obtain ⟨v, h1, h2, _, h4⟩ := d2 z hz t ht s hs e1
      rw [← e3]
      exact vel_dt (B.cfl i) (h2 i))
    rw [hc]
  obtain ⟨f1, f2⟩ := F.fstep W.fld x.fld x'.fld (Φ.cur (chosen on (W.stepOn Φ on).cloud)) h.per h.rep (F.cur_per _)
    ⟨σ2, σ3, hhalf, a4.1, fun t ht c v hv => hcur c t v (by rw [← F.np_eq]; exact ht) hv,
      σ4, guardB_sync F a6, guardE_sync F a7⟩
  rw [kept_true] at x1
  refine ⟨f1, f2, x1.trans hsame, x2, x3 ?_⟩
  intro z hz
  rcases mem_mapOn hz with hz | ⟨b, hb, rfl⟩
  · exact u1 z hz
  · exact u1 b (chosen_sub hb)

theorem flagRun_follows {on : Nat → Nat → Bool} {rk : Nat → Nat → Nat} {x : Nat → St k} {W : World k}
    (h0 : Follows Y g d UN β (x 0) W) (hrun : FlagRun Y on rk x) (i : Nat) : Follows Y g d UN β (x i) (W.runOn Φ on i) := by
  induction i with
  | zero => exact h0
  | succ i ih => exact flagStep_follows F B ih (hrun i)

/-- a next state exists -/
theorem flagStep_exists {x : St k} {W : World k} (h : Follows Y g d UN β x W) (on : Nat → Bool) (rk rk' : Nat → Nat) :
    ∃ x', FlagStep Y on rk rk' x x' := by
  obtain ⟨σ1, a1⟩ := guardE_ex F rk (Y.solver.stepE (1 / 2 * Y.dt) x.fld)
  obtain ⟨σ2, a2⟩ := guardB_ex F rk (Y.solver.stepB (1 / 2 * Y.dt) σ1)
  have a3 : Sorted x.parts x.parts := forall₂_self (fun a => ⟨rfl, fun t => .refl _⟩) _
  have hhalf : Y.solver.Half1 Y.dt x.fld σ2 := ⟨σ1, guardE_sync F a1, guardB_sync F a2⟩
  obtain ⟨r2, p2⟩ := F.mid _ _ _ h.per h.rep hhalf
  have hl : ∀ a ∈ x.parts, ∀ t, t < Y.npatches → ∀ s ∈ a.2 t, s.dead = false → nums s.pos ≠ none := by
    intro a ha t ht s hs hd
    obtain ⟨v, hv, _⟩ := h.good a ha t ht s hs hd
    rw [hv]; simp
  have hloop := loopOn_eq F σ2 on x.parts h.un hl (fun _ => zeroAcc)
  obtain ⟨_, c2⟩ := loopOn_facts F B on r2 p2 x.parts h.good
  choose m hm using fun c : Fin 3 => F.curEx rk
    (fun l => field ((speciesLoopOn Y σ2 on x.parts fun _ => zeroAcc).2 l.1) c.castSucc l.2)
  have hparts : ∃ y, List.Forall₂ (Exchanged Y rk) (speciesLoopOn Y σ2 on x.parts fun _ => zeroAcc).1 y := by
    obtain ⟨bl⟩ := F.blank
    rw [hloop]
    dsimp only
    generalize mapOn (pushPart Y Φ K σ2) on x.parts = l at c2
    clear hloop hm m a1 a2 a3 h hl
    induction l with
    | nil => exact ⟨[], .nil⟩
    | cons a l ih =>
      obtain ⟨y, hy⟩ := ih fun a ha => c2 a (List.mem_cons_of_mem _ ha)
      obtain ⟨s', hs', _⟩ := F.exch a.2 (fun t ht s hs hd => by
        obtain ⟨v, h1, _, h3⟩ := c2 a List.mem_cons_self t ht s hs hd
        exact ⟨v, h1, h3⟩) rk _ _ bl (.refl _) (.refl _)
      exact ⟨(a.1, fun t => (s' t).map Y.unpack) :: y,
        .cons ⟨rfl, _, _, bl, s', .refl _, .refl _, hs', fun t => rfl⟩ hy⟩
  obtain ⟨y, hy⟩ := hparts
  obtain ⟨σ4, a6⟩ := guardB_ex F rk' (Y.solver.stepB (1 / 2 * Y.dt) fun t => { σ2 t with j := fun c v => m c (t, v) })
  obtain ⟨σ5, a7⟩ := guardE_ex F rk' (Y.solver.stepE (1 / 2 * Y.dt) σ4)
  exact ⟨⟨σ5, y⟩, σ1, σ2, fun t => { σ2 t with j := fun c v => m c (t, v) }, σ4, x.parts, a1, a2, a3,
    ⟨fun t => ⟨rfl, rfl⟩, fun c => hm c⟩, hy, a6, a7⟩

theorem flagRun_exists {x0 : St k} {W : World k} (h : Follows Y g d UN β x0 W) (on : Nat → Nat → Bool) (rk : Nat → Nat → Nat) :
    ∃ x, x 0 = x0 ∧ FlagRun Y on rk x := by
  have key : ∀ i (y : {y : St k // ∃ V, Follows Y g d UN β y V}),
      ∃ z : {y : St k // ∃ V, Follows Y g d UN β y V}, FlagStep Y (on i) (rk i) (rk (i + 1)) y.1 z.1 := by
    rintro i ⟨y, V, hy⟩
    obtain ⟨z, hz⟩ := flagStep_exists F B hy (on i) (rk i) (rk (i + 1))
    exact ⟨⟨z, _, flagStep_follows F B hy hz⟩, hz⟩
  choose nx hnx using key
  exact ⟨fun i => (Nat.rec (motive := fun _ => {y : St k // ∃ V, Follows Y g d UN β y V}) ⟨x0, W, h⟩ (fun i y => nx i y) i).1,
    rfl, fun i => hnx i _⟩

end Core

end Verif.Enable
