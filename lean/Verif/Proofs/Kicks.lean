import Verif.Model.Kicks
import Verif.Proofs.WholeGauss
/-!
# Steps with collisions and emission: lemmas
-/
namespace Verif.WholeRun
open Verif.Maxwell Verif.SyncFields Verif.Pusher Verif.Deposit Verif.Geometry Verif.Neighbors Verif.MpiExchange
open Verif.PicStep (field zeroAcc)

variable {k : Nat}

theorem Acted.refl (N : Nat) (a : List (Species × (Nat → List (Slot k)))) : Acted N a a :=
  ⟨rfl, fun y hy _ _ s hs hd => ⟨y, hy, s, hs, hd, rfl⟩⟩

theorem Acted.un {N : Nat} {a b : List (Species × (Nat → List (Slot k)))} (h : Acted N a b) {UN : Species → Prop}
    (ha : ∀ x ∈ a, UN x.1) : ∀ y ∈ b, UN y.1 := by
  intro y hy
  have : y.1 ∈ a.map Prod.fst := h.1 ▸ List.mem_map_of_mem hy
  obtain ⟨x, hx, e⟩ := List.mem_map.mp this
  rw [← e]; exact ha x hx

theorem Acted.good {N : Nat} {n : Fin k → Nat} {coord : Nat → Fin k → Nat} {d : Fin k → ℚ} {β : ℚ}
    {a b : List (Species × (Nat → List (Slot k)))} (h : Acted N a b) (hb : Slow N β b) (ha : Good N n coord d β a) :
    Good N n coord d β b := by
  intro y hy t ht s hs hd
  obtain ⟨x, hx, s0, hs0, hd0, e⟩ := h.2 y hy t ht s hs hd
  obtain ⟨v, h1, h2, _⟩ := ha x hx t ht s0 hs0 hd0
  exact ⟨v, e ▸ h1, h2, hb y hy t ht s hs hd⟩

/-- the same particles in the same order are the same particles -/
theorem SameCloud.rfl' (L : Fin k → ℚ) (c : List (Kind × List (Ptc k))) : SameCloud L c c :=
  forall₂_self (fun _ => ⟨rfl, .of_perm (.refl _)⟩) c

section Core
variable {D A : Type} [DecidableEq D] {Y : Sys k D A} {Φ : Phys k} {g : Place k} {d : Fin k → ℚ} {UN : Species → Prop}
  {K : Species → (Fin k → ℚ) → Fields k → Kern k} (F : Facts Y Φ g d UN K)
include F

variable {β : ℚ} (B : Bounds Y.solver.sync.n Y.solver.sync.ng d Φ.rs Φ.dt β)
include B

/-- one step with collisions and emission: between the two, a step of the undivided simulation -/
theorem actStep_follows {rk rk' : Nat → Nat} {x x' : St k} {p : Phases k} {W : World k} (h : Follows Y g d UN β x W)
    (hstep : ActStep Y rk rk' x p x') (hc : Slow Y.npatches β p.collided) (he : Slow Y.npatches β p.emitted) :
    Follows Y g d UN β x' ⟨(World.step Φ ⟨W.fld, cloudOf Y.npatches p.collided⟩).fld, cloudOf Y.npatches p.emitted⟩ ∧
    SameCloud (len g.np Y.solver.sync.n d) (cloudOf Y.npatches p.sorted) W.cloud ∧
    cloudOf Y.npatches p.pushed = (World.step Φ ⟨W.fld, cloudOf Y.npatches p.collided⟩).cloud := by
  obtain ⟨σ1, σ2, σ3, σ4, a1, a2, a3, b1, b2, a4, b3, a5, a6, a7⟩ := hstep
  have hhalf : Y.solver.Half1 Y.dt x.fld σ2 := ⟨σ1, guardE_sync F a1, guardB_sync F a2⟩
  obtain ⟨r2, p2⟩ := F.mid _ _ _ h.per h.rep hhalf
  have g1 := b1.good hc (sorted_good a3 h.good)
  have u1 := b1.un (sorted_un a3 h.un)
  have hl : ∀ a ∈ p.collided, ∀ t, t < Y.npatches → ∀ s ∈ a.2 t, s.dead = false → nums s.pos ≠ none := by
    intro a ha t ht s hs hd
    obtain ⟨v, hv, _⟩ := g1 a ha t ht s hs hd
    rw [hv]; simp
  rw [loop_eq F.toPushFacts σ2 p.collided u1 hl] at a4 b2
  dsimp only at a4 b2
  obtain ⟨c1, c2⟩ := pushedParts_facts F.toPushFacts B r2 p2 p.collided g1
  have u2 : ∀ z ∈ pushedParts Y Φ K σ2 p.collided, UN z.1 := by
    intro z hz
    unfold pushedParts at hz
    obtain ⟨a, ha, rfl⟩ := List.mem_map.mp hz
    exact u1 a ha
  have hcl : cloudOf Y.npatches p.pushed = (World.step Φ ⟨W.fld, cloudOf Y.npatches p.collided⟩).cloud := by
    rw [b2, c1]; rfl
  rw [b2] at b3
  obtain ⟨x1, x2, x3⟩ := exchanged_facts F.toPushFacts a5 (fun z hz t ht s hs hd => by
    obtain ⟨z0, hz0, s0, hs0, hd0, e⟩ := b3.2 z hz t ht s hs hd
    obtain ⟨v, h1, _, h3, _⟩ := c2 z0 hz0 t ht s0 hs0 hd0
    exact ⟨v, e ▸ h1, he z hz t ht s hs hd, h3⟩)
  have hcur : ∀ c : Fin 3, ∀ t v, t < Y.npatches → Own Y.solver.sync.n v →
      (σ3 t).j c (index Y.solver.sync.n Y.solver.sync.ng v)
        = Φ.cur (World.step Φ ⟨W.fld, cloudOf Y.npatches p.collided⟩).cloud c
            (globalCell Y.solver.sync.n (g.coord t) v) := by
    intro c t v ht hv
    have := F.currents σ2 (pushedParts Y Φ K σ2 p.collided) _ rk c _
      (fun t ht => (if_pos ht).trans rfl) (fun t ht => if_neg ht)
      (fun z hz t ht s hs hd => by
        obtain ⟨v, h1, _, _, h4⟩ := c2 z hz t ht s hs hd
        exact ⟨v, h1, h4⟩) (a4.2 c) t v ht hv
    dsimp only at this
    rw [this, c1]
    rfl
  obtain ⟨f1, f2⟩ := F.fstep W.fld x.fld x'.fld (Φ.cur (World.step Φ ⟨W.fld, cloudOf Y.npatches p.collided⟩).cloud)
    h.per h.rep (F.cur_per _)
    ⟨σ2, σ3, hhalf, a4.1, fun t ht c v hv => hcur c t v (by rw [← F.np_eq]; exact ht) hv,
      σ4, guardB_sync F a6, guardE_sync F a7⟩
  rw [kept_true] at x1
  exact ⟨⟨f1, f2, x1, x2, x3 (b3.un u2)⟩, (sorted_cloud a3).trans h.cloud, hcl⟩

/-- a next state exists, whatever collisions and emission do -/
theorem actStep_exists {x : St k} {W : World k} (h : Follows Y g d UN β x W) (rk rk' : Nat → Nat)
    (f e : List (Species × (Nat → List (Slot k))) → List (Species × (Nat → List (Slot k))))
    (hf : ∀ a, Acted Y.npatches a (f a)) (he : ∀ a, Acted Y.npatches a (e a))
    (sf : ∀ a, Slow Y.npatches β a → Slow Y.npatches β (f a)) :
    ∃ p x', ActStep Y rk rk' x p x' ∧ p.sorted = x.parts ∧ p.collided = f p.sorted ∧ p.emitted = e p.pushed := by
  obtain ⟨σ1, a1⟩ := guardE_ex F rk (Y.solver.stepE (1 / 2 * Y.dt) x.fld)
  obtain ⟨σ2, a2⟩ := guardB_ex F rk (Y.solver.stepB (1 / 2 * Y.dt) σ1)
  have a3 : Sorted x.parts x.parts := forall₂_self (fun a => ⟨rfl, fun t => .refl _⟩) _
  have hhalf : Y.solver.Half1 Y.dt x.fld σ2 := ⟨σ1, guardE_sync F a1, guardB_sync F a2⟩
  obtain ⟨r2, p2⟩ := F.mid _ _ _ h.per h.rep hhalf
  have sx : Slow Y.npatches β x.parts := fun a ha t ht s hs hd => (h.good a ha t ht s hs hd).choose_spec.2.2
  have g1 := (hf x.parts).good (sf _ sx) h.good
  have u1 := (hf x.parts).un h.un
  have hl : ∀ a ∈ f x.parts, ∀ t, t < Y.npatches → ∀ s ∈ a.2 t, s.dead = false → nums s.pos ≠ none := by
    intro a ha t ht s hs hd
    obtain ⟨v, hv, _⟩ := g1 a ha t ht s hs hd
    rw [hv]; simp
  have hloop := loop_eq F.toPushFacts σ2 (f x.parts) u1 hl
  obtain ⟨_, c2⟩ := pushedParts_facts F.toPushFacts B r2 p2 (f x.parts) g1
  choose m hm using fun c : Fin 3 => F.curEx rk
    (fun l => field ((speciesLoop Y σ2 (f x.parts) fun _ => zeroAcc).2 l.1) c.castSucc l.2)
  have hparts : ∃ y, List.Forall₂ (Exchanged Y rk) (e (speciesLoop Y σ2 (f x.parts) fun _ => zeroAcc).1) y := by
    obtain ⟨bl⟩ := F.blank
    have hdef : ∀ a ∈ e (speciesLoop Y σ2 (f x.parts) fun _ => zeroAcc).1,
        ∃ s', parSync (Y.geo bl) rk (List.range Y.npatches) (List.range Y.npatches) (fun t => (a.2 t).map Y.pack) = some s' := by
      intro a ha
      obtain ⟨s', q, _⟩ := F.exch a.2 (fun t ht s hs hd => by
        obtain ⟨z0, hz0, s0, hs0, hd0, ee⟩ := (he _).2 a ha t ht s hs hd
        rw [hloop] at hz0
        obtain ⟨v, h1, _, h3, _⟩ := c2 z0 hz0 t ht s0 hs0 hd0
        exact ⟨v, ee ▸ h1, h3⟩) rk _ _ bl (.refl _) (.refl _)
      exact ⟨s', q⟩
    generalize e (speciesLoop Y σ2 (f x.parts) fun _ => zeroAcc).1 = l at hdef
    clear a1 a2 a3 h hm m
    induction l with
    | nil => exact ⟨[], .nil⟩
    | cons a l ih =>
      obtain ⟨y, hy⟩ := ih fun a ha => hdef a (List.mem_cons_of_mem _ ha)
      obtain ⟨s', hs'⟩ := hdef a List.mem_cons_self
      exact ⟨(a.1, fun t => (s' t).map Y.unpack) :: y,
        .cons ⟨rfl, _, _, bl, s', .refl _, .refl _, hs', fun t => rfl⟩ hy⟩
  obtain ⟨y, hy⟩ := hparts
  obtain ⟨σ4, a6⟩ := guardB_ex F rk' (Y.solver.stepB (1 / 2 * Y.dt) fun t => { σ2 t with j := fun c v => m c (t, v) })
  obtain ⟨σ5, a7⟩ := guardE_ex F rk' (Y.solver.stepE (1 / 2 * Y.dt) σ4)
  exact ⟨⟨x.parts, f x.parts, (speciesLoop Y σ2 (f x.parts) fun _ => zeroAcc).1, _⟩, ⟨σ5, y⟩,
    ⟨σ1, σ2, fun t => { σ2 t with j := fun c v => m c (t, v) }, σ4, a1, a2, a3, hf _, rfl,
    ⟨fun t => ⟨rfl, rfl⟩, fun c => hm c⟩, he _, hy, a6, a7⟩, rfl, rfl, rfl⟩

/-- the particles move at most with `β` after the species loop -/
theorem pushed_slow {rk rk' : Nat → Nat} {x x' : St k} {p : Phases k} {W : World k} (h : Follows Y g d UN β x W)
    (hstep : ActStep Y rk rk' x p x') (hc : Slow Y.npatches β p.collided) : Slow Y.npatches β p.pushed := by
  obtain ⟨σ1, σ2, σ3, σ4, a1, a2, a3, b1, b2, a4, b3, a5, a6, a7⟩ := hstep
  have hhalf : Y.solver.Half1 Y.dt x.fld σ2 := ⟨σ1, guardE_sync F a1, guardB_sync F a2⟩
  obtain ⟨r2, p2⟩ := F.mid _ _ _ h.per h.rep hhalf
  have g1 := b1.good hc (sorted_good a3 h.good)
  have u1 := b1.un (sorted_un a3 h.un)
  have hl : ∀ a ∈ p.collided, ∀ t, t < Y.npatches → ∀ s ∈ a.2 t, s.dead = false → nums s.pos ≠ none := by
    intro a ha t ht s hs hd
    obtain ⟨v, hv, _⟩ := g1 a ha t ht s hs hd
    rw [hv]; simp
  rw [loop_eq F.toPushFacts σ2 p.collided u1 hl] at b2
  obtain ⟨_, c2⟩ := pushedParts_facts F.toPushFacts B r2 p2 p.collided g1
  rw [b2]
  intro z hz t ht s hs hd
  obtain ⟨v, _, h2, _⟩ := c2 z hz t ht s hs hd
  exact h2

/-- a run exists, whatever collisions and emission do in which step -/
theorem actRun_exists {x0 : St k} {W : World k} (h0 : Follows Y g d UN β x0 W) (rk : Nat → Nat → Nat)
    (f e : Nat → List (Species × (Nat → List (Slot k))) → List (Species × (Nat → List (Slot k))))
    (hf : ∀ i a, Acted Y.npatches a (f i a)) (he : ∀ i a, Acted Y.npatches a (e i a))
    (sf : ∀ i a, Slow Y.npatches β a → Slow Y.npatches β (f i a))
    (se : ∀ i a, Slow Y.npatches β a → Slow Y.npatches β (e i a)) :
    ∃ x p, x 0 = x0 ∧ ActRun Y rk x p ∧ (∀ i, Slow Y.npatches β (p i).collided ∧ Slow Y.npatches β (p i).emitted) ∧
      ∀ i, (p i).sorted = (x i).parts ∧ (p i).collided = f i (p i).sorted ∧ (p i).emitted = e i (p i).pushed := by
  have hnext : ∀ i, ∀ z : {z : St k // ∃ W, Follows Y g d UN β z W}, ∃ q : Phases k × {z : St k // ∃ W, Follows Y g d UN β z W},
      ActStep Y (rk i) (rk (i + 1)) z.1 q.1 q.2.1 ∧ (Slow Y.npatches β q.1.collided ∧ Slow Y.npatches β q.1.emitted) ∧
      q.1.sorted = z.1.parts ∧ q.1.collided = f i q.1.sorted ∧ q.1.emitted = e i q.1.pushed := by
    rintro i ⟨z, W, hz⟩
    obtain ⟨p, x', h1, h2, h3, h4⟩ := actStep_exists F B hz (rk i) (rk (i + 1)) (f i) (e i) (hf i) (he i) (sf i)
    have sx : Slow Y.npatches β z.parts := fun a ha t ht s hs hd => (hz.good a ha t ht s hs hd).choose_spec.2.2
    have sc : Slow Y.npatches β p.collided := by rw [h3, h2]; exact sf i _ sx
    have sm : Slow Y.npatches β p.emitted := by rw [h4]; exact se i _ (pushed_slow F B hz h1 sc)
    exact ⟨⟨p, x', _, (actStep_follows F B hz h1 sc sm).1⟩, h1, ⟨sc, sm⟩, h2, h3, h4⟩
  choose q hq using hnext
  let z : Nat → {z : St k // ∃ W, Follows Y g d UN β z W} := fun i => Nat.rec ⟨x0, W, h0⟩ (fun i z => (q i z).2) i
  exact ⟨fun i => (z i).1, fun i => (q i (z i)).1, rfl, fun i => (hq i (z i)).1, fun i => (hq i (z i)).2.1,
    fun i => (hq i (z i)).2.2⟩

end Core

end Verif.WholeRun
