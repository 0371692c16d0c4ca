import Verif.Spec.WholePml
import Verif.Proofs.WholeRun
import Verif.Props.CpmlRun
/-!
# Complete runs with absorbing layers follow the undivided simulation: the argument common to 2D and 3D
-/
namespace Verif.WholePml
open Verif.Maxwell Verif.SyncFields Verif.Pusher Verif.Deposit Verif.Geometry Verif.Neighbors Verif.PicSpec
open Verif.MpiExchange
open Verif.PicStep (field zeroAcc)
open Verif.Cpml (PConf PDom PSys PFacts PRep Whole Grid)
open Verif.WholeRun

variable {k : Nat} {D A : Type} [DecidableEq D]

/-- what a dimension supplies -/
structure LFacts (Y : Sys k D A) (P : PSys k D) (Φ : Phys k) (s : Sync k D) (g : Place k) (off : D → Fin k → Int) (opp : D → D)
    (W : Whole k) (sides : List (Fin k × Bool)) (L : Fin k → ℚ) (UN : Species → Prop)
    (K : Species → (Fin k → ℚ) → Fields k → Kern k) : Prop where
  push : PushFacts Y Φ g W.par.d 3 L (fun G => W.Periodic G.e ∧ W.Periodic G.b) (fun x => decide (Free W x)) UN K
  pml : PFacts P s g off opp W sides
  n : Y.solver.sync.n = s.n
  ng : Y.solver.sync.ng = s.ng
  np : Y.solver.sync.npatches = s.npatches
  np' : Y.npatches = s.npatches
  dt : Φ.dt = Y.dt
  cur_per : ∀ cl, W.Periodic (Φ.cur cl)

/-- the state of the program shows the undivided simulation -/
structure LFollows (N : Nat) (s : Sync k D) (g : Place k) (W : Whole k) (sides : List (Fin k × Bool)) (L : Fin k → ℚ)
    (UN : Species → Prop) (β : ℚ) (x : LSt k) (U : LWorld k) : Prop where
  rep : PRep s g W sides x.dom U.grid
  per : W.Per U.grid
  cloud : SameCloud L (cloudOf N x.parts) U.cloud
  good : Good N s.n g.coord W.par.d β x.parts
  un : ∀ a ∈ x.parts, UN a.1

section
variable {Y : Sys k D A} {P : PSys k D} {Φ : Phys k} {s : Sync k D} {g : Place k} {off : D → Fin k → Int} {opp : D → D}
  {W : Whole k} {sides : List (Fin k × Bool)} {L : Fin k → ℚ} {UN : Species → Prop}
  {K : Species → (Fin k → ℚ) → Fields k → Kern k} (F : LFacts Y P Φ s g off opp W sides L UN K)
  {β : ℚ} (B : Bounds s.n 3 W.par.d Φ.rs Φ.dt β)
include F

theorem LFacts.rep {σ : Dom k} {G : GF k} (he : Shows s.n s.ng s.npatches g (InRange s.n s.ng) (fun t => (σ t).e) G.e)
    (hb : Shows s.n s.ng s.npatches g (InRange s.n s.ng) (fun t => (σ t).b) G.b)
    (hj : Shows s.n s.ng s.npatches g (Own s.n) (fun t => (σ t).j) G.j) : Rep Y.solver g σ G := by
  rw [← F.n, ← F.ng, ← F.np] at he hb
  rw [← F.n, ← F.ng, ← F.np] at hj
  exact ⟨he, hb, hj⟩

include B

/-- the fields in which the particles are pushed, and what the push does -/
theorem mid_facts {rk : Nat → Nat} {x : LSt k} {U : LWorld k} (h : LFollows Y.npatches s g W sides L UN β x U) {x1 x2 : PDom k}
    {parts1 : List (Species × (Nat → List (Slot k)))}
    (a1 : P.SyncE rk (P.stepE (1 / 2 * Y.dt) x.dom) x1) (a2 : P.SyncB rk (P.stepB (1 / 2 * Y.dt) x1) x2)
    (a3 : Sorted x.parts parts1) :
    (∀ a ∈ parts1, UN a.1) ∧
    (speciesLoop Y x2.fld parts1 fun _ => zeroAcc) = (pushedParts Y Φ K x2.fld parts1,
      fun t => if t < Y.npatches then
        (pushedParts Y Φ K x2.fld parts1).foldl (fun ac a => (a.2 t).foldl (depChecked (K a.1 (Y.origin t) (x2.fld t))) ac) zeroAcc
        else zeroAcc) ∧
    SameCloud L (cloudOf Y.npatches (pushedParts Y Φ K x2.fld parts1)) (U.moved W Φ) ∧
    ∀ a ∈ pushedParts Y Φ K x2.fld parts1, ∀ t, t < Y.npatches → ∀ sl ∈ a.2 t, sl.dead = false → ∃ v, nums sl.pos = some v ∧
      (∀ i : Fin k, |sl.mom.invGamma * uAt sl.mom i| ≤ β) ∧ Nearby Y.solver.sync.n (g.coord t) W.par.d v ∧
      ∀ i : Fin k, FitsAxis (Y.solver.sync.n i) 3 (g.coord t i) (W.par.d i) Φ.dt (v i) (vel sl.mom i) := by
  have B' : Bounds Y.solver.sync.n 3 W.par.d Φ.rs Φ.dt β := by rw [F.n]; exact B
  have r1 := Cpml.stepE_whole F.pml h.per h.rep _ a1
  have p1 := h.per.stepE (1 / 2 * Y.dt)
  have r2 := Cpml.stepB_whole F.pml p1 r1 _ a2
  have p2 := p1.stepB (1 / 2 * Y.dt)
  rw [← F.dt] at r1 p1 r2 p2
  have r2' : Rep Y.solver g x2.fld (midGrid W Φ U.grid) := F.rep r2.e r2.b r2.j
  have p2' : W.Periodic (midGrid W Φ U.grid).e ∧ W.Periodic (midGrid W Φ U.grid).b := ⟨p2.e, p2.b⟩
  have hg := h.good
  rw [← F.n] at hg
  have g1 := sorted_good a3 hg
  have u1 := sorted_un a3 h.un
  have hl : ∀ a ∈ parts1, ∀ t, t < Y.npatches → ∀ s ∈ a.2 t, s.dead = false → nums s.pos ≠ none := by
    intro a ha t ht s hs hd
    obtain ⟨v, hv, _⟩ := g1 a ha t ht s hs hd
    rw [hv]; simp
  obtain ⟨c1, c2⟩ := pushedParts_facts F.push B' r2' p2' parts1 g1
  refine ⟨u1, loop_eq F.push x2.fld parts1 u1 hl _, ?_, c2⟩
  rw [c1]
  exact ((sorted_cloud a3).trans h.cloud).map (f := fun κ => pushed Φ κ (midGrid W Φ U.grid))
    (fun κ p q => pushed_same F.push p2' κ p q)

/-- one step of the program is one step of the undivided simulation -/
theorem lstep_follows {rk rk' : Nat → Nat} {x x' : LSt k} {U : LWorld k} (h : LFollows Y.npatches s g W sides L UN β x U)
    (hstep : LStep Y P rk rk' x x') : LFollows Y.npatches s g W sides L UN β x' (U.step W Φ) := by
  obtain ⟨x1, x2, mid, x3, parts1, a1, a2, a3, a4, al, a5, a6, a7⟩ := hstep
  obtain ⟨u1, hloop, hsame, c2⟩ := mid_facts F B h a1 a2 a3
  rw [hloop] at a4 a5
  dsimp only at a4 a5
  obtain ⟨y1, y2, y3⟩ := exchanged_facts F.push a5 (fun z hz t ht s hs hd => by
    obtain ⟨v, h1, h2, h3, _⟩ := c2 z hz t ht s hs hd
    exact ⟨v, h1, h2, h3⟩)
  have hcur : ∀ c : Fin 3, ∀ t v, t < Y.npatches → Own Y.solver.sync.n v →
      (mid.fld t).j c (index Y.solver.sync.n Y.solver.sync.ng v)
        = Φ.cur (U.moved W Φ) c (globalCell Y.solver.sync.n (g.coord t) v) := by
    intro c t v ht hv
    have := F.push.currents x2.fld (pushedParts Y Φ K x2.fld parts1) _ rk c _
      (fun t ht => (if_pos ht).trans rfl) (fun t ht => if_neg ht)
      (fun z hz t ht s hs hd => by
        obtain ⟨v, h1, _, _, h4⟩ := c2 z hz t ht s hs hd
        exact ⟨v, h1, h4⟩) (a4.2 c) t v ht hv
    dsimp only at this
    rw [this]
    have hc := F.push.cur_congr _ _ hsame (fun s hs p hp i => by
      unfold cloudOf at hs
      obtain ⟨z, hz, rfl⟩ := List.mem_map.mp hs
      obtain ⟨t, ht, s, hs, e⟩ := mem_particles.mp hp
      obtain ⟨e1, e2, e3⟩ := ptc_eq e
      obtain ⟨v, h1, h2, _, h4⟩ := c2 z hz t ht s hs e1
      rw [← e3]
      exact vel_dt (B.cfl i) (h2 i))
    rw [hc]
  have hJ : Shows s.n s.ng s.npatches g (Own s.n) (fun t => (mid.fld t).j) (Φ.cur (U.moved W Φ)) := by
    rw [← F.n, ← F.ng, ← F.np']
    intro t ht d v hv
    exact hcur d t v ht hv
  obtain ⟨f1, f2⟩ := Cpml.step_whole F.pml h.per h.rep Y.dt (F.cur_per (U.moved W Φ))
    ⟨x1, x2, x3, a1, a2, ⟨a4.1, al⟩, a6, a7⟩ hJ
  rw [← F.dt] at f1 f2
  refine ⟨f1, f2, y1.trans (SameCloud.kept (f := fun x => decide (Free W x)) F.push.keep_congr hsame), by rw [← F.n]; exact y2, y3 ?_⟩
  intro z hz
  unfold pushedParts at hz
  obtain ⟨a, ha, rfl⟩ := List.mem_map.mp hz
  exact u1 a ha

/-- a run follows the undivided simulation -/
theorem lrun_follows {rk : Nat → Nat → Nat} {x : Nat → LSt k} {U : LWorld k}
    (h0 : LFollows Y.npatches s g W sides L UN β (x 0) U) (hrun : LRun Y P rk x) (i : Nat) :
    LFollows Y.npatches s g W sides L UN β (x i) (U.run W Φ i) := by
  induction i with
  | zero => exact h0
  | succ i ih => exact lstep_follows F B ih (hrun i)

/-- no choice of orders leads into undefined behaviour -/
theorem lexchange_defined {rk : Nat → Nat} {x : LSt k} {U : LWorld k} (h : LFollows Y.npatches s g W sides L UN β x U)
    {x1 x2 : PDom k} {parts1 : List (Species × (Nat → List (Slot k)))}
    (a1 : P.SyncE rk (P.stepE (1 / 2 * Y.dt) x.dom) x1) (a2 : P.SyncB rk (P.stepB (1 / 2 * Y.dt) x1) x2)
    (a3 : Sorted x.parts parts1) :
    ∀ a ∈ (speciesLoop Y x2.fld parts1 fun _ => zeroAcc).1, ∀ ord2 ord3 blank, ord2.Perm (List.range Y.npatches) →
      ord3.Perm (List.range Y.npatches) →
      ∃ s', parSync (Y.geo blank) rk ord2 ord3 (fun t => (a.2 t).map Y.pack) = some s' := by
  obtain ⟨_, hloop, _, c2⟩ := mid_facts F B h a1 a2 a3
  rw [hloop]
  intro a ha ord2 ord3 blank o2 o3
  obtain ⟨s', q, _⟩ := F.push.exch a.2 (fun t ht s hs hd => by
    obtain ⟨v, h1, _, h3, _⟩ := c2 a ha t ht s hs hd
    exact ⟨v, h1, h3⟩) rk ord2 ord3 blank o2 o3
  exact ⟨s', q⟩

/-- a next state exists -/
theorem lstep_exists {x : LSt k} {U : LWorld k} (h : LFollows Y.npatches s g W sides L UN β x U) (rk rk' : Nat → Nat) :
    ∃ x', LStep Y P rk rk' x x' := by
  obtain ⟨x1, a1⟩ := Cpml.exists_syncE P rk (P.stepE (1 / 2 * Y.dt) x.dom)
  obtain ⟨x2, a2⟩ := Cpml.exists_syncB P rk (P.stepB (1 / 2 * Y.dt) x1)
  have a3 : Sorted x.parts x.parts := forall₂_self (fun a => ⟨rfl, fun t => .refl _⟩) _
  have hdef := lexchange_defined F B h a1 a2 a3
  choose m hm using fun c : Fin 3 => F.push.curEx rk
    (fun l => field ((speciesLoop Y x2.fld x.parts fun _ => zeroAcc).2 l.1) c.castSucc l.2)
  have hparts : ∃ y, List.Forall₂ (Exchanged Y rk) (speciesLoop Y x2.fld x.parts fun _ => zeroAcc).1 y := by
    obtain ⟨bl⟩ := F.push.blank
    generalize (speciesLoop Y x2.fld x.parts fun _ => zeroAcc).1 = l at hdef
    clear a1 a2 a3 h hm m
    induction l with
    | nil => exact ⟨[], .nil⟩
    | cons a l ih =>
      obtain ⟨y, hy⟩ := ih fun a ha => hdef a (List.mem_cons_of_mem _ ha)
      obtain ⟨s', hs'⟩ := hdef a List.mem_cons_self (List.range Y.npatches) (List.range Y.npatches) bl (.refl _) (.refl _)
      exact ⟨(a.1, fun t => (s' t).map Y.unpack) :: y,
        .cons ⟨rfl, _, _, bl, s', .refl _, .refl _, hs', fun t => rfl⟩ hy⟩
  obtain ⟨y, hy⟩ := hparts
  obtain ⟨x3, a6⟩ := Cpml.exists_syncB P rk' (P.stepB (1 / 2 * Y.dt) ⟨fun t => { x2.fld t with j := fun c v => m c (t, v) }, x2.lay⟩)
  obtain ⟨x4, a7⟩ := Cpml.exists_syncE P rk' (P.stepE (1 / 2 * Y.dt) x3)
  exact ⟨⟨x4, y⟩, x1, x2, ⟨fun t => { x2.fld t with j := fun c v => m c (t, v) }, x2.lay⟩, x3, x.parts, a1, a2, a3,
    ⟨fun t => ⟨rfl, rfl⟩, fun c => hm c⟩, rfl, hy, a6, a7⟩

end

end Verif.WholePml
