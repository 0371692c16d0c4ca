import Verif.Spec.WholeRun
import Verif.Proofs.Pusher
import Verif.Props.Pusher
import Mathlib.Data.List.Perm.Basic
/-!
# Complete runs follow the undivided simulation: the argument common to two and three dimensions

`Facts` collects what a dimension has to supply; everything else is proved from it.
-/
namespace Verif.WholeRun
open Verif.Maxwell Verif.SyncFields Verif.Pusher Verif.Deposit Verif.PicSpec Verif.MpiExchange Verif.PusherProps
open Verif.PicStep (field zeroAcc)
open Verif.Particles (F64)

variable {k : Nat}

/-! ## the same particles -/

theorem SamePtc.refl (L : Fin k → ℚ) (p : Ptc k) : SamePtc L p p := ⟨rfl, fun i => ⟨0, by push_cast; ring⟩⟩

theorem SamePtc.symm {L : Fin k → ℚ} {p q : Ptc k} (h : SamePtc L p q) : SamePtc L q p :=
  ⟨h.1.symm, fun i => by
    obtain ⟨z, hz⟩ := h.2 i
    exact ⟨-z, by rw [hz]; push_cast; ring⟩⟩

theorem SamePtc.trans {L : Fin k → ℚ} {p q r : Ptc k} (h : SamePtc L p q) (h' : SamePtc L q r) : SamePtc L p r :=
  ⟨h.1.trans h'.1, fun i => by
    obtain ⟨z, hz⟩ := h.2 i
    obtain ⟨z', hz'⟩ := h'.2 i
    exact ⟨z' + z, by rw [hz, hz']; push_cast; ring⟩⟩

theorem forall₂_trans {α : Type*} {R : α → α → Prop} (hR : ∀ {a b c}, R a b → R b c → R a c) {a b c : List α}
    (h : List.Forall₂ R a b) (h' : List.Forall₂ R b c) : List.Forall₂ R a c := by
  induction h generalizing c with
  | nil => cases h'; exact .nil
  | cons h1 _ ih =>
    cases h' with
    | cons h2 h3 => exact .cons (hR h1 h2) (ih h3)

theorem forall₂_symm {α : Type*} {R : α → α → Prop} (hR : ∀ {a b}, R a b → R b a) {a b : List α}
    (h : List.Forall₂ R a b) : List.Forall₂ R b a := by
  induction h with
  | nil => exact .nil
  | cons h1 _ ih => exact .cons (hR h1) ih

theorem forall₂_self {α : Type*} {R : α → α → Prop} (hR : ∀ a, R a a) (a : List α) : List.Forall₂ R a a := by
  induction a with
  | nil => exact .nil
  | cons x l ih => exact .cons (hR x) ih

theorem SameParticles.of_perm {L : Fin k → ℚ} {a b : List (Ptc k)} (h : a.Perm b) : SameParticles L a b :=
  ⟨a, h, forall₂_self (SamePtc.refl L) a⟩

theorem SameParticles.trans {L : Fin k → ℚ} {a b c : List (Ptc k)} (h : SameParticles L a b)
    (h' : SameParticles L b c) : SameParticles L a c := by
  obtain ⟨b', p, f⟩ := h
  obtain ⟨c', p', f'⟩ := h'
  obtain ⟨c'', f'', p''⟩ := List.perm_comp_forall₂ p f'
  exact ⟨c'', p''.trans p', forall₂_trans SamePtc.trans f f''⟩

theorem SameParticles.symm {L : Fin k → ℚ} {a b : List (Ptc k)} (h : SameParticles L a b) : SameParticles L b a := by
  obtain ⟨b', p, f⟩ := h
  obtain ⟨a', f', p'⟩ := List.perm_comp_forall₂ p.symm (forall₂_symm SamePtc.symm f)
  exact ⟨a', p', f'⟩

theorem SameParticles.map {L : Fin k → ℚ} {f : Ptc k → Ptc k} (hf : ∀ p q, SamePtc L p q → SamePtc L (f p) (f q))
    {a b : List (Ptc k)} (h : SameParticles L a b) : SameParticles L (a.map f) (b.map f) := by
  obtain ⟨b', p, g⟩ := h
  refine ⟨b'.map f, p.map f, ?_⟩
  clear p
  induction g with
  | nil => exact .nil
  | cons h1 _ ih => exact .cons (hf _ _ h1) ih

theorem SameParticles.mom {L : Fin k → ℚ} {a b : List (Ptc k)} (h : SameParticles L a b) {p : Ptc k} (hp : p ∈ a) :
    ∃ q ∈ b, p.mom = q.mom := by
  obtain ⟨b', pm, f⟩ := h
  have : ∃ q ∈ b', p.mom = q.mom := by
    clear pm
    induction f with
    | nil => cases hp
    | cons h1 _ ih =>
      rcases List.mem_cons.mp hp with rfl | hp
      · exact ⟨_, List.mem_cons_self, h1.1⟩
      · obtain ⟨q, hq, e⟩ := ih hp
        exact ⟨q, List.mem_cons_of_mem _ hq, e⟩
  obtain ⟨q, hq, e⟩ := this
  exact ⟨q, pm.mem_iff.mp hq, e⟩

theorem SameCloud.trans {L : Fin k → ℚ} {a b c : List (Kind × List (Ptc k))} (h : SameCloud L a b)
    (h' : SameCloud L b c) : SameCloud L a c :=
  forall₂_trans (fun h1 h2 => ⟨h1.1.trans h2.1, h1.2.trans h2.2⟩) h h'

theorem SameCloud.symm {L : Fin k → ℚ} {a b : List (Kind × List (Ptc k))} (h : SameCloud L a b) : SameCloud L b a :=
  forall₂_symm (fun h1 => ⟨h1.1.symm, h1.2.symm⟩) h

theorem SameCloud.map {L : Fin k → ℚ} {f : Kind → Ptc k → Ptc k}
    (hf : ∀ κ p q, SamePtc L p q → SamePtc L (f κ p) (f κ q)) {a b : List (Kind × List (Ptc k))}
    (h : SameCloud L a b) :
    SameCloud L (a.map fun s => (s.1, s.2.map (f s.1))) (b.map fun s => (s.1, s.2.map (f s.1))) := by
  unfold SameCloud at h ⊢
  induction h with
  | nil => exact .nil
  | cons h1 _ ih =>
    refine .cons ⟨h1.1, ?_⟩ ih
    dsimp only
    rw [← h1.1]
    exact h1.2.map (hf _)

theorem SameParticles.filter {L : Fin k → ℚ} {f : Ptc k → Bool} (hf : ∀ p q, SamePtc L p q → f p = f q)
    {a b : List (Ptc k)} (h : SameParticles L a b) : SameParticles L (a.filter f) (b.filter f) := by
  obtain ⟨b', p, g⟩ := h
  refine ⟨b'.filter f, p.filter f, ?_⟩
  clear p
  induction g with
  | nil => exact .nil
  | @cons x y _ _ h1 _ ih =>
    rw [List.filter_cons, List.filter_cons, ← hf _ _ h1]
    split
    · exact .cons h1 ih
    · exact ih

/-- a cloud without the particles that `f` rejects -/
def kept (f : (Fin k → ℚ) → Bool) (cl : List (Kind × List (Ptc k))) : List (Kind × List (Ptc k)) :=
  cl.map fun s => (s.1, s.2.filter fun p => f p.pos)

theorem kept_true (cl : List (Kind × List (Ptc k))) : kept (fun _ => true) cl = cl := by
  unfold kept
  simp

theorem SameCloud.kept {L : Fin k → ℚ} {f : (Fin k → ℚ) → Bool}
    (hf : ∀ x y : Fin k → ℚ, (∀ i, ∃ z : ℤ, x i = y i + z * L i) → f x = f y) {a b : List (Kind × List (Ptc k))}
    (h : SameCloud L a b) : SameCloud L (kept f a) (kept f b) := by
  unfold SameCloud WholeRun.kept at *
  induction h with
  | nil => exact .nil
  | cons h1 _ ih => exact .cons ⟨h1.1, h1.2.filter fun p q hpq => hf _ _ hpq.2⟩ ih

theorem particles_perm {N : Nat} {a b : Nat → List (Slot k)} (h : ∀ t, (a t).Perm (b t)) :
    (particles N a).Perm (particles N b) := by
  unfold particles
  induction List.range N with
  | nil => exact .nil
  | cons t l ih =>
    simp only [List.flatMap_cons]
    exact ((h t).filterMap _).append ih

theorem ptc_some {s : Slot k} {v : Fin k → ℚ} (hd : s.dead = false) (hv : nums s.pos = some v) :
    ptc s = some ⟨v, s.mom⟩ := by
  unfold ptc
  rw [if_neg (by rw [hd]; decide), hv]
  rfl

theorem ptc_eq {s : Slot k} {p : Ptc k} (h : ptc s = some p) :
    s.dead = false ∧ nums s.pos = some p.pos ∧ s.mom = p.mom := by
  unfold ptc at h
  split at h
  · cases h
  · rename_i hd
    cases hn : nums s.pos with
    | none => rw [hn] at h; cases h
    | some v =>
      rw [hn] at h
      injection h with h
      subst h
      exact ⟨by simpa using hd, rfl, rfl⟩

theorem mem_particles {N : Nat} {ps : Nat → List (Slot k)} {p : Ptc k} :
    p ∈ particles N ps ↔ ∃ t, t < N ∧ ∃ s ∈ ps t, ptc s = some p := by
  unfold particles
  simp only [List.mem_flatMap, List.mem_range, List.mem_filterMap]

/-! ## one particle -/

theorem advance_val (K : Kern k) (bor : FieldsAt ℚ → Mo ℚ → Mo ℚ) (cdt : ℚ) (s : Slot k) {v : Fin k → ℚ}
    (hv : nums s.pos = some v) :
    let x := fun i : Fin k => v i + cdt * s.mom.invGamma * uAt s.mom i
    let f := K.interp x
    let r := bor ⟨f.ex, f.ey, f.ez, f.bx, f.by', f.bz⟩ ⟨s.mom.ux, s.mom.uy, s.mom.uz, s.mom.invGamma⟩
    let u : Mom := ⟨r.ux, r.uy, r.uz, r.ig, s.mom.w⟩
    advance K bor cdt s = ⟨fun i => .val (x i + cdt * u.invGamma * uAt u i), u, f, s.dead⟩ := by
  intro x f r u
  have e1 : pushPos cdt s = ⟨fun i => .val (x i), s.mom, s.eb, s.dead⟩ := by
    unfold pushPos
    congr 1
    funext i
    rw [nums_eq_some hv i]
    rfl
  have e2 : storeInterp K (pushPos cdt s) = ⟨fun i => .val (x i), s.mom, f, s.dead⟩ := by
    rw [e1]
    unfold storeInterp
    dsimp only
    rw [nums_val]
  unfold advance
  rw [e2]
  rfl

/-- speed along every axis after the Boris rotation -/
theorem boris_speed {rs : ℚ → ℚ} {β : ℚ} (hβ : 0 ≤ β) (hrs : ∀ s, 1 ≤ s → rs s ^ 2 * s ≤ β ^ 2) (c q m dt : ℚ)
    (f : FieldsAt ℚ) (p : Mo ℚ) (w : ℚ) (i : Nat) :
    let r := borisUnified rs c q m dt f p
    |r.ig * uAt ⟨r.ux, r.uy, r.uz, r.ig, w⟩ i| ≤ β := by
  intro r
  have hig : r.ig = rs (1 + r.ux * r.ux + r.uy * r.uy + r.uz * r.uz) := rfl
  apply abs_le_of_sq_le_sq _ hβ
  have h := hrs (1 + r.ux * r.ux + r.uy * r.uy + r.uz * r.uz)
    (by nlinarith [mul_self_nonneg r.ux, mul_self_nonneg r.uy, mul_self_nonneg r.uz])
  rw [← hig] at h
  refine le_trans ?_ h
  rw [mul_pow]
  apply mul_le_mul_of_nonneg_left _ (sq_nonneg _)
  unfold uAt
  have hx := mul_self_nonneg r.ux
  have hy := mul_self_nonneg r.uy
  have hz := mul_self_nonneg r.uz
  split <;> rw [pow_two] <;> linarith

/-- the velocity along axis `i` -/
def vel (m : Mom) (i : Nat) : ℚ := uAt m i * lightSpeed * m.invGamma

/-- one axis of the courant condition -/
theorem vel_dt {β dt d : ℚ} (hc : lightSpeed * |dt| * β ≤ d) {m : Mom} {i : Nat} (h : |m.invGamma * uAt m i| ≤ β) :
    |vel m i * dt| ≤ d := by
  have hl : (0 : ℚ) ≤ lightSpeed := by unfold lightSpeed; norm_num
  have e : vel m i * dt = lightSpeed * dt * (m.invGamma * uAt m i) := by unfold vel; ring
  rw [e, abs_mul, abs_mul, abs_of_nonneg hl]
  exact (mul_le_mul_of_nonneg_left h (mul_nonneg hl (abs_nonneg _))).trans hc

/-! ## what a dimension supplies -/

/-- inside the bounds of the particle exchange: half a cell beyond the first and the last cell of the patch -/
def Ins (n c : Fin k → Nat) (d v : Fin k → ℚ) : Prop :=
  ∀ i, c i * n i * d i - d i / 2 ≤ v i ∧ v i ≤ c i * n i * d i + n i * d i - d i / 2

/-- the same, or outside by at most one cell -/
def Nearby (n c : Fin k → Nat) (d v : Fin k → ℚ) : Prop :=
  ∀ i, c i * n i * d i - d i / 2 - d i ≤ v i ∧ v i ≤ c i * n i * d i + n i * d i - d i / 2 + d i

/-- the push of one patch, slot by slot -/
def pushOne (K : Kern k) (bor : FieldsAt ℚ → Mo ℚ → Mo ℚ) (cdt : ℚ) (P : PatchSt k) : PatchSt k :=
  { P with
    parts := P.parts.map (skipDeadNan (advance K bor cdt)),
    acc := (P.parts.map (skipDeadNan (advance K bor cdt))).foldl (depChecked K) P.acc }

/-- the deposits of all species of one patch, from zero -/
def depParts (K : Species → Kern k) (parts : List (Species × (Nat → List (Slot k)))) (t : Nat) : Acc k :=
  parts.foldl (fun ac a => (a.2 t).foldl (depChecked (K a.1)) ac) zeroAcc

/-- every living particle has coordinates and fits the patch that deposits it -/
def Fit (N : Nat) (n : Fin k → Nat) (ng : Nat) (coord : Nat → Fin k → Nat) (d : Fin k → ℚ) (dt : ℚ)
    (parts : List (Species × (Nat → List (Slot k)))) : Prop :=
  ∀ a ∈ parts, ∀ t, t < N → ∀ s ∈ a.2 t, s.dead = false → ∃ v, nums s.pos = some v ∧
    ∀ i : Fin k, FitsAxis (n i) ng (coord t i) (d i) dt (v i) (vel s.mom i)

/-- lengths of the domain -/
def len (np n : Fin k → Nat) (d : Fin k → ℚ) (i : Fin k) : ℚ := np i * n i * d i

/-- what a dimension supplies for the particles; `K` are its kernels, `g` the places of the patches, `mg` the cells a deposit
may reach beyond its patch, `L` the lengths after which positions are the same, `Per` what the fields satisfy, `keep` the
positions that the particle exchange does not remove -/
structure PushFacts {D A : Type} [DecidableEq D] (Y : Sys k D A) (Φ : Phys k) (g : Place k) (d : Fin k → ℚ) (mg : Nat)
    (L : Fin k → ℚ) (Per : GF k → Prop) (keep : (Fin k → ℚ) → Bool) (UN : Species → Prop)
    (K : Species → (Fin k → ℚ) → Fields k → Kern k) : Prop where
  push_eq : ∀ sp Ps, UN sp → LivingHavePositions Ps → Y.push sp Ps = Ps.map fun P =>
    pushOne (K sp P.origin P.fields) (borisUnified Φ.rs lightSpeed sp.q sp.m Φ.dt) (lightSpeed * (1 / 2) * Φ.dt) P
  interp : ∀ sp t σ G v, t < Y.npatches → Rep Y.solver g σ G → Per G →
    (∀ i, -1 ≤ v i / d i - g.coord t i * Y.solver.sync.n i ∧
      v i / d i - g.coord t i * Y.solver.sync.n i ≤ Y.solver.sync.n i) →
    (K sp (Y.origin t) (σ t)).interp v = Φ.see G v
  currents : ∀ (σ : Dom k) parts (acc : Nat → Acc k) rk (c : Fin 3) m',
    (∀ t, t < Y.npatches → acc t = depParts (fun sp => K sp (Y.origin t) (σ t)) parts t) →
    (∀ t, ¬ t < Y.npatches → acc t = zeroAcc) →
    Fit Y.npatches Y.solver.sync.n mg g.coord d Φ.dt parts →
    CurrentExchange (Y.curLoc rk) (Y.curMpi rk) (fun l => field (acc l.1) c.castSucc l.2) m' →
    ∀ t v, t < Y.npatches → Own Y.solver.sync.n v →
      m' (t, index Y.solver.sync.n Y.solver.sync.ng v)
        = Φ.cur (cloudOf Y.npatches parts) c (globalCell Y.solver.sync.n (g.coord t) v)
  cur_congr : ∀ a b, SameCloud L a b →
    (∀ s ∈ a, ∀ p ∈ s.2, ∀ i : Fin k, |vel p.mom i * Φ.dt| ≤ d i) → Φ.cur a = Φ.cur b
  see_congr : ∀ G x y, Per G → (∀ i, ∃ z : ℤ, x i = y i + z * L i) → Φ.see G x = Φ.see G y
  keep_congr : ∀ x y : Fin k → ℚ, (∀ i, ∃ z : ℤ, x i = y i + z * L i) → keep x = keep y
  exch : ∀ (ps : Nat → List (Slot k)),
    (∀ t, t < Y.npatches → ∀ s ∈ ps t, s.dead = false → ∃ v, nums s.pos = some v ∧
      Nearby Y.solver.sync.n (g.coord t) d v) →
    ∀ rk ord2 ord3 blank, ord2.Perm (List.range Y.npatches) → ord3.Perm (List.range Y.npatches) →
    ∃ s', parSync (Y.geo blank) rk ord2 ord3 (fun t => (ps t).map Y.pack) = some s' ∧
      SameParticles L (particles Y.npatches fun t => (s' t).map Y.unpack)
        ((particles Y.npatches ps).filter fun p => keep p.pos) ∧
      ∀ t, t < Y.npatches → ∀ s ∈ (s' t).map Y.unpack, s.dead = false → ∃ v, nums s.pos = some v ∧
        Ins Y.solver.sync.n (g.coord t) d v
  curEx : ∀ rk m, ∃ m', CurrentExchange (Y.curLoc rk) (Y.curMpi rk) m m'
  blank : Nonempty A

/-- what a dimension supplies on a periodic domain -/
structure Facts {D A : Type} [DecidableEq D] (Y : Sys k D A) (Φ : Phys k) (g : Place k) (d : Fin k → ℚ) (UN : Species → Prop)
    (K : Species → (Fin k → ℚ) → Fields k → Kern k) : Prop extends
    PushFacts Y Φ g d Y.solver.sync.ng (len g.np Y.solver.sync.n d) (fun G => G.Per g.np Y.solver.sync.n) (fun _ => true) UN K where
  dt_eq : Φ.dt = Y.dt
  np_eq : Y.solver.sync.npatches = Y.npatches
  guard : ∀ rk m m', GuardExchange (Y.guardLoc rk) (Y.guardMpi rk) m m' → Y.solver.sync.GuardRun m m'
  mid : ∀ G σ σ1, G.Per g.np Y.solver.sync.n → Rep Y.solver g σ G → Y.solver.Half1 Y.dt σ σ1 →
    Rep Y.solver g σ1 (midField Φ G) ∧ (midField Φ G).Per g.np Y.solver.sync.n
  fstep : ∀ G σ σ' J, G.Per g.np Y.solver.sync.n → Rep Y.solver g σ G → Periodic g.np Y.solver.sync.n J →
    StepWith Y.solver g Y.dt J σ σ' →
    Rep Y.solver g σ' (GF.step Φ.FE Φ.FB Φ.dt J G) ∧ (GF.step Φ.FE Φ.FB Φ.dt J G).Per g.np Y.solver.sync.n
  cur_per : ∀ cl, Periodic g.np Y.solver.sync.n (Φ.cur cl)
  guardEx : ∀ rk m, ∃ m', GuardExchange (Y.guardLoc rk) (Y.guardMpi rk) m m'

/-- bounds of a run: speeds `β` in units of the light speed, at most one cell per step, at least three guard cells -/
structure Bounds (n : Fin k → Nat) (ng : Nat) (d : Fin k → ℚ) (rs : ℚ → ℚ) (dt β : ℚ) : Prop where
  ng3 : 3 ≤ ng
  n1 : ∀ i, 1 ≤ n i
  d_pos : ∀ i, 0 < d i
  β0 : 0 ≤ β
  rsβ : ∀ s, 1 ≤ s → rs s ^ 2 * s ≤ β ^ 2
  cfl : ∀ i, lightSpeed * |dt| * β ≤ d i

/-- every living particle has coordinates inside its patch and a speed of at most `β` -/
def Good (N : Nat) (n : Fin k → Nat) (coord : Nat → Fin k → Nat) (d : Fin k → ℚ) (β : ℚ)
    (parts : List (Species × (Nat → List (Slot k)))) : Prop :=
  ∀ a ∈ parts, ∀ t, t < N → ∀ s ∈ a.2 t, s.dead = false → ∃ v, nums s.pos = some v ∧ Ins n (coord t) d v ∧
    ∀ i : Fin k, |s.mom.invGamma * uAt s.mom i| ≤ β

section Push
variable {D A : Type} [DecidableEq D] {Y : Sys k D A} {Φ : Phys k} {g : Place k} {d : Fin k → ℚ} {mg : Nat} {L : Fin k → ℚ}
  {Per : GF k → Prop} {keep : (Fin k → ℚ) → Bool} {UN : Species → Prop} {K : Species → (Fin k → ℚ) → Fields k → Kern k}
  (F : PushFacts Y Φ g d mg L Per keep UN K)
include F

/-- the push of one slot of patch `t` -/
def adv (Y : Sys k D A) (Φ : Phys k) (K : Species → (Fin k → ℚ) → Fields k → Kern k) (σ : Dom k) (sp : Species) (t : Nat) :
    Slot k → Slot k :=
  skipDeadNan (advance (K sp (Y.origin t) (σ t)) (borisUnified Φ.rs lightSpeed sp.q sp.m Φ.dt)
    (lightSpeed * (1 / 2) * Φ.dt))

/-- the particles after the species loop -/
def pushedParts (Y : Sys k D A) (Φ : Phys k) (K : Species → (Fin k → ℚ) → Fields k → Kern k) (σ : Dom k)
    (parts : List (Species × (Nat → List (Slot k)))) : List (Species × (Nat → List (Slot k))) :=
  parts.map fun a => (a.1, fun t => if t < Y.npatches then (a.2 t).map (adv Y Φ K σ a.1 t) else a.2 t)

theorem loop_eq (σ : Dom k) (parts : List (Species × (Nat → List (Slot k)))) (hun : ∀ a ∈ parts, UN a.1)
    (hl : ∀ a ∈ parts, ∀ t, t < Y.npatches → ∀ s ∈ a.2 t, s.dead = false → nums s.pos ≠ none)
    (acc : Nat → Acc k) :
    speciesLoop Y σ parts acc = (pushedParts Y Φ K σ parts,
      fun t => if t < Y.npatches then
        (pushedParts Y Φ K σ parts).foldl (fun ac a => (a.2 t).foldl (depChecked (K a.1 (Y.origin t) (σ t))) ac) (acc t)
        else acc t) := by
  induction parts generalizing acc with
  | nil =>
    show ([], acc) = _
    unfold pushedParts
    simp
  | cons a rest ih =>
    obtain ⟨sp, ps⟩ := a
    have hpos : LivingHavePositions (gather Y σ ps acc) := by
      intro P hP s hs hd i
      unfold gather at hP
      obtain ⟨t, ht, rfl⟩ := List.mem_map.mp hP
      have := hl (sp, ps) List.mem_cons_self t (List.mem_range.mp ht) s hs hd
      obtain ⟨v, hv⟩ := Option.ne_none_iff_exists'.mp this
      rw [nums_eq_some hv i]
      simp
    have hpush := F.push_eq sp (gather Y σ ps acc) (hun _ List.mem_cons_self) hpos
    have hget : ∀ t, (Y.push sp (gather Y σ ps acc))[t]? = if t < Y.npatches then
        some (pushOne (K sp (Y.origin t) (σ t)) (borisUnified Φ.rs lightSpeed sp.q sp.m Φ.dt)
          (lightSpeed * (1 / 2) * Φ.dt) ⟨ps t, σ t, acc t, Y.origin t⟩) else none := by
      intro t
      rw [hpush]
      unfold gather
      rw [List.map_map, List.getElem?_map]
      split
      · rename_i ht
        rw [List.getElem?_range ht]
        rfl
      · rename_i ht
        rw [List.getElem?_eq_none (by rw [List.length_range]; omega)]
        rfl
    have e1 : (fun t => ((Y.push sp (gather Y σ ps acc))[t]?.map PatchSt.parts).getD (ps t))
        = fun t => if t < Y.npatches then (ps t).map (adv Y Φ K σ sp t) else ps t := by
      funext t
      rw [hget]
      split
      · rfl
      · rfl
    have e2 : (fun t => ((Y.push sp (gather Y σ ps acc))[t]?.map PatchSt.acc).getD (acc t))
        = fun t => if t < Y.npatches then
          ((ps t).map (adv Y Φ K σ sp t)).foldl (depChecked (K sp (Y.origin t) (σ t))) (acc t) else acc t := by
      funext t
      rw [hget]
      split
      · rfl
      · rfl
    show (let Ps := Y.push sp (gather Y σ ps acc)
      let ps' : Nat → List (Slot k) := fun t => (Ps[t]?.map PatchSt.parts).getD (ps t)
      let acc' : Nat → Acc k := fun t => (Ps[t]?.map PatchSt.acc).getD (acc t)
      let r := speciesLoop Y σ rest acc'
      ((sp, ps') :: r.1, r.2)) = _
    dsimp only
    rw [e1, e2, ih (fun a ha => hun a (List.mem_cons_of_mem _ ha)) (fun a ha => hl a (List.mem_cons_of_mem _ ha))]
    unfold pushedParts
    rw [List.map_cons]
    congr 1
    funext t
    dsimp only
    by_cases ht : t < Y.npatches
    · simp only [if_pos ht, List.foldl_cons]
    · simp only [if_neg ht]

variable {β : ℚ} (B : Bounds Y.solver.sync.n mg d Φ.rs Φ.dt β)
include B

/-- what the push does to a living particle of patch `t` -/
theorem adv_living {σ : Dom k} {G : GF k} (hrep : Rep Y.solver g σ G) (hper : Per G)
    (sp : Species) {t : Nat} (ht : t < Y.npatches) {s : Slot k} (hd : s.dead = false) {v : Fin k → ℚ}
    (hv : nums s.pos = some v) (hin : Ins Y.solver.sync.n (g.coord t) d v)
    (hu : ∀ i : Fin k, |s.mom.invGamma * uAt s.mom i| ≤ β) :
    let q := pushed Φ sp.toKind G ⟨v, s.mom⟩
    let s' := adv Y Φ K σ sp t s
    s'.dead = false ∧ nums s'.pos = some q.pos ∧ s'.mom = q.mom ∧
      (∀ i : Fin k, |q.mom.invGamma * uAt q.mom i| ≤ β) ∧
      Nearby Y.solver.sync.n (g.coord t) d q.pos ∧
      ∀ i : Fin k, FitsAxis (Y.solver.sync.n i) mg (g.coord t i) (d i) Φ.dt (q.pos i) (vel q.mom i) := by
  intro q s'
  have hne : nums s.pos ≠ none := by rw [hv]; simp
  have hs' : s' = advance (K sp (Y.origin t) (σ t)) (borisUnified Φ.rs lightSpeed sp.q sp.m Φ.dt)
      (lightSpeed * (1 / 2) * Φ.dt) s := by
    show skipDeadNan _ s = _
    unfold skipDeadNan
    rw [if_neg (by rw [hd]; decide), if_neg hne]
  have hmid : (K sp (Y.origin t) (σ t)).interp
      (fun i : Fin k => v i + lightSpeed * (1 / 2) * Φ.dt * s.mom.invGamma * uAt s.mom i)
      = Φ.see G fun i : Fin k => v i + lightSpeed * (1 / 2) * Φ.dt * s.mom.invGamma * uAt s.mom i := by
    apply F.interp sp t σ G _ ht hrep hper
    intro i
    have hdi := B.d_pos i
    have hvel := abs_le.mp (vel_dt (B.cfl i) (hu i))
    have e : lightSpeed * (1 / 2) * Φ.dt * s.mom.invGamma * uAt s.mom i = vel s.mom i * Φ.dt / 2 := by
      unfold vel; ring
    have h1 := (hin i).1
    have h2 := (hin i).2
    rw [e]
    constructor
    · rw [le_sub_iff_add_le, le_div_iff₀ hdi]; linarith [hvel.1]
    · rw [sub_le_iff_le_add, div_le_iff₀ hdi]; linarith [hvel.2]
  have hadv := advance_val (K sp (Y.origin t) (σ t)) (borisUnified Φ.rs lightSpeed sp.q sp.m Φ.dt)
    (lightSpeed * (1 / 2) * Φ.dt) s hv
  dsimp only at hadv
  rw [hmid] at hadv
  have hslot : s' = ⟨fun i => .val (q.pos i), q.mom, Φ.see G fun i : Fin k =>
      v i + lightSpeed * (1 / 2) * Φ.dt * s.mom.invGamma * uAt s.mom i, s.dead⟩ := hs'.trans hadv
  have hβ : ∀ i : Fin k, |q.mom.invGamma * uAt q.mom i| ≤ β := fun i =>
    boris_speed B.β0 B.rsβ lightSpeed sp.q sp.m Φ.dt _ _ s.mom.w i
  have hpos : ∀ i : Fin k, q.pos i = v i + vel s.mom i * Φ.dt / 2 + vel q.mom i * Φ.dt / 2 := by
    intro i
    show v i + lightSpeed * (1 / 2) * Φ.dt * s.mom.invGamma * uAt s.mom i
      + lightSpeed * (1 / 2) * Φ.dt * q.mom.invGamma * uAt q.mom i = _
    unfold vel; ring
  refine ⟨by rw [hslot]; exact hd, by rw [hslot]; exact nums_val _, by rw [hslot], hβ, fun i => ?_, fun i => ?_⟩
  · have hdi := B.d_pos i
    have a0 := abs_le.mp (vel_dt (B.cfl i) (hu i))
    have a1 := abs_le.mp (vel_dt (B.cfl i) (hβ i))
    have h1 := (hin i).1
    have h2 := (hin i).2
    rw [hpos i]
    constructor
    · linarith [a0.1, a1.1]
    · linarith [a0.2, a1.2]
  · exact PicStep.fits_of_inside B.ng3 (B.d_pos i) (vel_dt (B.cfl i) (hu i)) (vel_dt (B.cfl i) (hβ i)) (hin i).1 (hin i).2
      (hpos i)

/-- the species loop on the particles -/
theorem pushedParts_facts {σ : Dom k} {G : GF k} (hrep : Rep Y.solver g σ G) (hper : Per G)
    (parts : List (Species × (Nat → List (Slot k))))
    (hgood : Good Y.npatches Y.solver.sync.n g.coord d β parts) :
    cloudOf Y.npatches (pushedParts Y Φ K σ parts)
      = (cloudOf Y.npatches parts).map (fun s => (s.1, s.2.map (pushed Φ s.1 G))) ∧
    ∀ a ∈ pushedParts Y Φ K σ parts, ∀ t, t < Y.npatches → ∀ s ∈ a.2 t, s.dead = false → ∃ v, nums s.pos = some v ∧
      (∀ i : Fin k, |s.mom.invGamma * uAt s.mom i| ≤ β) ∧ Nearby Y.solver.sync.n (g.coord t) d v ∧
      ∀ i : Fin k, FitsAxis (Y.solver.sync.n i) mg (g.coord t i) (d i) Φ.dt (v i) (vel s.mom i) := by
  have hdead : ∀ (σ : Dom k) (sp : Species) (t : Nat) (s : Slot k), (adv Y Φ K σ sp t s).dead = s.dead := by
    intro σ sp t s
    show (skipDeadNan _ s).dead = _
    unfold skipDeadNan
    split
    · rfl
    · split
      · rfl
      · exact advance_dead _ _ _ _
  constructor
  · unfold cloudOf pushedParts
    rw [List.map_map, List.map_map]
    apply List.map_congr_left
    intro a ha
    show (a.1.toKind, particles Y.npatches _) = (a.1.toKind, (particles Y.npatches a.2).map _)
    congr 1
    unfold particles
    rw [List.map_flatMap]
    have : ∀ t ∈ List.range Y.npatches,
        (if t < Y.npatches then (a.2 t).map (adv Y Φ K σ a.1 t) else a.2 t).filterMap ptc
          = ((a.2 t).filterMap ptc).map (pushed Φ a.1.toKind G) := by
      intro t ht
      have ht' := List.mem_range.mp ht
      rw [if_pos ht', List.filterMap_map, List.map_filterMap]
      apply List.filterMap_congr
      intro s hs
      show ptc (adv Y Φ K σ a.1 t s) = (ptc s).map _
      cases hd : s.dead with
      | true =>
        have h1 : ptc s = none := by unfold ptc; rw [hd]; rfl
        have h2 : ptc (adv Y Φ K σ a.1 t s) = none := by unfold ptc; rw [hdead, hd]; rfl
        rw [h1, h2]; rfl
      | false =>
        obtain ⟨v, hv, hin, hu⟩ := hgood a ha t ht' s hs hd
        obtain ⟨h1, h2, h3, _⟩ := adv_living F B hrep hper a.1 ht' hd hv hin hu
        rw [ptc_some hd hv, ptc_some h1 h2, h3]
        rfl
    rw [List.flatMap_def, List.flatMap_def, List.map_congr_left this]
  · intro b hb t ht s hs hd
    unfold pushedParts at hb
    obtain ⟨a, ha, rfl⟩ := List.mem_map.mp hb
    dsimp only at hs
    rw [if_pos ht] at hs
    obtain ⟨s0, hs0, rfl⟩ := List.mem_map.mp hs
    have hd0 : s0.dead = false := by rw [← hdead σ a.1 t s0]; exact hd
    obtain ⟨v, hv, hin, hu⟩ := hgood a ha t ht s0 hs0 hd0
    obtain ⟨_, h2, h3, h4, h5, h6⟩ := adv_living F B hrep hper a.1 ht hd0 hv hin hu
    exact ⟨_, h2, by rw [h3]; exact h4, h5, by rw [h3]; exact h6⟩

omit B in
theorem pushed_same {G : GF k} (hper : Per G) (κ : Kind) (p q : Ptc k)
    (h : SamePtc L p q) :
    SamePtc L (pushed Φ κ G p) (pushed Φ κ G q) := by
  obtain ⟨x, m⟩ := p
  obtain ⟨y, m'⟩ := q
  obtain ⟨hm, hz⟩ := h
  dsimp only at hm hz
  subst hm
  have hsee : Φ.see G (fun i : Fin k => x i + lightSpeed * (1 / 2) * Φ.dt * m.invGamma * uAt m i)
      = Φ.see G (fun i : Fin k => y i + lightSpeed * (1 / 2) * Φ.dt * m.invGamma * uAt m i) := by
    apply F.see_congr G _ _ hper
    intro i
    obtain ⟨z, e⟩ := hz i
    exact ⟨z, by rw [e]; ring⟩
  unfold pushed
  dsimp only
  rw [hsee]
  refine ⟨rfl, fun i => ?_⟩
  obtain ⟨z, e⟩ := hz i
  exact ⟨z, by dsimp only; rw [e]; ring⟩

omit F B in
theorem sorted_good {N : Nat} {n : Fin k → Nat} {coord : Nat → Fin k → Nat} {a b : List (Species × (Nat → List (Slot k)))}
    (h : Sorted a b) (hg : Good N n coord d β a) : Good N n coord d β b := by
  intro y hy t ht s hs hd
  have : ∃ x ∈ a, ∀ t, (y.2 t).Perm (x.2 t) := by
    clear hg
    unfold Sorted at h
    induction h with
    | nil => cases hy
    | cons h1 _ ih =>
      rcases List.mem_cons.mp hy with rfl | hy
      · exact ⟨_, List.mem_cons_self, h1.2⟩
      · obtain ⟨x, hx, e⟩ := ih hy
        exact ⟨x, List.mem_cons_of_mem _ hx, e⟩
  obtain ⟨x, hx, hp⟩ := this
  exact hg x hx t ht s ((hp t).mem_iff.mp hs) hd

omit F B in
theorem sorted_un {a b : List (Species × (Nat → List (Slot k)))}
    (h : Sorted a b) (hg : ∀ x ∈ a, UN x.1) : ∀ x ∈ b, UN x.1 := by
  unfold Sorted at h
  induction h with
  | nil => intro x hx; cases hx
  | cons h1 _ ih =>
    intro x hx
    rcases List.mem_cons.mp hx with rfl | hx
    · rw [h1.1]; exact hg _ List.mem_cons_self
    · exact ih (fun x hx => hg x (List.mem_cons_of_mem _ hx)) x hx

omit F B in
theorem sorted_cloud {L : Fin k → ℚ} {N : Nat} {a b : List (Species × (Nat → List (Slot k)))} (h : Sorted a b) :
    SameCloud L (cloudOf N b) (cloudOf N a) := by
  unfold Sorted at h
  unfold SameCloud cloudOf
  induction h with
  | nil => exact .nil
  | cons h1 _ ih =>
    exact .cons ⟨by dsimp only; rw [h1.1], .of_perm (particles_perm h1.2)⟩ ih

omit B in
/-- the exchange of all species -/
theorem exchanged_facts {rk : Nat → Nat} {a b : List (Species × (Nat → List (Slot k)))}
    (h : List.Forall₂ (Exchanged Y rk) a b)
    (ha : ∀ x ∈ a, ∀ t, t < Y.npatches → ∀ s ∈ x.2 t, s.dead = false → ∃ v, nums s.pos = some v ∧
      (∀ i : Fin k, |s.mom.invGamma * uAt s.mom i| ≤ β) ∧ Nearby Y.solver.sync.n (g.coord t) d v) :
    SameCloud L (cloudOf Y.npatches b) (kept keep (cloudOf Y.npatches a)) ∧
      Good Y.npatches Y.solver.sync.n g.coord d β b ∧ ((∀ x ∈ a, UN x.1) → ∀ x ∈ b, UN x.1) := by
  induction h with
  | nil => exact ⟨.nil, fun _ hx => (by cases hx), fun _ _ hx => (by cases hx)⟩
  | @cons x y l l' hxy _ ih =>
    obtain ⟨i1, i2, i3⟩ := ih fun z hz => ha z (List.mem_cons_of_mem _ hz)
    obtain ⟨e, ord2, ord3, bl, s', p2, p3, hs', hy⟩ := hxy
    have hx := ha x List.mem_cons_self
    obtain ⟨s'', q1, q2, q3⟩ := F.exch x.2 (fun t ht s hs hd => by
      obtain ⟨v, h1, _, h3⟩ := hx t ht s hs hd
      exact ⟨v, h1, h3⟩) rk ord2 ord3 bl p2 p3
    rw [hs'] at q1
    injection q1 with q1
    subst q1
    have ey : y.2 = fun t => (s' t).map Y.unpack := funext hy
    have hc : SameParticles L (particles Y.npatches y.2) ((particles Y.npatches x.2).filter fun p => keep p.pos) := by
      rw [ey]; exact q2
    refine ⟨.cons ⟨by dsimp only; rw [e], hc⟩ i1, ?_, ?_⟩
    · intro z hz t ht s hs hd
      rcases List.mem_cons.mp hz with rfl | hz
      · obtain ⟨v, h1, h2⟩ := q3 t ht s (by rw [← hy t]; exact hs) hd
        refine ⟨v, h1, h2, ?_⟩
        obtain ⟨q, hq, em⟩ := hc.mom (mem_particles.mpr ⟨t, ht, s, hs, ptc_some hd h1⟩)
        obtain ⟨t0, ht0, s0, hs0, es0⟩ := mem_particles.mp (List.mem_filter.mp hq).1
        obtain ⟨g1, g2, g3⟩ := ptc_eq es0
        obtain ⟨_, _, h5, _⟩ := hx t0 ht0 s0 hs0 g1
        dsimp only at em
        rw [em, ← g3]
        exact h5
      · exact i2 z hz t ht s hs hd
    · intro hun z hz
      rcases List.mem_cons.mp hz with rfl | hz
      · rw [e]; exact hun _ List.mem_cons_self
      · exact i3 (fun x hx => hun x (List.mem_cons_of_mem _ hx)) z hz

end Push

section Core
variable {D A : Type} [DecidableEq D] {Y : Sys k D A} {Φ : Phys k} {g : Place k} {d : Fin k → ℚ} {UN : Species → Prop}
  {K : Species → (Fin k → ℚ) → Fields k → Kern k} (F : Facts Y Φ g d UN K)
include F

variable {β : ℚ} (B : Bounds Y.solver.sync.n Y.solver.sync.ng d Φ.rs Φ.dt β)
include B

omit B in
theorem guardE_sync {rk : Nat → Nat} {σ σ' : Dom k} (h : GuardE Y rk σ σ') : Y.solver.SyncE σ σ' :=
  ⟨fun c => F.guard rk _ _ (h.1 c), h.2⟩

omit B in
theorem guardB_sync {rk : Nat → Nat} {σ σ' : Dom k} (h : GuardB Y rk σ σ') : Y.solver.SyncB σ σ' :=
  ⟨fun c => F.guard rk _ _ (h.1 c), h.2⟩

/-- the state of the program shows the undivided simulation -/
structure Follows (Y : Sys k D A) (g : Place k) (d : Fin k → ℚ) (UN : Species → Prop) (β : ℚ) (x : St k) (W : World k) :
    Prop where
  rep : Rep Y.solver g x.fld W.fld
  per : W.fld.Per g.np Y.solver.sync.n
  cloud : SameCloud (len g.np Y.solver.sync.n d) (cloudOf Y.npatches x.parts) W.cloud
  good : Good Y.npatches Y.solver.sync.n g.coord d β x.parts
  un : ∀ a ∈ x.parts, UN a.1

/-- one step of the program is one step of the undivided simulation -/
theorem step_follows {rk rk' : Nat → Nat} {x x' : St k} {W : World k} (h : Follows Y g d UN β x W)
    (hstep : Step Y rk rk' x x') : Follows Y g d UN β x' (W.step Φ) := by
  obtain ⟨σ1, σ2, σ3, σ4, parts1, a1, a2, a3, a4, a5, a6, a7⟩ := hstep
  have hhalf : Y.solver.Half1 Y.dt x.fld σ2 := ⟨σ1, guardE_sync F a1, guardB_sync F a2⟩
  obtain ⟨r2, p2⟩ := F.mid _ _ _ h.per h.rep hhalf
  have g1 := sorted_good a3 h.good
  have u1 := sorted_un a3 h.un
  have hl : ∀ a ∈ parts1, ∀ t, t < Y.npatches → ∀ s ∈ a.2 t, s.dead = false → nums s.pos ≠ none := by
    intro a ha t ht s hs hd
    obtain ⟨v, hv, _⟩ := g1 a ha t ht s hs hd
    rw [hv]; simp
  rw [loop_eq F.toPushFacts σ2 parts1 u1 hl] at a4 a5
  dsimp only at a4 a5
  obtain ⟨c1, c2⟩ := pushedParts_facts F.toPushFacts B r2 p2 parts1 g1
  have hsame : SameCloud (len g.np Y.solver.sync.n d) (cloudOf Y.npatches (pushedParts Y Φ K σ2 parts1)) (W.step Φ).cloud := by
    rw [c1]
    exact ((sorted_cloud a3).trans h.cloud).map (f := fun κ => pushed Φ κ (midField Φ W.fld))
      (fun κ p q => pushed_same F.toPushFacts p2 κ p q)
  obtain ⟨x1, x2, x3⟩ := exchanged_facts F.toPushFacts a5 (fun z hz t ht s hs hd => by
    obtain ⟨v, h1, h2, h3, _⟩ := c2 z hz t ht s hs hd
    exact ⟨v, h1, h2, h3⟩)
  have hcur : ∀ c : Fin 3, ∀ t v, t < Y.npatches → Own Y.solver.sync.n v →
      (σ3 t).j c (index Y.solver.sync.n Y.solver.sync.ng v)
        = Φ.cur (W.step Φ).cloud c (globalCell Y.solver.sync.n (g.coord t) v) := by
    intro c t v ht hv
    have := F.currents σ2 (pushedParts Y Φ K σ2 parts1) _ rk c _
      (fun t ht => (if_pos ht).trans rfl) (fun t ht => if_neg ht)
      (fun z hz t ht s hs hd => by
        obtain ⟨v, h1, _, _, h4⟩ := c2 z hz t ht s hs hd
        exact ⟨v, h1, h4⟩) (a4.2 c) t v ht hv
    dsimp only at this
    rw [this]
    have hc := F.cur_congr _ _ hsame (fun s hs p hp i => by
      unfold cloudOf at hs
      obtain ⟨z, hz, rfl⟩ := List.mem_map.mp hs
      obtain ⟨t, ht, s, hs, e⟩ := mem_particles.mp hp
      obtain ⟨e1, e2, e3⟩ := ptc_eq e
      obtain ⟨v, h1, h2, _, h4⟩ := c2 z hz t ht s hs e1
      rw [← e3]
      exact vel_dt (B.cfl i) (h2 i))
    rw [hc]
  obtain ⟨f1, f2⟩ := F.fstep W.fld x.fld x'.fld (Φ.cur (W.step Φ).cloud) h.per h.rep (F.cur_per _)
    ⟨σ2, σ3, hhalf, a4.1, fun t ht c v hv => hcur c t v (by rw [← F.np_eq]; exact ht) hv,
      σ4, guardB_sync F a6, guardE_sync F a7⟩
  rw [kept_true] at x1
  refine ⟨f1, f2, x1.trans hsame, x2, x3 ?_⟩
  intro z hz
  unfold pushedParts at hz
  obtain ⟨a, ha, rfl⟩ := List.mem_map.mp hz
  exact u1 a ha

/-- a run follows the undivided simulation -/
theorem run_follows {rk : Nat → Nat → Nat} {x : Nat → St k} {W : World k} (h0 : Follows Y g d UN β (x 0) W)
    (hrun : Run Y rk x) (i : Nat) : Follows Y g d UN β (x i) (W.run Φ i) := by
  induction i with
  | zero => exact h0
  | succ i ih => exact step_follows F B ih (hrun i)

/-- no choice of orders leads into undefined behaviour -/
theorem exchange_defined {rk : Nat → Nat} {x : St k} {W : World k} (h : Follows Y g d UN β x W) {σ1 σ2 : Dom k}
    {parts1 : List (Species × (Nat → List (Slot k)))}
    (a1 : GuardE Y rk (Y.solver.stepE (1 / 2 * Y.dt) x.fld) σ1) (a2 : GuardB Y rk (Y.solver.stepB (1 / 2 * Y.dt) σ1) σ2)
    (a3 : Sorted x.parts parts1) :
    ∀ a ∈ (speciesLoop Y σ2 parts1 fun _ => zeroAcc).1, ∀ ord2 ord3 blank, ord2.Perm (List.range Y.npatches) →
      ord3.Perm (List.range Y.npatches) →
      ∃ s', parSync (Y.geo blank) rk ord2 ord3 (fun t => (a.2 t).map Y.pack) = some s' := by
  have hhalf : Y.solver.Half1 Y.dt x.fld σ2 := ⟨σ1, guardE_sync F a1, guardB_sync F a2⟩
  obtain ⟨r2, p2⟩ := F.mid _ _ _ h.per h.rep hhalf
  have g1 := sorted_good a3 h.good
  have hl : ∀ a ∈ parts1, ∀ t, t < Y.npatches → ∀ s ∈ a.2 t, s.dead = false → nums s.pos ≠ none := by
    intro a ha t ht s hs hd
    obtain ⟨v, hv, _⟩ := g1 a ha t ht s hs hd
    rw [hv]; simp
  rw [loop_eq F.toPushFacts σ2 parts1 (sorted_un a3 h.un) hl]
  obtain ⟨_, c2⟩ := pushedParts_facts F.toPushFacts B r2 p2 parts1 g1
  intro a ha ord2 ord3 blank o2 o3
  obtain ⟨s', q, _⟩ := F.exch a.2 (fun t ht s hs hd => by
    obtain ⟨v, h1, _, h3, _⟩ := c2 a ha t ht s hs hd
    exact ⟨v, h1, h3⟩) rk ord2 ord3 blank o2 o3
  exact ⟨s', q⟩

omit B in
theorem guardE_ex (rk : Nat → Nat) (σ : Dom k) : ∃ σ', GuardE Y rk σ σ' := by
  choose m hm using fun c : Fin 3 => F.guardEx rk (fun l => (σ l.1).e c l.2)
  exact ⟨fun t => { σ t with e := fun c v => m c (t, v) }, fun c => hm c, fun t => ⟨rfl, rfl⟩⟩

omit B in
theorem guardB_ex (rk : Nat → Nat) (σ : Dom k) : ∃ σ', GuardB Y rk σ σ' := by
  choose m hm using fun c : Fin 3 => F.guardEx rk (fun l => (σ l.1).b c l.2)
  exact ⟨fun t => { σ t with b := fun c v => m c (t, v) }, fun c => hm c, fun t => ⟨rfl, rfl⟩⟩

/-- a next state exists -/
theorem step_exists {x : St k} {W : World k} (h : Follows Y g d UN β x W) (rk rk' : Nat → Nat) :
    ∃ x', Step Y rk rk' x x' := by
  obtain ⟨σ1, a1⟩ := guardE_ex F rk (Y.solver.stepE (1 / 2 * Y.dt) x.fld)
  obtain ⟨σ2, a2⟩ := guardB_ex F rk (Y.solver.stepB (1 / 2 * Y.dt) σ1)
  have a3 : Sorted x.parts x.parts := forall₂_self (fun a => ⟨rfl, fun t => .refl _⟩) _
  have hdef := exchange_defined F B h a1 a2 a3
  choose m hm using fun c : Fin 3 => F.curEx rk
    (fun l => field ((speciesLoop Y σ2 x.parts fun _ => zeroAcc).2 l.1) c.castSucc l.2)
  have hparts : ∃ y, List.Forall₂ (Exchanged Y rk) (speciesLoop Y σ2 x.parts fun _ => zeroAcc).1 y := by
    obtain ⟨bl⟩ := F.blank
    generalize (speciesLoop Y σ2 x.parts fun _ => zeroAcc).1 = l at hdef
    clear a1 a2 a3 h hm m
    induction l with
    | nil => exact ⟨[], .nil⟩
    | cons a l ih =>
      obtain ⟨y, hy⟩ := ih fun a ha => hdef a (List.mem_cons_of_mem _ ha)
      obtain ⟨s', hs'⟩ := hdef a List.mem_cons_self (List.range Y.npatches) (List.range Y.npatches) bl (.refl _) (.refl _)
      exact ⟨(a.1, fun t => (s' t).map Y.unpack) :: y,
        .cons ⟨rfl, _, _, bl, s', .refl _, .refl _, hs', fun t => rfl⟩ hy⟩
  obtain ⟨y, hy⟩ := hparts
  obtain ⟨σ4, a6⟩ := guardB_ex F rk' (Y.solver.stepB (1 / 2 * Y.dt) fun t => { σ2 t with j := fun c v => m c (t, v) })
  obtain ⟨σ5, a7⟩ := guardE_ex F rk' (Y.solver.stepE (1 / 2 * Y.dt) σ4)
  exact ⟨⟨σ5, y⟩, σ1, σ2, fun t => { σ2 t with j := fun c v => m c (t, v) }, σ4, x.parts, a1, a2, a3,
    ⟨fun t => ⟨rfl, rfl⟩, fun c => hm c⟩, hy, a6, a7⟩

end Core

end Verif.WholeRun
