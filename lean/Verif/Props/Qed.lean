import Verif.Proofs.Qed
import Mathlib.Tactic.FieldSimp
import Mathlib.Tactic.Positivity
/-!
# C43, C44, C45, C56 — QED processes
-/
namespace Verif.Qed
open Verif.Particles (F64)

/-! ## specification -/

/-- what a user sees of a particle: position (2 or 3 coordinates), momentum, `inv_gamma`, weight -/
structure Seen where
  pos : List ℚ
  ux : ℚ
  uy : ℚ
  uz : ℚ
  invGamma : ℚ
  w : ℚ
  deriving DecidableEq

/-- the observable part of a slot -/
def seen (dim3 : Bool) (p : Part) : Seen :=
  ⟨if dim3 then [p.x, p.y, p.z] else [p.x, p.y], p.ux, p.uy, p.uz, p.invGamma, p.w⟩

/-- the living particles -/
def living (l : List Part) : List Part := l.filter fun p => !p.dead

/-- the living particles with an event -/
def emitters (l : List Part) : List Part := l.filter fun p => !p.dead && p.event

/-- the photon a particle emits: same place, same weight, the fraction `delta` of its momentum -/
def emitted (rsqrt : ℚ → ℚ) (dim3 : Bool) (e : Part) : Seen :=
  ⟨(seen dim3 e).pos, e.delta * e.ux, e.delta * e.uy, e.delta * e.uz,
    rsqrt ((e.delta * e.ux) ^ 2 + (e.delta * e.uy) ^ 2 + (e.delta * e.uz) ^ 2), e.w⟩

/-- a lepton with the fraction `f` of the momentum of a photon -/
def lepton (rsqrt : ℚ → ℚ) (dim3 : Bool) (f : ℚ) (g : Part) : Seen :=
  ⟨(seen dim3 g).pos, f * g.ux, f * g.uy, f * g.uz, rsqrt (1 + (f * g.ux) ^ 2 + (f * g.uy) ^ 2 + (f * g.uz) ^ 2), g.w⟩

/-- total of a quantity over the living particles, with their weights -/
def total (c : Part → ℚ) (l : List Part) : ℚ := ((living l).map fun p => p.w * c p).sum

/-- old living particles are in their slots, unchanged -/
def Kept (old new : List Part) : Prop := ∀ (j : Nat) (p : Part), old[j]? = some p → p.dead = false → new[j]? = some p

/-! ## C43 photon emission -/

theorem recoil_dead (rsqrt : ℚ → ℚ) (e : Part) : (recoil rsqrt e).dead = e.dead := by
  unfold recoil; split <;> [rfl; split <;> rfl]

theorem living_map_dead (f : Part → Part) (hf : ∀ p, (f p).dead = p.dead) (l : List Part) :
    living (l.map f) = (living l).map f := by
  unfold living
  rw [List.filter_map]
  congr 1
  apply List.filter_congr
  intro p _
  simp [hf]

/-- **C43.** For every state of the electrons and photons of a patch, in 2D and 3D: creating photons and recoil never run out of
slots; the living photons afterwards are the old ones, unchanged in their slots, plus exactly one photon for each living electron
with an event (its place, its weight, the fraction `delta` of its momentum); electrons without an event are unchanged; an electron
with an event changes momentum only, and by exactly what its photon carries; ids and array lengths are kept. -/
theorem photon_emission (rsqrt : ℚ → ℚ) (dim3 : Bool) (blank : Nat → Part) (hb : ∀ k, (blank k).dead = true)
    (ele pho : List Part) :
    ∃ ele' pho', emission rsqrt dim3 blank ele pho = some (ele', pho') ∧
      ((living pho').map (seen dim3)).Perm ((living pho).map (seen dim3) ++ (emitters ele).map (emitted rsqrt dim3)) ∧
      Kept pho pho' ∧ ele'.length = ele.length ∧
      (∀ (j : Nat) (e : Part), ele[j]? = some e → (e.dead = true ∨ e.event = false) → ele'[j]? = some e) ∧
      (∀ (j : Nat) (e : Part), ele[j]? = some e → e.dead = false → e.event = true → ∃ e' : Part, ele'[j]? = some e' ∧
        e'.ux + (emitted rsqrt dim3 e).ux = e.ux ∧ e'.uy + (emitted rsqrt dim3 e).uy = e.uy ∧
        e'.uz + (emitted rsqrt dim3 e).uz = e.uz ∧ e'.invGamma = rsqrt (1 + e'.ux ^ 2 + e'.uy ^ 2 + e'.uz ^ 2) ∧
        e' = { e with ux := e'.ux, uy := e'.uy, uz := e'.uz, invGamma := e'.invGamma }) := by
  obtain ⟨g1, g2, g3, _⟩ := grow_spec blank hb ele pho
  obtain ⟨pho', e, _, hperm, hold, _⟩ := createLoop_spec (seen dim3)
    (fun k => photonOf rsqrt dim3 (ele.getD k (blank 0))) (fun k => emitted rsqrt dim3 (ele.getD k (blank 0)))
    (by intro k p; unfold seen photonOf emitted seen; cases dim3 <;> rfl) (by intro k p; rfl) (hits ele 0) 0 (grow blank ele pho)
    (by rw [hits_length, List.drop_zero]; exact g3)
  refine ⟨ele.map (recoil rsqrt), pho', ?_, ?_, ?_, List.length_map _, ?_, ?_⟩
  · unfold emission
    dsimp only
    rw [findEvents_eq]
    dsimp only
    rw [e]
  · rw [g1, hits_map' ele (blank 0) (emitted rsqrt dim3)] at hperm
    exact hperm
  · intro j p hj hp
    exact hold j p (g2 j p hj) hp
  · intro j e hj he
    rw [List.getElem?_map, hj]
    show some (recoil rsqrt e) = some e
    unfold recoil
    rcases he with he | he
    · rw [if_pos he]
    · rw [he]; simp
  · intro j e hj hd he
    refine ⟨recoil rsqrt e, by rw [List.getElem?_map, hj]; rfl, ?_⟩
    have : recoil rsqrt e = { e with
        ux := e.ux * (1 - e.delta)
        uy := e.uy * (1 - e.delta)
        uz := e.uz * (1 - e.delta)
        invGamma := rsqrt (1 + (e.ux * (1 - e.delta)) ^ 2 + (e.uy * (1 - e.delta)) ^ 2 + (e.uz * (1 - e.delta)) ^ 2) } := by
      unfold recoil
      rw [hd, he]
      rfl
    rw [this]
    unfold emitted
    refine ⟨?_, ?_, ?_, rfl, rfl⟩ <;> dsimp only <;> ring

theorem sum_map_add (l : List Part) (f g : Part → ℚ) : (l.map fun p => f p + g p).sum = (l.map f).sum + (l.map g).sum := by
  induction l with
  | nil => simp
  | cons a l ih => simp only [List.map_cons, List.sum_cons, ih]; ring

theorem sum_filter_ite (l : List Part) (c : Part → Bool) (f : Part → ℚ) :
    ((l.filter c).map f).sum = (l.map fun p => if c p then f p else 0).sum := by
  induction l with
  | nil => rfl
  | cons a l ih =>
    rw [List.filter_cons]
    by_cases h : c a = true
    · rw [if_pos h, List.map_cons, List.sum_cons, ih, List.map_cons, List.sum_cons, if_pos h]
    · rw [if_neg h, ih, List.map_cons, List.sum_cons, if_neg h, zero_add]

/-- **C43 (totals).** The weighted total momentum of electrons and photons is conserved. -/
theorem emission_conserves_momentum (rsqrt : ℚ → ℚ) (dim3 : Bool) (blank : Nat → Part) (hb : ∀ k, (blank k).dead = true)
    (ele pho ele' pho' : List Part) (h : emission rsqrt dim3 blank ele pho = some (ele', pho')) :
    total (·.ux) ele' + total (·.ux) pho' = total (·.ux) ele + total (·.ux) pho ∧
    total (·.uy) ele' + total (·.uy) pho' = total (·.uy) ele + total (·.uy) pho ∧
    total (·.uz) ele' + total (·.uz) pho' = total (·.uz) ele + total (·.uz) pho := by
  obtain ⟨e1, p1, he, hperm, -⟩ := photon_emission rsqrt dim3 blank hb ele pho
  have hee : e1 = ele' ∧ p1 = pho' := by rw [h] at he; cases he; exact ⟨rfl, rfl⟩
  obtain ⟨rfl, rfl⟩ := hee
  have hele : e1 = ele.map (recoil rsqrt) := by
    unfold emission at h
    dsimp only at h
    rw [findEvents_eq] at h
    dsimp only at h
    split at h
    · cases h
    · cases h; rfl
  have key : ∀ (c : Part → ℚ) (cs : Seen → ℚ), (∀ p, cs (seen dim3 p) = c p) →
      (∀ e : Part, cs (emitted rsqrt dim3 e) = e.delta * c e) → (∀ e, (emitted rsqrt dim3 e).w = e.w) →
      (∀ e : Part, c (recoil rsqrt e) = if e.dead then c e else if e.event then c e * (1 - e.delta) else c e) →
      total c e1 + total c p1 = total c ele + total c pho := by
    intro c cs h1 h2 h3 h4
    have hw : ∀ e, (recoil rsqrt e).w = e.w := by intro e; unfold recoil; split <;> [rfl; split <;> rfl]
    have ha : total c p1 = total c pho + ((emitters ele).map fun e => e.w * (e.delta * c e)).sum := by
      have := (hperm.map fun s => s.w * cs s).sum_eq
      simp only [List.map_append, List.map_map, List.sum_append, Function.comp_def, h1, h2, h3] at this
      exact this
    have hb' : total c e1 = total c ele - ((emitters ele).map fun e => e.w * (e.delta * c e)).sum := by
      rw [hele]
      unfold total
      rw [living_map_dead _ (recoil_dead rsqrt), List.map_map]
      unfold emitters living
      rw [sum_filter_ite, sum_filter_ite, sum_filter_ite, eq_sub_iff_add_eq, ← sum_map_add]
      congr 1
      apply List.map_congr_left
      intro p _
      simp only [Function.comp_def]
      rw [hw, h4]
      cases p.dead <;> cases p.event <;> simp
      ring
    rw [ha, hb']
    ring
  have hseen : ∀ p, (seen dim3 p).ux = p.ux ∧ (seen dim3 p).uy = p.uy ∧ (seen dim3 p).uz = p.uz := fun p => ⟨rfl, rfl, rfl⟩
  refine ⟨key _ (·.ux) (fun p => rfl) (fun e => rfl) (fun e => rfl) ?_, key _ (·.uy) (fun p => rfl) (fun e => rfl) (fun e => rfl) ?_,
    key _ (·.uz) (fun p => rfl) (fun e => rfl) (fun e => rfl) ?_⟩
  all_goals
    intro e
    unfold recoil
    cases e.dead <;> cases e.event <;> rfl

/-! ## C44 pair creation -/

/-- **C44.** For every state of the photons, electrons and positrons of a patch: pair creation never runs out of slots; the living
electrons (positrons) afterwards are the old ones, unchanged in their slots, plus exactly one for each living photon with an event,
at its place, with its weight, and the two momenta of a pair add up to that of the photon; exactly the photons with an event are
gone; the others are unchanged. -/
theorem pair_creation (rsqrt : ℚ → ℚ) (dim3 : Bool) (blank blank' : Nat → Part) (hb : ∀ k, (blank k).dead = true)
    (hb' : ∀ k, (blank' k).dead = true) (pho ele pos : List Part) :
    ∃ pho' ele' pos', pairCreation rsqrt dim3 blank blank' pho ele pos = some (pho', ele', pos') ∧
      ((living ele').map (seen dim3)).Perm
        ((living ele).map (seen dim3) ++ (emitters pho).map fun g => lepton rsqrt dim3 g.delta g) ∧
      ((living pos').map (seen dim3)).Perm
        ((living pos).map (seen dim3) ++ (emitters pho).map fun g => lepton rsqrt dim3 (1 - g.delta) g) ∧
      Kept ele ele' ∧ Kept pos pos' ∧ pho'.length = pho.length ∧
      (∀ (j : Nat) (g : Part), pho[j]? = some g → pho'[j]? = some (if g.dead = false ∧ g.event = true then { g with dead := true } else g)) ∧
      (∀ g : Part, (lepton rsqrt dim3 g.delta g).ux + (lepton rsqrt dim3 (1 - g.delta) g).ux = g.ux ∧
        (lepton rsqrt dim3 g.delta g).uy + (lepton rsqrt dim3 (1 - g.delta) g).uy = g.uy ∧
        (lepton rsqrt dim3 g.delta g).uz + (lepton rsqrt dim3 (1 - g.delta) g).uz = g.uz) := by
  obtain ⟨g1, g2, g3, _⟩ := grow_spec blank hb pho ele
  obtain ⟨k1, k2, k3, _⟩ := grow_spec blank' hb' pho pos
  obtain ⟨ele', e, _, hperm, hold, _⟩ := createLoop_spec (seen dim3)
    (fun k => leptonOf rsqrt dim3 (pho.getD k (blank 0)).delta (pho.getD k (blank 0)))
    (fun k => lepton rsqrt dim3 (pho.getD k (blank 0)).delta (pho.getD k (blank 0)))
    (by intro k p; unfold seen leptonOf lepton seen; cases dim3 <;> rfl) (by intro k p; rfl) (hits pho 0) 0 (grow blank pho ele)
    (by rw [hits_length, List.drop_zero]; exact g3)
  obtain ⟨pos', e', _, hperm', hold', _⟩ := createLoop_spec (seen dim3)
    (fun k => leptonOf rsqrt dim3 (1 - (pho.getD k (blank 0)).delta) (pho.getD k (blank 0)))
    (fun k => lepton rsqrt dim3 (1 - (pho.getD k (blank 0)).delta) (pho.getD k (blank 0)))
    (by intro k p; unfold seen leptonOf lepton seen; cases dim3 <;> rfl) (by intro k p; rfl) (hits pho 0) 0 (grow blank' pho pos)
    (by rw [hits_length, List.drop_zero]; exact k3)
  refine ⟨pho.map removePhoton, ele', pos', ?_, ?_, ?_, ?_, ?_, List.length_map _, ?_, ?_⟩
  · unfold pairCreation
    dsimp only
    rw [findEvents_eq]
    dsimp only
    rw [createLoop2_eq _ _ _ _ _ _ _ _ _ e e']
  · rw [g1, hits_map' pho (blank 0) fun g => lepton rsqrt dim3 g.delta g] at hperm
    exact hperm
  · rw [k1, hits_map' pho (blank 0) fun g => lepton rsqrt dim3 (1 - g.delta) g] at hperm'
    exact hperm'
  · intro j p hj hp; exact hold j p (g2 j p hj) hp
  · intro j p hj hp; exact hold' j p (k2 j p hj) hp
  · intro j g hj
    rw [List.getElem?_map, hj]
    show some (removePhoton g) = _
    unfold removePhoton
    cases hd : g.dead <;> cases he : g.event <;> simp
  · intro g
    unfold lepton
    refine ⟨?_, ?_, ?_⟩ <;> dsimp only <;> ring

/-- **C44 (charge).** As many electrons as positrons are added, and as many photons disappear. -/
theorem pair_creation_counts (rsqrt : ℚ → ℚ) (dim3 : Bool) (blank blank' : Nat → Part) (hb : ∀ k, (blank k).dead = true)
    (hb' : ∀ k, (blank' k).dead = true) (pho ele pos pho' ele' pos' : List Part)
    (h : pairCreation rsqrt dim3 blank blank' pho ele pos = some (pho', ele', pos')) :
    (living ele').length = (living ele).length + (emitters pho).length ∧
    (living pos').length = (living pos).length + (emitters pho).length ∧
    (living pho').length + (emitters pho).length = (living pho).length := by
  obtain ⟨a, b, c, he, h1, h2, -, -, hl, h3, -⟩ := pair_creation rsqrt dim3 blank blank' hb hb' pho ele pos
  rw [h] at he
  cases he
  refine ⟨by simpa using h1.length_eq, by simpa using h2.length_eq, ?_⟩
  have e : pho' = pho.map fun g => if g.dead = false ∧ g.event = true then { g with dead := true } else g := by
    apply List.ext_getElem?
    intro j
    rw [List.getElem?_map]
    by_cases hj : j < pho.length
    · rw [h3 j pho[j] (List.getElem?_eq_getElem hj), List.getElem?_eq_getElem hj]; rfl
    · rw [List.getElem?_eq_none (by omega), List.getElem?_eq_none (by omega)]; rfl
  rw [e]
  unfold living emitters
  clear e h h1 h2 hl h3
  induction pho with
  | nil => rfl
  | cons g l ih =>
    rw [List.map_cons, List.filter_cons, List.filter_cons, List.filter_cons]
    cases hd : g.dead <;> cases hev : g.event <;> simp [hd, hev] <;> omega

/-! ## C56 optical depths -/

/-- the optical depth a particle starts the step with: the stored one, or `fresh` if it is not set -/
def startDepth (fresh : ℚ) : F64 → ℚ
  | .nan => fresh
  | .val q => if q = 0 then fresh else q

/-- What a step must do to one particle.  `fires` says when the depth is used up; `U a` is the `a`-th random number, the step uses
the numbers from `a` on (up to, not including, `b`). -/
def StepOk (E : TauEnv) (usedUp : ℚ → Prop) (a b : Nat) (p q : Part) : Prop :=
  a ≤ b ∧ ({ q with tau := p.tau, event := p.event, delta := p.delta } = p) ∧
  ((p.dead = true ∨ p.chi < E.chiMin) → q.event = false ∧ q.delta = 0 ∧ q.tau = p.tau ∧ b = a) ∧
  (p.dead = false → E.chiMin ≤ p.chi →
    ∃ t, t = startDepth (E.neglog (E.stream a)) p.tau - E.rate p.chi * (E.dt * p.invGamma) ∧
    (q.event = true ↔ usedUp t) ∧
    (¬ usedUp t → q.tau = .val t ∧ q.delta = 0) ∧
    (usedUp t → ∃ k, a ≤ k ∧ k + 2 = b ∧ q.tau = .val (E.neglog (E.stream k)) ∧ q.delta = E.sample p.chi (E.stream (k + 1))))

theorem tauStep_ok (E : TauEnv) (fires : ℚ → Bool) (k : Nat) (p : Part) :
    StepOk E (fun t => fires t = true) k (tauStep E fires k p).2 p (tauStep E fires k p).1 := by
  have hstart : (if unset p.tau then E.neglog (E.stream k) else tauVal p.tau) = startDepth (E.neglog (E.stream k)) p.tau := by
    cases p.tau with
    | nan => rfl
    | val q =>
      show (if decide (q = 0) then _ else q) = if q = 0 then _ else q
      by_cases h : q = 0 <;> simp [h]
  unfold tauStep
  by_cases hdc : p.dead = true ∨ p.chi < E.chiMin
  · rw [if_pos hdc]
    refine ⟨le_refl _, rfl, fun _ => ⟨rfl, rfl, rfl, rfl⟩, fun h1 h2 => ?_⟩
    rcases hdc with h | h
    · rw [h] at h1; cases h1
    · exact absurd h2 (not_le.mpr h)
  · rw [if_neg hdc]
    dsimp only
    rw [hstart]
    have hk : k ≤ if unset p.tau then k + 1 else k := by split <;> omega
    by_cases hf : fires (startDepth (E.neglog (E.stream k)) p.tau - E.rate p.chi * (E.dt * p.invGamma)) = true
    · rw [if_pos hf]
      refine ⟨by dsimp only; omega, rfl, fun h => absurd h hdc, fun _ _ => ⟨_, rfl, ⟨fun _ => hf, fun _ => rfl⟩, fun h => absurd hf h,
        fun _ => ⟨_, hk, rfl, rfl, rfl⟩⟩⟩
    · rw [if_neg hf]
      refine ⟨hk, rfl, fun h => absurd h hdc, fun _ _ => ⟨_, rfl, ⟨fun h => Bool.noConfusion h, fun h => absurd h hf⟩, fun _ => ⟨rfl, rfl⟩,
        fun h => absurd h hf⟩⟩

theorem tauLoop_ok (E : TauEnv) (fires : ℚ → Bool) (l : List Part) : ∀ (k : Nat),
    (tauLoop E fires k l).1.length = l.length ∧
    ∃ pos : Nat → Nat, pos 0 = k ∧ pos l.length = (tauLoop E fires k l).2 ∧
      ∀ (i : Nat) (p : Part), l[i]? = some p → ∃ q, (tauLoop E fires k l).1[i]? = some q ∧
        StepOk E (fun t => fires t = true) (pos i) (pos (i + 1)) p q := by
  induction l with
  | nil => intro k; exact ⟨rfl, fun _ => k, rfl, rfl, by simp⟩
  | cons p l ih =>
    intro k
    obtain ⟨h1, pos, hp0, hpl, hp⟩ := ih (tauStep E fires k p).2
    refine ⟨by simp [tauLoop, h1], fun i => match i with | 0 => k | i + 1 => pos i, rfl, hpl, ?_⟩
    intro i q hi
    cases i with
    | zero =>
      cases hi
      refine ⟨_, rfl, ?_⟩
      show StepOk E _ k (pos 0) p _
      rw [hp0]
      exact tauStep_ok E fires k p
    | succ i => exact hp i q hi

/-- **C56 (electrons).** For every state and every stream of random numbers: an event is flagged exactly for the living particles
with `chi` at or above the threshold whose optical depth falls below zero in this step; dead particles and particles below the
threshold never fire and keep their optical depth; the depth is drawn anew exactly on events (and first drawn when it is not set);
no random number is used twice; nothing else about a particle changes. -/
theorem optical_depth_electron (E : TauEnv) (k : Nat) (l : List Part) :
    (updateTauE E k l).1.length = l.length ∧
    ∃ pos : Nat → Nat, pos 0 = k ∧ ∀ (i : Nat) (p : Part), l[i]? = some p →
      ∃ q, (updateTauE E k l).1[i]? = some q ∧ StepOk E (fun t => t < 0) (pos i) (pos (i + 1)) p q := by
  obtain ⟨h1, pos, h2, _, h3⟩ := tauLoop_ok E (fun t => t < 0) l k
  refine ⟨h1, pos, h2, fun i p hi => ?_⟩
  obtain ⟨q, hq, h⟩ := h3 i p hi
  exact ⟨q, hq, by simpa using h⟩

/-- **C56 (photons).** The same for photons, which also fire when the depth is used up exactly. -/
theorem optical_depth_photon (E : TauEnv) (k : Nat) (l : List Part) :
    (updateTauGamma E k l).1.length = l.length ∧
    ∃ pos : Nat → Nat, pos 0 = k ∧ ∀ (i : Nat) (p : Part), l[i]? = some p →
      ∃ q, (updateTauGamma E k l).1[i]? = some q ∧ StepOk E (fun t => t ≤ 0) (pos i) (pos (i + 1)) p q := by
  obtain ⟨h1, pos, h2, _, h3⟩ := tauLoop_ok E (fun t => t ≤ 0) l k
  refine ⟨h1, pos, h2, fun i p hi => ?_⟩
  obtain ⟨q, hq, h⟩ := h3 i p hi
  exact ⟨q, hq, by simpa using h⟩

/-- **C56, where it fails.** An electron that uses up its optical depth exactly does not fire, and its depth, now zero, counts as
"not set": in the next step a new depth is drawn although no event took place. -/
theorem exact_depth_lost_fails (E : TauEnv) (p : Part) (hd : p.dead = false) (hc : E.chiMin ≤ p.chi) (t : ℚ) (ht : t ≠ 0)
    (htau : p.tau = .val t) (hexact : E.rate p.chi * (E.dt * p.invGamma) = t) (k : Nat) :
    ∃ q, (updateTauE E k [p]).1 = [q] ∧ q.event = false ∧ q.tau = .val 0 ∧
      ∀ k', ∃ q', (updateTauE E k' [q]).1 = [q'] ∧
        (q'.event = false → q'.tau = .val (E.neglog (E.stream k') - E.rate p.chi * (E.dt * p.invGamma))) := by
  have hstep : tauStep E (fun t => t < 0) k p = ({ p with tau := .val 0, event := false, delta := 0 }, k) := by
    unfold tauStep
    rw [if_neg (by rw [hd]; simpa using hc)]
    have hu : unset p.tau = false := by rw [htau]; unfold unset; simpa using ht
    dsimp only
    rw [hu, htau, hexact]
    simp [tauVal]
  refine ⟨{ p with tau := .val 0, event := false, delta := 0 }, ?_, rfl, rfl, ?_⟩
  · unfold updateTauE tauLoop
    rw [hstep]
    rfl
  · intro k'
    obtain ⟨_, pos, h0, h⟩ := optical_depth_electron E k' [{ p with tau := .val 0, event := false, delta := 0 }]
    obtain ⟨q', hq', _, _, _, h4⟩ := h 0 _ rfl
    refine ⟨q', ?_, ?_⟩
    · unfold updateTauE tauLoop at hq' ⊢
      unfold tauLoop at hq' ⊢
      simp at hq'
      rw [← hq']
    · intro hev
      obtain ⟨t', ht', hiff, hno, _⟩ := h4 hd hc
      have : ¬ t' < 0 := fun h => by rw [hiff.mpr h] at hev; cases hev
      rw [(hno this).1, ht', h0]
      simp [startDepth]

/-! ## C45 table lookup -/

/-- the grid belongs to the tables: spacing, number of rows and columns (optical_depth_tables.py 206-218) -/
structure GridOk (G : Grid) (table : List (List ℚ)) : Prop where
  chiN : 2 ≤ G.chiN
  deltaN : 2 ≤ G.deltaN
  lohi : G.chiLo < G.chiHi
  spacing : G.chiDelta * ((G.chiN : ℚ) - 1) = G.chiHi - G.chiLo
  deltaPos : 0 < G.deltaDelta
  rows : table.length = G.chiN
  cols : ∀ row ∈ table, row.length = G.deltaN

theorem chiDelta_pos {G : Grid} {table : List (List ℚ)} (h : GridOk G table) : 0 < G.chiDelta := by
  have h1 : (0 : ℚ) < (G.chiN : ℚ) - 1 := by have : (2 : ℚ) ≤ G.chiN := by exact_mod_cast h.chiN
                                             linarith
  have h2 := h.spacing
  have h3 := h.lohi
  by_contra hn
  have := mul_nonpos_of_nonpos_of_nonneg (not_lt.mp hn) h1.le
  linarith

theorem chiIdx_range {G : Grid} {table : List (List ℚ)} (h : GridOk G table) {x : ℚ} (h1 : G.chiLo ≤ x) (h2 : x < G.chiHi) :
    0 ≤ chiIdx G x ∧ chiIdx G x + 1 < G.chiN ∧ G.chiLo + chiIdx G x * G.chiDelta ≤ x ∧
      x < G.chiLo + (chiIdx G x + 1) * G.chiDelta := by
  have hd := chiDelta_pos h
  have e : chiIdx G x = ⌊(x - G.chiLo) / G.chiDelta⌋ := by
    unfold chiIdx
    rw [if_neg (not_lt.mpr h1), if_neg (by linarith)]
  have f1 := Int.floor_le ((x - G.chiLo) / G.chiDelta)
  have f2 := Int.lt_floor_add_one ((x - G.chiLo) / G.chiDelta)
  rw [← e] at f1 f2
  rw [le_div_iff₀ hd] at f1
  rw [div_lt_iff₀ hd] at f2
  refine ⟨?_, ?_, by linarith, by linarith⟩
  · rw [e]; exact Int.floor_nonneg.mpr (div_nonneg (by linarith) hd.le)
  · have hs := h.spacing
    have : (chiIdx G x : ℚ) * G.chiDelta < ((G.chiN : ℚ) - 1) * G.chiDelta := by linarith
    have := lt_of_mul_lt_mul_right this hd.le
    have : ((chiIdx G x + 1 : Int) : ℚ) < ((G.chiN : Int) : ℚ) := by push_cast; linarith
    exact_mod_cast this

/-- **C45 (rates), partial.** For every `chi` from the lower end of the table up to, but not including, the upper end the rate is
the linear interpolation between the two neighbouring entries, both inside the table. -/
theorem rate_lookup_partial (G : Grid) (table : List (List ℚ)) (hG : GridOk G table) (rates : List ℚ)
    (hr : rates.length = G.chiN) (x : ℚ) (h1 : G.chiLo ≤ x) (h2 : x < G.chiHi) :
    ∃ (i : Nat) (a b s : ℚ), rates[i]? = some a ∧ rates[i + 1]? = some b ∧ 0 ≤ s ∧ s < 1 ∧
      x = G.chiLo + (i + s) * G.chiDelta ∧ linearInterp G x rates = .ok (a + s * (b - a)) := by
  obtain ⟨r1, r2, r3, r4⟩ := chiIdx_range hG h1 h2
  have hd := chiDelta_pos hG
  obtain ⟨i, hi⟩ := Int.eq_ofNat_of_zero_le r1
  have hi1 : i < rates.length := by omega
  have hi2 : i + 1 < rates.length := by omega
  rw [hi] at r3 r4
  push_cast at r3 r4
  refine ⟨i, rates[i], rates[i + 1], (x - (G.chiLo + i * G.chiDelta)) / G.chiDelta, List.getElem?_eq_getElem hi1,
    List.getElem?_eq_getElem hi2, div_nonneg (by linarith) hd.le, (div_lt_one hd).mpr (by linarith), ?_, ?_⟩
  · field_simp; ring
  · unfold linearInterp
    dsimp only
    rw [hi, if_neg (by omega)]
    have e1 : read rates (i : Int) = some rates[i] := List.getElem?_eq_getElem hi1
    have e2 : read rates ((i : Int) + 1) = some rates[i + 1] := List.getElem?_eq_getElem hi2
    rw [e1, e2]
    dsimp only
    congr 1
    push_cast
    field_simp

/-- **C45 (rates).** Below the lower end of the table there are no events: the rate is 0. -/
theorem rate_lookup_below (G : Grid) (rates : List ℚ) (x : ℚ) (h : x < G.chiLo) : linearInterp G x rates = .ok 0 := by
  unfold linearInterp chiIdx
  rw [if_pos h]
  rfl

/-- **C45 (rates), where it fails.** At the upper end of the table and for every larger `chi` the lookup reads behind the table. -/
theorem rate_lookup_above_fails (G : Grid) (table : List (List ℚ)) (hG : GridOk G table) (rates : List ℚ)
    (hr : rates.length = G.chiN) (x : ℚ) (h : G.chiHi ≤ x) : linearInterp G x rates = .outOfBounds := by
  have hd := chiDelta_pos hG
  have hlo := hG.lohi
  have e : chiIdx G x = G.chiN - 1 := by
    unfold chiIdx
    rw [if_neg (by linarith)]
    by_cases hx : x > G.chiHi
    · rw [if_pos hx]
    · rw [if_neg hx]
      have hx' : x = G.chiHi := le_antisymm (not_lt.mp hx) h
      rw [hx', ← hG.spacing, mul_comm, mul_div_assoc, div_self hd.ne', mul_one]
      have : ((G.chiN : ℚ) - 1) = (((G.chiN : Int) - 1 : Int) : ℚ) := by push_cast; ring
      rw [this, Int.floor_intCast]
  have hn := hG.chiN
  unfold linearInterp
  dsimp only
  rw [e, if_neg (by omega)]
  have e2 : read rates ((G.chiN : Int) - 1 + 1) = none := by
    unfold read
    rw [List.getElem?_eq_none (by rw [hr]; omega)]
  rw [e2]
  cases read rates ((G.chiN : Int) - 1) <;> rfl

/-- weakly increasing on the columns -/
def Mono (n : Nat) (y : Int → ℚ) : Prop := ∀ i j : Int, 0 ≤ i → i ≤ j → j < n → y i ≤ y j

/-- termination of the bisection, with the place it finds -/
theorem bisect_ends (y : Int → ℚ) (n : Nat) (hm : Mono n y) (r : ℚ) (hr : ∀ j : Int, 0 ≤ j → j < n → y j ≠ r) :
    ∀ (m : Nat) (low high : Int), 0 ≤ low → high < n → low ≤ high + 1 → (high + 1 - low).toNat = m →
      (∀ j, 0 ≤ j → j < low → y j < r) → (∀ j : Int, high < j → j < n → r < y j) →
      ∃ d, bisect y r low high = some d ∧ -1 ≤ d ∧ d < n ∧ (∀ j, 0 ≤ j → j ≤ d → y j < r) ∧ (∀ j : Int, d < j → j < n → r < y j) := by
  intro m
  induction m using Nat.strong_induction_on with
  | _ m ih =>
    intro low high h0 hh hlh hm' hl hr'
    rw [bisect]
    by_cases hc : low ≤ high
    · rw [if_pos hc]
      dsimp only
      have m1 : low ≤ (low + high) / 2 := by omega
      have m2 : (low + high) / 2 ≤ high := by omega
      by_cases hlt : y ((low + high) / 2) < r
      · rw [if_pos hlt]
        refine ih (high + 1 - ((low + high) / 2 + 1)).toNat (by omega) _ _ (by omega) hh (by omega) rfl ?_ hr'
        intro j j0 j1
        exact lt_of_le_of_lt (hm j _ j0 (by omega) (by omega)) hlt
      · rw [if_neg hlt]
        have hgt : y ((low + high) / 2) > r := by
          have := hr _ (by omega : 0 ≤ (low + high) / 2) (by omega)
          exact lt_of_le_of_ne (not_lt.mp hlt) this.symm
        rw [if_pos hgt]
        refine ih ((low + high) / 2 - 1 + 1 - low).toNat (by omega) _ _ h0 (by omega) (by omega) rfl hl ?_
        intro j j0 j1
        exact lt_of_lt_of_le hgt (hm _ j (by omega) (by omega) j1)
    · rw [if_neg hc]
      exact ⟨high, rfl, by omega, hh, fun j j0 j1 => hl j j0 (by omega), hr'⟩

theorem bisect_hangs (y : Int → ℚ) (n : Nat) (hm : Mono n y) (m : Int) (h0 : 0 ≤ m)
    (hmn : m < n) (low high : Int) (h1 : 0 ≤ low) (h2 : low ≤ m) (h3 : m ≤ high) (h4 : high < n) : bisect y (y m) low high = none := by
  by_contra hne
  obtain ⟨d, hd⟩ := Option.ne_none_iff_exists'.mp hne
  have := bisect.partial_correctness y (y m) (fun low high _ => ¬ (0 ≤ low ∧ low ≤ m ∧ m ≤ high ∧ high < n)) ?_ low high d hd
  · exact this ⟨h1, h2, h3, h4⟩
  · intro rec hrec low high d hd ⟨a, b, c, e⟩
    rw [if_pos (by omega)] at hd
    dsimp only at hd
    by_cases hlt : y ((low + high) / 2) < y m
    · rw [if_pos hlt] at hd
      have : (low + high) / 2 < m := by
        by_contra hn
        have : y m ≤ y ((low + high) / 2) := hm _ _ h0 (not_lt.mp hn) (by omega)
        linarith
      exact hrec _ _ _ hd ⟨by omega, by omega, c, e⟩
    · rw [if_neg hlt] at hd
      by_cases hgt : y ((low + high) / 2) > y m
      · rw [if_pos hgt] at hd
        have : m < (low + high) / 2 := by
          by_contra hn
          have : y ((low + high) / 2) ≤ y m := hm _ _ (by omega) (not_lt.mp hn) hmn
          linarith
        exact hrec _ _ _ hd ⟨a, b, by omega, by omega⟩
      · rw [if_neg hgt] at hd
        exact hrec _ _ _ hd ⟨a, b, c, e⟩

/-- the cumulated probability at column `j` for a `chi` between rows `i` and `i + 1` of the table -/
def cdf (table : List (List ℚ)) (i : Nat) (s : ℚ) (j : Nat) : ℚ :=
  (table.getD i []).getD j 0 * (1 - s) + (table.getD (i + 1) []).getD j 0 * s

/-- no row of the table decreases, and every row ends above its start. Columns may be equal: the tables of the code have
probability 0 at the last fraction (optical_depth_tables.py 123, 134), so their last two columns are. -/
structure Increasing (table : List (List ℚ)) : Prop where
  rows : ∀ i j j' : Nat, i < table.length → j ≤ j' → j' < (table.getD i []).length →
    (table.getD i []).getD j 0 ≤ (table.getD i []).getD j' 0
  ends : ∀ i : Nat, i < table.length → (table.getD i []).getD 0 0 < (table.getD i []).getD ((table.getD i []).length - 1) 0

theorem row_length {G : Grid} {table : List (List ℚ)} (hG : GridOk G table) (k : Nat) (hk : k < G.chiN) :
    (table.getD k []).length = G.deltaN := by
  have hk' : k < table.length := by rw [hG.rows]; exact hk
  have : table.getD k [] = table[k] := by simp [List.getD, hk']
  rw [this]
  exact hG.cols _ (List.getElem_mem _)

theorem cdf_le {G : Grid} {table : List (List ℚ)} (hG : GridOk G table) (hinc : Increasing table) {i : Nat} (hi : i + 1 < G.chiN) {s : ℚ}
    (h0 : 0 ≤ s) (h1 : s < 1) {j j' : Nat} (hj : j ≤ j') (hj' : j' < G.deltaN) : cdf table i s j ≤ cdf table i s j' := by
  have hl := row_length hG
  have a := hinc.rows i j j' (by rw [hG.rows]; omega) hj (by rw [hl i (by omega)]; exact hj')
  have b := hinc.rows (i + 1) j j' (by rw [hG.rows]; omega) hj (by rw [hl (i + 1) hi]; exact hj')
  unfold cdf
  have c1 : 0 < 1 - s := by linarith
  have := mul_le_mul_of_nonneg_right a c1.le
  have := mul_le_mul_of_nonneg_right b h0
  linarith

theorem cdf_ends {G : Grid} {table : List (List ℚ)} (hG : GridOk G table) (hinc : Increasing table) {i : Nat} (hi : i + 1 < G.chiN) {s : ℚ}
    (h0 : 0 ≤ s) (h1 : s < 1) : cdf table i s 0 < cdf table i s (G.deltaN - 1) := by
  have hl := row_length hG
  have a := hinc.ends i (by rw [hG.rows]; omega)
  have b := hinc.ends (i + 1) (by rw [hG.rows]; omega)
  rw [hl i (by omega)] at a
  rw [hl (i + 1) hi] at b
  unfold cdf
  have c1 : 0 < 1 - s := by linarith
  have := mul_lt_mul_of_pos_right a c1
  have := mul_le_mul_of_nonneg_right b.le h0
  linarith

theorem bisectInterp_unfold {G : Grid} {table : List (List ℚ)} (hG : GridOk G table) {x : ℚ} (h1 : G.chiLo ≤ x) (h2 : x < G.chiHi)
    : ∃ (i : Nat) (s : ℚ), i + 1 < G.chiN ∧ 0 ≤ s ∧ s < 1 ∧ x = G.chiLo + (i + s) * G.chiDelta ∧
      ∀ u, bisectInterp G x u table =
        (let r := u * (cdf table i s (G.deltaN - 1) - cdf table i s 0) + cdf table i s 0
         match bisect (fun j => cdf table i s j.toNat) r 0 (G.deltaN - 1) with
         | none => none
         | some di =>
           if 0 ≤ di ∧ di + 1 < G.deltaN then
             some (.ok (G.deltaLo + di * G.deltaDelta + G.deltaDelta / (cdf table i s (di + 1).toNat - cdf table i s di.toNat) *
               (r - cdf table i s di.toNat)))
           else some .outOfBounds) := by
  obtain ⟨r1, r2, r3, r4⟩ := chiIdx_range hG h1 h2
  have hd := chiDelta_pos hG
  obtain ⟨i, hi⟩ := Int.eq_ofNat_of_zero_le r1
  rw [hi] at r3 r4
  push_cast at r3 r4
  have hi1 : i < table.length := by rw [hG.rows]; omega
  have hi2 : i + 1 < table.length := by rw [hG.rows]; omega
  refine ⟨i, (x - (G.chiLo + i * G.chiDelta)) / G.chiDelta, by omega, div_nonneg (by linarith) hd.le, (div_lt_one hd).mpr (by linarith),
    by field_simp; ring, ?_⟩
  have e1 : table[(chiIdx G x).toNat]? = some (table.getD i []) := by
    rw [hi]; show table[i]? = _; rw [List.getElem?_eq_getElem hi1]; simp [List.getD, hi1]
  have e2 : table[(chiIdx G x + 1).toNat]? = some (table.getD (i + 1) []) := by
    rw [hi]; show table[i + 1]? = _; rw [List.getElem?_eq_getElem hi2]; simp [List.getD, hi2]
  intro u
  unfold bisectInterp
  dsimp only
  rw [e1, e2]
  dsimp only
  rw [hi]
  have hcast : (((i : Int)) : ℚ) = (i : ℚ) := rfl
  rw [hcast]
  have hdn : (((G.deltaN : Int) - 1)).toNat = G.deltaN - 1 := by omega
  unfold blend cdf
  rw [hdn]
  rfl

/-- **C45, partial.** For every `chi` from the lower end of the table up to, but not including, the upper end, and every random
number for which the drawn probability is not exactly a tabulated one: the lookup ends, reads only inside the table, and finds the
column where the tabulated probabilities pass the drawn one; the energy fraction lies strictly between the two columns. -/
theorem sample_lookup_partial (G : Grid) (table : List (List ℚ)) (hG : GridOk G table) (hinc : Increasing table) (x u : ℚ)
    (h1 : G.chiLo ≤ x) (h2 : x < G.chiHi) (hu0 : 0 ≤ u) (hu1 : u < 1) :
    ∃ (i : Nat) (s : ℚ), i + 1 < G.chiN ∧ 0 ≤ s ∧ s < 1 ∧ x = G.chiLo + (i + s) * G.chiDelta ∧
      let r := cdf table i s 0 + u * (cdf table i s (G.deltaN - 1) - cdf table i s 0)
      ((∀ j, j < G.deltaN → cdf table i s j ≠ r) →
        ∃ (d : Nat) (v : ℚ), d + 1 < G.deltaN ∧ cdf table i s d < r ∧ r < cdf table i s (d + 1) ∧
          bisectInterp G x u table = some (.ok v) ∧ G.deltaLo + d * G.deltaDelta < v ∧ v < G.deltaLo + (d + 1) * G.deltaDelta) ∧
      ((∃ j, j < G.deltaN ∧ cdf table i s j = r) → bisectInterp G x u table = none) := by
  obtain ⟨i, s, hi, hs0, hs1, hx, he⟩ := bisectInterp_unfold hG h1 h2
  replace he := he u
  refine ⟨i, s, hi, hs0, hs1, hx, ?_⟩
  intro r
  have hr : u * (cdf table i s (G.deltaN - 1) - cdf table i s 0) + cdf table i s 0 = r := by ring
  dsimp only at he
  rw [hr] at he
  have hN := hG.deltaN
  have hmono : Mono G.deltaN fun j => cdf table i s j.toNat := fun a b ha hab hb =>
    cdf_le hG hinc hi hs0 hs1 (by omega) (by omega)
  have hends := cdf_ends hG hinc hi hs0 hs1
  refine ⟨fun hne => ?_, ?_⟩
  · obtain ⟨d, hd, d1, d2, d3, d4⟩ := bisect_ends (fun j => cdf table i s j.toNat) G.deltaN hmono r
      (fun j j0 j1 => hne j.toNat (by omega)) _ 0 (G.deltaN - 1) (le_refl _) (by omega) (by omega) rfl (by omega) (by omega)
    rw [hd] at he
    dsimp only at he
    -- the drawn value lies strictly inside
    have hr0 : cdf table i s 0 < r := by
      have : cdf table i s 0 ≤ r := by
        have := mul_nonneg hu0 (sub_nonneg.mpr hends.le); linarith
      exact lt_of_le_of_ne this (hne 0 (by omega))
    have hr1 : r < cdf table i s (G.deltaN - 1) := by
      have := mul_lt_mul_of_pos_right hu1 (sub_pos.mpr hends); linarith
    have hd0 : 0 ≤ d := by
      by_contra hc
      have := d4 0 (by omega) (by omega)
      simp at this
      linarith
    have hdn : d + 1 < G.deltaN := by
      by_contra hc
      have := d3 (G.deltaN - 1) (by omega) (by omega)
      have e : ((G.deltaN : Int) - 1).toNat = G.deltaN - 1 := by omega
      simp only [e] at this
      linarith
    obtain ⟨k, hk⟩ := Int.eq_ofNat_of_zero_le hd0
    have c1 := d3 d hd0 (le_refl _)
    have c2 := d4 (d + 1) (by omega) hdn
    rw [if_pos ⟨hd0, hdn⟩] at he
    have hdk : d = (k : Int) := hk
    subst hdk
    have t1 : ((k : Int)).toNat = k := by omega
    have t2 : ((k : Int) + 1).toNat = k + 1 := by omega
    simp only [t1, t2] at c1 c2 he
    have hgap : 0 < cdf table i s (k + 1) - cdf table i s k := by linarith
    refine ⟨k, _, by omega, c1, c2, he, ?_, ?_⟩
    · have : 0 < G.deltaDelta / (cdf table i s (k + 1) - cdf table i s k) * (r - cdf table i s k) :=
        mul_pos (div_pos hG.deltaPos hgap) (by linarith)
      push_cast
      linarith
    · have : G.deltaDelta / (cdf table i s (k + 1) - cdf table i s k) * (r - cdf table i s k) < G.deltaDelta := by
        rw [div_mul_eq_mul_div, div_lt_iff₀ hgap]
        exact mul_lt_mul_of_pos_left (by linarith) hG.deltaPos
      push_cast
      linarith
  · rintro ⟨j, hj, hjr⟩
    have := bisect_hangs (fun j => cdf table i s j.toNat) G.deltaN hmono (j : Int) (by omega)
      (by omega) 0 (G.deltaN - 1) (le_refl _) (by omega) (by omega) (by omega)
    simp only [Int.toNat_natCast, hjr] at this
    rw [this] at he
    exact he

/-- **C45, where it fails.** If the random number generator returns 0, the lookup never ends, for every table and every `chi`. -/
theorem sample_zero_hangs_fails (G : Grid) (table : List (List ℚ)) (hG : GridOk G table) (hinc : Increasing table) (x : ℚ)
    (h1 : G.chiLo ≤ x) (h2 : x < G.chiHi) : bisectInterp G x 0 table = none := by
  obtain ⟨i, s, _, _, _, _, _, h⟩ := sample_lookup_partial G table hG hinc x 0 h1 h2 (le_refl _) (by norm_num)
  exact h ⟨0, by have := hG.deltaN; omega, by simp⟩

/-- **C45, where it fails.** At the upper end of the table and for every larger `chi` the lookup reads behind the table. -/
theorem sample_above_fails (G : Grid) (table : List (List ℚ)) (hG : GridOk G table) (x u : ℚ) (h : G.chiHi ≤ x) :
    bisectInterp G x u table = some .outOfBounds := by
  have hd := chiDelta_pos hG
  have hlo := hG.lohi
  have e : chiIdx G x = G.chiN - 1 := by
    unfold chiIdx
    rw [if_neg (by linarith)]
    by_cases hx : x > G.chiHi
    · rw [if_pos hx]
    · rw [if_neg hx]
      have hx' : x = G.chiHi := le_antisymm (not_lt.mp hx) h
      rw [hx', ← hG.spacing, mul_comm, mul_div_assoc, div_self hd.ne', mul_one]
      have : ((G.chiN : ℚ) - 1) = (((G.chiN : Int) - 1 : Int) : ℚ) := by push_cast; ring
      rw [this, Int.floor_intCast]
  unfold bisectInterp
  dsimp only
  have e2 : table[(chiIdx G x + 1).toNat]? = none := by
    rw [e]
    have hn := hG.chiN
    exact List.getElem?_eq_none (by rw [hG.rows]; omega)
  rw [e2]
  cases table[(chiIdx G x).toNat]? <;> rfl

/-! ## the hypotheses can be met -/

/-- a dead slot -/
def blankSlot : Part := ⟨0, 0, 0, 0, 0, 0, 0, 0, true, 0, 0, .nan, 0, false⟩
/-- an electron with an event -/
def shooter : Part := ⟨1, 2, 3, 4, 5, 6, 1 / 9, 7, false, 1, 1, .val 1, 1 / 4, true⟩
/-- an electron without an event -/
def bystander : Part := { shooter with event := false, id := 2 }

/-- two of three electrons emit; the only photon slot is taken, so the array grows -/
example : (emission (fun q => q) true (fun k => { blankSlot with id := k }) [shooter, bystander, shooter] [bystander]).map
    (fun r => ((living r.2).length, r.2.length, r.1.map (·.ux))) = some (3, 3, [3, 4, 3]) := by decide +kernel

example : (pairCreation (fun q => q) false (fun _ => blankSlot) (fun _ => blankSlot) [bystander, shooter] [blankSlot] []).map
    (fun r => ((living r.1).length, (living r.2.1).length, (living r.2.2).length)) = some (1, 1, 1) := by decide +kernel

/-- a small table -/
def smallGrid : Grid := ⟨2, 0, 1, 1, 3, -2, 1⟩
/-- as in the tables of the code, the last column is equal to the one before it in the first row -/
def smallTable : List (List ℚ) := [[0, 1, 1], [1, 2, 4]]
example : GridOk smallGrid smallTable ∧ Increasing smallTable := by
  refine ⟨⟨by decide, by decide, by decide +kernel, by decide +kernel, by decide +kernel, rfl, by decide⟩, ?_, ?_⟩
  · intro i j j' hi hj hj'
    have : i = 0 ∨ i = 1 := by simp [smallTable] at hi; omega
    rcases this with rfl | rfl
    · have : j' < 3 := hj'
      have : (j = 0 ∧ j' = 0) ∨ (j = 1 ∧ j' = 1) ∨ (j = 2 ∧ j' = 2) ∨ (j = 0 ∧ j' = 1) ∨ (j = 0 ∧ j' = 2) ∨ (j = 1 ∧ j' = 2) := by omega
      rcases this with ⟨rfl, rfl⟩ | ⟨rfl, rfl⟩ | ⟨rfl, rfl⟩ | ⟨rfl, rfl⟩ | ⟨rfl, rfl⟩ | ⟨rfl, rfl⟩ <;> decide +kernel
    · have : j' < 3 := hj'
      have : (j = 0 ∧ j' = 0) ∨ (j = 1 ∧ j' = 1) ∨ (j = 2 ∧ j' = 2) ∨ (j = 0 ∧ j' = 1) ∨ (j = 0 ∧ j' = 2) ∨ (j = 1 ∧ j' = 2) := by omega
      rcases this with ⟨rfl, rfl⟩ | ⟨rfl, rfl⟩ | ⟨rfl, rfl⟩ | ⟨rfl, rfl⟩ | ⟨rfl, rfl⟩ | ⟨rfl, rfl⟩ <;> decide +kernel
  · intro i hi
    have : i = 0 ∨ i = 1 := by simp [smallTable] at hi; omega
    rcases this with rfl | rfl <;> decide +kernel

end Verif.Qed
