import Verif.Spec.Track
import Verif.Spec.WholePml
import Verif.Proofs.WholeGauss
/-!
# Following particles through a run
-/
namespace Verif.Track
open Verif.WholeRun Verif.Pusher Verif.Deposit Verif.Maxwell

variable {k : Nat}

theorem Along.trans {L : Fin k → ℚ} {r r' : ℚ} {p q s : Ptc k} (h : Along L r p q) (h' : Along L r' q s) : Along L (r + r') p s where
  w := h'.w.trans h.w
  pos i := by
    obtain ⟨z, hz⟩ := h.pos i
    obtain ⟨z', hz'⟩ := h'.pos i
    refine ⟨z + z', ?_⟩
    have e : s.pos i - p.pos i - ((z + z' : ℤ) : ℚ) * L i = (q.pos i - p.pos i - z * L i) + (s.pos i - q.pos i - z' * L i) := by
      push_cast; ring
    rw [e]
    exact (abs_add_le _ _).trans (add_le_add hz hz')

theorem along_comp {L : Fin k → ℚ} {r r' : ℚ} {a b c : List (Ptc k)} (h : List.Forall₂ (Along L r) a b)
    (h' : List.Forall₂ (Along L r') b c) : List.Forall₂ (Along L (r + r')) a c := by
  induction h generalizing c with
  | nil => cases h'; exact .nil
  | cons h1 _ ih =>
    cases h' with
    | cons h2 t => exact .cons (h1.trans h2) (ih t)

theorem forall₂_split {α β : Type*} {R : α → β → Prop} {a : List α} {b c : List β} (h : List.Forall₂ R a (b ++ c)) :
    ∃ a1 a2, a = a1 ++ a2 ∧ List.Forall₂ R a1 b ∧ List.Forall₂ R a2 c := by
  induction b generalizing a with
  | nil => exact ⟨[], a, rfl, .nil, h⟩
  | cons x b ih =>
    cases h with
    | cons h1 t =>
      obtain ⟨a1, a2, rfl, h2, h3⟩ := ih t
      exact ⟨_ :: a1, a2, rfl, .cons h1 h2, h3⟩

theorem mem_right {α β : Type*} {R : α → β → Prop} {a : List α} {b : List β} (h : List.Forall₂ R a b) {p : α} (hp : p ∈ a) :
    ∃ q ∈ b, R p q := by
  induction h with
  | nil => cases hp
  | cons h1 _ ih =>
    rcases List.mem_cons.mp hp with rfl | hp
    · exact ⟨_, List.mem_cons_self, h1⟩
    · obtain ⟨q, hq, e⟩ := ih hp
      exact ⟨q, List.mem_cons_of_mem _ hq, e⟩

/-- a way to be lost that is not undone by moving: who may be lost later from where it is then, may be lost from where it is now -/
structure Fate (L : Fin k → ℚ) (lost : ℚ → (Fin k → ℚ) → Prop) : Prop where
  more : ∀ r r' x, 0 ≤ r' → lost r x → lost (r + r') x
  back : ∀ r r' p q, Along L r p q → lost r' q.pos → lost (r + r') p.pos

theorem Later.trans {L : Fin k → ℚ} {lost : ℚ → (Fin k → ℚ) → Prop} (F : Fate L lost) {r r' : ℚ} (hr' : 0 ≤ r')
    {a b c : List (Ptc k)} (h : Later L lost r a b) (h' : Later L lost r' b c) : Later L lost (r + r') a c := by
  obtain ⟨k1, g1, b1, p1, p2, f, l⟩ := h
  obtain ⟨k2, g2, c1, q1, q2, f', l'⟩ := h'
  obtain ⟨a1, f1, p3⟩ : ∃ a1, List.Forall₂ (Along L r) a1 (k2 ++ g2) ∧ a1.Perm k1 := by
    obtain ⟨m, hm, hp⟩ := List.perm_comp_forall₂ (p2.trans q1.symm).symm (List.Forall₂.flip (R := flip (Along L r)) f)
    exact ⟨m, List.Forall₂.flip (R := Along L r) hm, hp⟩
  obtain ⟨m1, m2, rfl, e1, e2⟩ := forall₂_split f1
  refine ⟨m1, m2 ++ g1, c1, ?_, q2, along_comp e1 f', ?_⟩
  · rw [← List.append_assoc]
    exact (p3.append_right g1).trans p1
  · intro p hp
    rcases List.mem_append.mp hp with hp | hp
    · obtain ⟨q, hq, hpq⟩ := mem_right e2 hp
      exact F.back _ _ _ _ hpq (l' q hq)
    · exact F.more _ _ _ hr' (l p hp)

theorem Tracked.trans {L : Fin k → ℚ} {lost : ℚ → (Fin k → ℚ) → Prop} (F : Fate L lost) {r r' : ℚ} (hr' : 0 ≤ r')
    {a b c : List (Kind × List (Ptc k))} (h : Tracked L lost r a b) (h' : Tracked L lost r' b c) : Tracked L lost (r + r') a c := by
  unfold Tracked at *
  induction h generalizing c with
  | nil => cases h'; exact .nil
  | cons h1 _ ih =>
    cases h' with
    | cons h2 t => exact .cons ⟨h1.1.trans h2.1, h1.2.trans F hr' h2.2⟩ (ih t)

theorem tracked_same {L : Fin k → ℚ} {lost : ℚ → (Fin k → ℚ) → Prop} {a b : List (Kind × List (Ptc k))} (h : SameCloud L a b) :
    Tracked L lost 0 a b := by
  refine h.imp fun s s' hs => ⟨hs.1, ?_⟩
  obtain ⟨b', p, f⟩ := hs.2
  refine ⟨s.2, [], b', by rw [List.append_nil], p, f.imp fun p q hpq => ⟨congrArg Mom.w hpq.1.symm, fun i => ?_⟩, fun _ h => by cases h⟩
  obtain ⟨z, hz⟩ := hpq.2 i
  refine ⟨-z, ?_⟩
  rw [hz]
  push_cast
  have : q.pos i - (q.pos i + z * L i) - -z * L i = 0 := by ring
  rw [this, abs_zero]

/-- one push -/
theorem pushed_along {Φ : Phys k} (L : Fin k → ℚ) {β : ℚ} (hβ : 0 ≤ β) (hrs : ∀ s, 1 ≤ s → Φ.rs s ^ 2 * s ≤ β ^ 2) (κ : Kind) (G : GF k)
    (p : Ptc k) (hp : ∀ i : Fin k, |p.mom.invGamma * uAt p.mom i| ≤ β) :
    Along L (lightSpeed * |Φ.dt| * β) p (pushed Φ κ G p) where
  w := rfl
  pos i := by
    refine ⟨0, ?_⟩
    rw [pushed_pos]
    have h1 := vel_dt (d := lightSpeed * |Φ.dt| * β) (le_refl _) (hp i)
    have h2 : |vel (pushed Φ κ G p).mom i * Φ.dt| ≤ lightSpeed * |Φ.dt| * β :=
      vel_dt (le_refl _) (boris_speed hβ hrs lightSpeed κ.q κ.m Φ.dt _ _ p.mom.w i)
    rw [abs_le] at h1 h2 ⊢
    push_cast
    constructor <;> linarith [h1.1, h1.2, h2.1, h2.2]

theorem forall₂_of_map {α β : Type*} {R : α → β → Prop} {f : α → β} {a : List α} (h : ∀ x ∈ a, R x (f x)) : List.Forall₂ R a (a.map f) := by
  induction a with
  | nil => exact .nil
  | cons x a ih => exact .cons (h x List.mem_cons_self) (ih fun y hy => h y (List.mem_cons_of_mem _ hy))

/-- one step on a periodic domain -/
theorem step_tracked {Φ : Phys k} (L : Fin k → ℚ) {β : ℚ} (hβ : 0 ≤ β) (hrs : ∀ s, 1 ≤ s → Φ.rs s ^ 2 * s ≤ β ^ 2) (W : World k)
    (hp : ∀ s ∈ W.cloud, ∀ p ∈ s.2, ∀ i : Fin k, |p.mom.invGamma * uAt p.mom i| ≤ β) :
    Tracked L Never (lightSpeed * |Φ.dt| * β) W.cloud (W.step Φ).cloud :=
  forall₂_of_map fun s hs => ⟨rfl, s.2, [], _, by rw [List.append_nil], .refl _,
    forall₂_of_map fun p hpm => pushed_along L hβ hrs s.1 _ p (hp s hs p hpm), fun _ h => by cases h⟩

theorem never_fate (L : Fin k → ℚ) : Fate L Never := ⟨fun _ _ _ _ h => h, fun _ _ _ _ _ h => h⟩

/-! ## absorbing layers -/

open Verif.WholePml

/-- one step on a domain with absorbing layers -/
theorem lstep_tracked {W : Cpml.Whole k} {Φ : Phys k} (L : Fin k → ℚ) {lost : ℚ → (Fin k → ℚ) → Prop} {β : ℚ} (hβ : 0 ≤ β)
    (hrs : ∀ s, 1 ≤ s → Φ.rs s ^ 2 * s ≤ β ^ 2)
    (hl : ∀ p q, Along (fun _ => 0) (lightSpeed * |Φ.dt| * β) p q → ¬ Free W q.pos → lost (lightSpeed * |Φ.dt| * β) p.pos) (U : LWorld k)
    (hp : ∀ s ∈ U.cloud, ∀ p ∈ s.2, ∀ i : Fin k, |p.mom.invGamma * uAt p.mom i| ≤ β) :
    Tracked L lost (lightSpeed * |Φ.dt| * β) U.cloud (U.step W Φ).cloud := by
  show List.Forall₂ _ U.cloud ((U.cloud.map _).map _)
  rw [List.map_map]
  refine forall₂_of_map fun s hs => ⟨rfl, ?_⟩
  show Later L lost _ s.2 ((s.2.map (pushed Φ s.1 (midGrid W Φ U.grid))).filter fun p => decide (Free W p.pos))
  generalize midGrid W Φ U.grid = G
  have hp' := hp s hs
  generalize s.2 = l at hp'
  clear hs
  refine ⟨l.filter fun p => decide (Free W (pushed Φ s.1 G p).pos), l.filter fun p => !decide (Free W (pushed Φ s.1 G p).pos),
    _, List.filter_append_perm _ _, .refl _, ?_, ?_⟩
  · rw [List.filter_map]
    exact forall₂_of_map fun p hpm => pushed_along L hβ hrs s.1 G p (hp' p (List.mem_of_mem_filter hpm))
  · intro p hpm
    obtain ⟨h1, h2⟩ := List.mem_filter.mp hpm
    refine hl p _ (pushed_along _ hβ hrs s.1 G p (hp' p h1)) ?_
    simpa using h2

end Verif.Track
