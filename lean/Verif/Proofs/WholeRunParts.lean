import Verif.Proofs.WholeRun
import Verif.Proofs.PicStep
import Verif.Props.MpiFields
import Verif.Props.MpiExchange
import Verif.Props.Exchange3
import Verif.Props.CurrentSync
import Mathlib.Data.List.Perm.Basic
/-!
# Lemmas for the two dimensions of a complete run: sampling, axes, periods, lists of particles
-/
namespace Verif.WholeRun
open Verif.Maxwell Verif.SyncFields Verif.Pusher Verif.Deposit Verif.Geometry Verif.Neighbors Verif.PicSpec Verif.Shape
open Verif.MpiExchange Verif.PusherProps Verif.ExchangeProps
open Verif.Exchange (alive living)
open Verif.PicStep (field zeroAcc)
open Verif.Particles (F64)

variable {k : Nat}

/-! ## sampling -/

/-- sampling moves with the grid -/
theorem sample_add (s X : ℚ) (z : ℤ) (f : ℤ → ℚ) : sample s (X + z) f = sample s X fun m => f (m + z) := by
  unfold sample
  rw [← finsum_comp_equiv (Equiv.addRight z)]
  refine finsum_congr fun m => ?_
  show shape (X + z - (((m + z : ℤ) : ℚ) + s)) * f (m + z) = _
  congr 2
  push_cast
  ring

theorem sample2_add (sx sy X Y : ℚ) (a b : ℤ) (f : ℤ → ℤ → ℚ) :
    sample2 sx sy (X + a) (Y + b) f = sample2 sx sy X Y fun m n => f (m + a) (n + b) := by
  unfold sample2
  rw [sample_add]
  congr 1
  funext m
  rw [sample_add]

theorem sample3_add (sx sy sz X Y Z : ℚ) (a b c : ℤ) (f : ℤ → ℤ → ℤ → ℚ) :
    sample3 sx sy sz (X + a) (Y + b) (Z + c) f = sample3 sx sy sz X Y Z fun m n l => f (m + a) (n + b) (l + c) := by
  unfold sample3
  rw [sample_add]
  congr 1
  funext m
  rw [sample2_add]

/-- the cells a particle within one cell of the interior reads -/
theorem near_range {n ng : Nat} (hg : 2 ≤ ng) {X : ℚ} (h1 : -1 ≤ X) (h2 : X ≤ n) {s : ℚ} (hs : s = 0 ∨ s = 1 / 2) {m : ℤ}
    (a : ⌊X - s + 1/2⌋ - 1 ≤ m) (b : m ≤ ⌊X - s + 1/2⌋ + 1) : -(ng : Int) ≤ m ∧ m < n + ng := by
  have l : -1 ≤ ⌊X - s + 1/2⌋ := by
    apply Int.le_floor.mpr
    push_cast
    rcases hs with rfl | rfl <;> linarith
  have u : ⌊X - s + 1/2⌋ < n + 1 := by
    apply Int.floor_lt.mpr
    push_cast
    rcases hs with rfl | rfl <;> linarith
  constructor <;> omega

/-! ## axes -/

section Axis
variable (C : Conf k) (a : Fin k) (hnp : 0 < C.np a)
include hnp

theorem axis_x0 (i : Nat) : (C.axis a).x0 i = i * C.n a * C.d a := by
  have h : (C.np a : ℚ) ≠ 0 := by exact_mod_cast hnp.ne'
  show (i : ℚ) * (((C.np a * C.n a : Nat) : ℚ) * C.d a) / (C.np a : ℚ) = _
  push_cast
  field_simp

theorem axis_lo (i : Nat) : (C.axis a).lo i = i * C.n a * C.d a - C.d a / 2 := by
  have e : (C.axis a).pmin i = (C.axis a).x0 i := if_neg fun h => by cases h.2
  show (C.axis a).pmin i - C.d a / 2 = _
  rw [e, axis_x0 C a hnp]

theorem axis_hi (i : Nat) : (C.axis a).hi i = i * C.n a * C.d a + C.n a * C.d a - C.d a / 2 := by
  have e : (C.axis a).pmax i = (C.axis a).x0 i + ((C.n a : ℚ) - 1) * C.d a := if_neg fun h => by cases h.2
  show (C.axis a).pmax i + C.d a / 2 = _
  rw [e, axis_x0 C a hnp]
  ring

omit hnp in
theorem axis_fold (v : ℚ) : ∃ z : ℤ, foldBack (C.axis a) v = v + z * len C.np C.n C.d a := by
  have e : (C.axis a).L = len C.np C.n C.d a := by
    show ((C.np a * C.n a : Nat) : ℚ) * C.d a = C.np a * C.n a * C.d a
    push_cast; ring
  unfold foldBack
  split
  · exact ⟨1, by rw [e]; push_cast; ring⟩
  · split
    · exact ⟨-1, by rw [e]; push_cast; ring⟩
    · exact ⟨0, by push_cast; ring⟩

theorem axis_periodic' (hn : 0 < C.n a) (hd : 0 < C.d a) : PeriodicAxis (C.axis a) := ⟨hnp, hn, hd, rfl, rfl⟩
end Axis

/-! ## periods -/

theorem len_div {np n : Fin k → Nat} {d : Fin k → ℚ} {i : Fin k} (hd : d i ≠ 0) (y : ℚ) (z : ℤ) :
    (y + z * len np n d i) / d i = y / d i + ((z * (np i * n i : Int) : ℤ) : ℚ) := by
  unfold len
  push_cast
  field_simp

/-- a whole period moves the cells of a deposition by a whole period, nothing else -/
theorem axisOf_shift {N : Nat} {d : ℚ} (hd : d ≠ 0) (x v dt : ℚ) (z : ℤ) :
    axisOf ⟨N, d, 0⟩ (x + z * (N * d)) v dt = ⟨(axisOf ⟨N, d, 0⟩ x v dt).i0 + z * N, (axisOf ⟨N, d, 0⟩ x v dt).dcell,
      (axisOf ⟨N, d, 0⟩ x v dt).S0, (axisOf ⟨N, d, 0⟩ x v dt).S1⟩ := by
  have e1 : xOld ⟨N, d, 0⟩ (x + z * (N * d)) v dt / d = xOld ⟨N, d, 0⟩ x v dt / d + ((z * N : Int) : ℚ) := by
    unfold xOld; push_cast; field_simp; ring
  have e2 : xAdv ⟨N, d, 0⟩ (x + z * (N * d)) v dt / d = xAdv ⟨N, d, 0⟩ x v dt / d + ((z * N : Int) : ℚ) := by
    unfold xAdv; push_cast; field_simp; ring
  show mkAxRef (xOld ⟨N, d, 0⟩ (x + z * (N * d)) v dt / d) (xAdv ⟨N, d, 0⟩ (x + z * (N * d)) v dt / d) = _
  rw [e1, e2, PicStep.mkAxRef_shift]
  rfl

theorem wrapIdx_shift {N : Nat} (hN : 0 < N) (i0 z : Int) : wrapIdx N (i0 + z * N) = wrapIdx N i0 := by
  funext i
  rw [wrapIdx_eq N hN, wrapIdx_eq N hN, show i0 + z * N + ((i : Int) - 2) = i0 + ((i : Int) - 2) + z * N by ring,
    Int.add_mul_emod_self_right]

/-! ## lists of particles -/

/-- a double loop in the other order -/
theorem flatMap_swap {α β γ : Type*} (l : List α) (l' : List β) (f : α → β → List γ) :
    (l.flatMap fun a => l'.flatMap fun b => f a b).Perm (l'.flatMap fun b => l.flatMap fun a => f a b) := by
  induction l with
  | nil =>
    have : (l'.flatMap fun _ => ([] : List γ)) = [] := by
      induction l' with
      | nil => rfl
      | cons b l' ih => rw [List.flatMap_cons, ih]; rfl
    simp only [List.flatMap_nil]
    rw [this]
  | cons a l ih =>
    simp only [List.flatMap_cons]
    exact (List.Perm.append_left _ ih).trans (List.flatMap_append_perm l' _ _)

theorem same_sum {L : Fin k → ℚ} {h : Ptc k → ℚ} (hh : ∀ p q, SamePtc L p q → h p = h q) {a b : List (Ptc k)}
    (hab : List.Forall₂ (SamePtc L) a b) : (a.map h).sum = (b.map h).sum := by
  induction hab with
  | nil => rfl
  | cons x _ ih =>
    simp only [List.map_cons, List.sum_cons]
    rw [ih, hh _ _ x]

/-- a sum over the particles of a cloud only depends on the particles up to order and whole periods -/
theorem cloud_sum {L : Fin k → ℚ} {h : Kind → Ptc k → ℚ} (hh : ∀ κ p q, SamePtc L p q → h κ p = h κ q)
    {a b : List (Kind × List (Ptc k))} (hab : SameCloud L a b) :
    (a.map fun s => (s.2.map (h s.1)).sum).sum = (b.map fun s => (s.2.map (h s.1)).sum).sum := by
  induction hab with
  | nil => rfl
  | @cons s s' _ _ h1 _ ih =>
    simp only [List.map_cons, List.sum_cons]
    rw [ih]
    congr 1
    obtain ⟨e, c, hc, hf⟩ := h1
    rw [← e, ← (hc.map (h s.1)).sum_eq]
    exact same_sum (hh s.1) hf

/-- what holds of all momenta of a cloud holds of those of the same cloud -/
theorem SameCloud.moms {L : Fin k → ℚ} {a b : List (Kind × List (Ptc k))} (hab : SameCloud L a b) {P : Mom → Prop}
    (h : ∀ s ∈ a, ∀ p ∈ s.2, P p.mom) : ∀ s ∈ b, ∀ p ∈ s.2, P p.mom := by
  intro s hs p hp
  have hb := hab.symm
  obtain ⟨s', hs', hss⟩ : ∃ s' ∈ a, s.1 = s'.1 ∧ SameParticles L s.2 s'.2 := by
    clear hab h
    induction hb with
    | nil => cases hs
    | cons h1 _ ih =>
      rcases List.mem_cons.mp hs with rfl | hs
      · exact ⟨_, List.mem_cons_self, h1⟩
      · obtain ⟨s', h, h'⟩ := ih hs
        exact ⟨s', List.mem_cons_of_mem _ h, h'⟩
  obtain ⟨q, hq, e⟩ := hss.2.mom hp
  rw [e]
  exact h s' hs' q hq

/-! ## the particle exchange on slots -/

section Pack
variable {A : Type} (unpack : Exchange.Slot A → Slot k)

/-- the particle an attribute vector stands for -/
def ptcA (a : A) : Option (Ptc k) := ptc (unpack ⟨a, false⟩)

theorem particles_living (hdead : ∀ a, (unpack ⟨a, true⟩).dead = true) (N : Nat) (s : Nat → List (Exchange.Slot A)) :
    particles N (fun t => (s t).map unpack) = (living N s).filterMap fun x => ptcA unpack x.2 := by
  unfold particles living
  rw [List.filterMap_flatMap]
  congr 1
  funext t
  unfold alive
  show List.filterMap ptc ((s t).map unpack) = _
  induction s t with
  | nil => rfl
  | cons b l ih =>
    obtain ⟨a, dd⟩ := b
    cases dd with
    | true =>
      have : ptc (unpack ⟨a, true⟩) = none := if_pos (hdead a)
      rw [List.map_cons, List.filterMap_cons_none this]
      exact ih
    | false =>
      rw [List.map_cons]
      simp only [Bool.not_false, List.filter_cons_of_pos, List.map_cons]
      show List.filterMap ptc (unpack ⟨a, false⟩ :: _) = List.filterMap _ ((t, a) :: _)
      rw [List.filterMap_cons, List.filterMap_cons, ih]
      rfl

/-- if every living particle goes to a place where it is the same particle, the particles are the same -/
theorem exchange_same {L : Fin k → ℚ} (hdead : ∀ a, (unpack ⟨a, true⟩).dead = true) {N : Nat}
    {s s' : Nat → List (Exchange.Slot A)} {dest : Nat × A → Option (Nat × A)}
    (hp : (living N s').Perm ((living N s).filterMap dest))
    (hd : ∀ x ∈ living N s, ∃ y p p', dest x = some y ∧ ptcA unpack y.2 = some p' ∧ ptcA unpack x.2 = some p ∧
      SamePtc L p p') :
    SameParticles L (particles N fun t => (s' t).map unpack) (particles N fun t => (s t).map unpack) := by
  rw [particles_living unpack hdead, particles_living unpack hdead]
  refine SameParticles.trans (SameParticles.of_perm (hp.filterMap _)) (SameParticles.symm ?_)
  refine ⟨_, List.Perm.refl _, ?_⟩
  generalize living N s = l at hd
  induction l with
  | nil => exact .nil
  | cons x l ih =>
    obtain ⟨y, p, p', e1, e2, e3, h⟩ := hd x List.mem_cons_self
    rw [List.filterMap_cons_some e1, List.filterMap_cons_some (f := fun x : Nat × A => ptcA unpack x.2) e3,
      List.filterMap_cons_some (f := fun x : Nat × A => ptcA unpack x.2) e2]
    exact .cons h (ih fun z hz => hd z (List.mem_cons_of_mem _ hz))

theorem mem_living_iff {N : Nat} {s : Nat → List (Exchange.Slot A)} {x : Nat × A} :
    x ∈ living N s ↔ x.1 < N ∧ (⟨x.2, false⟩ : Exchange.Slot A) ∈ s x.1 := by
  unfold living alive
  simp only [List.mem_flatMap, List.mem_range, List.mem_map, List.mem_filter]
  constructor
  · rintro ⟨t, ht, a, ⟨b, ⟨hb, hd⟩, rfl⟩, rfl⟩
    obtain ⟨a, dd⟩ := b
    cases dd with
    | true => cases hd
    | false => exact ⟨ht, hb⟩
  · rintro ⟨ht, hb⟩
    exact ⟨x.1, ht, x.2, ⟨_, ⟨hb, rfl⟩, rfl⟩, rfl⟩
end Pack

end Verif.WholeRun
