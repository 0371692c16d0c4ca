import Verif.Model.Photon
import Mathlib.Tactic.LinearCombination
import Mathlib.Tactic.Ring
import Mathlib.Tactic.NormNum
/-!
# C72: photons fly straight on at the speed of light

`photon_flight2`: in 2D, after any number of steps in any fields, every photon has kept its momentum and moved along it, `c dt` per step, and no
current was deposited. `photon_stuck_fails`: in 3D photons never move. `gamma_is_light`: photon.py would give every photon the right factor.
-/
namespace Verif.Photon
open Verif.Pusher Verif.Deposit
open Verif.Maxwell (Arr Fields)

/-! ### specification -/

/-- the stored factor is that of a photon: `inv_gamma = 1/|u|` -/
def Light (p : Mom) : Prop := p.invGamma ^ 2 * (p.ux ^ 2 + p.uy ^ 2 + p.uz ^ 2) = 1

/-! ### lemmas -/

theorem addTo_zero {k : Nat} (A : Arr k) (c : Fin k → Int) : addTo A c 0 = A := by
  funext l
  unfold addTo
  split <;> simp

theorem foldl_inv {σ α : Type} (f : σ → α → σ) (P : σ → Prop) (h : ∀ s a, P s → P (f s a)) (l : List α) (s : σ) (hs : P s) : P (l.foldl f s) := by
  induction l generalizing s with
  | nil => exact hs
  | cons a l ih => exact ih _ (h s a hs)

theorem cells2_zero (nx ny : Nat) (ax ay : Ax) (is ie js je : Nat) (acc : Acc 2) : cells2 nx ny ax ay ⟨0, 0, 0, 0⟩ is ie js je acc = acc := by
  unfold cells2
  have := foldl_inv (row2 nx ny ax ay ⟨0, 0, 0, 0⟩ js je) (fun s => s = (fun _ => 0, acc)) (fun s i hs => by
    subst hs
    unfold row2
    have := foldl_inv (body2 nx ny ax ay ⟨0, 0, 0, 0⟩ i) (fun t => t = ⟨fun _ => 0, 0, acc⟩) (fun t j ht => by
      subst ht
      unfold body2
      simp [addTo_zero]) (List.range' js (je - js)) ⟨fun _ => 0, 0, acc⟩ rfl
    simp only [this]) (List.range' is (ie - is)) (fun _ => 0, acc) rfl
  rw [this]

/-- a particle without charge deposits nothing -/
theorem deposit2_zero (gx gy : Grid1) (dt x y : ℚ) (p : Mom) (acc : Acc 2) : deposit2 gx gy dt 0 x y p acc = acc := by
  unfold deposit2
  simp [cells2_zero]

theorem splitDeposit2_zero (gx gy : Grid1) (F : Fields 2) (dt : ℚ) (ps : List (Slot 2)) (acc : Acc 2) :
    splitDeposit (kern2S gx gy F 0 dt) ps acc = acc := by
  unfold splitDeposit
  apply foldl_inv _ (fun a => a = acc) _ _ _ rfl
  intro a s ha
  subst ha
  split
  · rfl
  · split
    · rfl
    · unfold depOne
      split
      · exact deposit2_zero _ _ _ _ _ _ _
      · rfl

theorem cells3_zero (cell : Nat → Nat → Nat → Fin 3 → Int) (ax ay az : Ax) (is ie js je ks ke : Nat) (acc : Acc 3) :
    cells3 (body3Ref cell ax ay az ⟨0, 0, 0, 0⟩) is ie js je ks ke acc = acc := by
  unfold cells3
  have hk : ∀ i j, (List.range' ks (ke - ks)).foldl (body3Ref cell ax ay az ⟨0, 0, 0, 0⟩ i j) ⟨fun _ _ => 0, fun _ => 0, 0, acc⟩ =
      ⟨fun _ _ => 0, fun _ => 0, 0, acc⟩ := fun i j =>
    foldl_inv (body3Ref cell ax ay az ⟨0, 0, 0, 0⟩ i j) (fun t : St3 => t = ⟨fun _ _ => 0, fun _ => 0, 0, acc⟩) (fun t k ht => by
      subst ht
      unfold body3Ref
      simp [addTo_zero]) _ _ rfl
  have hj : ∀ i, (List.range' js (je - js)).foldl (fun (t : (Nat → Nat → ℚ) × (Nat → ℚ) × Acc 3) j =>
      let u := (List.range' ks (ke - ks)).foldl (body3Ref cell ax ay az ⟨0, 0, 0, 0⟩ i j) ⟨t.1, t.2.1, 0, t.2.2⟩
      (u.jxb, u.jyb, u.acc)) (fun _ _ => 0, fun _ => 0, acc) = (fun _ _ => 0, fun _ => 0, acc) := fun i =>
    foldl_inv _ (fun t : (Nat → Nat → ℚ) × (Nat → ℚ) × Acc 3 => t = (fun _ _ => 0, fun _ => 0, acc)) (fun t j ht => by
      subst ht
      simp only [hk]) _ _ rfl
  have := foldl_inv (fun (s : (Nat → Nat → ℚ) × Acc 3) i =>
    let t := (List.range' js (je - js)).foldl (fun (t : (Nat → Nat → ℚ) × (Nat → ℚ) × Acc 3) j =>
      let u := (List.range' ks (ke - ks)).foldl (body3Ref cell ax ay az ⟨0, 0, 0, 0⟩ i j) ⟨t.1, t.2.1, 0, t.2.2⟩
      (u.jxb, u.jyb, u.acc)) (s.1, fun _ => 0, s.2)
    (t.1, t.2.2)) (fun s => s = (fun _ _ => 0, acc)) (fun s i hs => by
      subst hs
      simp only [hj]) (List.range' is (ie - is)) (fun _ _ => 0, acc) rfl
  rw [this]

theorem splitDeposit3_zero (gx gy gz : Grid1) (F : Fields 3) (dt : ℚ) (ps : List (Slot 3)) (acc : Acc 3) :
    splitDeposit (kern3S gx gy gz F 0 dt) ps acc = acc := by
  unfold splitDeposit
  apply foldl_inv _ (fun a => a = acc) _ _ _ rfl
  intro a s ha
  subst ha
  split
  · rfl
  · split
    · rfl
    · unfold depOne
      split
      · show deposit3Ref _ _ _ _ _ _ _ _ _ _ = _
        unfold deposit3Ref
        simp [cells3_zero]
      · rfl

/-- what a step leaves of a slot besides the stored fields -/
def Moved (v : ℚ) (s t : Slot 2) : Prop :=
  t.dead = s.dead ∧ t.mom = s.mom ∧ (s.dead = true → t = s) ∧ (s.dead = false → ∀ i x, s.pos i = .val x → t.pos i = .val (x + v * s.mom.invGamma * uAt s.mom i))

theorem photonParts_moved (K : Kern 2) (dt : ℚ) (ps : List (Slot 2)) : List.Forall₂ (Moved (lightSpeed * dt)) ps (photonParts K dt ps) := by
  unfold photonParts photonKick splitPush splitInterp
  simp only [if_true, List.map_map]
  rw [List.forall₂_map_right_iff]
  apply List.forall₂_same.mpr
  intro s _
  simp only [Function.comp]
  cases hd : s.dead with
  | true => simp [Moved, skipDead, skipDeadNan, hd]
  | false =>
    have h2 : ∀ t : Slot 2, (skipDeadNan (storeInterp K) t).dead = t.dead ∧ (skipDeadNan (storeInterp K) t).mom = t.mom ∧
        (skipDeadNan (storeInterp K) t).pos = t.pos := by
      intro t
      unfold skipDeadNan storeInterp
      split
      · simp
      · split
        · simp
        · split <;> simp
    have h3 : ∀ (a : ℚ) (t : Slot 2), t.dead = false → skipDead (pushPos a) t = pushPos a t := by
      intro a t ht
      simp [skipDead, ht]
    rw [h3 _ s hd]
    generalize hu : skipDeadNan (storeInterp K) (pushPos (lightSpeed * (1 / 2 * dt)) s) = u
    have hu1 : u.dead = false := by rw [← hu, (h2 _).1]; exact hd
    have hu2 : u.mom = s.mom := by rw [← hu, (h2 _).2.1]; rfl
    have hu3 : u.pos = (pushPos (lightSpeed * (1 / 2 * dt)) s).pos := by rw [← hu, (h2 _).2.2]
    rw [h3 _ u hu1]
    refine ⟨hu1.trans hd.symm, hu2, fun h => (by rw [hd] at h; cases h), fun _ i x hx => ?_⟩
    unfold pushPos
    simp only [hu2, hu3]
    simp only [pushPos, hx, bump]
    congr 1
    ring

theorem moved_trans {v w : ℚ} {s t u : Slot 2} (h1 : Moved v s t) (h2 : Moved w t u) : Moved (v + w) s u := by
  obtain ⟨a1, a2, a3, a4⟩ := h1
  obtain ⟨b1, b2, b3, b4⟩ := h2
  refine ⟨b1.trans a1, b2.trans a2, fun h => ?_, fun h i x hx => ?_⟩
  · rw [b3 (a1.trans h), a3 h]
  · rw [b4 (a1.trans h) i _ (a4 h i x hx), a2]
    congr 1
    ring

theorem forall₂_trans {v w : ℚ} {l m n : List (Slot 2)} (h1 : List.Forall₂ (Moved v) l m) (h2 : List.Forall₂ (Moved w) m n) :
    List.Forall₂ (Moved (v + w)) l n := by
  induction h1 generalizing n with
  | nil => cases h2; exact .nil
  | cons a _ ih =>
    cases h2 with
    | cons b h2 => exact .cons (moved_trans a b) (ih h2)

/-! ### theorems -/

/-- C72, 2D: after any number of steps, whatever the fields, the slots are the same photons in the same order; dead slots are untouched; every
living photon has its momentum and has moved by `c` times the elapsed time along its direction: `dx² + dy² + dz² = (c n dt)²`, where `dz` is the
way out of the plane. -/
theorem photon_flight2 (dt : ℚ) (Ks : List (Kern 2)) (ps : List (Slot 2)) :
    List.Forall₂ (fun s t => t.dead = s.dead ∧ t.mom = s.mom ∧ (s.dead = true → t = s) ∧
      (s.dead = false → Light s.mom → ∀ x y : ℚ, s.pos 0 = .val x → s.pos 1 = .val y → ∃ dx dy dz : ℚ, t.pos 0 = .val (x + dx) ∧ t.pos 1 = .val (y + dy) ∧
        dx ^ 2 + dy ^ 2 + dz ^ 2 = (lightSpeed * (Ks.length * dt)) ^ 2 ∧
        dx = lightSpeed * (Ks.length * dt) * s.mom.invGamma * s.mom.ux ∧ dy = lightSpeed * (Ks.length * dt) * s.mom.invGamma * s.mom.uy ∧
        dz = lightSpeed * (Ks.length * dt) * s.mom.invGamma * s.mom.uz)) ps (photonRun dt Ks ps) := by
  have key : List.Forall₂ (Moved (lightSpeed * (Ks.length * dt))) ps (photonRun dt Ks ps) := by
    unfold photonRun
    induction Ks generalizing ps with
    | nil =>
      apply List.forall₂_same.mpr
      intro s _
      exact ⟨rfl, rfl, fun _ => rfl, fun _ i x hx => by simp [hx]⟩
    | cons K Ks ih =>
      have h := forall₂_trans (photonParts_moved K dt ps) (ih (photonParts K dt ps))
      have e : lightSpeed * dt + lightSpeed * (Ks.length * dt) = lightSpeed * ((K :: Ks).length * dt) := by
        rw [List.length_cons]
        push_cast
        ring
      rw [e] at h
      exact h
  refine key.imp fun s t h => ⟨h.1, h.2.1, h.2.2.1, fun hd hl x y hx hy => ?_⟩
  refine ⟨_, _, lightSpeed * (Ks.length * dt) * s.mom.invGamma * s.mom.uz, h.2.2.2 hd 0 x hx, h.2.2.2 hd 1 y hy, ?_, rfl, rfl, rfl⟩
  unfold Light at hl
  simp only [uAt, Fin.val_zero, Fin.val_one]
  linear_combination (lightSpeed * (Ks.length * dt)) ^ 2 * hl

/-- C72: a photon species (charge 0) leaves the current alone. -/
theorem photon_current2 (gx gy : Grid1) (F : Fields 2) (dt : ℚ) (ps : List (Slot 2)) (acc : Acc 2) :
    photonAcc (kern2S gx gy F 0 dt) dt ps acc = acc := splitDeposit2_zero _ _ _ _ _ _

/-- C72: and so in 3D. -/
theorem photon_current3 (gx gy gz : Grid1) (F : Fields 3) (dt : ℚ) (ps : List (Slot 3)) (acc : Acc 3) :
    photonAcc (kern3S gx gy gz F 0 dt) dt ps acc = acc := splitDeposit3_zero _ _ _ _ _ _ _

/-- in 3D `push_position` does nothing, so photons stand still for ever -/
theorem photon_stuck_fails (dt : ℚ) (Ks : List (Kern 3)) (ps : List (Slot 3)) :
    List.Forall₂ (fun s t => t.pos = s.pos ∧ t.mom = s.mom ∧ t.dead = s.dead) ps (photonRun dt Ks ps) := by
  unfold photonRun
  have one : ∀ (K : Kern 3) (ps : List (Slot 3)), List.Forall₂ (fun s t => t.pos = s.pos ∧ t.mom = s.mom ∧ t.dead = s.dead) ps (photonParts K dt ps) := by
    intro K ps
    unfold photonParts photonKick splitPush splitInterp
    simp only [show ¬ ((3 : Nat) = 2) by decide, if_false]
    rw [List.forall₂_map_right_iff]
    apply List.forall₂_same.mpr
    intro s _
    unfold skipDeadNan storeInterp
    split
    · simp
    · split
      · simp
      · split <;> simp
  have tr : ∀ l m n : List (Slot 3), List.Forall₂ (fun s t => t.pos = s.pos ∧ t.mom = s.mom ∧ t.dead = s.dead) l m →
      List.Forall₂ (fun s t => t.pos = s.pos ∧ t.mom = s.mom ∧ t.dead = s.dead) m n →
      List.Forall₂ (fun s t => t.pos = s.pos ∧ t.mom = s.mom ∧ t.dead = s.dead) l n := by
    intro l m n h1 h2
    induction h1 generalizing n with
    | nil => cases h2; exact .nil
    | cons a _ ih =>
      cases h2 with
      | cons b h2 => exact .cons ⟨b.1.trans a.1, b.2.1.trans a.2.1, b.2.2.trans a.2.2⟩ (ih _ h2)
  induction Ks generalizing ps with
  | nil => exact List.forall₂_same.mpr fun s _ => ⟨rfl, rfl, rfl⟩
  | cons K Ks ih => exact tr _ _ _ (one K ps) (ih (photonParts K dt ps))

/-- C72: with `update_photon_gamma` every living photon that has a momentum gets the factor of a photon, and nothing else changes. -/
theorem gamma_is_light {k : Nat} (rs : ℚ → ℚ) (hrs : ∀ a, 0 < a → rs a ^ 2 * a = 1) (ps : List (Slot k)) :
    List.Forall₂ (fun s t => t.pos = s.pos ∧ t.dead = s.dead ∧ t.mom.ux = s.mom.ux ∧ t.mom.uy = s.mom.uy ∧ t.mom.uz = s.mom.uz ∧ t.mom.w = s.mom.w ∧
      (s.dead = true → t = s) ∧ (s.dead = false → (s.mom.ux ≠ 0 ∨ s.mom.uy ≠ 0 ∨ s.mom.uz ≠ 0) → Light t.mom)) ps (updateGamma rs ps) := by
  unfold updateGamma
  rw [List.forall₂_map_right_iff]
  apply List.forall₂_same.mpr
  intro s _
  cases hd : s.dead with
  | true => simp [hd]
  | false =>
    rw [if_neg (by simp)]
    refine ⟨rfl, rfl, rfl, rfl, rfl, rfl, fun h => (by cases h), fun _ h => ?_⟩
    unfold Light
    have hpos : 0 < s.mom.ux * s.mom.ux + s.mom.uy * s.mom.uy + s.mom.uz * s.mom.uz := by
      have hx := mul_self_nonneg s.mom.ux
      have hy := mul_self_nonneg s.mom.uy
      have hz := mul_self_nonneg s.mom.uz
      rcases h with h | h | h
      · have := mul_self_pos.mpr h; linarith
      · have := mul_self_pos.mpr h; linarith
      · have := mul_self_pos.mpr h; linarith
    have := hrs _ hpos
    simp only
    linear_combination this

/-! ### examples -/

/-- a photon with momentum (3, 0, 4) -/
def exPhoton : Slot 2 := ⟨![.val 1, .val 2], ⟨3, 0, 4, 1 / 5, 1⟩, ⟨0, 0, 0, 0, 0, 0⟩, false⟩

example : Light exPhoton.mom := by norm_num [Light, exPhoton]

end Verif.Photon
