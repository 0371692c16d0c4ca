import Verif.Spec.Superpose
import Verif.Proofs.WholePml
/-!
# Lemmas for C105: a step of the undivided grid is linear
-/
namespace Verif.Superpose
open Verif.Maxwell Verif.Pusher Verif.Deposit Verif.Cpml
open Verif.WholeRun (Kind Ptc Phys pushed macros2 macros3 SameCloud SameParticles cloudOf particles ptc)
open Verif.PicStep (field undivided2 undivided3)
open Verif.WholePml

variable {k : Nat} {α β : ℚ}

theorem newPsiE_mix (W : Whole k) (dt : ℚ) (s : Fin k × Bool) {ψ ψ' ψ'' b b' b'' : V3 k} (hψ : Mix α β ψ ψ' ψ'') (hb : Mix α β b b' b'') :
    Mix α β (W.newPsiE dt s ψ b) (W.newPsiE dt s ψ' b') (W.newPsiE dt s ψ'' b'') := by
  intro d v
  unfold Whole.newPsiE diffB
  dsimp only
  rw [hψ, hb, hb]
  ring

theorem newPsiB_mix (W : Whole k) (dt : ℚ) (s : Fin k × Bool) {ψ ψ' ψ'' e e' e'' : V3 k} (hψ : Mix α β ψ ψ' ψ'') (he : Mix α β e e' e'') :
    Mix α β (W.newPsiB dt s ψ e) (W.newPsiB dt s ψ' e') (W.newPsiB dt s ψ'' e'') := by
  intro d v
  unfold Whole.newPsiB diffE
  dsimp only
  rw [hψ, he, he]
  ring

theorem stretchE_mix (P : Par k) (dt : ℚ) (κ : Fin k → Nat → ℚ) {b b' b'' j j' j'' : V3 k} (hb : Mix α β b b' b'') (hj : Mix α β j j' j'') :
    Mix α β (stretchE P dt κ b j) (stretchE P dt κ b' j') (stretchE P dt κ b'' j'') := by
  intro d v
  unfold stretchE diffB
  rw [hj, mul_sub, mul_sub, Finset.mul_sum, Finset.mul_sum]
  have : ∀ a : Fin k, curlSign d (comp a) * (dt * P.c2 * ((b'' (third (comp a) d) v - b'' (third (comp a) d) (dn a v)) / P.d a / κ a (v a).toNat))
      = α * (curlSign d (comp a) * (dt * P.c2 * ((b (third (comp a) d) v - b (third (comp a) d) (dn a v)) / P.d a / κ a (v a).toNat)))
      + β * (curlSign d (comp a) * (dt * P.c2 * ((b' (third (comp a) d) v - b' (third (comp a) d) (dn a v)) / P.d a / κ a (v a).toNat))) := by
    intro a
    rw [hb, hb]
    ring
  rw [Finset.sum_congr rfl fun a _ => this a, Finset.sum_add_distrib]
  ring

theorem stretchB_mix (P : Par k) (dt : ℚ) (κ : Fin k → Nat → ℚ) {e e' e'' : V3 k} (he : Mix α β e e' e'') :
    Mix α β (stretchB P dt κ e) (stretchB P dt κ e') (stretchB P dt κ e'') := by
  intro d v
  unfold stretchB diffE
  rw [mul_neg, mul_neg, Finset.mul_sum, Finset.mul_sum, ← neg_add, ← Finset.sum_add_distrib]
  congr 1
  refine Finset.sum_congr rfl fun a _ => ?_
  rw [he, he]
  ring

/-- a double sum of which every term is a mixture -/
theorem sum_mix {f g h : Fin k → Bool → ℚ} (H : ∀ a m, h a m = α * f a m + β * g a m) :
    ∑ a : Fin k, ∑ m : Bool, h a m = α * (∑ a : Fin k, ∑ m : Bool, f a m) + β * ∑ a : Fin k, ∑ m : Bool, g a m := by
  simp_rw [Finset.mul_sum, ← Finset.sum_add_distrib, H]

theorem stepE_superposed (W : Whole k) (dt : ℚ) {F G H : Grid k} (h : Superposed α β F G H) :
    Superposed α β (W.stepE dt F) (W.stepE dt G) (W.stepE dt H) where
  e := by
    intro d v
    unfold Whole.stepE
    dsimp only
    by_cases hv : W.Inside v
    · simp only [if_pos hv]
      rw [h.e d v, stretchE_mix W.par dt W.kapE h.b h.j d v]
      rw [sum_mix (α := α) (β := β)
        (f := fun a m => if W.InE (a, m) v then curlSign d (comp a) * (dt * W.par.c2 * W.newPsiE dt (a, m) (F.psiE (a, m)) F.b d v) else 0)
        (g := fun a m => if W.InE (a, m) v then curlSign d (comp a) * (dt * W.par.c2 * W.newPsiE dt (a, m) (G.psiE (a, m)) G.b d v) else 0)]
      · ring
      · intro a m
        by_cases hi : W.InE (a, m) v
        · simp only [if_pos hi]
          rw [newPsiE_mix W dt (a, m) (h.psiE (a, m)) h.b d v]
          ring
        · simp only [if_neg hi]
          ring
    · simp only [if_neg hv]
      exact h.e d v
  b := h.b
  j := h.j
  psiE := by
    intro s d v
    unfold Whole.stepE
    dsimp only
    by_cases hv : W.Inside v ∧ W.InE s v
    · simp only [if_pos hv]
      exact newPsiE_mix W dt s (h.psiE s) h.b d v
    · simp only [if_neg hv]
      exact h.psiE s d v
  psiB := h.psiB

theorem stepB_superposed (W : Whole k) (dt : ℚ) {F G H : Grid k} (h : Superposed α β F G H) :
    Superposed α β (W.stepB dt F) (W.stepB dt G) (W.stepB dt H) where
  e := h.e
  b := by
    intro d v
    unfold Whole.stepB
    dsimp only
    by_cases hv : W.Inside v
    · simp only [if_pos hv]
      rw [h.b d v, stretchB_mix W.par dt W.kapB h.e d v]
      rw [sum_mix (α := α) (β := β)
        (f := fun a m => if W.InB (a, m) v then -(curlSign d (comp a) * (dt * W.newPsiB dt (a, m) (F.psiB (a, m)) F.e d v)) else 0)
        (g := fun a m => if W.InB (a, m) v then -(curlSign d (comp a) * (dt * W.newPsiB dt (a, m) (G.psiB (a, m)) G.e d v)) else 0)]
      · ring
      · intro a m
        by_cases hi : W.InB (a, m) v
        · simp only [if_pos hi]
          rw [newPsiB_mix W dt (a, m) (h.psiB (a, m)) h.e d v]
          ring
        · simp only [if_neg hi]
          ring
    · simp only [if_neg hv]
      exact h.b d v
  j := h.j
  psiE := h.psiE
  psiB := by
    intro s d v
    unfold Whole.stepB
    dsimp only
    by_cases hv : W.Inside v ∧ W.InB s v
    · simp only [if_pos hv]
      exact newPsiB_mix W dt s (h.psiB s) h.e d v
    · simp only [if_neg hv]
      exact h.psiB s d v

theorem step_superposed (W : Whole k) (dt : ℚ) {F G H : Grid k} {J J' J'' : V3 k} (hJ : Mix α β J J' J'') (h : Superposed α β F G H) :
    Superposed α β (W.step dt J F) (W.step dt J' G) (W.step dt J'' H) := by
  unfold Whole.step
  have h1 := stepB_superposed W (1 / 2 * dt) (stepE_superposed W (1 / 2 * dt) h)
  exact stepE_superposed W _ (stepB_superposed W _ ⟨h1.e, h1.b, hJ, h1.psiE, h1.psiB⟩)

/-- a cloud without particles -/
def Bare (cl : List (Kind × List (Ptc k))) : Prop := ∀ s ∈ cl, s.2 = []

theorem curOpen2_bare (W : Whole 2) (dt : ℚ) {cl : List (Kind × List (Ptc 2))} (h : Bare cl) (f v) : curOpen2 W dt cl f v = 0 := by
  have : macros2 cl = [] := by
    unfold macros2
    refine List.flatMap_eq_nil_iff.mpr fun s hs => ?_
    rw [h s hs]
    rfl
  unfold curOpen2
  rw [this]
  match f with | 0 => rfl | 1 => rfl | 2 => rfl

theorem curOpen3_bare (W : Whole 3) (dt : ℚ) {cl : List (Kind × List (Ptc 3))} (h : Bare cl) (f v) : curOpen3 W dt cl f v = 0 := by
  have : macros3 cl = [] := by
    unfold macros3
    refine List.flatMap_eq_nil_iff.mpr fun s hs => ?_
    rw [h s hs]
    rfl
  unfold curOpen3
  rw [this]
  match f with | 0 => rfl | 1 => rfl | 2 => rfl

section
variable (W : Whole k) (Φ : Phys k)

theorem moved_bare {U : LWorld k} (h : Bare U.cloud) : Bare (U.moved W Φ) := by
  intro s hs
  obtain ⟨a, ha, rfl⟩ := List.mem_map.mp hs
  dsimp only
  rw [h a ha]
  rfl

theorem step_bare {U : LWorld k} (h : Bare U.cloud) : Bare (U.step W Φ).cloud := by
  intro s hs
  obtain ⟨a, ha, rfl⟩ := List.mem_map.mp hs
  dsimp only
  rw [moved_bare W Φ h a ha]
  rfl

theorem run_bare {U : LWorld k} (h : Bare U.cloud) (i : Nat) : Bare (U.run W Φ i).cloud := by
  induction i with
  | zero => exact h
  | succ i ih => exact step_bare W Φ ih

theorem run_superposed (hΦ : ∀ cl f v, Bare cl → Φ.cur cl f v = 0) {U V X : LWorld k} (hU : Bare U.cloud) (hV : Bare V.cloud)
    (hX : Bare X.cloud) (h : Superposed α β U.grid V.grid X.grid) (i : Nat) :
    Superposed α β (U.run W Φ i).grid (V.run W Φ i).grid (X.run W Φ i).grid := by
  induction i with
  | zero => exact h
  | succ i ih =>
    refine step_superposed W Φ.dt ?_ ih
    intro d v
    rw [hΦ _ _ _ (moved_bare W Φ (run_bare W Φ hU i)), hΦ _ _ _ (moved_bare W Φ (run_bare W Φ hV i)),
      hΦ _ _ _ (moved_bare W Φ (run_bare W Φ hX i))]
    ring
end

/-- a state without particles shows a cloud without particles -/
theorem bare_of {L : Fin k → ℚ} {N : Nat} {parts : List (WholeRun.Species × (Nat → List (Slot k)))} {cl : List (Kind × List (Ptc k))}
    (h : SameCloud L (cloudOf N parts) cl) (hp : NoParticles N parts) : Bare cl := by
  have he : Bare (cloudOf N parts) := by
    intro s hs
    obtain ⟨a, ha, rfl⟩ := List.mem_map.mp hs
    dsimp only
    unfold particles
    refine List.flatMap_eq_nil_iff.mpr fun t ht => ?_
    refine List.filterMap_eq_nil_iff.mpr fun q hq => ?_
    unfold ptc
    rw [hp a ha t (List.mem_range.mp ht) q hq]
    rfl
  generalize cloudOf N parts = c at h he
  unfold SameCloud at h
  induction h with
  | nil => intro s hs; cases hs
  | @cons a b l l' hab _ ih =>
    intro s hs
    rcases List.mem_cons.mp hs with rfl | hs
    · obtain ⟨_, b', hperm, hall⟩ := hab
      rw [he a (List.mem_cons_self ..)] at hall
      cases hall
      exact hperm.nil_eq.symm
    · exact ih (fun s hs => he s (List.mem_cons_of_mem _ hs)) s hs

end Verif.Superpose
