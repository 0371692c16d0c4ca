import Verif.Proofs.Window
import Verif.Props.Causal
/-!
# C110 — the size of a periodic box does not matter away from its edges before a signal can arrive from there

Specification vocabulary: `Verif/Spec/Window.lean` (`wrap`, `seen`, `SameSeen`, `InBox`), `inner` of `Verif/Spec/Causal.lean`,
`SameWindow` and `SameLaws` below; `Admissible`, `Starts` of `Verif/Props/WholeRun.lean`.
-/
namespace Verif.Window
open Verif.Maxwell Verif.SyncFields Verif.Pusher Verif.Deposit Verif.WholeRun Verif.Symmetry Verif.Causal Verif.Tiled Verif.Matter

variable {k : Nat}

/-- Specification: two states of programs whose boxes may have different sizes show the same in a window: for every cell of the window,
stored cells of E and B and own cells of the currents that stand for it hold the same values in both, and the particles at
places in the window are the same in both, in any order -/
structure SameWindow (R : (Fin k → Int) → Prop) (C : Conf k) (N : Nat) (co : Nat → Fin k → Nat) (x : St k) (C' : Conf k) (N' : Nat)
    (co' : Nat → Fin k → Nat) (x' : St k) : Prop where
  eb : ∀ c, R c → ∀ t, t < N → ∀ t', t' < N' → ∀ v v', Stored C.n C.ng v → Stored C'.n C'.ng v' →
    (∀ a, onGrid C.n (co t) v a ≡ c a [ZMOD (C.np a * C.n a : Int)]) → (∀ a, onGrid C'.n (co' t') v' a ≡ c a [ZMOD (C'.np a * C'.n a : Int)]) → ∀ f,
    (x.fld t).e f (index C.n C.ng v) = (x'.fld t').e f (index C'.n C'.ng v') ∧
    (x.fld t).b f (index C.n C.ng v) = (x'.fld t').b f (index C'.n C'.ng v')
  j : ∀ c, R c → ∀ t, t < N → ∀ t', t' < N' → ∀ v v', Stored C.n 0 v → Stored C'.n 0 v' →
    (∀ a, onGrid C.n (co t) v a ≡ c a [ZMOD (C.np a * C.n a : Int)]) → (∀ a, onGrid C'.n (co' t') v' a ≡ c a [ZMOD (C'.np a * C'.n a : Int)]) → ∀ f,
    (x.fld t).j f (index C.n C.ng v) = (x'.fld t').j f (index C'.n C'.ng v')
  species : SameSeen (fun a => C.np a * C.n a) (fun a => C'.np a * C'.n a) C.d R (cloudOf N x.parts) (cloudOf N' x'.parts)

/-- Specification: two programs with the same cells, constants and step, on boxes of any sizes -/
structure SameLaws (C C' : Conf k) : Prop where
  d : C'.d = C.d
  c2 : C'.c2 = C.c2
  eps0 : C'.eps0 = C.eps0
  dt : C'.dt = C.dt
  rs : C'.rs = C.rs

/-- what two undivided simulations show in a window -/
structure SameView (N N' : Fin k → Nat) (d : Fin k → ℚ) (R : (Fin k → Int) → Prop) (W W' : World k) : Prop where
  fields : ∀ c, R c → ∀ f, W.fld.e f c = W'.fld.e f c ∧ W.fld.b f c = W'.fld.b f c ∧ W.fld.j f c = W'.fld.j f c
  species : SameSeen N N' d R W.cloud W'.cloud

theorem seen_cloud {d : Fin k → ℚ} (hd : ∀ a, 0 < d a) {N N' : Fin k → Nat} (hN : ∀ a, 0 < N a) (hN' : ∀ a, 0 < N' a)
    {R : (Fin k → Int) → Prop} {a a' b b' : List (Kind × List (Ptc k))} (ha : SameCloud (fun i => N i * d i) a a')
    (hb : SameCloud (fun i => N' i * d i) b b') (h : SameSeen N N' d R a b) : SameSeen N N' d R a' b' := by
  unfold SameSeen at *
  induction h generalizing a' b' with
  | nil => cases ha; cases hb; exact .nil
  | cons h1 _ ih =>
    cases ha with
    | cons a1 ha => cases hb with
      | cons b1 hb =>
        refine .cons ⟨a1.1.symm.trans (h1.1.trans b1.1), ?_⟩ (ih ha hb)
        exact (seen_same hd hN R a1.2).symm.trans (h1.2.trans (seen_same hd hN' R b1.2))

section
variable {Φ Φ' Ψ : Phys k} {np n np' n' : Fin k → Nat} {d : Fin k → ℚ} (hd : ∀ a, 0 < d a) (h0 : ∀ a, 0 < np a * n a) (h0' : ∀ a, 0 < np' a * n' a)
  (H : Weighs Φ np n d) (H' : Weighs Φ' np' n' d) (HM : Near Ψ (fun a => np' a * n' a) (fun a => np a * n a) d)
  (hFE : Ψ.FE = Φ.FE) (hFB : Ψ.FB = Φ.FB) (hsee : Ψ.see = Φ.see) (hrs : Ψ.rs = Φ.rs) (hdt : Ψ.dt = Φ.dt)
  (hcur : ∀ a b, Tiles (fun a => np' a * n' a) (len np n d) a b → Slow d Φ.dt a → Slow d Φ.dt b → Ψ.cur b = Φ.cur a)
  (hFE' : Ψ.FE = Φ'.FE) (hFB' : Ψ.FB = Φ'.FB) (hsee' : Ψ.see = Φ'.see) (hrs' : Ψ.rs = Φ'.rs) (hdt' : Ψ.dt = Φ'.dt)
  (hcur' : ∀ a b, Tiles (fun a => np a * n a) (len np' n' d) a b → Slow d Φ'.dt a → Slow d Φ'.dt b → Ψ.cur b = Φ'.cur a)
include hd h0 h0' H H' HM hFE hFB hsee hrs hdt hcur hFE' hFB' hsee' hrs' hdt' hcur'

/-- two undivided simulations that show the same in a window -/
theorem view_run {R : (Fin k → Int) → Prop} (hR : InBox (fun a => np a * n a) R) (hR' : InBox (fun a => np' a * n' a) R) {W W' : World k}
    (hper : ∀ i, (World.run Φ W i).fld.Per np n) (hper' : ∀ i, (World.run Φ' W' i).fld.Per np' n')
    (hs : ∀ i, Slow d Φ.dt (World.run Φ W i).cloud) (hs' : ∀ i, Slow d Φ'.dt (World.run Φ' W' i).cloud)
    (h : SameView (fun a => np a * n a) (fun a => np' a * n' a) d R W W') (i : Nat) :
    SameView (fun a => np a * n a) (fun a => np' a * n' a) d (inner (8 * i) R) (World.run Φ W i) (World.run Φ' W' i) := by
  have le : ∀ a, np a * n a ≤ (np' a * n' a) * (np a * n a) := fun a => Nat.le_mul_of_pos_left _ (h0' a)
  have g1 := fun i => tile_run H hFE hFB hsee hrs hdt hcur hper hs i
  have g2 := fun i => tile_run H' hFE' hFB' hsee' hrs' hdt' hcur' hper' hs' i
  have cc := fun (S : (Fin k → Int) → Prop) (hS : InBox (fun a => np a * n a) S) (hS' : InBox (fun a => np' a * n' a) S) (a b : List (Kind × List (Ptc k))) =>
    cloud_copies (N := fun a => np a * n a) (N' := fun a => np' a * n' a) (m := fun a => np' a * n' a) (m' := fun a => np a * n a)
      (M := fun a => (np' a * n' a) * (np a * n a)) hd h0 h0' h0' h0 (fun _ => rfl) (fun _ => Nat.mul_comm _ _) hS hS' (a := a) (b := b)
  simp only [mul_len] at cc
  have p1 : ∀ {G : GF k}, G.Per np n → G.Per (fun a => np' a * n' a) (fun a => np a * n a) := fun hG =>
    per_long (m := fun a => np' a * n' a) (fun _ => rfl) hG
  have p2 : ∀ {G : GF k}, G.Per np' n' → G.Per (fun a => np' a * n' a) (fun a => np a * n a) := fun hG =>
    per_long (m := fun a => np a * n a) (fun _ => Nat.mul_comm _ _) hG
  have hag : AgreeOn (len (fun a => np' a * n' a) (fun a => np a * n a) d) d (ring (fun a => (np' a * n' a) * (np a * n a)) R)
      (tile (fun a => np' a * n' a) (len np n d) W) (tile (fun a => np a * n a) (len np' n' d) W') := by
    refine ⟨fun c hc f => ?_, (cc R hR hR' _ _).mp h.species⟩
    obtain ⟨f1, f2, f3⟩ := h.fields _ hc f
    have q1 := p1 (hper 0)
    have q2 := p2 (hper' 0)
    have hmod : ∀ a, c a ≡ c a % (((np' a * n' a) * (np a * n a) : Nat) : Int) [ZMOD (((np' a * n' a : Nat) : Int) * ((np a * n a : Nat) : Int))] := fun a => by
      rw [← Nat.cast_mul]
      exact (Int.mod_modEq _ _).symm
    refine ⟨?_, ?_, ?_⟩
    · exact (q1.e f _ _ hmod).trans (f1.trans (q2.e f _ _ hmod).symm)
    · exact (q1.b f _ _ hmod).trans (f2.trans (q2.b f _ _ hmod).symm)
    · exact (q1.j f _ _ hmod).trans (f3.trans (q2.j f _ _ hmod).symm)
  have key := run_agree HM hd (ring_region (fun a => (np' a * n' a) * (np a * n a)) R) (fun i => by rw [g2 i]; exact p2 (hper' i))
    (fun i => by rw [g1 i, hdt]; exact slow_copies (hs i)) (fun i => by rw [g2 i, hdt']; exact slow_copies (hs' i)) hag i
  rw [g1 i, g2 i] at key
  refine ⟨fun c hc f => key.fields c (ring_inner hR le (ring_box (inner_box hR _) le hc)) f, ?_⟩
  refine (cc _ (inner_box hR _) (inner_box hR' _) _ _).mpr ?_
  have := within_same hd (ring_region (fun a => (np' a * n' a) * (np a * n a)) (inner (8 * i) R)) key.species
  rwa [within_within (fun c hc => ring_inner hR le hc), within_within (fun c hc => ring_inner hR le hc)] at this
end

section
variable {C C' : Conf k} {β : ℚ} {N N' : Nat} {co co' : Nat → Fin k → Nat} {x x' : St k} {W W' : World k}

theorem view_of (hl : SameLaws C C') (hcell : ∀ a, 0 < C.d a) (p : ∀ a, 0 < C.np a * C.n a) (p' : ∀ a, 0 < C'.np a * C'.n a)
    (h : Starts C N co β x W) (h' : Starts C' N' co' β x' W') (hc : Begin.Covered C N co) (hc' : Begin.Covered C' N' co')
    {R : (Fin k → Int) → Prop} (ha : SameWindow R C N co x C' N' co' x') :
    SameView (fun a => C.np a * C.n a) (fun a => C'.np a * C'.n a) C.d R W W' := by
  refine ⟨?_, ?_⟩
  · intro c hr f
    obtain ⟨t, ht, v, hv, e⟩ := hc c
    obtain ⟨t', ht', v', hv', e'⟩ := hc' c
    obtain ⟨r1, r2, r3⟩ := h.period _ _ e f
    obtain ⟨q1, q2, q3⟩ := h'.period _ _ e' f
    obtain ⟨b1, b2⟩ := ha.eb c hr t ht t' ht' v v' (Begin.own_stored hv) (Begin.own_stored hv') e e' f
    have b3 := ha.j c hr t ht t' ht' v v' hv hv' e e' f
    rw [h.agrees.e t ht f v (Begin.own_stored hv), h'.agrees.e t' ht' f v' (Begin.own_stored hv'), r1, q1] at b1
    rw [h.agrees.b t ht f v (Begin.own_stored hv), h'.agrees.b t' ht' f v' (Begin.own_stored hv'), r2, q2] at b2
    rw [h.agrees.j t ht f v hv, h'.agrees.j t' ht' f v' hv', r3, q3] at b3
    exact ⟨b1, b2, b3⟩
  · refine seen_cloud hcell p p' ?_ ?_ ha.species
    · rw [mul_len]; exact h.agrees.species
    · have := h'.agrees.species
      rw [mul_len, ← hl.d]
      exact this

theorem window_of (hl : SameLaws C C') (hcell : ∀ a, 0 < C.d a) (p : ∀ a, 0 < C.np a * C.n a) (p' : ∀ a, 0 < C'.np a * C'.n a)
    (h : Starts C N co β x W) (h' : Starts C' N' co' β x' W') {R : (Fin k → Int) → Prop}
    (ha : SameView (fun a => C.np a * C.n a) (fun a => C'.np a * C'.n a) C.d R W W') : SameWindow R C N co x C' N' co' x' where
  eb c hr t ht t' ht' v v' hv hv' e e' f := by
    obtain ⟨r1, r2, _⟩ := h.period _ _ e f
    obtain ⟨q1, q2, _⟩ := h'.period _ _ e' f
    obtain ⟨a1, a2, _⟩ := ha.fields c hr f
    exact ⟨by rw [h.agrees.e t ht f v hv, h'.agrees.e t' ht' f v' hv', r1, q1, a1],
      by rw [h.agrees.b t ht f v hv, h'.agrees.b t' ht' f v' hv', r2, q2, a2]⟩
  j c hr t ht t' ht' v v' hv hv' e e' f := by
    obtain ⟨_, _, r3⟩ := h.period _ _ e f
    obtain ⟨_, _, q3⟩ := h'.period _ _ e' f
    obtain ⟨_, _, a3⟩ := ha.fields c hr f
    rw [h.agrees.j t ht f v hv, h'.agrees.j t' ht' f v' hv', r3, q3, a3]
  species := by
    refine seen_cloud hcell p p' ?_ ?_ ha.species
    · rw [mul_len]; exact h.agrees.species.symm
    · have := h'.agrees.species.symm
      rw [mul_len, ← hl.d]
      exact this
end

/-- C110 in 2D: two runs on periodic boxes that may have different sizes, on whatever patches, ranks, schedules, orders and paths of
the push. If they begin with the same fields, currents and particles in a window that lies in both boxes, whatever they have
elsewhere and however large they are, they show the same after `i` steps in all cells of the window that are `8 i` cells inside. -/
theorem window2 {C C' : Conf 2} {β : ℚ} (hC : Admissible C β) (hC' : Admissible C' β) (hl : SameLaws C C') {W W' : World 2}
    {rk rk' : Nat → Nat → Nat} {x x' : Nat → St 2}
    (h0 : Starts C (sys2 C).npatches C.coord2 β (x 0) W) (h0' : Starts C' (sys2 C').npatches C'.coord2 β (x' 0) W')
    (hrun : Run (sys2 C) rk x) (hrun' : Run (sys2 C') rk' x') {R : (Fin 2 → Int) → Prop} (hR : InBox (fun a => C.np a * C.n a) R)
    (hR' : InBox (fun a => C'.np a * C'.n a) R)
    (ha : SameWindow R C (sys2 C).npatches C.coord2 (x 0) C' (sys2 C').npatches C'.coord2 (x' 0)) (i : Nat) :
    SameWindow (inner (8 * i) R) C (sys2 C).npatches C.coord2 (x i) C' (sys2 C').npatches C'.coord2 (x' i) := by
  have h := fun i => follows2.mp (run_follows hC.facts2 hC.bounds2 (follows2.mpr h0) hrun i)
  have h' := fun i => follows2.mp (run_follows hC'.facts2 hC'.bounds2 (follows2.mpr h0') hrun' i)
  have p : ∀ a, 0 < C.np a * C.n a := fun a => lt_of_lt_of_le (by omega) (Reverse.cells_two hC a)
  have p' : ∀ a, 0 < C'.np a * C'.n a := fun a => lt_of_lt_of_le (by omega) (Reverse.cells_two hC' a)
  refine window_of hl hC.cell p p' (h i) (h' i) ?_
  have e' : C'.phys2 = phys2 (fun a => C'.np a * C'.n a) C.d C.c2 C.eps0 C.dt C.rs := by
    unfold Conf.phys2
    rw [hl.d, hl.c2, hl.eps0, hl.dt, hl.rs]
  rw [e'] at h' ⊢
  have hs' := fun i => Reverse.slow_start hC' (h' i)
  rw [hl.d, hl.dt] at hs'
  have g := view_run (Φ := C.phys2) (Φ' := phys2 (fun a => C'.np a * C'.n a) C.d C.c2 C.eps0 C.dt C.rs) (Ψ := phys2 (fun a => (C'.np a * C'.n a) * (C.np a * C.n a)) C.d C.c2 C.eps0 C.dt C.rs) hC.cell p p'
    (weighs2 p hC.cell hC.step C.rs) (weighs2 p' hC.cell hC.step C.rs)
    (near2 (np := fun a => C'.np a * C'.n a) (n := fun a => C.np a * C.n a) (fun a => Nat.mul_pos (p' a) (p a)) hC.cell hC.step C.rs)
    rfl rfl rfl rfl rfl
    (fun a b hab ha hb => cur_tiles2 (np' := fun a => C'.np a * C'.n a) (n' := fun a => C.np a * C.n a) p p' (fun _ => rfl) hC.cell hC.step a b hab ha hb)
    rfl rfl rfl rfl rfl
    (fun a b hab ha hb => cur_tiles2 (np' := fun a => C'.np a * C'.n a) (n' := fun a => C.np a * C.n a) p' p (fun _ => Nat.mul_comm _ _) hC.cell hC.step a b hab ha hb)
    hR hR' (fun i => (h i).period.per) (fun i => (h' i).period.per) (fun i => Reverse.slow_start hC (h i)) hs'
    (view_of hl hC.cell p p' h0 h0' (Begin.covered2 hC) (Begin.covered2 hC') ha) i
  exact g

/-- C110 in 3D for species on the unified path. Missing for the full property: species on the split path, which the code does not
move in 3D (C24). -/
theorem window3_partial {C C' : Conf 3} {β : ℚ} (hC : Admissible C β) (hC' : Admissible C' β) (hl : SameLaws C C') {W W' : World 3}
    {rk rk' : Nat → Nat → Nat} {x x' : Nat → St 3}
    (h0 : Starts C (sys3 C).npatches C.coord3 β (x 0) W) (h0' : Starts C' (sys3 C').npatches C'.coord3 β (x' 0) W')
    (hu : ∀ a ∈ (x 0).parts, a.1.unified = true) (hu' : ∀ a ∈ (x' 0).parts, a.1.unified = true)
    (hrun : Run (sys3 C) rk x) (hrun' : Run (sys3 C') rk' x') {R : (Fin 3 → Int) → Prop} (hR : InBox (fun a => C.np a * C.n a) R)
    (hR' : InBox (fun a => C'.np a * C'.n a) R)
    (ha : SameWindow R C (sys3 C).npatches C.coord3 (x 0) C' (sys3 C').npatches C'.coord3 (x' 0)) (i : Nat) :
    SameWindow (inner (8 * i) R) C (sys3 C).npatches C.coord3 (x i) C' (sys3 C').npatches C'.coord3 (x' i) := by
  have h := fun i => (follows3.mp (run_follows hC.facts3 hC.bounds3 (follows3.mpr ⟨h0, hu⟩) hrun i)).1
  have h' := fun i => (follows3.mp (run_follows hC'.facts3 hC'.bounds3 (follows3.mpr ⟨h0', hu'⟩) hrun' i)).1
  have p2 := Reverse.cells_two hC
  have p2' := Reverse.cells_two hC'
  have p : ∀ a, 0 < C.np a * C.n a := fun a => lt_of_lt_of_le (by omega) (p2 a)
  have p' : ∀ a, 0 < C'.np a * C'.n a := fun a => lt_of_lt_of_le (by omega) (p2' a)
  refine window_of hl hC.cell p p' (h i) (h' i) ?_
  have e' : C'.phys3 = phys3 (fun a => C'.np a * C'.n a) C.d C.c2 C.eps0 C.dt C.rs := by
    unfold Conf.phys3
    rw [hl.d, hl.c2, hl.eps0, hl.dt, hl.rs]
  rw [e'] at h' ⊢
  have hs' := fun i => Reverse.slow_start hC' (h' i)
  rw [hl.d, hl.dt] at hs'
  have g := view_run (Φ := C.phys3) (Φ' := phys3 (fun a => C'.np a * C'.n a) C.d C.c2 C.eps0 C.dt C.rs) (Ψ := phys3 (fun a => (C'.np a * C'.n a) * (C.np a * C.n a)) C.d C.c2 C.eps0 C.dt C.rs) hC.cell p p'
    (weighs3 p2 hC.cell hC.step C.rs) (weighs3 p2' hC.cell hC.step C.rs)
    (near3 (np := fun a => C'.np a * C'.n a) (n := fun a => C.np a * C.n a) (fun a => (p2 a).trans (Nat.le_mul_of_pos_left _ (p' a))) hC.cell hC.step C.rs)
    rfl rfl rfl rfl rfl
    (fun a b hab ha hb => cur_tiles3 (np' := fun a => C'.np a * C'.n a) (n' := fun a => C.np a * C.n a) p2 p' (fun _ => rfl) hC.cell hC.step a b hab ha hb)
    rfl rfl rfl rfl rfl
    (fun a b hab ha hb => cur_tiles3 (np' := fun a => C'.np a * C'.n a) (n' := fun a => C.np a * C.n a) p2' p (fun _ => Nat.mul_comm _ _) hC.cell hC.step a b hab ha hb)
    hR hR' (fun i => (h i).period.per) (fun i => (h' i).period.per) (fun i => Reverse.slow_start hC (h i)) hs'
    (view_of hl hC.cell p p' h0 h0' (Begin.covered3 hC) (Begin.covered3 hC') ha) i
  exact g

/-! ## cases that meet the hypotheses -/

theorem wrap_self {N : Fin k → Nat} {d : Fin k → ℚ} {p : Ptc k} (h : ∀ a, 0 ≤ cellOf d p.pos a ∧ cellOf d p.pos a < N a) : wrap N d p = p := by
  refine Planar.ptc_ext ?_ rfl
  funext a
  show p.pos a - ((cellOf d p.pos a / (N a : Int) : Int) : ℚ) * (N a * d a) = p.pos a
  rw [Int.ediv_eq_zero_of_lt (h a).1 (h a).2]
  push_cast
  ring

/-- cells 0 to 19 along every axis -/
def exWindow (k : Nat) (c : Fin k → Int) : Prop := ∀ a, 0 ≤ c a ∧ c a < 20

theorem exInBox {N : Fin k → Nat} (h : ∀ a, 20 ≤ N a) : InBox N (exWindow k) := fun c hc a => by
  have := hc a
  have := h a
  constructor <;> omega

theorem exView {N N' : Fin k → Nat} (h : ∀ a, 20 ≤ N a) (h' : ∀ a, 20 ≤ N' a) :
    SameView N N' (fun _ => 1) (exWindow k) (exWorld k) (exWorld k) := by
  refine ⟨fun _ _ _ => ⟨rfl, rfl, rfl⟩, .cons ⟨rfl, .of_eq ?_⟩ .nil⟩
  have hc : ∀ a, cellOf (fun _ : Fin k => 1) (fun _ => 1) a = 1 := fun a => by
    show ⌊(1 : ℚ) / 1 + 1 / 2⌋ = 1
    norm_num
  have w : ∀ {M : Fin k → Nat}, (∀ a, 20 ≤ M a) → wrap M (fun _ => 1) ⟨fun _ => 1, exMom⟩ = ⟨fun _ => 1, exMom⟩ := fun {M} hM =>
    wrap_self fun a => by
      rw [hc a]
      have := hM a
      constructor <;> omega
  unfold seen
  show List.filter _ [wrap N (fun _ => 1) ⟨fun _ => 1, exMom⟩] = List.filter _ [wrap N' (fun _ => 1) ⟨fun _ => 1, exMom⟩]
  rw [w h, w h']

theorem exInner : inner (8 * 1) (exWindow k) fun _ => 10 := by
  intro c h a
  have := abs_le.mp (h a)
  have h0 : -((8 * 1 : Nat) : Int) ≤ c a - 10 ∧ c a - 10 ≤ ((8 * 1 : Nat) : Int) := this
  constructor <;> omega

/-- 2D: a box of 40 × 20 cells on two patches and a box of 30 × 25 cells on one patch, both with an electron at cell (1, 1) -/
example : ∃ x x' : Nat → St 2,
    Admissible (exConf 2 ![2, 1] ![20, 20]) 1 ∧ Admissible (exConf 2 ![1, 1] ![30, 25]) 1 ∧
    SameLaws (exConf 2 ![2, 1] ![20, 20]) (exConf 2 ![1, 1] ![30, 25]) ∧
    Starts (exConf 2 ![2, 1] ![20, 20]) (sys2 (exConf 2 ![2, 1] ![20, 20])).npatches (exConf 2 ![2, 1] ![20, 20]).coord2 1 (x 0) (exWorld 2) ∧
    Starts (exConf 2 ![1, 1] ![30, 25]) (sys2 (exConf 2 ![1, 1] ![30, 25])).npatches (exConf 2 ![1, 1] ![30, 25]).coord2 1 (x' 0) (exWorld 2) ∧
    Run (sys2 (exConf 2 ![2, 1] ![20, 20])) (fun i t => (i + t) % 2) x ∧ Run (sys2 (exConf 2 ![1, 1] ![30, 25])) (fun _ _ => 0) x' ∧
    InBox (fun a => (![2, 1] : Fin 2 → Nat) a * (![20, 20] : Fin 2 → Nat) a) (exWindow 2) ∧
    InBox (fun a => (![1, 1] : Fin 2 → Nat) a * (![30, 25] : Fin 2 → Nat) a) (exWindow 2) ∧
    SameWindow (exWindow 2) (exConf 2 ![2, 1] ![20, 20]) (sys2 (exConf 2 ![2, 1] ![20, 20])).npatches (exConf 2 ![2, 1] ![20, 20]).coord2 (x 0)
      (exConf 2 ![1, 1] ![30, 25]) (sys2 (exConf 2 ![1, 1] ![30, 25])).npatches (exConf 2 ![1, 1] ![30, 25]).coord2 (x' 0) ∧
    inner (8 * 1) (exWindow 2) fun _ => 10 := by
  have a1 : Admissible (exConf 2 ![2, 1] ![20, 20]) 1 :=
    exConf_ok (fun a => match a with | 0 => by decide | 1 => by decide) (fun a => match a with | 0 => by decide | 1 => by decide)
  have a2 : Admissible (exConf 2 ![1, 1] ![30, 25]) 1 :=
    exConf_ok (fun a => match a with | 0 => by decide | 1 => by decide) (fun a => match a with | 0 => by decide | 1 => by decide)
  have s1 := exStarts (np := ![2, 1]) (n := ![20, 20]) (N := (sys2 (exConf 2 ![2, 1] ![20, 20])).npatches)
    (co := (exConf 2 ![2, 1] ![20, 20]).coord2) (fun a => match a with | 0 => by decide | 1 => by decide) (by decide)
    (by funext a; match a with | 0 => rfl | 1 => rfl) false
  have s2 := exStarts (np := ![1, 1]) (n := ![30, 25]) (N := (sys2 (exConf 2 ![1, 1] ![30, 25])).npatches)
    (co := (exConf 2 ![1, 1] ![30, 25]).coord2) (fun a => match a with | 0 => by decide | 1 => by decide) (by decide)
    (by funext a; match a with | 0 => rfl | 1 => rfl) true
  obtain ⟨x, e1, r1⟩ := runs2 a1 s1 (fun i t => (i + t) % 2)
  obtain ⟨x', e2, r2⟩ := runs2 a2 s2 (fun _ _ => 0)
  have b1 : ∀ a, 20 ≤ (![2, 1] : Fin 2 → Nat) a * (![20, 20] : Fin 2 → Nat) a := fun a => match a with | 0 => by decide | 1 => by decide
  have b2 : ∀ a, 20 ≤ (![1, 1] : Fin 2 → Nat) a * (![30, 25] : Fin 2 → Nat) a := fun a => match a with | 0 => by decide | 1 => by decide
  have hl : SameLaws (exConf 2 ![2, 1] ![20, 20]) (exConf 2 ![1, 1] ![30, 25]) := ⟨rfl, rfl, rfl, rfl, rfl⟩
  refine ⟨x, x', a1, a2, hl, e1 ▸ s1, e2 ▸ s2, r1, r2, exInBox b1, exInBox b2, ?_, exInner⟩
  rw [e1, e2]
  exact window_of hl a1.cell (fun a => lt_of_lt_of_le (by omega) (b1 a)) (fun a => lt_of_lt_of_le (by omega) (b2 a)) s1 s2 (exView b1 b2)

/-- 3D: boxes of 40 × 20 × 20 and of 20 × 20 × 21 cells, on the unified path -/
example : ∃ x x' : Nat → St 3,
    Admissible (exConf 3 ![2, 1, 1] ![20, 20, 20]) 1 ∧ Admissible (exConf 3 ![1, 1, 1] ![20, 20, 21]) 1 ∧
    SameLaws (exConf 3 ![2, 1, 1] ![20, 20, 20]) (exConf 3 ![1, 1, 1] ![20, 20, 21]) ∧
    Starts (exConf 3 ![2, 1, 1] ![20, 20, 20]) (sys3 (exConf 3 ![2, 1, 1] ![20, 20, 20])).npatches (exConf 3 ![2, 1, 1] ![20, 20, 20]).coord3 1 (x 0) (exWorld 3) ∧
    Starts (exConf 3 ![1, 1, 1] ![20, 20, 21]) (sys3 (exConf 3 ![1, 1, 1] ![20, 20, 21])).npatches (exConf 3 ![1, 1, 1] ![20, 20, 21]).coord3 1 (x' 0) (exWorld 3) ∧
    (∀ a ∈ (x 0).parts, a.1.unified = true) ∧ (∀ a ∈ (x' 0).parts, a.1.unified = true) ∧
    Run (sys3 (exConf 3 ![2, 1, 1] ![20, 20, 20])) (fun _ t => t) x ∧ Run (sys3 (exConf 3 ![1, 1, 1] ![20, 20, 21])) (fun _ _ => 0) x' ∧
    InBox (fun a => (![2, 1, 1] : Fin 3 → Nat) a * (![20, 20, 20] : Fin 3 → Nat) a) (exWindow 3) ∧
    InBox (fun a => (![1, 1, 1] : Fin 3 → Nat) a * (![20, 20, 21] : Fin 3 → Nat) a) (exWindow 3) ∧
    SameWindow (exWindow 3) (exConf 3 ![2, 1, 1] ![20, 20, 20]) (sys3 (exConf 3 ![2, 1, 1] ![20, 20, 20])).npatches (exConf 3 ![2, 1, 1] ![20, 20, 20]).coord3 (x 0)
      (exConf 3 ![1, 1, 1] ![20, 20, 21]) (sys3 (exConf 3 ![1, 1, 1] ![20, 20, 21])).npatches (exConf 3 ![1, 1, 1] ![20, 20, 21]).coord3 (x' 0) ∧
    inner (8 * 1) (exWindow 3) fun _ => 10 := by
  have a1 : Admissible (exConf 3 ![2, 1, 1] ![20, 20, 20]) 1 :=
    exConf_ok (fun a => match a with | 0 => by decide | 1 => by decide | 2 => by decide) (fun a => match a with | 0 => by decide | 1 => by decide | 2 => by decide)
  have a2 : Admissible (exConf 3 ![1, 1, 1] ![20, 20, 21]) 1 :=
    exConf_ok (fun a => match a with | 0 => by decide | 1 => by decide | 2 => by decide) (fun a => match a with | 0 => by decide | 1 => by decide | 2 => by decide)
  have s1 := exStarts (np := ![2, 1, 1]) (n := ![20, 20, 20]) (N := (sys3 (exConf 3 ![2, 1, 1] ![20, 20, 20])).npatches)
    (co := (exConf 3 ![2, 1, 1] ![20, 20, 20]).coord3) (fun a => match a with | 0 => by decide | 1 => by decide | 2 => by decide) (by decide)
    (by funext a; match a with | 0 => rfl | 1 => rfl | 2 => rfl) true
  have s2 := exStarts (np := ![1, 1, 1]) (n := ![20, 20, 21]) (N := (sys3 (exConf 3 ![1, 1, 1] ![20, 20, 21])).npatches)
    (co := (exConf 3 ![1, 1, 1] ![20, 20, 21]).coord3) (fun a => match a with | 0 => by decide | 1 => by decide | 2 => by decide) (by decide)
    (by funext a; match a with | 0 => rfl | 1 => rfl | 2 => rfl) true
  have hu : ∀ a ∈ (exState 3 true).parts, a.1.unified = true := by
    intro a ha
    rcases List.mem_singleton.mp ha with rfl
    rfl
  obtain ⟨x, e1, r1⟩ := runs3 a1 s1 hu (fun _ t => t)
  obtain ⟨x', e2, r2⟩ := runs3 a2 s2 hu (fun _ _ => 0)
  have b1 : ∀ a, 20 ≤ (![2, 1, 1] : Fin 3 → Nat) a * (![20, 20, 20] : Fin 3 → Nat) a := fun a => match a with | 0 => by decide | 1 => by decide | 2 => by decide
  have b2 : ∀ a, 20 ≤ (![1, 1, 1] : Fin 3 → Nat) a * (![20, 20, 21] : Fin 3 → Nat) a := fun a => match a with | 0 => by decide | 1 => by decide | 2 => by decide
  have hl : SameLaws (exConf 3 ![2, 1, 1] ![20, 20, 20]) (exConf 3 ![1, 1, 1] ![20, 20, 21]) := ⟨rfl, rfl, rfl, rfl, rfl⟩
  refine ⟨x, x', a1, a2, hl, e1 ▸ s1, e2 ▸ s2, e1 ▸ hu, e2 ▸ hu, r1, r2, exInBox b1, exInBox b2, ?_, exInner⟩
  rw [e1, e2]
  exact window_of hl a1.cell (fun a => lt_of_lt_of_le (by omega) (b1 a)) (fun a => lt_of_lt_of_le (by omega) (b2 a)) s1 s2 (exView b1 b2)

end Verif.Window
