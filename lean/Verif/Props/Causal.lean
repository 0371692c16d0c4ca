import Verif.Proofs.Causal2
import Verif.Props.Reverse
import Verif.Props.Begin
/-!
# C101 — what happens in a region of the grid does not depend on what is far away

Specification vocabulary: `Verif/Spec/Causal.lean` (`cellOf`, `inner`, `Region`, `within`, `AgreeOn`), `Admissible`, `Starts` of
`Verif/Props/WholeRun.lean`, and `SameOn` below.
-/
namespace Verif.Causal
open Verif.Maxwell Verif.SyncFields Verif.Pusher Verif.Deposit Verif.WholeRun Verif.Symmetry

section Gen
variable {k : Nat}

/-- Specification: two states of the program, on patches that may differ, show the same on a region: stored cells of E and B and
own cells of the currents that lie on the same cell of the region hold the same values, and the particles in the region are the
same, up to order and whole lengths of the domain -/
structure SameOn (R : (Fin k → Int) → Prop) (C : Conf k) (N : Nat) (co : Nat → Fin k → Nat) (x : St k) (C' : Conf k) (N' : Nat)
    (co' : Nat → Fin k → Nat) (x' : St k) : Prop where
  eb : ∀ t, t < N → ∀ t', t' < N' → ∀ v v', Stored C.n C.ng v → Stored C'.n C'.ng v' →
    (∀ a, onGrid C.n (co t) v a ≡ onGrid C'.n (co' t') v' a [ZMOD (C.np a * C.n a : Int)]) → R (onGrid C.n (co t) v) → ∀ f,
    (x.fld t).e f (index C.n C.ng v) = (x'.fld t').e f (index C'.n C'.ng v') ∧
    (x.fld t).b f (index C.n C.ng v) = (x'.fld t').b f (index C'.n C'.ng v')
  j : ∀ t, t < N → ∀ t', t' < N' → ∀ v v', Stored C.n 0 v → Stored C'.n 0 v' →
    (∀ a, onGrid C.n (co t) v a ≡ onGrid C'.n (co' t') v' a [ZMOD (C.np a * C.n a : Int)]) → R (onGrid C.n (co t) v) → ∀ f,
    (x.fld t).j f (index C.n C.ng v) = (x'.fld t').j f (index C'.n C'.ng v')
  species : SameCloud (fun i => C.np i * C.n i * C.d i) (within C.d R (cloudOf N x.parts)) (within C.d R (cloudOf N' x'.parts))

theorem same_on {C C' : Conf k} {β : ℚ} {N N' : Nat} {co co' : Nat → Fin k → Nat} {x x' : St k} {W W' : World k} (hcell : ∀ a, 0 < C.d a)
    (h : Starts C N co β x W) (h' : Starts C' N' co' β x' W') (hN : ∀ a, C.np a * C.n a = C'.np a * C'.n a) (hd : C'.d = C.d)
    {R : (Fin k → Int) → Prop} (hR : Region (fun a => C.np a * C.n a) R)
    (ha : AgreeOn (fun i => C.np i * C.n i * C.d i) C.d R W W') : SameOn R C N co x C' N' co' x' := by
  have hL : (fun i => (C'.np i * C'.n i * C'.d i : ℚ)) = fun i => C.np i * C.n i * C.d i := by
    funext i
    have := hN i
    rw [hd]
    rw [← Nat.cast_mul, ← Nat.cast_mul, this]
  have hrep : ∀ v w : Fin k → Int, (∀ a, v a ≡ w a [ZMOD (C.np a * C.n a : Int)]) →
      ∀ f, W'.fld.e f v = W'.fld.e f w ∧ W'.fld.b f v = W'.fld.b f w ∧ W'.fld.j f v = W'.fld.j f w := fun v w hvw =>
    h'.period v w fun a => by
      have := hN a
      have e : (C'.np a * C'.n a : Int) = C.np a * C.n a := by exact_mod_cast this.symm
      rw [e]
      exact hvw a
  refine ⟨?_, ?_, ?_⟩
  · intro t ht t' ht' v v' hv hv' he hr f
    obtain ⟨r1, r2, _⟩ := hrep _ _ he f
    obtain ⟨a1, a2, _⟩ := ha.fields _ hr f
    exact ⟨by rw [h.agrees.e t ht f v hv, h'.agrees.e t' ht' f v' hv', a1, r1],
      by rw [h.agrees.b t ht f v hv, h'.agrees.b t' ht' f v' hv', a2, r2]⟩
  · intro t ht t' ht' v v' hv hv' he hr f
    obtain ⟨_, _, r3⟩ := hrep _ _ he f
    obtain ⟨_, _, a3⟩ := ha.fields _ hr f
    rw [h.agrees.j t ht f v hv, h'.agrees.j t' ht' f v' hv', a3, r3]
  · have h1 := within_same (np := C.np) (n := C.n) hcell hR h.agrees.species
    have h2 := h'.agrees.species
    rw [hL] at h2
    exact h1.trans (ha.species.trans (within_same (np := C.np) (n := C.n) hcell hR h2).symm)

/-- two states that show the same on a region begin with undivided simulations that agree there -/
theorem agree_on {C C' : Conf k} {β : ℚ} {N N' : Nat} {co co' : Nat → Fin k → Nat} {x x' : St k} {W W' : World k} (hcell : ∀ a, 0 < C.d a)
    (h : Starts C N co β x W) (h' : Starts C' N' co' β x' W') (hN : ∀ a, C.np a * C.n a = C'.np a * C'.n a) (hd : C'.d = C.d)
    (hc : Begin.Covered C N co) (hc' : Begin.Covered C' N' co')
    {R : (Fin k → Int) → Prop} (hR : Region (fun a => C.np a * C.n a) R)
    (ha : SameOn R C N co x C' N' co' x') : AgreeOn (fun i => C.np i * C.n i * C.d i) C.d R W W' := by
  have hL : (fun i => (C'.np i * C'.n i * C'.d i : ℚ)) = fun i => C.np i * C.n i * C.d i := by
    funext i
    have := hN i
    rw [hd]
    rw [← Nat.cast_mul, ← Nat.cast_mul, this]
  refine ⟨?_, ?_⟩
  · intro c hr f
    obtain ⟨t, ht, v, hv, e⟩ := hc c
    obtain ⟨t', ht', v', hv', e'⟩ := hc' c
    have e2 : ∀ a, onGrid C'.n (co' t') v' a ≡ c a [ZMOD (C.np a * C.n a : Int)] := fun a => by
      have h2 : (C'.np a * C'.n a : Int) = C.np a * C.n a := by exact_mod_cast (hN a).symm
      rw [← h2]
      exact e' a
    have hr' : R (onGrid C.n (co t) v) := (hR _ c fun a => by simpa using e a).mpr hr
    have e3 := fun a => (e a).trans (e2 a).symm
    obtain ⟨r1, r2, r3⟩ := h.period _ _ e f
    obtain ⟨q1, q2, q3⟩ := h'.period _ _ e' f
    obtain ⟨b1, b2⟩ := ha.eb t ht t' ht' v v' (Begin.own_stored hv) (Begin.own_stored hv') e3 hr' f
    have b3 := ha.j t ht t' ht' v v' hv hv' e3 hr' f
    rw [h.agrees.e t ht f v (Begin.own_stored hv), h'.agrees.e t' ht' f v' (Begin.own_stored hv'), r1, q1] at b1
    rw [h.agrees.b t ht f v (Begin.own_stored hv), h'.agrees.b t' ht' f v' (Begin.own_stored hv'), r2, q2] at b2
    rw [h.agrees.j t ht f v hv, h'.agrees.j t' ht' f v' hv', r3, q3] at b3
    exact ⟨b1, b2, b3⟩
  · have h1 := within_same (np := C.np) (n := C.n) hcell hR h.agrees.species
    have h2 := h'.agrees.species
    rw [hL] at h2
    exact h1.symm.trans (ha.species.trans (within_same (np := C.np) (n := C.n) hcell hR h2))

/-- steps of two undivided simulations -/
theorem run_agree {Φ : Phys k} {np n : Fin k → Nat} {d : Fin k → ℚ} (H : Near Φ np n d) (hd : ∀ a, 0 < d a) {R : (Fin k → Int) → Prop}
    (hR : Region (fun a => np a * n a) R) {W W' : World k} (hper' : ∀ i, (World.run Φ W' i).fld.Per np n)
    (hs : ∀ i, Slow d Φ.dt (World.run Φ W i).cloud) (hs' : ∀ i, Slow d Φ.dt (World.run Φ W' i).cloud)
    (h : AgreeOn (len np n d) d R W W') (i : Nat) :
    AgreeOn (len np n d) d (inner (8 * i) R) (World.run Φ W i) (World.run Φ W' i) := by
  induction i with
  | zero =>
    have : inner (8 * 0) R = R := funext fun c => propext inner_zero
    rw [this]
    exact h
  | succ i ih =>
    have h1 := step_agree H hd (inner_region hR (8 * i)) (hper' i) (hs i) (hs' i) (hs (i + 1)) (hs' (i + 1)) ih
    have hin : ∀ c, inner (8 * (i + 1)) R c → inner 8 (inner (8 * i) R) c := fun c hc =>
      inner_inner (r := 8) (s := 8 * i) (by rwa [show 8 + 8 * i = 8 * (i + 1) by ring])
    refine ⟨fun c hc => h1.fields c (hin c hc), ?_⟩
    have := within_same hd (inner_region hR (8 * (i + 1))) h1.species
    rwa [within_within hin, within_within hin] at this
end Gen

/-- C101: two 2D runs on the same domain, on any patches, rank layouts, schedules, orders and paths of the push, that begin with the
same fields, currents and particles in the cells of a region, whatever they have elsewhere: after `i` steps they show the same in
all cells of the region that are `8 i` cells inside. Nothing travels further than eight cells in a step. -/
theorem causal2 {C C' : Conf 2} {β : ℚ} (hC : Admissible C β) (hC' : Admissible C' β)
    (hN : ∀ a, C.np a * C.n a = C'.np a * C'.n a) (hd : C'.d = C.d) (hc : C'.c2 = C.c2) (he : C'.eps0 = C.eps0)
    (ht : C'.dt = C.dt) (hs : C'.rs = C.rs) {W W' : World 2} {rk rk' : Nat → Nat → Nat} {x x' : Nat → St 2}
    (h0 : Starts C (sys2 C).npatches C.coord2 β (x 0) W) (h0' : Starts C' (sys2 C').npatches C'.coord2 β (x' 0) W')
    (hrun : Run (sys2 C) rk x) (hrun' : Run (sys2 C') rk' x') {R : (Fin 2 → Int) → Prop} (hR : Region (fun a => C.np a * C.n a) R)
    (ha : SameOn R C (sys2 C).npatches C.coord2 (x 0) C' (sys2 C').npatches C'.coord2 (x' 0)) (i : Nat) :
    SameOn (inner (8 * i) R) C (sys2 C).npatches C.coord2 (x i) C' (sys2 C').npatches C'.coord2 (x' i) := by
  have h := fun i => follows2.mp (run_follows hC.facts2 hC.bounds2 (follows2.mpr h0) hrun i)
  have h' := fun i => follows2.mp (run_follows hC'.facts2 hC'.bounds2 (follows2.mpr h0') hrun' i)
  have ha := agree_on hC.cell h0 h0' hN hd (Begin.covered2 hC) (Begin.covered2 hC') hR ha
  have e : C'.phys2 = C.phys2 := by
    unfold Conf.phys2
    rw [hd, hc, he, ht, hs]
    have : (fun a => C'.np a * C'.n a) = fun a => C.np a * C.n a := funext fun a => (hN a).symm
    rw [this]
  rw [e] at h'
  refine same_on hC.cell (h i) (h' i) hN hd (inner_region hR _) ?_
  refine run_agree (Φ := C.phys2) (near2 (fun a => lt_of_lt_of_le (by omega) (Reverse.cells_two hC a)) hC.cell hC.step C.rs) hC.cell hR ?_
    (fun i => Reverse.slow_start hC (h i)) (fun i => ?_) ha i
  · intro i
    refine ⟨?_, ?_, ?_⟩
    all_goals
      intro f v w hvw
      have hvw' : ∀ a, v a ≡ w a [ZMOD (C'.np a * C'.n a : Int)] := fun a => by
        have e : (C'.np a * C'.n a : Int) = C.np a * C.n a := by exact_mod_cast (hN a).symm
        rw [e]
        exact_mod_cast hvw a
    · exact ((h' i).period v w hvw' f).1
    · exact ((h' i).period v w hvw' f).2.1
    · exact ((h' i).period v w hvw' f).2.2
  · have := Reverse.slow_start hC' (h' i)
    rw [hd, ht] at this
    exact this

/-- C101 in 3D for species on the unified path. Missing for the full property: species on the split path, which the code does not
move. -/
theorem causal3_partial {C C' : Conf 3} {β : ℚ} (hC : Admissible C β) (hC' : Admissible C' β)
    (hN : ∀ a, C.np a * C.n a = C'.np a * C'.n a) (hd : C'.d = C.d) (hc : C'.c2 = C.c2) (he : C'.eps0 = C.eps0)
    (ht : C'.dt = C.dt) (hs : C'.rs = C.rs) {W W' : World 3} {rk rk' : Nat → Nat → Nat} {x x' : Nat → St 3}
    (h0 : Starts C (sys3 C).npatches C.coord3 β (x 0) W) (h0' : Starts C' (sys3 C').npatches C'.coord3 β (x' 0) W')
    (hu : ∀ a ∈ (x 0).parts, a.1.unified = true) (hu' : ∀ a ∈ (x' 0).parts, a.1.unified = true)
    (hrun : Run (sys3 C) rk x) (hrun' : Run (sys3 C') rk' x') {R : (Fin 3 → Int) → Prop} (hR : Region (fun a => C.np a * C.n a) R)
    (ha : SameOn R C (sys3 C).npatches C.coord3 (x 0) C' (sys3 C').npatches C'.coord3 (x' 0)) (i : Nat) :
    SameOn (inner (8 * i) R) C (sys3 C).npatches C.coord3 (x i) C' (sys3 C').npatches C'.coord3 (x' i) := by
  have h := fun i => (follows3.mp (run_follows hC.facts3 hC.bounds3 (follows3.mpr ⟨h0, hu⟩) hrun i)).1
  have h' := fun i => (follows3.mp (run_follows hC'.facts3 hC'.bounds3 (follows3.mpr ⟨h0', hu'⟩) hrun' i)).1
  have ha := agree_on hC.cell h0 h0' hN hd (Begin.covered3 hC) (Begin.covered3 hC') hR ha
  have e : C'.phys3 = C.phys3 := by
    unfold Conf.phys3
    rw [hd, hc, he, ht, hs]
    have : (fun a => C'.np a * C'.n a) = fun a => C.np a * C.n a := funext fun a => (hN a).symm
    rw [this]
  rw [e] at h'
  refine same_on hC.cell (h i) (h' i) hN hd (inner_region hR _) ?_
  refine run_agree (Φ := C.phys3) (near3 (Reverse.cells_two hC) hC.cell hC.step C.rs) hC.cell hR ?_
    (fun i => Reverse.slow_start hC (h i)) (fun i => ?_) ha i
  · intro i
    refine ⟨?_, ?_, ?_⟩
    all_goals
      intro f v w hvw
      have hvw' : ∀ a, v a ≡ w a [ZMOD (C'.np a * C'.n a : Int)] := fun a => by
        have e : (C'.np a * C'.n a : Int) = C.np a * C.n a := by exact_mod_cast (hN a).symm
        rw [e]
        exact_mod_cast hvw a
    · exact ((h' i).period v w hvw' f).1
    · exact ((h' i).period v w hvw' f).2.1
    · exact ((h' i).period v w hvw' f).2.2
  · have := Reverse.slow_start hC' (h' i)
    rw [hd, ht] at this
    exact this

/-! ## cases that meet the hypotheses -/

/-- the world of `exWorld` without its electron -/
def exEmpty (k : Nat) : World k := ⟨(exWorld k).fld, [(⟨-1, 1⟩, [])]⟩
def exEmptyState (k : Nat) (un : Bool) : St k := ⟨(exState k un).fld, [(⟨⟨-1, 1⟩, un⟩, fun _ => [])]⟩

theorem exEmptyStarts {k : Nat} {np n : Fin k → Nat} {N : Nat} {co : Nat → Fin k → Nat} (un : Bool) :
    Starts (exConf k np n) N co 1 (exEmptyState k un) (exEmpty k) where
  agrees := ⟨fun _ _ _ _ _ => rfl, fun _ _ _ _ _ => rfl, fun _ _ _ _ _ => rfl, .cons ⟨rfl, .of_perm (by
    show (particles N fun _ => ([] : List (Slot k))).Perm []
    unfold particles
    have : (List.range N).flatMap (fun _ => List.filterMap ptc ([] : List (Slot k))) = [] := List.flatMap_eq_nil_iff.mpr fun t _ => rfl
    rw [this])⟩ .nil⟩
  inside := by
    intro a ha t ht s hs hd
    rcases List.mem_singleton.mp ha with rfl
    cases hs
  period := fun _ _ _ _ => ⟨rfl, rfl, rfl⟩

/-- cells 10 to 29 of 40 along the first axis -/
def exRegion (c : Fin 2 → Int) : Prop := 10 ≤ c 0 % 40 ∧ c 0 % 40 < 30

/-- 2D: a run on two patches of an electron at cell (1, 1), and a run on one patch without it, agree at the beginning on cells 10
to 29 of 40; a step later they agree at least on cells 18 to 21 -/
example : ∃ x x' : Nat → St 2,
    Admissible (exConf 2 ![2, 1] ![20, 3]) 1 ∧ Admissible (exConf 2 ![1, 1] ![40, 3]) 1 ∧
    (∀ a, (![2, 1] : Fin 2 → Nat) a * (![20, 3] : Fin 2 → Nat) a = (![1, 1] : Fin 2 → Nat) a * (![40, 3] : Fin 2 → Nat) a) ∧
    Starts (exConf 2 ![2, 1] ![20, 3]) (sys2 (exConf 2 ![2, 1] ![20, 3])).npatches (exConf 2 ![2, 1] ![20, 3]).coord2 1 (x 0) (exWorld 2) ∧
    Starts (exConf 2 ![1, 1] ![40, 3]) (sys2 (exConf 2 ![1, 1] ![40, 3])).npatches (exConf 2 ![1, 1] ![40, 3]).coord2 1 (x' 0) (exEmpty 2) ∧
    Run (sys2 (exConf 2 ![2, 1] ![20, 3])) (fun i t => (i + t) % 2) x ∧ Run (sys2 (exConf 2 ![1, 1] ![40, 3])) (fun _ _ => 0) x' ∧
    Region (fun a => (![2, 1] : Fin 2 → Nat) a * (![20, 3] : Fin 2 → Nat) a) exRegion ∧
    SameOn exRegion (exConf 2 ![2, 1] ![20, 3]) (sys2 (exConf 2 ![2, 1] ![20, 3])).npatches (exConf 2 ![2, 1] ![20, 3]).coord2 (x 0)
      (exConf 2 ![1, 1] ![40, 3]) (sys2 (exConf 2 ![1, 1] ![40, 3])).npatches (exConf 2 ![1, 1] ![40, 3]).coord2 (x' 0) ∧
    inner (8 * 1) exRegion ![19, 2] ∧ ¬ exRegion ![1, 1] := by
  have a1 : Admissible (exConf 2 ![2, 1] ![20, 3]) 1 :=
    exConf_ok (fun a => match a with | 0 => by decide | 1 => by decide) (fun a => match a with | 0 => by decide | 1 => by decide)
  have a2 : Admissible (exConf 2 ![1, 1] ![40, 3]) 1 :=
    exConf_ok (fun a => match a with | 0 => by decide | 1 => by decide) (fun a => match a with | 0 => by decide | 1 => by decide)
  have s1 := exStarts (np := ![2, 1]) (n := ![20, 3]) (N := (sys2 (exConf 2 ![2, 1] ![20, 3])).npatches)
    (co := (exConf 2 ![2, 1] ![20, 3]).coord2) (fun a => match a with | 0 => by decide | 1 => by decide) (by decide)
    (by funext a; match a with | 0 => rfl | 1 => rfl) false
  have s2 := exEmptyStarts (np := ![1, 1]) (n := ![40, 3]) (N := (sys2 (exConf 2 ![1, 1] ![40, 3])).npatches)
    (co := (exConf 2 ![1, 1] ![40, 3]).coord2) true
  obtain ⟨x, e1, r1⟩ := runs2 a1 s1 (fun i t => (i + t) % 2)
  obtain ⟨x', e2, r2⟩ := runs2 a2 s2 (fun _ _ => 0)
  have hout : ¬ exRegion (cellOf (fun _ => 1) fun _ => 1) := by
    have : cellOf (fun _ : Fin 2 => 1) (fun _ => 1) = fun _ => 1 := by
      funext a
      show ⌊(1 : ℚ) / 1 + 1 / 2⌋ = 1
      norm_num
    rw [this]
    exact fun h => absurd h.1 (by decide)
  have hreg : Region (fun a => (![2, 1] : Fin 2 → Nat) a * (![20, 3] : Fin 2 → Nat) a) exRegion := by
    intro c c' h
    have h0 : c 0 % 40 = c' 0 % 40 := h 0
    unfold exRegion
    rw [h0]
  refine ⟨x, x', a1, a2, fun a => match a with | 0 => rfl | 1 => rfl, e1 ▸ s1, e2 ▸ s2, r1, r2, hreg, ?_, ?_, fun h => absurd h.1 (by decide)⟩
  · have s1' := s1
    have s2' := s2
    rw [← e1] at s1'
    rw [← e2] at s2'
    refine same_on (C' := exConf 2 ![1, 1] ![40, 3]) a1.cell s1' s2' (fun a => match a with | 0 => rfl | 1 => rfl) rfl hreg ⟨fun _ _ _ => ⟨rfl, rfl, rfl⟩, .cons ⟨rfl, .of_perm ?_⟩ .nil⟩
    dsimp only
    rw [List.filter_cons_of_neg (by simp only [decide_eq_true_eq]; exact hout)]
  · intro c h
    have := abs_le.mp (h 0)
    have h0 : -((8 * 1 : Nat) : Int) ≤ c 0 - 19 ∧ c 0 - 19 ≤ ((8 * 1 : Nat) : Int) := this
    unfold exRegion
    omega

/-- cells 10 to 29 of 40 along the first axis -/
def exRegion3 (c : Fin 3 → Int) : Prop := 10 ≤ c 0 % 40 ∧ c 0 % 40 < 30

/-- 3D: the same on the unified path; the two runs agree at the beginning on cells 10
to 29 of 40; a step later they agree at least on cells 18 to 21 -/
example : ∃ x x' : Nat → St 3,
    Admissible (exConf 3 ![2, 1, 1] ![20, 3, 3]) 1 ∧ Admissible (exConf 3 ![1, 1, 1] ![40, 3, 3]) 1 ∧
    (∀ a ∈ (x 0).parts, a.1.unified = true) ∧ (∀ a ∈ (x' 0).parts, a.1.unified = true) ∧
    (∀ a, (![2, 1, 1] : Fin 3 → Nat) a * (![20, 3, 3] : Fin 3 → Nat) a = (![1, 1, 1] : Fin 3 → Nat) a * (![40, 3, 3] : Fin 3 → Nat) a) ∧
    Starts (exConf 3 ![2, 1, 1] ![20, 3, 3]) (sys3 (exConf 3 ![2, 1, 1] ![20, 3, 3])).npatches (exConf 3 ![2, 1, 1] ![20, 3, 3]).coord3 1 (x 0) (exWorld 3) ∧
    Starts (exConf 3 ![1, 1, 1] ![40, 3, 3]) (sys3 (exConf 3 ![1, 1, 1] ![40, 3, 3])).npatches (exConf 3 ![1, 1, 1] ![40, 3, 3]).coord3 1 (x' 0) (exEmpty 3) ∧
    Run (sys3 (exConf 3 ![2, 1, 1] ![20, 3, 3])) (fun i t => (i + t) % 2) x ∧ Run (sys3 (exConf 3 ![1, 1, 1] ![40, 3, 3])) (fun _ _ => 0) x' ∧
    Region (fun a => (![2, 1, 1] : Fin 3 → Nat) a * (![20, 3, 3] : Fin 3 → Nat) a) exRegion3 ∧
    SameOn exRegion3 (exConf 3 ![2, 1, 1] ![20, 3, 3]) (sys3 (exConf 3 ![2, 1, 1] ![20, 3, 3])).npatches (exConf 3 ![2, 1, 1] ![20, 3, 3]).coord3 (x 0)
      (exConf 3 ![1, 1, 1] ![40, 3, 3]) (sys3 (exConf 3 ![1, 1, 1] ![40, 3, 3])).npatches (exConf 3 ![1, 1, 1] ![40, 3, 3]).coord3 (x' 0) ∧
    inner (8 * 1) exRegion3 ![19, 2, 2] ∧ ¬ exRegion3 ![1, 1, 1] := by
  have a1 : Admissible (exConf 3 ![2, 1, 1] ![20, 3, 3]) 1 :=
    exConf_ok (fun a => match a with | 0 => by decide | 1 => by decide | 2 => by decide) (fun a => match a with | 0 => by decide | 1 => by decide | 2 => by decide)
  have a2 : Admissible (exConf 3 ![1, 1, 1] ![40, 3, 3]) 1 :=
    exConf_ok (fun a => match a with | 0 => by decide | 1 => by decide | 2 => by decide) (fun a => match a with | 0 => by decide | 1 => by decide | 2 => by decide)
  have s1 := exStarts (np := ![2, 1, 1]) (n := ![20, 3, 3]) (N := (sys3 (exConf 3 ![2, 1, 1] ![20, 3, 3])).npatches)
    (co := (exConf 3 ![2, 1, 1] ![20, 3, 3]).coord3) (fun a => match a with | 0 => by decide | 1 => by decide | 2 => by decide) (by decide)
    (by funext a; match a with | 0 => rfl | 1 => rfl | 2 => rfl) true
  have s2 := exEmptyStarts (np := ![1, 1, 1]) (n := ![40, 3, 3]) (N := (sys3 (exConf 3 ![1, 1, 1] ![40, 3, 3])).npatches)
    (co := (exConf 3 ![1, 1, 1] ![40, 3, 3]).coord3) true
  have u1 : ∀ a ∈ (exState 3 true).parts, a.1.unified = true := by
    intro a ha
    rcases List.mem_singleton.mp ha with rfl
    rfl
  have u2 : ∀ a ∈ (exEmptyState 3 true).parts, a.1.unified = true := by
    intro a ha
    rcases List.mem_singleton.mp ha with rfl
    rfl
  obtain ⟨x, e1, r1⟩ := runs3 a1 s1 u1 (fun i t => (i + t) % 2)
  obtain ⟨x', e2, r2⟩ := runs3 a2 s2 u2 (fun _ _ => 0)
  have hout : ¬ exRegion3 (cellOf (fun _ => 1) fun _ => 1) := by
    have : cellOf (fun _ : Fin 3 => 1) (fun _ => 1) = fun _ => 1 := by
      funext a
      show ⌊(1 : ℚ) / 1 + 1 / 2⌋ = 1
      norm_num
    rw [this]
    exact fun h => absurd h.1 (by decide)
  have hreg : Region (fun a => (![2, 1, 1] : Fin 3 → Nat) a * (![20, 3, 3] : Fin 3 → Nat) a) exRegion3 := by
    intro c c' h
    have h0 : c 0 % 40 = c' 0 % 40 := h 0
    unfold exRegion3
    rw [h0]
  refine ⟨x, x', a1, a2, e1 ▸ u1, e2 ▸ u2, fun a => match a with | 0 => rfl | 1 => rfl | 2 => rfl, e1 ▸ s1, e2 ▸ s2, r1, r2, hreg, ?_, ?_, fun h => absurd h.1 (by decide)⟩
  · have s1' := s1
    have s2' := s2
    rw [← e1] at s1'
    rw [← e2] at s2'
    refine same_on (C' := exConf 3 ![1, 1, 1] ![40, 3, 3]) a1.cell s1' s2' (fun a => match a with | 0 => rfl | 1 => rfl | 2 => rfl) rfl hreg ⟨fun _ _ _ => ⟨rfl, rfl, rfl⟩, .cons ⟨rfl, .of_perm ?_⟩ .nil⟩
    dsimp only
    rw [List.filter_cons_of_neg (by simp only [decide_eq_true_eq]; exact hout)]
  · intro c h
    have := abs_le.mp (h 0)
    have h0 : -((8 * 1 : Nat) : Int) ≤ c 0 - 19 ∧ c 0 - 19 ≤ ((8 * 1 : Nat) : Int) := this
    unfold exRegion3
    omega

end Verif.Causal
