import Verif.Proofs.Away
import Verif.Props.WholePml
import Verif.Props.Causal
/-!
# C114 — away from the absorbing layers a run does not depend on the layers

Specification vocabulary: `Verif/Spec/Away.lean` (`Clear`), `Verif/Spec/Causal.lean` (`inner`, `Region`, `within`), `Admissible` of
`Verif/Props/WholeRun.lean`, `LStarts` of `Verif/Props/WholePml.lean`, and `SameIn` below.
-/
namespace Verif.Away
open Verif.Maxwell Verif.SyncFields Verif.Pusher Verif.Deposit Verif.WholeRun Verif.Symmetry Verif.Causal
open Verif.Cpml (Whole Grid Inits2 Inits3)
open Verif.WholePml (LWorld LSt LConf LAgrees LStarts LRun2 LRun3 lsys2 lsys3 lphys2 lphys3 undividedRun2 undividedRun3)

section Gen
variable {k : Nat}

/-- Specification: two states of the program, on patches and with layers that may differ, show the same on a region: own cells that
lie on the same cell of the region hold the same E, B and currents, and the particles in the region are the same, up to order and
whole lengths of the domain -/
structure SameIn (R : (Fin k → Int) → Prop) (C : LConf k) (N : Nat) (co : Nat → Fin k → Nat) (x : LSt k) (C' : LConf k) (N' : Nat)
    (co' : Nat → Fin k → Nat) (x' : LSt k) : Prop where
  cells : ∀ t, t < N → ∀ t', t' < N' → ∀ v v', Stored C.n 0 v → Stored C'.n 0 v' →
    onGrid C.n (co t) v = onGrid C'.n (co' t') v' → R (onGrid C.n (co t) v) → ∀ f,
    (x.dom.fld t).e f (index C.n C.ng v) = (x'.dom.fld t').e f (index C'.n C'.ng v') ∧
    (x.dom.fld t).b f (index C.n C.ng v) = (x'.dom.fld t').b f (index C'.n C'.ng v') ∧
    (x.dom.fld t).j f (index C.n C.ng v) = (x'.dom.fld t').j f (index C'.n C'.ng v')
  species : SameCloud (fun i => C.np i * C.n i * C.par.d i) (within C.par.d R (cloudOf N x.parts)) (within C.par.d R (cloudOf N' x'.parts))

/-- Specification: two configurations of the same domain, that may differ in their patches, in their guard cells, in which axes absorb and in
the number, strength and profile of the cells of their layers -/
structure SameDomain (C C' : LConf k) : Prop where
  cells : ∀ a, C'.np a * C'.n a = C.np a * C.n a
  par : C'.par = C.par
  dt : C'.dt = C.dt
  rs : C'.rs = C.rs

theorem own_range {C : LConf k} {N : Nat} {co : Nat → Fin k → Nat} (ap : Begin.Apart C.conf N co) {t : Nat} (ht : t < N) {v : Fin k → Int}
    (hv : Stored C.n 0 v) (a : Fin k) : 0 ≤ onGrid C.n (co t) v a ∧ onGrid C.n (co t) v a < ((C.np a * C.n a : Nat) : Int) := by
  obtain ⟨v0, v1⟩ := hv a
  have h2 : ((co t a : Nat) : Int) + 1 ≤ C.np a := by exact_mod_cast ap.lt t ht a
  have h3 : (((co t a : Nat) : Int) + 1) * C.n a ≤ C.np a * C.n a := mul_le_mul_of_nonneg_right h2 (by positivity)
  have v0' : 0 ≤ v a := by simpa using v0
  have v1' : v a < C.n a := by simpa using v1
  unfold onGrid
  push_cast
  constructor
  · positivity
  · linarith

theorem shown {C : LConf k} {N : Nat} {co : Nat → Fin k → Nat} (ap : Begin.Apart C.conf N co) {x : LSt k} {U : LWorld k}
    (h : LAgrees C N co x U) {t : Nat} (ht : t < N) {v : Fin k → Int} (hv : Stored C.n 0 v) (f : Fin 3) :
    (x.dom.fld t).e f (index C.n C.ng v) = (fake C.whole U).fld.e f (onGrid C.n (co t) v) ∧
    (x.dom.fld t).b f (index C.n C.ng v) = (fake C.whole U).fld.b f (onGrid C.n (co t) v) ∧
    (x.dom.fld t).j f (index C.n C.ng v) = (fake C.whole U).fld.j f (onGrid C.n (co t) v) := by
  have e : wrap C.whole (onGrid C.n (co t) v) = onGrid C.n (co t) v := wrap_self fun a _ => own_range ap ht hv a
  have hs : Stored C.n C.ng v := Begin.own_stored (C := C.conf) hv
  unfold fake fk
  dsimp only
  rw [e]
  exact ⟨h.e t ht f v hs, h.b t ht f v hs, h.j t ht f v hv⟩

/-- particles that are the same up to lengths of the periodic axes are the same up to lengths of all axes -/
theorem same_more {L L' : Fin k → ℚ} (hL : ∀ i, L i = 0 ∨ L i = L' i) {a b : List (Kind × List (Ptc k))} (h : SameCloud L a b) :
    SameCloud L' a b := by
  refine List.Forall₂.imp (fun s s' hs => ⟨hs.1, ?_⟩) h
  obtain ⟨b', hp, hf⟩ := hs.2
  refine ⟨b', hp, List.Forall₂.imp (fun p q hpq => ⟨hpq.1, fun i => ?_⟩) hf⟩
  obtain ⟨z, hz⟩ := hpq.2 i
  rcases hL i with h0 | h0
  · exact ⟨0, by rw [hz, h0]; simp⟩
  · exact ⟨z, by rw [hz, h0]⟩

theorem cloud_len {C : LConf k} {N : Nat} {co : Nat → Fin k → Nat} {x : LSt k} {U : LWorld k} (h : LAgrees C N co x U) :
    SameCloud (fun i => (C.np i * C.n i * C.par.d i : ℚ)) (cloudOf N x.parts) U.cloud :=
  same_more (fun i => by
    split
    · exact .inl rfl
    · exact .inr rfl) h.species

theorem slow_l {C : LConf k} {N : Nat} {co : Nat → Fin k → Nat} {β : ℚ} (hC : Admissible C.conf β) {x : LSt k} {U : LWorld k}
    (h : LAgrees C N co x U) (hin : Inside C.conf N co β ⟨x.dom.fld, x.parts⟩) : Slow C.par.d C.dt U.cloud := by
  have := SameCloud.moms h.species (P := fun m => ∀ i : Fin k, |m.invGamma * uAt m i| ≤ β)
    (Reverse.slot_of (x := ⟨x.dom.fld, x.parts⟩) (P := fun m => ∀ i : Fin k, |m.invGamma * uAt m i| ≤ β)
      fun a ha t ht s hs hd => (hin a ha t ht s hs hd).choose_spec.2.2)
  exact fun s hs p hp i => vel_dt (hC.courant i) (this s hs p hp i)

theorem box_l {C : LConf k} {N : Nat} {co : Nat → Fin k → Nat} {β : ℚ} (hC : Admissible C.conf β) (ap : Begin.Apart C.conf N co)
    {x : LSt k} {U : LWorld k} (h : LAgrees C N co x U) (hin : Inside C.conf N co β ⟨x.dom.fld, x.parts⟩) :
    InBox C.whole C.par.d U.cloud := by
  have key := WholePml.SameCloud.places h.species.symm
    (P := fun y => ∀ a, C.pml a = true → 0 ≤ cellOf C.par.d y a ∧ cellOf C.par.d y a ≤ ((C.np a * C.n a : Nat) : Int))
    (fun y z hyz hz a hp => by
      obtain ⟨w, hw⟩ := hyz a
      rw [if_pos hp, mul_zero, add_zero] at hw
      unfold cellOf
      rw [hw]
      exact hz a hp) ?_
  · exact key
  · intro s hs p hp a hpa
    obtain ⟨b, hb, rfl⟩ := List.mem_map.mp hs
    obtain ⟨t, ht, hp⟩ := List.mem_flatMap.mp hp
    obtain ⟨sl, hsl, he⟩ := List.mem_filterMap.mp hp
    unfold ptc at he
    split at he
    · cases he
    · rename_i hd
      obtain ⟨v, hv, rfl⟩ := Option.map_eq_some_iff.mp he
      obtain ⟨w, hw, hw2, _⟩ := hin b hb t (List.mem_range.mp ht) sl hsl (by simpa using hd)
      rw [hv] at hw
      obtain rfl := Option.some.inj hw
      obtain ⟨q1, q2⟩ := hw2 a
      have hd0 : 0 < C.par.d a := hC.cell a
      have h2 : ((co t a : Nat) : ℚ) + 1 ≤ C.np a := by exact_mod_cast ap.lt t (List.mem_range.mp ht) a
      have h3 : (((co t a : Nat) : ℚ) + 1) * C.n a ≤ C.np a * C.n a := mul_le_mul_of_nonneg_right h2 (by positivity)
      have q1' : (co t a * C.n a : ℚ) - 1 / 2 ≤ v a / C.par.d a := by
        rw [le_div_iff₀ hd0]
        have : (co t a * C.n a : ℚ) * C.par.d a - C.par.d a / 2 ≤ v a := q1
        linarith
      have q2' : v a / C.par.d a ≤ (co t a * C.n a : ℚ) + C.n a - 1 / 2 := by
        rw [div_le_iff₀ hd0]
        have : v a ≤ (co t a * C.n a : ℚ) * C.par.d a + C.n a * C.par.d a - C.par.d a / 2 := q2
        linarith
      have p0 : (0 : ℚ) ≤ co t a * C.n a := by positivity
      unfold cellOf
      constructor
      · apply Int.floor_nonneg.mpr
        linarith
      · apply Int.floor_le_iff.mpr
        push_cast
        linarith

/-- states that show the same on a region show undivided simulations that agree there, and conversely -/
theorem agree_in {C C' : LConf k} (hD : SameDomain C C') {N N' : Nat} {co co' : Nat → Fin k → Nat} {x x' : LSt k} {U U' : LWorld k}
    (hcell : ∀ a, 0 < C.par.d a) (ap : Begin.Apart C.conf N co) (ap' : Begin.Apart C'.conf N' co')
    (hc : Begin.Covered C.conf N co) (hc' : Begin.Covered C'.conf N' co')
    (h : LAgrees C N co x U) (h' : LAgrees C' N' co' x' U')
    (hper : (fake C.whole U).fld.Per C.np C.n) (hper' : (fake C'.whole U').fld.Per C.np C.n)
    {R : (Fin k → Int) → Prop} (hR : Region (fun a => C.np a * C.n a) R) (ha : SameIn R C N co x C' N' co' x') :
    AgreeOn (len C.np C.n C.par.d) C.par.d R (fake C.whole U) (fake C'.whole U') := by
  have hL : (fun i => (C'.np i * C'.n i * C'.par.d i : ℚ)) = fun i => C.np i * C.n i * C.par.d i := by
    funext i
    rw [hD.par, ← Nat.cast_mul, ← Nat.cast_mul, hD.cells i]
  refine ⟨?_, ?_⟩
  · intro c hr f
    obtain ⟨t, ht, v, hv, e⟩ := hc c
    obtain ⟨t', ht', v', hv', e'⟩ := hc' c
    have e0 : ∀ a, onGrid C.n (co t) v a ≡ c a [ZMOD (C.np a * C.n a : Int)] := e
    have e2 : ∀ a, onGrid C'.n (co' t') v' a ≡ c a [ZMOD (C.np a * C.n a : Int)] := fun a => by
      have h2 : (C'.np a * C'.n a : Int) = C.np a * C.n a := by exact_mod_cast hD.cells a
      rw [← h2]
      exact e' a
    have hr' : R (onGrid C.n (co t) v) := (hR _ c fun a => by simpa using e0 a).mpr hr
    have e3 : onGrid C.n (co t) v = onGrid C'.n (co' t') v' := by
      funext a
      have m := (e0 a).trans (e2 a).symm
      obtain ⟨r1, r2⟩ := own_range ap ht hv a
      obtain ⟨s1, s2⟩ := own_range ap' ht' hv' a
      rw [hD.cells a] at s2
      push_cast at r2 s2
      unfold Int.ModEq at m
      rwa [Int.emod_eq_of_lt r1 r2, Int.emod_eq_of_lt s1 s2] at m
    obtain ⟨b1, b2, b3⟩ := ha.cells t ht t' ht' v v' hv hv' e3 hr' f
    obtain ⟨g1, g2, g3⟩ := shown ap h ht hv f
    obtain ⟨k1, k2, k3⟩ := shown ap' h' ht' hv' f
    refine ⟨?_, ?_, ?_⟩
    · rw [← hper.e f _ c e0, ← hper'.e f _ c e2, ← g1, ← k1, b1]
    · rw [← hper.b f _ c e0, ← hper'.b f _ c e2, ← g2, ← k2, b2]
    · rw [← hper.j f _ c e0, ← hper'.j f _ c e2, ← g3, ← k3, b3]
  · have h1 := within_same (np := C.np) (n := C.n) hcell hR (cloud_len h)
    have h2 := cloud_len h'
    rw [hL] at h2
    exact h1.symm.trans (ha.species.trans (within_same (np := C.np) (n := C.n) hcell hR h2))

theorem same_in {C C' : LConf k} (hD : SameDomain C C') {N N' : Nat} {co co' : Nat → Fin k → Nat} {x x' : LSt k} {U U' : LWorld k}
    (hcell : ∀ a, 0 < C.par.d a) (ap : Begin.Apart C.conf N co) (ap' : Begin.Apart C'.conf N' co')
    (h : LAgrees C N co x U) (h' : LAgrees C' N' co' x' U') {R : (Fin k → Int) → Prop} (hR : Region (fun a => C.np a * C.n a) R)
    (ha : AgreeOn (len C.np C.n C.par.d) C.par.d R (fake C.whole U) (fake C'.whole U')) : SameIn R C N co x C' N' co' x' := by
  have hL : (fun i => (C'.np i * C'.n i * C'.par.d i : ℚ)) = fun i => C.np i * C.n i * C.par.d i := by
    funext i
    rw [hD.par, ← Nat.cast_mul, ← Nat.cast_mul, hD.cells i]
  refine ⟨?_, ?_⟩
  · intro t ht t' ht' v v' hv hv' he hr f
    obtain ⟨a1, a2, a3⟩ := ha.fields _ hr f
    obtain ⟨g1, g2, g3⟩ := shown ap h ht hv f
    obtain ⟨k1, k2, k3⟩ := shown ap' h' ht' hv' f
    rw [g1, g2, g3, k1, k2, k3, ← he]
    exact ⟨a1, a2, a3⟩
  · have h1 := within_same (np := C.np) (n := C.n) hcell hR (cloud_len h)
    have h2 := cloud_len h'
    rw [hL] at h2
    exact h1.trans (ha.species.trans (within_same (np := C.np) (n := C.n) hcell hR h2).symm)

theorem start_per {C C' : LConf k} (hN : ∀ a, C'.np a * C'.n a = C.np a * C.n a) {U : LWorld k} (h : C'.whole.Starts U.grid) :
    (fake C'.whole U).fld.Per C.np C.n := fake_per (W := C'.whole) hN h.e h.b h.j
end Gen

/-- C114: two 2D runs on the same domain, with any patches, rank layouts, schedules, orders and paths of the push, of which each may
have absorbing or periodic axes and layers of any thickness and strength. If they begin with the same fields, currents and particles
in the cells of a region that has no cell of a layer of either, whatever they have elsewhere, then after `i` steps they show the same
in all cells of the region that are `8 i` cells inside. -/
theorem away2 {C C' : LConf 2} {β : ℚ} (hC : Admissible C.conf β) (hC' : Admissible C'.conf β) (hth : 0 < C.thick) (hth' : 0 < C'.thick)
    (hD : SameDomain C C') {U U' : LWorld 2} {rk rk' : Nat → Nat → Nat} {x x' : Nat → LSt 2}
    (hi : Inits2 C.toPConf (x 0).dom.lay) (hi' : Inits2 C'.toPConf (x' 0).dom.lay)
    (h0 : LStarts C (lsys2 C).npatches C.coord2 β (x 0) U) (h0' : LStarts C' (lsys2 C').npatches C'.coord2 β (x' 0) U')
    (hrun : LRun2 C rk x) (hrun' : LRun2 C' rk' x') {R : (Fin 2 → Int) → Prop} (hR : Region (fun a => C.np a * C.n a) R)
    (hcl : ∀ c, R c → Clear C.whole c ∧ Clear C'.whole c)
    (ha : SameIn R C (lsys2 C).npatches C.coord2 (x 0) C' (lsys2 C').npatches C'.coord2 (x' 0)) (i : Nat) :
    SameIn (inner (8 * i) R) C (lsys2 C).npatches C.coord2 (x i) C' (lsys2 C').npatches C'.coord2 (x' i) := by
  have h := fun i => WholePml.run_is_undivided2 hC hth hi h0 hrun i
  have h' := fun i => WholePml.run_is_undivided2 hC' hth' hi' h0' hrun' i
  have ap := Begin.apart2 C.conf
  have ap' := Begin.apart2 C'.conf
  have hpos : ∀ a, 0 < C.np a * C.n a := fun a => lt_of_lt_of_le (by omega) (Reverse.cells_two hC a)
  have hcell : ∀ a, 0 < C.par.d a := hC.cell
  refine same_in hD hcell ap ap' (h i).1 (h' i).1 (inner_region hR _) ?_
  have L := law2 C.whole C.np C.n (fun _ => rfl) hpos hC.cell (dt := C.dt) hC.step C.rs hC.speed hC.root hC.courant
  have L' := law2 C'.whole C.np C.n hD.cells (fun a => by show 0 < C'.np a * C'.n a; rw [hD.cells a]; exact hpos a) hC'.cell (dt := C'.dt) hC'.step C'.rs hC'.speed hC'.root hC'.courant
  have ed : C'.whole.par = C.par := hD.par
  have e1 : phys2 (fun a => C.np a * C.n a) C'.whole.par.d C'.whole.par.c2 C'.whole.par.eps0 C'.dt C'.rs
      = phys2 (fun a => C.np a * C.n a) C.whole.par.d C.whole.par.c2 C.whole.par.eps0 C.dt C.rs := by
    rw [ed, hD.dt, hD.rs]
    rfl
  rw [e1, ed] at L'
  refine away_both (U := U) (U' := U') L L' hth hth' hcell rfl (show C.par.d = C'.whole.par.d by rw [ed]) hR hcl hpos (fun i => slow_l hC (h i).1 (h i).2) (fun i => ?_)
    (fun i => box_l hC ap (h i).1 (h i).2) (fun i => ?_) (start_per hD.cells h0'.grid)
    (agree_in hD hcell ap ap' (Begin.covered2 hC) (Begin.covered2 hC') h0.agrees h0'.agrees (start_per (fun _ => rfl) h0.grid)
      (start_per hD.cells h0'.grid) hR ha) i
  · have := slow_l hC' (h' i).1 (h' i).2
    rw [hD.par, hD.dt] at this
    exact this
  · have := box_l hC' ap' (h' i).1 (h' i).2
    rw [hD.par] at this
    exact this

/-- C114 in 3D for two patches or more on absorbing axes and species on the unified path. Missing for the full property: a single
patch on an absorbing axis, where the code loses the stretching of a layer, and species on the split path, which the code does not
move. -/
theorem away3_partial {C C' : LConf 3} {β : ℚ} (hC : Admissible C.conf β) (hC' : Admissible C'.conf β) (hth : 0 < C.thick) (hth' : 0 < C'.thick)
    (htwo : ∀ a, C.pml a = true → 2 ≤ C.np a) (htwo' : ∀ a, C'.pml a = true → 2 ≤ C'.np a)
    (hD : SameDomain C C') {U U' : LWorld 3} {rk rk' : Nat → Nat → Nat} {x x' : Nat → LSt 3}
    (hi : Inits3 C.toPConf (x 0).dom.lay) (hi' : Inits3 C'.toPConf (x' 0).dom.lay)
    (h0 : LStarts C (lsys3 C).npatches C.coord3 β (x 0) U) (h0' : LStarts C' (lsys3 C').npatches C'.coord3 β (x' 0) U')
    (hu : ∀ a ∈ (x 0).parts, a.1.unified = true) (hu' : ∀ a ∈ (x' 0).parts, a.1.unified = true)
    (hrun : LRun3 C rk x) (hrun' : LRun3 C' rk' x') {R : (Fin 3 → Int) → Prop} (hR : Region (fun a => C.np a * C.n a) R)
    (hcl : ∀ c, R c → Clear C.whole c ∧ Clear C'.whole c)
    (ha : SameIn R C (lsys3 C).npatches C.coord3 (x 0) C' (lsys3 C').npatches C'.coord3 (x' 0)) (i : Nat) :
    SameIn (inner (8 * i) R) C (lsys3 C).npatches C.coord3 (x i) C' (lsys3 C').npatches C'.coord3 (x' i) := by
  have h := fun i => WholePml.run_is_undivided3_partial hC hth htwo hi h0 hu hrun i
  have h' := fun i => WholePml.run_is_undivided3_partial hC' hth' htwo' hi' h0' hu' hrun' i
  have ap := Begin.apart3 C.conf
  have ap' := Begin.apart3 C'.conf
  have hpos2 : ∀ a, 2 ≤ C.np a * C.n a := Reverse.cells_two hC
  have hpos : ∀ a, 0 < C.np a * C.n a := fun a => lt_of_lt_of_le (by omega) (hpos2 a)
  have hcell : ∀ a, 0 < C.par.d a := hC.cell
  refine same_in hD hcell ap ap' (h i).1 (h' i).1 (inner_region hR _) ?_
  have L := law3 C.whole C.np C.n (fun _ => rfl) hpos2 hC.cell (dt := C.dt) hC.step C.rs hC.speed hC.root hC.courant
  have L' := law3 C'.whole C.np C.n hD.cells (fun a => by show 2 ≤ C'.np a * C'.n a; rw [hD.cells a]; exact hpos2 a) hC'.cell (dt := C'.dt) hC'.step C'.rs hC'.speed hC'.root hC'.courant
  have ed : C'.whole.par = C.par := hD.par
  have e1 : phys3 (fun a => C.np a * C.n a) C'.whole.par.d C'.whole.par.c2 C'.whole.par.eps0 C'.dt C'.rs
      = phys3 (fun a => C.np a * C.n a) C.whole.par.d C.whole.par.c2 C.whole.par.eps0 C.dt C.rs := by
    rw [ed, hD.dt, hD.rs]
    rfl
  rw [e1, ed] at L'
  refine away_both (U := U) (U' := U') L L' hth hth' hcell rfl (show C.par.d = C'.whole.par.d by rw [ed]) hR hcl hpos (fun i => slow_l hC (h i).1 (h i).2) (fun i => ?_)
    (fun i => box_l hC ap (h i).1 (h i).2) (fun i => ?_) (start_per hD.cells h0'.grid)
    (agree_in hD hcell ap ap' (Begin.covered3 hC) (Begin.covered3 hC') h0.agrees h0'.agrees (start_per (fun _ => rfl) h0.grid)
      (start_per hD.cells h0'.grid) hR ha) i
  · have := slow_l hC' (h' i).1 (h' i).2
    rw [hD.par, hD.dt] at this
    exact this
  · have := box_l hC' ap' (h' i).1 (h' i).2
    rw [hD.par] at this
    exact this

/-! ## cases that meet the hypotheses -/

/-- the domain of `exL` with periodic axes -/
def exP (k : Nat) (np n : Fin k → Nat) : LConf k := { WholePml.exL k np n with pml := fun _ => false }

/-- the fields of `exU` without its electron -/
def exNone (k : Nat) : LWorld k := ⟨(WholePml.exU k).grid, (exEmpty k).cloud⟩
def exNoneX (k : Nat) (lay : Nat → List (Cpml.Layer k)) (un : Bool) : LSt k := ⟨⟨(exEmptyState k un).fld, lay⟩, (exEmptyState k un).parts⟩

theorem exNoneStarts {k : Nat} {np n : Fin k → Nat} {N : Nat} {co : Nat → Fin k → Nat} (lay : Nat → List (Cpml.Layer k)) (un : Bool) :
    LStarts (exP k np n) N co 1 (exNoneX k lay un) (exNone k) where
  agrees := ⟨fun _ _ _ _ _ => rfl, fun _ _ _ _ _ => rfl, fun _ _ _ _ _ => rfl, (exEmptyStarts (np := np) (n := n) (N := N) (co := co) un).agrees.species⟩
  inside := (exEmptyStarts (np := np) (n := n) (N := N) (co := co) un).inside
  grid := ⟨fun _ _ _ _ => rfl, fun _ _ _ _ => rfl, fun _ _ _ _ => rfl, fun _ _ _ => rfl, fun _ _ _ => rfl⟩

/-- 2D: a run with layers along the first axis, on two patches, of an electron at cell (1, 1), and a run on one patch of a domain that
is periodic, without it, agree at the beginning on cells 10 to 29 of 40; a step later they agree at least on cells 18 to 21 -/
example : ∃ x x' : Nat → LSt 2,
    Admissible (WholePml.exL 2 ![2, 1] ![20, 3]).conf 1 ∧ Admissible (exP 2 ![1, 1] ![40, 3]).conf 1 ∧
    SameDomain (WholePml.exL 2 ![2, 1] ![20, 3]) (exP 2 ![1, 1] ![40, 3]) ∧
    Inits2 (WholePml.exL 2 ![2, 1] ![20, 3]).toPConf (x 0).dom.lay ∧ Inits2 (exP 2 ![1, 1] ![40, 3]).toPConf (x' 0).dom.lay ∧
    LStarts (WholePml.exL 2 ![2, 1] ![20, 3]) (lsys2 (WholePml.exL 2 ![2, 1] ![20, 3])).npatches (WholePml.exL 2 ![2, 1] ![20, 3]).coord2 1
      (x 0) (WholePml.exU 2) ∧
    LStarts (exP 2 ![1, 1] ![40, 3]) (lsys2 (exP 2 ![1, 1] ![40, 3])).npatches (exP 2 ![1, 1] ![40, 3]).coord2 1 (x' 0) (exNone 2) ∧
    LRun2 (WholePml.exL 2 ![2, 1] ![20, 3]) (fun i t => (i + t) % 2) x ∧ LRun2 (exP 2 ![1, 1] ![40, 3]) (fun _ _ => 0) x' ∧
    Region (fun a => (![2, 1] : Fin 2 → Nat) a * (![20, 3] : Fin 2 → Nat) a) exRegion ∧
    (∀ c, exRegion c → Clear (WholePml.exL 2 ![2, 1] ![20, 3]).whole c ∧ Clear (exP 2 ![1, 1] ![40, 3]).whole c) ∧
    SameIn exRegion (WholePml.exL 2 ![2, 1] ![20, 3]) (lsys2 (WholePml.exL 2 ![2, 1] ![20, 3])).npatches
      (WholePml.exL 2 ![2, 1] ![20, 3]).coord2 (x 0) (exP 2 ![1, 1] ![40, 3]) (lsys2 (exP 2 ![1, 1] ![40, 3])).npatches
      (exP 2 ![1, 1] ![40, 3]).coord2 (x' 0) ∧
    inner (8 * 1) exRegion ![19, 2] ∧ ¬ exRegion ![1, 1] := by
  have a1 : Admissible (WholePml.exL 2 ![2, 1] ![20, 3]).conf 1 := WholeRun.exConf_ok (np := ![2, 1]) (n := ![20, 3])
    (fun a => match a with | 0 => by decide | 1 => by decide) (fun a => match a with | 0 => by decide | 1 => by decide)
  have a2 : Admissible (exP 2 ![1, 1] ![40, 3]).conf 1 := WholeRun.exConf_ok (np := ![1, 1]) (n := ![40, 3])
    (fun a => match a with | 0 => by decide | 1 => by decide) (fun a => match a with | 0 => by decide | 1 => by decide)
  have i1 : Inits2 (WholePml.exL 2 ![2, 1] ![20, 3]).toPConf (Cpml.exLay (WholePml.exL 2 ![2, 1] ![20, 3]).toPConf) := Cpml.exInits _ (by decide +kernel)
  have i2 : Inits2 (exP 2 ![1, 1] ![40, 3]).toPConf (Cpml.exLay (exP 2 ![1, 1] ![40, 3]).toPConf) := Cpml.exInits _ (by decide +kernel)
  have s1 := WholePml.exLStarts (np := ![2, 1]) (n := ![20, 3]) (N := (lsys2 (WholePml.exL 2 ![2, 1] ![20, 3])).npatches)
    (co := (WholePml.exL 2 ![2, 1] ![20, 3]).coord2) (fun a => match a with | 0 => by decide | 1 => by decide) (by decide)
    (by funext a; match a with | 0 => rfl | 1 => rfl) (Cpml.exLay (WholePml.exL 2 ![2, 1] ![20, 3]).toPConf) false
  have s2 := exNoneStarts (np := ![1, 1]) (n := ![40, 3]) (N := (lsys2 (exP 2 ![1, 1] ![40, 3])).npatches)
    (co := (exP 2 ![1, 1] ![40, 3]).coord2) (Cpml.exLay (exP 2 ![1, 1] ![40, 3]).toPConf) true
  obtain ⟨x, e1, r1⟩ := WholePml.runs2 a1 (by decide) i1 s1 (fun i t => (i + t) % 2)
  obtain ⟨x', e2, r2⟩ := WholePml.runs2 a2 (by decide) i2 s2 (fun _ _ => 0)
  have hD : SameDomain (WholePml.exL 2 ![2, 1] ![20, 3]) (exP 2 ![1, 1] ![40, 3]) :=
    ⟨fun a => match a with | 0 => rfl | 1 => rfl, rfl, rfl, rfl⟩
  have hout : ¬ exRegion (cellOf (fun _ => 1) fun _ => 1) := by
    have : cellOf (fun _ : Fin 2 => 1) (fun _ => 1) = fun _ => 1 := by
      funext a
      show ⌊(1 : ℚ) / 1 + 1 / 2⌋ = 1
      norm_num
    rw [this]
    exact fun h => absurd h.1 (by decide)
  have hreg : Region (fun a => (![2, 1] : Fin 2 → Nat) a * (![20, 3] : Fin 2 → Nat) a) exRegion := by
    intro c c' h
    have h0 : c 0 % 40 = c' 0 % 40 := h 0
    unfold exRegion
    rw [h0]
  refine ⟨x, x', a1, a2, hD, e1 ▸ i1, e2 ▸ i2, e1 ▸ s1, e2 ▸ s2, r1, r2, hreg, ?_, ?_, ?_, fun h => absurd h.1 (by decide)⟩
  · intro c hc
    refine ⟨fun a ha => ?_, fun a ha => by cases ha⟩
    match a with
    | 0 =>
      show (1 : Int) ≤ c 0 % 40 ∧ c 0 % 40 + 1 + 1 < 40
      unfold exRegion at hc
      omega
    | 1 => cases ha
  · rw [e1, e2]
    refine same_in hD a1.cell (Begin.apart2 _) (Begin.apart2 _) s1.agrees s2.agrees hreg ⟨fun _ _ _ => ⟨rfl, rfl, rfl⟩, .cons ⟨rfl, .of_perm ?_⟩ .nil⟩
    dsimp only
    rw [List.filter_cons_of_neg (by simp only [decide_eq_true_eq]; exact hout)]
  · intro c h
    have := abs_le.mp (h 0)
    have h0 : -((8 * 1 : Nat) : Int) ≤ c 0 - 19 ∧ c 0 - 19 ≤ ((8 * 1 : Nat) : Int) := this
    unfold exRegion
    omega

/-- the layers the set-up makes -/
def lay3 (C : Cpml.PConf 3) (t : Nat) : List (Cpml.Layer 3) := (Cpml.initPml3 C.np C.n (C.coord3 t) (fun a _ => C.pml a) C.thick C.smax).getD []

theorem inits3 (C : Cpml.PConf 3)
    (h : ∀ t, t < (Cpml.pmlSys3 C).npatches → (Cpml.initPml3 C.np C.n (C.coord3 t) (fun a _ => C.pml a) C.thick C.smax).isSome = true) :
    Inits3 C (lay3 C) := by
  intro t ht
  have := h t ht
  unfold lay3
  cases e : Cpml.initPml3 C.np C.n (C.coord3 t) (fun a _ => C.pml a) C.thick C.smax with
  | none => rw [e] at this; cases this
  | some r => rfl

/-- 3D: the same on the unified path; the two runs agree at the beginning on cells 10 to 29 of 40; a step later they agree at least on cells 18 to 21 -/
example : ∃ x x' : Nat → LSt 3,
    Admissible (WholePml.exL 3 ![2, 1, 1] ![20, 3, 3]).conf 1 ∧ Admissible (exP 3 ![1, 1, 1] ![40, 3, 3]).conf 1 ∧
    (∀ a, (WholePml.exL 3 ![2, 1, 1] ![20, 3, 3]).pml a = true → 2 ≤ (WholePml.exL 3 ![2, 1, 1] ![20, 3, 3]).np a) ∧
    (∀ a, (exP 3 ![1, 1, 1] ![40, 3, 3]).pml a = true → 2 ≤ (exP 3 ![1, 1, 1] ![40, 3, 3]).np a) ∧
    (∀ a ∈ (x 0).parts, a.1.unified = true) ∧ (∀ a ∈ (x' 0).parts, a.1.unified = true) ∧
    SameDomain (WholePml.exL 3 ![2, 1, 1] ![20, 3, 3]) (exP 3 ![1, 1, 1] ![40, 3, 3]) ∧
    Inits3 (WholePml.exL 3 ![2, 1, 1] ![20, 3, 3]).toPConf (x 0).dom.lay ∧ Inits3 (exP 3 ![1, 1, 1] ![40, 3, 3]).toPConf (x' 0).dom.lay ∧
    LStarts (WholePml.exL 3 ![2, 1, 1] ![20, 3, 3]) (lsys3 (WholePml.exL 3 ![2, 1, 1] ![20, 3, 3])).npatches (WholePml.exL 3 ![2, 1, 1] ![20, 3, 3]).coord3 1
      (x 0) (WholePml.exU 3) ∧
    LStarts (exP 3 ![1, 1, 1] ![40, 3, 3]) (lsys3 (exP 3 ![1, 1, 1] ![40, 3, 3])).npatches (exP 3 ![1, 1, 1] ![40, 3, 3]).coord3 1 (x' 0) (exNone 3) ∧
    LRun3 (WholePml.exL 3 ![2, 1, 1] ![20, 3, 3]) (fun i t => (i + t) % 2) x ∧ LRun3 (exP 3 ![1, 1, 1] ![40, 3, 3]) (fun _ _ => 0) x' ∧
    Region (fun a => (![2, 1, 1] : Fin 3 → Nat) a * (![20, 3, 3] : Fin 3 → Nat) a) exRegion3 ∧
    (∀ c, exRegion3 c → Clear (WholePml.exL 3 ![2, 1, 1] ![20, 3, 3]).whole c ∧ Clear (exP 3 ![1, 1, 1] ![40, 3, 3]).whole c) ∧
    SameIn exRegion3 (WholePml.exL 3 ![2, 1, 1] ![20, 3, 3]) (lsys3 (WholePml.exL 3 ![2, 1, 1] ![20, 3, 3])).npatches
      (WholePml.exL 3 ![2, 1, 1] ![20, 3, 3]).coord3 (x 0) (exP 3 ![1, 1, 1] ![40, 3, 3]) (lsys3 (exP 3 ![1, 1, 1] ![40, 3, 3])).npatches
      (exP 3 ![1, 1, 1] ![40, 3, 3]).coord3 (x' 0) ∧
    inner (8 * 1) exRegion3 ![19, 2, 2] ∧ ¬ exRegion3 ![1, 1, 1] := by
  have a1 : Admissible (WholePml.exL 3 ![2, 1, 1] ![20, 3, 3]).conf 1 := WholeRun.exConf_ok (np := ![2, 1, 1]) (n := ![20, 3, 3])
    (fun a => match a with | 0 => by decide | 1 => by decide | 2 => by decide) (fun a => match a with | 0 => by decide | 1 => by decide | 2 => by decide)
  have a2 : Admissible (exP 3 ![1, 1, 1] ![40, 3, 3]).conf 1 := WholeRun.exConf_ok (np := ![1, 1, 1]) (n := ![40, 3, 3])
    (fun a => match a with | 0 => by decide | 1 => by decide | 2 => by decide) (fun a => match a with | 0 => by decide | 1 => by decide | 2 => by decide)
  have i1 : Inits3 (WholePml.exL 3 ![2, 1, 1] ![20, 3, 3]).toPConf (lay3 (WholePml.exL 3 ![2, 1, 1] ![20, 3, 3]).toPConf) := inits3 _ (by decide +kernel)
  have i2 : Inits3 (exP 3 ![1, 1, 1] ![40, 3, 3]).toPConf (lay3 (exP 3 ![1, 1, 1] ![40, 3, 3]).toPConf) := inits3 _ (by decide +kernel)
  have s1 := WholePml.exLStarts (np := ![2, 1, 1]) (n := ![20, 3, 3]) (N := (lsys3 (WholePml.exL 3 ![2, 1, 1] ![20, 3, 3])).npatches)
    (co := (WholePml.exL 3 ![2, 1, 1] ![20, 3, 3]).coord3) (fun a => match a with | 0 => by decide | 1 => by decide | 2 => by decide) (by decide)
    (by funext a; match a with | 0 => rfl | 1 => rfl | 2 => rfl) (lay3 (WholePml.exL 3 ![2, 1, 1] ![20, 3, 3]).toPConf) true
  have s2 := exNoneStarts (np := ![1, 1, 1]) (n := ![40, 3, 3]) (N := (lsys3 (exP 3 ![1, 1, 1] ![40, 3, 3])).npatches)
    (co := (exP 3 ![1, 1, 1] ![40, 3, 3]).coord3) (lay3 (exP 3 ![1, 1, 1] ![40, 3, 3]).toPConf) true
  have t1 : ∀ a, (WholePml.exL 3 ![2, 1, 1] ![20, 3, 3]).pml a = true → 2 ≤ (WholePml.exL 3 ![2, 1, 1] ![20, 3, 3]).np a := by decide
  have t2 : ∀ a, (exP 3 ![1, 1, 1] ![40, 3, 3]).pml a = true → 2 ≤ (exP 3 ![1, 1, 1] ![40, 3, 3]).np a := fun a ha => by cases ha
  have u1 : ∀ a ∈ (WholeRun.exState 3 true).parts, a.1.unified = true := by
    intro a ha
    rcases List.mem_singleton.mp ha with rfl
    rfl
  have u2 : ∀ a ∈ (exEmptyState 3 true).parts, a.1.unified = true := by
    intro a ha
    rcases List.mem_singleton.mp ha with rfl
    rfl
  obtain ⟨x, e1, r1⟩ := WholePml.runs3 a1 (by decide) t1 i1 s1 u1 (fun i t => (i + t) % 2)
  obtain ⟨x', e2, r2⟩ := WholePml.runs3 a2 (by decide) t2 i2 s2 u2 (fun _ _ => 0)
  have hD : SameDomain (WholePml.exL 3 ![2, 1, 1] ![20, 3, 3]) (exP 3 ![1, 1, 1] ![40, 3, 3]) :=
    ⟨fun a => match a with | 0 => rfl | 1 => rfl | 2 => rfl, rfl, rfl, rfl⟩
  have hout : ¬ exRegion3 (cellOf (fun _ => 1) fun _ => 1) := by
    have : cellOf (fun _ : Fin 3 => 1) (fun _ => 1) = fun _ => 1 := by
      funext a
      show ⌊(1 : ℚ) / 1 + 1 / 2⌋ = 1
      norm_num
    rw [this]
    exact fun h => absurd h.1 (by decide)
  have hreg : Region (fun a => (![2, 1, 1] : Fin 3 → Nat) a * (![20, 3, 3] : Fin 3 → Nat) a) exRegion3 := by
    intro c c' h
    have h0 : c 0 % 40 = c' 0 % 40 := h 0
    unfold exRegion3
    rw [h0]
  refine ⟨x, x', a1, a2, t1, t2, e1 ▸ u1, e2 ▸ u2, hD, e1 ▸ i1, e2 ▸ i2, e1 ▸ s1, e2 ▸ s2, r1, r2, hreg, ?_, ?_, ?_, fun h => absurd h.1 (by decide)⟩
  · intro c hc
    refine ⟨fun a ha => ?_, fun a ha => by cases ha⟩
    match a with
    | 0 =>
      show (1 : Int) ≤ c 0 % 40 ∧ c 0 % 40 + 1 + 1 < 40
      unfold exRegion3 at hc
      omega
    | 1 => cases ha
    | 2 => cases ha
  · rw [e1, e2]
    refine same_in hD a1.cell (Begin.apart3 _) (Begin.apart3 _) s1.agrees s2.agrees hreg ⟨fun _ _ _ => ⟨rfl, rfl, rfl⟩, .cons ⟨rfl, .of_perm ?_⟩ .nil⟩
    dsimp only
    rw [List.filter_cons_of_neg (by simp only [decide_eq_true_eq]; exact hout)]
  · intro c h
    have := abs_le.mp (h 0)
    have h0 : -((8 * 1 : Nat) : Int) ≤ c 0 - 19 ∧ c 0 - 19 ≤ ((8 * 1 : Nat) : Int) := this
    unfold exRegion3
    omega

end Verif.Away
