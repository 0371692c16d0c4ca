import Verif.Proofs.Superpose
import Verif.Props.WholePml
/-!
# C105 — without particles, fields superpose

Specification vocabulary: `Verif/Spec/Superpose.lean` (`NoParticles`), `LStarts`, `Admissible` of C69 and below (`Sums`).
-/
namespace Verif.Superpose
open Verif.Maxwell Verif.SyncFields Verif.Pusher Verif.Deposit Verif.Geometry Verif.Neighbors Verif.MpiExchange
open Verif.Cpml (PConf PDom PSys axisBC pmlSys2 pmlSys3 Whole Grid Inits2 Inits3 order2 order3)
open Verif.WholeRun (Species Kind Ptc Phys SameCloud SameParticles SamePtc cloudOf Admissible onGrid Stored Inside Bounds
  speciesLoop Sorted Sys len)
open Verif.WholePml

section Gen
variable {k : Nat} {α β : ℚ}

/-- Specification: every stored value of `E` and `B`, guard cells included, and every own cell of the currents of a state is
`α` times the value of one state plus `β` times the value of another -/
def Sums (C : LConf k) (N : Nat) (α β : ℚ) (x y z : LSt k) : Prop :=
  ∀ t, t < N → ∀ f v,
    (Stored C.n C.ng v →
      (z.dom.fld t).e f (index C.n C.ng v) = α * (x.dom.fld t).e f (index C.n C.ng v) + β * (y.dom.fld t).e f (index C.n C.ng v) ∧
      (z.dom.fld t).b f (index C.n C.ng v) = α * (x.dom.fld t).b f (index C.n C.ng v) + β * (y.dom.fld t).b f (index C.n C.ng v)) ∧
    (Stored C.n 0 v →
      (z.dom.fld t).j f (index C.n C.ng v) = α * (x.dom.fld t).j f (index C.n C.ng v) + β * (y.dom.fld t).j f (index C.n C.ng v))

/-- the grid that is the sum of two grids -/
def mixed (α β : ℚ) (F G : Grid k) : Grid k where
  e := fun d v => α * F.e d v + β * G.e d v
  b := fun d v => α * F.b d v + β * G.b d v
  j := fun d v => α * F.j d v + β * G.j d v
  psiE := fun s d v => α * F.psiE s d v + β * G.psiE s d v
  psiB := fun s d v => α * F.psiB s d v + β * G.psiB s d v

theorem mixed_superposed (F G : Grid k) : Superposed α β F G (mixed α β F G) :=
  ⟨fun _ _ => rfl, fun _ _ => rfl, fun _ _ => rfl, fun _ _ _ => rfl, fun _ _ _ => rfl⟩

theorem mixed_starts {W : Whole k} {F G : Grid k} (hF : W.Starts F) (hG : W.Starts G) : W.Starts (mixed α β F G) where
  e := fun d v w h => by unfold mixed; dsimp only; rw [hF.e d v w h, hG.e d v w h]
  b := fun d v w h => by unfold mixed; dsimp only; rw [hF.b d v w h, hG.b d v w h]
  j := fun d v w h => by unfold mixed; dsimp only; rw [hF.j d v w h, hG.j d v w h]
  psiE := fun s d v => by unfold mixed; dsimp only; rw [hF.psiE s d v, hG.psiE s d v]; ring
  psiB := fun s d v => by unfold mixed; dsimp only; rw [hF.psiB s d v, hG.psiB s d v]; ring

/-- the state that begins with the sum shows the grid that is the sum -/
theorem starts_mixed {C : LConf k} {N : Nat} {co : Nat → Fin k → Nat} {b : ℚ} {x y z : LSt k} {U V : LWorld k}
    (hx : LStarts C N co b x U) (hy : LStarts C N co b y V) (hz : NoParticles N z.parts) (hs : Sums C N α β x y z) :
    LStarts C N co b z ⟨mixed α β U.grid V.grid, cloudOf N z.parts⟩ where
  agrees :=
    { e := fun t ht f v hv => by
        rw [((hs t ht f v).1 hv).1, hx.agrees.e t ht f v hv, hy.agrees.e t ht f v hv]; rfl
      b := fun t ht f v hv => by
        rw [((hs t ht f v).1 hv).2, hx.agrees.b t ht f v hv, hy.agrees.b t ht f v hv]; rfl
      j := fun t ht f v hv => by
        rw [(hs t ht f v).2 hv, hx.agrees.j t ht f v hv, hy.agrees.j t ht f v hv]; rfl
      species := List.forall₂_same.mpr fun s _ => ⟨rfl, .of_perm (.refl _)⟩ }
  inside := fun a ha t ht s hs hd => by rw [hz a ha t ht s hs] at hd; cases hd
  grid := mixed_starts hx.grid hy.grid

/-- states that show grids of which one is the sum -/
theorem sums_of {C : LConf k} {N : Nat} {co : Nat → Fin k → Nat} {x y z : LSt k} {U V X : LWorld k}
    (hx : LAgrees C N co x U) (hy : LAgrees C N co y V) (hz : LAgrees C N co z X) (h : Superposed α β U.grid V.grid X.grid) :
    Sums C N α β x y z := by
  intro t ht f v
  refine ⟨fun hv => ⟨?_, ?_⟩, fun hv => ?_⟩
  · rw [hz.e t ht f v hv, hx.e t ht f v hv, hy.e t ht f v hv, h.e]
  · rw [hz.b t ht f v hv, hx.b t ht f v hv, hy.b t ht f v hv, h.b]
  · rw [hz.j t ht f v hv, hx.j t ht f v hv, hy.j t ht f v hv, h.j]

end Gen

/-- C105: three runs of the 2D program without particles on the same domain, periodic or with absorbing layers, each with its
own rank layout, schedules and orders. If the fields of the third begin as `α` times those of the first plus `β` times those of
the second, they are so after every number of steps, in every stored cell, also in the layers. -/
theorem superposition2 {C : LConf 2} {b α β : ℚ} (hC : Admissible C.conf b) (hth : 0 < C.thick) {U V : LWorld 2}
    {rk rk' rk'' : Nat → Nat → Nat} {x y z : Nat → LSt 2} (hix : Inits2 C.toPConf (x 0).dom.lay) (hiy : Inits2 C.toPConf (y 0).dom.lay)
    (hiz : Inits2 C.toPConf (z 0).dom.lay) (hx : LStarts C (lsys2 C).npatches C.coord2 b (x 0) U)
    (hy : LStarts C (lsys2 C).npatches C.coord2 b (y 0) V) (px : NoParticles (lsys2 C).npatches (x 0).parts)
    (py : NoParticles (lsys2 C).npatches (y 0).parts) (pz : NoParticles (lsys2 C).npatches (z 0).parts)
    (hs : Sums C (lsys2 C).npatches α β (x 0) (y 0) (z 0)) (rx : LRun2 C rk x) (ry : LRun2 C rk' y) (rz : LRun2 C rk'' z) (i : Nat) :
    Sums C (lsys2 C).npatches α β (x i) (y i) (z i) := by
  have hz := starts_mixed hx hy pz hs
  exact sums_of (run_is_undivided2 hC hth hix hx rx i).1 (run_is_undivided2 hC hth hiy hy ry i).1
    (run_is_undivided2 hC hth hiz hz rz i).1
    (run_superposed C.whole (lphys2 C.whole C.dt C.rs) (fun _ f v h => curOpen2_bare C.whole C.dt h f v)
      (bare_of hx.agrees.species px) (bare_of hy.agrees.species py) (bare_of hz.agrees.species pz) (mixed_superposed _ _) i)

/-- C105 in 3D. Missing for the full property: a single patch on an absorbing axis. -/
theorem superposition3_partial {C : LConf 3} {b α β : ℚ} (hC : Admissible C.conf b) (hth : 0 < C.thick)
    (htwo : ∀ a, C.pml a = true → 2 ≤ C.np a) {U V : LWorld 3}
    {rk rk' rk'' : Nat → Nat → Nat} {x y z : Nat → LSt 3} (hix : Inits3 C.toPConf (x 0).dom.lay) (hiy : Inits3 C.toPConf (y 0).dom.lay)
    (hiz : Inits3 C.toPConf (z 0).dom.lay) (hx : LStarts C (lsys3 C).npatches C.coord3 b (x 0) U)
    (hy : LStarts C (lsys3 C).npatches C.coord3 b (y 0) V) (px : NoParticles (lsys3 C).npatches (x 0).parts)
    (py : NoParticles (lsys3 C).npatches (y 0).parts) (pz : NoParticles (lsys3 C).npatches (z 0).parts)
    (ux : ∀ a ∈ (x 0).parts, a.1.unified = true) (uy : ∀ a ∈ (y 0).parts, a.1.unified = true)
    (uz : ∀ a ∈ (z 0).parts, a.1.unified = true)
    (hs : Sums C (lsys3 C).npatches α β (x 0) (y 0) (z 0)) (rx : LRun3 C rk x) (ry : LRun3 C rk' y) (rz : LRun3 C rk'' z) (i : Nat) :
    Sums C (lsys3 C).npatches α β (x i) (y i) (z i) := by
  have hz := starts_mixed hx hy pz hs
  exact sums_of (run_is_undivided3_partial hC hth htwo hix hx ux rx i).1 (run_is_undivided3_partial hC hth htwo hiy hy uy ry i).1
    (run_is_undivided3_partial hC hth htwo hiz hz uz rz i).1
    (run_superposed C.whole (lphys3 C.whole C.dt C.rs) (fun _ f v h => curOpen3_bare C.whole C.dt h f v)
      (bare_of hx.agrees.species px) (bare_of hy.agrees.species py) (bare_of hz.agrees.species pz) (mixed_superposed _ _) i)

/-- C105: nothing comes from nothing: a 2D run that begins without fields and particles has no fields after any number of steps. -/
theorem void_stays2 {C : LConf 2} {b : ℚ} (hC : Admissible C.conf b) (hth : 0 < C.thick) {U : LWorld 2}
    {rk : Nat → Nat → Nat} {x : Nat → LSt 2} (hix : Inits2 C.toPConf (x 0).dom.lay)
    (hx : LStarts C (lsys2 C).npatches C.coord2 b (x 0) U) (px : NoParticles (lsys2 C).npatches (x 0).parts)
    (h0 : ∀ t, t < (lsys2 C).npatches → ∀ f v, Stored C.n C.ng v → ((x 0).dom.fld t).e f (index C.n C.ng v) = 0 ∧
      ((x 0).dom.fld t).b f (index C.n C.ng v) = 0 ∧ (Stored C.n 0 v → ((x 0).dom.fld t).j f (index C.n C.ng v) = 0))
    (rx : LRun2 C rk x) (i t : Nat) (ht : t < (lsys2 C).npatches) (f : Fin 3) (v : Fin 2 → Int) (hv : Stored C.n C.ng v) :
    ((x i).dom.fld t).e f (index C.n C.ng v) = 0 ∧ ((x i).dom.fld t).b f (index C.n C.ng v) = 0 := by
  have hs : Sums C (lsys2 C).npatches 0 0 (x 0) (x 0) (x 0) := by
    intro t ht f v
    refine ⟨fun hv => ⟨?_, ?_⟩, fun hv => ?_⟩
    · rw [(h0 t ht f v hv).1]; ring
    · rw [(h0 t ht f v hv).2.1]; ring
    · rw [(h0 t ht f v (fun a => ⟨by have := (hv a).1; omega, by have := (hv a).2; omega⟩)).2.2 hv]; ring
  have h := ((superposition2 hC hth hix hix hix hx hx px px px hs rx rx rx i) t ht f v).1 hv
  exact ⟨by rw [h.1]; ring, by rw [h.2]; ring⟩

/-! ## cases that meet the hypotheses -/

/-- a uniform electric field of strength `s` without particles, on `k` axes -/
def exPulse (k : Nat) (s : ℚ) : LWorld k :=
  ⟨⟨fun f _ => if f = 1 then s else 0, fun _ _ => 0, fun _ _ => 0, fun _ _ _ => 0, fun _ _ _ => 0⟩, []⟩

/-- the state of the program with this field -/
def exVac (k : Nat) (lay : Nat → List (Cpml.Layer k)) (s : ℚ) : LSt k :=
  ⟨⟨fun _ => ⟨fun f _ => if f = 1 then s else 0, fun _ _ => 0, fun _ _ => 0⟩, lay⟩, []⟩

theorem exVac_starts {k : Nat} {np n : Fin k → Nat} {N : Nat} {co : Nat → Fin k → Nat} (lay : Nat → List (Cpml.Layer k)) (s : ℚ) :
    LStarts (exL k np n) N co 1 (exVac k lay s) (exPulse k s) where
  agrees := ⟨fun _ _ _ _ _ => rfl, fun _ _ _ _ _ => rfl, fun _ _ _ _ _ => rfl, .nil⟩
  inside := fun _ ha => by cases ha
  grid := ⟨fun _ _ _ _ => rfl, fun _ _ _ _ => rfl, fun _ _ _ _ => rfl, fun _ _ _ => rfl, fun _ _ _ => rfl⟩

/-- 2D: fields of strength 5, 7 and `2·5 - 3·7` on two patches with layers, on different rank layouts -/
example : ∃ x y z : Nat → LSt 2, Admissible (exL 2 ![2, 1] ![6, 3]).conf 1 ∧
    Inits2 (exL 2 ![2, 1] ![6, 3]).toPConf (x 0).dom.lay ∧ Inits2 (exL 2 ![2, 1] ![6, 3]).toPConf (y 0).dom.lay ∧
    Inits2 (exL 2 ![2, 1] ![6, 3]).toPConf (z 0).dom.lay ∧
    LStarts (exL 2 ![2, 1] ![6, 3]) (lsys2 (exL 2 ![2, 1] ![6, 3])).npatches (exL 2 ![2, 1] ![6, 3]).coord2 1 (x 0) (exPulse 2 5) ∧
    LStarts (exL 2 ![2, 1] ![6, 3]) (lsys2 (exL 2 ![2, 1] ![6, 3])).npatches (exL 2 ![2, 1] ![6, 3]).coord2 1 (y 0) (exPulse 2 7) ∧
    Sums (exL 2 ![2, 1] ![6, 3]) (lsys2 (exL 2 ![2, 1] ![6, 3])).npatches 2 (-3) (x 0) (y 0) (z 0) ∧
    LRun2 (exL 2 ![2, 1] ![6, 3]) (fun i t => (i + t) % 2) x ∧ LRun2 (exL 2 ![2, 1] ![6, 3]) (fun _ _ => 0) y ∧
    LRun2 (exL 2 ![2, 1] ![6, 3]) (fun _ t => t) z := by
  have a1 : Admissible (exL 2 ![2, 1] ![6, 3]).conf 1 := WholeRun.exConf_ok (np := ![2, 1]) (n := ![6, 3])
    (fun a => match a with | 0 => by decide | 1 => by decide) (fun a => match a with | 0 => by decide | 1 => by decide)
  have i1 : Inits2 (exL 2 ![2, 1] ![6, 3]).toPConf (Cpml.exLay (exL 2 ![2, 1] ![6, 3]).toPConf) := Cpml.exInits _ (by decide +kernel)
  have s := fun q => exVac_starts (np := ![2, 1]) (n := ![6, 3]) (N := (lsys2 (exL 2 ![2, 1] ![6, 3])).npatches)
    (co := (exL 2 ![2, 1] ![6, 3]).coord2) (Cpml.exLay (exL 2 ![2, 1] ![6, 3]).toPConf) q
  obtain ⟨x, e1, r1⟩ := runs2 a1 (by decide) i1 (s 5) (fun i t => (i + t) % 2)
  obtain ⟨y, e2, r2⟩ := runs2 a1 (by decide) i1 (s 7) (fun _ _ => 0)
  obtain ⟨z, e3, r3⟩ := runs2 a1 (by decide) i1 (s (2 * 5 + (-3) * 7)) (fun _ t => t)
  refine ⟨x, y, z, a1, e1 ▸ i1, e2 ▸ i1, e3 ▸ i1, e1 ▸ s 5, e2 ▸ s 7, ?_, r1, r2, r3⟩
  rw [e1, e2, e3]
  intro t _ f v
  refine ⟨fun _ => ⟨?_, ?_⟩, fun _ => ?_⟩ <;> unfold exVac <;> dsimp only
  · by_cases h : f = 1
    · rw [if_pos h, if_pos h, if_pos h]
    · rw [if_neg h, if_neg h, if_neg h]; ring
  · ring
  · ring

/-- 3D: the same with a single state, twice as strong in the second run -/
example : ∃ x z : Nat → LSt 3, Admissible (exL 3 ![2, 1, 1] ![4, 3, 3]).conf 1 ∧
    (∀ a, (exL 3 ![2, 1, 1] ![4, 3, 3]).pml a = true → 2 ≤ (exL 3 ![2, 1, 1] ![4, 3, 3]).np a) ∧
    Inits3 (exL 3 ![2, 1, 1] ![4, 3, 3]).toPConf (x 0).dom.lay ∧ Inits3 (exL 3 ![2, 1, 1] ![4, 3, 3]).toPConf (z 0).dom.lay ∧
    LStarts (exL 3 ![2, 1, 1] ![4, 3, 3]) (lsys3 (exL 3 ![2, 1, 1] ![4, 3, 3])).npatches
      (exL 3 ![2, 1, 1] ![4, 3, 3]).coord3 1 (x 0) (exPulse 3 5) ∧
    Sums (exL 3 ![2, 1, 1] ![4, 3, 3]) (lsys3 (exL 3 ![2, 1, 1] ![4, 3, 3])).npatches 1 1 (x 0) (x 0) (z 0) ∧
    LRun3 (exL 3 ![2, 1, 1] ![4, 3, 3]) (fun _ t => t) x ∧ LRun3 (exL 3 ![2, 1, 1] ![4, 3, 3]) (fun _ _ => 0) z := by
  have a1 : Admissible (exL 3 ![2, 1, 1] ![4, 3, 3]).conf 1 := WholeRun.exConf_ok (np := ![2, 1, 1]) (n := ![4, 3, 3])
    (fun a => match a with | 0 => by decide | 1 => by decide | 2 => by decide)
    (fun a => match a with | 0 => by decide | 1 => by decide | 2 => by decide)
  have t1 : ∀ a, (exL 3 ![2, 1, 1] ![4, 3, 3]).pml a = true → 2 ≤ (exL 3 ![2, 1, 1] ![4, 3, 3]).np a := by decide
  let C := (exL 3 ![2, 1, 1] ![4, 3, 3]).toPConf
  have i1 : Inits3 C fun t => (Cpml.initPml3 C.np C.n (C.coord3 t) (fun a _ => C.pml a) C.thick C.smax).getD [] := by
    have hs : ∀ t, t < (pmlSys3 C).npatches → (Cpml.initPml3 C.np C.n (C.coord3 t) (fun a _ => C.pml a) C.thick C.smax).isSome = true := by
      decide +kernel
    intro t ht
    have := hs t ht
    dsimp only
    cases e : Cpml.initPml3 C.np C.n (C.coord3 t) (fun a _ => C.pml a) C.thick C.smax with
    | none => rw [e] at this; cases this
    | some r => rfl
  have s := fun q => exVac_starts (np := ![2, 1, 1]) (n := ![4, 3, 3]) (N := (lsys3 (exL 3 ![2, 1, 1] ![4, 3, 3])).npatches)
    (co := (exL 3 ![2, 1, 1] ![4, 3, 3]).coord3)
    (fun t => (Cpml.initPml3 C.np C.n (C.coord3 t) (fun a _ => C.pml a) C.thick C.smax).getD []) q
  have hu : ∀ q lay, ∀ a ∈ (exVac 3 lay q).parts, a.1.unified = true := fun _ _ a ha => by cases ha
  obtain ⟨x, e1, r1⟩ := runs3 a1 (by decide) t1 i1 (s 5) (hu _ _) (fun _ t => t)
  obtain ⟨z, e2, r2⟩ := runs3 a1 (by decide) t1 i1 (s (5 + 5)) (hu _ _) (fun _ _ => 0)
  refine ⟨x, z, a1, t1, e1 ▸ i1, e2 ▸ i1, e1 ▸ s 5, ?_, r1, r2⟩
  rw [e1, e2]
  intro t _ f v
  refine ⟨fun _ => ⟨?_, ?_⟩, fun _ => ?_⟩ <;> unfold exVac <;> dsimp only
  · by_cases h : f = 1
    · rw [if_pos h, if_pos h]; ring
    · rw [if_neg h, if_neg h]; ring
  · ring
  · ring

end Verif.Superpose
