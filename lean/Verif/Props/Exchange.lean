import Verif.Proofs.Geometry
import Mathlib.Data.Rat.Floor
/-!
# C05 – C11, C57 — particle exchange between the patches of one rank

Vocabulary used in the statements:

* `Slot` — one particle slot (attributes and dead flag); a state maps each patch number to its slots;
* `living n s` — the list of all living particles of patches `0 … n-1`, each tagged with its patch;
* `Bnd` — the patch bounds along one axis (widened by half a cell, as the C code does);
* `syncParticles g ord2 ord3 s` — the modelled `Patches.sync_particles`; `ord2`, `ord3` are the orders
  in which the parallel loops over patches run; `none` means undefined behaviour (out-of-bounds or
  uninitialised access).
-/
namespace Verif.ExchangeProps
open Verif Verif.Exchange Verif.Geometry Verif.Neighbors
open Verif.Particles (F64)

/-! ## Specification -/

/-- on which side of the interval `[lo, hi]` a coordinate lies (NaN compares as inside) -/
def side (lo hi : Rat) : F64 → Int
  | .nan => 0
  | .val v => if v < lo then -1 else if hi < v then 1 else 0

/-- closed interval membership; NaN is not comparable -/
def Within (lo hi : Rat) : F64 → Prop
  | .nan => True
  | .val v => lo ≤ v ∧ v ≤ hi

/-- Where a living particle `a` of patch `p` must be after the exchange (`none`: removed).
It stays, untouched, if it is inside its patch.  Otherwise it goes to the neighbour in the direction
it left, with the periodic shift of that neighbour applied, provided there is one and the particle is
inside it. -/
def dest2 {R : Type} (nbr : Nat → B2 → Option Nat) (bx by' : Bnd) (p : Nat) (a : A2 R) :
    Option (Nat × A2 R) :=
  let sx := side (bx.lo p) (bx.hi p) a.x
  let sy := side (by'.lo p) (by'.hi p) a.y
  if sx = 0 ∧ sy = 0 then some (p, a)
  else
    match B2.all.find? (fun b => decide (b.offset = (sx, sy))) with
    | none => none
    | some b =>
      match nbr p b with
      | none => none
      | some q =>
        let a' : A2 R := ⟨bx.wrap q a.x, by'.wrap q a.y, a.rest⟩
        if side (bx.lo q) (bx.hi q) a'.x = 0 ∧ side (by'.lo q) (by'.hi q) a'.y = 0
        then some (q, a') else none

/-- the 3D counterpart of `dest2` -/
def dest3 {R : Type} (nbr : Nat → B3 → Option Nat) (bx by' bz : Bnd) (p : Nat) (a : A3 R) :
    Option (Nat × A3 R) :=
  let sx := side (bx.lo p) (bx.hi p) a.x
  let sy := side (by'.lo p) (by'.hi p) a.y
  let sz := side (bz.lo p) (bz.hi p) a.z
  if sx = 0 ∧ sy = 0 ∧ sz = 0 then some (p, a)
  else
    match B3.all.find? (fun b => decide (b.offset = (sx, sy, sz))) with
    | none => none
    | some b =>
      match nbr p b with
      | none => none
      | some q =>
        let a' : A3 R := ⟨bx.wrap q a.x, by'.wrap q a.y, bz.wrap q a.z, a.rest⟩
        if side (bx.lo q) (bx.hi q) a'.x = 0 ∧ side (by'.lo q) (by'.hi q) a'.y = 0 ∧
            side (bz.lo q) (bz.hi q) a'.z = 0
        then some (q, a') else none

/-! ## Bridging lemmas -/

theorem side_eq (lo hi : Rat) (v : F64) :
    side lo hi v = if F64.lt v lo then -1 else if F64.gt v hi then 1 else 0 := by
  cases v <;> simp [side, F64.lt, F64.gt]

theorem side_zero (lo hi : Rat) (v : F64) :
    side lo hi v = 0 ↔ F64.lt v lo = false ∧ F64.gt v hi = false := by
  rw [side_eq]
  cases F64.lt v lo <;> cases F64.gt v hi <;> simp

theorem side_within (lo hi : Rat) (v : F64) : side lo hi v = 0 ↔ Within lo hi v := by
  cases v with
  | nan => simp [side, Within]
  | val v =>
    simp only [side, Within]
    split
    · constructor
      · intro h; simp at h
      · rintro ⟨h, _⟩; linarith
    · split
      · constructor
        · intro h; simp at h
        · rintro ⟨_, h⟩; linarith
      · simp; exact ⟨by linarith, by linarith⟩

theorem inside2_iff {R : Type} (bx by' : Bnd) (p : Nat) (a : A2 R) :
    inside2 bx by' p a = true ↔
      side (bx.lo p) (bx.hi p) a.x = 0 ∧ side (by'.lo p) (by'.hi p) a.y = 0 := by
  rw [side_zero, side_zero]; unfold inside2; simp [and_assoc]

theorem inside3_iff {R : Type} (bx by' bz : Bnd) (p : Nat) (a : A3 R) :
    inside3 bx by' bz p a = true ↔
      side (bx.lo p) (bx.hi p) a.x = 0 ∧ side (by'.lo p) (by'.hi p) a.y = 0 ∧
        side (bz.lo p) (bz.hi p) a.z = 0 := by
  rw [side_zero, side_zero, side_zero]; unfold inside3; simp [and_assoc]

theorem cls2_find {R : Type} (bx by' : Bnd) (p : Nat) (a : A2 R) :
    cls2 bx by' p a = B2.all.find? (fun b => decide (b.offset =
      (side (bx.lo p) (bx.hi p) a.x, side (by'.lo p) (by'.hi p) a.y))) := by
  rw [side_eq, side_eq]
  unfold cls2
  cases F64.lt a.x (bx.lo p) <;> cases F64.gt a.x (bx.hi p) <;>
  cases F64.lt a.y (by'.lo p) <;> cases F64.gt a.y (by'.hi p) <;> rfl

theorem cls3_find {R : Type} (bx by' bz : Bnd) (p : Nat) (a : A3 R) :
    cls3 bx by' bz p a = B3.all.find? (fun b => decide (b.offset =
      (side (bx.lo p) (bx.hi p) a.x, side (by'.lo p) (by'.hi p) a.y,
        side (bz.lo p) (bz.hi p) a.z))) := by
  rw [side_eq, side_eq, side_eq]
  unfold cls3
  cases F64.lt a.x (bx.lo p) <;> cases F64.gt a.x (bx.hi p) <;>
  cases F64.lt a.y (by'.lo p) <;> cases F64.gt a.y (by'.hi p) <;>
  cases F64.lt a.z (bz.lo p) <;> cases F64.gt a.z (bz.hi p) <;> rfl

theorem route_eq_dest2 {R : Type} (n : Nat) (nbr : Nat → B2 → Option Nat) (bx by' : Bnd)
    (blank : A2 R) (p : Nat) (a : A2 R) :
    route (geo2 n nbr bx by' blank) p a = dest2 nbr bx by' p a := by
  have h0 := cls2_none bx by' p a
  rw [inside2_iff] at h0
  have hf := cls2_find bx by' p a
  unfold route dest2
  have hc0 : (geo2 n nbr bx by' blank).cls p a = cls2 bx by' p a := rfl
  rw [hc0]
  simp only
  rw [← hf]
  by_cases h : side (bx.lo p) (bx.hi p) a.x = 0 ∧ side (by'.lo p) (by'.hi p) a.y = 0
  · simp only [h, and_self, if_true, h0.mpr h]
  · simp only [h, if_false]
    cases hc : cls2 bx by' p a with
    | none => exact absurd (h0.mp hc) h
    | some d =>
      simp only [geo2]
      cases nbr p d with
      | none => rfl
      | some q =>
        simp only
        have := inside2_iff bx by' q (⟨bx.wrap q a.x, by'.wrap q a.y, a.rest⟩ : A2 R)
        by_cases hi : inside2 bx by' q (⟨bx.wrap q a.x, by'.wrap q a.y, a.rest⟩ : A2 R) = true
        · exact (if_pos hi).trans (if_pos (this.mp hi)).symm
        · exact (if_neg hi).trans (if_neg (fun h => hi (this.mpr h))).symm

theorem route_eq_dest3 {R : Type} (n : Nat) (nbr : Nat → B3 → Option Nat) (bx by' bz : Bnd)
    (blank : A3 R) (p : Nat) (a : A3 R) :
    route (geo3 n nbr bx by' bz blank) p a = dest3 nbr bx by' bz p a := by
  have h0 := cls3_none bx by' bz p a
  rw [inside3_iff] at h0
  have hf := cls3_find bx by' bz p a
  unfold route dest3
  have hc0 : (geo3 n nbr bx by' bz blank).cls p a = cls3 bx by' bz p a := rfl
  rw [hc0]
  simp only
  rw [← hf]
  by_cases h : side (bx.lo p) (bx.hi p) a.x = 0 ∧ side (by'.lo p) (by'.hi p) a.y = 0 ∧
      side (bz.lo p) (bz.hi p) a.z = 0
  · simp only [h, and_self, if_true, h0.mpr h]
  · simp only [h, if_false]
    cases hc : cls3 bx by' bz p a with
    | none => exact absurd (h0.mp hc) h
    | some d =>
      simp only [geo3]
      cases nbr p d with
      | none => rfl
      | some q =>
        simp only
        have := inside3_iff bx by' bz q
          (⟨bx.wrap q a.x, by'.wrap q a.y, bz.wrap q a.z, a.rest⟩ : A3 R)
        by_cases hi : inside3 bx by' bz q
            (⟨bx.wrap q a.x, by'.wrap q a.y, bz.wrap q a.z, a.rest⟩ : A3 R) = true
        · exact (if_pos hi).trans (if_pos (this.mp hi)).symm
        · exact (if_neg hi).trans (if_neg (fun h => hi (this.mpr h))).symm

/-! ## C05, C06, C07, C08 in 2D -/

section two
variable {R : Type} {n : Nat} {nbr : Nat → B2 → Option Nat} (bx by' : Bnd) (blank : A2 R)
  (s : Nat → List (Slot (A2 R))) {ord2 ord3 : List Nat}

/-- **C05.** For every number of patches, every opposite-symmetric neighbour table, every bounds,
every particle state and every order of the parallel loops: the exchange runs without undefined
behaviour, and the living particles afterwards are exactly (as a multiset, so nothing is lost or
duplicated) the images under `dest2` of the living particles before; moreover a living particle that
is inside its patch keeps its slot unchanged. -/
theorem exchange2_conserves (hsym : Sym2 n nbr) (h2 : ord2.Perm (List.range n))
    (h3 : ord3.Perm (List.range n)) :
    ∃ s', syncParticles (geo2 n nbr bx by' blank) ord2 ord3 s = some s' ∧
      (living n s').Perm ((living n s).filterMap fun x => dest2 nbr bx by' x.1 x.2) ∧
      ∀ (p k : Nat) (sl : Slot (A2 R)), (s p)[k]? = some sl → sl.dead = false →
        side (bx.lo p) (bx.hi p) sl.a.x = 0 → side (by'.lo p) (by'.hi p) sl.a.y = 0 →
        (s' p)[k]? = some sl := by
  refine ⟨_, syncParticles_eq (wf2 hsym bx by' blank) s h2 h3, ?_, ?_⟩
  · have := living_finalState (wf2 hsym bx by' blank) (cls2_none bx by') s
    simp only [route_eq_dest2] at this
    exact this
  · intro p k sl h hd hx hy
    exact finalState_keeps (geo2 n nbr bx by' blank) s p k sl h hd ((inside2_iff bx by' p sl.a).mpr ⟨hx, hy⟩)

/-- **C06.** After the exchange every living particle of every patch lies within the closed bounds of
the patch (a coordinate that is NaN compares with nothing and is left alone; if no living particle
had a NaN coordinate before, none has one after and the bounds hold as numbers). -/
theorem exchange2_contains (hsym : Sym2 n nbr) (h2 : ord2.Perm (List.range n))
    (h3 : ord3.Perm (List.range n)) (hnum : ∀ x ∈ living n s, x.2.x ≠ .nan ∧ x.2.y ≠ .nan) :
    ∃ s', syncParticles (geo2 n nbr bx by' blank) ord2 ord3 s = some s' ∧
      ∀ x ∈ living n s', ∃ vx vy : Rat, x.2.x = .val vx ∧ x.2.y = .val vy ∧
        bx.lo x.1 ≤ vx ∧ vx ≤ bx.hi x.1 ∧ by'.lo x.1 ≤ vy ∧ vy ≤ by'.hi x.1 := by
  obtain ⟨s', he, hp, _⟩ := exchange2_conserves bx by' blank s hsym h2 h3
  refine ⟨s', he, fun x hx => ?_⟩
  obtain ⟨y, hy, hd⟩ := List.mem_filterMap.mp (hp.mem_iff.mp hx)
  have hyn := hnum y hy
  have key : side (bx.lo x.1) (bx.hi x.1) x.2.x = 0 ∧ side (by'.lo x.1) (by'.hi x.1) x.2.y = 0 ∧
      x.2.x ≠ .nan ∧ x.2.y ≠ .nan := by
    unfold dest2 at hd
    simp only at hd
    split at hd
    · rename_i h
      simp only [Option.some.injEq] at hd
      rw [← hd]; exact ⟨h.1, h.2, hyn⟩
    · split at hd
      · simp at hd
      · split at hd
        · simp at hd
        · split at hd
          · rename_i q _ h
            simp only [Option.some.injEq] at hd
            rw [← hd]
            refine ⟨h.1, h.2, ?_⟩
            have hw : ∀ (b : Bnd) (v : F64), v ≠ .nan → b.wrap q v ≠ .nan := by
              intro b v hv
              cases v with
              | nan => exact absurd rfl hv
              | val v =>
                unfold Bnd.wrap handlePeriodic
                simp only
                split
                · split <;> simp [F64.add]
                · split <;> simp [F64.add]
            exact ⟨hw bx _ hyn.1, hw by' _ hyn.2⟩
          · simp at hd
  obtain ⟨k1, k2, k3, k4⟩ := key
  rw [side_within] at k1 k2
  cases hx1 : x.2.x with
  | nan => exact absurd hx1 k3
  | val vx =>
    cases hy1 : x.2.y with
    | nan => exact absurd hy1 k4
    | val vy =>
      rw [hx1] at k1; rw [hy1] at k2
      exact ⟨vx, vy, rfl, rfl, k1.1, k1.2, k2.1, k2.2⟩

/-- **C07.** The result does not depend on the order in which the parallel loops process patches. -/
theorem exchange2_schedule_independent (hsym : Sym2 n nbr) {o2 o3 : List Nat}
    (h2 : ord2.Perm (List.range n)) (h3 : ord3.Perm (List.range n))
    (g2 : o2.Perm (List.range n)) (g3 : o3.Perm (List.range n)) :
    syncParticles (geo2 n nbr bx by' blank) ord2 ord3 s =
      syncParticles (geo2 n nbr bx by' blank) o2 o3 s := by
  rw [syncParticles_eq (wf2 hsym bx by' blank) s h2 h3, syncParticles_eq (wf2 hsym bx by' blank) s g2 g3]

/-- **C08.** The exchange never overruns a buffer or reads an unset index (it is not `none`); the
number of particles arriving in a patch — the living particles of other patches whose departure
direction has this patch as neighbour — is the number `get_npart_to_extend` computed, and after the
extension the patch has at least that many dead slots. -/
theorem exchange2_enough_slots (hsym : Sym2 n nbr) (h2 : ord2.Perm (List.range n))
    (h3 : ord3.Perm (List.range n)) :
    (syncParticles (geo2 n nbr bx by' blank) ord2 ord3 s).isSome = true ∧
    ∀ p, npartNew (geo2 n nbr bx by' blank) (fun i => countOut (cls2 bx by' i) (s i)) p ≤
      nDead (extendSlots (geo2 n nbr bx by' blank) (s p) (toExtend (s p).length (nDead (s p))
        (npartNew (geo2 n nbr bx by' blank) (fun i => countOut (cls2 bx by' i) (s i)) p))) := by
  refine ⟨?_, fun p => ?_⟩
  · rw [syncParticles_eq (wf2 hsym bx by' blank) s h2 h3]; rfl
  · have := room (geo2 n nbr bx by' blank) s p
    rw [← npartNew_eq] at this
    exact this

end two

/-! ## C10: the same in 3D -/

section three
variable {R : Type} {n : Nat} {nbr : Nat → B3 → Option Nat} (bx by' bz : Bnd) (blank : A3 R)
  (s : Nat → List (Slot (A3 R))) {ord2 ord3 : List Nat}

/-- **C10** (conservation, 3D counterpart of C05). -/
theorem exchange3_conserves (hsym : Sym3 n nbr) (h2 : ord2.Perm (List.range n))
    (h3 : ord3.Perm (List.range n)) :
    ∃ s', syncParticles (geo3 n nbr bx by' bz blank) ord2 ord3 s = some s' ∧
      (living n s').Perm ((living n s).filterMap fun x => dest3 nbr bx by' bz x.1 x.2) ∧
      ∀ (p k : Nat) (sl : Slot (A3 R)), (s p)[k]? = some sl → sl.dead = false →
        side (bx.lo p) (bx.hi p) sl.a.x = 0 → side (by'.lo p) (by'.hi p) sl.a.y = 0 →
        side (bz.lo p) (bz.hi p) sl.a.z = 0 → (s' p)[k]? = some sl := by
  refine ⟨_, syncParticles_eq (wf3 hsym bx by' bz blank) s h2 h3, ?_, ?_⟩
  · have := living_finalState (wf3 hsym bx by' bz blank) (cls3_none bx by' bz) s
    simp only [route_eq_dest3] at this
    exact this
  · intro p k sl h hd hx hy hz
    exact finalState_keeps (geo3 n nbr bx by' bz blank) s p k sl h hd
      ((inside3_iff bx by' bz p sl.a).mpr ⟨hx, hy, hz⟩)

/-- **C10** (containment). -/
theorem exchange3_contains (hsym : Sym3 n nbr) (h2 : ord2.Perm (List.range n))
    (h3 : ord3.Perm (List.range n)) :
    ∃ s', syncParticles (geo3 n nbr bx by' bz blank) ord2 ord3 s = some s' ∧
      ∀ x ∈ living n s', Within (bx.lo x.1) (bx.hi x.1) x.2.x ∧
        Within (by'.lo x.1) (by'.hi x.1) x.2.y ∧ Within (bz.lo x.1) (bz.hi x.1) x.2.z := by
  obtain ⟨s', he, hp, _⟩ := exchange3_conserves bx by' bz blank s hsym h2 h3
  refine ⟨s', he, fun x hx => ?_⟩
  obtain ⟨y, hy, hd⟩ := List.mem_filterMap.mp (hp.mem_iff.mp hx)
  simp only [← side_within]
  unfold dest3 at hd
  simp only at hd
  split at hd
  · rename_i h
    simp only [Option.some.injEq] at hd
    rw [← hd]; exact h
  · split at hd
    · simp at hd
    · split at hd
      · simp at hd
      · split at hd
        · rename_i h
          simp only [Option.some.injEq] at hd
          rw [← hd]; exact h
        · simp at hd

/-- **C10** (schedule independence and enough slots). -/
theorem exchange3_schedule_and_slots (hsym : Sym3 n nbr) {o2 o3 : List Nat}
    (h2 : ord2.Perm (List.range n)) (h3 : ord3.Perm (List.range n))
    (g2 : o2.Perm (List.range n)) (g3 : o3.Perm (List.range n)) :
    syncParticles (geo3 n nbr bx by' bz blank) ord2 ord3 s =
      syncParticles (geo3 n nbr bx by' bz blank) o2 o3 s ∧
    (syncParticles (geo3 n nbr bx by' bz blank) ord2 ord3 s).isSome = true ∧
    ∀ p, npartNew (geo3 n nbr bx by' bz blank) (fun i => countOut (cls3 bx by' bz i) (s i)) p ≤
      nDead (extendSlots (geo3 n nbr bx by' bz blank) (s p) (toExtend (s p).length (nDead (s p))
        (npartNew (geo3 n nbr bx by' bz blank) (fun i => countOut (cls3 bx by' bz i) (s i)) p))) := by
  refine ⟨?_, ?_, fun p => ?_⟩
  · rw [syncParticles_eq (wf3 hsym bx by' bz blank) s h2 h3,
      syncParticles_eq (wf3 hsym bx by' bz blank) s g2 g3]
  · rw [syncParticles_eq (wf3 hsym bx by' bz blank) s h2 h3]; rfl
  · have := room (geo3 n nbr bx by' bz blank) s p
    rw [← npartNew_eq] at this
    exact this

end three

/-! ## C09: periodic domains -/

/-- the position a coordinate has after folding a crossing of the domain edge back -/
def foldBack (a : Axis) (v : Rat) : Rat :=
  if v < a.gmin then v + a.L else if a.gmax < v then v - a.L else v

/-- `v` is inside patch `i` or outside by at most one patch length -/
def Near (a : Axis) (i : Nat) (v : Rat) : Prop :=
  a.lo i - (a.c : Rat) * a.h ≤ v ∧ v ≤ a.hi i + (a.c : Rat) * a.h

/-- a sane periodic axis -/
structure PeriodicAxis (a : Axis) : Prop where
  n_pos : 0 < a.n
  c_pos : 0 < a.c
  h_pos : 0 < a.h
  lo : a.bc.lo = .periodic
  hi : a.bc.hi = .periodic

theorem adj_exists {a : Axis} (ha : PeriodicAxis a) (i : Nat) (o : Int) : ∃ m, Adj a.n a.bc i o m := by
  have hn : (0 : Int) < a.n := by exact_mod_cast ha.n_pos
  have h0 := Int.emod_nonneg ((i : Int) + o) hn.ne'
  have h1 := Int.emod_lt_of_pos ((i : Int) + o) hn
  refine ⟨(((i : Int) + o) % a.n).toNat, by omega, ?_⟩
  rw [if_pos ha.lo, Int.toNat_of_nonneg h0]
  exact Int.mod_modEq _ _

theorem find_offset (sx sy : Int) (hx : sx = -1 ∨ sx = 0 ∨ sx = 1) (hy : sy = -1 ∨ sy = 0 ∨ sy = 1)
    (h : ¬ (sx = 0 ∧ sy = 0)) :
    ∃ b, B2.all.find? (fun b => decide (b.offset = (sx, sy))) = some b ∧ b.offset = (sx, sy) := by
  rcases hx with rfl | rfl | rfl <;> rcases hy with rfl | rfl | rfl <;>
    first
      | exact absurd ⟨rfl, rfl⟩ h
      | exact ⟨_, rfl, rfl⟩

theorem side_cases (lo hi : Rat) (v : F64) : side lo hi v = -1 ∨ side lo hi v = 0 ∨ side lo hi v = 1 := by
  cases v with
  | nan => simp [side]
  | val v => simp only [side]; split <;> [simp; (split <;> simp)]

section periodic
variable {R : Type} {ax ay : Axis} (hx : PeriodicAxis ax) (hy : PeriodicAxis ay)

/-- **C09 (2D).** In a simulation that is periodic in both directions, all patches on one rank: a
living particle of patch number `p` whose coordinates lie inside the patch or outside it by at most
one patch length is not removed; it ends in a patch `q` with exactly its old attributes, each
coordinate folded back by one domain length if (and only if) it is outside the domain, and the folded
coordinates lie within the bounds of `q`. -/
theorem periodic2_lands_inside (hx : PeriodicAxis ax) (hy : PeriodicAxis ay) (p : Nat) (pp : P2)
    (hp : (createPatches2 ax.n ay.n)[p]? = some pp) (vx vy : Rat) (r : R)
    (hvx : Near ax pp.ix vx) (hvy : Near ay pp.iy vy) :
    ∃ (q : Nat) (qq : P2), (createPatches2 ax.n ay.n)[q]? = some qq ∧
      dest2 (neighborIpatch2 ax.n ay.n ax.bc ay.bc (createPatches2 ax.n ay.n) (createPatches2 ax.n ay.n))
        (ax.bnd fun ip => ((createPatches2 ax.n ay.n)[ip]?.map P2.ix).getD 0)
        (ay.bnd fun ip => ((createPatches2 ax.n ay.n)[ip]?.map P2.iy).getD 0) p
        ⟨.val vx, .val vy, r⟩ = some (q, ⟨.val (foldBack ax vx), .val (foldBack ay vy), r⟩) ∧
      ax.lo qq.ix ≤ foldBack ax vx ∧ foldBack ax vx ≤ ax.hi qq.ix ∧
      ay.lo qq.iy ≤ foldBack ay vy ∧ foldBack ay vy ≤ ay.hi qq.iy := by
  have hg := grid_createPatches2 ax.n ay.n
  have hpm := List.mem_of_getElem? hp
  have hb := hg.bound pp hpm
  have hpx : ax.bc.Paired := by unfold AxisBC.Paired; rw [hx.lo, hx.hi]
  have hpy : ay.bc.Paired := by unfold AxisBC.Paired; rw [hy.lo, hy.hi]
  have cx : ((createPatches2 ax.n ay.n)[p]?.map P2.ix).getD 0 = pp.ix := by rw [hp]; rfl
  have cy : ((createPatches2 ax.n ay.n)[p]?.map P2.iy).getD 0 = pp.iy := by rw [hp]; rfl
  obtain ⟨mx, hmx⟩ := adj_exists hx pp.ix (side (ax.lo pp.ix) (ax.hi pp.ix) (.val vx))
  obtain ⟨my, hmy⟩ := adj_exists hy pp.iy (side (ay.lo pp.iy) (ay.hi pp.iy) (.val vy))
  obtain ⟨qq, hqm, eqx, eqy⟩ := full_createPatches2 ax.n ay.n mx hmx.1 my hmy.1
  obtain ⟨q, hql, hq⟩ := List.getElem_of_mem hqm
  have hq' : (createPatches2 ax.n ay.n)[q]? = some qq := by rw [List.getElem?_eq_getElem hql, hq]
  have dx : ((createPatches2 ax.n ay.n)[q]?.map P2.ix).getD 0 = mx := by rw [hq', ← eqx]; rfl
  have dy : ((createPatches2 ax.n ay.n)[q]?.map P2.iy).getD 0 = my := by rw [hq', ← eqy]; rfl
  obtain ⟨wx, hwx, lx, ux, ex⟩ := axis_periodic ax hx.n_pos hx.c_pos hx.h_pos hx.lo hx.hi hb.1 vx
    hvx.1 hvx.2 hmx (fun ip => ((createPatches2 ax.n ay.n)[ip]?.map P2.ix).getD 0) q dx
  obtain ⟨wy, hwy, ly, uy, ey⟩ := axis_periodic ay hy.n_pos hy.c_pos hy.h_pos hy.lo hy.hi hb.2 vy
    hvy.1 hvy.2 hmy (fun ip => ((createPatches2 ax.n ay.n)[ip]?.map P2.iy).getD 0) q dy
  have ex' : wx = foldBack ax vx := ex
  have ey' : wy = foldBack ay vy := ey
  rw [ex'] at hwx lx ux
  rw [ey'] at hwy ly uy
  refine ⟨q, qq, hq', ?_, by rw [eqx]; exact lx, by rw [eqx]; exact ux, by rw [eqy]; exact ly,
    by rw [eqy]; exact uy⟩
  unfold dest2
  have bx1 : (ax.bnd fun ip => ((createPatches2 ax.n ay.n)[ip]?.map P2.ix).getD 0).lo p = ax.lo pp.ix := by
    simp only [Axis.bnd, cx]
  have bx2 : (ax.bnd fun ip => ((createPatches2 ax.n ay.n)[ip]?.map P2.ix).getD 0).hi p = ax.hi pp.ix := by
    simp only [Axis.bnd, cx]
  have by1 : (ay.bnd fun ip => ((createPatches2 ax.n ay.n)[ip]?.map P2.iy).getD 0).lo p = ay.lo pp.iy := by
    simp only [Axis.bnd, cy]
  have by2 : (ay.bnd fun ip => ((createPatches2 ax.n ay.n)[ip]?.map P2.iy).getD 0).hi p = ay.hi pp.iy := by
    simp only [Axis.bnd, cy]
  have bx3 : (ax.bnd fun ip => ((createPatches2 ax.n ay.n)[ip]?.map P2.ix).getD 0).lo q = ax.lo mx := by
    simp only [Axis.bnd, dx]
  have bx4 : (ax.bnd fun ip => ((createPatches2 ax.n ay.n)[ip]?.map P2.ix).getD 0).hi q = ax.hi mx := by
    simp only [Axis.bnd, dx]
  have by3 : (ay.bnd fun ip => ((createPatches2 ax.n ay.n)[ip]?.map P2.iy).getD 0).lo q = ay.lo my := by
    simp only [Axis.bnd, dy]
  have by4 : (ay.bnd fun ip => ((createPatches2 ax.n ay.n)[ip]?.map P2.iy).getD 0).hi q = ay.hi my := by
    simp only [Axis.bnd, dy]
  simp only [bx1, bx2, by1, by2]
  by_cases h0 : side (ax.lo pp.ix) (ax.hi pp.ix) (.val vx) = 0 ∧
      side (ay.lo pp.iy) (ay.hi pp.iy) (.val vy) = 0
  · rw [if_pos h0]
    -- q = p
    rw [h0.1] at hmx
    rw [h0.2] at hmy
    have i1 : Adj ax.n ax.bc pp.ix 0 pp.ix := ⟨hb.1, by rw [if_pos hx.lo]; simp⟩
    have i2 : Adj ay.n ay.bc pp.iy 0 pp.iy := ⟨hb.2, by rw [if_pos hy.lo]; simp⟩
    have e1 : mx = pp.ix := hmx.unique i1
    have e2 : my = pp.iy := hmy.unique i2
    have : qq = pp := hg.coordInj qq hqm pp hpm (eqx.trans e1) (eqy.trans e2)
    subst this
    have hqp : q = p := by
      obtain ⟨hpl, hpe⟩ := List.getElem?_eq_some_iff.mp hp
      exact (List.Nodup.getElem_inj_iff (nodup_createPatches2 ax.n ay.n)).mp (hq.trans hpe.symm)
    have f1 : foldBack ax vx = vx := by
      have := (side_within _ _ _).mp h0.1
      have l := ax.lo_periodic hx.n_pos hx.lo qq.ix
      have u := ax.hi_periodic hx.n_pos hx.hi qq.ix
      have gx := ax.gmax_eq
      have hc : (0 : Rat) ≤ (ax.c : Rat) * ax.h := by have := hx.h_pos; positivity
      have k1 : (0 : Rat) ≤ (qq.ix : Rat) * (ax.c : Rat) * ax.h := by have := hx.h_pos; positivity
      have k2 : ((qq.ix : Rat) + 1) * (ax.c : Rat) * ax.h ≤ (ax.n : Rat) * (ax.c : Rat) * ax.h := by
        have : (qq.ix : Rat) + 1 ≤ ax.n := by exact_mod_cast hb.1
        have := mul_le_mul_of_nonneg_right this hc
        nlinarith
      have gm : ax.gmin = -ax.h / 2 := rfl
      simp only [Within] at this
      unfold foldBack
      rw [if_neg (by rw [gm]; linarith), if_neg (by rw [gx]; linarith)]
    have f2 : foldBack ay vy = vy := by
      have := (side_within _ _ _).mp h0.2
      have l := ay.lo_periodic hy.n_pos hy.lo qq.iy
      have u := ay.hi_periodic hy.n_pos hy.hi qq.iy
      have gx := ay.gmax_eq
      have hc : (0 : Rat) ≤ (ay.c : Rat) * ay.h := by have := hy.h_pos; positivity
      have k1 : (0 : Rat) ≤ (qq.iy : Rat) * (ay.c : Rat) * ay.h := by have := hy.h_pos; positivity
      have k2 : ((qq.iy : Rat) + 1) * (ay.c : Rat) * ay.h ≤ (ay.n : Rat) * (ay.c : Rat) * ay.h := by
        have : (qq.iy : Rat) + 1 ≤ ay.n := by exact_mod_cast hb.2
        have := mul_le_mul_of_nonneg_right this hc
        nlinarith
      have gm : ay.gmin = -ay.h / 2 := rfl
      simp only [Within] at this
      unfold foldBack
      rw [if_neg (by rw [gm]; linarith), if_neg (by rw [gx]; linarith)]
    rw [f1, f2, hqp]
  · rw [if_neg h0]
    obtain ⟨b, hfb, hob⟩ := find_offset _ _ (side_cases (ax.lo pp.ix) (ax.hi pp.ix) (.val vx))
      (side_cases (ay.lo pp.iy) (ay.hi pp.iy) (.val vy)) h0
    simp only [hfb]
    have hnb : neighborIpatch2 ax.n ay.n ax.bc ay.bc (createPatches2 ax.n ay.n)
        (createPatches2 ax.n ay.n) p b = some q := by
      rw [neighborIpatch2_some hpx hpy hg (fun _ h => h) (nodup_createPatches2 _ _), hob]
      exact ⟨pp, qq, hp, hq', by rw [eqx]; exact hmx, by rw [eqy]; exact hmy⟩
    simp only [hnb]
    rw [hwx, hwy]
    rw [if_pos]
    rw [side_within, side_within]
    simp only [Within, bx3, bx4, by3, by4]
    exact ⟨⟨lx, ux⟩, ⟨ly, uy⟩⟩

theorem mem_living {A : Type} {m : Nat} {t : Nat → List (Slot A)} {x : Nat × A}
    (h : x ∈ living m t) : x.1 < m := by
  unfold living at h
  simp only [List.mem_flatMap, List.mem_range, List.mem_map] at h
  obtain ⟨p, hp, a, _, rfl⟩ := h
  exact hp

/-- **C09 / C05 corollary**: on a periodic domain no particle is lost as long as none moves by more
than one patch: the payloads (weight, momentum, id, …) of the living particles are the same multiset
before and after. -/
theorem periodic2_conserves (hx : PeriodicAxis ax) (hy : PeriodicAxis ay) (blank : A2 R)
    (s : Nat → List (Slot (A2 R))) {ord2 ord3 : List Nat}
    (h2 : ord2.Perm (List.range (createPatches2 ax.n ay.n).length))
    (h3 : ord3.Perm (List.range (createPatches2 ax.n ay.n).length))
    (hnear : ∀ x ∈ living (createPatches2 ax.n ay.n).length s, ∀ pp,
      (createPatches2 ax.n ay.n)[x.1]? = some pp → ∃ vx vy, x.2.x = .val vx ∧ x.2.y = .val vy ∧
        Near ax pp.ix vx ∧ Near ay pp.iy vy) :
    ∃ s', syncParticles (simGeo2 ax ay (createPatches2 ax.n ay.n) (createPatches2 ax.n ay.n) blank)
        ord2 ord3 s = some s' ∧
      ((living (createPatches2 ax.n ay.n).length s').map fun x => x.2.rest).Perm
        ((living (createPatches2 ax.n ay.n).length s).map fun x => x.2.rest) := by
  have hpx : ax.bc.Paired := by unfold AxisBC.Paired; rw [hx.lo, hx.hi]
  have hpy : ay.bc.Paired := by unfold AxisBC.Paired; rw [hy.lo, hy.hi]
  have hsym := sym2_of_grid hpx hpy (grid_createPatches2 ax.n ay.n) (fun _ h => h)
    (nodup_createPatches2 ax.n ay.n)
  obtain ⟨s', he, hp, _⟩ := exchange2_conserves
    (ax.bnd fun ip => ((createPatches2 ax.n ay.n)[ip]?.map P2.ix).getD 0)
    (ay.bnd fun ip => ((createPatches2 ax.n ay.n)[ip]?.map P2.iy).getD 0) blank s hsym h2 h3
  refine ⟨s', he, (hp.map _).trans (List.Perm.of_eq ?_)⟩
  rw [List.map_filterMap, ← List.filterMap_eq_map]
  apply List.filterMap_congr
  intro x hxm
  have hlt : x.1 < (createPatches2 ax.n ay.n).length := mem_living hxm
  have hpp : (createPatches2 ax.n ay.n)[x.1]? = some (createPatches2 ax.n ay.n)[x.1] :=
    List.getElem?_eq_getElem hlt
  obtain ⟨vx, vy, e1, e2, n1, n2⟩ := hnear x hxm _ hpp
  obtain ⟨q, qq, _, hd, _⟩ := periodic2_lands_inside (R := R) hx hy x.1 _ hpp vx vy x.2.rest n1 n2
  have : x.2 = ⟨.val vx, .val vy, x.2.rest⟩ := by rw [← e1, ← e2]
  rw [this, hd]
  rfl

end periodic

/-- **C09, non-periodic axes**: nothing is ever shifted on an axis with absorbing boundaries. -/
theorem pml_axis_no_shift (a : Axis) (hn : 0 < a.n) (hc : 0 < a.c) (hh : 0 < a.h) (ht : 0 < a.thick)
    (hlo : a.bc.lo = .pml) (hhi : a.bc.hi = .pml) (coord : Nat → Nat) (q : Nat) (hq : coord q < a.n)
    (v : F64) : (a.bnd coord).wrap q v = v :=
  axis_pml_no_shift a hn hc hh ht hlo hhi coord q hq v

/-! ## C11: the published count -/

/-- a two-patch example: patch 0 = [0,1], patch 1 = [1,2], neighbours of each other along x -/
def exBx : Bnd := ⟨fun i => i, fun i => i + 1, 0, 2, 1/10⟩
def exBy : Bnd := ⟨fun _ => 0, fun _ => 1, 0, 1, 1/10⟩
def exNbr : Nat → B2 → Option Nat
  | 0, .xmax => some 1
  | 1, .xmin => some 0
  | _, _ => none
def exState : Nat → List (Slot (A2 Nat))
  | 0 => [⟨⟨.val (3/2), .val (1/2), 7⟩, false⟩, ⟨⟨.val (1/2), .val (1/2), 8⟩, false⟩]
  | _ => [⟨⟨.nan, .nan, 0⟩, true⟩]

theorem exSym : Sym2 2 exNbr := by
  intro i b t h
  match i, b, h with
  | 0, .xmax, h => simp [exNbr] at h; subst h; exact ⟨by omega, by omega, rfl⟩
  | 1, .xmin, h => simp [exNbr] at h; subst h; exact ⟨by omega, by omega, rfl⟩

/-- The hypotheses of C05–C08 are met by this state, and the crossing particle (payload 7) really
moves to patch 1. -/
example : Sym2 2 exNbr ∧
    (syncParticles (geo2 2 exNbr exBx exBy (⟨.nan, .nan, 0⟩ : A2 Nat)) [1, 0] [0, 1] exState).map
      (fun s' => living 2 s') =
      some [(0, ⟨.val (1/2), .val (1/2), 8⟩), (1, ⟨.val (3/2), .val (1/2), 7⟩)] :=
  ⟨exSym, by decide +kernel⟩

/-- **C11 is false**: the count published for a patch still includes the particles that left it. In
the example patch 0 keeps one particle and patch 1 receives one, but the published counts are 2 and
1. -/
theorem published_count_fails :
    ∃ s', syncParticles (geo2 2 exNbr exBx exBy (⟨.nan, .nan, 0⟩ : A2 Nat)) [0, 1] [0, 1] exState
        = some s' ∧
      (alive (s' 0)).length = 1 ∧
      reportedAlive (geo2 2 exNbr exBx exBy (⟨.nan, .nan, 0⟩ : A2 Nat)) exState 0 = 2 := by
  obtain ⟨s', he, _⟩ := exchange2_conserves exBx exBy (⟨.nan, .nan, 0⟩ : A2 Nat) exState exSym
    (ord2 := [0, 1]) (ord3 := [0, 1]) (List.Perm.refl _) (List.Perm.refl _)
  refine ⟨s', he, ?_, by decide +kernel⟩
  have : (syncParticles (geo2 2 exNbr exBx exBy (⟨.nan, .nan, 0⟩ : A2 Nat)) [0, 1] [0, 1] exState).map
      (fun s' => (alive (s' 0)).length) = some 1 := by decide +kernel
  rw [he] at this
  simpa using this

/-- **C11, what holds** (2D and 3D, any geometry): the published count equals the number of living
particles after the exchange plus the particles that left the patch plus the arrivals that were
outside and removed.  Missing for the full property: the subtraction of those two terms. -/
theorem published_count_partial {A D : Type} [DecidableEq D] (g : Geo A D) (hg : WF g)
    (s : Nat → List (Slot A)) {ord2 ord3 : List Nat} (h2 : ord2.Perm (List.range g.npatches))
    (h3 : ord3.Perm (List.range g.npatches)) (p : Nat) (hp : p < g.npatches) :
    ∃ s', syncParticles g ord2 ord3 s = some s' ∧
      reportedAlive g s p = (alive (s' p)).length +
        ((alive (s p)).filter fun a => !g.inside p a).length +
        (((arriving g s p).map (g.wrap p)).filter fun a => !g.inside p a).length := by
  refine ⟨_, syncParticles_eq hg s h2 h3, ?_⟩
  have h := alive_length g s hp
  rw [reportedAlive_eq]
  have f : ∀ (l : List A) (q : A → Bool), l.length = (l.filter q).length + (l.filter fun a => !q a).length := by
    intro l q
    induction l with
    | nil => rfl
    | cons a t ih => cases hq : q a <;> simp [hq] <;> omega
  have a1 := f (alive (s p)) (g.inside p)
  have a2 := f ((arriving g s p).map (g.wrap p)) (g.inside p)
  rw [List.length_map] at a2
  have h' : (alive (markDead g p (if p < g.npatches then fillSlots (g.wrap p) (extended g s p) (arriving g s p)
       else extended g s p))).length = _ := h
  rw [h']
  omega

/-! ## C57: the patches tile the domain -/

/-- **C57.** Along each axis (periodic ends): the interval of patch 0 begins at the lower domain
bound, each patch begins where its predecessor ends, the last ends at the upper domain bound, and
every point of the half-open domain lies in exactly one half-open patch interval. -/
theorem patches_tile (a : Axis) (ha : PeriodicAxis a) :
    a.lo 0 = -a.h / 2 ∧ a.hi (a.n - 1) = a.L - a.h / 2 ∧
    (∀ i, a.hi i = a.lo (i + 1)) ∧
    (∀ v, -a.h / 2 ≤ v → v < a.L - a.h / 2 → ∃! i, i < a.n ∧ a.lo i ≤ v ∧ v < a.hi i) := by
  have hl := a.lo_periodic ha.n_pos ha.lo
  have hh := a.hi_periodic ha.n_pos ha.hi
  have hL : a.L = (a.n : Rat) * (a.c : Rat) * a.h := by unfold Axis.L; push_cast; ring
  have hch : 0 < (a.c : Rat) * a.h := by
    have : (0 : Rat) < a.c := by exact_mod_cast ha.c_pos
    have := ha.h_pos
    positivity
  refine ⟨by rw [hl]; push_cast; ring, ?_, fun i => by rw [hl, hh]; push_cast; ring, ?_⟩
  · rw [hh, hL, Nat.cast_sub ha.n_pos]; push_cast; ring
  · intro v h1 h2
    have hpos : 0 ≤ (v + a.h / 2) / ((a.c : Rat) * a.h) := by
      apply div_nonneg _ hch.le; linarith
    have hf := Int.floor_nonneg.mpr hpos
    refine ⟨⌊(v + a.h / 2) / ((a.c : Rat) * a.h)⌋.toNat, ⟨?_, ?_, ?_⟩, ?_⟩
    · have : (v + a.h / 2) / ((a.c : Rat) * a.h) < a.n := by
        rw [div_lt_iff₀ hch]; rw [hL] at h2; linarith
      have h3 := Int.floor_lt.mpr (show (v + a.h / 2) / ((a.c : Rat) * a.h) < ((a.n : Int) : Rat) by
        exact_mod_cast this)
      omega
    · rw [hl]
      have h3 := Int.floor_le ((v + a.h / 2) / ((a.c : Rat) * a.h))
      rw [le_div_iff₀ hch] at h3
      have h4 : ((⌊(v + a.h / 2) / ((a.c : Rat) * a.h)⌋.toNat : Nat) : Rat) =
          ((⌊(v + a.h / 2) / ((a.c : Rat) * a.h)⌋ : Int) : Rat) := by
        rw [← Int.cast_natCast, Int.toNat_of_nonneg hf]
      rw [h4]; linarith
    · rw [hh]
      have h3 := Int.lt_floor_add_one ((v + a.h / 2) / ((a.c : Rat) * a.h))
      rw [div_lt_iff₀ hch] at h3
      have h4 : ((⌊(v + a.h / 2) / ((a.c : Rat) * a.h)⌋.toNat : Nat) : Rat) =
          ((⌊(v + a.h / 2) / ((a.c : Rat) * a.h)⌋ : Int) : Rat) := by
        rw [← Int.cast_natCast, Int.toNat_of_nonneg hf]
      rw [h4]; linarith
    · rintro j ⟨_, g1, g2⟩
      rw [hl] at g1
      rw [hh] at g2
      have e : ⌊(v + a.h / 2) / ((a.c : Rat) * a.h)⌋ = (j : Int) := by
        rw [Int.floor_eq_iff]
        constructor
        · rw [le_div_iff₀ hch]; push_cast; linarith
        · rw [div_lt_iff₀ hch]; push_cast; linarith
      rw [e]; simp

/-- with absorbing boundaries the outermost patches are shortened by the layer thickness, all inner
seams are as above -/
theorem patches_tile_pml (a : Axis) (hn : 0 < a.n) (hlo : a.bc.lo = .pml) (hhi : a.bc.hi = .pml) :
    a.lo 0 = -a.h / 2 + a.thick * a.h ∧ a.hi (a.n - 1) = a.L - a.h / 2 - a.thick * a.h ∧
    ∀ i, i + 1 < a.n → a.hi i = a.lo (i + 1) := by
  have hL : a.L = (a.n : Rat) * (a.c : Rat) * a.h := by unfold Axis.L; push_cast; ring
  refine ⟨?_, ?_, ?_⟩
  · unfold Axis.lo Axis.pmin; rw [hlo, a.x0_eq hn]; simp; ring
  · unfold Axis.hi Axis.pmax; rw [hhi, a.x0_eq hn, hL, Nat.cast_sub hn]; simp; ring
  · intro i hi
    unfold Axis.hi Axis.pmax Axis.lo Axis.pmin
    rw [hhi, hlo, a.x0_eq hn, a.x0_eq hn]
    rw [if_neg (by omega), if_neg (by omega)]
    push_cast; ring

/-- flattening a rectangular index range row by row gives the range -/
theorem range_blocks (n : Nat) : ∀ m, ((List.range m).flatMap fun j => (List.range n).map fun i => i + j * n)
    = List.range (m * n)
  | 0 => by simp
  | m + 1 => by
    rw [List.range_succ, List.flatMap_append, range_blocks n m, List.flatMap_singleton, Nat.succ_mul,
      List.range_add]
    congr 1
    apply List.map_congr_left
    intro a _; omega

/-- **C57, indices (2D).** The patch list is ordered by index: the patch at position `k` has index
`k = ipatch_x + ipatch_y * npatch_x`. -/
theorem patch_index2 (npx npy : Nat) :
    (createPatches2 npx npy).map P2.index = List.range (npy * npx) ∧
    ∀ p ∈ createPatches2 npx npy, p.index = p.ix + p.iy * npx ∧ p.ix < npx ∧ p.iy < npy := by
  refine ⟨?_, fun p hp => let m := mem_createPatches2.mp hp; ⟨m.2.2, m.1, m.2.1⟩⟩
  rw [← range_blocks]
  unfold createPatches2
  rw [List.map_flatMap]
  simp [List.map_map, Function.comp_def]

/-- **C57, indices (3D).** -/
theorem patch_index3 (npx npy npz : Nat) :
    (createPatches3 npx npy npz).map P3.index = List.range (npz * (npy * npx)) ∧
    ∀ p ∈ createPatches3 npx npy npz,
      p.index = p.ix + p.iy * npx + p.iz * npx * npy ∧ p.ix < npx ∧ p.iy < npy ∧ p.iz < npz := by
  refine ⟨?_, fun p hp => let m := mem_createPatches3.mp hp; ⟨m.2.2.2, m.1, m.2.1, m.2.2.1⟩⟩
  rw [← range_blocks]
  unfold createPatches3
  rw [List.map_flatMap]
  congr 1
  funext k
  rw [← range_blocks npx npy, List.map_flatMap, List.map_flatMap]
  congr 1
  funext j
  rw [List.map_map, List.map_map]
  apply List.map_congr_left
  intro i _
  simp only [Function.comp_apply]
  ring

/-- a concrete periodic axis meets the hypotheses: 4 patches of 8 cells of size 1/2 -/
example : PeriodicAxis ⟨4, 8, 1/2, ⟨.periodic, .periodic⟩, 6⟩ :=
  ⟨by decide, by decide, by norm_num, rfl, rfl⟩

/-- … and a particle just left of the domain is near patch 0 -/
example : Near ⟨4, 8, 1/2, ⟨.periodic, .periodic⟩, 6⟩ 0 (-1) := by
  constructor <;> simp [Axis.lo, Axis.hi, Axis.pmin, Axis.pmax, Axis.x0, Axis.L] <;> norm_num

end Verif.ExchangeProps
