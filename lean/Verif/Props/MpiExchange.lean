import Verif.Proofs.MpiExchange
import Verif.Props.Exchange3
/-!
# C63 — the particle exchange of one step does not depend on how the patches are spread over ranks

Vocabulary: `living`, `side`, `dest2`, `dest3`, `Bnd`, `Sym2`, `Sym3` as in `Verif/Props/Exchange.lean`;
all patches of all ranks are numbered globally and `rk p` is the rank of patch `p`.  `mpiSync` is the
exchange between ranks, `parSync` the two exchanges of one step (between ranks, then inside each rank);
`none` means undefined behaviour.
-/
namespace Verif.MpiExchangeProps
open Verif Verif.Exchange Verif.Geometry Verif.Neighbors Verif.MpiExchange Verif.ExchangeProps
open Verif.Particles (F64)

/-! ## Specification -/

/-- where the exchange between ranks alone must take a living particle: if it left its patch towards a
patch of another rank, to that patch, with the periodic shift applied; otherwise nowhere -/
def cross2 {R : Type} (rk : Nat → Nat) (nbr : Nat → B2 → Option Nat) (bx by' : Bnd) (x : Nat × A2 R) :
    Nat × A2 R :=
  match B2.all.find? fun b => decide (b.offset =
      (side (bx.lo x.1) (bx.hi x.1) x.2.x, side (by'.lo x.1) (by'.hi x.1) x.2.y)) with
  | none => x
  | some b =>
    match nbr x.1 b with
    | none => x
    | some q => if rk q = rk x.1 then x else (q, ⟨bx.wrap q x.2.x, by'.wrap q x.2.y, x.2.rest⟩)

/-- the 3D counterpart of `cross2` -/
def cross3 {R : Type} (rk : Nat → Nat) (nbr : Nat → B3 → Option Nat) (bx by' bz : Bnd) (x : Nat × A3 R) :
    Nat × A3 R :=
  match B3.all.find? fun b => decide (b.offset =
      (side (bx.lo x.1) (bx.hi x.1) x.2.x, side (by'.lo x.1) (by'.hi x.1) x.2.y,
        side (bz.lo x.1) (bz.hi x.1) x.2.z)) with
  | none => x
  | some b =>
    match nbr x.1 b with
    | none => x
    | some q => if rk q = rk x.1 then x
      else (q, ⟨bx.wrap q x.2.x, by'.wrap q x.2.y, bz.wrap q x.2.z, x.2.rest⟩)

/-- the particle moved at most into a neighbouring patch: if it left its patch `p` towards a patch `q`,
it is now inside `q`, or there is no patch for it to go on to from there -/
def OneStep2 {R : Type} (nbr : Nat → B2 → Option Nat) (bx by' : Bnd) (p : Nat) (a : A2 R) : Prop :=
  ∀ b q, b.offset = (side (bx.lo p) (bx.hi p) a.x, side (by'.lo p) (by'.hi p) a.y) → nbr p b = some q →
    (side (bx.lo q) (bx.hi q) (bx.wrap q a.x) = 0 ∧ side (by'.lo q) (by'.hi q) (by'.wrap q a.y) = 0) ∨
    dest2 nbr bx by' q (⟨bx.wrap q a.x, by'.wrap q a.y, a.rest⟩ : A2 R) = none

/-- the 3D counterpart of `OneStep2` -/
def OneStep3 {R : Type} (nbr : Nat → B3 → Option Nat) (bx by' bz : Bnd) (p : Nat) (a : A3 R) : Prop :=
  ∀ b q, b.offset = (side (bx.lo p) (bx.hi p) a.x, side (by'.lo p) (by'.hi p) a.y,
      side (bz.lo p) (bz.hi p) a.z) → nbr p b = some q →
    (side (bx.lo q) (bx.hi q) (bx.wrap q a.x) = 0 ∧ side (by'.lo q) (by'.hi q) (by'.wrap q a.y) = 0 ∧
      side (bz.lo q) (bz.hi q) (bz.wrap q a.z) = 0) ∨
    dest3 nbr bx by' bz q (⟨bx.wrap q a.x, by'.wrap q a.y, bz.wrap q a.z, a.rest⟩ : A3 R) = none

/-! ## Bridging lemmas -/

theorem hop_eq_cross2 {R : Type} (n : Nat) (rk : Nat → Nat) (nbr : Nat → B2 → Option Nat) (bx by' : Bnd)
    (blank : A2 R) (x : Nat × A2 R) :
    hop (geo2 n (SyncFields.remoteNbr rk nbr) bx by' blank) x = cross2 rk nbr bx by' x := by
  unfold hop cross2
  rw [show (geo2 n (SyncFields.remoteNbr rk nbr) bx by' blank).cls x.1 x.2 = cls2 bx by' x.1 x.2 from rfl,
    cls2_find]
  cases B2.all.find? (fun b => decide (b.offset =
      (side (bx.lo x.1) (bx.hi x.1) x.2.x, side (by'.lo x.1) (by'.hi x.1) x.2.y))) with
  | none => rfl
  | some b =>
    simp only [geo2, SyncFields.remoteNbr]
    cases nbr x.1 b with
    | none => rfl
    | some q => by_cases h : rk q = rk x.1 <;> simp [Option.filter, h]

theorem hop_eq_cross3 {R : Type} (n : Nat) (rk : Nat → Nat) (nbr : Nat → B3 → Option Nat) (bx by' bz : Bnd)
    (blank : A3 R) (x : Nat × A3 R) :
    hop (geo3 n (SyncFields.remoteNbr rk nbr) bx by' bz blank) x = cross3 rk nbr bx by' bz x := by
  unfold hop cross3
  rw [show (geo3 n (SyncFields.remoteNbr rk nbr) bx by' bz blank).cls x.1 x.2 = cls3 bx by' bz x.1 x.2 from rfl,
    cls3_find]
  cases B3.all.find? (fun b => decide (b.offset =
      (side (bx.lo x.1) (bx.hi x.1) x.2.x, side (by'.lo x.1) (by'.hi x.1) x.2.y,
        side (bz.lo x.1) (bz.hi x.1) x.2.z))) with
  | none => rfl
  | some b =>
    simp only [geo3, SyncFields.remoteNbr]
    cases nbr x.1 b with
    | none => rfl
    | some q => by_cases h : rk q = rk x.1 <;> simp [Option.filter, h]

theorem parRoute2 {R : Type} (n : Nat) (rk : Nat → Nat) (nbr : Nat → B2 → Option Nat) (bx by' : Bnd)
    (blank : A2 R) (x : Nat × A2 R) (h : OneStep2 nbr bx by' x.1 x.2) :
    parRoute (geo2 n nbr bx by' blank) rk x = dest2 nbr bx by' x.1 x.2 := by
  rw [parRoute_eq (cls2_none bx by') rk x, route_eq_dest2]
  intro d q hc hb _ hi
  have hf : cls2 bx by' x.1 x.2 = some d := hc
  rw [cls2_find] at hf
  have hoff := List.find?_some hf
  simp only [decide_eq_true_eq] at hoff
  rcases h d q hoff hb with h | h
  · exact absurd ((inside2_iff bx by' q (⟨bx.wrap q x.2.x, by'.wrap q x.2.y, x.2.rest⟩ : A2 R)).mpr h)
      (fun e => Bool.noConfusion (e.symm.trans hi))
  · exact (route_eq_dest2 n nbr bx by' blank q _).trans h

theorem parRoute3 {R : Type} (n : Nat) (rk : Nat → Nat) (nbr : Nat → B3 → Option Nat) (bx by' bz : Bnd)
    (blank : A3 R) (x : Nat × A3 R) (h : OneStep3 nbr bx by' bz x.1 x.2) :
    parRoute (geo3 n nbr bx by' bz blank) rk x = dest3 nbr bx by' bz x.1 x.2 := by
  rw [parRoute_eq (cls3_none bx by' bz) rk x, route_eq_dest3]
  intro d q hc hb _ hi
  have hf : cls3 bx by' bz x.1 x.2 = some d := hc
  rw [cls3_find] at hf
  have hoff := List.find?_some hf
  simp only [decide_eq_true_eq] at hoff
  rcases h d q hoff hb with h | h
  · exact absurd ((inside3_iff bx by' bz q
      (⟨bx.wrap q x.2.x, by'.wrap q x.2.y, bz.wrap q x.2.z, x.2.rest⟩ : A3 R)).mpr h)
      (fun e => Bool.noConfusion (e.symm.trans hi))
  · exact (route_eq_dest3 n nbr bx by' bz blank q _).trans h


/-! ## 2D -/

section dim2
variable {R : Type} {n : Nat} {nbr : Nat → B2 → Option Nat} (rk : Nat → Nat) (bx by' : Bnd) (blank : A2 R)
  (s : Nat → List (Slot (A2 R))) {ord2 ord3 : List Nat}

/-- **C63**, first stage, 2D. For every number of patches, every assignment of patches to ranks and
every state, the exchange between ranks has no undefined behaviour, and the living particles afterwards
are exactly (as a multiset) the living particles before, those that left towards another rank being in
the patch they left to. Nothing is lost here, whatever distance a particle moved, and a particle that is
not sent keeps its slot. -/
theorem mpi2_conserves (hsym : Sym2 n nbr) :
    ∃ s', mpiSync (geo2 n (SyncFields.remoteNbr rk nbr) bx by' blank) s = some s' ∧
      (living n s').Perm ((living n s).map (cross2 rk nbr bx by')) ∧
      ∀ (p k : Nat) (sl : Slot (A2 R)), (s p)[k]? = some sl → sl.dead = false →
        (cross2 rk nbr bx by' (p, sl.a)).1 = p → (s' p)[k]? = some sl := by
  have hwf : WF (geo2 n (SyncFields.remoteNbr rk nbr) bx by' blank) :=
    wf_remote (wf2 hsym bx by' blank) rk
  refine ⟨_, mpiSync_eq hwf s, ?_, ?_⟩
  · refine (living_mpi hwf s).trans (List.Perm.of_eq ?_)
    apply List.map_congr_left
    intro x _
    exact hop_eq_cross2 n rk nbr bx by' blank x
  · intro p k sl h hd hx
    refine mpiFinal_keeps _ _ _ _ _ h hd ?_
    rw [← hop_eq_cross2 n rk nbr bx by' blank] at hx
    unfold sent
    unfold hop at hx
    cases hc : (geo2 n (SyncFields.remoteNbr rk nbr) bx by' blank).cls p sl.a with
    | none => simp
    | some d =>
      simp only [hc] at hx
      simp only
      cases hn : (geo2 n (SyncFields.remoteNbr rk nbr) bx by' blank).nbr p d with
      | none => simp
      | some q =>
        rw [hn] at hx
        have hq : q = p := hx
        have hn' : SyncFields.remoteNbr rk nbr p d = some q := hn
        have := (Option.filter_eq_some_iff.mp hn').2
        rw [hq] at this
        simp at this

/-- **C63.** 2D. For every number of patches, every assignment `rk` of patches to ranks, every state
whose particles moved at most into a neighbouring patch, and every order of the parallel loops: the two
exchanges of one step run without undefined behaviour, and the living particles afterwards are exactly
those given by `dest2` — the same as with a single process (`exchange2_conserves`), for every `rk`.
A living particle inside its patch keeps its slot. -/
theorem ranks2_conserve (hsym : Sym2 n nbr) (h2 : ord2.Perm (List.range n)) (h3 : ord3.Perm (List.range n))
    (hone : ∀ x ∈ living n s, OneStep2 nbr bx by' x.1 x.2) :
    ∃ s', parSync (geo2 n nbr bx by' blank) rk ord2 ord3 s = some s' ∧
      (living n s').Perm ((living n s).filterMap fun x => dest2 nbr bx by' x.1 x.2) ∧
      ∀ (p k : Nat) (sl : Slot (A2 R)), (s p)[k]? = some sl → sl.dead = false →
        side (bx.lo p) (bx.hi p) sl.a.x = 0 → side (by'.lo p) (by'.hi p) sl.a.y = 0 → (s' p)[k]? = some sl := by
  obtain ⟨s', he, hp, hk⟩ := parSync_eq (wf2 hsym bx by' blank) (cls2_none bx by') rk s h2 h3
  refine ⟨s', he, hp.trans (List.Perm.of_eq ?_), ?_⟩
  · apply List.filterMap_congr
    intro x hx
    exact parRoute2 n rk nbr bx by' blank x (hone x hx)
  · intro p k sl h hd hx hy 
    exact hk p k sl h hd ((inside2_iff bx by' p sl.a).mpr ⟨hx, hy⟩)

/-- **C63**, without the restriction on the distance, 2D: the exact outcome. A particle is first taken
across (`cross2`) and then treated by its new rank like one of its own, which knows only the patches of
that rank as neighbours. In particular the two exchanges never fail. -/
theorem ranks2_outcome (hsym : Sym2 n nbr) (h2 : ord2.Perm (List.range n)) (h3 : ord3.Perm (List.range n)) :
    ∃ s', parSync (geo2 n nbr bx by' blank) rk ord2 ord3 s = some s' ∧
      (living n s').Perm ((living n s).filterMap fun x =>
        dest2 (SyncFields.localNbr rk nbr) bx by' (cross2 rk nbr bx by' x).1 (cross2 rk nbr bx by' x).2) := by
  obtain ⟨s', he, hp, _⟩ := parSync_eq (wf2 hsym bx by' blank) (cls2_none bx by') rk s h2 h3
  refine ⟨s', he, hp.trans (List.Perm.of_eq ?_)⟩
  apply List.filterMap_congr
  intro x _
  rw [← hop_eq_cross2 n rk nbr bx by' blank x, ← route_eq_dest2 n _ bx by' blank]
  rfl

/-- **C63**, restated: two assignments of the patches to ranks give the same living particles, and so
does a single process. 2D. -/
theorem ranks2_layout_independent (hsym : Sym2 n nbr) (rk' : Nat → Nat) {o2 o3 : List Nat}
    (h2 : ord2.Perm (List.range n)) (h3 : ord3.Perm (List.range n))
    (g2 : o2.Perm (List.range n)) (g3 : o3.Perm (List.range n))
    (hone : ∀ x ∈ living n s, OneStep2 nbr bx by' x.1 x.2) :
    ∃ s1 s2 s3, parSync (geo2 n nbr bx by' blank) rk ord2 ord3 s = some s1 ∧
      parSync (geo2 n nbr bx by' blank) rk' o2 o3 s = some s2 ∧
      syncParticles (geo2 n nbr bx by' blank) o2 o3 s = some s3 ∧
      (living n s1).Perm (living n s2) ∧ (living n s1).Perm (living n s3) := by
  obtain ⟨s1, e1, p1, _⟩ := ranks2_conserve rk bx by' blank s hsym h2 h3 hone
  obtain ⟨s2, e2, p2, _⟩ := ranks2_conserve rk' bx by' blank s hsym g2 g3 hone
  obtain ⟨s3, e3, p3, _⟩ := exchange2_conserves bx by' blank s hsym g2 g3
  exact ⟨s1, s2, s3, e1, e2, e3, p1.trans p2.symm, p1.trans p3.symm⟩

end dim2

/-! ## 3D -/

section dim3
variable {R : Type} {n : Nat} {nbr : Nat → B3 → Option Nat} (rk : Nat → Nat) (bx by' bz : Bnd) (blank : A3 R)
  (s : Nat → List (Slot (A3 R))) {ord2 ord3 : List Nat}

/-- **C63**, first stage, 3D. For every number of patches, every assignment of patches to ranks and
every state, the exchange between ranks has no undefined behaviour, and the living particles afterwards
are exactly (as a multiset) the living particles before, those that left towards another rank being in
the patch they left to. Nothing is lost here, whatever distance a particle moved, and a particle that is
not sent keeps its slot. -/
theorem mpi3_conserves (hsym : Sym3 n nbr) :
    ∃ s', mpiSync (geo3 n (SyncFields.remoteNbr rk nbr) bx by' bz blank) s = some s' ∧
      (living n s').Perm ((living n s).map (cross3 rk nbr bx by' bz)) ∧
      ∀ (p k : Nat) (sl : Slot (A3 R)), (s p)[k]? = some sl → sl.dead = false →
        (cross3 rk nbr bx by' bz (p, sl.a)).1 = p → (s' p)[k]? = some sl := by
  have hwf : WF (geo3 n (SyncFields.remoteNbr rk nbr) bx by' bz blank) :=
    wf_remote (wf3 hsym bx by' bz blank) rk
  refine ⟨_, mpiSync_eq hwf s, ?_, ?_⟩
  · refine (living_mpi hwf s).trans (List.Perm.of_eq ?_)
    apply List.map_congr_left
    intro x _
    exact hop_eq_cross3 n rk nbr bx by' bz blank x
  · intro p k sl h hd hx
    refine mpiFinal_keeps _ _ _ _ _ h hd ?_
    rw [← hop_eq_cross3 n rk nbr bx by' bz blank] at hx
    unfold sent
    unfold hop at hx
    cases hc : (geo3 n (SyncFields.remoteNbr rk nbr) bx by' bz blank).cls p sl.a with
    | none => simp
    | some d =>
      simp only [hc] at hx
      simp only
      cases hn : (geo3 n (SyncFields.remoteNbr rk nbr) bx by' bz blank).nbr p d with
      | none => simp
      | some q =>
        rw [hn] at hx
        have hq : q = p := hx
        have hn' : SyncFields.remoteNbr rk nbr p d = some q := hn
        have := (Option.filter_eq_some_iff.mp hn').2
        rw [hq] at this
        simp at this

/-- **C63.** 3D. For every number of patches, every assignment `rk` of patches to ranks, every state
whose particles moved at most into a neighbouring patch, and every order of the parallel loops: the two
exchanges of one step run without undefined behaviour, and the living particles afterwards are exactly
those given by `dest3` — the same as with a single process (`exchange3_conserves`), for every `rk`.
A living particle inside its patch keeps its slot. -/
theorem ranks3_conserve (hsym : Sym3 n nbr) (h2 : ord2.Perm (List.range n)) (h3 : ord3.Perm (List.range n))
    (hone : ∀ x ∈ living n s, OneStep3 nbr bx by' bz x.1 x.2) :
    ∃ s', parSync (geo3 n nbr bx by' bz blank) rk ord2 ord3 s = some s' ∧
      (living n s').Perm ((living n s).filterMap fun x => dest3 nbr bx by' bz x.1 x.2) ∧
      ∀ (p k : Nat) (sl : Slot (A3 R)), (s p)[k]? = some sl → sl.dead = false →
        side (bx.lo p) (bx.hi p) sl.a.x = 0 → side (by'.lo p) (by'.hi p) sl.a.y = 0 →
        side (bz.lo p) (bz.hi p) sl.a.z = 0 → (s' p)[k]? = some sl := by
  obtain ⟨s', he, hp, hk⟩ := parSync_eq (wf3 hsym bx by' bz blank) (cls3_none bx by' bz) rk s h2 h3
  refine ⟨s', he, hp.trans (List.Perm.of_eq ?_), ?_⟩
  · apply List.filterMap_congr
    intro x hx
    exact parRoute3 n rk nbr bx by' bz blank x (hone x hx)
  · intro p k sl h hd hx hy hz
    exact hk p k sl h hd ((inside3_iff bx by' bz p sl.a).mpr ⟨hx, hy, hz⟩)

/-- **C63**, without the restriction on the distance, 3D: the exact outcome. A particle is first taken
across (`cross3`) and then treated by its new rank like one of its own, which knows only the patches of
that rank as neighbours. In particular the two exchanges never fail. -/
theorem ranks3_outcome (hsym : Sym3 n nbr) (h2 : ord2.Perm (List.range n)) (h3 : ord3.Perm (List.range n)) :
    ∃ s', parSync (geo3 n nbr bx by' bz blank) rk ord2 ord3 s = some s' ∧
      (living n s').Perm ((living n s).filterMap fun x =>
        dest3 (SyncFields.localNbr rk nbr) bx by' bz (cross3 rk nbr bx by' bz x).1 (cross3 rk nbr bx by' bz x).2) := by
  obtain ⟨s', he, hp, _⟩ := parSync_eq (wf3 hsym bx by' bz blank) (cls3_none bx by' bz) rk s h2 h3
  refine ⟨s', he, hp.trans (List.Perm.of_eq ?_)⟩
  apply List.filterMap_congr
  intro x _
  rw [← hop_eq_cross3 n rk nbr bx by' bz blank x, ← route_eq_dest3 n _ bx by' bz blank]
  rfl

/-- **C63**, restated: two assignments of the patches to ranks give the same living particles, and so
does a single process. 3D. -/
theorem ranks3_layout_independent (hsym : Sym3 n nbr) (rk' : Nat → Nat) {o2 o3 : List Nat}
    (h2 : ord2.Perm (List.range n)) (h3 : ord3.Perm (List.range n))
    (g2 : o2.Perm (List.range n)) (g3 : o3.Perm (List.range n))
    (hone : ∀ x ∈ living n s, OneStep3 nbr bx by' bz x.1 x.2) :
    ∃ s1 s2 s3, parSync (geo3 n nbr bx by' bz blank) rk ord2 ord3 s = some s1 ∧
      parSync (geo3 n nbr bx by' bz blank) rk' o2 o3 s = some s2 ∧
      syncParticles (geo3 n nbr bx by' bz blank) o2 o3 s = some s3 ∧
      (living n s1).Perm (living n s2) ∧ (living n s1).Perm (living n s3) := by
  obtain ⟨s1, e1, p1, _⟩ := ranks3_conserve rk bx by' bz blank s hsym h2 h3 hone
  obtain ⟨s2, e2, p2, _⟩ := ranks3_conserve rk' bx by' bz blank s hsym g2 g3 hone
  obtain ⟨s3, e3, p3, _⟩ := exchange3_conserves bx by' bz blank s hsym g2 g3
  exact ⟨s1, s2, s3, e1, e2, e3, p1.trans p2.symm, p1.trans p3.symm⟩

end dim3

/-! ## On a periodic domain -/

theorem offset_of_dest2 {R : Type} {nbr : Nat → B2 → Option Nat} {bx by' : Bnd} {p : Nat} {a : A2 R}
    (h : (dest2 nbr bx by' p a).isSome) : OneStep2 nbr bx by' p a := by
  intro b q ho hn
  left
  unfold dest2 at h
  simp only at h
  rw [← ho] at h
  have hf : B2.all.find? (fun b' => decide (b'.offset = b.offset)) = some b := by cases b <;> rfl
  have h0 : ¬ (side (bx.lo p) (bx.hi p) a.x = 0 ∧ side (by'.lo p) (by'.hi p) a.y = 0) := by
    rintro ⟨e1, e2⟩
    rw [e1, e2] at ho
    cases b <;> simp [B2.offset] at ho
  rw [if_neg h0, hf] at h
  simp only [hn] at h
  by_contra hc
  rw [if_neg hc] at h
  simp at h

/-- **C63** on a periodic domain: as long as no particle moves by more than one patch length, the
payloads (weight, momentum, id, …) of the living particles are the same multiset before and after the
step's exchanges, however the patches are spread over ranks. -/
theorem ranks2_periodic_conserves {R : Type} {ax ay : Axis} (hx : PeriodicAxis ax) (hy : PeriodicAxis ay)
    (rk : Nat → Nat) (blank : A2 R) (s : Nat → List (Slot (A2 R))) {ord2 ord3 : List Nat}
    (h2 : ord2.Perm (List.range (createPatches2 ax.n ay.n).length))
    (h3 : ord3.Perm (List.range (createPatches2 ax.n ay.n).length))
    (hnear : ∀ x ∈ living (createPatches2 ax.n ay.n).length s, ∀ pp,
      (createPatches2 ax.n ay.n)[x.1]? = some pp → ∃ vx vy, x.2.x = .val vx ∧ x.2.y = .val vy ∧
        Near ax pp.ix vx ∧ Near ay pp.iy vy) :
    ∃ s', parSync (simGeo2 ax ay (createPatches2 ax.n ay.n) (createPatches2 ax.n ay.n) blank)
        rk ord2 ord3 s = some s' ∧
      ((living (createPatches2 ax.n ay.n).length s').map fun x => x.2.rest).Perm
        ((living (createPatches2 ax.n ay.n).length s).map fun x => x.2.rest) := by
  have hpx : ax.bc.Paired := by unfold AxisBC.Paired; rw [hx.lo, hx.hi]
  have hpy : ay.bc.Paired := by unfold AxisBC.Paired; rw [hy.lo, hy.hi]
  have hsym := sym2_of_grid hpx hpy (grid_createPatches2 ax.n ay.n) (fun _ h => h)
    (nodup_createPatches2 ax.n ay.n)
  have land : ∀ x ∈ living (createPatches2 ax.n ay.n).length s, ∃ q vx vy,
      dest2 (neighborIpatch2 ax.n ay.n ax.bc ay.bc (createPatches2 ax.n ay.n) (createPatches2 ax.n ay.n))
        (ax.bnd fun ip => ((createPatches2 ax.n ay.n)[ip]?.map P2.ix).getD 0)
        (ay.bnd fun ip => ((createPatches2 ax.n ay.n)[ip]?.map P2.iy).getD 0) x.1 x.2 =
        some (q, ⟨vx, vy, x.2.rest⟩) := by
    intro x hxm
    have hlt : x.1 < (createPatches2 ax.n ay.n).length := mem_living hxm
    have hpp : (createPatches2 ax.n ay.n)[x.1]? = some (createPatches2 ax.n ay.n)[x.1] :=
      List.getElem?_eq_getElem hlt
    obtain ⟨vx, vy, e1, e2, n1, n2⟩ := hnear x hxm _ hpp
    obtain ⟨q, qq, _, hd, _⟩ := periodic2_lands_inside (R := R) hx hy x.1 _ hpp vx vy x.2.rest n1 n2
    have : x.2 = ⟨.val vx, .val vy, x.2.rest⟩ := by rw [← e1, ← e2]
    refine ⟨q, .val (foldBack ax vx), .val (foldBack ay vy), ?_⟩
    rw [this]
    exact hd
  obtain ⟨s', he, hp, _⟩ := ranks2_conserve rk
    (ax.bnd fun ip => ((createPatches2 ax.n ay.n)[ip]?.map P2.ix).getD 0)
    (ay.bnd fun ip => ((createPatches2 ax.n ay.n)[ip]?.map P2.iy).getD 0) blank s hsym h2 h3
    (fun x hxm => by
      obtain ⟨q, vx, vy, h⟩ := land x hxm
      exact offset_of_dest2 (by rw [h]; rfl))
  refine ⟨s', he, (hp.map _).trans (List.Perm.of_eq ?_)⟩
  rw [List.map_filterMap, ← List.filterMap_eq_map]
  apply List.filterMap_congr
  intro x hxm
  obtain ⟨q, vx, vy, h⟩ := land x hxm
  rw [h]
  rfl

theorem offset_of_dest3 {R : Type} {nbr : Nat → B3 → Option Nat} {bx by' bz : Bnd} {p : Nat} {a : A3 R}
    (h : (dest3 nbr bx by' bz p a).isSome) : OneStep3 nbr bx by' bz p a := by
  intro b q ho hn
  left
  unfold dest3 at h
  simp only at h
  rw [← ho] at h
  have hf : B3.all.find? (fun b' => decide (b'.offset = b.offset)) = some b := by cases b <;> rfl
  have h0 : ¬ (side (bx.lo p) (bx.hi p) a.x = 0 ∧ side (by'.lo p) (by'.hi p) a.y = 0 ∧
      side (bz.lo p) (bz.hi p) a.z = 0) := by
    rintro ⟨e1, e2, e3⟩
    rw [e1, e2, e3] at ho
    cases b <;> simp [B3.offset] at ho
  rw [if_neg h0, hf] at h
  simp only [hn] at h
  by_contra hc
  rw [if_neg hc] at h
  simp at h

/-- **C63** on a domain periodic in the three directions: as long as no particle moves by more than one patch length, the
payloads (weight, momentum, id, …) of the living particles are the same multiset before and after the
step's exchanges, however the patches are spread over ranks. -/
theorem ranks3_periodic_conserves {R : Type} {ax ay az : Axis} (hx : PeriodicAxis ax) (hy : PeriodicAxis ay)
    (hz : PeriodicAxis az)
    (rk : Nat → Nat) (blank : A3 R) (s : Nat → List (Slot (A3 R))) {ord2 ord3 : List Nat}
    (h2 : ord2.Perm (List.range (createPatches3 ax.n ay.n az.n).length))
    (h3 : ord3.Perm (List.range (createPatches3 ax.n ay.n az.n).length))
    (hnear : ∀ x ∈ living (createPatches3 ax.n ay.n az.n).length s, ∀ pp,
      (createPatches3 ax.n ay.n az.n)[x.1]? = some pp → ∃ vx vy vz, x.2.x = .val vx ∧ x.2.y = .val vy ∧
        x.2.z = .val vz ∧ Near ax pp.ix vx ∧ Near ay pp.iy vy ∧ Near az pp.iz vz) :
    ∃ s', parSync (simGeo3 ax ay az (createPatches3 ax.n ay.n az.n) (createPatches3 ax.n ay.n az.n) blank)
        rk ord2 ord3 s = some s' ∧
      ((living (createPatches3 ax.n ay.n az.n).length s').map fun x => x.2.rest).Perm
        ((living (createPatches3 ax.n ay.n az.n).length s).map fun x => x.2.rest) := by
  have hpx : ax.bc.Paired := by unfold AxisBC.Paired; rw [hx.lo, hx.hi]
  have hpy : ay.bc.Paired := by unfold AxisBC.Paired; rw [hy.lo, hy.hi]
  have hpz : az.bc.Paired := by unfold AxisBC.Paired; rw [hz.lo, hz.hi]
  have hsym := sym3_of_grid hpx hpy hpz (grid_createPatches3 ax.n ay.n az.n) (fun _ h => h)
    (nodup_createPatches3 ax.n ay.n az.n)
  have land : ∀ x ∈ living (createPatches3 ax.n ay.n az.n).length s, ∃ q vx vy vz,
      dest3 (neighborIpatch3 ax.n ay.n az.n ax.bc ay.bc az.bc (createPatches3 ax.n ay.n az.n) (createPatches3 ax.n ay.n az.n))
        (ax.bnd fun ip => ((createPatches3 ax.n ay.n az.n)[ip]?.map P3.ix).getD 0)
        (ay.bnd fun ip => ((createPatches3 ax.n ay.n az.n)[ip]?.map P3.iy).getD 0)
        (az.bnd fun ip => ((createPatches3 ax.n ay.n az.n)[ip]?.map P3.iz).getD 0) x.1 x.2 =
        some (q, ⟨vx, vy, vz, x.2.rest⟩) := by
    intro x hxm
    have hlt : x.1 < (createPatches3 ax.n ay.n az.n).length := mem_living hxm
    have hpp : (createPatches3 ax.n ay.n az.n)[x.1]? = some (createPatches3 ax.n ay.n az.n)[x.1] :=
      List.getElem?_eq_getElem hlt
    obtain ⟨vx, vy, vz, e1, e2, e3, n1, n2, n3⟩ := hnear x hxm _ hpp
    obtain ⟨q, qq, _, hd, _⟩ := periodic3_lands_inside (R := R) hx hy hz x.1 _ hpp vx vy vz x.2.rest n1 n2 n3
    have : x.2 = ⟨.val vx, .val vy, .val vz, x.2.rest⟩ := by rw [← e1, ← e2, ← e3]
    refine ⟨q, .val (foldBack ax vx), .val (foldBack ay vy), .val (foldBack az vz), ?_⟩
    rw [this]
    exact hd
  obtain ⟨s', he, hp, _⟩ := ranks3_conserve rk
    (ax.bnd fun ip => ((createPatches3 ax.n ay.n az.n)[ip]?.map P3.ix).getD 0)
    (ay.bnd fun ip => ((createPatches3 ax.n ay.n az.n)[ip]?.map P3.iy).getD 0)
        (az.bnd fun ip => ((createPatches3 ax.n ay.n az.n)[ip]?.map P3.iz).getD 0) blank s hsym h2 h3
    (fun x hxm => by
      obtain ⟨q, vx, vy, vz, h⟩ := land x hxm
      exact offset_of_dest3 (by rw [h]; rfl))
  refine ⟨s', he, (hp.map _).trans (List.Perm.of_eq ?_)⟩
  rw [List.map_filterMap, ← List.filterMap_eq_map]
  apply List.filterMap_congr
  intro x hxm
  obtain ⟨q, vx, vy, vz, h⟩ := land x hxm
  rw [h]
  rfl

/-! ## Why the restriction is needed, and examples -/

/-- three patches `[0,1]`, `[1,2]`, `[2,3]` in a row -/
def rowBx : Bnd := ⟨fun i => i, fun i => i + 1, 0, 3, 1/10⟩
def rowBy : Bnd := ⟨fun _ => 0, fun _ => 1, 0, 1, 1/10⟩
def rowNbr : Nat → B2 → Option Nat
  | 0, .xmax => some 1
  | 1, .xmin => some 0
  | 1, .xmax => some 2
  | 2, .xmin => some 1
  | _, _ => none
/-- one particle of patch 0, at `x`, and one that stays in patch 1 -/
def rowState (x : Rat) : Nat → List (Slot (A2 Nat))
  | 0 => [⟨⟨.val x, .val (1/2), 7⟩, false⟩]
  | 1 => [⟨⟨.val (3/2), .val (1/2), 8⟩, false⟩]
  | _ => []

theorem rowSym : Sym2 3 rowNbr := by
  intro i b t h
  match i, b, h with
  | 0, .xmax, h => simp [rowNbr] at h; subst h; exact ⟨by omega, by omega, rfl⟩
  | 1, .xmin, h => simp [rowNbr] at h; subst h; exact ⟨by omega, by omega, rfl⟩
  | 1, .xmax, h => simp [rowNbr] at h; subst h; exact ⟨by omega, by omega, rfl⟩
  | 2, .xmin, h => simp [rowNbr] at h; subst h; exact ⟨by omega, by omega, rfl⟩

/-- The hypotheses of `ranks2_conserve` are met by a particle that moves from patch 0 to patch 1 of
another rank, and it really arrives there. -/
example : Sym2 3 rowNbr ∧
    (∀ x ∈ living 3 (rowState (3/2)), OneStep2 rowNbr rowBx rowBy x.1 x.2) ∧
    (parSync (geo2 3 rowNbr rowBx rowBy (⟨.nan, .nan, 0⟩ : A2 Nat)) (fun p => p) [1, 0, 2] [2, 0, 1]
      (rowState (3/2))).map (fun s' => living 3 s') =
      some [(1, ⟨.val (3/2), .val (1/2), 8⟩), (1, ⟨.val (3/2), .val (1/2), 7⟩)] := by
  refine ⟨rowSym, ?_, by decide +kernel⟩
  intro x hx
  have : x = (0, ⟨.val (3/2), .val (1/2), 7⟩) ∨ x = (1, ⟨.val (3/2), .val (1/2), 8⟩) := by
    simpa [living, rowState, alive, List.range_succ] using hx
  refine offset_of_dest2 ?_
  rcases this with rfl | rfl <;> decide +kernel

/-- **The restriction to particles that moved at most into a neighbouring patch is needed**: a particle
of patch 0 that is beyond patch 1 is removed by a single process, but is kept, in patch 2, when patch 0
is on one rank and patches 1 and 2 on another. -/
theorem ranks2_far_fails :
    (syncParticles (geo2 3 rowNbr rowBx rowBy (⟨.nan, .nan, 0⟩ : A2 Nat)) [0, 1, 2] [0, 1, 2]
      (rowState (5/2))).map (fun s' => living 3 s') = some [(1, ⟨.val (3/2), .val (1/2), 8⟩)] ∧
    (parSync (geo2 3 rowNbr rowBx rowBy (⟨.nan, .nan, 0⟩ : A2 Nat)) (fun p => if p = 0 then 0 else 1)
      [0, 1, 2] [0, 1, 2] (rowState (5/2))).map (fun s' => living 3 s') =
      some [(1, ⟨.val (3/2), .val (1/2), 8⟩), (2, ⟨.val (5/2), .val (1/2), 7⟩)] := by
  constructor <;> decide +kernel

end Verif.MpiExchangeProps
