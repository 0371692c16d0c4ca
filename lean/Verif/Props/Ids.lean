import Verif.Props.Exchange
import Verif.Props.Qed
/-!
# C02 — ids of living particles
-/
namespace Verif.Ids
open Verif Verif.Exchange Verif.Geometry Verif.Neighbors Verif.ExchangeProps
open Verif.Particles (F64)

/-! ## specification -/

-- a particle: anything that carries an id
variable {R : Type} (id : R → Nat)

/-- the ids of the living particles of patches `0 … n-1` -/
def livingIds (n : Nat) (s : Nat → List (Slot (A2 R))) : List Nat :=
  (List.range n).flatMap fun p => ((s p).filter fun sl => !sl.dead).map fun sl => id sl.a.rest

/-- the ids of all slots, dead or alive -/
def slotIds (n : Nat) (s : Nat → List (Slot (A2 R))) : List Nat :=
  (List.range n).flatMap fun p => (s p).map fun sl => id sl.a.rest

/-- One step of a run in which particles migrate but none are created by QED processes:
* `change`: anything that keeps for each patch which ids are alive, up to order and losses (pushing, sorting, pruning, removing
  particles, extending by dead slots);
* `exchange`: the exchange of particles between patches, under any schedule. -/
inductive MigrationStep (n : Nat) (nbr : Nat → B2 → Option Nat) (bx by' : Bnd) (blank : A2 R) :
    (Nat → List (Slot (A2 R))) → (Nat → List (Slot (A2 R))) → Prop
  | change (s s') (h : ∀ p, (((s' p).filter fun sl => !sl.dead).map fun sl => id sl.a.rest).Subperm
      (((s p).filter fun sl => !sl.dead).map fun sl => id sl.a.rest)) : MigrationStep n nbr bx by' blank s s'
  | exchange (s s') (ord2 ord3 : List Nat) (h2 : ord2.Perm (List.range n)) (h3 : ord3.Perm (List.range n))
      (h : syncParticles (geo2 n nbr bx by' blank) ord2 ord3 s = some s') : MigrationStep n nbr bx by' blank s s'

/-- One step of a run in which particles are created in dead slots but none migrate:
* `rewrite`: any change of a slot that keeps its id (pushing, creating a particle in a dead slot, removing one);
* `rearrange`: slots of a patch are permuted, and some may be dropped (sorting, pruning);
* `extend`: new slots with ids never used before (C01). -/
inductive CreationStep (n : Nat) : (Nat → List (Slot (A2 R))) → (Nat → List (Slot (A2 R))) → Prop
  | rewrite (s s') (h : ∀ p, (s' p).map (fun sl => id sl.a.rest) = (s p).map fun sl => id sl.a.rest) : CreationStep n s s'
  | rearrange (s s') (h : ∀ p, (s' p).Subperm (s p)) : CreationStep n s s'
  | extend (s s') (q : Nat) (new : List (Slot (A2 R))) (hq : q < n) (hnew : (new.map fun sl => id sl.a.rest).Nodup)
      (hfresh : ∀ sl ∈ new, id sl.a.rest ∉ slotIds id n s)
      (h : ∀ p, s' p = if p = q then s p ++ new else s p) : CreationStep n s s'

/-- any number of steps -/
inductive Many {σ : Type} (step : σ → σ → Prop) : σ → σ → Prop
  | refl (s) : Many step s s
  | tail {s t u} : Many step s t → step t u → Many step s u

/-! ## proofs -/

theorem flatMap_subperm {α β : Type} {f g : α → List β} (l : List α) (h : ∀ a ∈ l, (f a).Subperm (g a)) :
    (l.flatMap f).Subperm (l.flatMap g) := by
  induction l with
  | nil => exact List.Subperm.refl _
  | cons a l ih =>
    rw [List.flatMap_cons, List.flatMap_cons]
    exact (h a List.mem_cons_self).append (ih fun b hb => h b (List.mem_cons_of_mem _ hb))

theorem nodup_of_subperm {α : Type} {l m : List α} (h : l.Subperm m) (hm : m.Nodup) : l.Nodup := by
  obtain ⟨k, hk, hs⟩ := h
  exact hk.nodup_iff.mp (hm.sublist hs)

theorem map_subperm {α β : Type} (f : α → β) {l m : List α} (h : l.Subperm m) : (l.map f).Subperm (m.map f) := by
  obtain ⟨k, hk, hs⟩ := h
  exact ⟨k.map f, hk.map f, hs.map f⟩

theorem livingIds_eq (n : Nat) (s : Nat → List (Slot (A2 R))) :
    livingIds id n s = (Exchange.living n s).map fun x => id x.2.rest := by
  unfold livingIds Exchange.living
  rw [List.map_flatMap]
  apply List.flatMap_congr
  intro p _
  unfold Exchange.alive
  rw [List.map_map, List.map_map]
  rfl

theorem dest2_id (nbr : Nat → B2 → Option Nat) (bx by' : Bnd) (p : Nat) (a : A2 R) (x : Nat × A2 R)
    (h : dest2 nbr bx by' p a = some x) : x.2.rest = a.rest := by
  unfold dest2 at h
  dsimp only at h
  split at h
  · cases h; rfl
  · split at h
    · cases h
    · split at h
      · cases h
      · split at h
        · cases h; rfl
        · cases h

theorem filterMap_ids (nbr : Nat → B2 → Option Nat) (bx by' : Bnd) (l : List (Nat × A2 R)) :
    ((l.filterMap fun x => dest2 nbr bx by' x.1 x.2).map fun x => id x.2.rest).Sublist (l.map fun x => id x.2.rest) := by
  induction l with
  | nil => exact List.Sublist.refl _
  | cons a l ih =>
    rw [List.filterMap_cons]
    cases h : dest2 nbr bx by' a.1 a.2 with
    | none => exact ih.cons _
    | some x =>
      dsimp only
      rw [List.map_cons, List.map_cons, dest2_id nbr bx by' _ _ _ h]
      exact ih.cons_cons _

/-- **C02, partial (migration without creation).** Through every history of pushes, sorts, prunings, extensions, removals and
particle exchanges, under every schedule of the exchange, no two living particles carry the same id if they did not at the start.
Missing: QED creation, see `ids_collide_fails`. -/
theorem ids_unique_migration_partial (n : Nat) (nbr : Nat → B2 → Option Nat) (hsym : Sym2 n nbr) (bx by' : Bnd) (blank : A2 R)
    (s s' : Nat → List (Slot (A2 R))) (h : Many (MigrationStep id n nbr bx by' blank) s s') (h0 : (livingIds id n s).Nodup) :
    (livingIds id n s').Nodup := by
  induction h with
  | refl => exact h0
  | tail _ hstep ih =>
    cases hstep with
    | change h => exact nodup_of_subperm (flatMap_subperm _ fun p _ => h p) ih
    | exchange ord2 ord3 h2 h3 h =>
      obtain ⟨s1, e1, hp, _⟩ := exchange2_conserves bx by' blank _ hsym h2 h3
      rw [h] at e1
      cases e1
      rw [livingIds_eq] at ih ⊢
      exact (hp.map fun x => id x.2.rest).nodup_iff.mpr (ih.sublist (filterMap_ids id nbr bx by' _))

theorem livingIds_sub (n : Nat) (s : Nat → List (Slot (A2 R))) : (livingIds id n s).Sublist (slotIds id n s) := by
  unfold livingIds slotIds
  induction List.range n with
  | nil => exact List.Sublist.refl _
  | cons p l ih =>
    rw [List.flatMap_cons, List.flatMap_cons]
    exact (List.filter_sublist.map _).append ih

/-- **C02, partial (creation without migration).** Through every history of pushes, sorts, prunings, removals, extensions with fresh
ids and creations in dead slots, no two living particles carry the same id if no two slots did at the start.
Missing: migration, see `ids_collide_fails`. -/
theorem ids_unique_creation_partial (n : Nat) (s s' : Nat → List (Slot (A2 R))) (h : Many (CreationStep id n) s s')
    (h0 : (slotIds id n s).Nodup) : (livingIds id n s').Nodup := by
  suffices (slotIds id n s').Nodup from this.sublist (livingIds_sub id n s')
  induction h with
  | refl => exact h0
  | @tail t u _ hstep ih =>
    cases hstep with
    | rewrite h =>
      have : slotIds id n u = slotIds id n t := List.flatMap_congr fun p _ => h p
      rw [this]; exact ih
    | rearrange h => exact nodup_of_subperm (flatMap_subperm _ fun p _ => map_subperm _ (h p)) ih
    | extend q new hq hnew hfresh h =>
      have hperm : (slotIds id n u).Perm (slotIds id n t ++ new.map fun sl => id sl.a.rest) := by
        have key : ∀ l : List Nat, l.Nodup → q ∈ l → (l.flatMap fun p => (u p).map fun sl => id sl.a.rest).Perm
            ((l.flatMap fun p => (t p).map fun sl => id sl.a.rest) ++ new.map fun sl => id sl.a.rest) := by
          intro l
          induction l with
          | nil => intro _ hq; cases hq
          | cons a l ihl =>
            intro hnd hmem
            rw [List.nodup_cons] at hnd
            rw [List.flatMap_cons, List.flatMap_cons]
            by_cases haq : a = q
            · subst haq
              have e : (l.flatMap fun p => (u p).map fun sl => id sl.a.rest) = l.flatMap fun p => (t p).map fun sl => id sl.a.rest := by
                apply List.flatMap_congr
                intro p hp
                rw [h p, if_neg (by rintro rfl; exact hnd.1 hp)]
              rw [e, h a, if_pos rfl, List.map_append, List.append_assoc, List.append_assoc]
              exact List.Perm.append_left _ List.perm_append_comm
            · rw [h a, if_neg haq, List.append_assoc]
              exact List.Perm.append_left _ (ihl hnd.2 ((List.mem_cons.mp hmem).resolve_left (Ne.symm haq)))
        exact key _ List.nodup_range (List.mem_range.mpr hq)
      rw [hperm.nodup_iff, List.nodup_append]
      refine ⟨ih, hnew, ?_⟩
      intro a ha b hb hab
      obtain ⟨sl, hsl, rfl⟩ := List.mem_map.mp hb
      exact hfresh sl hsl (hab ▸ ha)

/-! ## the failure -/

/-- the slots of a photon species as the QED kernels see them -/
def asParts (l : List (Slot (A2 Qed.Part))) : List Qed.Part := l.map fun sl => { sl.a.rest with dead := sl.dead }

/-- a photon with id 7 that has just left patch 0 to the right -/
def leaving : Nat → List (Slot (A2 Qed.Part)) := fun p =>
  if p = 0 then [⟨⟨.val (3 / 2), .val (1 / 2), { Qed.bystander with id := 7 }⟩, false⟩] else []

/-- an empty slot -/
def blankA : A2 Qed.Part := ⟨.nan, .nan, Qed.blankSlot⟩

/-- **C02 is false.** Two patches, one photon with id 7.  It migrates from patch 0 to patch 1 (`sync_particles`), its old slot stays
behind, dead, with its id.  An electron in patch 0 then emits a photon, which is put into that slot: now two living photons, one in
each patch, have the id 7. -/
theorem ids_collide_fails :
    ∃ s', syncParticles (geo2 2 exNbr exBx exBy blankA) [0, 1] [0, 1] leaving = some s' ∧
      (livingIds Qed.Part.id 2 leaving) = [7] ∧
      ∃ ele' pho', Qed.emission (fun q => q) false (fun k => { Qed.blankSlot with id := 100 + k }) [Qed.shooter] (asParts (s' 0)) =
        some (ele', pho') ∧
        ((Qed.living pho').map (·.id)) = [7] ∧ ((Qed.living (asParts (s' 1))).map (·.id)) = [7] := by
  have h : ((syncParticles (geo2 2 exNbr exBx exBy blankA) [0, 1] [0, 1] leaving).bind fun s' =>
      (Qed.emission (fun q => q) false (fun k => { Qed.blankSlot with id := 100 + k }) [Qed.shooter] (asParts (s' 0))).map fun r =>
        ((Qed.living r.2).map (·.id), (Qed.living (asParts (s' 1))).map (·.id))) = some ([7], [7]) := by
    decide +kernel
  rw [Option.bind_eq_some_iff] at h
  obtain ⟨s', hs, h⟩ := h
  rw [Option.map_eq_some_iff] at h
  obtain ⟨⟨ele', pho'⟩, he, h⟩ := h
  rw [Prod.mk.injEq] at h
  exact ⟨s', hs, by decide +kernel, ele', pho', he, h.1, h.2⟩

/-- the exchange of the example is a migration step from a state with distinct ids -/
example : (livingIds Qed.Part.id 2 leaving).Nodup ∧ (slotIds Qed.Part.id 2 leaving).Nodup ∧ Sym2 2 exNbr := by
  refine ⟨by decide +kernel, by decide +kernel, exSym⟩

end Verif.Ids
