import Verif.Proofs.Exchange
/-!
# Global routing form of the particle exchange
-/
namespace Verif.Exchange
variable {A D : Type} [DecidableEq D]
set_option linter.unusedSectionVars false

/-- living particles of all patches, tagged with the patch that owns them -/
def living (n : Nat) (s : Nat → List (Slot A)) : List (Nat × A) :=
  (List.range n).flatMap fun p => (alive (s p)).map fun a => (p, a)

/-- where one living particle ends up (`none` = removed) -/
def route (g : Geo A D) (p : Nat) (a : A) : Option (Nat × A) :=
  match g.cls p a with
  | none => some (p, a)
  | some d =>
    match g.nbr p d with
    | none => none
    | some q => if g.inside q (g.wrap q a) then some (q, g.wrap q a) else none

theorem flatMap_perm_congr {β γ : Type} {f h : β → List γ} : ∀ {l : List β}, (∀ x ∈ l, (f x).Perm (h x)) →
    (l.flatMap f).Perm (l.flatMap h)
  | [], _ => by simp
  | x :: t, H => by
    rw [List.flatMap_cons, List.flatMap_cons]
    exact (H x (by simp)).append (flatMap_perm_congr fun y hy => H y (by simp [hy]))

theorem flatMap_append_perm {β γ : Type} (f h : β → List γ) : ∀ l : List β,
    (l.flatMap fun x => f x ++ h x).Perm (l.flatMap f ++ l.flatMap h)
  | [] => by simp
  | x :: t => by
    simp only [List.flatMap_cons]
    refine (List.Perm.append_left _ (flatMap_append_perm f h t)).trans ?_
    rw [List.append_assoc, List.append_assoc]
    refine List.Perm.append_left _ ?_
    rw [← List.append_assoc, ← List.append_assoc]
    exact List.Perm.append_right _ List.perm_append_comm

/-- the state after the exchange -/
def finalState (g : Geo A D) (s : Nat → List (Slot A)) : Nat → List (Slot A) := fun ip =>
  markDead g ip (if ip < g.npatches then fillSlots (g.wrap ip) (extended g s ip) (arriving g s ip)
       else extended g s ip)

theorem finalState_alive (g : Geo A D) (s : Nat → List (Slot A)) {ip : Nat} (hip : ip < g.npatches) :
    (alive (finalState g s ip)).Perm ((alive (s ip)).filter (g.inside ip) ++
      ((arriving g s ip).map (g.wrap ip)).filter (g.inside ip)) := by
  unfold finalState
  rw [markDead_alive, if_pos hip, ← List.filter_append]
  refine List.Perm.filter _ ((fillSlots_alive _ _ _ (room g s ip)).trans ?_)
  unfold extended
  rw [alive_extend]

theorem filterMap_inside {g : Geo A D} (q : Nat) (l : List A) :
    l.filterMap (fun a => if g.inside q (g.wrap q a) then some (q, g.wrap q a) else none) =
      ((l.map (g.wrap q)).filter (g.inside q)).map fun a => (q, a) := by
  induction l with
  | nil => rfl
  | cons a t ih =>
    rw [List.filterMap_cons, List.map_cons, List.filter_cons]
    cases h : g.inside q (g.wrap q a)
    · simpa using ih
    · simpa using ih

theorem living_finalState {g : Geo A D} (hg : WF g)
    (hin : ∀ p a, g.cls p a = none ↔ g.inside p a = true) (s : Nat → List (Slot A)) :
    (living g.npatches (finalState g s)).Perm
      ((living g.npatches s).filterMap fun x => route g x.1 x.2) := by
  -- left side
  have hl : (living g.npatches (finalState g s)).Perm
      (((List.range g.npatches).flatMap fun p =>
          ((alive (s p)).filter (g.inside p)).map fun a => (p, a)) ++
        (links g).flatMap fun x =>
          ((leaving (g.cls x.2.2) (g.opp x.2.1) (s x.2.2)).filterMap fun a =>
            if g.inside x.1 (g.wrap x.1 a) then some (x.1, g.wrap x.1 a) else none)) := by
    unfold living
    refine (flatMap_perm_congr (h := fun p => (((alive (s p)).filter (g.inside p)).map fun a => (p, a)) ++
      g.dirs.flatMap fun d => match g.nbr p d with
        | none => []
        | some q => (leaving (g.cls q) (g.opp d) (s q)).filterMap fun a =>
            if g.inside p (g.wrap p a) then some (p, g.wrap p a) else none) ?_).trans ?_
    · intro p hp
      refine ((finalState_alive g s (List.mem_range.mp hp)).map _).trans ?_
      rw [List.map_append]
      refine List.Perm.append_left _ (List.Perm.of_eq ?_)
      unfold arriving
      rw [List.map_flatMap, List.filter_flatMap, List.map_flatMap]
      congr 1
      funext d
      cases g.nbr p d with
      | none => rfl
      | some q => exact (filterMap_inside p _).symm
    · refine (flatMap_append_perm _ _ _).trans (List.Perm.append_left _ (List.Perm.of_eq ?_))
      exact flatMap_links g fun x => (leaving (g.cls x.2.2) (g.opp x.2.1) (s x.2.2)).filterMap fun a =>
            if g.inside x.1 (g.wrap x.1 a) then some (x.1, g.wrap x.1 a) else none
  have hr : ((living g.npatches s).filterMap fun x => route g x.1 x.2).Perm
      (((List.range g.npatches).flatMap fun p =>
          ((alive (s p)).filter (g.inside p)).map fun a => (p, a)) ++
        (links g).flatMap fun x =>
          ((leaving (g.cls x.1) x.2.1 (s x.1)).filterMap fun a =>
            if g.inside x.2.2 (g.wrap x.2.2 a) then some (x.2.2, g.wrap x.2.2 a) else none)) := by
    unfold living
    rw [List.filterMap_flatMap]
    refine (flatMap_perm_congr (h := fun p => (((alive (s p)).filter (g.inside p)).map fun a => (p, a)) ++
      g.dirs.flatMap fun d => match g.nbr p d with
        | none => []
        | some q => (leaving (g.cls p) d (s p)).filterMap fun a =>
            if g.inside q (g.wrap q a) then some (q, g.wrap q a) else none) ?_).trans ?_
    · intro p _
      rw [List.filterMap_map]
      refine (split_by_class (g.cls p) g.dirs hg.nodup hg.complete _ _).trans ?_
      refine List.Perm.append (List.Perm.of_eq ?_) (List.Perm.of_eq ?_)
      · have e : ((alive (s p)).filter fun a => g.cls p a == none) = (alive (s p)).filter (g.inside p) := by
          apply List.filter_congr
          intro a _
          have := hin p a
          cases h : g.inside p a
          · rw [h] at this
            cases hc : g.cls p a with
            | none => exact absurd (this.mp hc) (by simp)
            | some d => rfl
          · rw [this.mpr h]; rfl
        rw [e]
        rw [← List.filterMap_eq_map]
        apply List.filterMap_congr
        intro a ha
        have hi := (List.mem_filter.mp ha).2
        have := (hin p a).mpr hi
        simp [route, this]
      · congr 1
        funext d
        unfold leaving
        cases hn : g.nbr p d with
        | none =>
          simp only
          rw [List.filterMap_eq_nil_iff]
          intro a ha
          have := (List.mem_filter.mp ha).2
          simp only [beq_iff_eq] at this
          simp [route, this, hn]
        | some q =>
          simp only
          apply List.filterMap_congr
          intro a ha
          have := (List.mem_filter.mp ha).2
          simp only [beq_iff_eq] at this
          simp [route, this, hn]
    · refine (flatMap_append_perm _ _ _).trans (List.Perm.append_left _ (List.Perm.of_eq ?_))
      exact flatMap_links g fun x => (leaving (g.cls x.1) x.2.1 (s x.1)).filterMap fun a =>
            if g.inside x.2.2 (g.wrap x.2.2 a) then some (x.2.2, g.wrap x.2.2 a) else none
  refine hl.trans (List.Perm.trans ?_ hr.symm)
  refine List.Perm.append_left _ ?_
  refine List.Perm.trans ?_ ((links_flip hg).flatMap_right _)
  rw [List.flatMap_map]

/-- a living particle inside its patch keeps its slot, bit for bit -/
theorem finalState_keeps (g : Geo A D) (s : Nat → List (Slot A)) (ip k : Nat) (sl : Slot A)
    (h : (s ip)[k]? = some sl) (hd : sl.dead = false) (hi : g.inside ip sl.a = true) :
    (finalState g s ip)[k]? = some sl := by
  have he : (extended g s ip)[k]? = some sl := by
    unfold extended extendSlots
    rw [List.getElem?_append_left]
    · exact h
    · obtain ⟨hk, _⟩ := List.getElem?_eq_some_iff.mp h; exact hk
  have hf : (if ip < g.npatches then fillSlots (g.wrap ip) (extended g s ip) (arriving g s ip)
       else extended g s ip)[k]? = some sl := by
    split
    · exact fillSlots_keeps _ _ _ _ _ he hd
    · exact he
  unfold finalState markDead
  rw [List.getElem?_map, hf]
  simp [hd, hi]

/-- the living count of a patch after the exchange -/
theorem alive_length (g : Geo A D) (s : Nat → List (Slot A)) {ip : Nat} (hip : ip < g.npatches) :
    (alive (finalState g s ip)).length = ((alive (s ip)).filter (g.inside ip)).length +
      (((arriving g s ip).map (g.wrap ip)).filter (g.inside ip)).length := by
  rw [(finalState_alive g s hip).length_eq, List.length_append]

theorem reportedAlive_eq (g : Geo A D) (s : Nat → List (Slot A)) (ip : Nat) :
    reportedAlive g s ip = (alive (s ip)).length + (arriving g s ip).length := by
  unfold reportedAlive
  rw [npartNew_eq, length_eq_alive_add_dead (s ip)]
  omega

end Verif.Exchange
