import Verif.Model.Setup
import Mathlib.Data.List.Basic
import Mathlib.Data.List.GetD
import Mathlib.Data.List.Infix
import Mathlib.Data.List.NodupEquivFin
/-!
# C70: a species is simulated the way it was set up, or the set-up is refused

`pushed_as_asked_partial`: when no species asks for "boris+tbmt", a step does to every enabled species exactly what it asked for, and nothing to
the others. `tbmt_stops_fails`, `tbmt_wrong_species_fails`: "boris+tbmt" is accepted, has no pusher, and shifts the pushers of the species after
it. `accepted_iff`: what `initialize` accepts. `qed_as_asked`: radiation and pair production. `ll_refused_fails`: radiation="ll" is always
refused. `default_species_partial`, `default_callable_fails`: the species taken when none was added. `momentum_ignored_fails`: the momentum
profile has no effect.
-/
namespace Verif.Setup

/-! ### specification -/

/-- the species emits photons -/
def Radiates (s : Sp) : Prop := s.cls.isElectron = true ∧ s.radiation = some .photons

/-- the species turns into pairs -/
def Pairs (s : Sp) : Prop := s.cls = .photon ∧ s.pair.isSome = true

instance (s : Sp) : Decidable (Radiates s) := inferInstanceAs (Decidable (_ ∧ _))
instance (s : Sp) : Decidable (Pairs s) := inferInstanceAs (Decidable (_ ∧ _))

/-- the species an act is about: whose particles it changes, or whose particles it reads -/
def Act.of : Act → Nat
  | .full j | .move j | .gather j | .radiate j | .pairs j | .kick j _ | .deposit j => j

/-- the kick a species asked for -/
def Kick (s : Sp) (k : Kind) : Prop := s.pusher = .boris ∧ k = .boris ∨ s.pusher = .photon ∧ k = .photon

/-- what a step has to do to species number `i`: the unified push if it is a plain Boris species and nobody looks into the push; otherwise half a
step of the positions, the fields, the QED events it takes part in, the kick it asked for, another half step, and the current -/
def Wanted (s : Sp) (busy : Bool) (i : Nat) (l : List Act) : Prop :=
  if s.pusher = .boris ∧ ¬ Radiates s ∧ ¬ Pairs s ∧ busy = false then l = [.full i]
  else ∃ k, Kick s k ∧ l = [.move i, .gather i] ++ (if Radiates s then [.radiate i] else []) ++ (if Pairs s then [.pairs i] else []) ++
    [.kick i k, .move i, .deposit i]

/-- a profile that can be compiled in this dimension -/
def Fits (dim : Nat) (f : Prof) : Prop := f = .jitted ∨ f = .pyfun dim ∨ f = .number

/-- a radiating species has a photon species that was added; a photon species with a pair has an electron and a positron species that were added;
nobody asks for "ll" -/
structure Sound (dim : Nat) (sp : List Sp) : Prop where
  density : ∀ s ∈ sp, ∀ f, s.density = some f → Fits dim f
  ppc : ∀ s ∈ sp, Fits dim s.ppc
  noLL : ∀ s ∈ sp, s.cls.isElectron = true → s.radiation ≠ some .ll
  photon : ∀ s ∈ sp, Radiates s → ∃ j t, s.photon = some (.added j) ∧ sp[j]? = some t ∧ t.cls = .photon
  pair : ∀ s ∈ sp, s.cls = .photon → ∀ e p, s.pair = some (e, p) → ∃ i j t u, e = .added i ∧ p = .added j ∧ sp[i]? = some t ∧ sp[j]? = some u ∧
    t.cls.isElectron = true ∧ u.cls = .positron

/-! ### lemmas -/

theorem mapM_ok {α β : Type} (f : α → Except Err β) (l : List α) (r : List β) (h : l.mapM f = .ok r) :
    List.Forall₂ (fun a b => f a = .ok b) l r := by
  induction l generalizing r with
  | nil => simp [pure, Except.pure] at h; subst h; exact .nil
  | cons a l ih =>
    rw [List.mapM_cons] at h
    cases hf : f a with
    | error e => rw [hf] at h; cases h
    | ok b =>
      rw [hf] at h
      cases hl : l.mapM f with
      | error e => rw [hl] at h; cases h
      | ok bs =>
        rw [hl] at h
        cases h
        exact .cons hf (ih bs hl)

theorem mapM_of {α β : Type} (f : α → Except Err β) (l : List α) (h : ∀ a ∈ l, ∃ b, f a = .ok b) : ∃ r, l.mapM f = .ok r := by
  induction l with
  | nil => exact ⟨[], rfl⟩
  | cons a l ih =>
    obtain ⟨b, hb⟩ := h a (by simp)
    obtain ⟨r, hr⟩ := ih fun x hx => h x (by simp [hx])
    refine ⟨b :: r, ?_⟩
    rw [List.mapM_cons, hb, hr]
    rfl

theorem get_of {α β : Type} {R : α → β → Prop} {l : List α} {r : List β} (h : List.Forall₂ R l r) {i : Nat} {a : α} (ha : l[i]? = some a) :
    ∃ b, r[i]? = some b ∧ R a b := by
  induction h generalizing i with
  | nil => simp at ha
  | cons hab _ ih =>
    cases i with
    | zero => simp at ha; subst ha; exact ⟨_, by simp, hab⟩
    | succ i => simpa using ih (by simpa using ha)

theorem mem_of {α β : Type} {R : α → β → Prop} {l : List α} {r : List β} (h : List.Forall₂ R l r) {a : α} (ha : a ∈ l) : ∃ b, R a b := by
  induction h with
  | nil => simp at ha
  | cons hab _ ih =>
    rcases List.mem_cons.mp ha with rfl | h
    · exact ⟨_, hab⟩
    · exact ih h

theorem initSim_ok {dim : Nat} {sp : List Sp} {S : Sim} (h : initSim dim sp = .ok S) :
    (∀ s ∈ sp, compileProfiles dim s = .ok ()) ∧ List.Forall₂ (fun s b => initRadiation sp s = .ok b) sp S.radiation ∧
      List.Forall₂ (fun s b => initPairs sp s = .ok b) sp S.pairs ∧ S.sp = sp ∧ S.pushers = initPushers sp := by
  unfold initSim initQed at h
  cases h1 : sp.mapM (compileProfiles dim) with
  | error e => rw [h1] at h; cases h
  | ok u =>
    cases h2 : sp.mapM (initRadiation sp) with
    | error e => rw [h1, h2] at h; cases h
    | ok r =>
      cases h3 : sp.mapM (initPairs sp) with
      | error e => rw [h1, h2, h3] at h; cases h
      | ok p =>
        rw [h1, h2, h3] at h
        cases h
        refine ⟨fun s hs => ?_, mapM_ok _ _ _ h2, mapM_ok _ _ _ h3, rfl, rfl⟩
        obtain ⟨b, hb⟩ := mem_of (mapM_ok _ _ _ h1) hs
        exact hb

theorem initSim_of {dim : Nat} {sp : List Sp} (h1 : ∀ s ∈ sp, compileProfiles dim s = .ok ()) (h2 : ∀ s ∈ sp, ∃ b, initRadiation sp s = .ok b)
    (h3 : ∀ s ∈ sp, ∃ b, initPairs sp s = .ok b) : ∃ S, initSim dim sp = .ok S := by
  obtain ⟨u, hu⟩ := mapM_of (compileProfiles dim) sp fun s hs => ⟨_, h1 s hs⟩
  obtain ⟨r, hr⟩ := mapM_of (initRadiation sp) sp h2
  obtain ⟨p, hp⟩ := mapM_of (initPairs sp) sp h3
  unfold initSim initQed
  rw [hu, hr, hp]
  exact ⟨_, rfl⟩

theorem compileJit_ok {dim : Nat} (hd : dim = 2 ∨ dim = 3) (f : Prof) : compileJit dim f = .ok () ↔ Fits dim f := by
  unfold Fits
  cases f with
  | number => rcases hd with rfl | rfl <;> simp [compileJit]
  | pyfun n => by_cases h : n = dim <;> simp [compileJit, h]
  | jitted => simp [compileJit]
  | callable => simp [compileJit]

theorem compileProfiles_ok {dim : Nat} (hd : dim = 2 ∨ dim = 3) (s : Sp) :
    compileProfiles dim s = .ok () ↔ (∀ f, s.density = some f → Fits dim f) ∧ Fits dim s.ppc := by
  unfold compileProfiles
  rw [← compileJit_ok hd]
  cases h : s.density with
  | none => simp [pure, Except.pure, bind, Except.bind]
  | some f =>
    simp only [Option.some.injEq, forall_eq']
    rw [← compileJit_ok hd]
    cases hf : compileJit dim f with
    | error e => simp [bind, Except.bind]
    | ok u => simp [bind, Except.bind]

theorem readQed_electron {s : Sp} (hc : s.cls.isElectron = true) {r : Ref} (hp : s.photon = some r) : readQed s = .ok () := by
  unfold readQed created
  cases h : s.cls <;> rw [h] at hc <;> simp [Cls.isElectron] at hc <;> cases hq : s.polarised <;> simp [hp, qedAttrs, spinAttrs]

theorem initRadiation_ok {sp : List Sp} {s : Sp} {b : Option Nat} (h : initRadiation sp s = .ok b) :
    (Radiates s → ∃ j t, b = some j ∧ s.photon = some (.added j) ∧ sp[j]? = some t ∧ t.cls = .photon) ∧ (¬ Radiates s → b = none) ∧
      (s.cls.isElectron = true → s.radiation ≠ some .ll) := by
  unfold initRadiation at h
  unfold Radiates
  cases hc : s.cls.isElectron with
  | false =>
    rw [hc] at h
    simp at h
    simp [h]
  | true =>
    rw [hc] at h
    simp only [Bool.not_true, Bool.false_eq_true, if_false] at h
    cases hr : s.radiation with
    | none => rw [hr] at h; simp at h; simp [h]
    | some r =>
      cases r with
      | ll => rw [hr] at h; simp at h
      | photons =>
        rw [hr] at h
        simp only at h
        unfold initCompton assert at h
        rw [hc] at h
        cases hp : s.photon with
        | none => rw [hp] at h; simp [bind, Except.bind, Except.map] at h
        | some r =>
          rw [hp] at h
          simp only [if_true, bind, Except.bind] at h
          by_cases hq : r.cls sp = some .photon
          · rw [readQed_electron hc hp] at h
            cases r with
            | stray c => simp [hq, Ref.ispec, Except.map] at h
            | added j =>
              simp [hq, Ref.ispec, Except.map, pure, Except.pure] at h
              simp only [Ref.cls, Option.map_eq_some_iff] at hq
              obtain ⟨t, ht, hq⟩ := hq
              subst h
              simp [ht, hq]
          · simp [hq, Except.map] at h

theorem initRadiation_of {sp : List Sp} {s : Sp} (h1 : s.cls.isElectron = true → s.radiation ≠ some .ll)
    (h2 : Radiates s → ∃ j t, s.photon = some (.added j) ∧ sp[j]? = some t ∧ t.cls = .photon) : ∃ b, initRadiation sp s = .ok b := by
  unfold initRadiation
  cases hc : s.cls.isElectron with
  | false => exact ⟨none, by simp⟩
  | true =>
    simp only [Bool.not_true, Bool.false_eq_true, if_false]
    cases hr : s.radiation with
    | none => exact ⟨none, rfl⟩
    | some r =>
      cases r with
      | ll => exact absurd hr (h1 hc)
      | photons =>
        obtain ⟨j, t, hp, ht, htc⟩ := h2 ⟨hc, hr⟩
        refine ⟨some j, ?_⟩
        simp [initCompton, assert, hc, hp, Ref.cls, ht, htc, Ref.ispec, readQed_electron hc hp, bind, Except.bind, Except.map, pure, Except.pure]

theorem readQed_photon {s : Sp} (hc : s.cls = .photon) (hp : s.pair.isSome = true) : readQed s = .ok () := by
  simp [readQed, created, hc, hp, qedAttrs]

theorem initPairs_ok {sp : List Sp} {s : Sp} {b : Option (Nat × Nat)} (h : initPairs sp s = .ok b) :
    (s.cls = .photon → ∀ e p, s.pair = some (e, p) → ∃ i j t u, b = some (i, j) ∧ e = .added i ∧ p = .added j ∧ sp[i]? = some t ∧ sp[j]? = some u ∧
      t.cls.isElectron = true ∧ u.cls = .positron) ∧ (¬ Pairs s → b = none) := by
  unfold initPairs at h
  unfold Pairs
  by_cases hc : s.cls = .photon
  · rw [if_pos hc] at h
    cases hp : s.pair with
    | none => rw [hp] at h; simp at h; simp [h]
    | some ep =>
      obtain ⟨e, p⟩ := ep
      rw [hp] at h
      refine ⟨fun _ e' p' he => ?_, fun hn => absurd ⟨hc, by simp⟩ hn⟩
      simp only [Option.some.injEq, Prod.mk.injEq] at he
      obtain ⟨rfl, rfl⟩ := he
      simp only [initBreitWheeler, assert, hc, readQed_photon hc (show s.pair.isSome = true by simp [hp]), bind, Except.bind, beq_self_eq_true,
        if_true] at h
      by_cases h1 : ((e.cls sp).map Cls.isElectron).getD false = true
      · by_cases h2 : p.cls sp = some .positron
        · cases e with
          | stray c => simp [h1, h2, Ref.ispec, Except.map] at h
          | added i =>
            cases p with
            | stray c => simp [h1, h2, Ref.ispec, Except.map] at h
            | added j =>
              simp [h1, h2, Ref.ispec, Except.map, pure, Except.pure] at h
              simp only [Ref.cls, Option.map_eq_some_iff] at h2
              obtain ⟨u, hu, huc⟩ := h2
              simp only [Ref.cls] at h1
              cases ht : sp[i]? with
              | none => simp [ht] at h1
              | some t =>
                simp [ht] at h1
                exact ⟨i, j, t, u, h.symm, rfl, rfl, ht, hu, h1, huc⟩
        · simp [h1, h2, Except.map] at h
      · simp [h1, Except.map] at h
  · rw [if_neg hc] at h
    simp at h
    simp [hc, h]

theorem initPairs_of {sp : List Sp} {s : Sp} (h : s.cls = .photon → ∀ e p, s.pair = some (e, p) → ∃ i j t u, e = .added i ∧ p = .added j ∧
    sp[i]? = some t ∧ sp[j]? = some u ∧ t.cls.isElectron = true ∧ u.cls = .positron) : ∃ b, initPairs sp s = .ok b := by
  unfold initPairs
  by_cases hc : s.cls = .photon
  · rw [if_pos hc]
    cases hp : s.pair with
    | none => exact ⟨none, rfl⟩
    | some ep =>
      obtain ⟨e, p⟩ := ep
      obtain ⟨i, j, t, u, rfl, rfl, ht, hu, h1, h2⟩ := h hc e p hp
      refine ⟨some (i, j), ?_⟩
      simp [initBreitWheeler, assert, hc, Ref.cls, ht, hu, h1, h2, Ref.ispec, readQed_photon hc (show s.pair.isSome = true by simp [hp]), bind,
        Except.bind, Except.map, pure, Except.pure]
  · rw [if_neg hc]
    exact ⟨none, rfl⟩

/-- without "boris+tbmt" the place of a pusher in the list is the number of its species -/
theorem pushers_get_aux (l : List Sp) (n : Nat) (h : ∀ s ∈ l, s.pusher ≠ .tbmt) (i : Nat) :
    ((l.zipIdx n).filterMap fun a => initPusher a.1 a.2)[i]? = l[i]?.map fun s => ⟨if s.pusher = .boris then .boris else .photon, n + i⟩ := by
  induction l generalizing n i with
  | nil => simp
  | cons a l ih =>
    have ha := h a (by simp)
    have ih' := ih (n + 1) fun s hs => h s (by simp [hs])
    have h0 : initPusher a n = some ⟨if a.pusher = .boris then .boris else .photon, n⟩ := by
      unfold initPusher
      cases hp : a.pusher with
      | tbmt => exact absurd hp ha
      | boris => simp
      | photon => simp
    rw [List.zipIdx_cons, List.filterMap_cons_some (f := fun a : Sp × Nat => initPusher a.1 a.2) (a := (a, n)) h0]
    cases i with
    | zero => simp
    | succ i => rw [List.getElem?_cons_succ, ih' i, List.getElem?_cons_succ, Nat.add_assoc, Nat.add_comm 1 i]

theorem pushers_get (sp : List Sp) (h : ∀ s ∈ sp, s.pusher ≠ .tbmt) (i : Nat) :
    (initPushers sp)[i]? = sp[i]?.map fun s => ⟨if s.pusher = .boris then .boris else .photon, i⟩ := by
  have := pushers_get_aux sp 0 h i
  simpa [initPushers] using this

theorem pushers_length_aux (l : List Sp) (n : Nat) : ((l.zipIdx n).filterMap fun a => initPusher a.1 a.2).length ≤ l.length ∧
    ((∃ s ∈ l, s.pusher = .tbmt) → ((l.zipIdx n).filterMap fun a => initPusher a.1 a.2).length < l.length) := by
  induction l generalizing n with
  | nil => simp
  | cons a l ih =>
    obtain ⟨h1, h2⟩ := ih (n + 1)
    rw [List.zipIdx_cons]
    cases hp : initPusher a n with
    | none =>
      rw [List.filterMap_cons_none (f := fun a : Sp × Nat => initPusher a.1 a.2) (a := (a, n)) hp, List.length_cons]
      exact ⟨by omega, fun _ => by omega⟩
    | some o =>
      rw [List.filterMap_cons_some (f := fun a : Sp × Nat => initPusher a.1 a.2) (a := (a, n)) hp, List.length_cons, List.length_cons]
      refine ⟨by omega, fun ⟨s, hs, ht⟩ => ?_⟩
      rcases List.mem_cons.mp hs with rfl | hs
      · simp [initPusher, ht] at hp
      · have := h2 ⟨s, hs, ht⟩
        omega

theorem pushers_length (sp : List Sp) (h : ∃ s ∈ sp, s.pusher = .tbmt) : (initPushers sp).length < sp.length :=
  (pushers_length_aux sp 0).2 h

theorem foldlM_ok {β : Type} (f : Nat → Except Err (List β)) (g : Nat → List β) (l : List Nat) (acc : List β) (h : ∀ i ∈ l, f i = .ok (g i)) :
    l.foldlM (fun acc i => (f i).map (acc ++ ·)) acc = .ok (acc ++ l.flatMap g) := by
  induction l generalizing acc with
  | nil => simp [pure, Except.pure]
  | cons i l ih =>
    rw [List.foldlM_cons, h i (by simp)]
    refine (ih (acc ++ g i) fun j hj => h j (by simp [hj])).trans ?_
    simp

theorem foldlM_err {β : Type} (f : Nat → Except Err (List β)) (l : List Nat) (acc : List β) (e : Err) (he : ∀ i ∈ l, ∀ e', f i = .error e' → e' = e)
    (h : ∃ i ∈ l, f i = .error e) : l.foldlM (fun acc i => (f i).map (acc ++ ·)) acc = .error e := by
  induction l generalizing acc with
  | nil => simp at h
  | cons i l ih =>
    rw [List.foldlM_cons]
    cases hf : f i with
    | error e' => rw [he i (by simp) e' hf]; rfl
    | ok r =>
      refine ih (acc ++ r) (fun j hj => he j (by simp [hj])) ?_
      · obtain ⟨j, hj, h⟩ := h
        rcases List.mem_cons.mp hj with rfl | hj
        · rw [hf] at h; cases h
        · exact ⟨j, hj, h⟩

theorem filter_flatMap (g : Nat → List Act) (hg : ∀ i, ∀ a ∈ g i, a.of = i) (l : List Nat) (hl : l.Nodup) (i : Nat) :
    (l.flatMap g).filter (·.of == i) = if i ∈ l then g i else [] := by
  induction l with
  | nil => simp
  | cons j l ih =>
    rw [List.flatMap_cons, List.filter_append, ih (List.nodup_cons.mp hl).2]
    by_cases hij : i = j
    · subst hij
      rw [if_neg (List.nodup_cons.mp hl).1, List.append_nil, if_pos (by simp), List.filter_eq_self]
      intro a ha
      simp [hg i a ha]
    · rw [List.filter_eq_nil_iff.mpr, List.nil_append]
      · simp [hij]
      · intro a ha
        simp only [beq_iff_eq]
        rw [hg j a ha]
        exact fun h => hij h.symm

/-! ### theorems -/

/-- C70: when no species asks for "boris+tbmt", every step does to each enabled species exactly what it asked for, in its order, and nothing to
disabled species. -/
theorem pushed_as_asked_partial (dim : Nat) (sp : List Sp) (S : Sim) (busy : Bool) (h : initSim dim sp = .ok S)
    (ht : ∀ s ∈ sp, s.pusher ≠ .tbmt) :
    ∃ l, stepActs S busy = .ok l ∧ ∀ (i : Nat) (s : Sp), sp[i]? = some s →
      (s.enabled = true → Wanted s busy i (l.filter (·.of == i))) ∧ (s.enabled = false → l.filter (·.of == i) = []) := by
  obtain ⟨-, hr, hp, hs, hpu⟩ := initSim_ok h
  have rad : ∀ (i : Nat) (s : Sp), sp[i]? = some s → ((S.radiation[i]?.getD none).isSome = true ↔ Radiates s) := by
    intro i s hi
    obtain ⟨b, hb, hb'⟩ := get_of hr hi
    obtain ⟨h1, h2, -⟩ := initRadiation_ok hb'
    rw [hb]
    by_cases hR : Radiates s
    · obtain ⟨j, t, hj, -⟩ := h1 hR
      simp [hR, hj]
    · simp [hR, h2 hR]
  have pai : ∀ (i : Nat) (s : Sp), sp[i]? = some s → ((S.pairs[i]?.getD none).isSome = true ↔ Pairs s) := by
    intro i s hi
    obtain ⟨b, hb, hb'⟩ := get_of hp hi
    obtain ⟨h1, h2⟩ := initPairs_ok hb'
    rw [hb]
    by_cases hR : Pairs s
    · obtain ⟨ep, hep⟩ := Option.isSome_iff_exists.mp hR.2
      obtain ⟨i, j, t, u, hj, -⟩ := h1 hR.1 ep.1 ep.2 hep
      simp [hR, hj]
    · simp [hR, h2 hR]
  let g : Nat → List Act := fun i => match speciesActs S busy i with
    | .ok l => l
    | .error _ => []
  have key : ∀ (i : Nat) (s : Sp), sp[i]? = some s → speciesActs S busy i = .ok (g i) ∧ Wanted s busy i (g i) ∧ ∀ a ∈ g i, a.of = i := by
    intro i s hi
    have hmem : s ∈ sp := List.mem_of_getElem? hi
    have ho := pushers_get sp ht i
    rw [hi, Option.map_some, ← hpu] at ho
    have hR := rad i s hi
    have hP := pai i s hi
    have hok : speciesActs S busy i = .ok (g i) := by
      show _ = Except.ok (match speciesActs S busy i with | .ok l => l | .error _ => [])
      unfold speciesActs
      rw [ho]
      by_cases hu : unified S busy i = true <;> simp [hu]
    refine ⟨hok, ?_⟩
    have hg : speciesActs S busy i = .ok (g i) := hok
    unfold speciesActs at hg
    rw [ho] at hg
    have hu : unified S busy i = true ↔ s.pusher = .boris ∧ ¬ Radiates s ∧ ¬ Pairs s ∧ busy = false := by
      unfold unified
      rw [ho]
      rw [← hR, ← hP]
      cases hb : s.pusher with
      | boris => simp [and_assoc]
      | photon => simp
      | tbmt => exact absurd hb (ht s hmem)
    unfold Wanted
    by_cases hc : s.pusher = .boris ∧ ¬ Radiates s ∧ ¬ Pairs s ∧ busy = false
    · rw [if_pos hc]
      simp only [hu.mpr hc, if_true, Except.ok.injEq] at hg
      rw [← hg]
      exact ⟨rfl, by simp [Act.of]⟩
    · rw [if_neg hc]
      have hnu : ¬ unified S busy i = true := fun h => hc (hu.mp h)
      simp only [hnu, if_false, Except.ok.injEq, Bool.false_eq_true] at hg
      rw [← hg]
      refine ⟨⟨if s.pusher = .boris then .boris else .photon, ?_, ?_⟩, ?_⟩
      · unfold Kick
        cases hb : s.pusher with
        | boris => simp
        | photon => simp
        | tbmt => exact absurd hb (ht s hmem)
      · simp only [hR, hP]
      · intro a ha
        by_cases h1 : (S.radiation[i]?.getD none).isSome = true <;> by_cases h2 : (S.pairs[i]?.getD none).isSome = true <;>
          simp [h1, h2] at ha <;> rcases ha with rfl | ha <;> try rfl
        all_goals first
          | (rcases ha with rfl | rfl | rfl | rfl <;> rfl)
          | (rcases ha with rfl | rfl | rfl | rfl | rfl <;> rfl)
          | (rcases ha with rfl | rfl | rfl | rfl | rfl | rfl <;> rfl)
  have hsp := hs
  have hen : ∀ i, i ∈ ((List.range S.sp.length).filter fun i => (S.sp[i]?.map (·.enabled)).getD false) ↔ ∃ s, sp[i]? = some s ∧ s.enabled = true := by
    intro i
    rw [hsp, List.mem_filter, List.mem_range]
    constructor
    · rintro ⟨hi, he⟩
      obtain ⟨s, hsi⟩ : ∃ s, sp[i]? = some s := ⟨sp[i], List.getElem?_eq_getElem hi⟩
      rw [hsi] at he
      exact ⟨s, hsi, by simpa using he⟩
    · rintro ⟨s, hsi, he⟩
      exact ⟨(List.getElem?_eq_some_iff.mp hsi).1, by simp [hsi, he]⟩
  refine ⟨_, foldlM_ok (speciesActs S busy) g _ [] fun i hi => ?_, ?_⟩
  · obtain ⟨s, hsi, -⟩ := (hen i).mp hi
    exact (key i s hsi).1
  · intro i s hi
    have hnd : ((List.range S.sp.length).filter fun i => (S.sp[i]?.map (·.enabled)).getD false).Nodup := List.nodup_range.filter _
    have hgi : ∀ j, ∀ a ∈ (fun j => if j < sp.length then g j else []) j, a.of = j := by
      intro j a ha
      by_cases hj : j < sp.length
      · simp only [hj, if_true] at ha
        exact (key j sp[j] (List.getElem?_eq_getElem hj)).2.2 a ha
      · simp [hj] at ha
    have hflat : (((List.range S.sp.length).filter fun i => (S.sp[i]?.map (·.enabled)).getD false).flatMap g) =
        (((List.range S.sp.length).filter fun i => (S.sp[i]?.map (·.enabled)).getD false).flatMap fun j => if j < sp.length then g j else []) := by
      apply List.flatMap_congr
      intro j hj
      obtain ⟨t, htj, -⟩ := (hen j).mp hj
      rw [if_pos (List.getElem?_eq_some_iff.mp htj).1]
    rw [List.nil_append, hflat, filter_flatMap _ hgi _ hnd]
    have hil : i < sp.length := (List.getElem?_eq_some_iff.mp hi).1
    constructor
    · intro he
      rw [if_pos ((hen i).mpr ⟨s, hi, he⟩), if_pos hil]
      exact (key i s hi).2.1
    · intro he
      rw [if_neg]
      intro hmem
      obtain ⟨t, hti, hte⟩ := (hen i).mp hmem
      rw [hi, Option.some.injEq] at hti
      rw [← hti, he] at hte
      cases hte

/-- "boris+tbmt" is accepted by `initialize` but has no pusher: whatever else is set, the step ends in an `IndexError` at the last species. -/
theorem tbmt_stops_fails (dim : Nat) (sp : List Sp) (S : Sim) (busy : Bool) (h : initSim dim sp = .ok S) (ht : ∃ s ∈ sp, s.pusher = .tbmt)
    (hlast : ∃ s, sp.getLast? = some s ∧ s.enabled = true) : stepActs S busy = .error .index := by
  obtain ⟨-, -, -, hs, hpu⟩ := initSim_ok h
  have hlen := pushers_length sp ht
  obtain ⟨s, hl, he⟩ := hlast
  unfold stepActs
  apply foldlM_err
  · intro i _ e he
    unfold speciesActs at he
    split at he
    · cases he; rfl
    · split at he <;> cases he
  · refine ⟨sp.length - 1, ?_, ?_⟩
    · rw [hs, List.mem_filter, List.mem_range]
      have : sp[sp.length - 1]? = some s := by rw [← List.getLast?_eq_getElem?]; exact hl
      exact ⟨by omega, by simp [this, he]⟩
    · unfold speciesActs
      rw [hpu, List.getElem?_eq_none (by omega)]

/-- C70: `initialize` accepts exactly the sound set-ups. -/
theorem accepted_iff (dim : Nat) (hd : dim = 2 ∨ dim = 3) (sp : List Sp) : (∃ S, initSim dim sp = .ok S) ↔ Sound dim sp := by
  constructor
  · rintro ⟨S, h⟩
    obtain ⟨h1, h2, h3, -, -⟩ := initSim_ok h
    refine ⟨fun s hs => ((compileProfiles_ok hd s).mp (h1 s hs)).1, fun s hs => ((compileProfiles_ok hd s).mp (h1 s hs)).2, ?_, ?_, ?_⟩
    · intro s hs
      obtain ⟨b, hb⟩ := mem_of h2 hs
      exact (initRadiation_ok hb).2.2
    · intro s hs hR
      obtain ⟨b, hb⟩ := mem_of h2 hs
      obtain ⟨j, t, -, h⟩ := (initRadiation_ok hb).1 hR
      exact ⟨j, t, h⟩
    · intro s hs hc e p hep
      obtain ⟨b, hb⟩ := mem_of h3 hs
      obtain ⟨i, j, t, u, -, h⟩ := (initPairs_ok hb).1 hc e p hep
      exact ⟨i, j, t, u, h⟩
  · intro h
    exact initSim_of (fun s hs => (compileProfiles_ok hd s).mpr ⟨h.density s hs, h.ppc s hs⟩)
      (fun s hs => initRadiation_of (h.noLL s hs) (h.photon s hs)) fun s hs => initPairs_of (h.pair s hs)

/-- C70: in an accepted set-up radiation modules belong to exactly the species that radiate and put their photons into the species given with
`set_photon`; pair production likewise; and the particles of these species have the arrays the modules use. -/
theorem qed_as_asked (dim : Nat) (sp : List Sp) (S : Sim) (h : initSim dim sp = .ok S) (i : Nat) (s : Sp) (hi : sp[i]? = some s) :
    (∀ j, S.radiation[i]? = some (some j) ↔ Radiates s ∧ s.photon = some (.added j)) ∧
    (∀ e p, S.pairs[i]? = some (some (e, p)) ↔ Pairs s ∧ s.pair = some (.added e, .added p)) ∧
    (Radiates s ∨ Pairs s → ∀ a ∈ [Attr.chi, .tau, .delta, .event], a ∈ created s) := by
  obtain ⟨-, hr, hp, -, -⟩ := initSim_ok h
  obtain ⟨b, hb, hb'⟩ := get_of hr hi
  obtain ⟨h1, h2, -⟩ := initRadiation_ok hb'
  obtain ⟨d, hd, hd'⟩ := get_of hp hi
  obtain ⟨h3, h4⟩ := initPairs_ok hd'
  refine ⟨?_, ?_, ?_⟩
  · intro j
    rw [hb, Option.some.injEq]
    constructor
    · intro hj
      by_cases hR : Radiates s
      · obtain ⟨k, t, hk, hph, -⟩ := h1 hR
        rw [hk, Option.some.injEq] at hj
        exact ⟨hR, hj ▸ hph⟩
      · rw [h2 hR] at hj; cases hj
    · rintro ⟨hR, hph⟩
      obtain ⟨k, t, hk, hph', -⟩ := h1 hR
      rw [hph', Option.some.injEq, Ref.added.injEq] at hph
      rw [hk, hph]
  · intro e p
    rw [hd, Option.some.injEq]
    constructor
    · intro hj
      by_cases hR : Pairs s
      · obtain ⟨ep, hep⟩ := Option.isSome_iff_exists.mp hR.2
        obtain ⟨k, l, t, u, hk, he, hp, -⟩ := h3 hR.1 ep.1 ep.2 hep
        rw [hk] at hj
        cases hj
        refine ⟨hR, ?_⟩
        rw [hep, ← he, ← hp]
      · rw [h4 hR] at hj; cases hj
    · rintro ⟨hR, hph⟩
      obtain ⟨k, l, t, u, hk, he, hp, -⟩ := h3 hR.1 _ _ hph
      cases he
      cases hp
      exact hk
  · rintro (hR | hR) a ha
    · obtain ⟨j, t, -, hph, -⟩ := h1 hR
      have := readQed_electron hR.1 hph
      unfold readQed at this
      split at this
      · next hall =>
        rw [List.all_eq_true] at hall
        exact List.contains_iff_mem.mp (hall a ha)
      · cases this
    · have := readQed_photon hR.1 hR.2
      unfold readQed at this
      split at this
      · next hall =>
        rw [List.all_eq_true] at hall
        exact List.contains_iff_mem.mp (hall a ha)
      · cases this

/-- `radiation="ll"` is a documented value, but a simulation with such a species never starts. -/
theorem ll_refused_fails (dim : Nat) (hd : dim = 2 ∨ dim = 3) (sp : List Sp) (h : ∃ s ∈ sp, s.cls.isElectron = true ∧ s.radiation = some .ll) :
    ¬ ∃ S, initSim dim sp = .ok S := by
  rw [accepted_iff dim hd]
  intro hs
  obtain ⟨s, hm, hc, hr⟩ := h
  exact hs.noLL s hm hc hr

/-- C70: with no species added, those registered in their place are in the order they were made, exactly those whose profiles can be compiled,
provided no profile is a callable object other than a function. -/
theorem default_species_partial (dim : Nat) (all : List Sp)
    (hc : ∀ s ∈ all, s.density ≠ some .callable ∧ s.ppc ≠ .callable) :
    (defaultSpecies dim false [] all).Sublist all ∧
      ∀ s ∈ all, s ∈ defaultSpecies dim false [] all ↔ (∀ f, s.density = some f → Fits dim f) ∧ Fits dim s.ppc := by
  unfold defaultSpecies
  cases all with
  | nil => simp
  | cons a l =>
    simp only [List.isEmpty_nil, Bool.not_false, Bool.true_and, List.isEmpty_cons, if_true]
    refine ⟨List.filter_sublist, fun s hs => ?_⟩
    rw [List.mem_filter]
    have fit : ∀ f : Prof, f ≠ .callable → ((match some f with | some (.pyfun n) => n == dim | _ => true) = true ↔ Fits dim f) := by
      intro f hf
      unfold Fits
      cases f <;> simp at hf ⊢
    have h1 := fit s.ppc (hc s hs).2
    unfold isCompatible
    simp only [List.all_cons, List.all_nil, Bool.and_true, Bool.and_eq_true, hs, true_and]
    refine and_congr ?_ h1
    cases hden : s.density with
    | none => simp
    | some f =>
      simp only [Option.some.injEq, forall_eq']
      exact fit f fun h => (hc s hs).1 (by rw [hden, h])

/-- a callable object is accepted as a density and registered by default, and then `initialize` refuses it -/
theorem default_callable_fails (dim : Nat) (hd : dim = 2 ∨ dim = 3) : ∃ s : Sp, s.density = some .callable ∧
    defaultSpecies dim false [] [s] = [s] ∧ ¬ ∃ S, initSim dim [s] = .ok S := by
  refine ⟨{ cls := .electron, density := some .callable }, rfl, ?_, ?_⟩
  · simp [defaultSpecies, isCompatible]
  · rw [accepted_iff dim hd]
    intro h
    have := h.density { cls := .electron, density := some .callable } (by simp) .callable rfl
    simp [Fits] at this

/-- the momentum profile of a species has no effect: wherever it asks for a momentum other than zero, the particles start at rest all the same -/
theorem momentum_ignored_fails (s : Sp) (m : List Int → Fin 3 → Int) (_h : s.momentum = some m) (place : List Int) (hm : m place ≠ 0) :
    initialMomentum s place ≠ m place := fun h => hm (h ▸ rfl)

/-! ### examples -/

/-- electrons that radiate into photons that make pairs, and protons -/
def exSetup : List Sp :=
  [{ cls := .electron, radiation := some .photons, photon := some (.added 1), density := some (.pyfun 2), ppc := .number },
   { cls := .photon, pusher := .photon, pair := some (.added 0, .added 2) }, { cls := .positron, polarised := true },
   { cls := .proton, density := some .jitted, ppc := .pyfun 2, enabled := false }]

example : Sound 2 exSetup := (accepted_iff 2 (.inl rfl) _).mp (by
  cases h : initSim 2 exSetup with
  | ok S => exact ⟨S, rfl⟩
  | error e => exact absurd h (by unfold exSetup initSim initQed; simp [List.mapM_cons, compileProfiles, compileJit, initRadiation, initCompton, initPairs, initBreitWheeler, Cls.isElectron, assert, Ref.cls, Ref.ispec, readQed, created, qedAttrs, bind, Except.bind, Except.map, pure, Except.pure]))

example : ∀ s ∈ exSetup, s.pusher ≠ .tbmt := by simp [exSetup]

/-- with a "boris+tbmt" species in front and the last species disabled, the step runs: the first species is not pushed at all, the others are
pushed in the turn of the species before them, and the disabled one is pushed too -/
theorem tbmt_wrong_species_fails : ∃ S, initSim 2 [{ cls := .electron, pusher := .tbmt }, { cls := .proton }, { cls := .proton, enabled := false }] = .ok S ∧
    stepActs S false = .ok [.full 1, .full 2] :=
  ⟨⟨[{ cls := .electron, pusher := .tbmt }, { cls := .proton }, { cls := .proton, enabled := false }], [⟨.boris, 1⟩, ⟨.boris, 2⟩], [none, none, none],
    [none, none, none]⟩, rfl, rfl⟩

end Verif.Setup
