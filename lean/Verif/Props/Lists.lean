import Verif.Model.Lists
/-!
# C55: module lists are never stale

`lists_fresh`: in every run, whatever is extended or pruned, every module called works on the current arrays.
`sorter_always_fresh`: the sorter does so in any state at all. `window_stale_fails`, `window_stays_stale_fails`: the moving window breaks it, and nothing repairs it.
`window_bounds_fails`: collisions keep the old bucket bounds after the window moved. `callback_no_update_fails`: a callback that extends without `update_lists`.
-/
namespace Verif.Lists

/-! ### specification -/

/-- module `m`, called in state `w`, works on the current arrays of every patch -/
def Fresh (w : World) : Mod → Prop
  | .pusher i => ∀ p, w.pusher i p = (w.cont i p).ref
  | .sorter i => ∀ p, ((sorterCheck w i).sorter i p).1 = (w.cont i p).ref.obj ∧ (w.cont i p).size ≤ ((sorterCheck w i).sorter i p).2
  | .coll => ∀ c, w.coll = some c → (∀ i p, c.part i p = (w.cont i p).ref) ∧ ∀ i, c.bounds i = w.bucket i
  | .rad i => ∀ r, w.rad i = some r → ∀ p, r.own p = (w.cont i p).ref ∧ r.phos p = (w.cont r.pho p).ref
  | .pair i => ∀ r, w.pair i = some r → ∀ p, r.own p = (w.cont i p).ref ∧ r.eles p = (w.cont r.ele p).ref ∧ r.poss p = (w.cont r.pos p).ref
  | .direct _ => True

/-- every module call in the events sees current arrays -/
def CallsFresh (w : World) (evs : List Ev) : Prop := ∀ pre m post, evs = pre ++ Ev.call m :: post → Fresh (run w pre) m

/-- the state at the start of a step: everything current, no container flagged -/
structure Good (w : World) : Prop where
  calm : ∀ i p, (w.cont i p).ext = false
  fresh : ∀ m, Fresh w m

/-! ### lemmas -/

theorem run_append (w : World) (a b : List Ev) : run w (a ++ b) = run (run w a) b := List.foldl_append
theorem run_cons (w : World) (e : Ev) (b : List Ev) : run w (e :: b) = run (exec w e) b := rfl

theorem CallsFresh.nil (w : World) : CallsFresh w [] := by
  intro pre m post h
  simp at h

theorem CallsFresh.cons {w : World} {e : Ev} {evs : List Ev} (h1 : ∀ m, e = .call m → Fresh w m) (h2 : CallsFresh (exec w e) evs) :
    CallsFresh w (e :: evs) := by
  intro pre m post h
  cases pre with
  | nil =>
    simp only [List.nil_append, List.cons.injEq] at h
    exact h1 m h.1
  | cons x pre =>
    simp only [List.cons_append, List.cons.injEq] at h
    obtain ⟨rfl, h⟩ := h
    exact h2 pre m post h

theorem CallsFresh.append {w : World} {a b : List Ev} (h1 : CallsFresh w a) (h2 : CallsFresh (run w a) b) : CallsFresh w (a ++ b) := by
  induction a generalizing w with
  | nil => exact h2
  | cons e a ih =>
    refine CallsFresh.cons (fun m he => h1 [] m a (by rw [he]; rfl)) (ih ?_ h2)
    intro pre m post h
    exact h1 (e :: pre) m post (by rw [h]; rfl)

/-- where a container is not flagged, all modules that hold it are current -/
structure Inv (w : World) : Prop where
  pusher : ∀ i p, (w.cont i p).ext = false → w.pusher i p = (w.cont i p).ref
  coll : ∀ c, w.coll = some c → (∀ i p, (w.cont i p).ext = false → c.part i p = (w.cont i p).ref) ∧ ∀ i, c.bounds i = w.bucket i
  rad : ∀ i r, w.rad i = some r → ∀ p, ((w.cont i p).ext = false → r.own p = (w.cont i p).ref) ∧
    ((w.cont r.pho p).ext = false → r.phos p = (w.cont r.pho p).ref)
  pair : ∀ i r, w.pair i = some r → ∀ p, ((w.cont i p).ext = false → r.own p = (w.cont i p).ref) ∧
    ((w.cont r.ele p).ext = false → r.eles p = (w.cont r.ele p).ref) ∧ ((w.cont r.pos p).ext = false → r.poss p = (w.cont r.pos p).ref)

/-- the sorter looks at its lists at each call: current in any state, reachable or not -/
theorem sorter_always_fresh (w : World) (i : Nat) : Fresh w (.sorter i) := by
  intro p
  unfold sorterCheck
  dsimp only
  rw [if_pos rfl]
  by_cases h : (w.cont i p).ref.obj ≠ (w.sorter i p).1
  · rw [if_pos h]
    exact ⟨rfl, Nat.le_refl _⟩
  · rw [if_neg h]
    have h' := (Decidable.of_not_not h)
    by_cases h2 : (w.sorter i p).2 < (w.cont i p).size
    · rw [if_pos h2]
      exact ⟨h'.symm, Nat.le_refl _⟩
    · rw [if_neg h2]
      exact ⟨h'.symm, Nat.le_of_not_lt h2⟩

theorem Good.inv {w : World} (h : Good w) : Inv w where
  pusher := fun i p _ => h.fresh (.pusher i) p
  coll := fun c hc => ⟨fun i p _ => (h.fresh .coll c hc).1 i p, (h.fresh .coll c hc).2⟩
  rad := fun i r hr p => ⟨fun _ => (h.fresh (.rad i) r hr p).1, fun _ => (h.fresh (.rad i) r hr p).2⟩
  pair := fun i r hr p => ⟨fun _ => (h.fresh (.pair i) r hr p).1, fun _ => (h.fresh (.pair i) r hr p).2.1, fun _ => (h.fresh (.pair i) r hr p).2.2⟩

theorem Inv.good {w : World} (h : Inv w) (hc : ∀ i p, (w.cont i p).ext = false) : Good w := by
  refine ⟨hc, fun m => ?_⟩
  cases m with
  | pusher i => exact fun p => h.pusher i p (hc i p)
  | sorter i => exact sorter_always_fresh w i
  | coll => exact fun c e => ⟨fun i p => (h.coll c e).1 i p (hc i p), (h.coll c e).2⟩
  | rad i => exact fun r e p => ⟨(h.rad i r e p).1 (hc _ _), (h.rad i r e p).2 (hc _ _)⟩
  | pair i => exact fun r e p => ⟨(h.pair i r e p).1 (hc _ _), (h.pair i r e p).2.1 (hc _ _), (h.pair i r e p).2.2 (hc _ _)⟩
  | direct i => trivial

theorem Rad.refresh_spec {w : World} {i : Nat} {r : Rad} {sel : Nat → Bool} {p : Nat}
    (h1 : sel p = false → r.own p = (w.cont i p).ref) (h2 : sel p = false → r.phos p = (w.cont r.pho p).ref) :
    (r.refresh w i sel).own p = (w.cont i p).ref ∧ (r.refresh w i sel).phos p = (w.cont r.pho p).ref := by
  unfold Rad.refresh
  dsimp only
  cases hs : sel p with
  | true => simp
  | false => simp [h1 hs, h2 hs]

theorem Pair.refresh_spec {w : World} {i : Nat} {r : Pair} {sel : Nat → Bool} {p : Nat}
    (h1 : sel p = false → r.own p = (w.cont i p).ref) (h2 : sel p = false → r.eles p = (w.cont r.ele p).ref)
    (h3 : sel p = false → r.poss p = (w.cont r.pos p).ref) :
    (r.refresh w i sel).own p = (w.cont i p).ref ∧ (r.refresh w i sel).eles p = (w.cont r.ele p).ref ∧
      (r.refresh w i sel).poss p = (w.cont r.pos p).ref := by
  unfold Pair.refresh
  dsimp only
  cases hs : sel p with
  | true => simp
  | false => simp [h1 hs, h2 hs, h3 hs]

theorem rad_refresh_inv {w : World} (h : Inv w) {i : Nat} {r : Rad} (hr : w.rad i = some r) (p : Nat) :
    (r.refresh w i fun p => (w.cont i p).ext || (w.cont r.pho p).ext).own p = (w.cont i p).ref ∧
    (r.refresh w i fun p => (w.cont i p).ext || (w.cont r.pho p).ext).phos p = (w.cont r.pho p).ref := by
  apply Rad.refresh_spec
  · intro hs
    exact (h.rad i r hr p).1 (Bool.or_eq_false_iff.mp hs).1
  · intro hs
    exact (h.rad i r hr p).2 (Bool.or_eq_false_iff.mp hs).2

theorem pair_refresh_inv {w : World} (h : Inv w) {i : Nat} {r : Pair} (hr : w.pair i = some r) (p : Nat) :
    (r.refresh w i fun p => (w.cont i p).ext || (w.cont r.ele p).ext || (w.cont r.pos p).ext).own p = (w.cont i p).ref ∧
    (r.refresh w i fun p => (w.cont i p).ext || (w.cont r.ele p).ext || (w.cont r.pos p).ext).eles p = (w.cont r.ele p).ref ∧
    (r.refresh w i fun p => (w.cont i p).ext || (w.cont r.ele p).ext || (w.cont r.pos p).ext).poss p = (w.cont r.pos p).ref := by
  apply Pair.refresh_spec
  · intro hs
    exact (h.pair i r hr p).1 (Bool.or_eq_false_iff.mp (Bool.or_eq_false_iff.mp hs).1).1
  · intro hs
    exact (h.pair i r hr p).2.1 (Bool.or_eq_false_iff.mp (Bool.or_eq_false_iff.mp hs).1).2
  · intro hs
    exact (h.pair i r hr p).2.2 (Bool.or_eq_false_iff.mp hs).2

/-- `update_lists` makes everything current -/
theorem good_updateLists {w : World} (h : Inv w) : Good (updateLists w) := by
  refine ⟨fun i p => rfl, fun m => ?_⟩
  cases m with
  | pusher i =>
    intro p
    show (if (w.cont i p).ext then (w.cont i p).ref else w.pusher i p) = (w.cont i p).ref
    cases he : (w.cont i p).ext with
    | true => simp
    | false => simp [h.pusher i p he]
  | sorter i => exact sorter_always_fresh _ i
  | coll =>
    intro c hc
    obtain ⟨c0, hc0, rfl⟩ := Option.map_eq_some_iff.mp (show w.coll.map _ = some c from hc)
    refine ⟨fun i p => ?_, (h.coll c0 hc0).2⟩
    show (if (w.cont i p).ext then (w.cont i p).ref else c0.part i p) = (w.cont i p).ref
    cases he : (w.cont i p).ext with
    | true => simp
    | false => simp [(h.coll c0 hc0).1 i p he]
  | rad i =>
    intro r hr p
    obtain ⟨r0, hr0, rfl⟩ := Option.map_eq_some_iff.mp (show (w.rad i).map _ = some r from hr)
    exact rad_refresh_inv h hr0 p
  | pair i =>
    intro r hr p
    obtain ⟨r0, hr0, rfl⟩ := Option.map_eq_some_iff.mp (show (w.pair i).map _ = some r from hr)
    exact pair_refresh_inv h hr0 p
  | direct i => trivial

theorem good_updatePatches (w : World) : Good (updatePatches w) := by
  apply good_updateLists
  constructor
  · intro i p _; rfl
  · intro c hc
    obtain ⟨c0, _, rfl⟩ := Option.map_eq_some_iff.mp (show w.coll.map _ = some c from hc)
    exact ⟨fun _ _ _ => rfl, fun _ => rfl⟩
  · intro i r hr p
    obtain ⟨r0, _, rfl⟩ := Option.map_eq_some_iff.mp (show (w.rad i).map _ = some r from hr)
    exact ⟨fun _ => rfl, fun _ => rfl⟩
  · intro i r hr p
    obtain ⟨r0, _, rfl⟩ := Option.map_eq_some_iff.mp (show (w.pair i).map _ = some r from hr)
    exact ⟨fun _ => rfl, fun _ => rfl, fun _ => rfl⟩

/-- changing containers only where the flag is set keeps the invariant -/
theorem Inv.grow {w w' : World} (h : Inv w) (e1 : w'.pusher = w.pusher) (e2 : w'.coll = w.coll) (e3 : w'.rad = w.rad) (e4 : w'.pair = w.pair)
    (e5 : w'.bucket = w.bucket) (hc : ∀ i p, (w'.cont i p).ext = false → w'.cont i p = w.cont i p) : Inv w' := by
  have hx : ∀ i p, (w'.cont i p).ext = false → (w.cont i p).ext = false ∧ (w'.cont i p).ref = (w.cont i p).ref := by
    intro i p he
    have := hc i p he
    exact ⟨by rw [← this]; exact he, by rw [this]⟩
  constructor
  · intro i p he
    obtain ⟨a, b⟩ := hx i p he
    rw [e1, b, h.pusher i p a]
  · intro c hcc
    rw [e2] at hcc
    refine ⟨fun i p he => ?_, ?_⟩
    · obtain ⟨a, b⟩ := hx i p he
      rw [b, (h.coll c hcc).1 i p a]
    · rw [e5]
      exact (h.coll c hcc).2
  · intro i r hr p
    rw [e3] at hr
    refine ⟨fun he => ?_, fun he => ?_⟩
    · obtain ⟨a, b⟩ := hx _ _ he
      rw [b, (h.rad i r hr p).1 a]
    · obtain ⟨a, b⟩ := hx _ _ he
      rw [b, (h.rad i r hr p).2 a]
  · intro i r hr p
    rw [e4] at hr
    refine ⟨fun he => ?_, fun he => ?_, fun he => ?_⟩
    · obtain ⟨a, b⟩ := hx _ _ he
      rw [b, (h.pair i r hr p).1 a]
    · obtain ⟨a, b⟩ := hx _ _ he
      rw [b, (h.pair i r hr p).2.1 a]
    · obtain ⟨a, b⟩ := hx _ _ he
      rw [b, (h.pair i r hr p).2.2 a]

theorem setCont_flagged {w : World} (h : Inv w) (i p : Nat) (c : Cont) (hc : c.ext = true) : Inv (w.setCont i p c) := by
  refine Inv.grow (w' := w.setCont i p c) h rfl rfl rfl rfl rfl ?_
  intro j q he
  simp only [World.setCont] at he ⊢
  by_cases hj : j = i ∧ q = p
  · rw [if_pos hj, hc] at he
    cases he
  · rw [if_neg hj]

theorem inv_extend {w : World} (h : Inv w) (i p n : Nat) : Inv (extend w i p n) := by
  unfold extend
  split
  · exact h
  · exact setCont_flagged h i p _ rfl

theorem inv_prune {w : World} (h : Inv w) (i p n : Nat) : Inv (prune w i p n) := by
  unfold prune
  split
  · exact h
  · exact setCont_flagged h i p _ rfl

theorem inv_extendAll {w : World} (h : Inv w) (i : Nat) (ns : Nat → Nat) : Inv (extendAll w i ns) := by
  refine Inv.grow (w' := extendAll w i ns) h rfl rfl rfl rfl rfl ?_
  intro j q he
  simp only [extendAll] at he ⊢
  by_cases hj : j = i ∧ ns q ≠ 0
  · rw [if_pos hj] at he
    cases he
  · rw [if_neg hj]

theorem extendAll_same (w : World) (i : Nat) (ns : Nat → Nat) (j p : Nat) (h : ns p = 0) : (extendAll w i ns).cont j p = w.cont j p := by
  simp [extendAll, h]

theorem inv_radUpdate {w : World} (h : Inv w) (i : Nat) : Inv (radUpdate w i) ∧ Fresh (radUpdate w i) (.rad i) := by
  have hrad : ∀ r, (radUpdate w i).rad i = some r → ∀ p, r.own p = (w.cont i p).ref ∧ r.phos p = (w.cont r.pho p).ref := by
    intro r hr p
    have hr' : (w.rad i).map (fun r => r.refresh w i fun p => (w.cont i p).ext || (w.cont r.pho p).ext) = some r := by
      simpa [radUpdate] using hr
    obtain ⟨r0, hr0, rfl⟩ := Option.map_eq_some_iff.mp hr'
    exact rad_refresh_inv h hr0 p
  refine ⟨⟨h.pusher, h.coll, ?_, h.pair⟩, hrad⟩
  intro j r hr p
  by_cases hj : j = i
  · subst hj
    exact ⟨fun _ => (hrad r hr p).1, fun _ => (hrad r hr p).2⟩
  · have hr' : w.rad j = some r := by simpa [radUpdate, hj] using hr
    exact h.rad j r hr' p

theorem inv_pairUpdate {w : World} (h : Inv w) (i : Nat) : Inv (pairUpdate w i) ∧ Fresh (pairUpdate w i) (.pair i) := by
  have hpair : ∀ r, (pairUpdate w i).pair i = some r → ∀ p, r.own p = (w.cont i p).ref ∧ r.eles p = (w.cont r.ele p).ref ∧ r.poss p = (w.cont r.pos p).ref := by
    intro r hr p
    have hr' : (w.pair i).map (fun r => r.refresh w i fun p => (w.cont i p).ext || (w.cont r.ele p).ext || (w.cont r.pos p).ext) = some r := by
      simpa [pairUpdate] using hr
    obtain ⟨r0, hr0, rfl⟩ := Option.map_eq_some_iff.mp hr'
    exact pair_refresh_inv h hr0 p
  refine ⟨⟨h.pusher, h.coll, h.rad, ?_⟩, hpair⟩
  intro j r hr p
  by_cases hj : j = i
  · subst hj
    exact ⟨fun _ => (hpair r hr p).1, fun _ => (hpair r hr p).2.1, fun _ => (hpair r hr p).2.2⟩
  · have hr' : w.pair j = some r := by simpa [pairUpdate, hj] using hr
    exact h.pair j r hr' p

theorem inv_radCreate {w : World} (h : Inv w) {i : Nat} (hf : Fresh w (.rad i)) (ns : Nat → Nat) :
    Inv (radCreate w i ns) ∧ Fresh (radCreate w i ns) (.rad i) := by
  cases hr0 : w.rad i with
  | none =>
    have e : radCreate w i ns = w := by unfold radCreate; rw [hr0]
    rw [e]
    exact ⟨h, hf⟩
  | some r0 =>
    have e : radCreate w i ns = { extendAll w r0.pho ns with
        rad := fun j => if j = i then some (r0.refresh (extendAll w r0.pho ns) i fun p => ns p != 0) else (extendAll w r0.pho ns).rad j } := by
      unfold radCreate
      rw [hr0]
    have hI := inv_extendAll h r0.pho ns
    have hfr : ∀ p, (r0.refresh (extendAll w r0.pho ns) i fun p => ns p != 0).own p = ((extendAll w r0.pho ns).cont i p).ref ∧
        (r0.refresh (extendAll w r0.pho ns) i fun p => ns p != 0).phos p = ((extendAll w r0.pho ns).cont r0.pho p).ref := by
      intro p
      apply Rad.refresh_spec
      · intro hs
        rw [extendAll_same w _ ns _ p (by simpa using hs)]
        exact (hf r0 hr0 p).1
      · intro hs
        rw [extendAll_same w _ ns _ p (by simpa using hs)]
        exact (hf r0 hr0 p).2
    rw [e]
    constructor
    · refine ⟨hI.pusher, hI.coll, ?_, hI.pair⟩
      intro j r hr p
      by_cases hj : j = i
      · subst hj
        have : r0.refresh (extendAll w r0.pho ns) j (fun p => ns p != 0) = r := by simpa using hr
        subst this
        exact ⟨fun _ => (hfr p).1, fun _ => (hfr p).2⟩
      · have hr' : (extendAll w r0.pho ns).rad j = some r := by simpa [hj] using hr
        exact hI.rad j r hr' p
    · intro r hr p
      have : r0.refresh (extendAll w r0.pho ns) i (fun p => ns p != 0) = r := by simpa using hr
      subst this
      exact hfr p

theorem inv_pairCreate {w : World} (h : Inv w) {i : Nat} (hf : Fresh w (.pair i)) (n1 n2 : Nat → Nat) :
    Inv (pairCreate w i n1 n2) ∧ Fresh (pairCreate w i n1 n2) (.pair i) := by
  cases hr0 : w.pair i with
  | none =>
    have e : pairCreate w i n1 n2 = w := by unfold pairCreate; rw [hr0]
    rw [e]
    exact ⟨h, hf⟩
  | some r0 =>
    have e : pairCreate w i n1 n2 = { extendAll (extendAll w r0.ele n1) r0.pos n2 with
        pair := fun j => if j = i then some (r0.refresh (extendAll (extendAll w r0.ele n1) r0.pos n2) i fun p => n1 p != 0 || n2 p != 0)
          else (extendAll (extendAll w r0.ele n1) r0.pos n2).pair j } := by
      unfold pairCreate
      rw [hr0]
    have hI := inv_extendAll (inv_extendAll h r0.ele n1) r0.pos n2
    have hsame : ∀ j p, (n1 p != 0 || n2 p != 0) = false → (extendAll (extendAll w r0.ele n1) r0.pos n2).cont j p = w.cont j p := by
      intro j p hs
      rw [Bool.or_eq_false_iff] at hs
      rw [extendAll_same _ _ n2 _ p (by simpa using hs.2), extendAll_same _ _ n1 _ p (by simpa using hs.1)]
    have hfr : ∀ p, _ := fun p => Pair.refresh_spec (w := extendAll (extendAll w r0.ele n1) r0.pos n2) (i := i) (r := r0)
      (sel := fun p => n1 p != 0 || n2 p != 0) (p := p)
      (fun hs => by rw [hsame _ p hs]; exact (hf r0 hr0 p).1)
      (fun hs => by rw [hsame _ p hs]; exact (hf r0 hr0 p).2.1)
      (fun hs => by rw [hsame _ p hs]; exact (hf r0 hr0 p).2.2)
    rw [e]
    constructor
    · refine ⟨hI.pusher, hI.coll, hI.rad, ?_⟩
      intro j r hr p
      by_cases hj : j = i
      · subst hj
        have : r0.refresh (extendAll (extendAll w r0.ele n1) r0.pos n2) j (fun p => n1 p != 0 || n2 p != 0) = r := by simpa using hr
        subst this
        exact ⟨fun _ => (hfr p).1, fun _ => (hfr p).2.1, fun _ => (hfr p).2.2⟩
      · have hr' : (extendAll (extendAll w r0.ele n1) r0.pos n2).pair j = some r := by simpa [hj] using hr
        exact hI.pair j r hr' p
    · intro r hr p
      have : r0.refresh (extendAll (extendAll w r0.ele n1) r0.pos n2) i (fun p => n1 p != 0 || n2 p != 0) = r := by simpa using hr
      subst this
      exact hfr p

theorem good_call {w : World} (h : Good w) (m : Mod) : Good (exec w (.call m)) := by
  cases m with
  | sorter i =>
    refine Inv.good ?_ h.calm
    exact ⟨h.inv.pusher, h.inv.coll, h.inv.rad, h.inv.pair⟩
  | _ => exact h

/-! ### a step -/

/-- events after which `Good` holds again, and whose calls are current -/
def Safe (P : World → Prop) (Q : World → Prop) (evs : List Ev) : Prop := ∀ w, P w → Q (run w evs) ∧ CallsFresh w evs

theorem Safe.append {P Q R : World → Prop} {a b : List Ev} (h1 : Safe P Q a) (h2 : Safe Q R b) : Safe P R (a ++ b) := by
  intro w hw
  obtain ⟨q, c⟩ := h1 w hw
  obtain ⟨r, d⟩ := h2 _ q
  exact ⟨by rw [run_append]; exact r, c.append d⟩

theorem Safe.nil (P : World → Prop) : Safe P P [] := fun w hw => ⟨hw, CallsFresh.nil w⟩

theorem Safe.flatMap {P : World → Prop} {α : Type} (l : List α) (f : α → List Ev) (h : ∀ a, Safe P P (f a)) : Safe P P (l.flatMap f) := by
  induction l with
  | nil => exact Safe.nil P
  | cons a l ih =>
    rw [List.flatMap_cons]
    exact (h a).append ih

theorem safe_call (m : Mod) : Safe Good Good [.call m] := by
  intro w hw
  refine ⟨good_call hw m, CallsFresh.cons (fun m' e => ?_) (CallsFresh.nil _)⟩
  cases e
  exact hw.fresh m

theorem safe_one {P Q : World → Prop} (e : Ev) (hn : ∀ m, e ≠ .call m) (h : ∀ w, P w → Q (exec w e)) : Safe P Q [e] := by
  intro w hw
  exact ⟨h w hw, CallsFresh.cons (fun m' he => absurd he (hn m')) (CallsFresh.nil _)⟩

theorem safe_grow (gs : List Grow) : Safe Inv Inv (gs.map Grow.ev) := by
  induction gs with
  | nil => exact Safe.nil _
  | cons g gs ih =>
    rw [List.map_cons, ← List.singleton_append]
    refine Safe.append ?_ ih
    cases g with
    | extend i p n => exact safe_one _ (by intro m; simp [Grow.ev]) fun w hw => inv_extend hw i p n
    | prune i p n => exact safe_one _ (by intro m; simp [Grow.ev]) fun w hw => inv_prune hw i p n

theorem safe_updateLists : Safe Inv Good [.updateLists] := safe_one _ (by simp) fun _ hw => good_updateLists hw

theorem Safe.weaken {P Q : World → Prop} {a : List Ev} (h : Safe P Q a) {P' : World → Prop} (hp : ∀ w, P' w → P w) : Safe P' Q a :=
  fun w hw => h w (hp w hw)

theorem safe_stage (s : Stage) : Safe Good Good s.evs := by
  unfold Stage.evs
  apply Safe.flatMap
  intro gs
  cases gs with
  | nil => exact Safe.nil _
  | cons g gs => exact ((safe_grow (g :: gs)).append safe_updateLists).weaken fun _ h => h.inv

theorem safe_if {P : World → Prop} {b : Bool} {a : List Ev} (h : Safe P P a) : Safe P P (if b then a else []) := by
  cases b
  · exact Safe.nil _
  · exact h

theorem safe_species (S : StepIn) (i : Nat) : Safe Good Good (speciesEvs S i) := by
  unfold speciesEvs
  refine Safe.append ?_ (safe_stage _)
  cases S.unified i with
  | true => exact safe_call _
  | false =>
    rw [if_neg (by simp)]
    exact ((((((((((((safe_call _).append (safe_stage _)).append (safe_call _)).append (safe_stage _)).append
      (safe_if (safe_call _))).append (safe_if (safe_call _))).append (safe_stage _)).append (safe_call _)).append (safe_stage _)).append
      (safe_call _)).append (safe_stage _)).append (safe_call _))

theorem safe_create (S : StepIn) (i : Nat) : Safe Inv Inv (createEvs S i) := by
  unfold createEvs
  apply Safe.append
  · apply safe_if
    intro w hw
    obtain ⟨a, b⟩ := inv_radUpdate hw i
    obtain ⟨c, d⟩ := inv_radCreate a b (S.photons i)
    refine ⟨c, ?_⟩
    refine CallsFresh.cons (by simp) (CallsFresh.cons ?_ (CallsFresh.cons (by simp) (CallsFresh.cons ?_ (CallsFresh.nil _))))
    · intro m e; cases e; exact b
    · intro m e; cases e; exact d
  · apply safe_if
    intro w hw
    obtain ⟨a, b⟩ := inv_pairUpdate hw i
    obtain ⟨c, d⟩ := inv_pairCreate a b (S.electrons i) (S.positrons i)
    refine ⟨c, ?_⟩
    refine CallsFresh.cons (by simp) (CallsFresh.cons ?_ (CallsFresh.cons (by simp) (CallsFresh.cons ?_ (CallsFresh.nil _))))
    · intro m e; cases e; exact b
    · intro m e; cases e; exact d

theorem safe_step (S : StepIn) : Safe Good Good (stepEvs S) := by
  unfold stepEvs
  have h1 : Safe Good Good (S.species.map fun i => Ev.call (.sorter i)) := by
    rw [List.map_eq_flatMap]
    exact Safe.flatMap _ _ fun i => safe_call _
  have h2 : Safe Inv Inv (S.exchange.map fun e => Ev.extend e.1 e.2.1 e.2.2) := by
    rw [List.map_eq_flatMap]
    exact Safe.flatMap _ _ fun e => safe_one _ (by simp) fun w hw => inv_extend hw _ _ _
  have h3 : Safe Inv Inv (rebalanceEvs S.rebalance) := by
    cases S.rebalance with
    | none => exact Safe.nil _
    | some c => exact safe_one _ (by simp) fun w _ => (good_updatePatches _).inv
  exact (((((((safe_stage _).append h1).append (safe_if (safe_call _))).append (Safe.flatMap _ _ (safe_species S))).append
    ((((Safe.flatMap _ _ (safe_create S)).append h2).append h3 |>.append safe_updateLists).weaken fun _ h => h.inv)) |>.append (safe_stage _)) |> fun h => by
      simpa only [List.append_assoc] using h)

/-- **C55** for every run from an initialised simulation, with any number of steps, any species, QED modules, collisions, callbacks at any stage that extend or prune and
call `update_lists`, any numbers of created and exchanged particles, and any rebalancing: every module called works on the current arrays of every patch, and at the start
of the next step everything is current -/
theorem lists_fresh (steps : List StepIn) (w : World) (hw : Good w) :
    CallsFresh w (steps.flatMap stepEvs) ∧ Good (run w (steps.flatMap stepEvs)) :=
  (Safe.flatMap steps stepEvs safe_step w hw).symm

/-- generating all lists from nothing gives such a start -/
theorem initial_good (w : World) : Good (updatePatches w) := good_updatePatches w

/-! ### where it fails -/

/-- the moving window gives a recycled patch new arrays and `update_lists` does not notice: the pusher of that species then works on the arrays the patch had before -/
theorem window_stale_fails (w : World) (hw : Good w) (i p n : Nat) : ¬ Fresh (run w (windowEvs [(i, p, n)])) (.pusher i) := by
  intro h
  have h1 := h p
  have hx : (init w i p n).cont i p = ⟨⟨(w.cont i p).ref.obj + 1, 0⟩, n, (w.cont i p).ext⟩ := by simp [init, World.setCont]
  have e1 : (run w (windowEvs [(i, p, n)])).pusher i p = w.pusher i p := by
    show (if ((init w i p n).cont i p).ext then _ else (init w i p n).pusher i p) = w.pusher i p
    rw [hx]
    simp only [hw.calm i p]
    rfl
  have e2 : ((run w (windowEvs [(i, p, n)])).cont i p).ref = ((init w i p n).cont i p).ref := rfl
  rw [e1, e2, hx] at h1
  rw [hw.fresh (.pusher i) p] at h1
  have := congrArg Ref.obj h1
  simp at this

/-- what the pusher holds changes only where a flag is set or patches migrate -/
theorem pusher_kept (w : World) (e : Ev) (i p : Nat) (he : (w.cont i p).ext = false) (hr : ∀ c, e ≠ .rebalance c) :
    (exec w e).pusher i p = w.pusher i p := by
  cases e with
  | call m => cases m <;> rfl
  | extend j q n => show (extend w j q n).pusher i p = _; unfold extend; split <;> rfl
  | prune j q n => show (prune w j q n).pusher i p = _; unfold prune; split <;> rfl
  | init j q n => rfl
  | updateLists =>
    show (if (w.cont i p).ext then (w.cont i p).ref else w.pusher i p) = _
    rw [he]
    rfl
  | radUpdate j => rfl
  | pairUpdate j => rfl
  | radCreate j ns => show (radCreate w j ns).pusher i p = _; unfold radCreate; split <;> rfl
  | pairCreate j n1 n2 => show (pairCreate w j n1 n2).pusher i p = _; unfold pairCreate; split <;> rfl
  | rebalance c => exact absurd rfl (hr c)
  | sorterGenerate => rfl

/-- and it stays so: whatever happens afterwards, as long as that container is not changed and patches do not migrate, the pusher goes on with the old arrays -/
theorem window_stays_stale_fails (i p : Nat) : ∀ (evs : List Ev) (w : World), w.pusher i p ≠ (w.cont i p).ref → (w.cont i p).ext = false →
    (∀ pre post, evs = pre ++ post → (run w pre).cont i p = w.cont i p) → (∀ e ∈ evs, ∀ c, e ≠ .rebalance c) → ¬ Fresh (run w evs) (.pusher i)
  | [], w, hs, _, _, _ => fun h => hs (h p)
  | e :: evs, w, hs, he, hc, hr => by
    have h1 : (exec w e).cont i p = w.cont i p := hc [e] evs rfl
    have h2 := pusher_kept w e i p he (hr e (by simp))
    refine window_stays_stale_fails i p evs (exec w e) (by rw [h1, h2]; exact hs) (by rw [h1]; exact he) ?_ fun e' he' => hr e' (by simp [he'])
    intro pre post h
    rw [h1]
    exact hc (e :: pre) post (by rw [h]; rfl)

/-- after the window moved, collisions go on with bucket bounds that the sorters no longer write -/
theorem window_bounds_fails (w : World) (hw : Good w) (c : Coll) (hc : w.coll = some c) : ¬ Fresh (run w (windowEvs [])) .coll := by
  intro h
  have h1 := (h { c with part := fun i p => if (w.cont i p).ext then (w.cont i p).ref else c.part i p } (by
    show w.coll.map _ = _
    rw [hc]
    rfl)).2 0
  have h2 := (hw.fresh .coll c hc).2 0
  change c.bounds 0 = w.bucket 0 + 1 at h1
  omega

/-- a callback that extends and does not call `update_lists`, run after the lists of the step were updated: the pusher is stale in the next step -/
theorem callback_no_update_fails (w : World) (hw : Good w) (i p n : Nat) (hn : n ≠ 0) : ¬ Fresh (run w [.extend i p n]) (.pusher i) := by
  intro h
  have h1 := h p
  have e : (extend w i p n).cont i p = ⟨⟨(w.cont i p).ref.obj, (w.cont i p).ref.ver + 1⟩, (w.cont i p).size + n, true⟩ := by
    simp [extend, hn, World.setCont]
  have e1 : (run w [.extend i p n]).pusher i p = w.pusher i p := by
    show (extend w i p n).pusher i p = _
    simp [extend, hn, World.setCont]
  have e2 : (run w [.extend i p n]).cont i p = (extend w i p n).cont i p := rfl
  rw [e1, e2, e, hw.fresh (.pusher i) p] at h1
  have := congrArg Ref.ver h1
  simp at this

/-! ### a concrete case -/

/-- electrons (0) that radiate photons (1), which decay into electrons and positrons (2); collisions on -/
def sampleWorld : World :=
  updatePatches
    { cont := fun _ _ => ⟨⟨0, 0⟩, 4, false⟩
      pusher := fun _ _ => ⟨7, 7⟩
      sorter := fun _ _ => (7, 7)
      bucket := fun _ => 0
      coll := some ⟨fun _ _ => ⟨7, 7⟩, fun _ => 7⟩
      rad := fun i => if i = 0 then some ⟨1, fun _ => ⟨7, 7⟩, fun _ => ⟨7, 7⟩⟩ else none
      pair := fun i => if i = 1 then some ⟨0, 2, fun _ => ⟨7, 7⟩, fun _ => ⟨7, 7⟩, fun _ => ⟨7, 7⟩⟩ else none }

def sampleStep : StepIn where
  species := [0, 1, 2]
  unified := fun i => i == 2
  hasColl := true
  hasRad := fun i => i == 0
  hasPair := fun i => i == 1
  before := [[.extend 0 0 3], []]
  inside := fun _ _ => []
  deposit := fun _ => []
  after := [[.prune 0 0 1, .extend 2 1 5]]
  photons := fun _ p => p
  electrons := fun _ _ => 1
  positrons := fun _ _ => 1
  exchange := [(0, 1, 2)]
  rebalance := none

example : Good sampleWorld ∧ CallsFresh sampleWorld ([sampleStep, sampleStep].flatMap stepEvs) :=
  ⟨good_updatePatches _, (lists_fresh _ _ (good_updatePatches _)).1⟩
example : (run sampleWorld (stepEvs sampleStep)).pusher 2 1 = ⟨0, 2⟩ := by decide +kernel

end Verif.Lists
