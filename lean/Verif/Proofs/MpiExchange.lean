import Verif.Model.MpiExchange
import Verif.Proofs.ExchangeRoute

set_option linter.unusedSectionVars false

namespace Verif.MpiExchange
open Verif.Exchange
variable {A D : Type} [DecidableEq D]

/-! ### the indices of the outgoing particles -/

theorem outIndices_eq (cls : A → Option D) (len : D → Nat) : ∀ (l : List (Slot A)) (k : Nat) (acc : D → List Nat),
    (∀ d, len d ≠ 0 → (acc d).length + (selIdx cls d k l).length ≤ len d) →
    outIndices cls len k l acc = some fun d => if len d = 0 then acc d else acc d ++ selIdx cls d k l
  | [], k, acc, _ => by
    simp [outIndices, selIdx]
  | s :: t, k, acc, h => by
    rw [outIndices]
    cases hd : s.dead with
    | true =>
      rw [if_pos rfl, outIndices_eq cls len t (k + 1) acc (by
        intro d hl; have := h d hl; rw [selIdx, if_neg (by simp [hd])] at this; exact this)]
      congr 1; funext d; simp only [selIdx, hd, Bool.true_eq_false, false_and, if_false]
    | false =>
      rw [if_neg (by simp)]
      cases hc : cls s.a with
      | none =>
        simp only
        rw [outIndices_eq cls len t (k + 1) acc (by
          intro d hl; have := h d hl; rw [selIdx, if_neg (by simp [hc])] at this; exact this)]
        congr 1; funext d; simp only [selIdx, hc, reduceCtorEq, and_false, if_false]
      | some e =>
        simp only
        by_cases hl : len e = 0
        · rw [if_pos hl, outIndices_eq cls len t (k + 1) acc (by
            intro d hl'
            have := h d hl'
            have hne : e ≠ d := by rintro rfl; exact hl' hl
            rw [selIdx, if_neg (by simp [hc, hne])] at this; exact this)]
          congr 1; funext d
          by_cases hl' : len d = 0
          · rw [if_pos hl', if_pos hl']
          · have hne : e ≠ d := by rintro rfl; exact hl' hl
            rw [if_neg hl', if_neg hl', selIdx, if_neg (by simp [hc, hne])]
        · have he := h e hl
          rw [selIdx, if_pos ⟨hd, hc⟩, List.length_cons] at he
          rw [if_neg hl, if_pos (by omega), outIndices_eq cls len t (k + 1) _ (by
            intro d hl'
            have := h d hl'
            by_cases hde : d = e
            · subst hde; simp only [if_true, List.length_append, List.length_singleton]; omega
            · rw [selIdx, if_neg (by simp [hc, Ne.symm hde])] at this
              simp only [hde, if_false]; exact this)]
          congr 1; funext d
          by_cases hl' : len d = 0
          · have hde : d ≠ e := by rintro rfl; exact hl hl'
            simp only [hl', if_true, hde, if_false]
          · by_cases hde : d = e
            · subst hde
              simp only [hl', if_false, if_true]
              rw [selIdx, if_pos ⟨hd, hc⟩]; simp
            · simp only [hl', if_false, hde]
              rw [selIdx, if_neg (by simp [hc, Ne.symm hde])]

theorem mem_selIdx (cls : A → Option D) (d : D) : ∀ (l : List (Slot A)) (k i : Nat),
    i ∈ selIdx cls d k l ↔ ∃ j sl, i = k + j ∧ l[j]? = some sl ∧ sl.dead = false ∧ cls sl.a = some d
  | [], k, i => by simp [selIdx]
  | s :: t, k, i => by
    have ih := mem_selIdx cls d t (k + 1) i
    have step : (∃ j sl, i = k + j ∧ (s :: t)[j]? = some sl ∧ sl.dead = false ∧ cls sl.a = some d) ↔
        (i = k ∧ s.dead = false ∧ cls s.a = some d) ∨
        ∃ j sl, i = k + 1 + j ∧ t[j]? = some sl ∧ sl.dead = false ∧ cls sl.a = some d := by
      constructor
      · rintro ⟨j, sl, h1, h2, h3, h4⟩
        cases j with
        | zero => simp at h2; subst h2; exact Or.inl ⟨by omega, h3, h4⟩
        | succ j => simp at h2; exact Or.inr ⟨j, sl, by omega, h2, h3, h4⟩
      · rintro (⟨h1, h2, h3⟩ | ⟨j, sl, h1, h2, h3, h4⟩)
        · exact ⟨0, s, by omega, by simp, h2, h3⟩
        · exact ⟨j + 1, sl, by omega, by simpa using h2, h3, h4⟩
    rw [step, ← ih, selIdx]
    split
    · rename_i h; simp [h]
    · rename_i h
      constructor
      · exact Or.inr
      · rintro (⟨_, h2⟩ | h')
        · exact absurd h2 h
        · exact h'

theorem selIdx_zero_read (cls : A → Option D) (d : D) (l : List (Slot A)) :
    (selIdx cls d 0 l).map (fun i => (l[i]?).map Slot.a) = (leaving cls d l).map some := by
  have h := selIdx_read cls d l 0 [] rfl
  rw [List.nil_append] at h
  rw [leaving_eq_map]
  have : (selIdx cls d 0 l).map (fun i => (l[i]?).map Slot.a) =
      ((selIdx cls d 0 l).map fun i => l[i]?).map (Option.map Slot.a) := by
    rw [List.map_map]; rfl
  rw [this, h, List.map_map, List.map_map]
  rfl

theorem mapM_range {β : Type} (l : List β) : (List.range l.length).mapM (fun j => l[j]?) = some l := by
  refine mapM_of_map _ _ _ ?_
  apply List.ext_getElem?
  intro i
  rw [List.getElem?_map, List.getElem?_map]
  by_cases h : i < l.length
  · simp [List.getElem?_range h, List.getElem?_eq_getElem h]
  · rw [List.getElem?_eq_none (by simpa using h), List.getElem?_eq_none (by simpa using h)]; rfl

/-! ### marking -/

theorem markAt_get : ∀ (idx : List Nat) (l : List (Slot A)) (k : Nat),
    (markAt l idx)[k]? = (l[k]?).map fun s => if k ∈ idx then ⟨s.a, true⟩ else s
  | [], l, k => by simp [markAt]
  | i :: t, l, k => by
    have : markAt l (i :: t) = markAt (l.modify i fun s => ⟨s.a, true⟩) t := rfl
    rw [this, markAt_get t, List.getElem?_modify, Option.map_eq_map, Option.map_map]
    congr 1
    funext s
    simp only [Function.comp]
    by_cases h : i = k
    · subst h; simp
    · have h' : k ≠ i := Ne.symm h
      simp [h, h']

theorem markAt_attr (idx : List Nat) (l : List (Slot A)) (k : Nat) :
    ((markAt l idx)[k]?).map Slot.a = (l[k]?).map Slot.a := by
  rw [markAt_get, Option.map_map]
  congr 1
  funext s
  simp only [Function.comp]
  split <;> rfl

/-- the particle in this slot is sent to another rank -/
def sent (g : Geo A D) (ip : Nat) (sl : Slot A) : Bool :=
  !sl.dead && match g.cls ip sl.a with
    | none => false
    | some d => (g.nbr ip d).isSome

/-- the slots after the sends -/
def sentSlots (g : Geo A D) (ip : Nat) (l : List (Slot A)) : List (Slot A) :=
  l.map fun sl => if sent g ip sl then ⟨sl.a, true⟩ else sl

theorem sendLoop_eq (g : Geo A D) (len : D → Nat) (ip : Nat) (idx : D → List Nat) (slots : List (Slot A))
    (cls : A → Option D)
    (hidx : ∀ d, (g.nbr ip d).isSome → idx d = selIdx cls d 0 slots ∧ len d = (idx d).length) :
    ∀ (ds : List D) (m : D → List A) (l : List (Slot A)), ds.Nodup →
      (∀ k : Nat, (l[k]?).map Slot.a = (slots[k]?).map Slot.a) →
      ∃ l', sendLoop g len ip idx ds (m, l) = some
          (fun d => if d ∈ ds ∧ (g.nbr ip d).isSome then leaving cls d slots else m d, l') ∧
        ∀ k : Nat, l'[k]? = (l[k]?).map fun s =>
          if ∃ d ∈ ds, (g.nbr ip d).isSome ∧ k ∈ selIdx cls d 0 slots then ⟨s.a, true⟩ else s
  | [], m, l, _, _ => ⟨l, by simp [sendLoop], by simp⟩
  | d :: ds, m, l, hn, hl => by
    have hn' := List.nodup_cons.mp hn
    rw [sendLoop]
    cases hb : g.nbr ip d with
    | none =>
      obtain ⟨l', h1, h2⟩ := sendLoop_eq g len ip idx slots cls hidx ds m l hn'.2 hl
      refine ⟨l', ?_, fun k => ?_⟩
      · simp only
        rw [h1]
        congr 2
        funext e
        by_cases he : e = d
        · subst he; simp [hb]
        · simp [he]
      · rw [h2]; congr 1; funext s; simp [hb]
    | some q =>
      obtain ⟨hi, hlen⟩ := hidx d (by simp [hb])
      have hm : (selIdx cls d 0 slots).mapM (fun j => (l[j]?).map Slot.a) = some (leaving cls d slots) := by
        refine mapM_of_map _ _ _ ?_
        rw [← selIdx_zero_read]
        apply List.map_congr_left
        intro j _
        exact hl j
      simp only
      rw [hlen, mapM_range, hi]
      simp only
      rw [hm]
      obtain ⟨l', h1, h2⟩ := sendLoop_eq g len ip idx slots cls hidx ds
        (fun e => if e = d then leaving cls d slots else m e) (markAt l (selIdx cls d 0 slots)) hn'.2
        (fun k => by rw [markAt_attr, hl])
      refine ⟨l', ?_, fun k => ?_⟩
      · simp only
        rw [h1]
        congr 2
        funext e
        by_cases he : e = d
        · subst he; simp [hb, hn'.1]
        · simp [he]
      · rw [h2, markAt_get, Option.map_map]
        congr 1
        funext s
        simp only [Function.comp, List.mem_cons, exists_eq_or_imp, hb, Option.isSome_some, true_and]
        by_cases hk : k ∈ selIdx cls d 0 slots
        · simp [hk]
        · simp [hk]

theorem leaving_extended (g : Geo A D) (s : Nat → List (Slot A)) (ip : Nat) (cls : A → Option D) (d : D) :
    leaving cls d (extended g s ip) = leaving cls d (s ip) := leaving_extend _ _ _ _ _

/-- what one patch sends -/
def message (g : Geo A D) (s : Nat → List (Slot A)) (ip : Nat) (d : D) : List A :=
  match g.nbr ip d with
  | none => []
  | some _ => leaving (g.cls ip) d (s ip)

theorem sendPatch_eq {g : Geo A D} (hg : WF g) (s : Nat → List (Slot A)) (ip : Nat) :
    sendPatch g (outgoing g s ip) ip (extended g s ip) =
      some (message g s ip, sentSlots g ip (extended g s ip)) := by
  have hcls : g.clsI ip = g.cls ip := funext (hg.agree ip)
  have hlen : ∀ d, (g.nbr ip d).isSome → outgoing g s ip d = (selIdx (g.cls ip) d 0 (extended g s ip)).length := by
    intro d hd
    obtain ⟨q, hq⟩ := Option.isSome_iff_exists.mp hd
    rw [selIdx_length, leaving_extended]
    simp only [outgoing, hq]
    exact countOut_eq _ _ _
  have hzero : ∀ d, g.nbr ip d = none → outgoing g s ip d = 0 := by
    intro d hd; simp [outgoing, hd]
  unfold sendPatch
  rw [hcls, outIndices_eq (g.cls ip) _ _ _ _ (by
    intro d hd
    cases hb : g.nbr ip d with
    | none => exact absurd (hzero d hb) hd
    | some q => rw [hlen d (by simp [hb])]; simp)]
  simp only
  obtain ⟨l', h1, h2⟩ := sendLoop_eq g (outgoing g s ip) ip
    (fun d => if outgoing g s ip d = 0 then [] else [] ++ selIdx (g.cls ip) d 0 (extended g s ip))
    (extended g s ip) (g.cls ip) (by
      intro d hd
      have hl := hlen d hd
      by_cases h0 : outgoing g s ip d = 0
      · have : selIdx (g.cls ip) d 0 (extended g s ip) = [] := by
          apply List.eq_nil_of_length_eq_zero; rw [← hl, h0]
        simp [h0, this]
      · simp only [h0, if_false, List.nil_append]; exact ⟨trivial, hl⟩) g.dirs (fun _ => []) (extended g s ip) hg.nodup (fun _ => rfl)
  rw [h1]
  congr 2
  · funext d
    unfold message
    cases hb : g.nbr ip d with
    | none => simp
    | some q => simp [hg.complete d, leaving_extended]
  · apply List.ext_getElem?
    intro k
    rw [h2]
    unfold sentSlots
    rw [List.getElem?_map]
    cases hk : (extended g s ip)[k]? with
    | none => rfl
    | some sl =>
      simp only [Option.map_some]
      congr 1
      have : (∃ d ∈ g.dirs, (g.nbr ip d).isSome = true ∧ k ∈ selIdx (g.cls ip) d 0 (extended g s ip)) ↔
          sent g ip sl = true := by
        unfold sent
        constructor
        · rintro ⟨d, _, hs, hm⟩
          obtain ⟨j, sl', h1, h2, h3, h4⟩ := (mem_selIdx _ _ _ _ _).mp hm
          rw [Nat.zero_add] at h1
          rw [← h1, hk] at h2
          obtain rfl := Option.some.inj h2
          simp [h3, h4, hs]
        · intro h
          cases hc : g.cls ip sl.a with
          | none => rw [hc] at h; simp at h
          | some d =>
            rw [hc] at h
            simp only [Bool.and_eq_true, Bool.not_eq_true'] at h
            exact ⟨d, hg.complete d, h.2, (mem_selIdx _ _ _ _ _).mpr ⟨k, sl, by omega, hk, h.1, hc⟩⟩
      by_cases hs : sent g ip sl = true
      · rw [if_pos (this.mpr hs), if_pos hs]
      · rw [if_neg (fun h => hs (this.mp h)), if_neg hs]

/-! ### receiving -/

theorem received_eq {g : Geo A D} (hg : WF g) (s : Nat → List (Slot A)) (ip : Nat) : ∀ ds : List D,
    received g (incoming g s ip) (message g s) ip ds = some (ds.flatMap fun ib =>
      match g.nbr ip ib with
      | none => []
      | some i => leaving (g.cls i) (g.opp ib) (s i))
  | [] => rfl
  | d :: ds => by
    have ih := received_eq hg s ip ds
    rw [received, List.flatMap_cons]
    cases hb : g.nbr ip d with
    | none =>
      simp only
      rw [if_pos (by simp [incoming, hb]), ih]; rfl
    | some q =>
      have hq := (hg.sym _ _ _ hb).2.2
      have hm : message g s q (g.opp d) = leaving (g.cls q) (g.opp d) (s q) := by
        simp [message, hq]
      have hi : incoming g s ip d = (message g s q (g.opp d)).length := by
        rw [hm]; simp only [incoming, hb, outgoing, hq]; exact countOut_eq _ _ _
      simp only
      rw [hi, mapM_range, ih, hm]
      rfl

theorem place_eq (w : A → A) : ∀ (l : List (Slot A)) (b : List A), b.length ≤ nDead l →
    place w l b = some (fillSlots w l b)
  | l, [], _ => by rw [fillSlots_nil]; cases l <;> rfl
  | [], b :: bs, h => by simp [nDead] at h
  | s :: rest, b :: bs, h => by
    have hd : nDead (s :: rest) = (if s.dead then 1 else 0) + nDead rest := by
      rw [nDead_eq, nDead_eq, List.filter_cons]
      cases s.dead <;> simp [Nat.add_comm]
    rw [hd] at h
    rw [place, fillSlots]
    cases hs : s.dead with
    | true =>
      rw [if_pos rfl, if_pos rfl, place_eq w rest bs (by simp [hs] at h; omega)]; rfl
    | false =>
      rw [if_neg (by simp), if_neg (by simp), place_eq w rest (b :: bs) (by simpa [hs] using h)]; rfl

theorem newcomers_eq {g : Geo A D} (hg : WF g) (s : Nat → List (Slot A)) (ip : Nat) :
    newcomers g s ip = (arriving g s ip).length := by
  rw [← npartNew_eq]
  unfold newcomers npartNew
  congr 1
  funext acc d
  cases hb : g.nbr ip d with
  | none => rfl
  | some q => simp [incoming, hb, outgoing, (hg.sym _ _ _ hb).2.2]

theorem nDead_sent (g : Geo A D) (ip : Nat) (l : List (Slot A)) : nDead l ≤ nDead (sentSlots g ip l) := by
  rw [nDead_eq, nDead_eq]
  unfold sentSlots
  induction l with
  | nil => simp
  | cons s t ih =>
    rw [List.map_cons, List.filter_cons, List.filter_cons]
    cases hd : s.dead with
    | true =>
      have : sent g ip s = false := by simp [sent, hd]
      simp [this, hd]; exact ih
    | false =>
      rw [if_neg (by simp)]
      by_cases hs : sent g ip s = true
      · rw [if_pos hs, if_pos rfl, List.length_cons]; omega
      · rw [if_neg hs, hd, if_neg (by simp)]; exact ih

theorem room {g : Geo A D} (hg : WF g) (s : Nat → List (Slot A)) (ip : Nat) :
    (arriving g s ip).length ≤ nDead (sentSlots g ip (extended g s ip)) := by
  refine le_trans ?_ (nDead_sent g ip _)
  unfold extended
  rw [nDead_extend, newcomers_eq hg]
  unfold toExtend
  split
  · omega
  · split <;> omega

theorem alive_sent (g : Geo A D) (ip : Nat) (l : List (Slot A)) :
    alive (sentSlots g ip l) = (alive l).filter fun a =>
      !(match g.cls ip a with | none => false | some d => (g.nbr ip d).isSome) := by
  unfold sentSlots
  induction l with
  | nil => rfl
  | cons s t ih =>
    rw [List.map_cons, alive_cons, alive_cons]
    cases hd : s.dead with
    | true =>
      have : sent g ip s = false := by simp [sent, hd]
      simpa [this, hd] using ih
    | false =>
      have e : sent g ip s = (match g.cls ip s.a with | none => false | some d => (g.nbr ip d).isSome) := by
        simp [sent, hd]
      rw [if_neg (by simp : ¬ (false = true)), List.filter_cons]
      by_cases hs : sent g ip s = true
      · rw [if_pos hs, if_pos rfl, ih, ← e, hs]; simp
      · rw [if_neg hs, hd, if_neg (by simp), ih, ← e]; simp [hs]

/-! ### the whole exchange -/

theorem forAll_eq {β : Type} (n : Nat) (f : Nat → Option β) (dflt v : Nat → β)
    (h : ∀ p < n, f p = some (v p)) :
    forAll n f dflt = some fun p => if p < n then v p else dflt p := by
  unfold forAll
  have : (List.range n).mapM f = some ((List.range n).map v) := by
    refine mapM_of_map _ _ _ ?_
    rw [List.map_map]
    apply List.map_congr_left
    intro p hp
    exact h p (List.mem_range.mp hp)
  rw [this]
  simp only
  congr 1
  funext p
  by_cases hp : p < n
  · rw [if_pos hp, List.getD_eq_getElem?_getD]; simp [List.getElem?_range hp]
  · rw [if_neg hp, List.getD_eq_getElem?_getD, List.getElem?_eq_none (by simpa using hp)]; rfl

/-- the state after the exchange between ranks -/
def mpiFinal (g : Geo A D) (s : Nat → List (Slot A)) (ip : Nat) : List (Slot A) :=
  if ip < g.npatches then
    fillSlots (g.wrap ip) (sentSlots g ip (extended g s ip)) (arriving g s ip)
  else s ip

theorem mpiSync_eq {g : Geo A D} (hg : WF g) (s : Nat → List (Slot A)) :
    mpiSync g s = some (mpiFinal g s) := by
  unfold mpiSync
  rw [forAll_eq _ _ _ (fun ip => (message g s ip, sentSlots g ip (extended g s ip)))
    (fun p _ => sendPatch_eq hg s p)]
  simp only
  refine (forAll_eq _ _ _ (fun ip => fillSlots (g.wrap ip) (sentSlots g ip (extended g s ip)) (arriving g s ip))
    (fun p hp => ?_)).trans rfl
  unfold recvPatch
  have hmsg : ∀ ds : List D, received g (incoming g s p) (fun q => ((if q < g.npatches then
      (message g s q, sentSlots g q (extended g s q)) else ((fun _ => []), []) :
        (D → List A) × List (Slot A))).1) p ds = received g (incoming g s p) (message g s) p ds := by
    intro ds
    induction ds with
    | nil => rfl
    | cons d ds ih =>
      rw [received, received]
      cases hb : g.nbr p d with
      | none => simp only [ih]
      | some q =>
        have hq := (hg.sym _ _ _ hb).2.1
        simp only [ih, if_pos hq]
  rw [hmsg, received_eq hg]
  simp only
  rw [if_pos hp]
  exact place_eq _ _ _ (room hg s p)

/-- where the exchange between ranks takes a living particle -/
def hop (g : Geo A D) (x : Nat × A) : Nat × A :=
  match g.cls x.1 x.2 with
  | none => x
  | some d =>
    match g.nbr x.1 d with
    | none => x
    | some q => (q, g.wrap q x.2)

theorem leaving_filter (g : Geo A D) (p : Nat) (d : D) (q : Nat) (h : g.nbr p d = some q) (l : List (Slot A)) :
    leaving (g.cls p) d l = (alive l).filter fun a =>
      (g.cls p a).filter (fun e => (g.nbr p e).isSome) == some d := by
  unfold leaving
  apply List.filter_congr
  intro a _
  cases hc : g.cls p a with
  | none => rfl
  | some e =>
    by_cases he : e = d
    · subst he; simp [Option.filter, h]
    · cases hb : (g.nbr p e).isSome <;> simp [Option.filter, hb, he]

theorem living_mpi {g : Geo A D} (hg : WF g) (s : Nat → List (Slot A)) :
    (living g.npatches (mpiFinal g s)).Perm ((living g.npatches s).map (hop g)) := by
  have hl : (living g.npatches (mpiFinal g s)).Perm
      (((List.range g.npatches).flatMap fun p =>
          ((alive (s p)).filter fun a => (g.cls p a).filter (fun e => (g.nbr p e).isSome) == none).map
            fun a => (p, a)) ++
        (links g).flatMap fun x =>
          (leaving (g.cls x.2.2) (g.opp x.2.1) (s x.2.2)).map fun a => (x.1, g.wrap x.1 a)) := by
    unfold living
    refine (flatMap_perm_congr (h := fun p =>
      (((alive (s p)).filter fun a => (g.cls p a).filter (fun e => (g.nbr p e).isSome) == none).map
            fun a => (p, a)) ++
      g.dirs.flatMap fun d => match g.nbr p d with
        | none => []
        | some q => (leaving (g.cls q) (g.opp d) (s q)).map fun a => (p, g.wrap p a)) ?_).trans ?_
    · intro p hp
      have hp' := List.mem_range.mp hp
      unfold mpiFinal
      rw [if_pos hp']
      refine ((fillSlots_alive _ _ _ (room hg s p)).map _).trans ?_
      rw [List.map_append]
      refine List.Perm.append (List.Perm.of_eq ?_) (List.Perm.of_eq ?_)
      · rw [alive_sent]
        unfold extended
        rw [alive_extend]
        congr 1
        apply List.filter_congr
        intro a _
        cases hc : g.cls p a with
        | none => rfl
        | some e => cases hb : (g.nbr p e).isSome <;> simp [Option.filter, hb]
      · unfold arriving
        rw [List.map_flatMap, List.map_flatMap]
        congr 1
        funext d
        cases g.nbr p d with
        | none => rfl
        | some q => simp
    · refine (flatMap_append_perm _ _ _).trans (List.Perm.append_left _ (List.Perm.of_eq ?_))
      exact flatMap_links g fun x =>
        (leaving (g.cls x.2.2) (g.opp x.2.1) (s x.2.2)).map fun a => (x.1, g.wrap x.1 a)
  have hr : ((living g.npatches s).map (hop g)).Perm
      (((List.range g.npatches).flatMap fun p =>
          ((alive (s p)).filter fun a => (g.cls p a).filter (fun e => (g.nbr p e).isSome) == none).map
            fun a => (p, a)) ++
        (links g).flatMap fun x =>
          (leaving (g.cls x.1) x.2.1 (s x.1)).map fun a => (x.2.2, g.wrap x.2.2 a)) := by
    unfold living
    rw [List.map_flatMap]
    refine (flatMap_perm_congr (h := fun p =>
      (((alive (s p)).filter fun a => (g.cls p a).filter (fun e => (g.nbr p e).isSome) == none).map
            fun a => (p, a)) ++
      g.dirs.flatMap fun d => match g.nbr p d with
        | none => []
        | some q => (leaving (g.cls p) d (s p)).map fun a => (q, g.wrap q a)) ?_).trans ?_
    · intro p _
      rw [List.map_map]
      have key := split_by_class (fun a => (g.cls p a).filter (fun e => (g.nbr p e).isSome)) g.dirs hg.nodup
        hg.complete (fun a => some (hop g (p, a))) (alive (s p))
      have e1 : (alive (s p)).filterMap (fun a => some (hop g (p, a))) =
          (alive (s p)).map (hop g ∘ fun a => (p, a)) := by
        rw [← List.filterMap_eq_map]; rfl
      rw [e1] at key
      refine key.trans (List.Perm.append (List.Perm.of_eq ?_) (List.Perm.of_eq ?_))
      · rw [← List.filterMap_eq_map]
        apply List.filterMap_congr
        intro a ha
        have := (List.mem_filter.mp ha).2
        simp only [Function.comp]
        congr 1
        unfold hop
        cases hc : g.cls p a with
        | none => rfl
        | some e =>
          cases hb : g.nbr p e with
          | none => simp only [hb]
          | some q => simp [hc, hb, Option.filter] at this
      · congr 1
        funext d
        cases hn : g.nbr p d with
        | none =>
          simp only
          rw [List.filterMap_eq_nil_iff]
          intro a ha
          have := (List.mem_filter.mp ha).2
          simp only [beq_iff_eq] at this
          obtain ⟨h1, h2⟩ := Option.filter_eq_some_iff.mp this
          simp [hn] at h2
        | some q =>
          simp only
          rw [leaving_filter g p d q hn, ← List.filterMap_eq_map]
          apply List.filterMap_congr
          intro a ha
          have := (List.mem_filter.mp ha).2
          simp only [beq_iff_eq] at this
          obtain ⟨h1, h2⟩ := Option.filter_eq_some_iff.mp this
          simp [hop, h1, hn]
    · refine (flatMap_append_perm _ _ _).trans (List.Perm.append_left _ (List.Perm.of_eq ?_))
      exact flatMap_links g fun x => (leaving (g.cls x.1) x.2.1 (s x.1)).map fun a => (x.2.2, g.wrap x.2.2 a)
  refine hl.trans (List.Perm.trans ?_ hr.symm)
  refine List.Perm.append_left _ ?_
  refine List.Perm.trans ?_ ((links_flip hg).flatMap_right _)
  rw [List.flatMap_map]

/-- a living particle that is not sent keeps its slot -/
theorem mpiFinal_keeps (g : Geo A D) (s : Nat → List (Slot A)) (ip k : Nat) (sl : Slot A)
    (h : (s ip)[k]? = some sl) (hd : sl.dead = false) (hi : sent g ip sl = false) :
    (mpiFinal g s ip)[k]? = some sl := by
  unfold mpiFinal
  split
  · refine fillSlots_keeps _ _ _ _ _ ?_ hd
    unfold sentSlots
    rw [List.getElem?_map]
    have : (extended g s ip)[k]? = some sl := by
      unfold extended extendSlots
      rw [List.getElem?_append_left]
      · exact h
      · obtain ⟨hk, _⟩ := List.getElem?_eq_some_iff.mp h; exact hk
    rw [this]
    simp [hi]
  · exact h

/-! ### with the exchange inside each rank -/

theorem wf_remote {g : Geo A D} (hg : WF g) (rk : Nat → Nat) :
    WF (withNbr g (SyncFields.remoteNbr rk g.nbr)) where
  nodup := hg.nodup
  complete := hg.complete
  opp_opp := hg.opp_opp
  agree := hg.agree
  sym := by
    intro i d t h
    obtain ⟨h1, h2⟩ := Option.filter_eq_some_iff.mp h
    obtain ⟨a, b, c⟩ := hg.sym _ _ _ h1
    refine ⟨a, b, Option.filter_eq_some_iff.mpr ⟨c, ?_⟩⟩
    simp only [bne_iff_ne, ne_eq] at h2 ⊢
    exact fun e => h2 e.symm

theorem wf_local {g : Geo A D} (hg : WF g) (rk : Nat → Nat) :
    WF (withNbr g (SyncFields.localNbr rk g.nbr)) where
  nodup := hg.nodup
  complete := hg.complete
  opp_opp := hg.opp_opp
  agree := hg.agree
  sym := by
    intro i d t h
    obtain ⟨h1, h2⟩ := Option.filter_eq_some_iff.mp h
    obtain ⟨a, b, c⟩ := hg.sym _ _ _ h1
    refine ⟨a, b, Option.filter_eq_some_iff.mpr ⟨c, ?_⟩⟩
    simp only [beq_iff_eq] at h2 ⊢
    exact h2.symm

/-- both exchanges, particle by particle -/
def parRoute (g : Geo A D) (rk : Nat → Nat) (x : Nat × A) : Option (Nat × A) :=
  let y := hop (withNbr g (SyncFields.remoteNbr rk g.nbr)) x
  route (withNbr g (SyncFields.localNbr rk g.nbr)) y.1 y.2

theorem parSync_eq {g : Geo A D} (hg : WF g) (hin : ∀ p a, g.cls p a = none ↔ g.inside p a = true)
    (rk : Nat → Nat) (s : Nat → List (Slot A)) {ord2 ord3 : List Nat}
    (h2 : ord2.Perm (List.range g.npatches)) (h3 : ord3.Perm (List.range g.npatches)) :
    ∃ s', parSync g rk ord2 ord3 s = some s' ∧
      (living g.npatches s').Perm ((living g.npatches s).filterMap (parRoute g rk)) ∧
      ∀ (p k : Nat) (sl : Slot A), (s p)[k]? = some sl → sl.dead = false → g.inside p sl.a = true →
        (s' p)[k]? = some sl := by
  have h1 := mpiSync_eq (wf_remote hg rk) s
  refine ⟨finalState (withNbr g (SyncFields.localNbr rk g.nbr))
      (mpiFinal (withNbr g (SyncFields.remoteNbr rk g.nbr)) s), ?_, ?_, ?_⟩
  · unfold parSync
    rw [h1]
    exact syncParticles_eq (wf_local hg rk) _ h2 h3
  · refine (living_finalState (wf_local hg rk) hin _).trans ?_
    refine ((living_mpi (wf_remote hg rk) s).filterMap _).trans ?_
    rw [List.filterMap_map]
    exact List.Perm.refl _
  · intro p k sl h hd hi
    refine finalState_keeps _ _ _ _ _ (mpiFinal_keeps _ _ _ _ _ h hd ?_) hd hi
    have : g.cls p sl.a = none := (hin p sl.a).mpr hi
    unfold sent
    rw [show (withNbr g (SyncFields.remoteNbr rk g.nbr)).cls p sl.a = none from this]
    simp

/-- a particle that arrives on another rank inside its new patch, or whose way on from there leads
nowhere inside that rank, is treated as in a single process -/
theorem parRoute_eq {g : Geo A D} (hin : ∀ p a, g.cls p a = none ↔ g.inside p a = true)
    (rk : Nat → Nat) (x : Nat × A)
    (h : ∀ d q, g.cls x.1 x.2 = some d → g.nbr x.1 d = some q → rk q ≠ rk x.1 →
      g.inside q (g.wrap q x.2) = false → route g q (g.wrap q x.2) = none) :
    parRoute g rk x = route g x.1 x.2 := by
  unfold parRoute hop
  simp only [withNbr]
  cases hc : g.cls x.1 x.2 with
  | none => simp [route, hc]
  | some d =>
    simp only
    cases hb : g.nbr x.1 d with
    | none => simp [SyncFields.remoteNbr, SyncFields.localNbr, hb, route, hc]
    | some q =>
      by_cases hr : rk q = rk x.1
      · simp [SyncFields.remoteNbr, SyncFields.localNbr, hb, route, hc, hr, Option.filter]
      · have hrem : SyncFields.remoteNbr rk g.nbr x.1 d = some q := by
          simp [SyncFields.remoteNbr, hb, hr, Option.filter]
        rw [hrem]
        simp only
        cases hi : g.inside q (g.wrap q x.2) with
        | true =>
          have := (hin q _).mpr hi
          simp [route, this, hc, hb, hi]
        | false =>
          have hz := h d q hc hb hr hi
          have hne : g.cls q (g.wrap q x.2) ≠ none := by
            intro e; rw [(hin _ _).mp e] at hi; exact absurd hi (by simp)
          obtain ⟨e, he⟩ := Option.ne_none_iff_exists'.mp hne
          have hR : route g x.1 x.2 = none := by simp [route, hc, hb, hi]
          rw [hR]
          simp only [route, he] at hz ⊢
          cases hn : g.nbr q e with
          | none => simp [SyncFields.localNbr, hn]
          | some t =>
            rw [hn] at hz
            by_cases ht : rk t = rk q
            · simpa [SyncFields.localNbr, hn, ht, Option.filter] using hz
            · simp [SyncFields.localNbr, hn, ht, Option.filter]

end Verif.MpiExchange
