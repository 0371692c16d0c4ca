import Verif.Model.Exchange
import Mathlib.Data.List.Perm.Basic
import Mathlib.Data.List.Perm.Lattice
import Mathlib.Data.List.Nodup
import Mathlib.Data.List.Range
import Mathlib.Data.List.ProdSigma

set_option linter.unusedSectionVars false

namespace Verif.Exchange
variable {A D : Type} [DecidableEq D]

/-- living attribute vectors of a patch -/
def alive (slots : List (Slot A)) : List A := (slots.filter fun s => !s.dead).map Slot.a

/-- living particles leaving through `d` -/
def leaving (cls : A → Option D) (d : D) (slots : List (Slot A)) : List A :=
  (alive slots).filter fun a => cls a == some d

theorem alive_nil : alive ([] : List (Slot A)) = [] := rfl
theorem alive_cons (s : Slot A) (l) : alive (s :: l) = if s.dead then alive l else s.a :: alive l := by
  unfold alive; cases h : s.dead <;> simp [h]
theorem alive_append (l r : List (Slot A)) : alive (l ++ r) = alive l ++ alive r := by
  simp [alive]
theorem alive_replicate_dead (n : Nat) (a : A) : alive (List.replicate n ⟨a, true⟩) = [] := by
  induction n with
  | zero => rfl
  | succ n ih => rw [List.replicate_succ, alive_cons]; simpa using ih

theorem leaving_cons (cls : A → Option D) (d) (s : Slot A) (l) :
    leaving cls d (s :: l) =
      if s.dead = false ∧ cls s.a = some d then s.a :: leaving cls d l else leaving cls d l := by
  unfold leaving
  rw [alive_cons]
  cases h : s.dead
  · simp [List.filter_cons]
  · simp

theorem countOut_aux (cls : A → Option D) (l : List (Slot A)) : ∀ (c : D → Nat) (d : D),
    (l.foldl (fun c s =>
      if s.dead then c else
      match cls s.a with
      | none => c
      | some d => fun e => if e = d then c e + 1 else c e) c) d = c d + (leaving cls d l).length := by
  induction l with
  | nil => intro c d; simp [leaving, alive]
  | cons s t ih =>
    intro c d
    rw [List.foldl_cons, ih, leaving_cons]
    cases hd : s.dead
    · simp only [Bool.false_eq_true, if_false]
      cases hc : cls s.a with
      | none => simp
      | some e =>
        by_cases h : d = e
        · subst h; simp; omega
        · simp [h, Ne.symm h]
    · simp

theorem countOut_eq (cls : A → Option D) (l : List (Slot A)) (d : D) :
    countOut cls l d = (leaving cls d l).length := by
  have := countOut_aux cls l (fun _ => 0) d
  rw [Nat.zero_add] at this
  exact this

theorem nDead_aux (l : List (Slot A)) : ∀ n,
    l.foldl (fun n s => if s.dead then n + 1 else n) n = n + (l.filter Slot.dead).length := by
  induction l with
  | nil => intro n; rfl
  | cons s t ih =>
    intro n
    rw [List.foldl_cons, ih]
    cases h : s.dead <;> simp [h]; omega

theorem nDead_eq (l : List (Slot A)) : nDead l = (l.filter Slot.dead).length := by
  unfold nDead; rw [nDead_aux]; simp

theorem length_eq_alive_add_dead (l : List (Slot A)) : l.length = (alive l).length + nDead l := by
  rw [nDead_eq]
  induction l with
  | nil => rfl
  | cons s t ih =>
    rw [alive_cons]
    cases h : s.dead <;> simp [h] <;> omega

/-- The hypotheses on the geometry: the boundary list is complete and duplicate free, `opp` is an
involution, the two classification branch trees agree, the neighbour table is opposite-symmetric and has entries only for existing patches. -/
structure WF (g : Geo A D) : Prop where
  nodup : g.dirs.Nodup
  complete : ∀ d, d ∈ g.dirs
  opp_opp : ∀ d, g.opp (g.opp d) = d
  agree : ∀ ip a, g.clsI ip a = g.cls ip a
  sym : ∀ i d t, g.nbr i d = some t → i < g.npatches ∧ t < g.npatches ∧ g.nbr t (g.opp d) = some i

theorem WF.sym_iff {g : Geo A D} (h : WF g) {i t : Nat} {d : D} :
    g.nbr i d = some t ↔ g.nbr t (g.opp d) = some i :=
  ⟨fun e => (h.sym _ _ _ e).2.2, fun e => by simpa [h.opp_opp] using (h.sym _ _ _ e).2.2⟩

/-- particles arriving at `ip`, in buffer order (before wrapping) -/
def arriving (g : Geo A D) (s : Nat → List (Slot A)) (ip : Nat) : List A :=
  g.dirs.flatMap fun ib =>
    match g.nbr ip ib with
    | none => []
    | some i => leaving (g.cls i) (g.opp ib) (s i)

theorem npartNew_aux (g : Geo A D) (s : Nat → List (Slot A)) (ip : Nat) (ds : List D) : ∀ n,
    ds.foldl (fun acc ib =>
      match g.nbr ip ib with
      | none => acc
      | some i => acc + countOut (g.cls i) (s i) (g.opp ib)) n =
    n + (ds.flatMap fun ib =>
      match g.nbr ip ib with
      | none => []
      | some i => leaving (g.cls i) (g.opp ib) (s i)).length := by
  induction ds with
  | nil => intro n; rfl
  | cons d t ih =>
    intro n
    rw [List.foldl_cons, ih, List.flatMap_cons, List.length_append]
    cases h : g.nbr ip d with
    | none => simp
    | some i => simp [countOut_eq]; omega

theorem npartNew_eq (g : Geo A D) (s : Nat → List (Slot A)) (ip : Nat) :
    npartNew g (fun i => countOut (g.cls i) (s i)) ip = (arriving g s ip).length := by
  have := npartNew_aux g s ip g.dirs 0
  rw [Nat.zero_add] at this
  exact this

/-! ### second loop -/

/-- indices (from `k`) of living slots classified as `d` -/
def selIdx (cls : A → Option D) (d : D) : Nat → List (Slot A) → List Nat
  | _, [] => []
  | k, s :: t =>
    if s.dead = false ∧ cls s.a = some d then k :: selIdx cls d (k + 1) t
    else selIdx cls d (k + 1) t

theorem selIdx_length (cls : A → Option D) (d : D) : ∀ (l : List (Slot A)) k,
    (selIdx cls d k l).length = (leaving cls d l).length
  | [], k => rfl
  | s :: t, k => by
    rw [leaving_cons, selIdx]
    split <;> simp [selIdx_length cls d t]

theorem selIdx_read (cls : A → Option D) (d : D) : ∀ (l : List (Slot A)) (k : Nat) (pre : List (Slot A)),
    pre.length = k →
    (selIdx cls d k l).map (fun i => (pre ++ l)[i]?) =
      ((l.filter fun s => !s.dead && (cls s.a == some d)).map some)
  | [], k, pre, _ => rfl
  | s :: t, k, pre, hk => by
    have ih := selIdx_read cls d t (k + 1) (pre ++ [s]) (by simp [hk])
    rw [List.append_assoc, List.singleton_append] at ih
    rw [selIdx]
    split
    · rename_i h
      rw [List.map_cons, ih, List.filter_cons_of_pos (by simp [h.1, h.2])]
      rw [List.map_cons]
      congr 1
      rw [List.getElem?_append_right (by omega)]
      simp [hk]
    · rename_i h
      rw [ih, List.filter_cons_of_neg]
      simp only [Bool.and_eq_true, Bool.not_eq_true', beq_iff_eq]
      exact h

theorem leaving_eq_map (cls : A → Option D) (d : D) (l : List (Slot A)) :
    leaving cls d l = (l.filter fun s => !s.dead && (cls s.a == some d)).map Slot.a := by
  induction l with
  | nil => rfl
  | cons s t ih =>
    rw [leaving_cons, ih, List.filter_cons]
    cases h : s.dead <;> simp
    split <;> simp_all

/-- table with the arrays fed by patch `i` filled with `done` -/
def descTab (g : Geo A D) (i : Nat) (len : D → Nat) (done : D → List Nat) (tab0 : IdxTab D) : IdxTab D :=
  fun t ib => if g.nbr t ib = some i then
      (done (g.opp ib)).map some ++ List.replicate (len (g.opp ib) - (done (g.opp ib)).length) none
    else tab0 t ib

def descCnt (g : Geo A D) (i : Nat) (done : D → List Nat) : D → Nat :=
  fun d => if (g.nbr i d).isSome then (done d).length else 0

theorem incomingLoop_eq {g : Geo A D} (hg : WF g) (i : Nat) (len : D → Nat) (tab0 : IdxTab D) :
    ∀ (l : List (Slot A)) (k : Nat) (done : D → List Nat),
      (∀ d, (done d).length + (selIdx (g.cls i) d k l).length ≤ len d) →
      incomingLoop g i k l (descCnt g i done, descTab g i len done tab0) =
        some (descCnt g i (fun d => done d ++ selIdx (g.cls i) d k l),
          descTab g i len (fun d => done d ++ selIdx (g.cls i) d k l) tab0)
  | [], k, done, _ => by simp [incomingLoop, selIdx]
  | s :: t, k, done, hb => by
    rw [incomingLoop]
    cases hd : s.dead
    · simp only [Bool.false_eq_true, if_false, hg.agree]
      cases hc : g.cls i s.a with
      | none =>
        have hsel : ∀ d, selIdx (g.cls i) d k (s :: t) = selIdx (g.cls i) d (k + 1) t := by
          intro d; rw [selIdx, hc]; simp
        simp only [hsel] at hb ⊢
        exact incomingLoop_eq hg i len tab0 t (k + 1) done hb
      | some d =>
        have hsel : ∀ e, selIdx (g.cls i) e k (s :: t) =
            if e = d then k :: selIdx (g.cls i) e (k + 1) t else selIdx (g.cls i) e (k + 1) t := by
          intro e; rw [selIdx, hc]
          by_cases he : e = d
          · subst he; simp [hd]
          · simp [he, Ne.symm he]
        let done' : D → List Nat := fun e => if e = d then done e ++ [k] else done e
        have hdone : (fun e => done' e ++ selIdx (g.cls i) e (k + 1) t) =
            fun e => done e ++ selIdx (g.cls i) e k (s :: t) := by
          funext e
          rw [hsel e]
          by_cases he : e = d <;> simp [done', he]
        have hb' : ∀ e, (done' e).length + (selIdx (g.cls i) e (k + 1) t).length ≤ len e := by
          intro e
          have := hb e
          rw [hsel e] at this
          by_cases he : e = d
          · simp [done', he] at this ⊢; omega
          · simp [done', he] at this ⊢; omega
        have ih := incomingLoop_eq hg i len tab0 t (k + 1) done' hb'
        rw [hdone] at ih
        simp only
        cases hn : g.nbr i d with
        | none =>
          have e1 : descCnt g i done = descCnt g i done' := by
            funext e
            unfold descCnt
            by_cases he : e = d
            · subst he; simp [hn]
            · simp [done', he]
          have e2 : descTab g i len done tab0 = descTab g i len done' tab0 := by
            funext t' ib
            unfold descTab
            by_cases hx : g.nbr t' ib = some i
            · have hne : g.opp ib ≠ d := by
                rintro rfl
                rw [hg.sym_iff.1 hx] at hn; cases hn
              simp [hx, done', hne]
            · simp [hx]
          simp only [setIncoming, hn]
          rw [e1, e2]; exact ih
        | some u =>
          have hu : g.nbr u (g.opp d) = some i := hg.sym_iff.1 hn
          have hlen : (done d).length < len d := by
            have := hb d
            rw [hsel d] at this; simp at this; omega
          have hcond : descCnt g i done d < (descTab g i len done tab0 u (g.opp d)).length := by
            unfold descCnt descTab
            simp only [hn, Option.isSome_some, if_true, hu, hg.opp_opp]
            simp; omega
          simp only [setIncoming, hn]
          rw [if_pos hcond]
          simp only
          have e1 : (fun e => if e = d then descCnt g i done e + 1 else descCnt g i done e) =
              descCnt g i done' := by
            funext e
            unfold descCnt
            by_cases he : e = d
            · subst he; simp [hn, done']
            · simp [done', he]
          have e2 : (fun t' ib' => if t' = u ∧ ib' = g.opp d then
                (descTab g i len done tab0 u (g.opp d)).set (descCnt g i done d) (some k)
              else descTab g i len done tab0 t' ib') = descTab g i len done' tab0 := by
            funext t' ib
            by_cases hx : t' = u ∧ ib = g.opp d
            · obtain ⟨rfl, rfl⟩ := hx
              simp only [and_self, if_true]
              unfold descCnt descTab
              simp only [hn, Option.isSome_some, if_true, hu, hg.opp_opp, done']
              obtain ⟨m, hm⟩ : ∃ m, len d - (done d).length = m + 1 :=
                ⟨len d - (done d).length - 1, by omega⟩
              have hm2 : len d - (done d ++ [k]).length = m := by simp; omega
              rw [hm, hm2]
              have : (done d).length = ((done d).map (some : Nat → Option Nat)).length := by simp
              rw [this, List.set_append_right _ _ (le_refl _)]
              simp [List.replicate_succ]
            · rw [if_neg hx]
              unfold descTab
              by_cases hy : g.nbr t' ib = some i
              · have hne : g.opp ib ≠ d := by
                  rintro rfl
                  apply hx
                  have := hg.sym_iff.1 hy
                  rw [this] at hn
                  cases hn
                  exact ⟨rfl, (hg.opp_opp ib).symm⟩
                simp [hy, done', hne]
              · simp [hy]
          rw [e1, e2]
          exact ih
    · simp only [if_true]
      have hsel : ∀ d, selIdx (g.cls i) d k (s :: t) = selIdx (g.cls i) d (k + 1) t := by
        intro d; rw [selIdx]; simp [hd]
      simp only [hsel] at hb ⊢
      exact incomingLoop_eq hg i len tab0 t (k + 1) done hb

theorem getIncomingIndex_eq {g : Geo A D} (hg : WF g) (s : Nat → List (Slot A)) (i : Nat)
    (tab0 : IdxTab D)
    (h0 : ∀ t ib, g.nbr t ib = some i →
      tab0 t ib = List.replicate (countOut (g.cls i) (s i) (g.opp ib)) none) :
    getIncomingIndex g s i tab0 = some (fun t ib => if g.nbr t ib = some i then
      (selIdx (g.cls i) (g.opp ib) 0 (s i)).map some else tab0 t ib) := by
  unfold getIncomingIndex
  have hc : (fun _ => 0 : D → Nat) = descCnt g i (fun _ => []) := by
    funext d; simp [descCnt]
  have ht : tab0 = descTab g i (countOut (g.cls i) (s i)) (fun _ => []) tab0 := by
    funext t ib
    unfold descTab
    split
    · rw [h0 t ib ‹_›]; simp
    · rfl
  conv_lhs => rw [hc, ht]
  rw [incomingLoop_eq hg i _ tab0 (s i) 0 _
    (by intro d; rw [selIdx_length, countOut_eq]; simp)]
  simp only [Option.map_some, Option.some.injEq]
  funext t ib
  unfold descTab
  split
  · simp [countOut_eq, selIdx_length]
  · rfl

theorem phase2_eq {g : Geo A D} (hg : WF g) (s : Nat → List (Slot A)) :
    ∀ (ord : List Nat) (tab0 : IdxTab D), ord.Nodup →
      (∀ i ∈ ord, ∀ t ib, g.nbr t ib = some i →
        tab0 t ib = List.replicate (countOut (g.cls i) (s i) (g.opp ib)) none) →
      phase2 g s ord tab0 = some (fun t ib =>
        match g.nbr t ib with
        | none => tab0 t ib
        | some i => if i ∈ ord then (selIdx (g.cls i) (g.opp ib) 0 (s i)).map some else tab0 t ib)
  | [], tab0, _, _ => by
    simp only [phase2, Option.some.injEq]
    funext t ib
    cases g.nbr t ib <;> simp
  | i :: ord, tab0, hn, h0 => by
    have hn := List.nodup_cons.1 hn
    rw [phase2, getIncomingIndex_eq hg s i tab0 (h0 i (by simp))]
    simp only
    rw [phase2_eq hg s ord _ hn.2]
    · simp only [Option.some.injEq]
      funext t ib
      cases h : g.nbr t ib with
      | none => simp
      | some j =>
        by_cases hj : j = i
        · subst hj; simp [hn.1]
        · simp [hj]
    · intro j hj t ib hjt
      have : j ≠ i := by rintro rfl; exact hn.1 hj
      rw [if_neg (by rw [hjt]; simpa using this)]
      exact h0 j (by simp [hj]) t ib hjt

theorem allocIdx_eq {g : Geo A D} (hg : WF g) (s : Nat → List (Slot A)) {t : Nat} {ib : D} {i : Nat}
    (h : g.nbr t ib = some i) :
    allocIdx g (fun i => countOut (g.cls i) (s i)) t ib =
      List.replicate (countOut (g.cls i) (s i) (g.opp ib)) none := by
  unfold allocIdx
  split
  · rename_i h0
    rw [npartNew_eq] at h0
    have : leaving (g.cls i) (g.opp ib) (s i) = [] := by
      have h1 := List.length_eq_zero_iff.1 h0
      unfold arriving at h1
      have := List.flatMap_eq_nil_iff.1 h1 ib (hg.complete ib)
      rw [h] at this
      exact this
    rw [countOut_eq, this]; rfl
  · rw [h]

/-! ### third loop -/

/-- living slots of `s` are still where they were in `s'` -/
def Keeps (s s' : Nat → List (Slot A)) : Prop :=
  ∀ (i k : Nat) (sl : Slot A), (s i)[k]? = some sl → sl.dead = false → (s' i)[k]? = some sl

theorem mapM_of_map {β γ : Type} (f : β → Option γ) : ∀ (l : List β) (r : List γ),
    l.map f = r.map some → l.mapM f = some r
  | [], [], _ => rfl
  | [], _ :: _, h => by simp at h
  | _ :: _, [], h => by simp at h
  | b :: t, c :: r, h => by
    simp only [List.map_cons, List.cons.injEq] at h
    rw [List.mapM_cons, h.1, mapM_of_map f t r h.2]
    rfl

theorem read_list (s s' : Nat → List (Slot A)) (hk : Keeps s s') (cls : A → Option D) (d : D) (i : Nat) :
    (List.range (countOut cls (s i) d)).mapM
      (fun j => readSlot s' i (((selIdx cls d 0 (s i)).map some).getD j none)) =
    some (leaving cls d (s i)) := by
  have hlen : countOut cls (s i) d = (selIdx cls d 0 (s i)).length := by
    rw [countOut_eq, selIdx_length]
  have hread := selIdx_read cls d (s i) 0 [] rfl
  rw [List.nil_append] at hread
  have hfl : (selIdx cls d 0 (s i)).length =
      ((s i).filter fun s => !s.dead && (cls s.a == some d)).length := by
    have := congrArg List.length hread
    simpa using this
  have key : ∀ j, (hj : j < (selIdx cls d 0 (s i)).length) →
      readSlot s' i (((selIdx cls d 0 (s i)).map some).getD j none) =
        some ((leaving cls d (s i))[j]'(by rw [← selIdx_length cls d (s i) 0]; exact hj)) := by
    intro j hj
    have h1 : ((selIdx cls d 0 (s i)).map some).getD j none = some (selIdx cls d 0 (s i))[j] := by
      simp [List.getD_eq_getElem?_getD, hj]
    rw [h1]
    have h2 : (s i)[(selIdx cls d 0 (s i))[j]]? =
        some (((s i).filter fun s => !s.dead && (cls s.a == some d))[j]'(by omega)) := by
      have := congrArg (fun l => l[j]?) hread
      simp only [List.getElem?_map] at this
      rw [List.getElem?_eq_getElem hj, List.getElem?_eq_getElem (by omega)] at this
      simpa using this
    have hdead : (((s i).filter fun s => !s.dead && (cls s.a == some d))[j]'(by omega)).dead = false := by
      have hm := List.getElem_mem (l := (s i).filter fun s => !s.dead && (cls s.a == some d))
        (n := j) (by omega)
      have := (List.mem_filter.1 hm).2
      simp only [Bool.and_eq_true, Bool.not_eq_true'] at this
      exact this.1
    have h3 := hk _ _ _ h2 hdead
    simp only [readSlot, h3, Option.map_some, Option.some.injEq]
    simp only [leaving_eq_map, List.getElem_map]
  rw [hlen]
  apply mapM_of_map
  apply List.ext_getElem
  · simp [selIdx_length]
  · intro j h1 h2
    simp at h1
    simp only [List.getElem_map, List.getElem_range]
    exact key j h1

theorem fillBuffer_aux {g : Geo A D} (s s' : Nat → List (Slot A)) (hk : Keeps s s') (ip : Nat)
    (tab : IdxTab D)
    (ht : ∀ ib i, g.nbr ip ib = some i →
      tab ip ib = (selIdx (g.cls i) (g.opp ib) 0 (s i)).map some) :
    ∀ (ds : List D) (b : List A),
    ds.foldl (fun buf ib =>
      match buf with
      | none => none
      | some b =>
        match g.nbr ip ib with
        | none => some b
        | some i =>
          ((List.range (countOut (g.cls i) (s i) (g.opp ib))).mapM
            (fun j => readSlot s' i ((tab ip ib).getD j none))).map (b ++ ·)) (some b) =
    some (b ++ ds.flatMap fun ib =>
      match g.nbr ip ib with
      | none => []
      | some i => leaving (g.cls i) (g.opp ib) (s i))
  | [], b => by simp
  | d :: ds, b => by
    rw [List.foldl_cons, List.flatMap_cons]
    cases h : g.nbr ip d with
    | none => simp only; rw [fillBuffer_aux s s' hk ip tab ht ds b]; simp
    | some i =>
      simp only
      rw [ht d i h, read_list s s' hk]
      simp only [Option.map_some]
      rw [fillBuffer_aux s s' hk ip tab ht ds]
      simp

theorem fillBuffer_eq {g : Geo A D} (s s' : Nat → List (Slot A)) (hk : Keeps s s') (ip : Nat)
    (tab : IdxTab D)
    (ht : ∀ ib i, g.nbr ip ib = some i →
      tab ip ib = (selIdx (g.cls i) (g.opp ib) 0 (s i)).map some) :
    fillBuffer g (fun i => countOut (g.cls i) (s i)) tab s' ip = some (arriving g s ip) := by
  have := fillBuffer_aux s s' hk ip tab ht g.dirs []
  rw [List.nil_append] at this
  exact this

theorem fillSlots_nil (w : A → A) (l : List (Slot A)) : fillSlots w l [] = l := by
  cases l <;> rfl

theorem fillSlots_keeps (w : A → A) : ∀ (l : List (Slot A)) (b : List A) (k : Nat) (sl : Slot A),
    l[k]? = some sl → sl.dead = false → (fillSlots w l b)[k]? = some sl
  | [], _, k, sl, h, _ => by simp at h
  | s :: t, [], k, sl, h, _ => by simpa [fillSlots] using h
  | s :: t, b :: bs, k, sl, h, hd => by
    rw [fillSlots]
    cases k with
    | zero =>
      simp at h; subst h
      simp [hd]
    | succ k =>
      simp at h
      split
      · simpa using fillSlots_keeps w t bs k sl h hd
      · simpa using fillSlots_keeps w t (b :: bs) k sl h hd

theorem fillSlots_length (w : A → A) : ∀ (l : List (Slot A)) (b : List A),
    (fillSlots w l b).length = l.length
  | [], _ => rfl
  | s :: t, [] => rfl
  | s :: t, b :: bs => by
    rw [fillSlots]; split <;> simp [fillSlots_length w t]

theorem fillSlots_alive (w : A → A) : ∀ (l : List (Slot A)) (b : List A), b.length ≤ nDead l →
    (alive (fillSlots w l b)).Perm (alive l ++ b.map w)
  | [], b, h => by
    have : b = [] := by cases b with
      | nil => rfl
      | cons _ _ => simp [nDead_eq] at h
    subst this; simp [fillSlots]
  | s :: t, [], _ => by simp [fillSlots]
  | s :: t, b :: bs, h => by
    rw [fillSlots, nDead_eq] at *
    cases hd : s.dead
    · simp only [Bool.false_eq_true, if_false]
      rw [alive_cons, alive_cons, hd]
      simp only [Bool.false_eq_true, if_false, List.cons_append]
      refine List.Perm.cons _ (fillSlots_alive w t (b :: bs) ?_)
      rw [nDead_eq]; simpa [hd] using h
    · simp only [if_true]
      rw [alive_cons, alive_cons, hd]
      simp only [Bool.false_eq_true, if_false, if_true, List.map_cons]
      refine List.Perm.trans (List.Perm.cons _ (fillSlots_alive w t bs ?_)) ?_
      · rw [nDead_eq]; simpa [hd] using h
      · exact List.perm_middle.symm

theorem phase3_eq {g : Geo A D} (s1 : Nat → List (Slot A)) (tab : IdxTab D)
    (ht : ∀ ip ib i, g.nbr ip ib = some i →
      tab ip ib = (selIdx (g.cls i) (g.opp ib) 0 (s1 i)).map some) :
    ∀ (ord : List Nat) (s : Nat → List (Slot A)), ord.Nodup → Keeps s1 s →
      (∀ j ∈ ord, s j = s1 j) →
      phase3 g (fun i => countOut (g.cls i) (s1 i)) tab ord s =
        some (fun j => if j ∈ ord then fillSlots (g.wrap j) (s1 j) (arriving g s1 j) else s j)
  | [], s, _, _, _ => by simp [phase3]
  | ip :: ord, s, hn, hk, hs => by
    have hn := List.nodup_cons.1 hn
    have e : fillPatch g (fun i => countOut (g.cls i) (s1 i)) tab s ip =
        some (fun j => if j = ip then fillSlots (g.wrap ip) (s1 ip) (arriving g s1 ip) else s j) := by
      unfold fillPatch
      rw [npartNew_eq]
      split
      · rename_i h0
        rw [List.length_eq_zero_iff.1 h0, fillSlots_nil]
        simp only [Option.some.injEq]
        funext j
        split
        · subst j; exact hs ip (by simp)
        · rfl
      · rw [fillBuffer_eq s1 s hk ip tab (ht ip)]
        simp only [Option.some.injEq]
        funext j
        split
        · rw [hs ip (by simp)]
        · rfl
    rw [phase3, e]
    simp only
    rw [phase3_eq s1 tab ht ord _ hn.2]
    · simp only [Option.some.injEq]
      funext j
      by_cases hj : j = ip
      · subst hj; simp [hn.1]
      · simp [hj]
    · intro i k sl h1 h2
      by_cases hi : i = ip
      · subst hi; simp only [if_true]
        exact fillSlots_keeps _ _ _ _ _ h1 h2
      · simp only [hi, if_false]; exact hk i k sl h1 h2
    · intro j hj
      have : j ≠ ip := by rintro rfl; exact hn.1 hj
      simp only [this, if_false]
      exact hs j (by simp [hj])

theorem markDead_alive (g : Geo A D) (ip : Nat) (l : List (Slot A)) :
    alive (markDead g ip l) = (alive l).filter (g.inside ip) := by
  induction l with
  | nil => rfl
  | cons s t ih =>
    unfold markDead at ih ⊢
    rw [List.map_cons, alive_cons, alive_cons, ih]
    cases hd : s.dead
    · simp only [Bool.false_eq_true, if_false]
      cases hi : g.inside ip s.a
      · simp [hi]
      · simp [hd, hi]
    · simp [hd]

theorem leaving_extend (g : Geo A D) (cls : A → Option D) (d : D) (l : List (Slot A)) (n : Nat) :
    leaving cls d (extendSlots g l n) = leaving cls d l := by
  unfold leaving extendSlots
  rw [alive_append, alive_replicate_dead, List.append_nil]

theorem alive_extend (g : Geo A D) (l : List (Slot A)) (n : Nat) :
    alive (extendSlots g l n) = alive l := by
  unfold extendSlots
  rw [alive_append, alive_replicate_dead, List.append_nil]

theorem nDead_extend (g : Geo A D) (l : List (Slot A)) (n : Nat) :
    nDead (extendSlots g l n) = nDead l + n := by
  rw [nDead_eq, nDead_eq]
  unfold extendSlots
  rw [List.filter_append]
  simp

/-- the extended state -/
def extended (g : Geo A D) (s : Nat → List (Slot A)) : Nat → List (Slot A) := fun ip =>
  extendSlots g (s ip) (toExtend (s ip).length (nDead (s ip))
    (npartNew g (fun i => countOut (g.cls i) (s i)) ip))

theorem arriving_extended (g : Geo A D) (s : Nat → List (Slot A)) (ip : Nat) :
    arriving g (extended g s) ip = arriving g s ip := by
  unfold arriving
  congr 1
  funext ib
  cases g.nbr ip ib with
  | none => rfl
  | some i => exact leaving_extend g _ _ _ _

theorem room (g : Geo A D) (s : Nat → List (Slot A)) (ip : Nat) :
    (arriving g s ip).length ≤ nDead (extended g s ip) := by
  unfold extended
  rw [nDead_extend, npartNew_eq]
  unfold toExtend
  split <;> omega

/-- closed form of the whole exchange -/
theorem syncParticles_eq {g : Geo A D} (hg : WF g) (s : Nat → List (Slot A)) {ord2 ord3 : List Nat}
    (h2 : ord2.Perm (List.range g.npatches)) (h3 : ord3.Perm (List.range g.npatches)) :
    syncParticles g ord2 ord3 s = some (fun ip => markDead g ip
      (if ip < g.npatches then fillSlots (g.wrap ip) (extended g s ip) (arriving g s ip)
       else extended g s ip)) := by
  have hout : (fun i => countOut (g.cls i) (s i)) =
      fun i => countOut (g.cls i) (extended g s i) := by
    funext i d
    rw [countOut_eq, countOut_eq]
    unfold extended
    rw [leaving_extend]
  unfold syncParticles
  simp only
  change (match phase2 g (extended g s) ord2 (allocIdx g fun i => countOut (g.cls i) (s i)) with
    | none => none
    | some tab => match phase3 g (fun i => countOut (g.cls i) (s i)) tab ord3 (extended g s) with
      | none => none
      | some s2 => some fun ip => markDead g ip (s2 ip)) = _
  rw [phase2_eq hg (extended g s) ord2 _ (h2.nodup_iff.2 List.nodup_range) ?_]
  · simp only
    rw [hout, phase3_eq (extended g s) _ ?_ ord3 (extended g s) (h3.nodup_iff.2 List.nodup_range)
      (fun _ _ _ h _ => h) (fun _ _ => rfl)]
    · simp only [Option.some.injEq]
      funext ip
      have : ip ∈ ord3 ↔ ip < g.npatches := by rw [h3.mem_iff]; simp
      simp only [this, arriving_extended]
    · intro ip ib i h
      simp only [h]
      have hi : i ∈ ord2 := by rw [h2.mem_iff]; simpa using (hg.sym _ _ _ h).2.1
      simp [hi]
  · intro i hi t ib h
    rw [hout]
    exact allocIdx_eq hg (extended g s) h

/-! ### routing -/

theorem flatMap_update_perm {β : Type} (d : D) (a : β) (L : D → List β) : ∀ (ds : List D), ds.Nodup →
    d ∈ ds → (ds.flatMap fun e => if e = d then a :: L e else L e).Perm (a :: ds.flatMap L)
  | [], _, h => by simp at h
  | e :: t, hn, h => by
    have hn := List.nodup_cons.1 hn
    rw [List.flatMap_cons, List.flatMap_cons]
    by_cases he : e = d
    · subst he
      simp only [if_true, List.cons_append]
      refine List.Perm.cons _ (List.Perm.append_left _ (List.Perm.of_eq ?_))
      apply List.flatMap_congr
      intro x hx
      rw [if_neg]; rintro rfl; exact hn.1 hx
    · simp only [he, if_false]
      have : d ∈ t := by rcases List.mem_cons.1 h with rfl | h; exact absurd rfl he; exact h
      refine List.Perm.trans (List.Perm.append_left _ (flatMap_update_perm d a L t hn.2 this)) ?_
      exact List.perm_middle

/-- split a list by a classification -/
theorem split_by_class {β γ : Type} (c : β → Option D) (ds : List D) (hn : ds.Nodup)
    (hc : ∀ d, d ∈ ds) (f : β → Option γ) : ∀ l : List β,
    (l.filterMap f).Perm ((l.filter fun a => c a == none).filterMap f ++
      ds.flatMap fun d => (l.filter fun a => c a == some d).filterMap f)
  | [] => by simp
  | a :: t => by
    have ih := split_by_class c ds hn hc f t
    cases h : c a with
    | none =>
      have e1 : (fun d => ((a :: t).filter fun a => c a == some d).filterMap f) =
          fun d => (t.filter fun a => c a == some d).filterMap f := by
        funext d; rw [List.filter_cons_of_neg]; simp [h]
      rw [List.filter_cons_of_pos (by simp [h]), e1]
      rw [List.filterMap_cons, List.filterMap_cons]
      cases f a with
      | none => exact ih
      | some b => simpa using ih
    | some d =>
      rw [List.filter_cons_of_neg (by simp [h])]
      rw [List.filterMap_cons]
      cases hf : f a with
      | none =>
        have e1 : (fun d => ((a :: t).filter fun a => c a == some d).filterMap f) =
            fun d => (t.filter fun a => c a == some d).filterMap f := by
          funext e
          rw [List.filter_cons]
          split
          · rw [List.filterMap_cons, hf]
          · rfl
        rw [e1]; exact ih
      | some b =>
        have e1 : (fun e => ((a :: t).filter fun a => c a == some e).filterMap f) =
            fun e => if e = d then b :: (t.filter fun a => c a == some e).filterMap f
              else (t.filter fun a => c a == some e).filterMap f := by
          funext e
          rw [List.filter_cons, h]
          by_cases he : e = d
          · subst he; simp [hf]
          · simp [he, Ne.symm he]
        rw [e1]
        simp only
        refine List.Perm.trans (List.Perm.cons _ ih) ?_
        refine List.Perm.trans List.perm_middle.symm ?_
        exact List.Perm.append_left _ (flatMap_update_perm d b _ ds hn (hc d)).symm

/-- all (patch, boundary, neighbour) triples -/
def links (g : Geo A D) : List (Nat × D × Nat) :=
  (List.range g.npatches).flatMap fun p => g.dirs.flatMap fun d =>
    match g.nbr p d with
    | none => []
    | some q => [(p, d, q)]

theorem mem_links {g : Geo A D} (hg : WF g) {p : Nat} {d : D} {q : Nat} :
    (p, d, q) ∈ links g ↔ g.nbr p d = some q := by
  unfold links
  simp only [List.mem_flatMap, List.mem_range]
  constructor
  · rintro ⟨p', _, d', _, h⟩
    cases hh : g.nbr p' d' with
    | none => rw [hh] at h; simp at h
    | some q' =>
      rw [hh] at h
      simp only [List.mem_singleton, Prod.mk.injEq] at h
      obtain ⟨rfl, rfl, rfl⟩ := h
      exact hh
  · intro h
    exact ⟨p, (hg.sym _ _ _ h).1, d, hg.complete d, by rw [h]; simp⟩

theorem nodup_links {g : Geo A D} (hg : WF g) : (links g).Nodup := by
  unfold links
  rw [List.nodup_flatMap]
  refine ⟨fun p _ => ?_, ?_⟩
  · rw [List.nodup_flatMap]
    refine ⟨fun d _ => ?_, ?_⟩
    · cases g.nbr p d <;> simp
    · refine hg.nodup.imp ?_
      intro d e hde
      simp only [Function.onFun]
      intro x hx hy
      apply hde
      cases h1 : g.nbr p d with
      | none => rw [h1] at hx; simp at hx
      | some _ =>
        cases h2 : g.nbr p e with
        | none => rw [h2] at hy; simp at hy
        | some _ =>
          rw [h1] at hx; rw [h2] at hy
          simp only [List.mem_singleton] at hx hy
          rw [hx] at hy
          exact (Prod.mk.inj (Prod.mk.inj hy).2).1
  · refine List.nodup_range.imp ?_
    intro p p' hpp
    simp only [Function.onFun]
    intro x hx hy
    apply hpp
    obtain ⟨d, _, hd⟩ := List.mem_flatMap.1 hx
    obtain ⟨e, _, he⟩ := List.mem_flatMap.1 hy
    cases h1 : g.nbr p d with
    | none => rw [h1] at hd; simp at hd
    | some _ =>
      cases h2 : g.nbr p' e with
      | none => rw [h2] at he; simp at he
      | some _ =>
        rw [h1] at hd; rw [h2] at he
        simp only [List.mem_singleton] at hd he
        rw [hd] at he
        exact (Prod.mk.inj he).1

theorem links_flip {g : Geo A D} (hg : WF g) :
    ((links g).map fun x => (x.2.2, g.opp x.2.1, x.1)).Perm (links g) := by
  have hinj : Function.Injective fun x : Nat × D × Nat => (x.2.2, g.opp x.2.1, x.1) := by
    rintro ⟨a, b, c⟩ ⟨a', b', c'⟩ h
    simp only [Prod.mk.injEq] at h
    obtain ⟨h1, h2, h3⟩ := h
    have : b = b' := by rw [← hg.opp_opp b, h2, hg.opp_opp]
    rw [h1, this, h3]
  refine (List.perm_ext_iff_of_nodup ((nodup_links hg).map hinj) (nodup_links hg)).2 ?_
  rintro ⟨p, d, q⟩
  rw [mem_links hg]
  constructor
  · intro h
    obtain ⟨⟨p', d', q'⟩, h1, h2⟩ := List.mem_map.1 h
    simp only [Prod.mk.injEq] at h2
    obtain ⟨rfl, rfl, rfl⟩ := h2
    exact hg.sym_iff.1 ((mem_links hg).1 h1)
  · intro h
    refine List.mem_map.2 ⟨(q, g.opp d, p), (mem_links hg).2 (hg.sym_iff.1 h), ?_⟩
    simp [hg.opp_opp]

theorem flatMap_links {β : Type} (g : Geo A D) (F : Nat × D × Nat → List β) :
    ((List.range g.npatches).flatMap fun p => g.dirs.flatMap fun d =>
      match g.nbr p d with
      | none => []
      | some q => F (p, d, q)) = (links g).flatMap F := by
  unfold links
  simp only [List.flatMap_assoc]
  congr 1
  funext p
  congr 1
  funext d
  cases g.nbr p d <;> simp

end Verif.Exchange
