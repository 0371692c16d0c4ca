import Verif.Model.Qed
import Mathlib.Algebra.BigOperators.Group.List.Basic
import Mathlib.Tactic.Linarith
import Mathlib.Tactic.Ring
/-! # Lemmas about the QED kernels -/
namespace Verif.Qed
open Verif.Particles (F64)

/-! ## event indices -/

/-- a living particle with an event -/
def hit (p : Part) : Bool := !p.dead && p.event

theorem foldl_count (l : List Part) (n : Nat) :
    l.foldl (fun n p => if p.dead then n else n + (if p.event then 1 else 0)) n = n + l.countP hit := by
  induction l generalizing n with
  | nil => rfl
  | cons p l ih =>
    rw [List.foldl_cons, ih, List.countP_cons]
    unfold hit
    cases p.dead <;> cases p.event <;> simp <;> omega

theorem countEvents_eq (l : List Part) : countEvents l = l.countP hit := by
  unfold countEvents; rw [foldl_count]; omega

/-- positions, counted from `s`, of the particles that are hit -/
def hits : List Part → Nat → List Nat
  | [], _ => []
  | p :: l, s => if hit p then s :: hits l (s + 1) else hits l (s + 1)

theorem hits_length (l : List Part) (s : Nat) : (hits l s).length = l.countP hit := by
  induction l generalizing s with
  | nil => rfl
  | cons p l ih =>
    unfold hits
    rw [List.countP_cons]
    split <;> simp_all

theorem writeEvents_eq (l : List Part) (ip idx : Nat) (out : List Nat) (h : idx + l.countP hit = out.length) :
    writeEvents l ip idx out = some (out.take idx ++ hits l ip) := by
  induction l generalizing ip idx out with
  | nil =>
    simp at h
    unfold writeEvents hits
    rw [List.append_nil, List.take_of_length_le (by omega)]
  | cons p l ih =>
    rw [List.countP_cons] at h
    unfold writeEvents hits
    by_cases hd : p.dead = true
    · have : hit p = false := by unfold hit; simp [hd]
      rw [if_pos hd, this, if_neg (by simp)]
      rw [this] at h
      exact ih _ _ _ (by simpa using h)
    · rw [if_neg hd]
      by_cases he : p.event = true
      · have : hit p = true := by unfold hit; simp [hd, he]
        rw [if_pos he, this, if_pos rfl]
        rw [this, if_pos rfl] at h
        rw [if_pos (by omega), ih _ _ _ (by rw [List.length_set]; omega)]
        congr 1
        rw [List.take_add_one, List.getElem?_set_self (by omega), List.take_set_of_le (by omega)]
        simp
      · have : hit p = false := by unfold hit; simp [he]
        rw [if_neg he, this, if_neg (by simp)]
        rw [this] at h
        exact ih _ _ _ (by simpa using h)

theorem findEvents_eq (l : List Part) : findEvents l = some (hits l 0) := by
  unfold findEvents
  rw [writeEvents_eq _ _ _ _ (by rw [List.length_replicate, countEvents_eq]; omega)]
  simp

/-- reading the sources through the index list gives the hit particles in order -/
theorem hits_map {α : Type} (l pre : List Part) (d : Part) (g : Part → α) :
    (hits l pre.length).map (fun k => g ((pre ++ l).getD k d)) = (l.filter hit).map g := by
  induction l generalizing pre with
  | nil => rfl
  | cons p l ih =>
    have := ih (pre ++ [p])
    rw [List.length_append, List.length_singleton, List.append_assoc, List.singleton_append] at this
    unfold hits
    by_cases hp : hit p = true
    · rw [if_pos hp, List.map_cons, this, List.filter_cons_of_pos hp, List.map_cons]
      congr 2
      simp
    · rw [if_neg hp, this, List.filter_cons_of_neg hp]

theorem hits_map' {α : Type} (l : List Part) (d : Part) (g : Part → α) :
    (hits l 0).map (fun k => g (l.getD k d)) = (l.filter hit).map g := hits_map l [] d g

/-! ## filling -/

/-- a living particle -/
def alive (p : Part) : Bool := !p.dead

theorem nextDead_spec (l : List Part) (i j : Nat) (h : nextDead l i = some j) :
    i ≤ j ∧ ∃ hj : j < l.length, l[j].dead = true ∧ (l.drop i).countP (·.dead) = (l.drop j).countP (·.dead) := by
  fun_induction nextDead l i with
  | case1 i hi hd => simp at h; subst h; exact ⟨le_refl _, hi, hd, rfl⟩
  | case2 i hi hd ih =>
    obtain ⟨h1, h2, h3, h4⟩ := ih h
    refine ⟨by omega, h2, h3, ?_⟩
    rw [← h4, List.drop_eq_getElem_cons hi, List.countP_cons]
    simp [hd]
  | case3 i hi => simp at h

theorem nextDead_some (l : List Part) (i : Nat) (h : 0 < (l.drop i).countP (·.dead)) : ∃ j, nextDead l i = some j := by
  fun_induction nextDead l i with
  | case1 i hi hd => exact ⟨_, rfl⟩
  | case2 i hi hd ih =>
    apply ih
    rw [List.drop_eq_getElem_cons hi, List.countP_cons] at h
    simpa [hd] using h
  | case3 i hi => rw [List.drop_eq_nil_of_le (by omega)] at h; simp at h

theorem modify_split (l : List Part) (j : Nat) (h : j < l.length) (f : Part → Part) :
    l.modify j f = l.take j ++ f l[j] :: l.drop (j + 1) := by
  rw [List.modify_eq_take_cons_drop h]

theorem filter_modify {l : List Part} {j : Nat} (hj : j < l.length) (hd : l[j].dead = true) (f : Part → Part)
    (hf : (f l[j]).dead = false) : ((l.modify j f).filter alive).Perm (l.filter alive ++ [f l[j]]) := by
  have e : l = l.take j ++ l[j] :: l.drop (j + 1) := by
    rw [List.getElem_cons_drop, List.take_append_drop]
  rw [modify_split l j hj f]
  have e' : l.filter alive = (l.take j).filter alive ++ (l[j] :: l.drop (j + 1)).filter alive := by
    rw [← List.filter_append, ← e]
  rw [e']
  have a1 : alive (f l[j]) = true := by unfold alive; rw [hf]; rfl
  have a2 : alive l[j] = false := by unfold alive; rw [hd]; rfl
  rw [List.filter_append, List.filter_cons, List.filter_cons, if_pos a1, a2]
  simp only [Bool.false_eq_true, if_false]
  rw [List.append_assoc]
  apply List.Perm.append_left
  exact (List.perm_append_singleton _ _).symm

/-- one pass of the filling loop -/
theorem createLoop_spec {α : Type} (see : Part → α) (f : Nat → Part → Part) (new : Nat → α)
    (hnew : ∀ k p, see (f k p) = new k) (hlive : ∀ k p, (f k p).dead = false) (ks : List Nat) :
    ∀ (i : Nat) (l : List Part), ks.length ≤ (l.drop i).countP (·.dead) →
    ∃ l', createLoop f ks i l = some l' ∧ l'.length = l.length ∧
      ((l'.filter alive).map see).Perm ((l.filter alive).map see ++ ks.map new) ∧
      (∀ (j : Nat) (p : Part), l[j]? = some p → p.dead = false → l'[j]? = some p) ∧
      (∀ (j : Nat) (p : Part), l[j]? = some p → l'[j]? = some p ∨ p.dead = true ∧ ∃ k ∈ ks, l'[j]? = some (f k p)) := by
  induction ks with
  | nil =>
    intro i l _
    exact ⟨l, rfl, rfl, by simp, fun _ _ h _ => h, fun _ _ h => Or.inl h⟩
  | cons k ks ih =>
    intro i l h
    obtain ⟨j, hj⟩ := nextDead_some l i (by rw [List.length_cons] at h; omega)
    obtain ⟨hij, hjl, hjd, hcount⟩ := nextDead_spec l i j hj
    have hroom : ks.length ≤ ((l.modify j (f k)).drop j).countP (·.dead) := by
      rw [modify_split l j hjl, List.drop_left' (by rw [List.length_take]; omega), List.countP_cons, hlive]
      rw [hcount, List.drop_eq_getElem_cons hjl, List.countP_cons, hjd, List.length_cons] at h
      simp at h ⊢
      omega
    obtain ⟨l', e, hlen, hperm, hold, hany⟩ := ih j (l.modify j (f k)) hroom
    refine ⟨l', ?_, by rw [hlen, List.length_modify], ?_, ?_, ?_⟩
    · show (match nextDead l i with | none => none | some j => createLoop f ks j (l.modify j (f k))) = _
      rw [hj]
      exact e
    · refine hperm.trans ?_
      rw [List.map_cons]
      have := (filter_modify hjl hjd (f k) (hlive k _)).map see
      refine (this.append_right _).trans ?_
      rw [List.map_append, List.append_assoc, List.map_singleton, hnew]
      exact List.Perm.refl _
    · intro m p hm hp
      apply hold m p _ hp
      have hne : j ≠ m := by
        rintro rfl
        rw [List.getElem?_eq_getElem hjl] at hm
        cases hm
        rw [hjd] at hp
        cases hp
      rw [List.getElem?_modify, hm]; simp [hne]
    · intro m p hm
      by_cases hne : j = m
      · subst hne
        have hpe : p = l[j] := by rw [List.getElem?_eq_getElem hjl] at hm; cases hm; rfl
        refine Or.inr ⟨by rw [hpe]; exact hjd, k, List.mem_cons_self, ?_⟩
        apply hold j (f k p) _ (hlive k p)
        rw [List.getElem?_modify, hm]; simp
      · have : (l.modify j (f k))[m]? = some p := by rw [List.getElem?_modify, hm]; simp [hne]
        rcases hany m p this with h | ⟨h1, k', hk', h2⟩
        · exact Or.inl h
        · exact Or.inr ⟨h1, k', List.mem_cons_of_mem _ hk', h2⟩

theorem createLoop2_eq (f g : Nat → Part → Part) (ks : List Nat) : ∀ (i i' : Nat) (l m l' m' : List Part),
    createLoop f ks i l = some l' → createLoop g ks i' m = some m' → createLoop2 f g ks i l i' m = some (l', m') := by
  induction ks with
  | nil => intro i i' l m l' m' h h'; cases h; cases h'; rfl
  | cons k ks ih =>
    intro i i' l m l' m' h h'
    unfold createLoop at h h'
    unfold createLoop2
    cases hn : nextDead l i with
    | none => rw [hn] at h; cases h
    | some j =>
      cases hn' : nextDead m i' with
      | none => rw [hn'] at h'; cases h'
      | some j' =>
        rw [hn] at h
        rw [hn'] at h'
        exact ih _ _ _ _ _ _ h h'

/-! ## growing -/

theorem countP_hit_le (l : List Part) : l.countP hit ≤ l.countP (·.event) := by
  apply List.countP_mono_left
  intro p _ h
  unfold hit at h
  simp at h
  exact h.2

theorem grow_spec (blank : Nat → Part) (hb : ∀ k, (blank k).dead = true) (s t : List Part) :
    (grow blank s t).filter alive = t.filter alive ∧ (∀ (j : Nat) (p : Part), t[j]? = some p → (grow blank s t)[j]? = some p) ∧
    s.countP hit ≤ (grow blank s t).countP (·.dead) ∧
    (∀ (j : Nat) (p : Part), (grow blank s t)[j]? = some p → t[j]? = some p ∨ p = blank j ∧ t.length ≤ j) := by
  unfold grow
  dsimp only
  have hle := countP_hit_le s
  by_cases hn : extensionSize s t > 0
  · rw [if_pos hn]
    refine ⟨?_, ?_, ?_, ?_⟩
    · rw [List.filter_append]
      have : ((List.range (extensionSize s t + t.length / 4)).map fun k => blank (t.length + k)).filter alive = [] := by
        rw [List.filter_eq_nil_iff]
        intro p hp
        obtain ⟨k, _, rfl⟩ := List.mem_map.mp hp
        unfold alive; rw [hb]; simp
      rw [this, List.append_nil]
    · intro j p h
      have : j < t.length := by
        by_contra hc
        rw [List.getElem?_eq_none (by omega)] at h
        cases h
      rw [List.getElem?_append_left this]; exact h
    · rw [List.countP_append]
      have : ((List.range (extensionSize s t + t.length / 4)).map fun k => blank (t.length + k)).countP (·.dead) =
          extensionSize s t + t.length / 4 := by
        rw [List.countP_eq_length.mpr, List.length_map, List.length_range]
        intro p hp
        obtain ⟨k, _, rfl⟩ := List.mem_map.mp hp
        exact hb _
      rw [this]
      unfold extensionSize at hn ⊢
      omega
    · intro j p h
      by_cases hj : j < t.length
      · rw [List.getElem?_append_left hj] at h; exact Or.inl h
      · rw [List.getElem?_append_right (by omega), List.getElem?_map, Option.map_eq_some_iff] at h
        obtain ⟨k, hk, rfl⟩ := h
        rw [List.getElem?_range] at hk
        · cases hk
          exact Or.inr ⟨by congr 1; omega, by omega⟩
        · by_contra hc
          rw [List.getElem?_eq_none (by simpa using hc)] at hk
          cases hk
  · rw [if_neg hn]
    refine ⟨rfl, fun _ _ h => h, ?_, fun _ _ h => Or.inl h⟩
    unfold extensionSize at hn
    omega

end Verif.Qed
