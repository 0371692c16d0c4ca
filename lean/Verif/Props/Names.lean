import Verif.Model.Names
import Verif.Proofs.Restart
import Mathlib.Data.List.Nodup
/-! # C37 — species names become unique -/
namespace Verif.Names

theorem digitChar_val : ∀ d < 10, (Nat.digitChar d).toNat - 48 = d := by decide
theorem digitChar_digit : ∀ d < 10, (Nat.digitChar d).isDigit = true := by decide

theorem parse_digits (w n : Nat) : parse (Restart.digits w n) = n % 10 ^ w := by
  induction w generalizing n with
  | zero => simp [Restart.digits, parse, Nat.mod_one]
  | succ w ih =>
    rw [Restart.digits, parse, List.foldl_append]
    show 10 * parse (Restart.digits w (n / 10)) + ((Nat.digitChar (n % 10)).toNat - 48) = _
    rw [ih, digitChar_val _ (by omega), Nat.pow_succ, Nat.mul_comm (10 ^ w), Nat.mod_mul]
    omega

theorem parse_decimal (n : Nat) : parse (decimal n) = n := by
  unfold decimal
  rw [parse_digits]
  exact Nat.mod_eq_of_lt (Nat.lt_pow_succ_log_self (by decide) n)

theorem digits_isDigit (w n : Nat) : (Restart.digits w n).all Char.isDigit = true := by
  induction w generalizing n with
  | zero => rfl
  | succ w ih =>
    rw [Restart.digits, List.all_append, ih]
    simp [digitChar_digit _ (show n % 10 < 10 by omega)]

theorem decimal_ne_nil (n : Nat) : decimal n ≠ [] := by
  intro h
  have := congrArg List.length h
  unfold decimal at this
  rw [Restart.length_digits] at this
  simp at this

theorem isPrefixOf?_append (a b : Name) : a.isPrefixOf? (a ++ b) = some b := by
  induction a with
  | nil => rfl
  | cons x a ih => simp [List.isPrefixOf?, ih]

/-- a name with a generated suffix matches, with that suffix -/
theorem match_generated (base : Name) (k : Nat) : matchSuffix base (base ++ '.' :: decimal k) = some k := by
  unfold matchSuffix
  have hne : base ++ '.' :: decimal k ≠ base := by
    intro h
    have := congrArg List.length h
    simp at this
  rw [if_neg hne, isPrefixOf?_append]
  have : dotSuffix ('.' :: decimal k) = some (parse (decimal k)) := if_pos ⟨rfl, decimal_ne_nil k, digits_isDigit _ _⟩
  rw [Option.bind_some, this, parse_decimal]

theorem match_self (base : Name) : matchSuffix base base = some 0 := by
  unfold matchSuffix; rw [if_pos rfl]

/-- the fold is the maximum of the suffixes -/
theorem maxSuffix_spec (base : Name) (l : List Name) :
    (maxSuffix base l = none ↔ ∀ x ∈ l, matchSuffix base x = none) ∧
    ∀ m, maxSuffix base l = some m → (∀ x ∈ l, ∀ k, matchSuffix base x = some k → k ≤ m) ∧
      ∃ x ∈ l, matchSuffix base x = some m := by
  unfold maxSuffix
  have main : ∀ (l pre : List Name) (a : Option Nat), (a = none ↔ ∀ x ∈ pre, matchSuffix base x = none) →
      (∀ m, a = some m → (∀ x ∈ pre, ∀ k, matchSuffix base x = some k → k ≤ m) ∧
        ∃ x ∈ pre, matchSuffix base x = some m) →
      (l.foldl (fun m name => match matchSuffix base name with
        | some k => some (match m with | some j => max j k | none => k)
        | none => m) a = none ↔ ∀ x ∈ pre ++ l, matchSuffix base x = none) ∧
      ∀ m, l.foldl (fun m name => match matchSuffix base name with
        | some k => some (match m with | some j => max j k | none => k)
        | none => m) a = some m → (∀ x ∈ pre ++ l, ∀ k, matchSuffix base x = some k → k ≤ m) ∧
        ∃ x ∈ pre ++ l, matchSuffix base x = some m := by
    intro l
    induction l with
    | nil => intro pre a h1 h2; rw [List.append_nil]; exact ⟨h1, h2⟩
    | cons y l ih =>
      intro pre a h1 h2
      have e : pre ++ y :: l = (pre ++ [y]) ++ l := by simp
      rw [e, List.foldl_cons]
      apply ih
      · cases hy : matchSuffix base y with
        | none =>
          try dsimp only
          rw [h1]
          constructor
          · intro h x hx
            rcases List.mem_append.mp hx with hx | hx
            · exact h x hx
            · rw [List.mem_singleton.mp hx]; exact hy
          · intro h x hx
            exact h x (by simp [hx])
        | some k =>
          try dsimp only
          constructor
          · intro h; cases h
          · intro h; rw [h y (by simp)] at hy; cases hy
      · intro m hm
        cases hy : matchSuffix base y with
        | none =>
          rw [hy] at hm
          obtain ⟨g1, x, g2, g3⟩ := h2 m hm
          refine ⟨?_, x, by simp [g2], g3⟩
          intro z hz k hk
          rcases List.mem_append.mp hz with hz | hz
          · exact g1 z hz k hk
          · rw [List.mem_singleton.mp hz, hy] at hk; cases hk
        | some k =>
          rw [hy] at hm
          dsimp only at hm
          cases ha : a with
          | none =>
            rw [ha] at hm
            cases hm
            refine ⟨?_, y, by simp, hy⟩
            intro z hz k' hk
            rcases List.mem_append.mp hz with hz | hz
            · rw [h1.mp ha z hz] at hk; cases hk
            · rw [List.mem_singleton.mp hz, hy] at hk; cases hk; exact Nat.le_refl _
          | some j =>
            rw [ha] at hm
            obtain ⟨g1, x, g2, g3⟩ := h2 j ha
            have hm : max j k = m := by simpa using hm
            refine ⟨?_, ?_⟩
            · intro z hz k' hk
              rcases List.mem_append.mp hz with hz | hz
              · have := g1 z hz k' hk; omega
              · rw [List.mem_singleton.mp hz, hy] at hk; cases hk; omega
            · rcases Nat.le_total j k with h | h
              · exact ⟨y, by simp, by rw [hy]; congr 1; omega⟩
              · exact ⟨x, by simp [g2], by rw [g3]; congr 1; omega⟩
  have := main l [] none (by simp) (by intro m h; cases h)
  rwa [List.nil_append] at this

/-- the new name is not taken -/
theorem rename_new (existing : List Name) (base : Name) : rename existing base ∉ existing := by
  unfold rename
  obtain ⟨h1, h2⟩ := maxSuffix_spec base existing
  cases hm : maxSuffix base existing with
  | none =>
    intro h
    have := h1.mp hm _ h
    dsimp only at this
    rw [match_self] at this
    cases this
  | some k =>
    intro h
    have := (h2 k hm).1 _ h _ (match_generated base (k + 1))
    omega

/-- specification: `x` looks like `base` or like `base.<number>` -/
def Like (base x : Name) : Prop := x = base ∨ ∃ ds : List Char, ds ≠ [] ∧ (∀ c ∈ ds, c.isDigit = true) ∧ x = base ++ '.' :: ds

theorem isPrefixOf?_some {a x b : Name} (h : a.isPrefixOf? x = some b) : x = a ++ b := by
  induction a generalizing x with
  | nil => cases x <;> simp_all [List.isPrefixOf?]
  | cons c a ih =>
    cases x with
    | nil => simp [List.isPrefixOf?] at h
    | cons d x =>
      simp only [List.isPrefixOf?] at h
      by_cases hc : (c == d) = true
      · rw [if_pos hc] at h
        rw [ih h, beq_iff_eq.mp hc]; rfl
      · rw [if_neg hc] at h; cases h

theorem match_like (base x : Name) : matchSuffix base x ≠ none ↔ Like base x := by
  unfold matchSuffix Like
  by_cases hx : x = base
  · rw [if_pos hx]; simp [hx]
  · rw [if_neg hx]
    constructor
    · intro h
      right
      cases hp : base.isPrefixOf? x with
      | none => rw [hp] at h; simp at h
      | some r =>
        rw [hp, Option.bind_some] at h
        have e := isPrefixOf?_some hp
        match r, h, e with
        | [], h, e => exact absurd rfl h
        | c :: ds, h, e =>
          by_cases hd : c = '.' ∧ ds ≠ [] ∧ ds.all Char.isDigit = true
          · obtain ⟨rfl, hd1, hd2⟩ := hd
            exact ⟨ds, hd1, by simpa using hd2, e⟩
          · exact absurd (if_neg hd) h
    · rintro (h | ⟨ds, h1, h2, rfl⟩)
      · exact absurd h hx
      · have : dotSuffix ('.' :: ds) = some (parse ds) := if_pos ⟨rfl, h1, by simpa using h2⟩
        rw [isPrefixOf?_append, Option.bind_some, this]
        simp

theorem rename_keeps (existing : List Name) (base : Name) :
    rename existing base = base ↔ ∀ x ∈ existing, ¬ Like base x := by
  unfold rename
  obtain ⟨h1, h2⟩ := maxSuffix_spec base existing
  cases hm : maxSuffix base existing with
  | none =>
    refine ⟨fun _ x hx hl => ?_, fun _ => rfl⟩
    exact (match_like base x).mpr hl (h1.mp hm x hx)
  | some k =>
    constructor
    · intro h
      have := congrArg List.length h
      simp at this
    · intro h
      obtain ⟨x, hx, hk⟩ := (h2 k hm).2
      exact absurd ((match_like base x).mp (by rw [hk]; simp)) (h x hx)

theorem uniquifyRefs_other (ss : List Nat) (heap : Nat → Name) (existing : List Name) (o : Nat) (h : o ∉ ss) :
    uniquifyRefs ss heap existing o = heap o := by
  induction ss generalizing heap existing with
  | nil => rfl
  | cons s ss ih =>
    rw [uniquifyRefs]
    try dsimp only
    rw [ih _ _ fun hm => h (by simp [hm])]
    exact if_neg fun e => h (by simp [e])

theorem uniquifyRefs_nodup (ss : List Nat) (hs : ss.Nodup) (heap : Nat → Name) (existing : List Name)
    (he : existing.Nodup) : (existing ++ ss.map (uniquifyRefs ss heap existing)).Nodup := by
  induction ss generalizing heap existing with
  | nil => simpa using he
  | cons s ss ih =>
    rw [List.nodup_cons] at hs
    rw [uniquifyRefs]
    try dsimp only
    have hn := rename_new existing (heap s)
    generalize rename existing (heap s) = nm at hn
    have hne : (existing ++ [nm]).Nodup := by
      rw [List.nodup_append]
      exact ⟨he, by simp, fun a ha b hb e => hn (by rw [List.mem_singleton.mp hb] at e; rw [← e]; exact ha)⟩
    have := ih hs.2 (fun o => if o = s then nm else heap o) (existing ++ [nm]) hne
    have hhead : uniquifyRefs ss (fun o => if o = s then nm else heap o) (existing ++ [nm]) s = nm := by
      rw [uniquifyRefs_other _ _ _ _ hs.1]; exact if_pos rfl
    rw [List.map_cons, hhead]
    simpa using this

/-- **C37.** Adding new species objects (each once, none registered before) to a simulation whose names are distinct:
all names are distinct afterwards, the names of the species registered before and the order are unchanged, and the first of
the new species keeps its name exactly if no registered name looks like it.

Partial: an object added twice ends up with the same name twice (`same_object_twice_fails`); a first occurrence loses its
name if a name that looks generated from it exists (`first_occurrence_renamed_fails`). -/
theorem names_unique_partial (old new : List Nat) (heap : Nat → Name) (hold : (old.map heap).Nodup) (hnew : new.Nodup)
    (hdisj : ∀ o ∈ new, o ∉ old) :
    (addSpecies old new heap).Nodup ∧ (addSpecies old new heap).length = old.length + new.length ∧
    (addSpecies old new heap).take old.length = old.map heap ∧
    ∀ s ss, new = s :: ss → ((addSpecies old new heap)[old.length]? = some (heap s) ↔
      ∀ x ∈ old.map heap, ¬ Like (heap s) x) := by
  have hkeep : old.map (uniquifyRefs new heap (old.map heap)) = old.map heap :=
    List.map_congr_left fun o ho => uniquifyRefs_other _ _ _ _ fun hm => hdisj o hm ho
  unfold addSpecies
  rw [List.map_append, hkeep]
  refine ⟨uniquifyRefs_nodup new hnew heap _ hold, by simp, ?_, ?_⟩
  · rw [List.take_append_of_le_length (by simp), List.take_of_length_le (by simp)]
  · rintro s ss rfl
    rw [List.getElem?_append_right (by simp)]
    simp only [List.length_map, Nat.sub_self, List.map_cons, List.getElem?_cons_zero, Option.some.injEq]
    rw [uniquifyRefs]
    try dsimp only
    rw [uniquifyRefs_other _ _ _ _ (List.nodup_cons.mp hnew).1]
    rw [if_pos rfl]
    exact rename_keeps _ _

/-- a species that is the first of its name -/
theorem first_keeps_name_partial (old new : List Nat) (heap : Nat → Name) (hnew : new.Nodup)
    (i : Nat) (hi : i < new.length)
    (hfirst : ∀ x, (x ∈ old.map heap ∨ ∃ j, ∃ (hj : j < i), x = uniquifyRefs new heap (old.map heap) (new[j]'(by omega))) →
      ¬ Like (heap new[i]) x) :
    uniquifyRefs new heap (old.map heap) new[i] = heap new[i] := by
  have main : ∀ (new : List Nat) (hnew : new.Nodup) (heap : Nat → Name) (ex : List Name) (i : Nat) (hi : i < new.length),
      (∀ x, (x ∈ ex ∨ ∃ j, ∃ (hj : j < i), x = uniquifyRefs new heap ex (new[j]'(by omega))) → ¬ Like (heap new[i]) x) →
      uniquifyRefs new heap ex new[i] = heap new[i] := by
    intro new
    induction new with
    | nil => intro _ _ _ i hi; simp at hi
    | cons s ss ih =>
      intro hnew heap ex i hi hf
      obtain ⟨hs, hss⟩ := List.nodup_cons.mp hnew
      have hhead : uniquifyRefs (s :: ss) heap ex s = rename ex (heap s) := by
        exact (uniquifyRefs_other ss _ _ s hs).trans (if_pos rfl)
      cases i with
      | zero =>
        show uniquifyRefs (s :: ss) heap ex s = heap s
        rw [hhead]
        exact (rename_keeps _ _).mpr fun x hx => hf x (Or.inl hx)
      | succ i =>
        have hi' : i < ss.length := by simpa using hi
        have hne : ss[i] ≠ s := fun e => hs (e ▸ List.getElem_mem hi')
        show uniquifyRefs (s :: ss) heap ex ss[i] = heap ss[i]
        have := ih hss (fun o => if o = s then rename ex (heap s) else heap o) (ex ++ [rename ex (heap s)]) i hi' (by
          rintro x hx
          have hh : (if ss[i] = s then rename ex (heap s) else heap ss[i]) = heap ss[i] := if_neg hne
          try dsimp only
          rw [hh]
          refine hf x ?_
          rcases hx with hx | ⟨j, hj, hx⟩
          · rcases List.mem_append.mp hx with hx | hx
            · exact Or.inl hx
            · refine Or.inr ⟨0, by omega, ?_⟩
              rw [List.mem_singleton.mp hx]; exact hhead.symm
          · exact Or.inr ⟨j + 1, by omega, hx⟩)
        rw [uniquifyRefs]
        try dsimp only
        rw [this]
        exact if_neg hne
  exact main new hnew heap _ i hi hfirst

/-- the same object twice: both entries carry the same name -/
theorem same_object_twice_fails : addSpecies [] [0, 0] (fun _ => ['e']) = [['e', '.', '1'], ['e', '.', '1']] := by
  decide +kernel

/-- `e` is the first species of that name, but is renamed because a species called `e.1` exists -/
theorem first_occurrence_renamed_fails :
    addSpecies [] [0, 1] (fun o => if o = 0 then ['e', '.', '1'] else ['e']) = [['e', '.', '1'], ['e', '.', '2']] := by
  decide +kernel

/-- names that look like generated ones -/
example : addSpecies [0] [1, 2, 3] (fun o => if o = 2 then ['e', '.', '1'] else ['e']) =
    [['e'], ['e', '.', '1'], ['e', '.', '1', '.', '1'], ['e', '.', '2']] := by decide +kernel

end Verif.Names
