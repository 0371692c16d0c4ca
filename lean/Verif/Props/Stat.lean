import Verif.Model.Stat
import Mathlib.Algebra.BigOperators.Group.List.Basic
import Mathlib.Algebra.Order.BigOperators.Group.List
import Mathlib.Algebra.BigOperators.Ring.List
import Mathlib.Tactic.Ring
import Mathlib.Tactic.FieldSimp
import Mathlib.Tactic.Positivity
/-! # C58 — the timer report adds up -/
namespace Verif.Stat
variable {κ : Type} [DecidableEq κ]

/-- specification: the times recorded for a category, in order -/
def timesOf (log : List (κ × ℚ)) (c : κ) : List ℚ := (log.filter fun r => r.1 = c).map (·.2)

/-- a log whose times are all numbers -/
def ofRecords (log : List (κ × ℚ)) : List (κ × Option ℚ) := log.map fun r => (r.1, some r.2)

/-- what the accumulated table says after the records `log` -/
structure Table (log : List (κ × ℚ)) (es : List (Entry κ)) : Prop where
  nodup : (es.map (·.category)).Nodup
  mem : ∀ c, c ∈ es.map (·.category) ↔ c ∈ log.map (·.1)
  time : ∀ e ∈ es, e.time = (timesOf log e.category).sum
  count : ∀ e ∈ es, e.count = (timesOf log e.category).length
  total : totalTime es = (log.map (·.2)).sum

theorem bump_category (c : κ) (t : ℚ) (es : List (Entry κ)) (x : κ) :
    x ∈ (bump c t es).map (·.category) ↔ x = c ∨ x ∈ es.map (·.category) := by
  induction es with
  | nil => simp [bump]
  | cons e es ih =>
    rw [bump]
    by_cases h : e.category = c
    · rw [if_pos h]; simp [h]
    · rw [if_neg h, List.map_cons, List.mem_cons, ih]
      simp only [List.map_cons, List.mem_cons]
      tauto

theorem bump_nodup (c : κ) (t : ℚ) (es : List (Entry κ)) (h : (es.map (·.category)).Nodup) :
    ((bump c t es).map (·.category)).Nodup := by
  induction es with
  | nil => simp [bump]
  | cons e es ih =>
    rw [List.map_cons, List.nodup_cons] at h
    rw [bump]
    by_cases hc : e.category = c
    · rw [if_pos hc, List.map_cons, List.nodup_cons]; exact ⟨by rw [← hc]; exact h.1, h.2⟩
    · rw [if_neg hc, List.map_cons, List.nodup_cons, bump_category]
      exact ⟨fun hh => hh.elim hc h.1, ih h.2⟩

theorem bump_total (c : κ) (t : ℚ) (es : List (Entry κ)) : totalTime (bump c t es) = totalTime es + t := by
  unfold totalTime
  induction es with
  | nil => simp [bump]
  | cons e es ih =>
    rw [bump]
    by_cases hc : e.category = c
    · rw [if_pos hc]; simp only [List.map_cons, List.sum_cons]; ring
    · rw [if_neg hc]; simp only [List.map_cons, List.sum_cons, ih]; ring

/-- the entries after a bump -/
theorem mem_bump (c : κ) (t : ℚ) (es : List (Entry κ)) (h : (es.map (·.category)).Nodup) (e : Entry κ)
    (he : e ∈ bump c t es) :
    (e.category ≠ c ∧ e ∈ es) ∨
    (e.category = c ∧ (∃ o ∈ es, o.category = c ∧ e.time = o.time + t ∧ e.count = o.count + 1)) ∨
    (e.category = c ∧ c ∉ es.map (·.category) ∧ e.time = t ∧ e.count = 1) := by
  induction es with
  | nil =>
    simp only [bump, List.mem_singleton] at he
    subst he
    right; right
    simp
  | cons o es ih =>
    rw [List.map_cons, List.nodup_cons] at h
    rw [bump] at he
    by_cases hc : o.category = c
    · rw [if_pos hc] at he
      rcases List.mem_cons.mp he with rfl | he
      · exact Or.inr (Or.inl ⟨rfl, o, by simp, hc, rfl, rfl⟩)
      · refine Or.inl ⟨fun hh => h.1 ?_, by simp [he]⟩
        rw [hc, ← hh]; exact List.mem_map.mpr ⟨e, he, rfl⟩
    · rw [if_neg hc] at he
      rcases List.mem_cons.mp he with rfl | he
      · exact Or.inl ⟨hc, by simp⟩
      · rcases ih h.2 he with ⟨h1, h2⟩ | ⟨h1, o', h2, h3⟩ | ⟨h1, h2, h3⟩
        · exact Or.inl ⟨h1, by simp [h2]⟩
        · exact Or.inr (Or.inl ⟨h1, o', by simp [h2], h3⟩)
        · refine Or.inr (Or.inr ⟨h1, ?_, h3⟩)
          rw [List.map_cons, List.mem_cons]
          exact fun hh => hh.elim (fun e => hc e.symm) h2

theorem timesOf_snoc (log : List (κ × ℚ)) (c d : κ) (t : ℚ) :
    timesOf (log ++ [(c, t)]) d = timesOf log d ++ if c = d then [t] else [] := by
  unfold timesOf
  rw [List.filter_append, List.map_append]
  by_cases h : c = d <;> simp [h]

theorem timesOf_nil {log : List (κ × ℚ)} {c : κ} (h : c ∉ log.map (·.1)) : timesOf log c = [] := by
  unfold timesOf
  rw [List.map_eq_nil_iff, List.filter_eq_nil_iff]
  intro r hr hc
  exact h (List.mem_map.mpr ⟨r, hr, by simpa using hc⟩)

theorem Table.bump {log : List (κ × ℚ)} {es : List (Entry κ)} (h : Table log es) (c : κ) (t : ℚ) :
    Table (log ++ [(c, t)]) (bump c t es) where
  nodup := bump_nodup c t es h.nodup
  mem x := by rw [bump_category, h.mem]; simp [or_comm]
  total := by rw [bump_total, h.total]; simp
  time e he := by
    rw [timesOf_snoc, List.sum_append]
    rcases mem_bump c t es h.nodup e he with ⟨h1, h2⟩ | ⟨h1, o, h2, h3, h4, _⟩ | ⟨h1, h2, h3, _⟩
    · rw [if_neg fun hh => h1 hh.symm, h.time e h2]; simp
    · rw [if_pos h1.symm, h4, h.time o h2, h3, h1]; simp
    · rw [if_pos h1.symm, h3, h1, timesOf_nil fun hh => h2 ((h.mem c).mpr hh)]; simp
  count e he := by
    rw [timesOf_snoc, List.length_append]
    rcases mem_bump c t es h.nodup e he with ⟨h1, h2⟩ | ⟨h1, o, h2, h3, _, h4⟩ | ⟨h1, h2, _, h3⟩
    · rw [if_neg fun hh => h1 hh.symm, h.count e h2]; simp
    · rw [if_pos h1.symm, h4, h.count o h2, h3, h1]; simp
    · rw [if_pos h1.symm, h3, h1, timesOf_nil fun hh => h2 ((h.mem c).mpr hh)]; simp

theorem parseLog_table (log pre : List (κ × ℚ)) (es : List (Entry κ)) (h : Table pre es) :
    ∃ es', parseLog (ofRecords log) es = some es' ∧ Table (pre ++ log) es' := by
  induction log generalizing pre es with
  | nil => exact ⟨es, rfl, by simpa using h⟩
  | cons r log ih =>
    obtain ⟨es', h1, h2⟩ := ih (pre ++ [r]) (bump r.1 r.2 es) (h.bump r.1 r.2)
    exact ⟨es', h1, by simpa using h2⟩

theorem Table.nil : Table ([] : List (κ × ℚ)) [] := ⟨by simp, by simp, by simp, by simp, by simp [totalTime]⟩

/-- **C58.** For every log whose times are non-negative numbers the report has exactly one line for every category that
occurs, percentages are non-negative, they add up to 100 if some time was recorded (and are 0 otherwise); each is the share
of the category, each average is the mean of the times of the category, and the total is the sum of all times. -/
theorem report_adds_up (log : List (κ × ℚ)) (hpos : ∀ r ∈ log, 0 ≤ r.2) :
    ∃ lines total, report (ofRecords log) = some (lines, total) ∧
      total = (log.map (·.2)).sum ∧
      (lines.map (·.category)).Nodup ∧ (∀ c, c ∈ lines.map (·.category) ↔ c ∈ log.map (·.1)) ∧
      (∀ l ∈ lines, 0 ≤ l.percentage ∧ l.percentage * total = 100 * (timesOf log l.category).sum ∧
        l.average * (timesOf log l.category).length = (timesOf log l.category).sum) ∧
      (0 < total → (lines.map (·.percentage)).sum = 100) ∧
      (total = 0 → ∀ l ∈ lines, l.percentage = 0) := by
  obtain ⟨es, h1, h⟩ := parseLog_table log [] [] Table.nil
  rw [List.nil_append] at h
  have hts : ∀ c, 0 ≤ (timesOf log c).sum := by
    intro c
    apply List.sum_nonneg
    intro x hx
    obtain ⟨r, hr, rfl⟩ := List.mem_map.mp hx
    exact hpos r (List.mem_of_mem_filter hr)
  have htot : 0 ≤ totalTime es := by
    rw [h.total]; apply List.sum_nonneg
    intro x hx
    obtain ⟨r, hr, rfl⟩ := List.mem_map.mp hx
    exact hpos r hr
  refine ⟨(calculate es).1, totalTime es, by rw [report, h1]; rfl, h.total, ?_, ?_, ?_, ?_, ?_⟩
  · rw [calculate, List.map_map]; exact h.nodup
  · intro c; rw [calculate, List.map_map]; exact h.mem c
  · intro l hl
    obtain ⟨e, he, rfl⟩ := List.mem_map.mp hl
    dsimp only
    have ht := h.time e he
    have hc := h.count e he
    have htn := hts e.category
    refine ⟨?_, ?_, ?_⟩
    · by_cases hp : 0 < totalTime es
      · rw [if_pos hp, ht]; positivity
      · rw [if_neg hp]
    · by_cases hp : 0 < totalTime es
      · rw [if_pos hp, ht]; field_simp
      · rw [if_neg hp]
        have h0 : totalTime es = 0 := le_antisymm (not_lt.mp hp) htot
        have hle : (timesOf log e.category).sum ≤ totalTime es := by
          rw [← ht]
          unfold totalTime
          apply List.single_le_sum _ _ (List.mem_map.mpr ⟨e, he, rfl⟩)
          intro x hx
          obtain ⟨e', he', rfl⟩ := List.mem_map.mp hx
          rw [h.time e' he']; exact hts _
        rw [h0] at hle ⊢
        rw [le_antisymm hle htn]; ring
    · have hmem := (h.mem e.category).mp (List.mem_map.mpr ⟨e, he, rfl⟩)
      obtain ⟨r, hr, hrc⟩ := List.mem_map.mp hmem
      have hlen : 0 < (timesOf log e.category).length := by
        apply List.length_pos_of_mem (a := r.2)
        exact List.mem_map.mpr ⟨r, List.mem_filter.mpr ⟨hr, by simpa using hrc⟩, rfl⟩
      rw [if_pos (by rw [hc]; exact hlen), hc, ht]
      have : ((timesOf log e.category).length : ℚ) ≠ 0 := by exact_mod_cast hlen.ne'
      field_simp
  · intro hp
    have e1 : ((calculate es).1.map (·.percentage)) = es.map fun e => e.time * (100 / totalTime es) := by
      rw [calculate, List.map_map]
      apply List.map_congr_left
      intro e _
      show (if 0 < totalTime es then e.time / totalTime es * 100 else 0) = _
      rw [if_pos hp]; ring
    rw [e1, List.sum_map_mul_right]
    show totalTime es * _ = _
    field_simp
  · intro h0 l hl
    obtain ⟨e, he, rfl⟩ := List.mem_map.mp hl
    exact if_neg (by rw [h0]; exact lt_irrefl _)

theorem parseLog_none (log : List (κ × Option ℚ)) (es : List (Entry κ)) : parseLog log es = none ↔ ∃ r ∈ log, r.2 = none := by
  induction log generalizing es with
  | nil => simp [parseLog]
  | cons r log ih =>
    obtain ⟨c, t⟩ := r
    cases t with
    | none => simp [parseLog]
    | some t =>
      rw [parseLog, ih]
      simp

/-- **C58.** A log is refused exactly if one of its times is not a number; no line is left out silently. -/
theorem report_refused (log : List (κ × Option ℚ)) : report log = none ↔ ∃ r ∈ log, r.2 = none := by
  rw [report, Option.map_eq_none_iff, parseLog_none]

/-- a log with two categories -/
example : report (ofRecords [("push", (3 : ℚ)), ("sync", 1), ("push", 4)]) =
    some ([⟨"push", 87 + 1/2, 7/2⟩, ⟨"sync", 12 + 1/2, 1⟩], 8) := by
  simp [report, ofRecords, parseLog, bump, calculate, totalTime]; norm_num
end Verif.Stat
