import Verif.Model.Output
import Mathlib.Tactic.Linarith
import Mathlib.Tactic.Ring
import Mathlib.Data.List.Sort
import Mathlib.Data.List.Nodup
import Mathlib.Data.List.GetD
/-!
# Lemmas on the output model
-/
namespace Verif.Output

/-- `k ≥ ⌈a / s⌉` -/
theorem ceil_le {a s k : Int} (hs : 0 < s) : -((-a) / s) ≤ k ↔ a ≤ k * s := by
  constructor
  · intro h
    have := (Int.le_ediv_iff_mul_le hs).mp (by omega : -k ≤ -a / s)
    rw [Int.neg_mul] at this
    omega
  · intro h
    have : -k ≤ -a / s := (Int.le_ediv_iff_mul_le hs).mpr (by rw [Int.neg_mul]; omega)
    omega

theorem le_floor {a s k : Int} (hs : 0 < s) : k ≤ a / s ↔ k * s ≤ a := Int.le_ediv_iff_mul_le hs

/-- a patch slice in terms of output indices -/
theorem patchSlice_eq (s : Sl) (off size : Int) (hs : 0 < s.step) :
    patchSlice s off size =
      if (min s.stop (off + size) - 1 - s.start) / s.step < -((-(max 0 (off - s.start))) / s.step) then none
      else some ⟨s.start + -((-(max 0 (off - s.start))) / s.step) * s.step - off,
        s.start + -((-(max 0 (off - s.start))) / s.step) * s.step - off +
          ((min s.stop (off + size) - 1 - s.start) / s.step - -((-(max 0 (off - s.start))) / s.step) + 1) * s.step,
        s.step, -((-(max 0 (off - s.start))) / s.step),
        (min s.stop (off + size) - 1 - s.start) / s.step - -((-(max 0 (off - s.start))) / s.step) + 1⟩ := by
  unfold patchSlice
  dsimp only
  generalize -((-(max 0 (off - s.start))) / s.step) = a
  generalize (min s.stop (off + size) - 1 - s.start) / s.step = b
  have h1 : s.start + b * s.step < s.start + a * s.step ↔ b < a := by
    constructor
    · intro h
      by_contra hc
      have := Int.mul_le_mul_of_nonneg_right (by omega : a ≤ b) (by omega : 0 ≤ s.step)
      omega
    · intro h
      have := Int.mul_lt_mul_of_pos_right h hs
      omega
  have e1 : (s.start + a * s.step - s.start) / s.step = a := by
    rw [add_sub_cancel_left]; exact Int.mul_ediv_cancel _ (by omega)
  have e2 : (s.start + b * s.step - (s.start + a * s.step)) / s.step = b - a := by
    have : s.start + b * s.step - (s.start + a * s.step) = (b - a) * s.step := by ring
    rw [this]; exact Int.mul_ediv_cancel _ (by omega)
  rw [e1, e2]
  by_cases h : b < a
  · rw [if_pos h, if_pos (h1.mpr h)]
  · rw [if_neg h, if_neg (fun x => h (h1.mp x))]

/-- well-formed slice of an axis of `dim` cells -/
structure SlOk (dim : Nat) (s : Sl) : Prop where
  start0 : 0 ≤ s.start
  lt : s.start < s.stop
  stop : s.stop ≤ dim
  step : 0 < s.step

theorem count_iff {dim : Nat} {s : Sl} (h : SlOk dim s) {k : Int} : k < s.count ↔ s.start + k * s.step < s.stop := by
  unfold Sl.count
  rw [if_pos h.lt]
  have := @le_floor (s.stop - s.start - 1) s.step k h.step
  omega

/-- **one axis**: the piece of a patch holds exactly the output positions whose cell is in the patch, at the right place -/
theorem piece_axis {dim : Nat} {s : Sl} (h : SlOk dim s) {off size : Int} (k : Int) (hk0 : 0 ≤ k) (hk : k < s.count) :
    (off ≤ s.start + k * s.step ∧ s.start + k * s.step < off + size) ↔
      ∃ pc, patchSlice s off size = some pc ∧ pc.out ≤ k ∧ k < pc.out + pc.num := by
  rw [patchSlice_eq s off size h.step]
  have hk' := (count_iff h).mp hk
  have a := @ceil_le (max 0 (off - s.start)) s.step k h.step
  have b := @le_floor (min s.stop (off + size) - 1 - s.start) s.step k h.step
  have hks : 0 ≤ k * s.step := Int.mul_nonneg hk0 (by have := h.step; omega)
  constructor
  · rintro ⟨h1, h2⟩
    have ha := a.mpr (by omega)
    have hb := b.mpr (by omega)
    rw [if_neg (by omega)]
    exact ⟨_, rfl, ha, by dsimp only; omega⟩
  · rintro ⟨pc, hpc, h1, h2⟩
    split at hpc
    · cases hpc
    · cases hpc
      dsimp only at h1 h2
      have ha := a.mp h1
      have hb := b.mp (by omega)
      omega

theorem piece_value {s : Sl} (hs : 0 < s.step) {off size : Int} {pc : Piece} (h : patchSlice s off size = some pc) (k : Int) :
    pc.localStart + (k - pc.out) * pc.step = s.start + k * s.step - off := by
  rw [patchSlice_eq s off size hs] at h
  split at h
  · cases h
  · cases h
    dsimp only
    ring

theorem piece_facts {dim : Nat} {s : Sl} (h : SlOk dim s) {off size : Int} {pc : Piece}
    (hp : patchSlice s off size = some pc) :
    0 ≤ pc.out ∧ 0 < pc.num ∧ pc.out + pc.num ≤ s.count ∧ 0 ≤ pc.localStart ∧ pc.localStart + (pc.num - 1) * pc.step < size ∧
      pc.step = s.step ∧ pc.localStop = pc.localStart + pc.num * pc.step := by
  rw [patchSlice_eq s off size h.step] at hp
  split at hp
  · cases hp
  · rename_i hc
    cases hp
    dsimp only
    have a0 := @ceil_le (max 0 (off - s.start)) s.step (-1) h.step
    have aS := (@ceil_le (max 0 (off - s.start)) s.step _ h.step).mp le_rfl
    have bS := (@le_floor (min s.stop (off + size) - 1 - s.start) s.step _ h.step).mp le_rfl
    have hst := h.step
    set A := -((-(max 0 (off - s.start))) / s.step) with hA
    set B := (min s.stop (off + size) - 1 - s.start) / s.step with hB
    have hA0 : 0 ≤ A := by
      by_contra hlt
      have := a0.mp (by omega)
      omega
    refine ⟨hA0, by omega, ?_, by omega, ?_, rfl, rfl⟩
    · have := (@count_iff dim s h B).mpr (by omega)
      omega
    · have e : s.start + A * s.step - off + (B - A + 1 - 1) * s.step = s.start + B * s.step - off := by ring
      rw [e]
      omega

/-- the number of elements numpy reads from the array equals the number written -/
theorem taken_eq {dim : Nat} {s : Sl} (h : SlOk dim s) {off size ng : Int} (hng : 0 ≤ ng) {pc : Piece}
    (hp : patchSlice s off size = some pc) : takenLen (size + 2 * ng) pc = pc.num := by
  obtain ⟨_, hn, _, h0, hl, hst, hstop⟩ := piece_facts h hp
  have hs : 0 < pc.step := by rw [hst]; exact h.step
  have hexp : (pc.num - 1) * pc.step = pc.num * pc.step - pc.step := by ring
  unfold takenLen
  have hlt : pc.localStart < min pc.localStop (size + 2 * ng) := by
    have : 0 ≤ (pc.num - 1) * pc.step := Int.mul_nonneg (by omega) (by omega)
    omega
  rw [if_pos hlt]
  have : (min pc.localStop (size + 2 * ng) - pc.localStart - 1) / pc.step = pc.num - 1 := by
    apply le_antisymm
    · have := (@le_floor (min pc.localStop (size + 2 * ng) - pc.localStart - 1) pc.step pc.num hs)
      by_contra hc
      have := this.mp (by omega)
      omega
    · rw [le_floor hs]
      omega
  omega

/-! ### n dimensions -/

variable {d : Nat} {V : Type}

/-- the global cell behind an output position -/
def cellOf (sl : Fin d → Sl) (o : Fin d → Int) (a : Fin d) : Int := (sl a).start + o a * (sl a).step

/-- a patch owns a cell -/
def Owns (n : Fin d → Nat) (ip : Fin d → Nat) (g : Fin d → Int) : Prop :=
  ∀ a, (ip a * n a : Int) ≤ g a ∧ g a < (ip a * n a : Int) + n a

theorem writePatch_spec {dims : Fin d → Nat} {n : Fin d → Nat} {ng : Nat} {sl : Fin d → Sl} (hsl : ∀ a, SlOk (dims a) (sl a))
    (ds : (Fin d → Int) → V) (p : PatchArr d V) :
    ∃ ds', writePatch n ng sl ds p = some ds' ∧ ∀ o : Fin d → Int, (∀ a, 0 ≤ o a ∧ o a < (sl a).count) →
      (Owns n p.ipatch (cellOf sl o) → ds' o = p.arr fun a => cellOf sl o a - p.ipatch a * n a) ∧
      (¬ Owns n p.ipatch (cellOf sl o) → ds' o = ds o) := by
  unfold writePatch
  by_cases hnone : ∃ a, piece n sl p.ipatch a = none
  · refine ⟨ds, if_pos hnone, fun o ho => ⟨fun hown => ?_, fun _ => rfl⟩⟩
    obtain ⟨a, ha⟩ := hnone
    obtain ⟨pc, hpc, _⟩ := (piece_axis (hsl a) (o a) (ho a).1 (ho a).2).mp (hown a)
    unfold piece at ha
    rw [ha] at hpc
    cases hpc
  · rw [if_neg hnone]
    dsimp only
    have hsome : ∀ a, piece n sl p.ipatch a = some ((piece n sl p.ipatch a).getD default) := by
      intro a
      cases h : piece n sl p.ipatch a with
      | none => exact absurd ⟨a, h⟩ hnone
      | some pc => rfl
    have hok : ∀ a, takenLen (n a + 2 * ng) ((piece n sl p.ipatch a).getD default) = ((piece n sl p.ipatch a).getD default).num ∧
        0 ≤ ((piece n sl p.ipatch a).getD default).out ∧
        ((piece n sl p.ipatch a).getD default).out + ((piece n sl p.ipatch a).getD default).num ≤ (sl a).count := by
      intro a
      have hf := piece_facts (hsl a) (hsome a)
      exact ⟨taken_eq (hsl a) (by omega) (hsome a), hf.1, hf.2.2.1⟩
    refine ⟨_, if_pos hok, fun o ho => ?_⟩
    have hiff : (∀ a, ((piece n sl p.ipatch a).getD default).out ≤ o a ∧
        o a < ((piece n sl p.ipatch a).getD default).out + ((piece n sl p.ipatch a).getD default).num) ↔
        Owns n p.ipatch (cellOf sl o) := by
      constructor
      · intro h a
        exact (piece_axis (hsl a) (o a) (ho a).1 (ho a).2).mpr ⟨_, hsome a, h a⟩
      · intro h a
        obtain ⟨pc, hpc, h1⟩ := (piece_axis (hsl a) (o a) (ho a).1 (ho a).2).mp (h a)
        have := hsome a
        unfold piece at this ⊢
        rw [hpc] at this ⊢
        exact h1
    refine ⟨fun hown => ?_, fun hown => ?_⟩
    · refine (if_pos (hiff.mpr hown)).trans ?_
      congr 1
      funext a
      exact piece_value (hsl a).step (hsome a) (o a)
    · exact if_neg (fun h => hown (hiff.mp h))

theorem writeAll_spec {dims : Fin d → Nat} {n : Fin d → Nat} {ng : Nat} {sl : Fin d → Sl} (hsl : ∀ a, SlOk (dims a) (sl a))
    (G : (Fin d → Int) → V) (patches : List (PatchArr d V)) :
    ∀ (ds : (Fin d → Int) → V), ∃ ds', patches.foldlM (writePatch n ng sl) ds = some ds' ∧
      ∀ o : Fin d → Int, (∀ a, 0 ≤ o a ∧ o a < (sl a).count) →
        ((∀ p ∈ patches, Owns n p.ipatch (cellOf sl o) → (p.arr fun a => cellOf sl o a - p.ipatch a * n a) = G (cellOf sl o)) →
          ((∃ p ∈ patches, Owns n p.ipatch (cellOf sl o)) → ds' o = G (cellOf sl o)) ∧
          ((∀ p ∈ patches, ¬ Owns n p.ipatch (cellOf sl o)) → ds' o = ds o)) := by
  induction patches with
  | nil =>
    intro ds
    refine ⟨ds, rfl, fun o _ _ => ⟨?_, fun _ => rfl⟩⟩
    rintro ⟨p, hp, _⟩; cases hp
  | cons p ps ih =>
    intro ds
    obtain ⟨d1, h1, hs1⟩ := writePatch_spec (ng := ng) (n := n) hsl ds p
    obtain ⟨d2, h2, hs2⟩ := ih d1
    refine ⟨d2, ?_, fun o ho hG => ?_⟩
    · rw [List.foldlM_cons, h1]; exact h2
    · obtain ⟨ha, hb⟩ := hs2 o ho fun q hq => hG q (List.mem_cons_of_mem _ hq)
      constructor
      · rintro ⟨q, hq, hown⟩
        by_cases hex : ∃ r ∈ ps, Owns n r.ipatch (cellOf sl o)
        · exact ha hex
        · rw [hb fun r hr hor => hex ⟨r, hr, hor⟩]
          rcases List.mem_cons.mp hq with rfl | hq
          · rw [(hs1 o ho).1 hown]
            exact hG q List.mem_cons_self hown
          · exact absurd ⟨q, hq, hown⟩ hex
      · intro hno
        rw [hb fun r hr => hno r (List.mem_cons_of_mem _ hr), (hs1 o ho).2 (hno p List.mem_cons_self)]

/-! ### particles -/

theorem apply_eq (dset : List V) (w : Write V) (h : w.start + w.data.length ≤ dset.length) :
    (w.apply dset).length = dset.length ∧ ∀ i, (w.apply dset)[i]? =
      if w.start ≤ i ∧ i < w.start + w.data.length then w.data[i - w.start]? else dset[i]? := by
  unfold Write.apply
  constructor
  · simp only [List.length_append, List.length_take, List.length_drop]; omega
  · intro i
    have ht : (dset.take w.start).length = w.start := by rw [List.length_take]; omega
    by_cases h1 : i < w.start
    · rw [if_neg (by omega), List.append_assoc, List.getElem?_append_left (by rw [ht]; exact h1), List.getElem?_take_of_lt h1]
    · rw [List.append_assoc, List.getElem?_append_right (by rw [ht]; omega), ht]
      by_cases h2 : i < w.start + w.data.length
      · rw [if_pos (by omega), List.getElem?_append_left (by omega)]
      · rw [if_neg (by omega), List.getElem?_append_right (by omega), List.getElem?_drop]
        congr 1
        omega

/-- a set of writes that fit a target list, in any order -/
theorem foldl_writes (target : List V) (ws : List (Write V)) :
    ∀ (ds : List V), ds.length = target.length →
      (∀ w ∈ ws, w.start + w.data.length ≤ target.length ∧ ∀ i, i < w.data.length → w.data[i]? = target[w.start + i]?) →
      (ws.foldl Write.apply ds).length = target.length ∧
      ∀ i, ((∃ w ∈ ws, w.start ≤ i ∧ i < w.start + w.data.length) ∨ ds[i]? = target[i]?) →
        (ws.foldl Write.apply ds)[i]? = target[i]? := by
  induction ws with
  | nil =>
    intro ds hl _
    refine ⟨hl, ?_⟩
    rintro i (⟨w, hw, _⟩ | h)
    · cases hw
    · exact h
  | cons w ws ih =>
    intro ds hl hfit
    have hw := hfit w List.mem_cons_self
    obtain ⟨hl', hget⟩ := apply_eq ds w (by rw [hl]; exact hw.1)
    obtain ⟨hlen, hall⟩ := ih (w.apply ds) (by rw [hl', hl]) fun v hv => hfit v (List.mem_cons_of_mem _ hv)
    refine ⟨hlen, ?_⟩
    intro i hi
    rw [List.foldl_cons]
    apply hall
    by_cases hc : w.start ≤ i ∧ i < w.start + w.data.length
    · right
      rw [hget, if_pos hc, hw.2 (i - w.start) (by omega)]
      congr 1
      omega
    · rcases hi with ⟨v, hv, hvi⟩ | h
      · rcases List.mem_cons.mp hv with rfl | hv
        · exact absurd hvi hc
        · exact Or.inl ⟨v, hv, hvi⟩
      · right
        rw [hget, if_neg hc]
        exact h

theorem rankWrites_fit (pre post : List V) (patches : List (List V)) :
    ∀ (start : Nat), start = pre.length → 
      (∀ w ∈ rankWrites start patches, w.start + w.data.length ≤ (pre ++ patches.flatten ++ post).length ∧
        ∀ i, i < w.data.length → w.data[i]? = (pre ++ patches.flatten ++ post)[w.start + i]?) ∧
      (∀ i, start ≤ i → i < start + patches.flatten.length → ∃ w ∈ rankWrites start patches, w.start ≤ i ∧ i < w.start + w.data.length) := by
  induction patches generalizing pre with
  | nil =>
    intro start _
    refine ⟨fun w hw => absurd hw (by simp [rankWrites]), fun i h1 h2 => ?_⟩
    simp at h2; omega
  | cons l ls ih =>
    intro start hs
    have hcat : pre ++ (l :: ls).flatten ++ post = (pre ++ l) ++ ls.flatten ++ post := by simp
    obtain ⟨h1, h2⟩ := ih (pre ++ l) (start + l.length) (by simp [hs])
    rw [hcat]
    constructor
    · intro w hw
      rcases List.mem_cons.mp hw with rfl | hw
      · refine ⟨by simp; omega, fun i hi => ?_⟩
        dsimp only at hi ⊢
        rw [List.append_assoc, List.append_assoc, List.getElem?_append_right (by omega), hs,
          List.getElem?_append_left (by omega)]
        congr 1
        omega
      · exact h1 w hw
    · intro i hi1 hi2
      rw [List.flatten_cons, List.length_append] at hi2
      by_cases hc : i < start + l.length
      · exact ⟨⟨start, l⟩, List.mem_cons_self, hi1, hc⟩
      · obtain ⟨w, hw, hb⟩ := h2 i (by omega) (by omega)
        exact ⟨w, List.mem_cons_of_mem _ hw, hb⟩

theorem flatten_split (ranks : List (List (List V))) (r : Nat) (hr : r < ranks.length) :
    ranks.flatten.flatten = (ranks.take r).flatten.flatten ++ (ranks.getD r []).flatten ++ (ranks.drop (r + 1)).flatten.flatten := by
  have h : ranks = ranks.take r ++ ranks.getD r [] :: ranks.drop (r + 1) := by
    rw [List.getD_eq_getElem _ _ hr, ← List.drop_eq_getElem_cons hr, List.take_append_drop]
  conv_lhs => rw [h]
  simp

theorem starts_eq (ranks : List (List (List V))) :
    ((ranks.map fun patches => (patches.map List.length).sum).sum) = ranks.flatten.flatten.length := by
  induction ranks with
  | nil => rfl
  | cons a l ih => simp [ih]

end Verif.Output
