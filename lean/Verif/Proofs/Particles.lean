import Verif.Model.Particles
import Mathlib.Data.List.Perm.Basic
import Mathlib.Data.List.Nodup
import Mathlib.Data.List.Range
import Mathlib.Data.Rat.Floor
import Mathlib.Tactic.Linarith
import Mathlib.Tactic.Ring

namespace Verif.Particles

theorem encode_eq {r k i : Nat} (hk : k < 2 ^ 18) (hi : i < 2 ^ 32) :
    (r <<< 50) ||| (k <<< 32) ||| i = r * 2 ^ 50 + k * 2 ^ 32 + i := by
  have h1 : (r <<< 50) ||| (k <<< 32) = ((r <<< 18) + k) <<< 32 := by
    rw [Nat.shiftLeft_add_eq_or_of_lt hk, Nat.shiftLeft_or_distrib, ← Nat.shiftLeft_add]
  rw [h1, ← Nat.shiftLeft_add_eq_or_of_lt hi]
  simp only [Nat.shiftLeft_eq]
  ring

theorem pyStart_neg {len n : Nat} (hn : 0 < n) (h : n ≤ len) :
    pyStart len (-(n : Int)) = len - n := by
  unfold pyStart
  rw [if_pos (by omega)]
  omega

theorem npResize_length {β} (z : β) (l : List β) (m : Nat) : (npResize z l m).length = m := by
  simp [npResize]; omega

theorem npResize_take {β} (z : β) (l : List β) {m : Nat} (h : m ≤ l.length) :
    npResize z l m = l.take m := by
  simp [npResize, Nat.sub_eq_zero_of_le h]

/-- resize by `n > 0` extra elements followed by overwriting the last `n` -/
theorem setFrom_resize {β} (z v : β) (l : List β) {n : Nat} (hn : 0 < n) :
    setFrom (npResize z l (n + l.length)) (-(n : Int)) v = l ++ List.replicate n v := by
  unfold setFrom
  rw [npResize_length, pyStart_neg hn (by omega)]
  have : n + l.length - n = l.length := by omega
  rw [this]
  congr 1
  · simp [npResize]
  · congr 1; omega

theorem setFrom_append {β} (v : β) (l r : List β) {n : Nat} (hn : 0 < n) (hr : r.length = n) :
    setFrom (l ++ r) (-(n : Int)) v = l ++ List.replicate n v := by
  unfold setFrom
  rw [List.length_append, hr, pyStart_neg hn (by omega)]
  have : l.length + n - n = l.length := by omega
  rw [this]
  congr 1
  · simp
  · congr 1; omega

theorem setFromArr_append {β} (l r vs : List β) {n : Nat} (hn : 0 < n) (hr : r.length = n)
    (hv : vs.length = n) :
    setFromArr (l ++ r) (-(n : Int)) vs = .ok (l ++ vs) := by
  unfold setFromArr
  rw [List.length_append, hr, pyStart_neg hn (by omega)]
  have : l.length + n - n = l.length := by omega
  rw [this, if_pos (by omega)]
  simp

theorem generateIds_ok {p : Parts} {s c : Nat} (h : s + c ≤ 2 ^ 32) :
    generateIds p s c =
      .ok ((List.range' s c).map fun i => (p.rank <<< 50) ||| (p.ipatch <<< 32) ||| i) := by
  unfold generateIds; rw [if_pos h]

theorem generateIds_err {p : Parts} {s c : Nat} (h : ¬ s + c ≤ 2 ^ 32) :
    generateIds p s c = .error .assertion := by
  unfold generateIds; rw [if_neg h]

/-- all arrays have length `npart` -/
def Consistent (p : Parts) : Prop :=
  (∀ a ∈ p.names, (p.arr a).length = p.npart) ∧ p.ids.length = p.npart ∧
    p.dead.length = p.npart ∧ "w" ∈ p.names ∧ "inv_gamma" ∈ p.names

/-- closed form of `extend` for a consistent container -/
theorem extend_eq {p : Parts} (hp : Consistent p) {n : Nat} (hn : 0 < n)
    (hc : p.created + n ≤ 2 ^ 32) :
    extend p n = .ok { p with
      arr := fun a => if a = "w" then p.arr a ++ List.replicate n (.val 0)
                      else if a ∈ p.names then p.arr a ++ List.replicate n .nan else p.arr a
      ids := p.ids ++ (List.range' p.created n).map
              fun i => (p.rank <<< 50) ||| (p.ipatch <<< 32) ||| i
      created := p.created + n
      dead := p.dead ++ List.replicate n true
      npart := n + p.npart
      extended := true } := by
  obtain ⟨ha, hi, hd, hw, hg⟩ := hp
  unfold extend
  rw [if_neg (by omega)]
  have hm : ((n : Int) + p.npart).toNat = n + p.npart := by omega
  simp only [hm, Int.toNat_natCast]
  rw [generateIds_ok hc]
  have hids : setFrom (npResize 0 p.ids (n + p.npart)) (-(n : Int)) nanBits
      = p.ids ++ List.replicate n nanBits := by
    rw [← hi]; exact setFrom_resize _ _ _ hn
  have hdead : setFrom (npResize false p.dead (n + p.npart)) (-(n : Int)) true
      = p.dead ++ List.replicate n true := by
    rw [← hd]; exact setFrom_resize _ _ _ hn
  have harr : ∀ a ∈ p.names, setFrom (npResize (.val 0) (p.arr a) (n + p.npart)) (-(n : Int)) .nan
      = p.arr a ++ List.replicate n .nan := by
    intro a h; rw [← ha a h]; exact setFrom_resize _ _ _ hn
  rw [hids, hdead]
  simp only [Bind.bind, Except.bind, pure, Except.pure]
  rw [setFromArr_append _ _ _ hn (by simp) (by simp)]
  simp only [Except.ok.injEq]
  congr 1
  funext a
  by_cases h : a = "w"
  · subst h
    simp only [hw, if_true]
    rw [harr _ hw, setFrom_append _ _ _ hn (by simp)]
  · simp only [h, if_false]
    split
    · exact harr a ‹_›
    · rfl

theorem extend_err {p : Parts} {n : Nat} (hn : 0 < n)
    (hc : ¬ p.created + n ≤ 2 ^ 32) : extend p n = .error .assertion := by
  unfold extend
  rw [if_neg (by omega)]
  simp only [Int.toNat_natCast]
  rw [generateIds_err hc]
  rfl

theorem consistent_extend {p p' : Parts} (hp : Consistent p) {n : Int} (h : extend p n = .ok p') :
    Consistent p' := by
  by_cases hn : n ≤ 0
  · unfold extend at h; rw [if_pos hn] at h; cases h; exact hp
  · obtain ⟨m, rfl⟩ : ∃ m : Nat, n = m := ⟨n.toNat, by omega⟩
    by_cases hc : p.created + m ≤ 2 ^ 32
    · rw [extend_eq hp (by omega) hc] at h
      cases h
      obtain ⟨ha, hi, hd, hw, hg⟩ := hp
      refine ⟨fun a h => ?_, ?_, ?_, hw, hg⟩
      · have h' := ha a h
        by_cases e : a = "w" <;> simp [e, h] <;> first | (subst e; omega) | omega
      · simp; omega
      · simp; omega
    · rw [extend_err (by omega) hc] at h; cases h

theorem gather_length {β} [Inhabited β] (l : List β) (idx) : (gather l idx).length = idx.length := by
  simp [gather]

theorem le_pruneSize (n : Nat) {extra : Rat} (he : 0 ≤ extra) : n ≤ pruneSize n extra := by
  unfold pruneSize
  have h : (n : Int) ≤ ((n : Rat) * (1 + extra)).floor := by
    rw [Rat.le_floor_iff]
    have : (0 : Rat) ≤ n := by exact_mod_cast Nat.zero_le n
    have := mul_nonneg this he
    push_cast
    linarith
  omega

/-- What any argsort of a boolean array returns. -/
def IsArgsort (dead : List Bool) (idx : List Nat) : Prop :=
  idx.Perm (List.range dead.length) ∧
  idx.Pairwise fun i j => dead.getD i false = true → dead.getD j false = true

theorem sorted_split (f : Nat → Bool) :
    ∀ (idx : List Nat), (idx.Pairwise fun i j => f i = true → f j = true) →
      ∀ m, (idx.filter fun i => !f i).length ≤ m →
      (idx.take m).filter (fun i => !f i) = idx.filter (fun i => !f i)
  | [], _, m, _ => by simp
  | i :: t, h, m, hm => by
    cases h with
    | cons h1 h2 =>
    by_cases e : f i = true
    · have hall : ∀ j ∈ i :: t, f j = true := by
        intro j hj
        rcases List.mem_cons.1 hj with rfl | hj
        · exact e
        · exact h1 j hj e
      have : (i :: t).filter (fun i => !f i) = [] := by
        rw [List.filter_eq_nil_iff]; intro a ha; simp [hall a ha]
      rw [this]
      rw [List.filter_eq_nil_iff]; intro a ha; simp [hall a (List.mem_of_mem_take ha)]
    · simp only [Bool.not_eq_true] at e
      rw [List.filter_cons_of_pos (by simp [e])] at hm ⊢
      obtain ⟨m, rfl⟩ : ∃ k, m = k + 1 := ⟨m - 1, by simp at hm; omega⟩
      rw [List.take_succ_cons, List.filter_cons_of_pos (by simp [e]),
        sorted_split f t h2 m (by simp at hm; omega)]

theorem take_eq_map_range (idx : List Nat) {m : Nat} (h : m ≤ idx.length) :
    idx.take m = (List.range m).map fun j => idx.getD j 0 := by
  apply List.ext_getElem
  · simp [h]
  · intro j h1 h2
    simp at h1
    simp [List.getD_eq_getElem?_getD, List.getElem?_eq_getElem h1.2]

theorem getElem?_resize_gather {β} [Inhabited β] (z : β) (l : List β) (idx : List Nat) {m j : Nat}
    (hm : m ≤ idx.length) (hj : j < m) (hr : ∀ i ∈ idx, i < l.length) :
    (npResize z (gather l idx) m)[j]? = l[idx.getD j 0]? := by
  rw [npResize_take _ _ (by rw [gather_length]; exact hm)]
  have hj' : j < idx.length := by omega
  have := hr _ (List.getElem_mem hj')
  rw [List.getElem?_take_of_lt hj]
  simp [gather, List.getD_eq_getElem?_getD, hj', this]

end Verif.Particles
