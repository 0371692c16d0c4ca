import Verif.Model.Message
import Mathlib.Algebra.BigOperators.Group.Finset.Basic
import Mathlib.Algebra.BigOperators.Group.Finset.Piecewise
import Mathlib.Algebra.Order.BigOperators.Group.Finset
import Mathlib.Data.List.Nodup
import Mathlib.Data.List.Forall2
/-! A job whose sends and receives match one to one cannot deadlock and delivers every message. -/
namespace Verif.Message

/-- sends and receives match one to one -/
structure Matched {M : Type} (R : Nat) (sends : Nat → List (Nat × Nat × M))
    (recvs : Nat → List (Nat × Nat)) : Prop where
  sendNodup : ∀ r, r < R → ((sends r).map fun x => (x.1, x.2.1)).Nodup
  recvNodup : ∀ r, r < R → (recvs r).Nodup
  sendHasRecv : ∀ s, s < R → ∀ d t m, (d, t, m) ∈ sends s → d < R ∧ (s, t) ∈ recvs d
  recvHasSend : ∀ d, d < R → ∀ s t, (s, t) ∈ recvs d → s < R ∧ ∃ m, (d, t, m) ∈ sends s

section
variable {M : Type} {R : Nat} {sends : Nat → List (Nat × Nat × M)} {recvs : Nat → List (Nat × Nat)}

theorem program_length (S : List (Nat × Nat × M)) (V : List (Nat × Nat)) :
    (program S V).length = S.length + V.length + 1 := by
  simp [program]; omega

theorem program_get_send {S : List (Nat × Nat × M)} {V : List (Nat × Nat)} {p : Nat} (hp : p < S.length) :
    (program S V)[p]? = some (.send S[p].1 S[p].2.1 S[p].2.2) := by
  unfold program
  rw [List.getElem?_append_left (by simpa using hp)]
  simp [hp]

theorem program_get_recv {S : List (Nat × Nat × M)} {V : List (Nat × Nat)} {p : Nat}
    (hp : S.length ≤ p) (hq : p - S.length < V.length) :
    (program S V)[p]? = some (.recv V[p - S.length].1 V[p - S.length].2) := by
  unfold program
  rw [List.getElem?_append_right (by simpa using hp), List.getElem?_append_left (by simpa using hq)]
  simp [hq]

theorem program_get_wait {S : List (Nat × Nat × M)} {V : List (Nat × Nat)} {p : Nat}
    (hp : p = S.length + V.length) : (program S V)[p]? = some .waitall := by
  unfold program
  rw [List.getElem?_append_right (by simp; omega), List.getElem?_append_right (by simp; omega)]
  simp [hp]

theorem drop_head {S : List (Nat × Nat × M)} {V : List (Nat × Nat)} {p : Nat} {o : Op M}
    {rest : List (Op M)} (h : (program S V).drop p = o :: rest) :
    p < S.length + V.length + 1 ∧ (program S V)[p]? = some o ∧ rest = (program S V).drop (p + 1) := by
  have hlt : p < (program S V).length := by
    by_contra hc
    rw [List.drop_eq_nil_of_le (by omega)] at h; simp at h
  rw [List.drop_eq_getElem_cons hlt, List.cons.injEq] at h
  refine ⟨by rw [program_length] at hlt; exact hlt, ?_, h.2.symm⟩
  rw [List.getElem?_eq_getElem hlt, h.1]

theorem drop_send {S : List (Nat × Nat × M)} {V : List (Nat × Nat)} {p d t : Nat} {m : M}
    {rest : List (Op M)} (h : (program S V).drop p = .send d t m :: rest) :
    ∃ hp : p < S.length, S[p] = (d, t, m) ∧ rest = (program S V).drop (p + 1) := by
  obtain ⟨hlt, hx, hr⟩ := drop_head h
  by_cases hp : p < S.length
  · rw [program_get_send hp] at hx
    simp only [Option.some.injEq, Op.send.injEq] at hx
    refine ⟨hp, ?_, hr⟩
    rw [← hx.1, ← hx.2.1, ← hx.2.2]
  · exfalso
    by_cases hq : p - S.length < V.length
    · rw [program_get_recv (by omega) hq] at hx; simp at hx
    · rw [program_get_wait (by omega)] at hx; simp at hx

theorem drop_recv {S : List (Nat × Nat × M)} {V : List (Nat × Nat)} {p s t : Nat}
    {rest : List (Op M)} (h : (program S V).drop p = .recv s t :: rest) :
    S.length ≤ p ∧ (∃ hq : p - S.length < V.length, V[p - S.length] = (s, t)) ∧
      rest = (program S V).drop (p + 1) := by
  obtain ⟨hlt, hx, hr⟩ := drop_head h
  by_cases hp : p < S.length
  · rw [program_get_send hp] at hx; simp at hx
  · by_cases hq : p - S.length < V.length
    · rw [program_get_recv (by omega) hq] at hx
      simp only [Option.some.injEq, Op.recv.injEq] at hx
      refine ⟨by omega, ⟨hq, ?_⟩, hr⟩
      rw [← hx.1, ← hx.2]
    · rw [program_get_wait (by omega)] at hx; simp at hx

theorem drop_wait {S : List (Nat × Nat × M)} {V : List (Nat × Nat)} {p : Nat}
    {rest : List (Op M)} (h : (program S V).drop p = .waitall :: rest) :
    S.length + V.length = p ∧ rest = (program S V).drop (p + 1) := by
  obtain ⟨hlt, hx, hr⟩ := drop_head h
  by_cases hp : p < S.length
  · rw [program_get_send hp] at hx; simp at hx
  · by_cases hq : p - S.length < V.length
    · rw [program_get_recv (by omega) hq] at hx; simp at hx
    · exact ⟨by omega, hr⟩

theorem drop_of_get {S : List (Nat × Nat × M)} {V : List (Nat × Nat)} {p : Nat} {o : Op M}
    (h : (program S V)[p]? = some o) : (program S V).drop p = o :: (program S V).drop (p + 1) := by
  obtain ⟨hlt, e⟩ := List.getElem?_eq_some_iff.mp h
  rw [List.drop_eq_getElem_cons hlt, e]

/-- the receives rank `r` has completed when its program counter is `p` -/
def doneRecvs (sends : Nat → List (Nat × Nat × M)) (recvs : Nat → List (Nat × Nat)) (r p : Nat) :
    List (Nat × Nat) := (recvs r).take (p - (sends r).length)

/-- invariant of all executions after `k` steps; `pos r` is the program counter of rank `r` -/
structure Inv (R : Nat) (sends : Nat → List (Nat × Nat × M)) (recvs : Nat → List (Nat × Nat))
    (k : Nat) (s : Net M) (pos : Nat → Nat) : Prop where
  prog : ∀ r, r < R → s.prog r = (program (sends r) (recvs r)).drop (pos r)
  le : ∀ r, r < R → pos r ≤ (sends r).length + (recvs r).length + 1
  other : ∀ r, ¬ r < R → s.prog r = []
  count : k = ∑ r ∈ Finset.range R, pos r
  nodup : s.flight.Nodup
  mem : ∀ x : Msg M, x ∈ s.flight ↔ x.src < R ∧
    (x.dst, x.tag, x.data) ∈ (sends x.src).take (pos x.src) ∧
    (x.src, x.tag) ∉ doneRecvs sends recvs x.dst (pos x.dst)
  got : ∀ r, r < R → List.Forall₂ (fun st m => (r, st.2, m) ∈ (sends st.1).take (pos st.1))
    (doneRecvs sends recvs r (pos r)) (s.got r)

theorem inv_start : Inv R sends recvs 0 (start R sends recvs) (fun _ => 0) := by
  refine ⟨?_, ?_, ?_, ?_, ?_, ?_, ?_⟩
  · intro r hr; simp [start, hr]
  · intro r _; omega
  · intro r hr; simp [start, hr]
  · simp
  · simp [start]
  · intro x; simp [start]
  · intro r _; simp [start, doneRecvs]

theorem key_unique (hM : Matched R sends recvs) {s d t : Nat} (hs : s < R) {m m' : M}
    (h : (d, t, m) ∈ sends s) (h' : (d, t, m') ∈ sends s) : m = m' := by
  have := List.inj_on_of_nodup_map (hM.sendNodup s hs) h h' rfl
  simpa using this

theorem key_not_before (hM : Matched R sends recvs) {s p d t : Nat} (hs : s < R) {m m' : M}
    (hp : p < (sends s).length) (e : (sends s)[p] = (d, t, m)) :
    (d, t, m') ∉ (sends s).take p := by
  intro h
  have hnd := hM.sendNodup s hs
  obtain ⟨q, hq, eq⟩ := List.mem_iff_getElem.mp h
  have hq' : q < p := by rw [List.length_take] at hq; omega
  rw [List.getElem_take] at eq
  have := (List.Nodup.getElem_inj_iff hnd (i := q) (j := p)
    (hi := by rw [List.length_map]; omega) (hj := by rw [List.length_map]; omega)).mp (by
      rw [List.getElem_map, List.getElem_map, eq, e])
  omega

theorem inv_step (hM : Matched R sends recvs) {k : Nat} {s t : Net M} {pos : Nat → Nat}
    (hI : Inv R sends recvs k s pos) (hs : Step s t) :
    ∃ pos', Inv R sends recvs (k + 1) t pos' := by
  have hcount : ∀ r, r < R → k + 1 = ∑ q ∈ Finset.range R, setAt pos r (pos r + 1) q := by
    intro r hr
    rw [hI.count]
    have hmem := Finset.mem_range.mpr hr
    rw [← Finset.add_sum_erase _ _ hmem, ← Finset.add_sum_erase (Finset.range R) (setAt pos r (pos r + 1)) hmem]
    have : ∑ x ∈ (Finset.range R).erase r, setAt pos r (pos r + 1) x = ∑ x ∈ (Finset.range R).erase r, pos x := by
      refine Finset.sum_congr rfl (fun x hx => ?_)
      exact if_neg (Finset.ne_of_mem_erase hx)
    rw [this]
    have : setAt pos r (pos r + 1) r = pos r + 1 := if_pos rfl
    rw [this]; omega
  have hpos' : ∀ r, setAt pos r (pos r + 1) r = pos r + 1 := fun r => if_pos rfl
  have hne' : ∀ r q, q ≠ r → setAt pos r (pos r + 1) q = pos q := fun r q h => if_neg h
  cases hs with
  | send r d tg m rest h =>
    have hr : r < R := by by_contra hc; rw [hI.other r hc] at h; simp at h
    rw [hI.prog r hr] at h
    obtain ⟨hp, he, hrest⟩ := drop_send h
    have htake : (sends r).take (pos r + 1) = (sends r).take (pos r) ++ [(d, tg, m)] := by
      rw [List.take_add_one, List.getElem?_eq_getElem hp, he]; rfl
    have hdone : ∀ q, doneRecvs sends recvs q (setAt pos r (pos r + 1) q) = doneRecvs sends recvs q (pos q) := by
      intro q
      by_cases e : q = r
      · subst e; rw [hpos']; unfold doneRecvs
        have h1 : pos q + 1 - (sends q).length = 0 := by omega
        have h2 : pos q - (sends q).length = 0 := by omega
        rw [h1, h2]
      · rw [hne' r q e]
    have hfresh : (r, tg) ∉ doneRecvs sends recvs d (pos d) := by
      intro hin
      have hd := (hM.sendHasRecv r hr d tg m (he ▸ List.getElem_mem hp)).1
      obtain ⟨i, hi, ei⟩ := List.mem_iff_getElem.mp hin
      have hf := hI.got d hd
      have := List.Forall₂.get hf hi (by rw [← hf.length_eq]; exact hi)
      simp only [List.get_eq_getElem, ei] at this
      exact key_not_before hM hr hp he this
    refine ⟨setAt pos r (pos r + 1), ?_, ?_, ?_, hcount r hr, ?_, ?_, ?_⟩
    · intro q hq
      by_cases e : q = r
      · subst e; rw [hpos']; exact (if_pos rfl).trans hrest
      · rw [hne' r q e]; exact (if_neg e).trans (hI.prog q hq)
    · intro q hq
      by_cases e : q = r
      · subst e; rw [hpos']; omega
      · rw [hne' r q e]; exact hI.le q hq
    · intro q hq
      exact (if_neg (fun e : q = r => hq (by rw [e]; exact hr))).trans (hI.other q hq)
    · refine List.nodup_append.mpr ⟨hI.nodup, by simp, ?_⟩
      intro x hx y hy e
      rw [List.mem_singleton] at hy
      rw [e, hy] at hx
      exact key_not_before hM hr hp he ((hI.mem _).mp hx).2.1
    · intro x
      rw [List.mem_append, List.mem_singleton, hI.mem x, hdone]
      by_cases e : x.src = r
      · rw [e, hpos', htake, List.mem_append, List.mem_singleton]
        constructor
        · rintro (⟨_, h2, h3⟩ | rfl)
          · exact ⟨hr, Or.inl h2, h3⟩
          · exact ⟨hr, Or.inr rfl, hfresh⟩
        · rintro ⟨_, h2 | h2, h3⟩
          · exact Or.inl ⟨hr, h2, h3⟩
          · right
            obtain ⟨a, b, c, dd⟩ := x
            simp only [Prod.mk.injEq] at h2 e
            obtain ⟨rfl, rfl, rfl⟩ := h2
            subst e; rfl
      · rw [hne' r _ e]
        constructor
        · rintro (h1 | h1)
          · exact h1
          · exact absurd (by rw [h1]) e
        · intro h1; exact Or.inl h1
    · intro q hq
      rw [hdone]
      refine (hI.got q hq).imp (fun st m' hm => ?_)
      by_cases e : st.1 = r
      · rw [e] at hm ⊢; rw [hpos', htake]; exact List.mem_append_left _ hm
      · rw [hne' r _ e]; exact hm
  | recv r src tg m rest pre post h hf hfirst =>
    have hr : r < R := by by_contra hc; rw [hI.other r hc] at h; simp at h
    rw [hI.prog r hr] at h
    obtain ⟨hle, ⟨hq, he⟩, hrest⟩ := drop_recv h
    have hx : (⟨src, r, tg, m⟩ : Msg M) ∈ s.flight := by rw [hf]; simp
    have hx' := (hI.mem _).mp hx
    simp only at hx'
    have hdoner : doneRecvs sends recvs r (pos r + 1) = doneRecvs sends recvs r (pos r) ++ [(src, tg)] := by
      unfold doneRecvs
      have : pos r + 1 - (sends r).length = pos r - (sends r).length + 1 := by omega
      rw [this, List.take_add_one, List.getElem?_eq_getElem hq, he]; rfl
    have htake : ∀ q, (sends q).take (setAt pos r (pos r + 1) q) = (sends q).take (pos q) := by
      intro q
      by_cases e : q = r
      · subst e; rw [hpos', List.take_of_length_le (by omega), List.take_of_length_le hle]
      · rw [hne' r q e]
    refine ⟨setAt pos r (pos r + 1), ?_, ?_, ?_, hcount r hr, ?_, ?_, ?_⟩
    · intro q hq'
      by_cases e : q = r
      · subst e; rw [hpos']; exact (if_pos rfl).trans hrest
      · rw [hne' r q e]; exact (if_neg e).trans (hI.prog q hq')
    · intro q hq'
      by_cases e : q = r
      · subst e; rw [hpos']; omega
      · rw [hne' r q e]; exact hI.le q hq'
    · intro q hq'
      exact (if_neg (fun e : q = r => hq' (by rw [e]; exact hr))).trans (hI.other q hq')
    · have := hI.nodup
      rw [hf] at this
      exact (List.nodup_middle.mp this).of_cons
    · intro y
      have hnd := hI.nodup
      rw [hf] at hnd
      have hnot : (⟨src, r, tg, m⟩ : Msg M) ∉ pre ++ post := (List.nodup_cons.mp (List.nodup_middle.mp hnd)).1
      have hmem : y ∈ pre ++ post ↔ y ∈ s.flight ∧ y ≠ ⟨src, r, tg, m⟩ := by
        rw [hf, List.mem_append, List.mem_append, List.mem_cons]
        constructor
        · intro h1
          refine ⟨?_, fun e => hnot (e ▸ List.mem_append.mpr h1)⟩
          rcases h1 with h1 | h1
          · exact Or.inl h1
          · exact Or.inr (Or.inr h1)
        · rintro ⟨h1 | h1 | h1, h2⟩
          · exact Or.inl h1
          · exact absurd h1 h2
          · exact Or.inr h1
      show y ∈ pre ++ post ↔ _
      rw [hmem, htake, hI.mem y]
      by_cases e : y.dst = r
      · have hd : doneRecvs sends recvs y.dst (setAt pos r (pos r + 1) y.dst)
            = doneRecvs sends recvs y.dst (pos y.dst) ++ [(src, tg)] := by
          rw [e, hpos', hdoner]
        rw [hd, List.mem_append, List.mem_singleton]
        constructor
        · rintro ⟨⟨h1, h2, h3⟩, h4⟩
          refine ⟨h1, h2, ?_⟩
          rintro (h5 | h5)
          · exact h3 h5
          · obtain ⟨a, b, c, dd⟩ := y
            simp only [Prod.mk.injEq] at h5 e h2
            obtain ⟨rfl, rfl⟩ := h5
            subst e
            have : dd = m := key_unique hM h1 (List.mem_of_mem_take h2) (List.mem_of_mem_take hx'.2.1)
            exact h4 (by rw [this])
        · rintro ⟨h1, h2, h3⟩
          refine ⟨⟨h1, h2, fun h4 => h3 (Or.inl h4)⟩, ?_⟩
          intro h5
          exact h3 (Or.inr (by rw [h5]))
      · rw [hne' r _ e]
        constructor
        · rintro ⟨h1, _⟩; exact h1
        · intro h1; exact ⟨h1, fun h2 => e (by rw [h2])⟩
    · intro q hq'
      by_cases e : q = r
      · subst e
        rw [hpos', hdoner]
        have hgot : setAt s.got q (s.got q ++ [m]) q = s.got q ++ [m] := if_pos rfl
        show List.Forall₂ _ _ (setAt s.got q (s.got q ++ [m]) q)
        rw [hgot]
        refine List.rel_append ?_ ?_
        · refine (hI.got q hq').imp (fun st m' hm => ?_)
          rw [htake]; exact hm
        · refine List.Forall₂.cons ?_ List.Forall₂.nil
          rw [htake]
          exact hx'.2.1
      · rw [hne' r q e]
        show List.Forall₂ _ _ (setAt s.got r (s.got r ++ [m]) q)
        rw [show setAt s.got r (s.got r ++ [m]) q = s.got q from if_neg e]
        refine (hI.got q hq').imp (fun st m' hm => ?_)
        rw [htake]; exact hm
  | waitall r rest h hf =>
    have hr : r < R := by by_contra hc; rw [hI.other r hc] at h; simp at h
    rw [hI.prog r hr] at h
    obtain ⟨hle, hrest⟩ := drop_wait h
    have htake : ∀ q, (sends q).take (setAt pos r (pos r + 1) q) = (sends q).take (pos q) := by
      intro q
      by_cases e : q = r
      · subst e; rw [hpos', List.take_of_length_le (by omega), List.take_of_length_le (by omega)]
      · rw [hne' r q e]
    have hdone : ∀ q, doneRecvs sends recvs q (setAt pos r (pos r + 1) q) = doneRecvs sends recvs q (pos q) := by
      intro q
      by_cases e : q = r
      · subst e; rw [hpos']; unfold doneRecvs
        rw [List.take_of_length_le (by omega), List.take_of_length_le (by omega)]
      · rw [hne' r q e]
    refine ⟨setAt pos r (pos r + 1), ?_, ?_, ?_, hcount r hr, hI.nodup, ?_, ?_⟩
    · intro q hq'
      by_cases e : q = r
      · subst e; rw [hpos']; exact (if_pos rfl).trans hrest
      · rw [hne' r q e]; exact (if_neg e).trans (hI.prog q hq')
    · intro q hq'
      by_cases e : q = r
      · subst e; rw [hpos']; omega
      · rw [hne' r q e]; exact hI.le q hq'
    · intro q hq'
      exact (if_neg (fun e : q = r => hq' (by rw [e]; exact hr))).trans (hI.other q hq')
    · intro x; rw [htake, hdone]; exact hI.mem x
    · intro q hq'
      rw [hdone]
      refine (hI.got q hq').imp (fun st m' hm => ?_)
      rw [htake]; exact hm

theorem inv_steps (hM : Matched R sends recvs) {k : Nat} {s0 s : Net M} (hs : Steps k s0 s) :
    s0 = start R sends recvs → ∃ pos, Inv R sends recvs k s pos := by
  induction hs with
  | zero s => rintro rfl; exact ⟨_, inv_start⟩
  | succ h h' ih =>
    intro e
    obtain ⟨pos, hI⟩ := ih e
    exact inv_step hM hI h'

/-- the first message of a channel in a list that contains one -/
theorem first_match (l : List (Msg M)) (s r t : Nat) (h : ∃ x ∈ l, x.src = s ∧ x.dst = r ∧ x.tag = t) :
    ∃ pre m post, l = pre ++ ⟨s, r, t, m⟩ :: post ∧
      ∀ x ∈ pre, ¬ (x.src = s ∧ x.dst = r ∧ x.tag = t) := by
  induction l with
  | nil => obtain ⟨x, hx, _⟩ := h; simp at hx
  | cons a l ih =>
    by_cases ha : a.src = s ∧ a.dst = r ∧ a.tag = t
    · refine ⟨[], a.data, l, ?_, by simp⟩
      obtain ⟨h1, h2, h3⟩ := ha
      rw [← h1, ← h2, ← h3]; rfl
    · obtain ⟨x, hx, hx'⟩ := h
      have hxl : x ∈ l := by
        rcases List.mem_cons.mp hx with e | e
        · exact absurd (e ▸ hx') ha
        · exact e
      obtain ⟨pre, m, post, e, hp⟩ := ih ⟨x, hxl, hx'⟩
      refine ⟨a :: pre, m, post, by rw [e]; rfl, ?_⟩
      intro y hy
      rcases List.mem_cons.mp hy with e | e
      · rw [e]; exact ha
      · exact hp y e

/-- **No deadlock, full delivery.** Every execution takes at most the total number of calls; a state
without successor has every rank finished, no message in flight, and rank `r` received, in the order
of its receives, exactly the payloads the named senders sent to it with the named tags. -/
theorem delivers (hM : Matched R sends recvs) {k : Nat} {s : Net M}
    (hs : Steps k (start R sends recvs) s) :
    k ≤ ∑ r ∈ Finset.range R, ((sends r).length + (recvs r).length + 1) ∧
    ((∀ t, ¬ Step s t) → (∀ r, s.prog r = []) ∧ s.flight = [] ∧
      ∀ r, r < R → List.Forall₂ (fun st m => (r, st.2, m) ∈ sends st.1) (recvs r) (s.got r)) := by
  obtain ⟨pos, hI⟩ := inv_steps hM hs rfl
  refine ⟨?_, ?_⟩
  · rw [hI.count]
    exact Finset.sum_le_sum (fun r hr => hI.le r (Finset.mem_range.mp hr))
  · intro hstuck
    -- all sends posted
    have hsent : ∀ r, r < R → (sends r).length ≤ pos r := by
      intro r hr
      by_contra hc
      have hprog := hI.prog r hr
      rw [drop_of_get (program_get_send (by omega))] at hprog
      exact hstuck _ (Step.send s r _ _ _ _ hprog)
    have hrecvd : ∀ r, r < R → (sends r).length + (recvs r).length ≤ pos r := by
      intro r hr
      by_contra hc
      have h1 := hsent r hr
      have hq : pos r - (sends r).length < (recvs r).length := by omega
      have hprog := hI.prog r hr
      rw [drop_of_get (program_get_recv h1 hq)] at hprog
      obtain ⟨hsr, m, hm⟩ := hM.recvHasSend r hr _ _ (List.getElem_mem hq)
      have hfl : (⟨(recvs r)[pos r - (sends r).length].1, r, (recvs r)[pos r - (sends r).length].2, m⟩ : Msg M)
          ∈ s.flight := by
        rw [hI.mem]
        refine ⟨hsr, ?_, ?_⟩
        · have ht := List.take_of_length_le (hsent _ hsr)
          exact ht.symm ▸ hm
        · intro hin
          obtain ⟨i, hi, ei⟩ := List.mem_iff_getElem.mp hin
          unfold doneRecvs at hi ei
          simp only [List.getElem_take, List.length_take] at hi ei
          have := (List.Nodup.getElem_inj_iff (hM.recvNodup r hr) (i := i)
            (j := pos r - (sends r).length) (hi := by omega) (hj := by omega)).mp ei
          omega
      obtain ⟨pre, m', post, e, hp⟩ := first_match s.flight _ r _ ⟨_, hfl, rfl, rfl, rfl⟩
      exact hstuck _ (Step.recv s r _ _ m' _ pre post hprog e hp)
    have hflight : s.flight = [] := by
      rw [List.eq_nil_iff_forall_not_mem]
      intro x hx
      obtain ⟨h1, h2, h3⟩ := (hI.mem x).mp hx
      obtain ⟨hd, hin⟩ := hM.sendHasRecv _ h1 _ _ _ (List.mem_of_mem_take h2)
      apply h3
      unfold doneRecvs
      rw [List.take_of_length_le (by have := hrecvd _ hd; omega)]
      exact hin
    refine ⟨?_, hflight, ?_⟩
    · intro r
      by_cases hr : r < R
      · have hle := hI.le r hr
        have hge := hrecvd r hr
        by_contra hne
        have hp : pos r = (sends r).length + (recvs r).length := by
          by_contra hc
          apply hne
          rw [hI.prog r hr, List.drop_eq_nil_of_le (by rw [program_length]; omega)]
        have hprog := hI.prog r hr
        rw [drop_of_get (program_get_wait hp)] at hprog
        exact hstuck _ (Step.waitall s r _ hprog (by rw [hflight]; simp))
      · exact hI.other r hr
    · intro r hr
      have := hI.got r hr
      unfold doneRecvs at this
      rw [List.take_of_length_le (by have := hrecvd _ hr; omega)] at this
      exact this.imp (fun st m hm => List.mem_of_mem_take hm)

end
end Verif.Message
