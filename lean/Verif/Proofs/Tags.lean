import Verif.Model.Tags
import Verif.Proofs.MpiFields
/-!
# Lemmas on message tags
-/
namespace Verif.Tags

variable {D : Type}

theorem mix_inj {n a b c d : Nat} (hb : b < n) (hd : d < n) (h : a * n + b = c * n + d) : a = c ∧ b = d := by
  have hn : 0 < n := by omega
  have h1 : (a * n + b) / n = a := by
    rw [Nat.mul_comm, Nat.mul_add_div hn, Nat.div_eq_of_lt hb, Nat.add_zero]
  have h2 : (c * n + d) / n = c := by
    rw [Nat.mul_comm, Nat.mul_add_div hn, Nat.div_eq_of_lt hd, Nat.add_zero]
  have hac : a = c := by rw [← h1, ← h2, h]
  subst hac
  omega

theorem particleTag_inj {NB m p b j p' b' j' : Nat} (hb : b < NB) (hb' : b' < NB) (hj : j < m) (hj' : j' < m)
    (h : particleTag NB m p b j = particleTag NB m p' b' j') : p = p' ∧ b = b' ∧ j = j' := by
  obtain ⟨h1, h2⟩ := mix_inj hj hj' h
  obtain ⟨h3, h4⟩ := mix_inj hb hb' h1
  exact ⟨h3, h4, h2⟩

theorem guardTag_eq (NB m p b j : Nat) : guardTag NB m p b j = particleTag NB m p b j := by
  unfold guardTag particleTag
  rw [Nat.add_mul]

theorem num2_inj {b b' : B2} (h : num2 b = num2 b') : b = b' := by
  revert h; cases b <;> cases b' <;> decide

theorem num2_lt (b : B2) : num2 b < 8 := by cases b <;> decide

theorem num3_inj {b b' : B3} (h : num3 b = num3 b') : b = b' := by
  have : ∀ b ∈ B3.all, ∀ b' ∈ B3.all, num3 b = num3 b' → b = b' := by decide +kernel
  exact this b (by cases b <;> decide) b' (by cases b' <;> decide) h

theorem num3_lt (b : B3) : num3 b < 26 := by
  have : ∀ b ∈ B3.all, num3 b < 26 := by decide +kernel
  exact this b (by cases b <;> decide)

/-- what an exchange must satisfy: the tag identifies patch, boundary and item; the neighbour relation is
symmetric; rank `r` handles exactly its own patches, each (patch, boundary) once; opposite of opposite -/
structure OK (x : Exchange D) (N : Nat) : Prop where
  tag_inj : ∀ p b j p' b' j', j < x.items → j' < x.items →
    x.tag p (x.num b) j = x.tag p' (x.num b') j' → p = p' ∧ b = b' ∧ j = j'
  sym : ∀ p b q, p < N → x.nbr p b = some q → q < N ∧ x.nbr q (x.opp b) = some p
  opp_opp : ∀ b, x.opp (x.opp b) = b
  mem : ∀ r p b, (p, b) ∈ x.order r ↔ p < N ∧ x.rk p = r
  nodup : ∀ r, (x.order r).Nodup

section
variable {x : Exchange D} {N : Nat}

theorem mem_remote (hx : OK x N) {r p : Nat} {b : D} {q : Nat} :
    (p, b, q) ∈ x.remote r ↔ p < N ∧ x.rk p = r ∧ x.nbr p b = some q := by
  unfold Exchange.remote
  rw [List.mem_filterMap]
  constructor
  · rintro ⟨⟨p', b'⟩, h1, h2⟩
    obtain ⟨q', hq', e⟩ := Option.map_eq_some_iff.mp h2
    injection e with e1 e2
    injection e2 with e2 e3
    dsimp only at e1 e2 hq'
    subst e1; subst e2; subst e3
    obtain ⟨a, c⟩ := (hx.mem r p' b').mp h1
    exact ⟨a, c, hq'⟩
  · rintro ⟨h1, h2, h3⟩
    exact ⟨(p, b), (hx.mem r p b).mpr ⟨h1, h2⟩, by simp [h3]⟩

theorem nodup_remote (hx : OK x N) (r : Nat) : (x.remote r).Nodup := by
  unfold Exchange.remote
  refine (hx.nodup r).filterMap ?_
  rintro ⟨p, b⟩ ⟨p', b'⟩ ⟨p'', b'', q⟩ h1 h2
  obtain ⟨_, _, e1⟩ := Option.map_eq_some_iff.mp (Option.mem_def.mp h1)
  obtain ⟨_, _, e2⟩ := Option.map_eq_some_iff.mp (Option.mem_def.mp h2)
  simp only [Prod.mk.injEq] at e1 e2
  obtain ⟨a, b, _⟩ := e1
  obtain ⟨c, d, _⟩ := e2
  rw [a, b, c, d]

theorem filter_unique {α : Type} {l : List α} (hl : l.Nodup) (P : α → Bool) {a : α} (ha : a ∈ l) (hP : P a = true)
    (hu : ∀ y ∈ l, P y = true → y = a) : l.filter P = [a] := by
  induction l with
  | nil => simp at ha
  | cons y l ih =>
    rw [List.nodup_cons] at hl
    by_cases e : y = a
    · subst e
      rw [List.filter_cons_of_pos hP]
      congr 1
      rw [List.filter_eq_nil_iff]
      intro z hz hPz
      exact hl.1 ((hu z (by simp [hz]) hPz) ▸ hz)
    · rw [List.filter_cons_of_neg (fun h => e (hu y (by simp) h))]
      refine ih hl.2 ?_ (fun z hz => hu z (by simp [hz]))
      rcases List.mem_cons.mp ha with h | h
      · exact absurd h.symm e
      · exact h

theorem flatMap_single {α : Type} {n j : Nat} (hj : j < n) (f : Nat → List α) (h : ∀ i, i < n → i ≠ j → f i = []) :
    (List.range n).flatMap f = f j := by
  induction n with
  | zero => omega
  | succ n ih =>
    rw [List.range_succ, List.flatMap_append]
    by_cases e : j = n
    · subst e
      have : (List.range j).flatMap f = [] := by
        rw [List.flatMap_eq_nil_iff]
        intro i hi
        have := List.mem_range.mp hi
        exact h i (by omega) (by omega)
      rw [this]; simp
    · rw [ih (by omega) (fun i hi hne => h i (by omega) hne)]
      simp [h n (by omega) (Ne.symm e)]

theorem channel_append (l l' : List (Post D)) (r t : Nat) :
    channel (l ++ l') r t = channel l r t ++ channel l' r t := by
  unfold channel; rw [List.filter_append, List.map_append]

theorem channel_flatMap (n : Nat) (f : Nat → List (Post D)) (r t : Nat) :
    channel ((List.range n).flatMap f) r t = (List.range n).flatMap fun j => channel (f j) r t := by
  unfold channel
  rw [List.filter_flatMap, List.map_flatMap]

/-- the part of a channel that one batch of sends contributes -/
theorem channel_sends (hx : OK x N) (kind : Nat → D → Nat → Content D) (P : Nat × D × Nat → Bool) {s r t j : Nat}
    (hj : j < x.items) :
    (∀ p b q, p < N → x.rk p = s → x.nbr p b = some q → x.rk q = r → t = x.tag p (x.num b) j →
      channel (((x.remote s).filter P).map (x.sendPost kind j)) r t =
        if P (p, b, q) then [kind p b j] else []) ∧
    ((¬ ∃ p b q, p < N ∧ x.rk p = s ∧ x.nbr p b = some q ∧ x.rk q = r ∧ t = x.tag p (x.num b) j) →
      channel (((x.remote s).filter P).map (x.sendPost kind j)) r t = []) := by
  have key : channel (((x.remote s).filter P).map (x.sendPost kind j)) r t =
      (((x.remote s).filter fun e => decide (x.rk e.2.2 = r ∧ x.tag e.1 (x.num e.2.1) j = t)).filter P).map
        fun e => kind e.1 e.2.1 j := by
    unfold channel
    rw [List.filter_map, List.map_map, List.filter_filter, List.filter_filter]
    congr 1
    congr 1
    funext e
    rw [Bool.and_comm]
    rfl
  constructor
  · intro p b q hp hs hq hr ht
    rw [key, filter_unique (nodup_remote hx s) _ (a := (p, b, q)) ((mem_remote hx).mpr ⟨hp, hs, hq⟩)]
    · by_cases h : P (p, b, q) = true
      · rw [if_pos h, List.filter_cons_of_pos h]; rfl
      · rw [if_neg h, List.filter_cons_of_neg h]; rfl
    · exact decide_eq_true ⟨hr, ht.symm⟩
    · rintro ⟨p', b', q'⟩ hm hd
      obtain ⟨h1, h2⟩ := of_decide_eq_true hd
      obtain ⟨_, _, hq'⟩ := (mem_remote hx).mp hm
      obtain ⟨e1, e2, _⟩ := hx.tag_inj p' b' j p b j hj hj (h2.trans ht)
      subst e1; subst e2
      rw [hq] at hq'
      injection hq' with hq'
      subst hq'
      rfl
  · intro hno
    rw [key]
    have : ((x.remote s).filter fun e => decide (x.rk e.2.2 = r ∧ x.tag e.1 (x.num e.2.1) j = t)) = [] := by
      rw [List.filter_eq_nil_iff]
      rintro ⟨p, b, q⟩ hm hd
      obtain ⟨h1, h2⟩ := of_decide_eq_true hd
      obtain ⟨a, c, d⟩ := (mem_remote hx).mp hm
      exact hno ⟨p, b, q, a, c, d, h1, h2.symm⟩
    rw [this]; rfl

/-- the part of a channel that one batch of receives contributes -/
theorem channel_recvs (hx : OK x N) (kind : Nat → D → Nat → Content D) (P : Nat × D × Nat → Bool) {s r t j : Nat}
    (hj : j < x.items) :
    (∀ p b q, p < N → x.rk p = s → x.nbr p b = some q → x.rk q = r → t = x.tag p (x.num b) j →
      channel (((x.remote r).filter P).map (x.recvPost kind j)) s t =
        if P (q, x.opp b, p) then [kind p b j] else []) ∧
    ((¬ ∃ p b q, p < N ∧ x.rk p = s ∧ x.nbr p b = some q ∧ x.rk q = r ∧ t = x.tag p (x.num b) j) →
      channel (((x.remote r).filter P).map (x.recvPost kind j)) s t = []) := by
  have key : channel (((x.remote r).filter P).map (x.recvPost kind j)) s t =
      (((x.remote r).filter fun e =>
        decide (x.rk e.2.2 = s ∧ x.tag e.2.2 (x.num (x.opp e.2.1)) j = t)).filter P).map
        fun e => kind e.2.2 (x.opp e.2.1) j := by
    unfold channel
    rw [List.filter_map, List.map_map, List.filter_filter, List.filter_filter]
    congr 1
    congr 1
    funext e
    rw [Bool.and_comm]
    rfl
  constructor
  · intro p b q hp hs hq hr ht
    obtain ⟨hqN, hsym⟩ := hx.sym p b q hp hq
    rw [key, filter_unique (nodup_remote hx r) _ (a := (q, x.opp b, p)) ((mem_remote hx).mpr ⟨hqN, hr, hsym⟩)]
    · by_cases h : P (q, x.opp b, p) = true
      · rw [if_pos h, List.filter_cons_of_pos h]
        show [kind p (x.opp (x.opp b)) j] = _
        rw [hx.opp_opp]
      · rw [if_neg h, List.filter_cons_of_neg h]; rfl
    · refine decide_eq_true ⟨hs, ?_⟩
      show x.tag p (x.num (x.opp (x.opp b))) j = t
      rw [hx.opp_opp, ht]
    · rintro ⟨q', c, p'⟩ hm hd
      obtain ⟨h1, h2⟩ := of_decide_eq_true hd
      obtain ⟨hq'N, _, hq'⟩ := (mem_remote hx).mp hm
      have h2' : x.tag p' (x.num (x.opp c)) j = t := h2
      obtain ⟨e1, e2, _⟩ := hx.tag_inj p' (x.opp c) j p b j hj hj (h2'.trans ht)
      subst e1
      have hs' := (hx.sym q' c p' hq'N hq').2
      rw [e2, hq] at hs'
      injection hs' with hs'
      subst hs'
      rw [← e2, hx.opp_opp]
  · intro hno
    rw [key]
    have : ((x.remote r).filter fun e =>
        decide (x.rk e.2.2 = s ∧ x.tag e.2.2 (x.num (x.opp e.2.1)) j = t)) = [] := by
      rw [List.filter_eq_nil_iff]
      rintro ⟨q, c, p⟩ hm hd
      obtain ⟨h1, h2⟩ := of_decide_eq_true hd
      obtain ⟨a, h3, d⟩ := (mem_remote hx).mp hm
      obtain ⟨hpN, hsym⟩ := hx.sym q c p a d
      exact hno ⟨p, x.opp c, q, hpN, h1, hsym, h3, h2.symm⟩
    rw [this]; rfl

/-- whole exchange: the posts of every channel agree -/
theorem channel_match (hx : OK x N) (kinds : List ((Nat → D → Nat → Content D) × (Nat → Nat × D × Nat → Bool) ×
      (Nat → Nat × D × Nat → Bool)))
    (hk : ∀ c ∈ kinds, ∀ p b q j, x.nbr p b = some q → p < N → c.2.1 j (p, b, q) = c.2.2 j (q, x.opp b, p))
    (s r t : Nat) :
    channel ((List.range x.items).flatMap fun j => kinds.flatMap fun c =>
      ((x.remote s).filter (c.2.1 j)).map (x.sendPost c.1 j)) r t =
    channel ((List.range x.items).flatMap fun j => kinds.flatMap fun c =>
      ((x.remote r).filter (c.2.2 j)).map (x.recvPost c.1 j)) s t := by
  rw [channel_flatMap, channel_flatMap]
  rw [List.flatMap_def, List.flatMap_def]
  congr 1
  apply List.map_congr_left
  intro j hj
  have hj := List.mem_range.mp hj
  have hsplit : ∀ (f : ((Nat → D → Nat → Content D) × (Nat → Nat × D × Nat → Bool) ×
      (Nat → Nat × D × Nat → Bool)) → List (Post D)) (l : List _) (u : Nat),
      channel (l.flatMap f) u t = l.flatMap fun c => channel (f c) u t := by
    intro f l u
    unfold channel
    rw [List.filter_flatMap, List.map_flatMap]
  rw [hsplit, hsplit, List.flatMap_def, List.flatMap_def]
  congr 1
  apply List.map_congr_left
  intro c hc
  by_cases h : ∃ p b q, p < N ∧ x.rk p = s ∧ x.nbr p b = some q ∧ x.rk q = r ∧ t = x.tag p (x.num b) j
  · obtain ⟨p, b, q, h1, h2, h3, h4, h5⟩ := h
    rw [(channel_sends hx c.1 (c.2.1 j) hj).1 p b q h1 h2 h3 h4 h5,
      (channel_recvs hx c.1 (c.2.2 j) hj).1 p b q h1 h2 h3 h4 h5, hk c hc p b q j h3 h1]
  · rw [(channel_sends hx c.1 (c.2.1 j) hj).2 h, (channel_recvs hx c.1 (c.2.2 j) hj).2 h]

theorem filter_true {α : Type} (l : List α) : l.filter (fun _ => true) = l := by
  rw [List.filter_eq_self]; intros; rfl

theorem field_channels (hx : OK x N) (s r t : Nat) :
    channel (x.fieldSends s) r t = channel (x.fieldRecvs r) s t := by
  have := channel_match hx [(Content.data, fun _ _ => true, fun _ _ => true)]
    (by intro c hc p b q j _ _; simp only [List.mem_singleton] at hc; subst hc; rfl) s r t
  simp only [List.flatMap_cons, List.flatMap_nil, List.append_nil, filter_true] at this
  exact this

theorem particle_channels (hx : OK x N) (out : Nat → D → Nat → Nat) (s r t : Nat) :
    channel (x.particleSends out s) r t = channel (x.particleRecvs out r) s t := by
  have := channel_match hx [(Content.count, fun _ _ => true, fun _ _ => true),
    (Content.data, fun j e => decide (out e.1 e.2.1 j > 0), fun j e => decide (out e.2.2 (x.opp e.2.1) j > 0))]
    (by
      intro c hc p b q j hq hp
      simp only [List.mem_cons, List.not_mem_nil, or_false] at hc
      rcases hc with rfl | rfl
      · rfl
      · show decide (out p b j > 0) = decide (out p (x.opp (x.opp b)) j > 0)
        rw [hx.opp_opp]) s r t
  simp only [List.flatMap_cons, List.flatMap_nil, List.append_nil, filter_true] at this
  exact this

theorem particleSends_nodup (hx : OK x N) (out : Nat → D → Nat → Nat) (s r t : Nat) :
    channel (x.particleSends out s) r t = [] ∨ ∃ p b j, j < x.items ∧ p < N ∧ x.rk p = s ∧ t = x.tag p (x.num b) j ∧
      channel (x.particleSends out s) r t =
        .count p b j :: if out p b j > 0 then [.data p b j] else [] := by
  unfold Exchange.particleSends
  rw [channel_flatMap]
  have e1 : ∀ j, channel ((x.remote s).map (x.sendPost Content.count j)) r t =
      channel (((x.remote s).filter fun _ => true).map (x.sendPost Content.count j)) r t := by
    intro j; rw [filter_true]
  by_cases h : ∃ j p b q, j < x.items ∧ p < N ∧ x.rk p = s ∧ x.nbr p b = some q ∧ x.rk q = r ∧
      t = x.tag p (x.num b) j
  · obtain ⟨j, p, b, q, hj, h1, h2, h3, h4, h5⟩ := h
    right
    refine ⟨p, b, j, hj, h1, h2, h5, ?_⟩
    rw [flatMap_single hj]
    · rw [channel_append, e1, (channel_sends hx Content.count (fun _ => true) hj).1 p b q h1 h2 h3 h4 h5,
        (channel_sends hx Content.data _ hj).1 p b q h1 h2 h3 h4 h5]
      by_cases ho : out p b j > 0
      · rw [if_pos ho]; simp [ho]
      · rw [if_neg ho]; simp [ho]
    · intro i hi hne
      have hno : ¬ ∃ p b q, p < N ∧ x.rk p = s ∧ x.nbr p b = some q ∧ x.rk q = r ∧ t = x.tag p (x.num b) i := by
        rintro ⟨p', b', q', _, _, _, _, h5'⟩
        exact hne (hx.tag_inj p' b' i p b j hi hj (h5'.symm.trans h5)).2.2
      rw [channel_append, e1, (channel_sends hx Content.count (fun _ => true) hi).2 hno,
        (channel_sends hx Content.data _ hi).2 hno]
      rfl
  · left
    rw [List.flatMap_eq_nil_iff]
    intro j hj
    have hj := List.mem_range.mp hj
    have hno : ¬ ∃ p b q, p < N ∧ x.rk p = s ∧ x.nbr p b = some q ∧ x.rk q = r ∧ t = x.tag p (x.num b) j :=
      fun ⟨p, b, q, hh⟩ => h ⟨j, p, b, q, hj, hh⟩
    rw [channel_append, e1, (channel_sends hx Content.count (fun _ => true) hj).2 hno,
      (channel_sends hx Content.data _ hj).2 hno]
    rfl

theorem fieldSends_single (hx : OK x N) (s r t : Nat) :
    channel (x.fieldSends s) r t = [] ∨ ∃ p b j, j < x.items ∧ p < N ∧ x.rk p = s ∧ t = x.tag p (x.num b) j ∧
      channel (x.fieldSends s) r t = [.data p b j] := by
  unfold Exchange.fieldSends
  rw [channel_flatMap]
  have e1 : ∀ j, channel ((x.remote s).map (x.sendPost Content.data j)) r t =
      channel (((x.remote s).filter fun _ => true).map (x.sendPost Content.data j)) r t := by
    intro j; rw [filter_true]
  by_cases h : ∃ j p b q, j < x.items ∧ p < N ∧ x.rk p = s ∧ x.nbr p b = some q ∧ x.rk q = r ∧
      t = x.tag p (x.num b) j
  · obtain ⟨j, p, b, q, hj, h1, h2, h3, h4, h5⟩ := h
    right
    refine ⟨p, b, j, hj, h1, h2, h5, ?_⟩
    rw [flatMap_single hj]
    · rw [e1, (channel_sends hx Content.data (fun _ => true) hj).1 p b q h1 h2 h3 h4 h5]; rfl
    · intro i hi hne
      have hno : ¬ ∃ p b q, p < N ∧ x.rk p = s ∧ x.nbr p b = some q ∧ x.rk q = r ∧ t = x.tag p (x.num b) i := by
        rintro ⟨p', b', q', _, _, _, _, h5'⟩
        exact hne (hx.tag_inj p' b' i p b j hi hj (h5'.symm.trans h5)).2.2
      rw [e1, (channel_sends hx Content.data (fun _ => true) hi).2 hno]
  · left
    rw [List.flatMap_eq_nil_iff]
    intro j hj
    have hj := List.mem_range.mp hj
    have hno : ¬ ∃ p b q, p < N ∧ x.rk p = s ∧ x.nbr p b = some q ∧ x.rk q = r ∧ t = x.tag p (x.num b) j :=
      fun ⟨p, b, q, hh⟩ => h ⟨j, p, b, q, hj, hh⟩
    rw [e1, (channel_sends hx Content.data (fun _ => true) hj).2 hno]

end

theorem foldl_max_ge (l : List Nat) (a : Nat) : a ≤ l.foldl max a ∧ ∀ y ∈ l, y ≤ l.foldl max a := by
  induction l generalizing a with
  | nil => exact ⟨Nat.le_refl _, by simp⟩
  | cons z l ih =>
    rw [List.foldl_cons]
    obtain ⟨h1, h2⟩ := ih (max a z)
    refine ⟨by omega, ?_⟩
    intro y hy
    rcases List.mem_cons.mp hy with rfl | hy
    · omega
    · exact h2 y hy

end Verif.Tags
