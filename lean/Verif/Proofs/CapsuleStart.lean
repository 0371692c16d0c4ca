import Verif.Proofs.Capsule

/-!
# Lemmas about starting an exchange
-/
namespace Verif.Capsule

set_option linter.unusedSectionVars false

variable {A : Type} [DecidableEq A]

/-- the blocks of the buffers of one slot -/
def blks (sb rb : Nat → Buf A) (i : Nat) : List Nat := blk (sb i) ++ blk (rb i)

/-- blocks are below the next one -/
def Low (m : Mem A) : Prop := ∀ b ∈ m.live, b < m.next

theorem mallocs_spec : ∀ (ns : List Nat) (m : Mem A), (m.mallocs ns).1 = List.range' m.next ns.length ∧
    (m.mallocs ns).2.next = m.next + ns.length ∧
    (∀ b, b ∈ (m.mallocs ns).2.live ↔ b ∈ m.live ∨ m.next ≤ b ∧ b < m.next + ns.length) ∧
    (m.mallocs ns).2.arrays = m.arrays ∧ (m.mallocs ns).2.slots = m.slots ∧ (m.mallocs ns).2.pend = m.pend ∧
    ∀ b < m.next, (m.mallocs ns).2.size b = m.size b
  | [], m => by
    refine ⟨rfl, rfl, fun b => ?_, rfl, rfl, rfl, fun _ _ => rfl⟩
    simp only [Mem.mallocs, List.length_nil, Nat.add_zero]
    constructor
    · exact .inl
    · rintro (h | h)
      · exact h
      · omega
  | n :: ns, m => by
    obtain ⟨h1, h2, h3, h4, h5, h6, h7⟩ := mallocs_spec ns (m.malloc n).2
    have hn : (m.malloc n).2.next = m.next + 1 := rfl
    rw [hn] at h1 h2 h3 h7
    refine ⟨?_, ?_, fun b => ?_, h4, h5, h6, fun b hb => ?_⟩
    · show m.next :: ((m.malloc n).2.mallocs ns).1 = _
      rw [h1, List.length_cons, List.range'_succ]
    · show ((m.malloc n).2.mallocs ns).2.next = _
      rw [h2, List.length_cons]; omega
    · show b ∈ ((m.malloc n).2.mallocs ns).2.live ↔ _
      rw [h3]
      simp only [Mem.malloc, Finset.mem_insert, List.length_cons]
      constructor
      · rintro ((h | h) | h)
        · right; omega
        · exact .inl h
        · right; omega
      · rintro (h | h)
        · exact .inl (.inr h)
        · by_cases e : b = m.next
          · exact .inl (.inl e)
          · right; omega
    · show ((m.malloc n).2.mallocs ns).2.size b = _
      rw [h7 b (by omega)]
      simp [Mem.malloc, Function.update_of_ne (by omega : b ≠ m.next)]

/-! ## Slots -/

theorem pair_slots (np nb : Nat) : (pairSlots np nb).map (·.1) = List.range (np * nb) := by
  unfold pairSlots
  rw [List.map_flatMap]
  induction np with
  | zero => simp
  | succ n ih =>
    rw [List.range_succ, List.flatMap_append, ih, Nat.succ_mul, List.range_add]
    congr 1
    simp [Function.comp_def]

theorem patch_slots (np nb : Nat) :
    ((List.range np).flatMap fun ip => (List.range nb).map (ip * nb + ·)) = List.range (np * nb) := by
  rw [← pair_slots]
  unfold pairSlots
  rw [List.map_flatMap]
  congr 1
  funext ip
  simp [Function.comp_def]

theorem guard_slots_eq (np nb na : Nat) : (guardSlots np nb na).map (·.1) =
    (List.range na).flatMap fun ia => (List.range (np * nb)).map fun j => j * na + ia := by
  unfold guardSlots
  rw [List.map_flatMap]
  congr 1
  funext ia
  rw [← patch_slots np nb, List.map_flatMap, List.map_flatMap]
  congr 1
  funext ip
  rw [List.map_map, List.map_map]
  apply List.map_congr_left
  intro ib _
  simp only [Function.comp]
  ring

theorem guard_slots_mem (np nb na i : Nat) : i ∈ (guardSlots np nb na).map (·.1) ↔ i < np * nb * na := by
  rw [guard_slots_eq]
  simp only [List.mem_flatMap, List.mem_range, List.mem_map]
  constructor
  · rintro ⟨ia, hia, j, hj, rfl⟩
    calc j * na + ia < j * na + na := by omega
      _ = (j + 1) * na := by ring
      _ ≤ np * nb * na := Nat.mul_le_mul_right _ hj
  · intro h
    have hna : 0 < na := Nat.pos_of_ne_zero (by rintro rfl; simp at h)
    refine ⟨i % na, Nat.mod_lt _ hna, i / na, Nat.div_lt_of_lt_mul (by rw [Nat.mul_comm]; exact h), ?_⟩
    rw [Nat.mul_comm]; exact Nat.div_add_mod i na

theorem guard_slots_nodup (np nb na : Nat) : ((guardSlots np nb na).map (·.1)).Nodup := by
  rw [guard_slots_eq, List.nodup_flatMap]
  constructor
  · intro ia hia
    refine List.Nodup.map_on ?_ List.nodup_range
    intro x _ y _ e
    have : 0 < na := by have := List.mem_range.1 hia; omega
    exact Nat.eq_of_mul_eq_mul_right this (by omega)
  · refine List.Pairwise.imp_of_mem ?_ (List.nodup_range (n := na))
    intro a b ha hb hab x hxa hxb
    obtain ⟨j, _, rfl⟩ := List.mem_map.1 hxa
    obtain ⟨k, _, e⟩ := List.mem_map.1 hxb
    apply hab
    have ha := List.mem_range.1 ha
    have hb := List.mem_range.1 hb
    have := congrArg (· % na) e
    simp only [Nat.mul_comm _ na, Nat.mul_add_mod, Nat.mod_eq_of_lt ha, Nat.mod_eq_of_lt hb] at this
    exact this.symm

/-! ## The loop of the guard cells -/

theorem noRequest_ok {m : Mem A} {arr i : Nat} (h1 : arr ∈ m.live) (h2 : i < m.size arr) (h3 : (arr, i) ∉ m.slots) :
    m.noRequest arr i = some { m with slots := insert (arr, i) m.slots } := if_pos ⟨h1, h2, h3⟩

theorem post_ok {m : Mem A} {arr i : Nat} {p : Buf A} (h1 : arr ∈ m.live) (h2 : i < m.size arr)
    (h3 : (arr, i) ∉ m.slots) (h4 : m.Valid p) :
    m.post arr i p = some { m with slots := insert (arr, i) m.slots, pend := ⟨arr, i, p⟩ :: m.pend } :=
  if_pos ⟨h1, h2, h3, h4⟩

theorem guard_loop (rank : Nat → Nat → Int) (arr : Nat → Nat → A) (sreq rreq : Nat) (hne : sreq ≠ rreq) :
    ∀ (L : List (Nat × Nat × Nat × Nat)) (m : Mem A), sreq ∈ m.live → rreq ∈ m.live →
    (∀ s ∈ L, s.1 < m.size sreq ∧ s.1 < m.size rreq ∧ (sreq, s.1) ∉ m.slots ∧ (rreq, s.1) ∉ m.slots ∧
      arr s.2.1 s.2.2.1 ∈ m.arrays) → (L.map (·.1)).Nodup →
    ∃ S P, L.foldlM (guardPost rank arr sreq rreq) m = some { m with slots := S, pend := P ++ m.pend } ∧
      (∀ p, p ∈ S ↔ p ∈ m.slots ∨ (p.1 = sreq ∨ p.1 = rreq) ∧ p.2 ∈ L.map (·.1)) ∧
      ∀ q ∈ P, (q.arr = sreq ∨ q.arr = rreq) ∧ q.slot ∈ L.map (·.1) ∧ ∃ s ∈ L, q.buf = .array (arr s.2.1 s.2.2.1)
  | [], m, _, _, _, _ => ⟨m.slots, [], rfl, by simp, by simp⟩
  | (i, ia, ip, ib) :: L, m, h1, h2, h3, h4 => by
    obtain ⟨a1, a2, a3, a4, a5⟩ := h3 (i, ia, ip, ib) (by simp)
    simp only at a1 a2 a3 a4 a5
    have h5 := List.nodup_cons.1 h4
    simp only at h5
    have rr : (rreq, i) ∉ insert (sreq, i) m.slots := by
      simp only [Finset.mem_insert, Prod.mk.injEq, not_or]
      exact ⟨fun e => hne e.1.symm, a4⟩
    obtain ⟨P0, e0, hP0⟩ : ∃ P0, guardPost rank arr sreq rreq m (i, ia, ip, ib) =
        some { m with slots := insert (rreq, i) (insert (sreq, i) m.slots), pend := P0 ++ m.pend } ∧
        ∀ q ∈ P0, (q.arr = sreq ∨ q.arr = rreq) ∧ q.slot = i ∧ q.buf = .array (arr ia ip) := by
      unfold guardPost
      dsimp only
      by_cases hr : rank ip ib < 0
      · refine ⟨[], ?_, by simp⟩
        rw [if_pos hr, noRequest_ok h1 a1 a3]
        exact noRequest_ok (m := { m with slots := insert (sreq, i) m.slots }) h2 a2 rr
      · refine ⟨[⟨rreq, i, .array (arr ia ip)⟩, ⟨sreq, i, .array (arr ia ip)⟩], ?_, by simp⟩
        rw [if_neg hr, post_ok h1 a1 a3 (p := .array (arr ia ip)) a5]
        exact post_ok (m := { m with slots := insert (sreq, i) m.slots, pend := _ }) h2 a2 rr a5
    obtain ⟨S, P, e1, hS, hP⟩ := guard_loop rank arr sreq rreq hne L
      { m with slots := insert (rreq, i) (insert (sreq, i) m.slots), pend := P0 ++ m.pend } h1 h2 (by
        intro s hs
        obtain ⟨b1, b2, b3, b4, b5⟩ := h3 s (by simp [hs])
        have hsi : s.1 ≠ i := fun e => h5.1 (e ▸ List.mem_map_of_mem hs)
        refine ⟨b1, b2, ?_, ?_, b5⟩ <;> simp only [Finset.mem_insert, Prod.mk.injEq, not_or, not_and] <;>
          exact ⟨fun _ => hsi, fun _ => hsi, by assumption⟩) h5.2
    refine ⟨S, P ++ P0, ?_, fun p => ?_, fun q hq => ?_⟩
    · rw [List.foldlM_cons, e0]
      simp only [Option.bind_eq_bind, Option.bind_some]
      rw [e1]; simp
    · rw [hS]
      simp only [Finset.mem_insert, List.map_cons, List.mem_cons]
      constructor
      · rintro ((rfl | rfl | h) | h)
        · exact .inr ⟨.inr rfl, .inl rfl⟩
        · exact .inr ⟨.inl rfl, .inl rfl⟩
        · exact .inl h
        · exact .inr ⟨h.1, .inr h.2⟩
      · rintro (h | ⟨h, h' | h'⟩)
        · exact .inl (.inr (.inr h))
        · rcases h with h | h
          · exact .inl (.inr (.inl (Prod.ext h h')))
          · exact .inl (.inl (Prod.ext h h'))
        · exact .inr ⟨h, h'⟩
    · rcases List.mem_append.1 hq with hq | hq
      · obtain ⟨c1, c2, s, hs, c3⟩ := hP q hq
        exact ⟨c1, by simp only [List.map_cons, List.mem_cons]; exact .inr c2, s, by simp [hs], c3⟩
      · obtain ⟨c1, c2, c3⟩ := hP0 q hq
        exact ⟨c1, by simp [c2], (i, ia, ip, ib), by simp, c3⟩

/-! ## Buffers -/

/-- what a loop over the slots `I` does that allocates buffers -/
structure Grow (I : List Nat) (m m' : Mem A) (sb rb sb' rb' : Nat → Buf A) : Prop where
  next : m.next ≤ m'.next
  arrays : m'.arrays = m.arrays
  size : ∀ b < m.next, m'.size b = m.size b
  live : ∀ b, b ∈ m'.live ↔ b ∈ m.live ∨ b ∈ I.flatMap (blks sb' rb')
  fresh : ∀ b ∈ I.flatMap (blks sb' rb'), m.next ≤ b ∧ b < m'.next
  nodup : (I.flatMap (blks sb' rb')).Nodup
  keep : ∀ j ∉ I, sb' j = sb j ∧ rb' j = rb j
  own : ∀ j ∈ I, (sb' j = .null ∨ ∃ b, sb' j = .block b) ∧ (rb' j = .null ∨ ∃ b, rb' j = .block b)

theorem Grow.nil (m : Mem A) (sb rb : Nat → Buf A) : Grow [] m m sb rb sb rb :=
  ⟨le_rfl, rfl, fun _ _ => rfl, by simp, by simp, by simp, fun _ _ => ⟨rfl, rfl⟩, by simp⟩

theorem flatMap_congr' {α β : Type} {l : List α} {f g : α → List β} (h : ∀ a ∈ l, f a = g a) :
    l.flatMap f = l.flatMap g := by
  induction l with
  | nil => rfl
  | cons a l ih => rw [List.flatMap_cons, List.flatMap_cons, h a (by simp), ih fun b hb => h b (by simp [hb])]

theorem Grow.trans {I J : List Nat} {m m' m'' : Mem A} {sb rb sb' rb' sb'' rb'' : Nat → Buf A}
    (g : Grow I m m' sb rb sb' rb') (k : Grow J m' m'' sb' rb' sb'' rb'') (hd : ∀ i ∈ I, i ∉ J) :
    Grow (I ++ J) m m'' sb rb sb'' rb'' := by
  have e : I.flatMap (blks sb'' rb'') = I.flatMap (blks sb' rb') :=
    flatMap_congr' fun i hi => by simp only [blks, (k.keep i (hd i hi)).1, (k.keep i (hd i hi)).2]
  refine ⟨g.next.trans k.next, k.arrays.trans g.arrays, fun b hb => ?_, fun b => ?_, fun b hb => ?_, ?_, fun j hj => ?_,
    fun j hj => ?_⟩
  · rw [k.size b (lt_of_lt_of_le hb g.next), g.size b hb]
  · rw [k.live, g.live, List.flatMap_append, List.mem_append, e]; tauto
  · rw [List.flatMap_append, List.mem_append, e] at hb
    rcases hb with hb | hb
    · exact ⟨(g.fresh b hb).1, lt_of_lt_of_le (g.fresh b hb).2 k.next⟩
    · exact ⟨g.next.trans (k.fresh b hb).1, (k.fresh b hb).2⟩
  · rw [List.flatMap_append, e, List.nodup_append]
    refine ⟨g.nodup, k.nodup, fun a ha b hb hab => ?_⟩
    have := (g.fresh a ha).2; have := (k.fresh b hb).1; omega
  · simp only [List.mem_append, not_or] at hj
    rw [(k.keep j hj.2).1, (k.keep j hj.2).2]; exact g.keep j hj.1
  · rcases List.mem_append.1 hj with hj | hj
    · rw [(k.keep j (hd j hj)).1, (k.keep j (hd j hj)).2]; exact g.own j hj
    · exact k.own j hj

theorem Grow.low {I : List Nat} {m m' : Mem A} {sb rb sb' rb' : Nat → Buf A} (g : Grow I m m' sb rb sb' rb')
    (h : Low m) : Low m' := by
  intro b hb
  rcases (g.live b).1 hb with hb | hb
  · exact lt_of_lt_of_le (h b hb) g.next
  · exact (g.fresh b hb).2

/-! ## The loop of the currents -/

theorem currents_loop (rank : Nat → Nat → Int) (sreq rreq : Nat) (hne : sreq ≠ rreq) :
    ∀ (L : List (Nat × Nat × Nat)) (m : Mem A) (sb rb : Nat → Buf A), sreq ∈ m.live → rreq ∈ m.live → Low m →
    (∀ s ∈ L, s.1 < m.size sreq ∧ s.1 < m.size rreq ∧ (sreq, s.1) ∉ m.slots ∧ (rreq, s.1) ∉ m.slots) →
    (L.map (·.1)).Nodup →
    ∃ m' sb' rb', L.foldlM (currentsPost rank sreq rreq) (m, sb, rb) = some (m', sb', rb') ∧
      Grow (L.map (·.1)) m m' sb rb sb' rb' ∧
      (∀ p, p ∈ m'.slots ↔ p ∈ m.slots ∨ (p.1 = sreq ∨ p.1 = rreq) ∧ p.2 ∈ L.map (·.1)) ∧
      (∀ j ∈ L.map (·.1), sb' j = .null → rb' j = .null) ∧
      ∃ P, m'.pend = P ++ m.pend ∧ ∀ q ∈ P, (q.arr = sreq ∧ q.buf = sb' q.slot ∨ q.arr = rreq ∧ q.buf = rb' q.slot) ∧
        q.slot ∈ L.map (·.1) ∧ sb' q.slot ≠ .null
  | [], m, sb, rb, _, _, _, _, _ => ⟨m, sb, rb, rfl, Grow.nil _ _ _, by simp, by simp, [], rfl, by simp⟩
  | (i, ip, ib) :: L, m, sb, rb, h1, h2, hlow, h3, h4 => by
    obtain ⟨a1, a2, a3, a4⟩ := h3 (i, ip, ib) (by simp)
    simp only at a1 a2 a3 a4
    have h5 := List.nodup_cons.1 h4
    simp only at h5
    have rr : (rreq, i) ∉ insert (sreq, i) m.slots := by
      simp only [Finset.mem_insert, Prod.mk.injEq, not_or]
      exact ⟨fun e => hne e.1.symm, a4⟩
    obtain ⟨m1, sb1, rb1, e0, g1, hS1, hn1, P0, hp0, hP0⟩ : ∃ m1 sb1 rb1,
        currentsPost rank sreq rreq (m, sb, rb) (i, ip, ib) = some (m1, sb1, rb1) ∧ Grow [i] m m1 sb rb sb1 rb1 ∧
        m1.slots = insert (rreq, i) (insert (sreq, i) m.slots) ∧ (sb1 i = .null → rb1 i = .null) ∧
        ∃ P, m1.pend = P ++ m.pend ∧ ∀ q ∈ P, (q.arr = sreq ∧ q.buf = sb1 i ∨ q.arr = rreq ∧ q.buf = rb1 i) ∧
          q.slot = i ∧ sb1 i ≠ .null := by
      unfold currentsPost
      dsimp only
      by_cases hr : rank ip ib < 0
      · refine ⟨{ m with slots := insert (rreq, i) (insert (sreq, i) m.slots) }, Function.update sb i .null,
          Function.update rb i .null, ?_, ⟨le_rfl, rfl, fun _ _ => rfl, by simp [blks, blk], by simp [blks, blk],
          by simp [blks, blk], fun j hj => ?_, by simp⟩, rfl, by simp, [], rfl, by simp⟩
        · rw [if_pos hr, noRequest_ok h1 a1 a3]
          simp only [Option.bind_eq_bind, Option.bind_some]
          rw [noRequest_ok (m := { m with slots := insert (sreq, i) m.slots }) h2 a2 rr]
          rfl
        · have : j ≠ i := by simpa using hj
          exact ⟨Function.update_of_ne this _ _, Function.update_of_ne this _ _⟩
      · have ls := hlow _ h1
        have lr := hlow _ h2
        refine ⟨{ (((m.malloc 1).2).malloc 1).2 with
            slots := insert (rreq, i) (insert (sreq, i) m.slots)
            pend := [⟨rreq, i, .block (m.next + 1)⟩, ⟨sreq, i, .block m.next⟩] ++ m.pend },
          Function.update sb i (.block m.next), Function.update rb i (.block (m.next + 1)), ?_, ?_, ?_, ?_⟩
        · rw [if_neg hr]
          have e1 : (((m.malloc 1).2).malloc 1).2.post sreq i (.block m.next) = some _ := post_ok
            (by simp [Mem.malloc, h1]) (by
              simp only [Mem.malloc]
              rw [Function.update_of_ne (by omega), Function.update_of_ne (by omega)]; exact a1) a3
            (by show _ ∈ _; simp [Mem.malloc])
          rw [show ((m.malloc 1).2.malloc 1).2.post sreq i (.block (m.malloc 1).1) = _ from e1]
          simp only [Option.bind_eq_bind, Option.bind_some]
          refine (congrArg (Option.bind · _) (post_ok (by simp [Mem.malloc, h2]) ?_ rr
            (by show _ ∈ _; simp [Mem.malloc]))).trans ?_
          · simp only [Mem.malloc]
            rw [Function.update_of_ne (by omega), Function.update_of_ne (by omega)]; exact a2
          rfl
        · refine ⟨by show m.next ≤ m.next + 1 + 1; omega, rfl, fun b hb => ?_, fun b => ?_, fun b hb => ?_, ?_,
            fun j hj => ?_, by simp⟩
          · simp only [Mem.malloc]
            rw [Function.update_of_ne (by omega), Function.update_of_ne (by omega)]
          · simp only [Mem.malloc, Finset.mem_insert, List.flatMap_cons, List.flatMap_nil, blks, Function.update_self,
              blk, List.append_nil, List.cons_append, List.nil_append, List.mem_cons, List.not_mem_nil, or_false]
            tauto
          · simp only [List.flatMap_cons, List.flatMap_nil, blks, Function.update_self,
              blk, List.append_nil, List.cons_append, List.nil_append, List.mem_cons, List.not_mem_nil, or_false] at hb
            show m.next ≤ b ∧ b < m.next + 1 + 1
            omega
          · simp [blks, blk]
          · have : j ≠ i := by simpa using hj
            exact ⟨Function.update_of_ne this _ _, Function.update_of_ne this _ _⟩
        · rfl
        · refine ⟨by simp, [⟨rreq, i, .block (m.next + 1)⟩, ⟨sreq, i, .block m.next⟩], rfl, by simp⟩
    have hlow1 := g1.low hlow
    obtain ⟨m', sb', rb', e1, g2, hS, hn2, P, hp, hP⟩ := currents_loop rank sreq rreq hne L m1 sb1 rb1
      ((g1.live _).2 (.inl h1)) ((g1.live _).2 (.inl h2)) hlow1 (by
        intro s hs
        obtain ⟨b1, b2, b3, b4⟩ := h3 s (by simp [hs])
        have hsi : s.1 ≠ i := fun e => h5.1 (e ▸ List.mem_map_of_mem hs)
        rw [g1.size _ (hlow _ h1), g1.size _ (hlow _ h2), hS1]
        refine ⟨b1, b2, ?_, ?_⟩ <;> simp only [Finset.mem_insert, Prod.mk.injEq, not_or, not_and] <;>
          exact ⟨fun _ => hsi, fun _ => hsi, by assumption⟩) h5.2
    have hk := g2.keep i h5.1
    refine ⟨m', sb', rb', ?_, ?_, fun p => ?_, fun j hj => ?_, P ++ P0, ?_, fun q hq => ?_⟩
    · rw [List.foldlM_cons, e0]
      exact e1
    · have := g1.trans g2 (by simpa using h5.1)
      simpa using this
    · rw [hS, hS1]
      simp only [Finset.mem_insert, List.map_cons, List.mem_cons]
      constructor
      · rintro ((rfl | rfl | h) | h)
        · exact .inr ⟨.inr rfl, .inl rfl⟩
        · exact .inr ⟨.inl rfl, .inl rfl⟩
        · exact .inl h
        · exact .inr ⟨h.1, .inr h.2⟩
      · rintro (h | ⟨h, h' | h'⟩)
        · exact .inl (.inr (.inr h))
        · rcases h with h | h
          · exact .inl (.inr (.inl (Prod.ext h h')))
          · exact .inl (.inl (Prod.ext h h'))
        · exact .inr ⟨h, h'⟩
    · simp only [List.map_cons, List.mem_cons] at hj
      rcases hj with rfl | hj
      · rw [hk.1, hk.2]; exact hn1
      · exact hn2 j hj
    · rw [hp, hp0]; simp
    · rcases List.mem_append.1 hq with hq | hq
      · obtain ⟨c1, c2, c3⟩ := hP q hq
        exact ⟨c1, by simp only [List.map_cons, List.mem_cons]; exact .inr c2, c3⟩
      · obtain ⟨c1, c2, c3⟩ := hP0 q hq
        rw [c2, hk.1, hk.2]
        exact ⟨c1, by simp, c3⟩

/-! ## The loops of the particles -/

/-- like `Grow`, with further blocks `new` that are going to be freed -/
structure GrowX (I new : List Nat) (m m' : Mem A) (sb rb sb' rb' : Nat → Buf A) : Prop where
  next : m.next ≤ m'.next
  arrays : m'.arrays = m.arrays
  slots : m'.slots = m.slots
  pend : m'.pend = m.pend
  size : ∀ b < m.next, m'.size b = m.size b
  live : ∀ b, b ∈ m'.live ↔ b ∈ m.live ∨ b ∈ I.flatMap (blks sb' rb') ++ new
  fresh : ∀ b ∈ I.flatMap (blks sb' rb') ++ new, m.next ≤ b ∧ b < m'.next
  nodup : (I.flatMap (blks sb' rb') ++ new).Nodup
  keep : ∀ j ∉ I, sb' j = sb j ∧ rb' j = rb j
  own : ∀ j ∈ I, (sb' j = .null ∨ ∃ b, sb' j = .block b) ∧ (rb' j = .null ∨ ∃ b, rb' j = .block b)

theorem GrowX.trans {I J n n' : List Nat} {m m' m'' : Mem A} {sb rb sb' rb' sb'' rb'' : Nat → Buf A}
    (g : GrowX I n m m' sb rb sb' rb') (k : GrowX J n' m' m'' sb' rb' sb'' rb'') (hd : ∀ i ∈ I, i ∉ J) :
    GrowX (I ++ J) (n ++ n') m m'' sb rb sb'' rb'' := by
  have e : I.flatMap (blks sb'' rb'') = I.flatMap (blks sb' rb') :=
    flatMap_congr' fun i hi => by simp only [blks, (k.keep i (hd i hi)).1, (k.keep i (hd i hi)).2]
  have hp : ((I ++ J).flatMap (blks sb'' rb'') ++ (n ++ n')).Perm
      ((I.flatMap (blks sb' rb') ++ n) ++ (J.flatMap (blks sb'' rb'') ++ n')) := by
    rw [List.flatMap_append, e]
    refine List.perm_iff_count.2 fun a => ?_
    simp only [List.count_append]; omega
  refine ⟨g.next.trans k.next, k.arrays.trans g.arrays, k.slots.trans g.slots, k.pend.trans g.pend, fun b hb => ?_,
    fun b => ?_, fun b hb => ?_, ?_, fun j hj => ?_, fun j hj => ?_⟩
  · rw [k.size b (lt_of_lt_of_le hb g.next), g.size b hb]
  · rw [k.live, g.live, hp.mem_iff, List.mem_append (s := I.flatMap (blks sb' rb') ++ n)]; tauto
  · rw [hp.mem_iff, List.mem_append] at hb
    rcases hb with hb | hb
    · exact ⟨(g.fresh b hb).1, lt_of_lt_of_le (g.fresh b hb).2 k.next⟩
    · exact ⟨g.next.trans (k.fresh b hb).1, (k.fresh b hb).2⟩
  · rw [hp.nodup_iff, List.nodup_append]
    refine ⟨g.nodup, k.nodup, fun a ha b hb hab => ?_⟩
    have := (g.fresh a ha).2; have := (k.fresh b hb).1; omega
  · simp only [List.mem_append, not_or] at hj
    rw [(k.keep j hj.2).1, (k.keep j hj.2).2]; exact g.keep j hj.1
  · rcases List.mem_append.1 hj with hj | hj
    · rw [(k.keep j (hd j hj)).1, (k.keep j (hd j hj)).2]; exact g.own j hj
    · exact k.own j hj

theorem alloc_one (out inc : Nat → Nat) (m : Mem A) (sb rb : Nat → Buf A) (idx : List (Buf A)) (i : Nat) :
    ∃ m' sb' rb' new, particlesAlloc out inc (m, sb, rb, idx) i = (m', sb', rb', idx ++ new.map .block) ∧
      GrowX [i] new m m' sb rb sb' rb' := by
  have ku : ∀ (f : Nat → Buf A) (p : Buf A), ∀ j ∉ [i], Function.update f i p j = f j := by
    intro f p j hj
    exact Function.update_of_ne (by simpa using hj) _ _
  unfold particlesAlloc
  dsimp only
  by_cases ho : out i = 0 <;> by_cases hi : inc i = 0
  · rw [if_pos ho, if_pos hi]
    refine ⟨m, Function.update sb i .null, Function.update rb i .null, [], by simp, le_rfl, rfl, rfl, rfl, fun _ _ => rfl,
      by simp [blks, blk], by simp [blks, blk], by simp [blks, blk], fun j hj => ⟨ku _ _ j hj, ku _ _ j hj⟩, by simp⟩
  · rw [if_pos ho, if_neg hi]
    refine ⟨(m.malloc (inc i)).2, Function.update sb i .null, Function.update rb i (.block m.next), [],
      by simp [Mem.malloc], Nat.le_succ _, rfl, rfl, rfl, fun b hb => ?_, fun b => ?_, fun b hb => ?_, by simp [blks, blk],
      fun j hj => ⟨ku _ _ j hj, ku _ _ j hj⟩, by simp⟩
    · simp only [Mem.malloc]; rw [Function.update_of_ne (by omega)]
    · simp [Mem.malloc, blks, blk]; tauto
    · simp [blks, blk] at hb
      show m.next ≤ b ∧ b < m.next + 1
      omega
  · rw [if_neg ho, if_pos hi]
    refine ⟨((m.malloc (out i)).2.malloc (out i)).2, Function.update sb i (.block (m.next + 1)), Function.update rb i .null,
      [m.next], by simp [Mem.malloc], by show m.next ≤ m.next + 1 + 1; omega, rfl, rfl, rfl, fun b hb => ?_, fun b => ?_,
      fun b hb => ?_, by simp [blks, blk], fun j hj => ⟨ku _ _ j hj, ku _ _ j hj⟩, by simp⟩
    · simp only [Mem.malloc]; rw [Function.update_of_ne (by omega), Function.update_of_ne (by omega)]
    · simp [Mem.malloc, blks, blk]; tauto
    · simp [blks, blk] at hb
      show m.next ≤ b ∧ b < m.next + 1 + 1
      omega
  · rw [if_neg ho, if_neg hi]
    refine ⟨(((m.malloc (out i)).2.malloc (out i)).2.malloc (inc i)).2, Function.update sb i (.block (m.next + 1)),
      Function.update rb i (.block (m.next + 1 + 1)),
      [m.next], by simp [Mem.malloc], by show m.next ≤ m.next + 1 + 1 + 1; omega, rfl, rfl, rfl, fun b hb => ?_, fun b => ?_,
      fun b hb => ?_, by simp [blks, blk]; omega, fun j hj => ⟨ku _ _ j hj, ku _ _ j hj⟩, by simp⟩
    · simp only [Mem.malloc]
      rw [Function.update_of_ne (by omega), Function.update_of_ne (by omega), Function.update_of_ne (by omega)]
    · simp [Mem.malloc, blks, blk]; tauto
    · simp [blks, blk] at hb
      show m.next ≤ b ∧ b < m.next + 1 + 1 + 1
      omega

theorem alloc_loop (out inc : Nat → Nat) : ∀ (I : List Nat) (m : Mem A) (sb rb : Nat → Buf A) (idx : List (Buf A)),
    I.Nodup → ∃ m' sb' rb' new, I.foldl (particlesAlloc out inc) (m, sb, rb, idx) = (m', sb', rb', idx ++ new.map .block) ∧
      GrowX I new m m' sb rb sb' rb'
  | [], m, sb, rb, idx, _ => ⟨m, sb, rb, [], by simp, le_rfl, rfl, rfl, rfl, fun _ _ => rfl, by simp, by simp, by simp,
      fun _ _ => ⟨rfl, rfl⟩, by simp⟩
  | i :: I, m, sb, rb, idx, hn => by
    have hn' := List.nodup_cons.1 hn
    obtain ⟨m1, sb1, rb1, n1, e1, g1⟩ := alloc_one out inc m sb rb idx i
    obtain ⟨m2, sb2, rb2, n2, e2, g2⟩ := alloc_loop out inc I m1 sb1 rb1 (idx ++ n1.map .block) hn'.2
    refine ⟨m2, sb2, rb2, n1 ++ n2, ?_, g1.trans g2 (by simpa using hn'.1)⟩
    rw [List.foldl_cons, e1, e2]
    simp

/-- one slot of one request array -/
def postAt (arr : Nat) (f : Nat → Option (Buf A)) (m : Mem A) (i : Nat) : Option (Mem A) :=
  match f i with
  | none => m.noRequest arr i
  | some p => m.post arr i p

theorem post_loop (arr : Nat) (f : Nat → Option (Buf A)) : ∀ (L : List Nat) (m : Mem A), arr ∈ m.live →
    (∀ i ∈ L, i < m.size arr ∧ (arr, i) ∉ m.slots ∧ ∀ p, f i = some p → m.Valid p) → L.Nodup →
    ∃ S P, L.foldlM (postAt arr f) m = some { m with slots := S, pend := P ++ m.pend } ∧
      (∀ p, p ∈ S ↔ p ∈ m.slots ∨ p.1 = arr ∧ p.2 ∈ L) ∧
      ∀ q ∈ P, q.arr = arr ∧ q.slot ∈ L ∧ f q.slot = some q.buf
  | [], m, _, _, _ => ⟨m.slots, [], rfl, by simp, by simp⟩
  | i :: L, m, h1, h2, h3 => by
    obtain ⟨a1, a2, a3⟩ := h2 i (by simp)
    have h3' := List.nodup_cons.1 h3
    obtain ⟨P0, e0, hP0⟩ : ∃ P0, postAt arr f m i = some { m with slots := insert (arr, i) m.slots, pend := P0 ++ m.pend } ∧
        ∀ q ∈ P0, q.arr = arr ∧ q.slot = i ∧ f i = some q.buf := by
      unfold postAt
      rcases hf : f i with _ | p
      · exact ⟨[], noRequest_ok h1 a1 a2, by simp⟩
      · exact ⟨[⟨arr, i, p⟩], post_ok h1 a1 a2 (a3 p hf), by simp⟩
    obtain ⟨S, P, e1, hS, hP⟩ := post_loop arr f L { m with slots := insert (arr, i) m.slots, pend := P0 ++ m.pend } h1 (by
      intro j hj
      obtain ⟨b1, b2, b3⟩ := h2 j (by simp [hj])
      refine ⟨b1, ?_, fun p hp => ?_⟩
      · simp only [Finset.mem_insert, Prod.mk.injEq, not_or, not_and]
        exact ⟨fun _ e => h3'.1 (e ▸ hj), b2⟩
      · have := b3 p hp
        cases p <;> exact this) h3'.2
    refine ⟨S, P ++ P0, ?_, fun p => ?_, fun q hq => ?_⟩
    · rw [List.foldlM_cons, e0]
      simp only [Option.bind_eq_bind, Option.bind_some]
      rw [e1]; simp
    · rw [hS]
      simp only [Finset.mem_insert, List.mem_cons]
      constructor
      · rintro ((rfl | h) | h)
        · exact .inr ⟨rfl, .inl rfl⟩
        · exact .inl h
        · exact .inr ⟨h.1, .inr h.2⟩
      · rintro (h | ⟨h, h' | h'⟩)
        · exact .inl (.inr h)
        · exact .inl (.inl (Prod.ext h h'))
        · exact .inr ⟨h, h'⟩
    · rcases List.mem_append.1 hq with hq | hq
      · obtain ⟨c1, c2, c3⟩ := hP q hq
        exact ⟨c1, by simp [c2], c3⟩
      · obtain ⟨c1, c2, c3⟩ := hP0 q hq
        exact ⟨c1, by simp [c2], c2 ▸ c3⟩

theorem foldlM_congr {α σ : Type} {f g : σ → α → Option σ} : ∀ (l : List α) (s : σ), (∀ a ∈ l, ∀ s, f s a = g s a) →
    l.foldlM f s = l.foldlM g s
  | [], _, _ => rfl
  | a :: l, s, h => by
    rw [List.foldlM_cons, List.foldlM_cons, h a (by simp)]
    congr 1
    funext s'
    exact foldlM_congr l s' fun b hb => h b (by simp [hb])

/-- messages in flight use blocks below the next one -/
def PendLow (m : Mem A) : Prop := ∀ q ∈ m.pend, q.arr < m.next ∧ ∀ b, q.buf = .block b → b < m.next

theorem valid_of_own {m : Mem A} {p : Buf A} (h : p = .null ∨ ∃ b, p = .block b) (hb : ∀ b ∈ blk p, b ∈ m.live) :
    m.Valid p := by
  rcases h with rfl | ⟨b, rfl⟩
  · trivial
  · exact hb b (by simp [blk])

theorem patch_one (nb : Nat) (rank : Nat → Nat → Int) (out inc : Nat → Nat) (sreq : Nat) (m : Mem A)
    (sb rb : Nat → Buf A) (ip : Nat) (h1 : sreq ∈ m.live) (hlow : Low m) (hpl : PendLow m)
    (h2 : ∀ i ∈ (List.range nb).map (ip * nb + ·), i < m.size sreq ∧ (sreq, i) ∉ m.slots) :
    ∃ m' sb' rb', particlesPatch nb rank out inc sreq (m, sb, rb) ip = some (m', sb', rb') ∧
      Grow ((List.range nb).map (ip * nb + ·)) m m' sb rb sb' rb' ∧ PendLow m' ∧
      (∀ p, p ∈ m'.slots ↔ p ∈ m.slots ∨ p.1 = sreq ∧ p.2 ∈ (List.range nb).map (ip * nb + ·)) ∧
      ∃ P, m'.pend = P ++ m.pend ∧ ∀ q ∈ P, q.arr = sreq ∧ q.slot ∈ (List.range nb).map (ip * nb + ·) ∧
        q.buf = sb' q.slot := by
  have hnd : ((List.range nb).map (ip * nb + ·)).Nodup :=
    List.Nodup.map (fun a b h => by simpa using h) List.nodup_range
  obtain ⟨m1, sb1, rb1, new, e1, g⟩ := alloc_loop out inc _ m sb rb [] hnd
  have hs1 : sreq ∈ m1.live := (g.live _).2 (.inl h1)
  obtain ⟨S, P, e2, hS, hP⟩ := post_loop sreq
    (fun i => if rank (i / nb) (i % nb) < 0 then none else some (sb1 i)) ((List.range nb).map (ip * nb + ·)) m1 hs1 (by
      intro i hi
      rw [g.size _ (hlow _ h1), g.slots]
      refine ⟨(h2 i hi).1, (h2 i hi).2, fun p hp => ?_⟩
      split at hp
      · simp at hp
      · have hp : sb1 i = p := by simpa using hp
        subst hp
        refine valid_of_own (g.own i hi).1 fun b hb => (g.live b).2 (.inr ?_)
        exact List.mem_append_left _ (List.mem_flatMap.2 ⟨i, hi, List.mem_append_left _ hb⟩)) hnd
  have e3 : (List.range nb).foldlM (particlesSend rank ip nb sreq sb1) m1 =
      some { m1 with slots := S, pend := P ++ m1.pend } := by
    rw [← e2, List.foldlM_map]
    refine foldlM_congr _ _ fun ib hib s => ?_
    have hib := List.mem_range.1 hib
    have q1 : (ip * nb + ib) / nb = ip := by
      rw [Nat.mul_comm, Nat.mul_add_div (by omega), Nat.div_eq_of_lt hib, Nat.add_zero]
    have q2 : (ip * nb + ib) % nb = ib := by
      rw [Nat.mul_comm, Nat.mul_add_mod, Nat.mod_eq_of_lt hib]
    unfold particlesSend postAt
    dsimp only
    rw [q1, q2]
    by_cases hr : rank ip ib < 0
    · simp [hr]
    · simp [hr]
  have nn := List.nodup_append.1 g.nodup
  have hfr := frees_blocks new { m1 with slots := S, pend := P ++ m1.pend } nn.2.1 (by
    intro b hb
    have hfb := g.fresh b (List.mem_append_right _ hb)
    refine ⟨(g.live b).2 (.inr (List.mem_append_right _ hb)), fun q hq => ?_⟩
    rcases List.mem_append.1 hq with hq | hq
    · obtain ⟨c1, c2, c3⟩ := hP q hq
      refine ⟨?_, fun e => ?_⟩
      · have := hlow _ h1; omega
      · split at c3
        · simp at c3
        · have c3 : sb1 q.slot = q.buf := by simpa using c3
          exact nn.2.2 b (List.mem_flatMap.2 ⟨q.slot, c2, List.mem_append_left _ (by rw [c3, e]; simp [blk])⟩) b hb rfl
    · rw [g.pend] at hq
      have := hpl q hq
      refine ⟨by omega, fun e => ?_⟩
      have := this.2 b e; omega)
  refine ⟨{ m1 with slots := S, pend := P ++ m1.pend, live := m1.live \ new.toFinset }, sb1, rb1, ?_, ?_, ?_, fun p => ?_,
    P, by simp only [g.pend], fun q hq => ?_⟩
  · unfold particlesPatch
    dsimp only
    rw [e1]
    simp only [List.nil_append, Option.bind_eq_bind]
    rw [e3]
    simp only [Option.bind_some]
    rw [hfr]
    rfl
  · refine ⟨g.next, g.arrays, g.size, fun b => ?_, fun b hb => g.fresh b (List.mem_append_left _ hb), nn.1, g.keep, g.own⟩
    simp only [Finset.mem_sdiff, List.mem_toFinset, g.live, List.mem_append]
    constructor
    · tauto
    · rintro (h | h)
      · refine ⟨.inl h, fun hb => ?_⟩
        have := hlow b h; have := (g.fresh b (List.mem_append_right _ hb)).1; omega
      · exact ⟨.inr (.inl h), fun hb => nn.2.2 b h b hb rfl⟩
  · intro q hq
    show q.arr < m1.next ∧ ∀ b, q.buf = .block b → b < m1.next
    rcases List.mem_append.1 hq with hq | hq
    · obtain ⟨c1, c2, c3⟩ := hP q hq
      refine ⟨by have := hlow _ h1; have := g.next; omega, fun b e => ?_⟩
      split at c3
      · simp at c3
      · have c3 : sb1 q.slot = q.buf := by simpa using c3
        exact (g.fresh b (List.mem_append_left _ (List.mem_flatMap.2 ⟨q.slot, c2, List.mem_append_left _
          (by rw [c3, e]; simp [blk])⟩))).2
    · rw [g.pend] at hq
      exact ⟨lt_of_lt_of_le (hpl q hq).1 g.next, fun b e => lt_of_lt_of_le ((hpl q hq).2 b e) g.next⟩
  · rw [hS, g.slots]
  · obtain ⟨c1, c2, c3⟩ := hP q hq
    refine ⟨c1, c2, ?_⟩
    split at c3
    · simp at c3
    · have c3 : sb1 q.slot = q.buf := by simpa using c3
      exact c3.symm

theorem patch_loop (nb : Nat) (rank : Nat → Nat → Int) (out inc : Nat → Nat) (sreq : Nat) :
    ∀ (L : List Nat) (m : Mem A) (sb rb : Nat → Buf A), sreq ∈ m.live → Low m → PendLow m →
    (∀ i ∈ L.flatMap fun ip => (List.range nb).map (ip * nb + ·), i < m.size sreq ∧ (sreq, i) ∉ m.slots) →
    (L.flatMap fun ip => (List.range nb).map (ip * nb + ·)).Nodup →
    ∃ m' sb' rb', L.foldlM (particlesPatch nb rank out inc sreq) (m, sb, rb) = some (m', sb', rb') ∧
      Grow (L.flatMap fun ip => (List.range nb).map (ip * nb + ·)) m m' sb rb sb' rb' ∧ PendLow m' ∧
      (∀ p, p ∈ m'.slots ↔ p ∈ m.slots ∨ p.1 = sreq ∧ p.2 ∈ L.flatMap fun ip => (List.range nb).map (ip * nb + ·)) ∧
      ∃ P, m'.pend = P ++ m.pend ∧ ∀ q ∈ P, q.arr = sreq ∧
        q.slot ∈ (L.flatMap fun ip => (List.range nb).map (ip * nb + ·)) ∧ q.buf = sb' q.slot
  | [], m, sb, rb, _, _, hpl, _, _ => ⟨m, sb, rb, rfl, Grow.nil _ _ _, hpl, by simp, [], rfl, by simp⟩
  | ip :: L, m, sb, rb, h1, hlow, hpl, h2, hn => by
    rw [List.flatMap_cons, List.nodup_append] at hn
    obtain ⟨m1, sb1, rb1, e1, g1, hp1, hS1, P1, q1, hP1⟩ := patch_one nb rank out inc sreq m sb rb ip h1 hlow hpl
      fun i hi => h2 i (by rw [List.flatMap_cons]; exact List.mem_append_left _ hi)
    have hd : ∀ i ∈ (List.range nb).map (ip * nb + ·), i ∉ L.flatMap fun ip => (List.range nb).map (ip * nb + ·) :=
      fun i hi hj => hn.2.2 i hi i hj rfl
    obtain ⟨m2, sb2, rb2, e2, g2, hp2, hS2, P2, q2, hP2⟩ := patch_loop nb rank out inc sreq L m1 sb1 rb1
      ((g1.live _).2 (.inl h1)) (g1.low hlow) hp1 (by
        intro i hi
        obtain ⟨b1, b2⟩ := h2 i (by rw [List.flatMap_cons]; exact List.mem_append_right _ hi)
        rw [g1.size _ (hlow _ h1)]
        refine ⟨b1, fun hx => ?_⟩
        rcases (hS1 _).1 hx with hx | hx
        · exact b2 hx
        · exact hd i hx.2 hi) hn.2.1
    refine ⟨m2, sb2, rb2, ?_, ?_, hp2, fun p => ?_, P2 ++ P1, ?_, fun q hq => ?_⟩
    · rw [List.foldlM_cons, e1]; exact e2
    · rw [List.flatMap_cons]; exact g1.trans g2 hd
    · rw [hS2, hS1, List.flatMap_cons, List.mem_append]; tauto
    · rw [q2, q1]; simp
    · rw [List.flatMap_cons]
      rcases List.mem_append.1 hq with hq | hq
      · obtain ⟨c1, c2, c3⟩ := hP2 q hq
        exact ⟨c1, List.mem_append_right _ c2, c3⟩
      · obtain ⟨c1, c2, c3⟩ := hP1 q hq
        exact ⟨c1, List.mem_append_left _ c2, by rw [(g2.keep _ (hd _ c2)).1]; exact c3⟩

/-! ## Starting -/

/-- the memory is in order: blocks, request slots and messages lie below the next block -/
structure Wf (m : Mem A) : Prop where
  low : Low m
  slots : ∀ p ∈ m.slots, p.1 < m.next
  pend : PendLow m

/-- what `_start` leaves -/
structure Started (U : A → Prop) (m m' : Mem A) (h : Handle A) : Prop where
  open_ : h.finalized = false
  next : m.next ≤ m'.next
  arrays : m'.arrays = m.arrays
  live : ∀ b, b ∈ m'.live ↔ b ∈ m.live ∨ b ∈ h.self :: h.inner
  fresh : ∀ b ∈ h.self :: h.inner, m.next ≤ b ∧ b < m'.next
  nodup : (h.self :: h.inner).Nodup
  slotsOld : ∀ p ∈ m.slots, p ∈ m'.slots
  slotsNew : ∀ p ∈ m'.slots, p ∈ m.slots ∨ p.1 < m'.next
  own : Own U h m'.slots
  pend : ∃ P, m'.pend = P ++ m.pend ∧ ∀ q ∈ P, InFlight U h q ∧ (q.arr = h.sreq ∨ q.arr = h.rreq)

theorem malloc_live (m : Mem A) (n b : Nat) : b ∈ (m.malloc n).2.live ↔ b ∈ m.live ∨ b = m.next := by
  simp only [Mem.malloc, Finset.mem_insert]; tauto

theorem malloc_size (m : Mem A) (n b : Nat) (h : b < m.next) : (m.malloc n).2.size b = m.size b := by
  simp only [Mem.malloc]; rw [Function.update_of_ne (by omega)]

theorem malloc_size_self (m : Mem A) (n : Nat) : (m.malloc n).2.size m.next = n := by
  simp [Mem.malloc]

/-- `sync_guard_fields_2d_start` -/
theorem startGuard_ok (np nb na : Nat) (rank : Nat → Nat → Int) (arr : Nat → Nat → A) (m : Mem A) (wf : Wf m)
    (ha : ∀ ia < na, ∀ ip < np, arr ia ip ∈ m.arrays) :
    ∃ h m', startGuard np nb na rank arr m = some (h, m') ∧
      Started (fun a => ∃ ia < na, ∃ ip < np, a = arr ia ip) m m' h := by
  unfold startGuard
  dsimp only
  set m1 := (m.malloc na).2 with hm1
  obtain ⟨l1, l2, l3, l4, l5, l6, l7⟩ := mallocs_spec (List.replicate na np) m1
  set m2 := (m1.mallocs (List.replicate na np)).2 with hm2
  obtain ⟨t1, t2, t3, t4, t5, t6, t7⟩ := mallocs_spec [np, np, np] m2
  set m3 := (m2.mallocs [np, np, np]).2 with hm3
  set m4 := (m3.malloc (np * nb * na)).2 with hm4
  set m5 := (m4.malloc (np * nb * na)).2 with hm5
  have n1 : m1.next = m.next + 1 := rfl
  have n2 : m2.next = m.next + 1 + na := by rw [l2, n1]; simp
  have n3 : m3.next = m.next + 1 + na + 3 := by rw [t2, n2]; simp
  have n4 : m4.next = m.next + 1 + na + 3 + 1 := by rw [hm4]; show m3.next + 1 = _; rw [n3]
  have n5 : m5.next = m.next + 1 + na + 3 + 1 + 1 := by rw [hm5]; show m4.next + 1 = _; rw [n4]
  have es : (m3.malloc (np * nb * na)).1 = m.next + 1 + na + 3 := n3
  have er : (m4.malloc (np * nb * na)).1 = m.next + 1 + na + 3 + 1 := n4
  rw [es, er]
  have s4 : m4.size (m.next + 1 + na + 3) = np * nb * na := by
    rw [hm4, ← n3]; exact malloc_size_self _ _
  have s5 : m5.size (m.next + 1 + na + 3) = np * nb * na := by
    rw [hm5, malloc_size _ _ _ (by omega), s4]
  have s5' : m5.size (m.next + 1 + na + 3 + 1) = np * nb * na := by
    rw [hm5, ← n4]; exact malloc_size_self _ _
  have a5 : m5.arrays = m.arrays := by show m3.arrays = _; rw [t4, l4]; rfl
  have sl5 : m5.slots = m.slots := by show m3.slots = _; rw [t5, l5]; rfl
  have p5 : m5.pend = m.pend := by show m3.pend = _; rw [t6, l6]; rfl
  have v5 : ∀ b, b ∈ m5.live ↔ b ∈ m.live ∨ m.next ≤ b ∧ b < m.next + 1 + na + 3 + 1 + 1 := by
    intro b
    rw [hm5, malloc_live, hm4, malloc_live, t3, l3, hm1, malloc_live, n4, n3, n2, n1]
    simp only [List.length_replicate, List.length_cons, List.length_nil]
    generalize (b ∈ m.live) = X
    generalize m.next = n
    clear * -
    constructor
    · rintro ((((((h | h) | h) | h) | h) | h)) <;> first | (right; omega) | exact .inl h
    · rintro (h | h)
      · tauto
      · by_cases e1 : b = n
        · tauto
        by_cases e2 : b = n + 1 + na + 3
        · tauto
        by_cases e3 : b = n + 1 + na + 3 + 1
        · tauto
        by_cases e4 : b < n + 1 + na
        · exact .inl (.inl (.inl (.inr (by omega))))
        · exact .inl (.inl (.inr (by omega)))
  have hslot : ∀ p ∈ m.slots, p.1 < m.next := wf.slots
  obtain ⟨S, P, e, hS, hP⟩ := guard_loop rank arr (m.next + 1 + na + 3) (m.next + 1 + na + 3 + 1) (by omega)
    (guardSlots np nb na) m5 ((v5 _).2 (.inr (by omega))) ((v5 _).2 (.inr (by omega))) (by
      intro s hs
      have hlt := (guard_slots_mem np nb na s.1).1 (List.mem_map_of_mem hs)
      rw [s5, s5', sl5, a5]
      refine ⟨hlt, hlt, fun hx => ?_, fun hx => ?_, ?_⟩
      · have := hslot _ hx; simp only at this; omega
      · have := hslot _ hx; simp only at this; omega
      · unfold guardSlots at hs
        simp only [List.mem_flatMap, List.mem_map, List.mem_range] at hs
        obtain ⟨ia, hia, ip, hip, ib, hib, rfl⟩ := hs
        exact ha ia hia ip hip) (guard_slots_nodup np nb na)
  rw [e]
  simp only [Option.bind_eq_bind, Option.bind_some]
  have et : (m2.mallocs [np, np, np]).1 = List.range' (m.next + 1 + na) 3 := by rw [t1, n2]; rfl
  rw [et, frees_blocks _ _ List.nodup_range' (by
    intro b hb
    simp only [List.mem_range'_1] at hb
    refine ⟨(v5 b).2 (.inr (by omega)), fun q hq => ?_⟩
    simp only [List.mem_append] at hq
    rcases hq with hq | hq
    · obtain ⟨c1, _, s, _, c3⟩ := hP q hq
      refine ⟨by rcases c1 with c1 | c1 <;> omega, by rw [c3]; simp⟩
    · rw [p5] at hq
      have := wf.pend q hq
      exact ⟨by omega, fun e => by have := this.2 b e; omega⟩)]
  simp only [Option.bind_some, Option.pure_def, Option.some.injEq, Prod.mk.injEq]
  have ell : (m1.mallocs (List.replicate na np)).1 = List.range' (m.next + 1) na := by
    rw [l1, n1]; simp
  rw [ell]
  refine ⟨_, _, ⟨rfl, rfl⟩, ?_⟩
  have es6 : (Mem.malloc { m5 with
      slots := S
      pend := P ++ m5.pend
      live := m5.live \ (List.range' (m.next + 1 + na) 3).toFinset } 1).1 = m.next + 1 + na + 3 + 1 + 1 := n5
  rw [es6]
  have etab : (m.malloc na).1 = m.next := rfl
  rw [etab]
  have nod : ((m.next + 1 + na + 3 + 1 + 1) :: Handle.inner (A := A) ⟨.guard, m.next + 1 + na + 3 + 1 + 1,
      m.next + 1 + na + 3, m.next + 1 + na + 3 + 1, np * nb * na, fun _ => .null, fun _ => .null,
      List.range' (m.next + 1) na ++ [m.next], fun _ => [], false⟩).Nodup := by
    have eb : ∀ l : List Nat, (l.flatMap fun _ => blk (.null : Buf A) ++ blk (.null : Buf A)) = [] := by
      intro l; simp [blk]
    simp only [Handle.inner, Handle.blocks, eb, List.append_nil, List.nodup_cons, List.mem_cons,
      List.mem_append, List.mem_range'_1, List.not_mem_nil, or_false]
    refine ⟨by omega, by omega, by omega, ?_⟩
    rw [List.nodup_append]
    refine ⟨List.nodup_range', by simp, fun a ha b hb e => ?_⟩
    simp only [List.mem_range'_1] at ha
    simp only [List.mem_cons, List.not_mem_nil, or_false] at hb
    omega
  have inn : ∀ b, b ∈ (m.next + 1 + na + 3 + 1 + 1) :: Handle.inner (A := A) ⟨.guard, m.next + 1 + na + 3 + 1 + 1,
      m.next + 1 + na + 3, m.next + 1 + na + 3 + 1, np * nb * na, fun _ => .null, fun _ => .null,
      List.range' (m.next + 1) na ++ [m.next], fun _ => [], false⟩ ↔
      (m.next ≤ b ∧ b < m.next + 1 + na ∨ m.next + 1 + na + 3 ≤ b ∧ b < m.next + 1 + na + 3 + 1 + 1 + 1) := by
    intro b
    simp [Handle.inner, Handle.blocks, blk]
    omega
  refine ⟨rfl, ?_, ?_, fun b => ?_, fun b hb => ?_, ?_, fun p hp => ?_, fun p hp => ?_, ?_, P, ?_, fun q hq => ?_⟩
  · show m.next ≤ m5.next + 1; omega
  · exact a5
  · rw [malloc_live, inn]
    show b ∈ m5.live \ _ ∨ b = m5.next ↔ _
    simp only [Finset.mem_sdiff, List.mem_toFinset, List.mem_range'_1, v5, n5]
    constructor
    · rintro (⟨h | h, h'⟩ | h)
      · exact .inl h
      · right; omega
      · right; omega
    · rintro (h | h)
      · have := wf.low b h
        left; exact ⟨.inl h, by omega⟩
      · by_cases e : b = m.next + 1 + na + 3 + 1 + 1
        · exact .inr e
        · left; exact ⟨.inr (by omega), by omega⟩
  · have := (inn b).1 hb
    show m.next ≤ b ∧ b < m5.next + 1
    omega
  · exact nod
  · exact (hS p).2 (.inl (by rw [sl5]; exact hp))
  · have hp : p ∈ S := hp
    rcases (hS p).1 hp with h | ⟨h, _⟩
    · exact .inl (by rw [sl5] at h; exact h)
    · right; show p.1 < m5.next + 1; rcases h with h | h <;> omega
  · refine ⟨fun i hi => ⟨(hS _).2 (.inr ⟨.inl rfl, ?_⟩), (hS _).2 (.inr ⟨.inr rfl, ?_⟩)⟩, fun i _ => ⟨.inl rfl, .inl rfl⟩,
      fun _ => ?_, fun h => by simp at h, fun i _ a ha => by simp at ha⟩
    · exact (guard_slots_mem np nb na i).2 hi
    · exact (guard_slots_mem np nb na i).2 hi
    · simp [Handle.blocks, blk]
  · show P ++ m5.pend = _; rw [p5]
  · obtain ⟨c1, c2, s, hs, c3⟩ := hP q hq
    refine ⟨⟨(guard_slots_mem np nb na _).1 c2, fun _ => ⟨c1, _, c3, ?_⟩, fun h => absurd rfl h⟩, c1⟩
    unfold guardSlots at hs
    simp only [List.mem_flatMap, List.mem_map, List.mem_range] at hs
    obtain ⟨ia, hia, ip, hip, ib, hib, rfl⟩ := hs
    exact ⟨ia, hia, ip, hip, rfl⟩

theorem div_lt_of {i np nb : Nat} (h : i < np * nb) : i / nb < np :=
  Nat.div_lt_of_lt_mul (by rw [Nat.mul_comm]; exact h)

/-- the memory before the loop of the currents -/
theorem currents_prep (np nb : Nat) (m : Mem A) :
    let m1 := (m.mallocs [np, np, np, np]).2
    let m2 := (m1.mallocs [np, np, np]).2
    let m3 := (m2.malloc (np * nb)).2
    let m4 := (m3.malloc (np * nb)).2
    let m5 := (m4.malloc (np * nb)).2
    let m6 := (m5.malloc (np * nb)).2
    (m6.next = m.next + 11 ∧ m6.size (m.next + 7) = np * nb ∧ m6.size (m.next + 8) = np * nb ∧ m6.arrays = m.arrays ∧
      m6.slots = m.slots ∧ m6.pend = m.pend ∧ ∀ b, b ∈ m6.live ↔ b ∈ m.live ∨ m.next ≤ b ∧ b < m.next + 11) ∧
    (m2.malloc (np * nb)).1 = m.next + 7 ∧ (m3.malloc (np * nb)).1 = m.next + 8 ∧ (m4.malloc (np * nb)).1 = m.next + 9 ∧
    (m5.malloc (np * nb)).1 = m.next + 10 ∧ (m.mallocs [np, np, np, np]).1 = List.range' m.next 4 ∧
    (m1.mallocs [np, np, np]).1 = List.range' (m.next + 4) 3 := by
  intro m1 m2 m3 m4 m5 m6
  obtain ⟨l1, l2, l3, l4, l5, l6, l7⟩ := mallocs_spec [np, np, np, np] m
  have hm1 : m1 = (m.mallocs [np, np, np, np]).2 := rfl
  obtain ⟨t1, t2, t3, t4, t5, t6, t7⟩ := mallocs_spec [np, np, np] m1
  have hm2 : m2 = (m1.mallocs [np, np, np]).2 := rfl
  have hm3 : m3 = (m2.malloc (np * nb)).2 := rfl
  have hm4 : m4 = (m3.malloc (np * nb)).2 := rfl
  have hm5 : m5 = (m4.malloc (np * nb)).2 := rfl
  have hm6 : m6 = (m5.malloc (np * nb)).2 := rfl
  have n1 : m1.next = m.next + 4 := by rw [l2]; rfl
  have n2 : m2.next = m.next + 7 := by rw [t2, n1]; rfl
  have n3 : m3.next = m.next + 8 := by rw [hm3]; show m2.next + 1 = _; rw [n2]
  have n4 : m4.next = m.next + 9 := by rw [hm4]; show m3.next + 1 = _; rw [n3]
  have n5 : m5.next = m.next + 10 := by rw [hm5]; show m4.next + 1 = _; rw [n4]
  have n6 : m6.next = m.next + 11 := by rw [hm6]; show m5.next + 1 = _; rw [n5]
  have es : (m2.malloc (np * nb)).1 = m.next + 7 := n2
  have er : (m3.malloc (np * nb)).1 = m.next + 8 := n3
  have esa : (m4.malloc (np * nb)).1 = m.next + 9 := n4
  have era : (m5.malloc (np * nb)).1 = m.next + 10 := n5
  have ej : (m.mallocs [np, np, np, np]).1 = List.range' m.next 4 := l1
  have et : (m1.mallocs [np, np, np]).1 = List.range' (m.next + 4) 3 := by rw [t1, n1]; rfl
  have s6 : m6.size (m.next + 7) = np * nb := by
    rw [hm6, malloc_size _ _ _ (by omega), hm5, malloc_size _ _ _ (by omega), hm4, malloc_size _ _ _ (by omega), hm3, ← n2]
    exact malloc_size_self _ _
  have s6' : m6.size (m.next + 8) = np * nb := by
    rw [hm6, malloc_size _ _ _ (by omega), hm5, malloc_size _ _ _ (by omega), hm4, ← n3]
    exact malloc_size_self _ _
  have a6 : m6.arrays = m.arrays := by show m2.arrays = _; rw [t4, l4]
  have sl6 : m6.slots = m.slots := by show m2.slots = _; rw [t5, l5]
  have p6 : m6.pend = m.pend := by show m2.pend = _; rw [t6, l6]
  have v6 : ∀ b, b ∈ m6.live ↔ b ∈ m.live ∨ m.next ≤ b ∧ b < m.next + 11 := by
    intro b
    rw [hm6, malloc_live, hm5, malloc_live, hm4, malloc_live, hm3, malloc_live, t3, l3, n5, n4, n3, n2, n1]
    simp only [List.length_cons, List.length_nil]
    generalize (b ∈ m.live) = X
    generalize m.next = n
    clear * -
    constructor
    · rintro ((((((h | h) | h) | h) | h) | h) | h) <;> first | (right; omega) | exact .inl h
    · rintro (h | h)
      · tauto
      · by_cases e1 : b = n + 7
        · tauto
        by_cases e2 : b = n + 8
        · tauto
        by_cases e3 : b = n + 9
        · tauto
        by_cases e4 : b = n + 10
        · tauto
        by_cases e5 : b < n + 4
        · exact .inl (.inl (.inl (.inl (.inl (.inr (by omega))))))
        · exact .inl (.inl (.inl (.inl (.inr (by omega)))))
  exact ⟨⟨n6, s6, s6', a6, sl6, p6, v6⟩, es, er, esa, era, ej, et⟩

/-- the loop of the currents and what follows -/
theorem currents_finish (np nb : Nat) (rank : Nat → Nat → Int) (j : Nat → Nat → A) (m m6 : Mem A) (wf : Wf m)
    (n6 : m6.next = m.next + 11) (s6 : m6.size (m.next + 7) = np * nb) (s6' : m6.size (m.next + 8) = np * nb)
    (a6 : m6.arrays = m.arrays) (sl6 : m6.slots = m.slots) (p6 : m6.pend = m.pend)
    (v6 : ∀ b, b ∈ m6.live ↔ b ∈ m.live ∨ m.next ≤ b ∧ b < m.next + 11) :
    ∃ h m', ((pairSlots np nb).foldlM (currentsPost rank (m.next + 7) (m.next + 8)) (m6, fun _ => .junk, fun _ => .junk)).bind
      (fun s => (s.1.frees ((List.range' (m.next + 4) 3).map .block)).bind fun x =>
        some ((⟨.currents, (x.malloc 1).1, m.next + 7, m.next + 8, np * nb, s.2.1, s.2.2,
          [m.next + 9, m.next + 10] ++ List.range' m.next 4,
          fun i => [j 0 (i / nb), j 1 (i / nb), j 2 (i / nb), j 3 (i / nb)], false⟩ : Handle A), (x.malloc 1).2)) =
        some (h, m') ∧ Started (fun a => ∃ k < 4, ∃ ip < np, a = j k ip) m m' h := by
  have low6 : Low m6 := by
    intro b hb
    rcases (v6 b).1 hb with h | h
    · have := wf.low b h; omega
    · omega
  have hL : (pairSlots np nb).map (·.1) = List.range (np * nb) := pair_slots np nb
  obtain ⟨m7, sb, rb, e, g, hS, hn, P, hp, hP⟩ := currents_loop rank (m.next + 7) (m.next + 8) (by omega)
    (pairSlots np nb) m6 (fun _ => .junk) (fun _ => .junk) ((v6 _).2 (.inr (by omega))) ((v6 _).2 (.inr (by omega))) low6 (by
      intro s hs
      have hlt : s.1 < np * nb := by
        have := List.mem_map_of_mem (f := fun x : Nat × Nat × Nat => x.1) hs
        rw [hL] at this
        exact List.mem_range.1 this
      rw [s6, s6', sl6]
      refine ⟨hlt, hlt, fun hx => ?_, fun hx => ?_⟩
      · have := wf.slots _ hx; simp only at this; omega
      · have := wf.slots _ hx; simp only at this; omega) (by rw [hL]; exact List.nodup_range)
  rw [hL] at g hS hn hP
  have hfresh := g.fresh
  have hnext := g.next
  rw [n6] at hfresh hnext
  rw [e, Option.bind_some]
  rw [frees_blocks (List.range' (m.next + 4) 3) m7 List.nodup_range' (by
    intro b hb
    simp only [List.mem_range'_1] at hb
    refine ⟨(g.live b).2 (.inl ((v6 b).2 (.inr (by omega)))), fun q hq => ?_⟩
    rw [hp, p6, List.mem_append] at hq
    rcases hq with hq | hq
    · obtain ⟨c1, c2, c3⟩ := hP q hq
      have hbl : ∀ x, x ∈ blks sb rb q.slot → m.next + 11 ≤ x := fun x hx =>
        (hfresh x (List.mem_flatMap.2 ⟨q.slot, c2, hx⟩)).1
      refine ⟨by rcases c1 with c1 | c1 <;> omega, fun e => ?_⟩
      have : m.next + 11 ≤ b := hbl b (by
        rcases c1 with ⟨_, c1⟩ | ⟨_, c1⟩ <;> rw [e] at c1 <;> simp [blks, ← c1, blk])
      omega
    · have := wf.pend q hq
      exact ⟨by omega, fun e => by have := this.2 b e; omega⟩)]
  rw [Option.bind_some]
  refine ⟨_, _, rfl, ?_⟩
  have es7 : (Mem.malloc { m7 with live := m7.live \ (List.range' (m.next + 4) 3).toFinset } 1).1 = m7.next := rfl
  rw [es7]
  have inn : ∀ b, b ∈ m7.next :: Handle.inner (A := A) ⟨.currents, m7.next,
      m.next + 7, m.next + 8, np * nb, sb, rb, [m.next + 9, m.next + 10] ++ List.range' m.next 4,
      fun i => [j 0 (i / nb), j 1 (i / nb), j 2 (i / nb), j 3 (i / nb)], false⟩ ↔
      (b = m7.next ∨ m.next ≤ b ∧ b < m.next + 4 ∨ m.next + 7 ≤ b ∧ b < m.next + 11 ∨
        b ∈ (List.range (np * nb)).flatMap (blks sb rb)) := by
    intro b
    show b ∈ m7.next :: (((m.next + 7) :: (m.next + 8) :: ([m.next + 9, m.next + 10] ++ List.range' m.next 4)) ++
      (List.range (np * nb)).flatMap (blks sb rb)) ↔ _
    simp only [List.mem_cons, List.mem_append, List.mem_range'_1, List.not_mem_nil, or_false]
    generalize (b ∈ (List.range (np * nb)).flatMap (blks sb rb)) = X
    constructor
    · rintro (h | (h | h | (h | h) | h) | h)
      · exact .inl h
      · right; right; left; omega
      · right; right; left; omega
      · right; right; left; omega
      · right; right; left; omega
      · right; left; omega
      · exact .inr (.inr (.inr h))
    · rintro (h | h | h | h)
      · exact .inl h
      · right; left; right; right; right; omega
      · right; left
        by_cases h1 : b = m.next + 7
        · exact .inl h1
        by_cases h2 : b = m.next + 8
        · exact .inr (.inl h2)
        right; right; left; omega
      · exact .inr (.inr h)
  have nod : (m7.next :: Handle.inner (A := A) ⟨.currents, m7.next,
      m.next + 7, m.next + 8, np * nb, sb, rb, [m.next + 9, m.next + 10] ++ List.range' m.next 4,
      fun i => [j 0 (i / nb), j 1 (i / nb), j 2 (i / nb), j 3 (i / nb)], false⟩).Nodup := by
    show (m7.next :: (((m.next + 7) :: (m.next + 8) :: ([m.next + 9, m.next + 10] ++ List.range' m.next 4)) ++
      (List.range (np * nb)).flatMap (blks sb rb))).Nodup
    rw [List.nodup_cons, List.nodup_append]
    refine ⟨?_, ?_, g.nodup, ?_⟩
    · simp only [List.mem_cons, List.mem_append, List.mem_range'_1, List.not_mem_nil, or_false, not_or]
      refine ⟨⟨by omega, by omega, ⟨by omega, by omega⟩, by omega⟩, fun hx => ?_⟩
      have := (hfresh _ hx).2; omega
    · simp only [List.cons_append, List.nil_append, List.nodup_cons, List.mem_cons, List.mem_range'_1]
      exact ⟨by omega, by omega, by omega, by omega, List.nodup_range'⟩
    · intro a ha b hb
      have := (hfresh b hb).1
      simp only [List.mem_cons, List.mem_append, List.mem_range'_1, List.not_mem_nil, or_false] at ha
      omega
  refine ⟨rfl, ?_, ?_, fun b => ?_, fun b hb => ?_, nod, fun p hp' => ?_, fun p hp' => ?_, ?_, P, ?_, fun q hq => ?_⟩
  · show m.next ≤ m7.next + 1; omega
  · show m7.arrays = _; rw [g.arrays, a6]
  · rw [malloc_live, inn]
    show b ∈ m7.live \ _ ∨ b = m7.next ↔ _
    simp only [Finset.mem_sdiff, List.mem_toFinset, List.mem_range'_1, g.live, v6]
    constructor
    · rintro (⟨(h | h) | h, h'⟩ | h)
      · exact .inl h
      · right
        by_cases e : b < m.next + 4
        · right; left; omega
        · right; right; left; omega
      · exact .inr (.inr (.inr (.inr h)))
      · exact .inr (.inl h)
    · rintro (h | h | h | h | h)
      · have := wf.low b h
        left; exact ⟨.inl (.inl h), by omega⟩
      · exact .inr h
      · left; exact ⟨.inl (.inr (by omega)), by omega⟩
      · left; exact ⟨.inl (.inr (by omega)), by omega⟩
      · have := hfresh b h
        left; exact ⟨.inr h, by omega⟩
  · have hb := (inn b).1 hb
    show m.next ≤ b ∧ b < m7.next + 1
    rcases hb with h | h | h | h
    · omega
    · omega
    · omega
    · have := hfresh b h; omega
  · exact (hS p).2 (.inl (by rw [sl6]; exact hp'))
  · have hp' : p ∈ m7.slots := hp'
    rcases (hS p).1 hp' with h | ⟨h, _⟩
    · exact .inl (by rw [sl6] at h; exact h)
    · right; show p.1 < m7.next + 1; rcases h with h | h <;> omega
  · refine ⟨fun i hi => ⟨(hS _).2 (.inr ⟨.inl rfl, List.mem_range.2 hi⟩), (hS _).2 (.inr ⟨.inr rfl, List.mem_range.2 hi⟩)⟩,
      fun i hi => g.own i (List.mem_range.2 hi), fun h => by simp at h, fun _ i hi => hn i (List.mem_range.2 hi),
      fun i hi a ha => ?_⟩
    have hip := div_lt_of (show i < np * nb from hi)
    simp only [List.mem_cons, List.not_mem_nil, or_false] at ha
    rcases ha with rfl | rfl | rfl | rfl
    · exact ⟨0, by omega, _, hip, rfl⟩
    · exact ⟨1, by omega, _, hip, rfl⟩
    · exact ⟨2, by omega, _, hip, rfl⟩
    · exact ⟨3, by omega, _, hip, rfl⟩
  · show m7.pend = _; rw [hp, p6]
  · obtain ⟨c1, c2, c3⟩ := hP q hq
    refine ⟨⟨List.mem_range.1 c2, fun h => by simp at h, fun _ => ⟨c1, fun _ => c3⟩⟩, ?_⟩
    rcases c1 with c1 | c1
    · exact .inl c1.1
    · exact .inr c1.1

/-- `sync_currents_2d_start` -/
theorem startCurrents_ok (np nb : Nat) (rank : Nat → Nat → Int) (j : Nat → Nat → A) (m : Mem A) (wf : Wf m) :
    ∃ h m', startCurrents np nb rank j m = some (h, m') ∧
      Started (fun a => ∃ k < 4, ∃ ip < np, a = j k ip) m m' h := by
  obtain ⟨⟨n6, s6, s6', a6, sl6, p6, v6⟩, es, er, esa, era, ej, et⟩ := currents_prep np nb m
  unfold startCurrents
  dsimp only
  rw [es, er, esa, era, ej, et]
  exact currents_finish np nb rank j m _ wf n6 s6 s6' a6 sl6 p6 v6

/-- the memory after the tables of the particles; `t` and `k` are the numbers of tables -/
theorem particles_tables (t k np na : Nat) (m : Mem A) :
    let m1 := (m.mallocs (List.replicate t np)).2
    let m2 := (m1.mallocs (List.replicate k np)).2
    let m3 := (m2.malloc (na * np)).2
    (m3.next = m.next + t + k + 1 ∧ m3.arrays = m.arrays ∧
      m3.slots = m.slots ∧ m3.pend = m.pend ∧ ∀ b, b ∈ m3.live ↔ b ∈ m.live ∨ m.next ≤ b ∧ b < m.next + t + k + 1) ∧
    (m.mallocs (List.replicate t np)).1 = List.range' m.next t ∧
    (m1.mallocs (List.replicate k np)).1 = List.range' (m.next + t) k ∧ (m2.malloc (na * np)).1 = m.next + t + k := by
  intro m1 m2 m3
  obtain ⟨l1, l2, l3, l4, l5, l6, l7⟩ := mallocs_spec (List.replicate t np) m
  obtain ⟨t1, t2, t3, t4, t5, t6, t7⟩ := mallocs_spec (List.replicate k np) m1
  have hm3 : m3 = (m2.malloc (na * np)).2 := rfl
  have n1 : m1.next = m.next + t := by show (m.mallocs _).2.next = _; rw [l2]; simp
  have n2 : m2.next = m.next + t + k := by show (m1.mallocs _).2.next = _; rw [t2, n1]; simp
  have n3 : m3.next = m.next + t + k + 1 := by rw [hm3]; show m2.next + 1 = _; rw [n2]
  refine ⟨⟨n3, ?_, ?_, ?_, fun b => ?_⟩, ?_, ?_, n2⟩
  · show m2.arrays = _; show (m1.mallocs _).2.arrays = _; rw [t4]; exact l4
  · show (m1.mallocs _).2.slots = _; rw [t5]; exact l5
  · show (m1.mallocs _).2.pend = _; rw [t6]; exact l6
  · rw [hm3, malloc_live, n2]
    have e2 : b ∈ m2.live ↔ _ := t3 b
    have e1 : b ∈ m1.live ↔ _ := l3 b
    rw [e2, e1, n1]
    simp only [List.length_replicate]
    generalize (b ∈ m.live) = X
    generalize m.next = n
    clear * -
    constructor
    · rintro (((h | h) | h) | h) <;> first | (right; omega) | exact .inl h
    · rintro (h | h)
      · exact .inl (.inl (.inl h))
      · by_cases e1 : b = n + t + k
        · exact .inr e1
        by_cases e2 : b < n + t
        · exact .inl (.inl (.inr (by omega)))
        · exact .inl (.inr (by omega))
  · rw [l1]; simp
  · rw [t1, n1]; simp

/-- the memory before the loops of the particles -/
theorem particles_prep (B tot : Nat) (m m3 : Mem A) (n3 : m3.next = B + 1) (a3 : m3.arrays = m.arrays)
    (sl3 : m3.slots = m.slots) (p3 : m3.pend = m.pend)
    (v3 : ∀ b, b ∈ m3.live ↔ b ∈ m.live ∨ m.next ≤ b ∧ b < B + 1) (hB : m.next ≤ B) :
    let m4 := (m3.malloc tot).2
    let m5 := (m4.malloc tot).2
    let m6 := (m5.malloc tot).2
    let m7 := (m6.malloc tot).2
    let m8 := (m7.malloc tot).2
    (m8.next = B + 6 ∧ m8.size (B + 4) = tot ∧ m8.size (B + 5) = tot ∧ m8.arrays = m.arrays ∧
      m8.slots = m.slots ∧ m8.pend = m.pend ∧ ∀ b, b ∈ m8.live ↔ b ∈ m.live ∨ m.next ≤ b ∧ b < B + 6) ∧
    (m3.malloc tot).1 = B + 1 ∧ (m4.malloc tot).1 = B + 2 ∧ (m5.malloc tot).1 = B + 3 ∧ (m6.malloc tot).1 = B + 4 ∧
    (m7.malloc tot).1 = B + 5 := by
  intro m4 m5 m6 m7 m8
  have n4 : m4.next = B + 2 := by show m3.next + 1 = _; omega
  have n5 : m5.next = B + 3 := by show m4.next + 1 = _; omega
  have n6 : m6.next = B + 4 := by show m5.next + 1 = _; omega
  have n7 : m7.next = B + 5 := by show m6.next + 1 = _; omega
  have n8 : m8.next = B + 6 := by show m7.next + 1 = _; omega
  refine ⟨⟨n8, ?_, ?_, a3, sl3, p3, fun b => ?_⟩, n3, n4, n5, n6, n7⟩
  · show (m7.malloc tot).2.size _ = _
    rw [malloc_size _ _ _ (by omega), ← n6]
    exact malloc_size_self m6 tot
  · show (m7.malloc tot).2.size _ = _
    rw [← n7]
    exact malloc_size_self m7 tot
  · show b ∈ (m7.malloc tot).2.live ↔ _
    rw [malloc_live, n7]
    show (b ∈ (m6.malloc tot).2.live ∨ _) ↔ _
    rw [malloc_live, n6]
    show ((b ∈ (m5.malloc tot).2.live ∨ _) ∨ _) ↔ _
    rw [malloc_live, n5]
    show (((b ∈ (m4.malloc tot).2.live ∨ _) ∨ _) ∨ _) ↔ _
    rw [malloc_live, n4]
    show ((((b ∈ (m3.malloc tot).2.live ∨ _) ∨ _) ∨ _) ∨ _) ↔ _
    rw [malloc_live, n3, v3]
    generalize (b ∈ m.live) = X
    generalize m.next = n at hB ⊢
    clear * - hB
    constructor
    · rintro ((((((h | h) | h) | h) | h) | h) | h) <;> first | (right; omega) | exact .inl h
    · rintro (h | h)
      · tauto
      · by_cases e1 : b = B + 5
        · tauto
        by_cases e2 : b = B + 4
        · tauto
        by_cases e3 : b = B + 3
        · tauto
        by_cases e4 : b = B + 2
        · tauto
        by_cases e5 : b = B + 1
        · tauto
        exact .inl (.inl (.inl (.inl (.inl (.inr (by omega))))))

/-- the loops of the particles and what follows -/
theorem particles_finish (t k np nb : Nat) (rank : Nat → Nat → Int) (out inc : Nat → Nat) (arrs : Nat → List A)
    (m m8 : Mem A) (wf : Wf m) (B : Nat) (hB : B = m.next + t + k)
    (n8 : m8.next = B + 6) (s8 : m8.size (B + 4) = np * nb) (s8' : m8.size (B + 5) = np * nb)
    (a8 : m8.arrays = m.arrays) (sl8 : m8.slots = m.slots) (p8 : m8.pend = m.pend)
    (v8 : ∀ b, b ∈ m8.live ↔ b ∈ m.live ∨ m.next ≤ b ∧ b < B + 6) :
    ∃ h m', ((List.range np).foldlM (particlesPatch nb rank out inc (B + 4)) (m8, fun _ => .junk, fun _ => .junk)).bind
      (fun s => ((List.range (np * nb)).foldlM (particlesRecv nb rank (B + 5) s.2.2) s.1).bind fun y =>
        (y.frees ((List.range' m.next t).map .block)).bind fun x =>
        some (some (⟨.particles, (x.malloc 1).1, B + 4, B + 5, np * nb, s.2.1, s.2.2,
          [B + 2, B + 3, B, B + 1] ++ List.range' (m.next + t) k,
          fun i => if inc i = 0 then [] else arrs (i / nb), false⟩ : Handle A), (x.malloc 1).2)) =
        some (some h, m') ∧ Started (fun a => ∃ ip < np, a ∈ arrs ip) m m' h := by
  have low8 : Low m8 := by
    intro b hb
    rcases (v8 b).1 hb with h | h
    · have := wf.low b h; omega
    · omega
  have pl8 : PendLow m8 := by
    intro q hq
    rw [p8] at hq
    have := wf.pend q hq
    exact ⟨by omega, fun b e => by have := this.2 b e; omega⟩
  have hL := patch_slots np nb
  have hs4 : B + 4 ∈ m8.live := (v8 _).2 (.inr (by omega))
  have hs5 : B + 5 ∈ m8.live := (v8 _).2 (.inr (by omega))
  obtain ⟨m9, sb, rb, e, g, hpl, hS, P, hp, hP⟩ := patch_loop nb rank out inc (B + 4)
    (List.range np) m8 (fun _ => .junk) (fun _ => .junk) hs4 low8 pl8 (by
      rw [hL]
      intro i hi
      rw [s8, sl8]
      refine ⟨List.mem_range.1 hi, fun hx => ?_⟩
      have := wf.slots _ hx; simp only at this; omega) (by rw [hL]; exact List.nodup_range)
  rw [hL] at g hS hP
  have hfresh := g.fresh
  have hnext := g.next
  rw [n8] at hfresh hnext
  obtain ⟨S, R, e2, hS2, hR⟩ := post_loop (B + 5)
    (fun i => if rank (i / nb) (i % nb) < 0 then none else some (rb i)) (List.range (np * nb)) m9
    ((g.live _).2 (.inl hs5)) (by
      intro i hi
      rw [g.size _ (by omega), s8']
      refine ⟨List.mem_range.1 hi, fun hx => ?_, fun p hp => ?_⟩
      · rcases (hS _).1 hx with hx | hx
        · rw [sl8] at hx
          have := wf.slots _ hx; simp only at this; omega
        · have := hx.1; simp only at this; omega
      · split at hp
        · simp at hp
        · have hp : rb i = p := by simpa using hp
          subst hp
          refine valid_of_own (g.own i hi).2 fun b hb => (g.live b).2 (.inr ?_)
          exact List.mem_flatMap.2 ⟨i, hi, List.mem_append_right _ hb⟩) List.nodup_range
  have e3 : (List.range (np * nb)).foldlM (particlesRecv nb rank (B + 5) rb) m9 =
      some { m9 with slots := S, pend := R ++ m9.pend } := by
    rw [← e2]
    refine foldlM_congr _ _ fun i _ s => ?_
    unfold particlesRecv postAt
    dsimp only
    by_cases hr : rank (i / nb) (i % nb) < 0
    · simp [hr]
    · simp [hr]
  rw [e, Option.bind_some, e3, Option.bind_some]
  have hRb : ∀ q ∈ R, q.buf = rb q.slot := by
    intro q hq
    obtain ⟨c1, c2, c3⟩ := hR q hq
    split at c3
    · simp at c3
    · have c3 : rb q.slot = q.buf := by simpa using c3
      exact c3.symm
  rw [frees_blocks (List.range' m.next t) { m9 with slots := S, pend := R ++ m9.pend } List.nodup_range' (by
    intro b hb
    simp only [List.mem_range'_1] at hb
    refine ⟨(g.live b).2 (.inl ((v8 b).2 (.inr (by omega)))), fun q hq => ?_⟩
    rw [hp, p8, List.mem_append, List.mem_append] at hq
    have hbl : ∀ x, q.slot ∈ List.range (np * nb) → x ∈ blks sb rb q.slot → B + 6 ≤ x := fun x hs hx =>
        (hfresh x (List.mem_flatMap.2 ⟨q.slot, hs, hx⟩)).1
    rcases hq with hq | hq | hq
    · obtain ⟨c1, c2, c3⟩ := hR q hq
      refine ⟨by omega, fun e => ?_⟩
      have c4 := hRb q hq
      have : B + 6 ≤ b := hbl b c2 (by rw [e] at c4; simp [blks, ← c4, blk])
      omega
    · obtain ⟨c1, c2, c3⟩ := hP q hq
      refine ⟨by omega, fun e => ?_⟩
      have : B + 6 ≤ b := hbl b c2 (by rw [e] at c3; simp [blks, ← c3, blk])
      omega
    · have := wf.pend q hq
      exact ⟨by omega, fun e => by have := this.2 b e; omega⟩)]
  rw [Option.bind_some]
  refine ⟨_, _, rfl, ?_⟩
  have es9 : (Mem.malloc { m9 with
      slots := S
      pend := R ++ m9.pend
      live := m9.live \ (List.range' m.next t).toFinset } 1).1 = m9.next := rfl
  rw [es9]
  have inn : ∀ b, b ∈ m9.next :: Handle.inner (A := A) ⟨.particles, m9.next, B + 4, B + 5, np * nb, sb, rb,
      [B + 2, B + 3, B, B + 1] ++ List.range' (m.next + t) k,
      fun i => if inc i = 0 then [] else arrs (i / nb), false⟩ ↔
      (b = m9.next ∨ m.next + t ≤ b ∧ b < B + 6 ∨ b ∈ (List.range (np * nb)).flatMap (blks sb rb)) := by
    intro b
    show b ∈ m9.next :: (((B + 4) :: (B + 5) :: ([B + 2, B + 3, B, B + 1] ++ List.range' (m.next + t) k)) ++
      (List.range (np * nb)).flatMap (blks sb rb)) ↔ _
    simp only [List.mem_cons, List.mem_append, List.mem_range'_1, List.not_mem_nil, or_false]
    generalize (b ∈ (List.range (np * nb)).flatMap (blks sb rb)) = X
    generalize m9.next = N
    generalize m.next = n at hB ⊢
    clear * - hB
    constructor
    · rintro (h | (h | h | (h | h | h | h) | h) | h)
      · exact .inl h
      · right; left; omega
      · right; left; omega
      · right; left; omega
      · right; left; omega
      · right; left; omega
      · right; left; omega
      · right; left; omega
      · exact .inr (.inr h)
    · rintro (h | h | h)
      · exact .inl h
      · right; left
        by_cases h1 : b = B + 4
        · exact .inl h1
        by_cases h2 : b = B + 5
        · exact .inr (.inl h2)
        right; right
        by_cases h3 : b < B
        · right; omega
        · left; omega
      · exact .inr (.inr h)
  have nod : (m9.next :: Handle.inner (A := A) ⟨.particles, m9.next, B + 4, B + 5, np * nb, sb, rb,
      [B + 2, B + 3, B, B + 1] ++ List.range' (m.next + t) k,
      fun i => if inc i = 0 then [] else arrs (i / nb), false⟩).Nodup := by
    show (m9.next :: (((B + 4) :: (B + 5) :: ([B + 2, B + 3, B, B + 1] ++ List.range' (m.next + t) k)) ++
      (List.range (np * nb)).flatMap (blks sb rb))).Nodup
    rw [List.nodup_cons, List.nodup_append]
    refine ⟨?_, ?_, g.nodup, ?_⟩
    · simp only [List.mem_cons, List.mem_append, List.mem_range'_1, List.not_mem_nil, or_false, not_or]
      refine ⟨⟨by omega, by omega, ⟨by omega, by omega, by omega, by omega⟩, by omega⟩, fun hx => ?_⟩
      have := (hfresh _ hx).2; omega
    · simp only [List.cons_append, List.nil_append, List.nodup_cons, List.mem_cons, List.mem_range'_1]
      exact ⟨by omega, by omega, by omega, by omega, by omega, by omega, List.nodup_range'⟩
    · intro a ha b hb
      have := (hfresh b hb).1
      simp only [List.mem_cons, List.mem_append, List.mem_range'_1, List.not_mem_nil, or_false] at ha
      omega
  refine ⟨rfl, ?_, ?_, fun b => ?_, fun b hb => ?_, nod, fun p hp' => ?_, fun p hp' => ?_, ?_, R ++ P, ?_, fun q hq => ?_⟩
  · show m.next ≤ m9.next + 1; omega
  · show m9.arrays = _; rw [g.arrays, a8]
  · rw [malloc_live, inn]
    show b ∈ m9.live \ _ ∨ b = m9.next ↔ _
    simp only [Finset.mem_sdiff, List.mem_toFinset, List.mem_range'_1, g.live, v8]
    constructor
    · rintro (⟨(h | h) | h, h'⟩ | h)
      · exact .inl h
      · right; right; left; omega
      · exact .inr (.inr (.inr h))
      · exact .inr (.inl h)
    · rintro (h | h | h | h)
      · have := wf.low b h
        left; exact ⟨.inl (.inl h), by omega⟩
      · exact .inr h
      · left; exact ⟨.inl (.inr (by omega)), by omega⟩
      · have := hfresh b h
        left; exact ⟨.inr h, by omega⟩
  · have hb := (inn b).1 hb
    show m.next ≤ b ∧ b < m9.next + 1
    rcases hb with h | h | h
    · omega
    · omega
    · have := hfresh b h; omega
  · exact (hS2 p).2 (.inl ((hS p).2 (.inl (by rw [sl8]; exact hp'))))
  · have hp' : p ∈ S := hp'
    rcases (hS2 p).1 hp' with h | ⟨h, _⟩
    · rcases (hS p).1 h with h | ⟨h, _⟩
      · exact .inl (by rw [sl8] at h; exact h)
      · right; show p.1 < m9.next + 1; omega
    · right; show p.1 < m9.next + 1; omega
  · refine ⟨fun i hi => ⟨(hS2 _).2 (.inl ((hS _).2 (.inr ⟨rfl, List.mem_range.2 hi⟩))),
        (hS2 _).2 (.inr ⟨rfl, List.mem_range.2 hi⟩)⟩,
      fun i hi => g.own i (List.mem_range.2 hi), fun h => by simp at h, fun h => by simp at h,
      fun i hi a ha => ?_⟩
    have hip := div_lt_of (show i < np * nb from hi)
    simp only at ha
    split at ha
    · simp at ha
    · exact ⟨_, hip, ha⟩
  · show R ++ m9.pend = _; rw [hp, p8]; simp
  · rcases List.mem_append.1 hq with hq | hq
    · obtain ⟨c1, c2, c3⟩ := hR q hq
      exact ⟨⟨List.mem_range.1 c2, fun h => by simp at h, fun _ => ⟨.inr ⟨c1, hRb q hq⟩, fun h => by simp at h⟩⟩, .inr c1⟩
    · obtain ⟨c1, c2, c3⟩ := hP q hq
      exact ⟨⟨List.mem_range.1 c2, fun h => by simp at h, fun _ => ⟨.inl ⟨c1, c3⟩, fun h => by simp at h⟩⟩, .inl c1⟩

/-- `fill_particles_from_boundary_2d_start` -/
theorem startParticles_ok (dim np nb na : Nat) (rank : Nat → Nat → Int) (out inc : Nat → Nat)
    (arrs : Nat → List A) (m : Mem A) (wf : Wf m) :
    ∃ h m', startParticles dim np nb na true rank out inc arrs m = some (some h, m') ∧
      Started (fun a => ∃ ip < np, a ∈ arrs ip) m m' h := by
  obtain ⟨⟨n3, a3, sl3, p3, v3⟩, e1, e2, e3⟩ := particles_tables (tmpTables dim) (keptTables dim) np na m
  obtain ⟨⟨n8, s8, s8', a8, sl8, p8, v8⟩, f1, f2, f3, f4, f5⟩ := particles_prep (m.next + tmpTables dim + keptTables dim)
    (np * nb) m _ n3 a3 sl3 p3 v3 (by omega)
  unfold startParticles
  dsimp only
  rw [if_pos rfl, e1, e2, e3, f1, f2, f3, f4, f5]
  exact particles_finish (tmpTables dim) (keptTables dim) np nb rank out inc arrs m _ wf _ rfl n8 s8 s8' a8 sl8 p8 v8

/-- the exchange of particles whose attributes lack the positions -/
theorem startParticles_error (dim np nb na : Nat) (rank : Nat → Nat → Int) (out inc : Nat → Nat)
    (arrs : Nat → List A) (m : Mem A) :
    ∃ m', startParticles dim np nb na false rank out inc arrs m = some (none, m') ∧
      m'.next = m.next + tmpTables dim + keptTables dim + 1 ∧ m'.arrays = m.arrays ∧ m'.slots = m.slots ∧
      m'.pend = m.pend ∧
      ∀ b, b ∈ m'.live ↔ b ∈ m.live ∨ m.next ≤ b ∧ b < m.next + tmpTables dim + keptTables dim + 1 := by
  obtain ⟨⟨n3, a3, sl3, p3, v3⟩, e1, e2, e3⟩ := particles_tables (tmpTables dim) (keptTables dim) np na m
  exact ⟨_, rfl, n3, a3, sl3, p3, v3⟩

end Verif.Capsule
