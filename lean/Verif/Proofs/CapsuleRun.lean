import Verif.Spec.Capsule
import Verif.Proofs.CapsuleStart

/-!
# Histories of exchanges: the invariant
-/
namespace Verif.Capsule

set_option linter.unusedSectionVars false

variable {A : Type} [DecidableEq A]

theorem proper_snoc {ops : List (Op A)} {op : Op A} (h : Proper (ops ++ [op])) : Proper ops ∧ Allowed ops op := by
  refine ⟨fun pre o post e => h pre o (post ++ [op]) (by simp [e]), h ops op [] rfl⟩

theorem proper_nil : Proper ([] : List (Op A)) := by
  intro pre op post e
  simp at e

theorem proper_append {ops : List (Op A)} {op : Op A} (h : Proper ops) (ha : Allowed ops op) : Proper (ops ++ [op]) := by
  intro pre o post e
  rcases List.eq_nil_or_concat post with rfl | ⟨post', x, rfl⟩
  · have := List.append_inj' e rfl
    obtain ⟨rfl, h2⟩ := this
    simp only [List.cons.injEq, and_true] at h2
    rw [← h2]; exact ha
  · rw [List.concat_eq_append, ← List.cons_append, ← List.append_assoc] at e
    have := List.append_inj' e rfl
    exact h pre o post' this.1

theorem arraysAfter_snoc (ops : List (Op A)) (op : Op A) : arraysAfter (ops ++ [op]) = match op with
    | .newArray a => insert a (arraysAfter ops)
    | .dropArray a => (arraysAfter ops).erase a
    | _ => arraysAfter ops := by
  unfold arraysAfter
  rw [List.foldl_append]
  rfl

theorem Own.mono {U V : A → Prop} {h : Handle A} {s t : Finset (Nat × Nat)} (o : Own U h s) (hU : ∀ a, U a → V a)
    (hs : ∀ p ∈ s, p ∈ t) : Own V h t :=
  ⟨fun i hi => ⟨hs _ (o.slots i hi).1, hs _ (o.slots i hi).2⟩, o.bufs, o.guard, o.null,
    fun i hi a ha => hU a (o.uses i hi a ha)⟩

theorem InFlight.mono {U V : A → Prop} {h : Handle A} {q : Req A} (o : InFlight U h q) (hU : ∀ a, U a → V a) :
    InFlight V h q :=
  ⟨o.1, fun hk => ⟨(o.2.1 hk).1, by obtain ⟨a, e, ha⟩ := (o.2.1 hk).2; exact ⟨a, e, hU a ha⟩⟩, o.2.2⟩

/-- the block a message of a handle uses belongs to the handle -/
theorem inflight_block {U : A → Prop} {h : Handle A} {q : Req A} (o : InFlight U h q) {b : Nat}
    (hb : q.buf = .block b) : b ∈ h.inner := by
  by_cases hk : h.kind = .guard
  · obtain ⟨_, a, e, _⟩ := o.2.1 hk
    rw [e] at hb; cases hb
  · have hin : b ∈ h.blocks := by
      unfold Handle.blocks
      refine List.mem_flatMap.2 ⟨q.slot, List.mem_range.2 o.1, ?_⟩
      rcases (o.2.2 hk).1 with ⟨_, e⟩ | ⟨_, e⟩ <;> rw [e] at hb <;> simp [hb, blk]
    unfold Handle.inner
    exact List.mem_append_right _ hin


/-- the arrays an exchange named `id` works on -/
def usedBy (pre : List (Op A)) (id : Nat) (a : A) : Prop := ∃ k, Op.start id k ∈ pre ∧ k.Uses a

theorem owned_open {h : Handle A} (e : h.finalized = false) : h.owned = h.self :: h.inner := by
  simp [Handle.owned, e]

theorem owned_closed {h : Handle A} (e : h.finalized = true) : h.owned = [h.self] := by
  simp [Handle.owned, e]

theorem self_owned (h : Handle A) : h.self ∈ h.owned := by simp [Handle.owned]

/-- What holds after a history that follows the rules. -/
structure Inv (pre : List (Op A)) (w : World A) : Prop where
  wf : Wf w.mem
  arrays : w.mem.arrays = arraysAfter pre
  ids : (w.caps.map (·.1)).Nodup
  names : ∀ c ∈ w.caps, WasStarted pre c.1 ∧ Op.drop c.1 ∉ pre ∧ (c.2.finalized = true ↔ Op.wait c.1 ∈ pre)
  held : ∀ id k, Op.start id k ∈ pre → k.Ok → Op.drop id ∉ pre → ∃ c ∈ w.caps, c.1 = id
  own : ∀ c ∈ w.caps, c.2.finalized = false → Own (usedBy pre c.1) c.2 w.mem.slots
  nodup : ∀ c ∈ w.caps, c.2.owned.Nodup
  apart : ∀ c ∈ w.caps, ∀ d ∈ w.caps, c.1 ≠ d.1 → ∀ b ∈ c.2.owned, b ∉ d.2.owned
  live : ∀ c ∈ w.caps, ∀ b ∈ c.2.owned, b ∈ w.mem.live
  all : (∀ id k, Op.start id k ∈ pre → k.Ok) → ∀ b ∈ w.mem.live, ∃ c ∈ w.caps, b ∈ c.2.owned
  pend : ∀ q ∈ w.mem.pend, ∃ c ∈ w.caps, c.2.finalized = false ∧ InFlight (usedBy pre c.1) c.2 q ∧
    (q.arr = c.2.sreq ∨ q.arr = c.2.rreq)
  closed : ∀ c ∈ w.caps, c.2.finalized = true → ∀ b ∈ c.2.inner, b ∉ w.mem.live ∧ b < w.mem.next
  leak : (∃ id k, Op.start id k ∈ pre ∧ ¬ k.Ok) → ∃ b ∈ w.mem.live, ∀ c ∈ w.caps, b ∉ c.2.owned
  begun : ∀ id, Op.wait id ∈ pre ∨ Op.drop id ∈ pre → WasStarted pre id
  alive : ∀ id k, Op.start id k ∈ pre → Op.wait id ∉ pre → Op.drop id ∉ pre → ∀ a, k.Uses a → a ∈ arraysAfter pre

theorem inv_init : Inv ([] : List (Op A)) World.init := by
  refine ⟨⟨?_, ?_, ?_⟩, rfl, ?_, ?_, ?_, ?_, ?_, ?_, ?_, ?_, ?_, ?_, ?_, ?_, ?_⟩ <;>
    simp [World.init, Mem.empty, Low, PendLow]

theorem eq_of_name {w : World A} {pre : List (Op A)} (i : Inv pre w) {c d : Nat × Handle A} (hc : c ∈ w.caps)
    (hd : d ∈ w.caps) (e : c.1 = d.1) : c = d :=
  List.inj_on_of_nodup_map i.ids hc hd e

/-- an open capsule is ready to be waited for -/
theorem ready {w : World A} {pre : List (Op A)} (i : Inv pre w) {c : Nat × Handle A} (hc : c ∈ w.caps)
    (ho : c.2.finalized = false) : Ready (usedBy pre c.1) c.2 w.mem := by
  have eo := owned_open ho
  refine ⟨i.own c hc ho, fun b hb => i.live c hc b (by rw [eo]; exact hb), by rw [← eo]; exact i.nodup c hc,
    fun q hq hm => ?_, fun q hq hm => ?_⟩
  · obtain ⟨d, hd, hdo, hin, ha⟩ := i.pend q hq
    by_cases e : c.1 = d.1
    · have := eq_of_name i hc hd e
      subst this; exact hin
    · exfalso
      refine i.apart c hc d hd e q.arr ?_ ?_
      · rw [eo]; rcases hm with h | h <;> rw [h] <;> simp [sreq_mem, rreq_mem]
      · rw [owned_open hdo]; rcases ha with h | h <;> rw [h] <;> simp [sreq_mem, rreq_mem]
  · obtain ⟨d, hd, hdo, hin, ha⟩ := i.pend q hq
    by_cases e : c.1 = d.1
    · have := eq_of_name i hc hd e
      subst this; exact absurd ha hm
    · refine ⟨fun hb => i.apart c hc d hd e q.arr (by rw [eo]; exact hb) ?_, fun b hb hbuf => ?_⟩
      · rw [owned_open hdo]; rcases ha with h | h <;> rw [h] <;> simp [sreq_mem, rreq_mem]
      · refine i.apart c hc d hd e b (by rw [eo]; exact hb) ?_
        rw [owned_open hdo]
        exact List.mem_cons_of_mem _ (inflight_block hin hbuf)

theorem usedBy_mono {pre : List (Op A)} {op : Op A} {id : Nat} (a : A) (h : usedBy pre id a) :
    usedBy (pre ++ [op]) id a := by
  obtain ⟨k, hk, hu⟩ := h
  exact ⟨k, by simp [hk], hu⟩

/-- a successful start -/
theorem inv_start {pre : List (Op A)} {w : World A} (i : Inv pre w) {id : Nat} {k : Start A}
    (ha : Allowed pre (.start id k)) (hk : k.Ok) {h : Handle A} {m' : Mem A} (st : Started k.Uses w.mem m' h) :
    Inv (pre ++ [.start id k]) ⟨m', w.caps ++ [(id, h)]⟩ := by
  obtain ⟨hn, hx⟩ := ha
  have hne : ∀ c ∈ w.caps, c.1 ≠ id := fun c hc e => hn (e ▸ (i.names c hc).1)
  have hold : ∀ c ∈ w.caps, ∀ b ∈ c.2.owned, b < w.mem.next := fun c hc b hb => i.wf.low b (i.live c hc b hb)
  have ho := owned_open st.open_
  obtain ⟨P, hP, hin⟩ := st.pend
  have hub : ∀ a, k.Uses a → usedBy (pre ++ [.start id k]) id a := fun a h => ⟨k, by simp, h⟩
  constructor
  · refine ⟨fun b hb => ?_, fun p hp => ?_, fun q hq => ?_⟩
    · rcases (st.live b).1 hb with h | h
      · have := i.wf.low b h; have := st.next; show b < m'.next; omega
      · exact (st.fresh b h).2
    · rcases st.slotsNew p hp with h | h
      · have := i.wf.slots p h; have := st.next; show p.1 < m'.next; omega
      · exact h
    · have hq : q ∈ m'.pend := hq
      rw [hP, List.mem_append] at hq
      rcases hq with hq | hq
      · obtain ⟨c1, c2⟩ := hin q hq
        refine ⟨?_, fun b hb => (st.fresh b (List.mem_cons_of_mem _ (inflight_block c1 hb))).2⟩
        have : q.arr ∈ h.self :: h.inner := by rcases c2 with e | e <;> rw [e] <;> simp [sreq_mem, rreq_mem]
        exact (st.fresh _ this).2
      · have := i.wf.pend q hq
        have hx := st.next
        exact ⟨lt_of_lt_of_le this.1 hx, fun b hb => lt_of_lt_of_le (this.2 b hb) hx⟩
  · rw [arraysAfter_snoc]; show m'.arrays = _; rw [st.arrays, i.arrays]
  · rw [List.map_append, List.nodup_append]
    refine ⟨i.ids, by simp, ?_⟩
    intro a ha b hb
    obtain ⟨c, hc, rfl⟩ := List.mem_map.1 ha
    simp only [List.map_cons, List.map_nil, List.mem_singleton] at hb
    rw [hb]; exact hne c hc
  · intro c hc
    rcases List.mem_append.1 hc with hc | hc
    · obtain ⟨⟨k', hk'⟩, h2, h3⟩ := i.names c hc
      refine ⟨⟨k', by simp [hk']⟩, by simp [h2], by simp [h3]⟩
    · rw [List.mem_singleton.1 hc]
      have hb := fun hh => hn (i.begun id hh)
      refine ⟨⟨k, by simp⟩, ?_, ?_⟩
      · simp only [List.mem_append, List.mem_singleton, reduceCtorEq, or_false]
        exact fun hh => hb (.inr hh)
      · simp only [List.mem_append, List.mem_singleton, reduceCtorEq, or_false, st.open_, Bool.false_eq_true, false_iff]
        exact fun hh => hb (.inl hh)
  · intro id' k' hs hk hd
    rcases List.mem_append.1 hs with hs | hs
    · obtain ⟨c, hc, e⟩ := i.held id' k' hs hk (fun h => hd (by simp [h]))
      exact ⟨c, List.mem_append_left _ hc, e⟩
    · simp only [List.mem_singleton, Op.start.injEq] at hs
      exact ⟨(id, h), by simp, hs.1.symm⟩
  · intro c hc hf
    rcases List.mem_append.1 hc with hc | hc
    · exact (i.own c hc hf).mono usedBy_mono st.slotsOld
    · rw [List.mem_singleton.1 hc]
      exact st.own.mono hub fun _ h => h
  · intro c hc
    rcases List.mem_append.1 hc with hc | hc
    · exact i.nodup c hc
    · rw [List.mem_singleton.1 hc, ho]; exact st.nodup
  · intro c hc d hd hcd b hb hb'
    rcases List.mem_append.1 hc with hc | hc <;> rcases List.mem_append.1 hd with hd | hd
    · exact i.apart c hc d hd hcd b hb hb'
    · rw [List.mem_singleton.1 hd, ho] at hb'
      have := (st.fresh b hb').1; have := hold c hc b hb; omega
    · rw [List.mem_singleton.1 hc, ho] at hb
      have := (st.fresh b hb).1; have := hold d hd b hb'; omega
    · rw [List.mem_singleton.1 hc, List.mem_singleton.1 hd] at hcd
      exact hcd rfl
  · intro c hc b hb
    rcases List.mem_append.1 hc with hc | hc
    · exact (st.live b).2 (.inl (i.live c hc b hb))
    · rw [List.mem_singleton.1 hc, ho] at hb
      exact (st.live b).2 (.inr hb)
  · intro hall b hb
    rcases (st.live b).1 hb with hb | hb
    · obtain ⟨c, hc, h⟩ := i.all (fun id' k' h => hall id' k' (by simp [h])) b hb
      exact ⟨c, List.mem_append_left _ hc, h⟩
    · exact ⟨(id, h), by simp, by rw [ho]; exact hb⟩
  · intro q hq
    have hq : q ∈ m'.pend := hq
    rw [hP, List.mem_append] at hq
    rcases hq with hq | hq
    · exact ⟨(id, h), by simp, st.open_, (hin q hq).1.mono hub, (hin q hq).2⟩
    · obtain ⟨c, hc, h1, h2, h3⟩ := i.pend q hq
      exact ⟨c, List.mem_append_left _ hc, h1, h2.mono usedBy_mono, h3⟩
  · intro c hc hf b hb
    rcases List.mem_append.1 hc with hc | hc
    · obtain ⟨h1, h2⟩ := i.closed c hc hf b hb
      refine ⟨fun hl => ?_, lt_of_lt_of_le h2 st.next⟩
      rcases (st.live b).1 hl with h | h
      · exact h1 h
      · have := (st.fresh b h).1; omega
    · rw [List.mem_singleton.1 hc] at hf
      rw [st.open_] at hf; cases hf
  · rintro ⟨id', k', hs, hk'⟩
    rcases List.mem_append.1 hs with hs | hs
    · obtain ⟨b, hb, hb'⟩ := i.leak ⟨id', k', hs, hk'⟩
      refine ⟨b, (st.live b).2 (.inl hb), fun c hc => ?_⟩
      rcases List.mem_append.1 hc with hc | hc
      · exact hb' c hc
      · rw [List.mem_singleton.1 hc, ho]
        intro h
        have := (st.fresh b h).1; have := i.wf.low b hb; omega
    · simp only [List.mem_singleton, Op.start.injEq] at hs
      exact absurd (hs.2 ▸ hk) hk'
  · intro id' hh
    simp only [List.mem_append, List.mem_singleton, reduceCtorEq, or_false] at hh
    obtain ⟨k', hk'⟩ := i.begun id' hh
    exact ⟨k', by simp [hk']⟩
  · intro id' k' hs hw hd a hu
    rw [arraysAfter_snoc]
    rcases List.mem_append.1 hs with hs | hs
    · exact i.alive id' k' hs (fun h => hw (by simp [h])) (fun h => hd (by simp [h])) a hu
    · simp only [List.mem_singleton, Op.start.injEq] at hs
      exact hx a (hs.2 ▸ hu)

/-- a start that raised: more blocks, nothing else -/
theorem inv_start_error {pre : List (Op A)} {w : World A} (i : Inv pre w) {id : Nat} {k : Start A}
    (ha : Allowed pre (.start id k)) (hk : ¬ k.Ok) {m' : Mem A} {n : Nat} (hpos : 0 < n) (e1 : m'.next = w.mem.next + n)
    (e2 : m'.arrays = w.mem.arrays) (e3 : m'.slots = w.mem.slots) (e4 : m'.pend = w.mem.pend)
    (e5 : ∀ b, b ∈ m'.live ↔ b ∈ w.mem.live ∨ w.mem.next ≤ b ∧ b < w.mem.next + n) :
    Inv (pre ++ [.start id k]) ⟨m', w.caps⟩ := by
  obtain ⟨hn, hx⟩ := ha
  constructor
  · refine ⟨fun b hb => ?_, fun p hp => ?_, fun q hq => ?_⟩
    · show b < m'.next
      rcases (e5 b).1 hb with h | h
      · have := i.wf.low b h; omega
      · omega
    · have hp : p ∈ m'.slots := hp
      rw [e3] at hp
      have := i.wf.slots p hp; show p.1 < m'.next; omega
    · have hq : q ∈ m'.pend := hq
      rw [e4] at hq
      have := i.wf.pend q hq
      refine ⟨?_, fun b hb => ?_⟩
      · show q.arr < m'.next; omega
      · have := this.2 b hb; show b < m'.next; omega
  · rw [arraysAfter_snoc]; show m'.arrays = _; rw [e2, i.arrays]
  · exact i.ids
  · intro c hc
    obtain ⟨⟨k', hk'⟩, h2, h3⟩ := i.names c hc
    exact ⟨⟨k', by simp [hk']⟩, by simp [h2], by simp [h3]⟩
  · intro id' k' hs hk' hd
    rcases List.mem_append.1 hs with hs | hs
    · exact i.held id' k' hs hk' (fun h => hd (by simp [h]))
    · simp only [List.mem_singleton, Op.start.injEq] at hs
      exact absurd (hs.2 ▸ hk') hk
  · intro c hc hf
    refine (i.own c hc hf).mono usedBy_mono fun p hp => ?_
    show p ∈ m'.slots; rw [e3]; exact hp
  · exact i.nodup
  · exact i.apart
  · exact fun c hc b hb => (e5 b).2 (.inl (i.live c hc b hb))
  · exact fun hall => absurd (hall id k (by simp)) hk
  · intro q hq
    have hq : q ∈ m'.pend := hq
    rw [e4] at hq
    obtain ⟨c, hc, h1, h2, h3⟩ := i.pend q hq
    exact ⟨c, hc, h1, h2.mono usedBy_mono, h3⟩
  · intro c hc hf b hb
    obtain ⟨h1, h2⟩ := i.closed c hc hf b hb
    refine ⟨fun hl => ?_, by show b < m'.next; omega⟩
    rcases (e5 b).1 hl with h | h
    · exact h1 h
    · omega
  · intro _
    refine ⟨w.mem.next, (e5 _).2 (.inr (by omega)), fun c hc hb => ?_⟩
    have := i.wf.low _ (i.live c hc _ hb)
    omega
  · intro id' hh
    simp only [List.mem_append, List.mem_singleton, reduceCtorEq, or_false] at hh
    obtain ⟨k', hk'⟩ := i.begun id' hh
    exact ⟨k', by simp [hk']⟩
  · intro id' k' hs hw hd a hu
    rw [arraysAfter_snoc]
    rcases List.mem_append.1 hs with hs | hs
    · exact i.alive id' k' hs (fun h => hw (by simp [h])) (fun h => hd (by simp [h])) a hu
    · simp only [List.mem_singleton, Op.start.injEq] at hs
      exact hx a (hs.2 ▸ hu)

theorem usedBy_snoc {pre : List (Op A)} {op : Op A} {id : Nat} (hop : ∀ k, op ≠ .start id k) (a : A) :
    usedBy (pre ++ [op]) id a ↔ usedBy pre id a := by
  constructor
  · rintro ⟨k, hk, hu⟩
    rcases List.mem_append.1 hk with hk | hk
    · exact ⟨k, hk, hu⟩
    · exact absurd (List.mem_singleton.1 hk).symm (hop k)
  · exact usedBy_mono a

theorem mem_wait {caps : List (Nat × Handle A)} {id : Nat} {h : Handle A} {d : Nat × Handle A}
    (hd : d ∈ caps.map fun d => if d.1 = id then (id, h) else d) : d ∈ caps ∧ d.1 ≠ id ∨ d = (id, h) := by
  obtain ⟨x, hx, e⟩ := List.mem_map.1 hd
  split at e
  · exact .inr e.symm
  · subst e; exact .inl ⟨hx, by assumption⟩

/-- a wait for an open capsule -/
theorem inv_wait {pre : List (Op A)} {w : World A} (i : Inv pre w) {c : Nat × Handle A} (hc : c ∈ w.caps)
    (ho : c.2.finalized = false) :
    Inv (pre ++ [.wait c.1]) ⟨afterWait c.2 w.mem,
      w.caps.map fun d => if d.1 = c.1 then (c.1, { c.2 with finalized := true }) else d⟩ := by
  have eo := owned_open ho
  set h' : Handle A := { c.2 with finalized := true } with hh'
  have eo' : h'.owned = [c.2.self] := owned_closed rfl
  have hmem : ∀ d ∈ w.caps, d.1 ≠ c.1 → d ∈ w.caps.map fun d => if d.1 = c.1 then (c.1, h') else d :=
    fun d hd hne => List.mem_map.2 ⟨d, hd, if_neg hne⟩
  have hmem' : (c.1, h') ∈ w.caps.map fun d => if d.1 = c.1 then (c.1, h') else d :=
    List.mem_map.2 ⟨c, hc, if_pos rfl⟩
  have hsub : ∀ b ∈ (afterWait c.2 w.mem).live, b ∈ w.mem.live := fun b hb => (Finset.mem_sdiff.1 hb).1
  have hpsub : ∀ q ∈ (afterWait c.2 w.mem).pend, q ∈ w.mem.pend := fun q hq => (List.mem_filter.1 hq).1
  have hself : c.2.self ∉ c.2.inner := by
    have := i.nodup c hc
    rw [eo, List.nodup_cons] at this
    exact this.1
  constructor
  · exact ⟨fun b hb => i.wf.low b (hsub b hb), i.wf.slots, fun q hq => i.wf.pend q (hpsub q hq)⟩
  · rw [arraysAfter_snoc]; exact i.arrays
  · have : (w.caps.map fun d => if d.1 = c.1 then (c.1, h') else d).map (·.1) = w.caps.map (·.1) := by
      rw [List.map_map]
      refine List.map_congr_left fun d _ => ?_
      simp only [Function.comp]
      split <;> simp [*]
    show ((w.caps.map fun d => if d.1 = c.1 then (c.1, h') else d).map (·.1)).Nodup
    rw [this]; exact i.ids
  · intro d hd
    rcases mem_wait hd with ⟨hd, hne⟩ | rfl
    · obtain ⟨⟨k', hk'⟩, h2, h3⟩ := i.names d hd
      exact ⟨⟨k', by simp [hk']⟩, by simp [h2], by simp [h3, hne]⟩
    · obtain ⟨⟨k', hk'⟩, h2, h3⟩ := i.names c hc
      exact ⟨⟨k', by simp [hk']⟩, by simp [h2], by simp [hh']⟩
  · intro id' k' hs hk' hd
    simp only [List.mem_append, List.mem_singleton, reduceCtorEq, or_false] at hs hd
    obtain ⟨d, hd, e⟩ := i.held id' k' hs hk' hd
    by_cases hne : d.1 = c.1
    · exact ⟨_, hmem', by rw [← e, hne]⟩
    · exact ⟨d, hmem d hd hne, e⟩
  · intro d hd hf
    rcases mem_wait hd with ⟨hd, hne⟩ | rfl
    · exact (i.own d hd hf).mono usedBy_mono fun p hp => hp
    · simp [hh'] at hf
  · intro d hd
    rcases mem_wait hd with ⟨hd, hne⟩ | rfl
    · exact i.nodup d hd
    · rw [eo']; simp
  · have key : ∀ d ∈ w.caps, d.1 ≠ c.1 → c.2.self ∉ d.2.owned := fun d hd hne h =>
      i.apart d hd c hc hne _ h (self_owned _)
    intro d hd e he hde b hb hb'
    rcases mem_wait hd with ⟨hd, hne⟩ | rfl <;> rcases mem_wait he with ⟨he, hne'⟩ | rfl
    · exact i.apart d hd e he hde b hb hb'
    · rw [eo', List.mem_singleton] at hb'
      exact key d hd hne (hb' ▸ hb)
    · rw [eo', List.mem_singleton] at hb
      exact key e he hne' (hb ▸ hb')
    · exact hde rfl
  · intro d hd b hb
    rcases mem_wait hd with ⟨hd, hne⟩ | rfl
    · refine Finset.mem_sdiff.2 ⟨i.live d hd b hb, fun hx => ?_⟩
      refine i.apart d hd c hc hne b hb ?_
      rw [eo]; exact List.mem_cons_of_mem _ (List.mem_toFinset.1 hx)
    · rw [eo', List.mem_singleton] at hb
      refine Finset.mem_sdiff.2 ⟨i.live c hc b (hb ▸ self_owned _), fun hx => ?_⟩
      exact hself (hb ▸ List.mem_toFinset.1 hx)
  · intro hall b hb
    obtain ⟨d, hd, h⟩ := i.all (fun id' k' h => hall id' k' (by simp [h])) b (hsub b hb)
    by_cases hne : d.1 = c.1
    · have := eq_of_name i hd hc hne
      subst this
      rw [eo, List.mem_cons] at h
      rcases h with h | h
      · exact ⟨_, hmem', by rw [eo', h]; simp⟩
      · exact absurd (List.mem_toFinset.2 h) (Finset.mem_sdiff.1 hb).2
    · exact ⟨d, hmem d hd hne, h⟩
  · intro q hq
    obtain ⟨d, hd, h1, h2, h3⟩ := i.pend q (hpsub q hq)
    by_cases hne : d.1 = c.1
    · have := eq_of_name i hd hc hne
      subst this
      exfalso
      have := (List.mem_filter.1 hq).2
      simp only [noneLeft, Bool.not_eq_true', Bool.and_eq_false_iff, Bool.or_eq_false_iff, beq_eq_false_iff_ne,
        decide_eq_false_iff_not] at this
      have h4 := h2.1
      tauto
    · exact ⟨d, hmem d hd hne, h1, h2.mono usedBy_mono, h3⟩
  · intro d hd hf b hb
    rcases mem_wait hd with ⟨hd, hne⟩ | rfl
    · obtain ⟨h1, h2⟩ := i.closed d hd hf b hb
      exact ⟨fun h => h1 (hsub b h), h2⟩
    · have hb : b ∈ c.2.inner := hb
      refine ⟨fun h => (Finset.mem_sdiff.1 h).2 (List.mem_toFinset.2 hb), ?_⟩
      exact i.wf.low b (i.live c hc b (by rw [eo]; exact List.mem_cons_of_mem _ hb))
  · rintro ⟨id', k', hs, hk'⟩
    obtain ⟨b, hb, hb'⟩ := i.leak ⟨id', k', by simpa using hs, hk'⟩
    have hbc := hb' c hc
    rw [eo, List.mem_cons, not_or] at hbc
    refine ⟨b, Finset.mem_sdiff.2 ⟨hb, fun h => hbc.2 (List.mem_toFinset.1 h)⟩, fun d hd => ?_⟩
    rcases mem_wait hd with ⟨hd, hne⟩ | rfl
    · exact hb' d hd
    · rw [eo', List.mem_singleton]; exact hbc.1
  · intro id' hh
    have hh : (Op.wait id' ∈ pre ∨ Op.drop id' ∈ pre) ∨ id' = c.1 := by
      simpa [or_right_comm] using hh
    rcases hh with hh | rfl
    · obtain ⟨k', hk'⟩ := i.begun id' hh
      exact ⟨k', by simp [hk']⟩
    · obtain ⟨⟨k', hk'⟩, _⟩ := i.names c hc
      exact ⟨k', by simp [hk']⟩
  · intro id' k' hs hw hd a hu
    rw [arraysAfter_snoc]
    simp only [List.mem_append, List.mem_singleton, reduceCtorEq, or_false] at hs
    exact i.alive id' k' hs (fun h => hw (by simp [h])) (fun h => hd (by simp [h])) a hu

/-- dropping a capsule -/
theorem inv_drop {pre : List (Op A)} {w : World A} (i : Inv pre w) {c : Nat × Handle A} (hc : c ∈ w.caps)
    {m' : Mem A} (e1 : m'.next = w.mem.next) (e2 : m'.arrays = w.mem.arrays) (e3 : m'.slots = w.mem.slots)
    (e4 : ∀ q, q ∈ m'.pend ↔ q ∈ w.mem.pend ∧ (c.2.finalized = false → noneLeft c.2 c.2.total q = true))
    (e5 : ∀ b, b ∈ m'.live ↔ b ∈ w.mem.live ∧ b ∉ c.2.owned) :
    Inv (pre ++ [.drop c.1]) ⟨m', w.caps.filter fun d => d.1 ≠ c.1⟩ := by
  have hmem : ∀ d, d ∈ (w.caps.filter fun d => d.1 ≠ c.1) ↔ d ∈ w.caps ∧ d.1 ≠ c.1 := by
    intro d; simp [List.mem_filter]
  constructor
  · refine ⟨fun b hb => ?_, fun p hp => ?_, fun q hq => ?_⟩
    · have := i.wf.low b ((e5 b).1 hb).1; show b < m'.next; omega
    · have hp : p ∈ m'.slots := hp
      rw [e3] at hp
      have := i.wf.slots p hp; show p.1 < m'.next; omega
    · have := i.wf.pend q ((e4 q).1 hq).1
      refine ⟨?_, fun b hb => ?_⟩
      · show q.arr < m'.next; omega
      · have := this.2 b hb; show b < m'.next; omega
  · rw [arraysAfter_snoc]; show m'.arrays = _; rw [e2]; exact i.arrays
  · exact i.ids.sublist (List.Sublist.map _ List.filter_sublist)
  · intro d hd
    obtain ⟨hd, hne⟩ := (hmem d).1 hd
    obtain ⟨⟨k', hk'⟩, h2, h3⟩ := i.names d hd
    exact ⟨⟨k', by simp [hk']⟩, by simp [h2, hne], by simp [h3]⟩
  · intro id' k' hs hk' hd
    simp only [List.mem_append, List.mem_singleton, reduceCtorEq, or_false, Op.drop.injEq, not_or] at hs hd
    obtain ⟨d, hd', e⟩ := i.held id' k' hs hk' hd.1
    exact ⟨d, (hmem d).2 ⟨hd', fun h => hd.2 (e ▸ h)⟩, e⟩
  · intro d hd hf
    refine (i.own d ((hmem d).1 hd).1 hf).mono usedBy_mono fun p hp => ?_
    show p ∈ m'.slots; rw [e3]; exact hp
  · exact fun d hd => i.nodup d ((hmem d).1 hd).1
  · exact fun d hd e he => i.apart d ((hmem d).1 hd).1 e ((hmem e).1 he).1
  · intro d hd b hb
    obtain ⟨hd, hne⟩ := (hmem d).1 hd
    exact (e5 b).2 ⟨i.live d hd b hb, i.apart d hd c hc hne b hb⟩
  · intro hall b hb
    obtain ⟨hb1, hb2⟩ := (e5 b).1 hb
    obtain ⟨d, hd, h⟩ := i.all (fun id' k' h => hall id' k' (by simp [h])) b hb1
    refine ⟨d, (hmem d).2 ⟨hd, fun hne => hb2 ?_⟩, h⟩
    rw [← eq_of_name i hd hc hne]; exact h
  · intro q hq
    obtain ⟨hq1, hq2⟩ := (e4 q).1 hq
    obtain ⟨d, hd, h1, h2, h3⟩ := i.pend q hq1
    refine ⟨d, (hmem d).2 ⟨hd, fun hne => ?_⟩, h1, h2.mono usedBy_mono, h3⟩
    have := eq_of_name i hd hc hne
    subst this
    have := hq2 h1
    simp only [noneLeft, Bool.not_eq_true', Bool.and_eq_false_iff, Bool.or_eq_false_iff, beq_eq_false_iff_ne,
      decide_eq_false_iff_not] at this
    have h4 := h2.1
    tauto
  · intro d hd hf b hb
    obtain ⟨h1, h2⟩ := i.closed d ((hmem d).1 hd).1 hf b hb
    exact ⟨fun h => h1 ((e5 b).1 h).1, by show b < m'.next; omega⟩
  · rintro ⟨id', k', hs, hk'⟩
    obtain ⟨b, hb, hb'⟩ := i.leak ⟨id', k', by simpa using hs, hk'⟩
    exact ⟨b, (e5 b).2 ⟨hb, hb' c hc⟩, fun d hd => hb' d ((hmem d).1 hd).1⟩
  · intro id' hh
    have hh : (Op.wait id' ∈ pre ∨ Op.drop id' ∈ pre) ∨ id' = c.1 := by
      simpa [or_assoc] using hh
    rcases hh with hh | rfl
    · obtain ⟨k', hk'⟩ := i.begun id' hh
      exact ⟨k', by simp [hk']⟩
    · obtain ⟨⟨k', hk'⟩, _⟩ := i.names c hc
      exact ⟨k', by simp [hk']⟩
  · intro id' k' hs hw hd a hu
    rw [arraysAfter_snoc]
    simp only [List.mem_append, List.mem_singleton, reduceCtorEq, or_false] at hs
    exact i.alive id' k' hs (fun h => hw (by simp [h])) (fun h => hd (by simp [h])) a hu

/-- waiting for or dropping a name that holds no capsule -/
theorem inv_nothing {pre : List (Op A)} {w : World A} (i : Inv pre w) {id : Nat} (hn : ∀ c ∈ w.caps, c.1 ≠ id)
    (hb : WasStarted pre id) {op : Op A} (hop : op = .wait id ∨ op = .drop id) : Inv (pre ++ [op]) w := by
  have hs : ∀ id' k', Op.start id' k' ∈ pre ++ [op] → Op.start id' k' ∈ pre := by
    intro id' k' h
    rcases hop with rfl | rfl <;> simpa using h
  constructor
  · exact i.wf
  · rw [arraysAfter_snoc]; rcases hop with rfl | rfl <;> exact i.arrays
  · exact i.ids
  · intro d hd
    have hne := hn d hd
    obtain ⟨⟨k', hk'⟩, h2, h3⟩ := i.names d hd
    rcases hop with rfl | rfl <;> exact ⟨⟨k', by simp [hk']⟩, by simp [h2, hne], by simp [h3, hne]⟩
  · intro id' k' h1 h2 h3
    exact i.held id' k' (hs _ _ h1) h2 fun h => h3 (by simp [h])
  · exact fun d hd hf => (i.own d hd hf).mono usedBy_mono fun _ h => h
  · exact i.nodup
  · exact i.apart
  · exact i.live
  · exact fun hall => i.all fun id' k' h => hall id' k' (by simp [h])
  · intro q hq
    obtain ⟨d, hd, h1, h2, h3⟩ := i.pend q hq
    exact ⟨d, hd, h1, h2.mono usedBy_mono, h3⟩
  · exact i.closed
  · rintro ⟨id', k', h1, hk'⟩
    exact i.leak ⟨id', k', hs _ _ h1, hk'⟩
  · intro id' hh
    have hh : (Op.wait id' ∈ pre ∨ Op.drop id' ∈ pre) ∨ id' = id := by
      rcases hop with rfl | rfl
      · simpa [or_right_comm] using hh
      · simpa [or_assoc] using hh
    rcases hh with hh | rfl
    · obtain ⟨k', hk'⟩ := i.begun id' hh
      exact ⟨k', by simp [hk']⟩
    · obtain ⟨k', hk'⟩ := hb
      exact ⟨k', by simp [hk']⟩
  · intro id' k' h1 hw hd a hu
    rw [arraysAfter_snoc]
    have := i.alive id' k' (hs _ _ h1) (fun h => hw (by simp [h])) (fun h => hd (by simp [h])) a hu
    rcases hop with rfl | rfl <;> exact this

/-- creating or releasing an array -/
theorem inv_array {pre : List (Op A)} {w : World A} (i : Inv pre w) {op : Op A}
    (hop : (∃ a, op = .newArray a) ∨ ∃ a, op = .dropArray a) (ha : Allowed pre op) :
    Inv (pre ++ [op]) { w with mem := { w.mem with arrays := arraysAfter (pre ++ [op]) } } := by
  have hs : ∀ x, (∃ id k, x = Op.start id k) ∨ (∃ id, x = Op.wait id) ∨ (∃ id, x = Op.drop id) →
      (x ∈ pre ++ [op] ↔ x ∈ pre) := by
    rintro x (⟨_, _, rfl⟩ | ⟨_, rfl⟩ | ⟨_, rfl⟩) <;> rcases hop with ⟨a, rfl⟩ | ⟨a, rfl⟩ <;> simp
  have h1 := fun id k => hs (.start id k) (.inl ⟨_, _, rfl⟩)
  have h2 := fun id => hs (.wait id) (.inr (.inl ⟨_, rfl⟩))
  have h3 := fun id => hs (.drop id) (.inr (.inr ⟨_, rfl⟩))
  have hst : ∀ id, WasStarted (pre ++ [op]) id ↔ WasStarted pre id := fun id => by unfold WasStarted; simp only [h1]
  constructor
  · exact ⟨i.wf.low, i.wf.slots, i.wf.pend⟩
  · rfl
  · exact i.ids
  · intro d hd
    rw [hst, h2, h3]; exact i.names d hd
  · intro id' k'
    rw [h1, h3]; exact i.held id' k'
  · exact fun d hd hf => (i.own d hd hf).mono usedBy_mono fun _ h => h
  · exact i.nodup
  · exact i.apart
  · exact i.live
  · exact fun hall => i.all fun id' k' h => hall id' k' (by simp [h])
  · intro q hq
    obtain ⟨d, hd, h1, h2, h3⟩ := i.pend q hq
    exact ⟨d, hd, h1, h2.mono usedBy_mono, h3⟩
  · exact i.closed
  · rintro ⟨id', k', h, hk'⟩
    exact i.leak ⟨id', k', (h1 _ _).1 h, hk'⟩
  · intro id'
    rw [h2, h3, hst]; exact i.begun id'
  · intro id' k'
    rw [h1, h2, h3]
    intro g1 g2 g3 a hu
    have := i.alive id' k' g1 g2 g3 a hu
    rw [arraysAfter_snoc]
    rcases hop with ⟨x, rfl⟩ | ⟨x, rfl⟩
    · exact Finset.mem_insert_of_mem this
    · refine Finset.mem_erase.2 ⟨fun e => ?_, this⟩
      rcases ha id' k' g1 (e ▸ hu) with h | h
      · exact g2 h
      · exact g3 h

theorem call_ok (k : Start A) (m : Mem A) (wf : Wf m) (hx : ∀ a, k.Uses a → a ∈ m.arrays) (hk : k.Ok) :
    ∃ h m', k.call m = some (some h, m') ∧ Started k.Uses m m' h := by
  cases k with
  | guard np nb na rank arr =>
    obtain ⟨h, m', e, s⟩ := startGuard_ok np nb na rank arr m wf fun ia hia ip hip => hx _ ⟨ia, hia, ip, hip, rfl⟩
    exact ⟨h, m', by simp [Start.call, e], s⟩
  | currents np nb rank j =>
    obtain ⟨h, m', e, s⟩ := startCurrents_ok np nb rank j m wf
    exact ⟨h, m', by simp [Start.call, e], s⟩
  | particles dim np nb na ok rank out inc arrs =>
    have hk : ok = true := hk
    subst hk
    exact startParticles_ok dim np nb na rank out inc arrs m wf

theorem call_error (k : Start A) (m : Mem A) (hk : ¬ k.Ok) :
    ∃ m' n, k.call m = some (none, m') ∧ m'.next = m.next + n ∧ m'.arrays = m.arrays ∧ m'.slots = m.slots ∧
      m'.pend = m.pend ∧ (∀ b, b ∈ m'.live ↔ b ∈ m.live ∨ m.next ≤ b ∧ b < m.next + n) ∧ 0 < n := by
  cases k with
  | guard => exact absurd trivial hk
  | currents => exact absurd trivial hk
  | particles dim np nb na ok rank out inc arrs =>
    have hk : ok = false := by simpa [Start.Ok] using hk
    subst hk
    obtain ⟨m', e, e1, e2, e3, e4, e5⟩ := startParticles_error dim np nb na rank out inc arrs m
    exact ⟨m', tmpTables dim + keptTables dim + 1, e, by omega, e2, e3, e4, by intro b; rw [e5]; simp only [Nat.add_assoc],
      by omega⟩

theorem step_drop {w : World A} {c : Nat × Handle A} {m' : Mem A} (hf : w.caps.find? (fun d => d.1 == c.1) = some c)
    (hd : dropHandle c.2 w.mem = some m') :
    step w (.drop c.1) = some ⟨m', w.caps.filter fun d => d.1 ≠ c.1⟩ := by
  simp only [step, hf, hd, Option.bind_eq_bind, Option.bind_some, Option.pure_def]

/-- one operation that the rules allow -/
theorem inv_step {pre : List (Op A)} {w : World A} (i : Inv pre w) (op : Op A) (ha : Allowed pre op) :
    ∃ w', step w op = some w' ∧ Inv (pre ++ [op]) w' := by
  cases op with
  | start id k =>
    by_cases hk : k.Ok
    · obtain ⟨h, m', e, s⟩ := call_ok k w.mem i.wf (by rw [i.arrays]; exact ha.2) hk
      exact ⟨_, by simp [step, e], inv_start i ha hk s⟩
    · obtain ⟨m', n, e, e1, e2, e3, e4, e5, hpos⟩ := call_error k w.mem hk
      exact ⟨_, by simp [step, e], inv_start_error i ha hk hpos e1 e2 e3 e4 e5⟩
  | wait id =>
    obtain ⟨a1, a2, a3⟩ := ha
    rcases hf : w.caps.find? (fun c => c.1 == id) with _ | c
    · refine ⟨w, by simp only [step, hf], inv_nothing i (id := id) (fun c hc e => ?_) a1 (.inl rfl)⟩
      have := List.find?_eq_none.1 hf c hc
      simp [e] at this
    · have hc := List.mem_of_find?_eq_some hf
      have e : c.1 = id := by simpa using List.find?_some hf
      subst e
      have ho : c.2.finalized = false := by
        rcases h : c.2.finalized
        · rfl
        · exact absurd ((i.names c hc).2.2.1 h) a2
      have hw := wait_ok (ready i hc ho) (by
        rintro a ⟨k, hk, hu⟩
        rw [i.arrays]
        exact i.alive c.1 k hk a2 a3 a hu)
      exact ⟨_, by simp only [step, hf, hw, Option.bind_eq_bind, Option.bind_some, Option.pure_def], inv_wait i hc ho⟩
  | drop id =>
    obtain ⟨a1, a3⟩ := ha
    rcases hf : w.caps.find? (fun c => c.1 == id) with _ | c
    · refine ⟨w, by simp only [step, hf], inv_nothing i (id := id) (fun c hc e => ?_) a1 (.inr rfl)⟩
      have := List.find?_eq_none.1 hf c hc
      simp [e] at this
    · have hc := List.mem_of_find?_eq_some hf
      have e : c.1 = id := by simpa using List.find?_some hf
      subst e
      rcases ho : c.2.finalized
      · have hd := drop_ok (ready i hc ho) ho
        refine ⟨_, step_drop hf hd,
          inv_drop i hc rfl rfl rfl (fun q => ?_) fun b => ?_⟩
        · show q ∈ w.mem.pend.filter _ ↔ _
          rw [List.mem_filter]
          simp [ho]
        · show b ∈ (w.mem.live \ c.2.inner.toFinset).erase c.2.self ↔ _
          rw [owned_open ho]
          simp only [Finset.mem_erase, Finset.mem_sdiff, List.mem_toFinset, List.mem_cons, not_or]
          tauto
      · have hd : dropHandle c.2 w.mem = some { w.mem with live := w.mem.live.erase c.2.self } := by
          unfold dropHandle
          rw [touch_ok (p := .block c.2.self) (i.live c hc _ (self_owned _))]
          simp only [Option.bind_eq_bind, Option.bind_some, ho, if_true]
          refine free_block _ _ (i.live c hc _ (self_owned _)) fun q hq => ?_
          obtain ⟨d, hd, h1, h2, h3⟩ := i.pend q hq
          have hne : c.1 ≠ d.1 := fun e => by
            have := eq_of_name i hc hd e
            subst this
            rw [ho] at h1; cases h1
          have hap := i.apart c hc d hd hne _ (self_owned _)
          rw [owned_open h1] at hap
          refine ⟨fun e => hap ?_, fun e => hap (List.mem_cons_of_mem _ (inflight_block h2 e))⟩
          rw [← e]
          rcases h3 with h | h <;> rw [h] <;> simp [sreq_mem, rreq_mem]
        refine ⟨_, step_drop hf hd,
          inv_drop i hc rfl rfl rfl (fun q => ?_) fun b => ?_⟩
        · simp [ho]
        · show b ∈ w.mem.live.erase c.2.self ↔ _
          rw [owned_closed ho]
          simp only [Finset.mem_erase, List.mem_singleton]
          tauto
  | newArray a =>
    have := inv_array i (.inl ⟨a, rfl⟩) ha
    refine ⟨_, rfl, ?_⟩
    rw [arraysAfter_snoc, ← i.arrays] at this
    exact this
  | dropArray a =>
    have := inv_array i (.inr ⟨a, rfl⟩) ha
    rw [arraysAfter_snoc, ← i.arrays] at this
    refine ⟨_, if_pos fun q hq hb => ?_, this⟩
    obtain ⟨d, hd, h1, h2, h3⟩ := i.pend q hq
    by_cases hk : d.2.kind = .guard
    · obtain ⟨_, x, e, k, hk, hu⟩ := h2.2.1 hk
      rw [hb] at e
      cases e
      rcases ha d.1 k hk hu with h | h
      · have := (i.names d hd).2.2.2 h
        rw [h1] at this; cases this
      · exact (i.names d hd).2.1 h
    · have ob := (i.own d hd h1).bufs q.slot h2.1
      rcases (h2.2.2 hk).1 with ⟨_, e⟩ | ⟨_, e⟩
      · rcases ob.1 with h | ⟨_, h⟩ <;> rw [← e, hb] at h <;> cases h
      · rcases ob.2 with h | ⟨_, h⟩ <;> rw [← e, hb] at h <;> cases h

/-- every history that follows the rules runs, and the invariant holds after it -/
theorem inv_run (ops : List (Op A)) (h : Proper ops) : ∃ w, run ops = some w ∧ Inv ops w := by
  induction ops using List.reverseRecOn with
  | nil => exact ⟨_, rfl, inv_init⟩
  | append_singleton ops op ih =>
    obtain ⟨hp, ha⟩ := proper_snoc h
    obtain ⟨w, e, i⟩ := ih hp
    obtain ⟨w', e', i'⟩ := inv_step i op ha
    refine ⟨w', ?_, i'⟩
    unfold run at e ⊢
    rw [List.foldlM_append, e]
    simp [e']

/-! ## A second wait -/

theorem fold_stuck {m : Mem A} {f : Mem A → Nat → Option (Mem A)} (hf : ∀ i, f m i = some m ∨ f m i = none) :
    ∀ l : List Nat, l.foldlM f m = some m ∨ l.foldlM f m = none
  | [] => .inl rfl
  | i :: l => by
    rw [List.foldlM_cons]
    rcases hf i with h | h
    · rw [h]; exact fold_stuck hf l
    · rw [h]; exact .inr rfl

theorem free_gone {m : Mem A} {b : Nat} (hb : b ∉ m.live) : m.free (.block b) = none := if_neg fun h => hb h.1

theorem wait_gone {m : Mem A} {b i : Nat} (hb : b ∉ m.live) : m.wait b i = none := if_neg fun h => hb h.1

/-- a `_wait` on a handle whose blocks have been freed -/
theorem wait_again {h : Handle A} {m : Mem A} (hg : ∀ b ∈ h.inner, b ∉ m.live) :
    waitHandle h m = none := by
  have h1 := hg _ (sreq_mem h)
  have h2 := hg _ (rreq_mem h)
  have hfree : ∀ ps : List (Buf A), m.frees (.block h.sreq :: ps) = none := by
    intro ps
    simp [Mem.frees, List.foldlM_cons, free_gone h1]
  have htab : m.frees (h.tables.map .block) = some m ∨ m.frees (h.tables.map .block) = none := by
    rcases e : h.tables with _ | ⟨t, ts⟩
    · exact .inl rfl
    · have : t ∉ m.live := hg t (by simp [Handle.inner, e])
      right
      simp [Mem.frees, List.foldlM_cons, free_gone this]
  have hto : m.touch (.block h.self) = some m ∨ m.touch (.block h.self) = none := by
    unfold Mem.touch; split
    · exact .inl rfl
    · exact .inr rfl
  unfold waitHandle
  have key : (match h.kind with
    | .guard => waitGuard h m
    | .currents => waitCurrents h m
    | .particles => waitParticles h m) = none := by
    cases h.kind with
    | guard =>
      show waitGuard h m = none
      unfold waitGuard
      rcases hto with e | e
      · rw [e]
        simp only [Option.bind_eq_bind, Option.bind_some]
        rcases fold_stuck (m := m) (f := fun m i => (m.wait h.sreq i).bind fun m => m.wait h.rreq i)
          (fun i => .inr (by simp only [wait_gone h1, Option.bind_none])) (List.range h.total) with e | e
        · rw [e, Option.bind_some]
          rcases htab with e | e
          · rw [e, Option.bind_some, hfree]
          · rw [e]; rfl
        · rw [e]; rfl
      · rw [e]; rfl
    | currents =>
      show waitCurrents h m = none
      unfold waitCurrents
      rcases hto with e | e
      · rw [e]
        simp only [Option.bind_eq_bind, Option.bind_some]
        rcases fold_stuck (m := m) (f := currentsWaitOne h) (fun i => by
          unfold currentsWaitOne
          split
          · exact .inl rfl
          · right; rw [wait_gone h2]; rfl) (List.range h.total) with e | e
        · rw [e, Option.bind_some, hfree]; rfl
        · rw [e]; rfl
      · rw [e]; rfl
    | particles =>
      show waitParticles h m = none
      unfold waitParticles
      rcases hto with e | e
      · rw [e]
        simp only [Option.bind_eq_bind, Option.bind_some]
        have hw : ∀ arr, arr ∉ m.live → m.waitall h.total arr = some m ∨ m.waitall h.total arr = none := fun arr ha =>
          fold_stuck (m := m) (f := fun m i => m.wait arr i) (fun i => .inr (wait_gone ha)) _
        rcases hw _ h2 with e | e
        · rw [e, Option.bind_some]
          rcases fold_stuck (m := m) (f := fun m i => m.consume (h.rbuf i) (h.uses i)) (fun i => by
            have touches : ∀ as : List A, as.foldlM (fun m a => Mem.touch m (.array a)) m = some m ∨
                as.foldlM (fun m a => Mem.touch m (.array a)) m = none := by
              intro as
              induction as with
              | nil => exact .inl rfl
              | cons a as ih =>
                rw [List.foldlM_cons]
                by_cases ha : m.Valid (.array a)
                · rw [touch_ok ha]; exact ih
                · rw [show m.touch (.array a) = none from if_neg ha]; exact .inr rfl
            unfold Mem.consume
            by_cases hv : m.Valid (h.rbuf i)
            · rw [touch_ok hv]; exact touches _
            · rw [show m.touch (h.rbuf i) = none from if_neg hv]; exact .inr rfl) (List.range h.total) with e | e
          · rw [e, Option.bind_some]
            rcases hw _ h1 with e | e
            · rw [e, Option.bind_some]
              have hbl : ∀ i ∈ List.range h.total, m.frees [h.sbuf i, h.rbuf i] = some m ∨
                  m.frees [h.sbuf i, h.rbuf i] = none := by
                intro i hi
                have hone : ∀ p, blk p ⊆ h.blocks → m.free p = some m ∨ m.free p = none := by
                  intro p hp
                  cases p with
                  | null => exact .inl rfl
                  | block b =>
                    right
                    refine free_gone (hg b ?_)
                    unfold Handle.inner
                    exact List.mem_append_right _ (hp (by simp [blk]))
                  | array a => exact .inr rfl
                  | junk => exact .inr rfl
                have hs : blk (h.sbuf i) ⊆ h.blocks := fun b hb => by
                  unfold Handle.blocks
                  exact List.mem_flatMap.2 ⟨i, hi, List.mem_append_left _ hb⟩
                have hr : blk (h.rbuf i) ⊆ h.blocks := fun b hb => by
                  unfold Handle.blocks
                  exact List.mem_flatMap.2 ⟨i, hi, List.mem_append_right _ hb⟩
                unfold Mem.frees
                rcases hone _ hs with e | e
                · rw [List.foldlM_cons, e]
                  rcases hone _ hr with e | e
                  · simp [List.foldlM_cons, e]
                  · simp [List.foldlM_cons, e]
                · rw [List.foldlM_cons, e]; exact .inr rfl
              have hstuck : ∀ l : List Nat, (∀ i ∈ l, i ∈ List.range h.total) →
                  l.foldlM (fun m i => Mem.frees m [h.sbuf i, h.rbuf i]) m = some m ∨
                  l.foldlM (fun m i => Mem.frees m [h.sbuf i, h.rbuf i]) m = none := by
                intro l
                induction l with
                | nil => exact fun _ => .inl rfl
                | cons i l ih =>
                  intro hl
                  rw [List.foldlM_cons]
                  rcases hbl i (hl i (by simp)) with e | e
                  · rw [e]; exact ih fun j hj => hl j (by simp [hj])
                  · rw [e]; exact .inr rfl
              rcases hstuck _ fun i hi => hi with e | e
              · rw [e, Option.bind_some, hfree]; rfl
              · rw [e]; rfl
            · rw [e]; rfl
          · rw [e]; rfl
        · rw [e]; rfl
      · rw [e]; rfl
  rcases hk : h.kind <;> rw [hk] at key <;> dsimp only at key ⊢ <;> rw [key] <;> rfl

end Verif.Capsule
