import Verif.Proofs.CapsuleSim

/-!
# C77: memory and messages of the exchanges between ranks

Whatever exchanges are started, waited for and dropped, in whatever order, with any number of patches, sides,
attributes and particles: as long as the caller follows the rules of `Verif.Spec.Capsule` no freed block is used, no
block is freed twice or while a message uses it, no uninitialised request is waited for, and nothing stays allocated
and no message stays in flight when all capsules have been dropped. The simulation itself follows the rules, also
when an exception leaves `run` at any point.
-/
namespace Verif.Capsule

variable {A : Type} [DecidableEq A]

/-- A history that follows the rules has no undefined behaviour. -/
theorem memory_safe (ops : List (Op A)) (h : Proper ops) : (run ops).isSome := by
  obtain ⟨w, e, _⟩ := inv_run ops h
  simp [e]

/-- If every start succeeded and every capsule has been dropped, waited for before or not, then nothing is
allocated and no message is in flight. -/
theorem no_leak (ops : List (Op A)) (h : Proper ops)
    (hd : ∀ id k, Op.start id k ∈ ops → k.Ok ∧ Op.drop id ∈ ops) :
    ∃ w, run ops = some w ∧ w.caps = [] ∧ w.mem.live = ∅ ∧ w.mem.pend = [] := by
  obtain ⟨w, e, i⟩ := inv_run ops h
  have hc : w.caps = [] := by
    refine List.eq_nil_iff_forall_not_mem.2 fun c hc => ?_
    obtain ⟨⟨k, hk⟩, h2, _⟩ := i.names c hc
    exact h2 (hd c.1 k hk).2
  refine ⟨w, e, hc, ?_, ?_⟩
  · refine Finset.eq_empty_of_forall_notMem fun b hb => ?_
    obtain ⟨c, hc', _⟩ := i.all (fun id k hk => (hd id k hk).1) b hb
    simp [hc] at hc'
  · refine List.eq_nil_iff_forall_not_mem.2 fun q hq => ?_
    obtain ⟨c, hc', _⟩ := i.pend q hq
    simp [hc] at hc'

/-- If every exchange has been waited for or dropped, then no message is in flight. -/
theorem no_message_left (ops : List (Op A)) (h : Proper ops)
    (hd : ∀ id k, Op.start id k ∈ ops → Op.wait id ∈ ops ∨ Op.drop id ∈ ops) :
    ∃ w, run ops = some w ∧ w.mem.pend = [] := by
  obtain ⟨w, e, i⟩ := inv_run ops h
  refine ⟨w, e, List.eq_nil_iff_forall_not_mem.2 fun q hq => ?_⟩
  obtain ⟨c, hc, ho, _⟩ := i.pend q hq
  obtain ⟨⟨k, hk⟩, h2, h3⟩ := i.names c hc
  rcases hd c.1 k hk with h | h
  · rw [h3.2 h] at ho; cases ho
  · exact h2 h

/-- Messages in flight read and write only memory that exists: blocks that are allocated and arrays that have not
been released. -/
theorem messages_valid (ops : List (Op A)) (h : Proper ops) {w : World A} (hw : run ops = some w) :
    ∀ q ∈ w.mem.pend, q.arr ∈ w.mem.live ∧ w.mem.Valid q.buf := by
  obtain ⟨w', e, i⟩ := inv_run ops h
  rw [hw] at e
  cases e
  intro q hq
  obtain ⟨c, hc, ho, h2, h3⟩ := i.pend q hq
  have eo := owned_open ho
  have hin : ∀ b ∈ c.2.inner, b ∈ w.mem.live := fun b hb =>
    i.live c hc b (by rw [eo]; exact List.mem_cons_of_mem _ hb)
  refine ⟨by rcases h3 with h | h <;> rw [h] <;> exact hin _ (by simp [sreq_mem, rreq_mem]), ?_⟩
  obtain ⟨⟨k, hk⟩, n2, n3⟩ := i.names c hc
  by_cases hg : c.2.kind = .guard
  · obtain ⟨_, a, e, k', hk', hu⟩ := h2.2.1 hg
    rw [e]
    show a ∈ w.mem.arrays
    rw [i.arrays]
    exact i.alive c.1 k' hk' (fun h => by rw [n3.2 h] at ho; cases ho) n2 a hu
  · have ob := (i.own c hc ho).bufs q.slot h2.1
    have hv : q.buf = .null ∨ ∃ b, q.buf = .block b := by
      rcases (h2.2.2 hg).1 with ⟨_, e⟩ | ⟨_, e⟩ <;> rw [e]
      · exact ob.1
      · exact ob.2
    rcases hv with h | ⟨b, h⟩
    · rw [h]; trivial
    · rw [h]; exact hin b (inflight_block h2 h)

/-- Waiting a second time for the same exchange is undefined behaviour, whatever the exchange and whatever happened
in between: no `_wait` looks at the flag it sets. -/
theorem second_wait_fails (ops : List (Op A)) (h : Proper ops) (id : Nat) (k : Start A) (hs : Op.start id k ∈ ops)
    (hk : k.Ok) (hw : Op.wait id ∈ ops) (hd : Op.drop id ∉ ops) : run (ops ++ [.wait id]) = none := by
  obtain ⟨w, e, i⟩ := inv_run ops h
  obtain ⟨c, hc, rfl⟩ := i.held id k hs hk hd
  have hf := (i.names c hc).2.2.2 hw
  have hg : ∀ b ∈ c.2.inner, b ∉ w.mem.live := fun b hb => (i.closed c hc hf b hb).1
  unfold run at e ⊢
  rw [List.foldlM_append, e]
  have hfind : w.caps.find? (fun d => d.1 == c.1) = some c := by
    rcases hx : w.caps.find? (fun d => d.1 == c.1) with _ | d
    · have := List.find?_eq_none.1 hx c hc
      simp at this
    · exact hx.trans (congrArg some
        (eq_of_name i (List.mem_of_find?_eq_some hx) hc (by simpa using List.find?_some hx)))
  simp [step, hfind, wait_again hg]

/-- A start of a particle exchange that raises, because the attributes lack the positions, leaves blocks behind that
no later operation frees. -/
theorem failed_start_leaks (ops : List (Op A)) (h : Proper ops) (id : Nat) (k : Start A) (hs : Op.start id k ∈ ops)
    (hk : ¬ k.Ok) : ∃ w, run ops = some w ∧ w.mem.live ≠ ∅ := by
  obtain ⟨w, e, i⟩ := inv_run ops h
  obtain ⟨b, hb, _⟩ := i.leak ⟨id, k, hs, hk⟩
  exact ⟨w, e, Finset.ne_empty_of_mem hb⟩

/-- Every history of calls of a simulation, on any number of ranks, in any order and left by an exception at any
point, is free of undefined behaviour. -/
theorem simulation_safe (ranks : Nat) (calls : List (Call A)) (h : FitsAll ranks calls) :
    (run (emits ranks calls).1).isSome :=
  memory_safe _ (inv_emits ranks calls h).st.proper

/-- When `run` has been left, normally or by an exception, and no exchange of currents is in flight, nothing is
allocated and no message is in flight. -/
theorem simulation_clean (ranks : Nat) (calls : List (Call A)) (h : FitsAll ranks (calls ++ [.leave]))
    (hh : (emits ranks calls).2.handle = none) :
    ∃ w, run (emits ranks (calls ++ [.leave])).1 = some w ∧ w.mem.live = ∅ ∧ w.mem.pend = [] := by
  have i := inv_emits ranks _ h
  have hd : ∀ id k, Op.start id k ∈ (emits ranks (calls ++ [.leave])).1 → k.Ok ∧
      Op.drop id ∈ (emits ranks (calls ++ [.leave])).1 := by
    intro id k hk
    refine ⟨i.st.ok id k hk, ?_⟩
    by_contra hn
    have e : (emits ranks (calls ++ [.leave])).2.handle = none ∧ (emits ranks (calls ++ [.leave])).2.vars = [] := by
      rw [emits_snoc]
      exact ⟨hh, rfl⟩
    by_cases hw : Op.wait id ∈ (emits ranks (calls ++ [.leave])).1
    · have := (i.st.done id).2 ⟨⟨k, hk⟩, hw, hn⟩
      rw [e.2] at this; simp at this
    · have := (i.st.inFlight id).2 ⟨⟨k, hk⟩, hw, hn⟩
      rw [e.1] at this; simp at this
  obtain ⟨w, e, _, h1, h2⟩ := no_leak _ i.st.proper hd
  exact ⟨w, e, h1, h2⟩

/-- what an exchange of currents leaves in a part of a history: it was started and waited for -/
def Exchanged (r : List (Op A)) : Prop := ∃ id c, Op.start id (CurrentArgs.start c) ∈ r ∧ Op.wait id ∈ r

theorem emit_synced {ranks : Nat} (hr : ranks ≠ 1) {r : List (Op A)} {s : Sim} (hs : s.synced = true → Exchanged r)
    (hh : ∀ id, s.handle = some id → ∃ c, Op.start id (CurrentArgs.start c) ∈ r) (c : Call A) (hc : c ≠ .deposit) :
    ((emit ranks s c).2.synced = true → Exchanged (r ++ (emit ranks s c).1)) ∧
    ∀ id, (emit ranks s c).2.handle = some id → ∃ x, Op.start id (CurrentArgs.start x) ∈ r ++ (emit ranks s c).1 := by
  have ext : ∀ o : List (Op A), (Exchanged r → Exchanged (r ++ o)) ∧
      ∀ id, (∃ x, Op.start id (CurrentArgs.start x) ∈ r) → ∃ x, Op.start id (CurrentArgs.start x) ∈ r ++ o := by
    intro o
    refine ⟨?_, ?_⟩
    · rintro ⟨id, x, h1, h2⟩
      exact ⟨id, x, List.mem_append_left _ h1, List.mem_append_left _ h2⟩
    · rintro id ⟨x, h⟩
      exact ⟨x, List.mem_append_left _ h⟩
  have same : (emit ranks s c).2.synced = s.synced → (emit ranks s c).2.handle = s.handle →
      ((emit ranks s c).2.synced = true → Exchanged (r ++ (emit ranks s c).1)) ∧
      ∀ id, (emit ranks s c).2.handle = some id → ∃ x, Op.start id (CurrentArgs.start x) ∈ r ++ (emit ranks s c).1 := by
    intro e1 e2
    rw [e1, e2]
    exact ⟨fun h => (ext _).1 (hs h), fun id h => (ext _).2 id (hh id h)⟩
  have hstart : ∀ c : CurrentArgs A, ((currentsStart ranks c s).2.synced = true → Exchanged (r ++ (currentsStart ranks c s).1)) ∧
      ∀ id, (currentsStart ranks c s).2.handle = some id →
        ∃ x, Op.start id (CurrentArgs.start x) ∈ r ++ (currentsStart ranks c s).1 := by
    intro c
    unfold currentsStart
    split
    · exact ⟨fun h => (ext _).1 (hs h), fun id h => (ext _).2 id (hh id h)⟩
    · rename_i hn
      refine ⟨fun h => ?_, fun id h => ?_⟩
      · have h : s.synced = true := h
        simp [h] at hn
      · simp only [Option.some.injEq] at h
        exact ⟨c, by simp [h]⟩
  have hwait : ∀ (r : List (Op A)) (s : Sim), (s.synced = true → Exchanged r) →
      (∀ id, s.handle = some id → ∃ c, Op.start id (CurrentArgs.start c) ∈ r) →
      ((currentsWait s : List (Op A) × Sim).2.synced = true → Exchanged (r ++ (currentsWait s : List (Op A) × Sim).1)) ∧
      ∀ id, (currentsWait s : List (Op A) × Sim).2.handle = some id →
        ∃ x, Op.start id (CurrentArgs.start x) ∈ r ++ (currentsWait s : List (Op A) × Sim).1 := by
    intro r s hs hh
    unfold currentsWait
    rcases e : s.handle with _ | id
    · simp only [List.append_nil]
      exact ⟨hs, fun id h => by rw [e] at h; cases h⟩
    · obtain ⟨x, hx⟩ := hh id e
      exact ⟨fun _ => ⟨id, x, by simp [hx], by simp⟩, fun _ h => by simp at h⟩
  cases c with
  | deposit => exact absurd rfl hc
  | currentsStart c => exact hstart c
  | currentsWait => exact hwait r s hs hh
  | currents c =>
    simp only [emit]
    split
    · exact ⟨fun h => (ext _).1 (hs h), fun id h => (ext _).2 id (hh id h)⟩
    · have := hwait (r ++ (currentsStart ranks c s).1) (currentsStart ranks c s).2 (hstart c).1 (hstart c).2
      rw [List.append_assoc] at this
      exact this
  | guardE g => exact same (by simp only [emit]; split <;> rfl) (by simp only [emit]; split <;> rfl)
  | guardB g => exact same (by simp only [emit]; split <;> rfl) (by simp only [emit]; split <;> rfl)
  | guardOnce g => exact same (by simp only [emit]; split <;> rfl) (by simp only [emit]; split <;> rfl)
  | particles l => exact same (by simp only [emit]; split <;> rfl) (by simp only [emit]; split <;> rfl)
  | arrays new gone => exact same rfl rfl
  | leave => exact same rfl rfl
  | breakGuard g => exact same (by simp only [emit]; split <;> rfl) (by simp only [emit]; split <;> rfl)
  | breakParticles l => exact same (by simp only [emit]; split <;> rfl) (by simp only [emit]; split <;> rfl)

/-- If the currents count as synchronised, then they have been exchanged after the last deposition, provided no
exchange was in flight at that deposition. What is missing: an exchange in flight, see
`stale_exchange_fails`. -/
theorem synced_means_exchanged_partial (ranks : Nat) (hr : ranks ≠ 1) (p q : List (Call A))
    (hh : (emits ranks p).2.handle = none) (hq : Call.deposit ∉ q)
    (hs : (emits ranks (p ++ .deposit :: q)).2.synced = true) :
    ∃ r, (emits ranks (p ++ .deposit :: q)).1 = (emits ranks p).1 ++ r ∧ Exchanged r := by
  have key : ∀ q : List (Call A), Call.deposit ∉ q → ∃ r, (emits ranks (p ++ .deposit :: q)).1 = (emits ranks p).1 ++ r ∧
      ((emits ranks (p ++ .deposit :: q)).2.synced = true → Exchanged r) ∧
      ∀ id, (emits ranks (p ++ .deposit :: q)).2.handle = some id → ∃ c, Op.start id (CurrentArgs.start c) ∈ r := by
    intro q
    induction q using List.reverseRecOn with
    | nil =>
      intro _
      rw [emits_snoc]
      refine ⟨[], by simp [emit], fun h => by simp [emit] at h, fun id h => ?_⟩
      have h : (emits ranks p).2.handle = some id := h
      rw [hh] at h; cases h
    | append_singleton q c ih =>
      intro hq
      simp only [List.mem_append, List.mem_singleton, not_or] at hq
      obtain ⟨r, e, h1, h2⟩ := ih hq.1
      have h3 := emit_synced hr h1 h2 c (fun h => hq.2 h.symm)
      have e2 : p ++ .deposit :: (q ++ [c]) = (p ++ .deposit :: q) ++ [c] := by simp
      rw [e2, emits_snoc]
      exact ⟨_, by rw [e, List.append_assoc], h3⟩
  obtain ⟨r, e, h1, _⟩ := key q hq
  exact ⟨r, e, h1 hs⟩

/-- After an exception between the start and the wait of an exchange of currents the handle stays. The next step
deposits, starts nothing and waits for the old exchange: the currents count as synchronised, and nothing has been
exchanged since the deposition. -/
theorem stale_exchange_fails (ranks : Nat) (hr : ranks ≠ 1) (c c' : CurrentArgs A) :
    let calls : List (Call A) := [.deposit, .currentsStart c, .leave]
    (emits ranks (calls ++ [.deposit, .currentsStart c', .currentsWait])).2.synced = true ∧
    (emits ranks (calls ++ [.deposit, .currentsStart c', .currentsWait])).1 = (emits ranks calls).1 ++ [.wait 0, .drop 0] ∧
    ¬ Exchanged ([.wait 0, .drop 0] : List (Op A)) := by
  refine ⟨?_, ?_, ?_⟩
  · simp [emits, emit, currentsStart, currentsWait, leave, Sim.init, hr]
  · simp [emits, emit, currentsStart, currentsWait, leave, Sim.init, hr, dropVar]
  · rintro ⟨id, c, h, _⟩
    simp at h

/-! ## Examples -/

/-- two patches with two sides; the sides without a rank behind them are `0` of patch 0 and `1` of patch 1 -/
def exRank (ip ib : Nat) : Int := if ip = ib then -1 else 1

/-- guard cells of two attributes, currents, particles, overlapping; one exchange is dropped without a wait -/
def exOps : List (Op (Nat × Nat)) :=
  [.newArray (0, 0), .newArray (0, 1), .newArray (1, 0), .newArray (1, 1), .newArray (2, 0), .newArray (2, 1),
    .newArray (3, 0), .newArray (3, 1),
    .start 0 (.guard 2 2 2 exRank fun ia ip => (ia, ip)), .start 1 (.currents 2 2 exRank fun k ip => (k, ip)),
    .wait 0, .start 2 (.particles 2 2 2 5 true exRank (fun i => i) (fun i => 3 - i) fun ip => [(0, ip), (1, ip)]),
    .wait 2, .drop 0, .drop 1, .drop 2]

theorem exOps_proper : Proper exOps := by
  have snoc : ∀ (l : List (Op (Nat × Nat))) op, Proper l → Allowed l op → Proper (l ++ [op]) := fun _ _ => proper_append
  have hu2 : ∀ x, x < 2 → x = 0 ∨ x = 1 := by omega
  have hu4 : ∀ x, x < 4 → x = 0 ∨ x = 1 ∨ x = 2 ∨ x = 3 := by omega
  have h0 := proper_nil (A := Nat × Nat)
  have h1 := snoc _ (.newArray (0, 0)) h0 trivial
  have h2 := snoc _ (.newArray (0, 1)) h1 trivial
  have h3 := snoc _ (.newArray (1, 0)) h2 trivial
  have h4 := snoc _ (.newArray (1, 1)) h3 trivial
  have h5 := snoc _ (.newArray (2, 0)) h4 trivial
  have h6 := snoc _ (.newArray (2, 1)) h5 trivial
  have h7 := snoc _ (.newArray (3, 0)) h6 trivial
  have h8 := snoc _ (.newArray (3, 1)) h7 trivial
  have h9 := snoc _ (.start 0 (.guard 2 2 2 exRank fun ia ip => (ia, ip))) h8 (by
    refine ⟨by simp [WasStarted], ?_⟩
    rintro a ⟨ia, hia, ip, hip, rfl⟩
    rcases hu2 ia hia with rfl | rfl <;> rcases hu2 ip hip with rfl | rfl <;> decide)
  have h10 := snoc _ (.start 1 (.currents 2 2 exRank fun k ip => (k, ip))) h9 (by
    refine ⟨by simp [WasStarted], ?_⟩
    rintro a ⟨k, hk, ip, hip, rfl⟩
    rcases hu4 k hk with rfl | rfl | rfl | rfl <;> rcases hu2 ip hip with rfl | rfl <;> simp [arraysAfter])
  have h11 := snoc _ (.wait 0) h10 (by simp [Allowed, WasStarted])
  have h12 := snoc _ (.start 2 (.particles 2 2 2 5 true exRank (fun i => i) (fun i => 3 - i) fun ip => [(0, ip), (1, ip)])) h11 (by
    refine ⟨by simp [WasStarted], ?_⟩
    rintro a ⟨ip, hip, ha⟩
    rcases hu2 ip hip with rfl | rfl <;> simp only [List.mem_cons, List.not_mem_nil, or_false] at ha <;>
      rcases ha with rfl | rfl <;> simp [arraysAfter])
  have h13 := snoc _ (.wait 2) h12 (by simp [Allowed, WasStarted])
  have h14 := snoc _ (.drop 0) h13 (by simp [Allowed, WasStarted])
  have h15 := snoc _ (.drop 1) h14 (by simp [Allowed, WasStarted])
  have h16 := snoc _ (.drop 2) h15 (by simp [Allowed, WasStarted])
  exact h16

/-- the hypotheses of `no_leak` hold of it -/
example : ∃ w, run exOps = some w ∧ w.caps = [] ∧ w.mem.live = ∅ ∧ w.mem.pend = [] := by
  refine no_leak exOps exOps_proper ?_
  intro id k h
  simp only [exOps, List.mem_cons, reduceCtorEq, List.not_mem_nil, or_false, false_or, Op.start.injEq] at h
  rcases h with ⟨rfl, rfl⟩ | ⟨rfl, rfl⟩ | ⟨rfl, rfl⟩ <;> simp [Start.Ok, exOps]

/-- half way through 8 messages are in flight and 34 blocks are allocated -/
example : (run (exOps.take 12)).map (fun w => (w.mem.pend.length, w.mem.live.card)) = some (8, 34) := by
  decide +kernel

/-- releasing an array of an exchange in flight: the wait writes into it -/
example : (run (exOps.take 12 ++ [.dropArray (0, 0), .newArray (9, 9), .wait 2])).isNone := by decide +kernel

/-- releasing a field array while its guard cells are exchanged -/
example : (run (exOps.take 10 ++ [.dropArray (0, 0)])).isNone := by decide +kernel

/-- a simulation on two ranks: a step with two species, the second of which gets a larger array, an exception in the
next step -/
def exCalls : List (Call (Nat × Nat)) :=
  let g : GuardArgs (Nat × Nat) := ⟨1, 2, 1, fun _ ib => if ib = 0 then -1 else 1, fun _ _ => (0, 0)⟩
  let j : CurrentArgs (Nat × Nat) := ⟨1, 2, fun _ ib => if ib = 0 then -1 else 1, fun _ _ => (0, 1)⟩
  let s : SpeciesArgs (Nat × Nat) := ⟨[], [], 2, 1, 2, 3, fun _ ib => if ib = 0 then -1 else 1, fun i => i, fun i => i, fun _ => [(1, 0)]⟩
  let t : SpeciesArgs (Nat × Nat) := ⟨[(2, 0)], [(2, 1)], 2, 1, 2, 3, fun _ ib => if ib = 0 then -1 else 1, fun i => i, fun i => i,
    fun _ => [(2, 1)]⟩
  [.arrays [(0, 0), (0, 1), (1, 0), (2, 0)] [], .guardE g, .guardB g, .deposit, .currentsStart j, .particles [s, t],
    .currentsWait, .guardB g, .guardE g, .breakGuard g]

theorem fits_snoc {ranks : Nat} {calls : List (Call A)} {c : Call A} (h : FitsAll ranks calls)
    (hc : Fits (emits ranks calls).1 (emits ranks calls).2 c) : FitsAll ranks (calls ++ [c]) := by
  intro pre x post e
  rcases List.eq_nil_or_concat post with rfl | ⟨post', y, rfl⟩
  · obtain ⟨rfl, h2⟩ := List.append_inj' e rfl
    simp only [List.cons.injEq, and_true] at h2
    rw [← h2]; exact hc
  · rw [List.concat_eq_append, ← List.cons_append, ← List.append_assoc] at e
    exact h pre x post' (List.append_inj' e rfl).1

theorem exCalls_fit : FitsAll 2 (exCalls ++ [.leave]) := by
  have snoc : ∀ (l : List (Call (Nat × Nat))) c, FitsAll 2 l → Fits (emits 2 l).1 (emits 2 l).2 c → FitsAll 2 (l ++ [c]) :=
    fun _ _ => fits_snoc
  have h0 : FitsAll 2 ([] : List (Call (Nat × Nat))) := by intro pre c post e; simp at e
  have h1 := snoc _ (.arrays [(0, 0), (0, 1), (1, 0), (2, 0)] []) h0 (by intro a ha; simp at ha)
  have h2 := snoc _ (.guardE ⟨1, 2, 1, fun _ ib => if ib = 0 then -1 else 1, fun _ _ => (0, 0)⟩) h1 (by
    rintro a ⟨_, _, _, _, rfl⟩; show ((0, 0) : Nat × Nat) ∈ arraysAfter _; decide +kernel)
  have h3 := snoc _ (.guardB ⟨1, 2, 1, fun _ ib => if ib = 0 then -1 else 1, fun _ _ => (0, 0)⟩) h2 (by
    rintro a ⟨_, _, _, _, rfl⟩; show ((0, 0) : Nat × Nat) ∈ arraysAfter _; decide +kernel)
  have h4 := snoc _ .deposit h3 trivial
  have h5 := snoc _ (.currentsStart ⟨1, 2, fun _ ib => if ib = 0 then -1 else 1, fun _ _ => (0, 1)⟩) h4 (by
    rintro a ⟨_, _, _, _, rfl⟩; show ((0, 1) : Nat × Nat) ∈ arraysAfter _; decide +kernel)
  have h6 := snoc _ (.particles [⟨[], [], 2, 1, 2, 3, fun _ ib => if ib = 0 then -1 else 1, fun i => i, fun i => i, fun _ => [(1, 0)]⟩,
      ⟨[(2, 0)], [(2, 1)], 2, 1, 2, 3, fun _ ib => if ib = 0 then -1 else 1, fun i => i, fun i => i, fun _ => [(2, 1)]⟩]) h5 (by
    refine ⟨by simp, ?_, ?_, ?_, trivial⟩
    · rintro a ⟨ip, hip, ha⟩
      simp only [List.mem_singleton] at ha
      subst ha; decide +kernel
    · intro a ha
      simp only [List.mem_singleton] at ha
      subst ha
      rintro (⟨id, k, hid, hk, hu⟩ | ⟨ip, _, h⟩)
      · have e : id = 2 := by
          have : some 2 = some id := hid
          simpa using this.symm
        subst e
        simp [emits, emit, currentsStart, dropVar, Sim.init] at hk
        subst hk
        obtain ⟨_, _, _, _, h⟩ := hu
        simp at h
      · simp at h
    · rintro a ⟨ip, hip, ha⟩
      simp only [List.mem_singleton] at ha
      subst ha; decide +kernel)
  have h7 := snoc _ .currentsWait h6 trivial
  have h8 := snoc _ (.guardB ⟨1, 2, 1, fun _ ib => if ib = 0 then -1 else 1, fun _ _ => (0, 0)⟩) h7 (by
    rintro a ⟨_, _, _, _, rfl⟩; show ((0, 0) : Nat × Nat) ∈ arraysAfter _; decide +kernel)
  have h9 := snoc _ (.guardE ⟨1, 2, 1, fun _ ib => if ib = 0 then -1 else 1, fun _ _ => (0, 0)⟩) h8 (by
    rintro a ⟨_, _, _, _, rfl⟩; show ((0, 0) : Nat × Nat) ∈ arraysAfter _; decide +kernel)
  have h10 := snoc _ (.breakGuard ⟨1, 2, 1, fun _ ib => if ib = 0 then -1 else 1, fun _ _ => (0, 0)⟩) h9 (by
    rintro a ⟨_, _, _, _, rfl⟩; show ((0, 0) : Nat × Nat) ∈ arraysAfter _; decide +kernel)
  exact snoc _ .leave h10 trivial

example : ∃ w, run (emits 2 (exCalls ++ [.leave])).1 = some w ∧ w.mem.live = ∅ ∧ w.mem.pend = [] :=
  simulation_clean 2 exCalls exCalls_fit (by decide +kernel)

/-- eight exchanges have been started in it -/
example : (emits 2 exCalls).2.next = 8 := by decide +kernel

end Verif.Capsule
