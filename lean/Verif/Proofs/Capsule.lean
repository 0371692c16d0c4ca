import Verif.Model.Capsule
import Mathlib.Data.List.Nodup
import Mathlib.Data.Finset.Card
import Mathlib.Tactic.Ring
import Mathlib.Tactic.Linarith

/-!
# Lemmas about the memory of the exchanges
-/
namespace Verif.Capsule

set_option linter.unusedSectionVars false

variable {A : Type} [DecidableEq A]

/-- the block of a pointer, if it has one -/
def blk : Buf A → List Nat
  | .block b => [b]
  | _ => []

/-- the blocks of the buffers of a handle -/
def Handle.blocks (h : Handle A) : List Nat :=
  (List.range h.total).flatMap fun i => blk (h.sbuf i) ++ blk (h.rbuf i)

/-- everything `_wait` frees -/
def Handle.inner (h : Handle A) : List Nat := h.sreq :: h.rreq :: h.tables ++ h.blocks

/-- everything that belongs to a handle -/
def Handle.owned (h : Handle A) : List Nat := h.self :: if h.finalized then [] else h.inner

theorem range_fold {σ : Type} (f : σ → Nat → Option σ) (g : Nat → σ) (n : Nat)
    (h : ∀ k, k < n → f (g k) k = some (g (k + 1))) : (List.range n).foldlM f (g 0) = some (g n) := by
  induction n with
  | zero => rfl
  | succ n ih =>
    rw [List.range_succ, List.foldlM_append, ih fun k hk => h k (by omega)]
    simp [h n (by omega)]

theorem free_block (m : Mem A) (b : Nat) (hb : b ∈ m.live) (hq : ∀ q ∈ m.pend, q.arr ≠ b ∧ q.buf ≠ .block b) :
    m.free (.block b) = some { m with live := m.live.erase b } := by
  unfold Mem.free; exact if_pos ⟨hb, hq⟩

/-- `free` of a list of pointers to different blocks that nobody uses -/
theorem frees_ok : ∀ (ps : List (Buf A)) (m : Mem A), (∀ p ∈ ps, p = .null ∨ ∃ b, p = .block b) →
    (ps.flatMap blk).Nodup → (∀ b ∈ ps.flatMap blk, b ∈ m.live ∧ ∀ q ∈ m.pend, q.arr ≠ b ∧ q.buf ≠ .block b) →
    m.frees ps = some { m with live := m.live \ (ps.flatMap blk).toFinset }
  | [], m, _, _, _ => by simp [Mem.frees]
  | p :: ps, m, hp, hn, hl => by
    unfold Mem.frees
    rw [List.foldlM_cons]
    rcases hp p (by simp) with rfl | ⟨b, rfl⟩
    · have := frees_ok ps m (fun p h => hp p (by simp [h])) (by simpa [blk] using hn) (by simpa [blk] using hl)
      simpa [Mem.free, blk, Mem.frees] using this
    · have hb := hl b (by simp [blk])
      rw [free_block m b hb.1 hb.2]
      simp only [List.flatMap_cons, blk, List.cons_append, List.nil_append, List.nodup_cons] at hn
      have := frees_ok ps { m with live := m.live.erase b } (fun p h => hp p (by simp [h])) hn.2 (by
        intro c hc
        have h1 := hl c (by simp only [List.flatMap_cons, List.mem_append]; exact .inr hc)
        refine ⟨Finset.mem_erase.2 ⟨?_, h1.1⟩, h1.2⟩
        rintro rfl; exact hn.1 hc)
      unfold Mem.frees at this
      simp only [Option.bind_eq_bind, Option.bind_some]
      rw [this]
      congr 2
      ext x
      simp only [Finset.mem_sdiff, Finset.mem_erase, List.mem_toFinset, List.flatMap_cons, blk, List.cons_append,
        List.nil_append, List.mem_cons]
      tauto

theorem frees_blocks (l : List Nat) (m : Mem A) (hn : l.Nodup)
    (hl : ∀ b ∈ l, b ∈ m.live ∧ ∀ q ∈ m.pend, q.arr ≠ b ∧ q.buf ≠ .block b) :
    m.frees (l.map .block) = some { m with live := m.live \ l.toFinset } := by
  have e : (l.map (Buf.block (A := A))).flatMap blk = l := by
    rw [List.flatMap_map]
    induction l with
    | nil => rfl
    | cons x l ih =>
      rw [List.flatMap_cons, ih (List.nodup_cons.1 hn).2 fun b hb => hl b (by simp [hb])]
      rfl
  have := frees_ok (l.map (Buf.block (A := A))) m (by simp) (by rw [e]; exact hn) (by rw [e]; exact hl)
  rw [e] at this; exact this

theorem waitall_ok (m : Mem A) (n arr : Nat) (ha : arr ∈ m.live) (hs : ∀ i < n, (arr, i) ∈ m.slots) :
    m.waitall n arr = some { m with pend := m.pend.filter fun q => !(q.arr == arr && decide (q.slot < n)) } := by
  unfold Mem.waitall
  have := range_fold (fun m i => Mem.wait m arr i)
    (fun k => { m with pend := m.pend.filter fun q => !(q.arr == arr && decide (q.slot < k)) }) n (by
    intro k hk
    unfold Mem.wait
    refine (if_pos ⟨ha, hs k hk⟩).trans ?_
    congr 2
    rw [List.filter_filter]
    apply List.filter_congr
    intro q _
    have e : q.slot < k + 1 ↔ q.slot < k ∨ q.slot = k := by omega
    rw [Bool.eq_iff_iff]
    simp only [e, Bool.and_eq_true, Bool.not_eq_true', Bool.and_eq_false_iff, beq_eq_false_iff_ne, decide_eq_false_iff_not]
    tauto)
  simpa using this

/-! ## What a handle needs of the memory -/

/-- a message in flight that belongs to `h`; `U` are the arrays the exchange was started with -/
def InFlight (U : A → Prop) (h : Handle A) (q : Req A) : Prop :=
  q.slot < h.total ∧
  (h.kind = .guard → (q.arr = h.sreq ∨ q.arr = h.rreq) ∧ ∃ a, q.buf = .array a ∧ U a) ∧
  (h.kind ≠ .guard → (q.arr = h.sreq ∧ q.buf = h.sbuf q.slot ∨ q.arr = h.rreq ∧ q.buf = h.rbuf q.slot) ∧
    (h.kind = .currents → h.sbuf q.slot ≠ .null))

/-- a handle that has not been waited for -/
structure Own (U : A → Prop) (h : Handle A) (slots : Finset (Nat × Nat)) : Prop where
  slots : ∀ i < h.total, (h.sreq, i) ∈ slots ∧ (h.rreq, i) ∈ slots
  bufs : ∀ i < h.total, (h.sbuf i = .null ∨ ∃ b, h.sbuf i = .block b) ∧ (h.rbuf i = .null ∨ ∃ b, h.rbuf i = .block b)
  guard : h.kind = .guard → h.blocks = []
  null : h.kind = .currents → ∀ i < h.total, h.sbuf i = .null → h.rbuf i = .null
  uses : ∀ i < h.total, ∀ a ∈ h.uses i, U a

/-- a message that is not one of the first `k` slots of `h` -/
def noneLeft (h : Handle A) (k : Nat) (q : Req A) : Bool :=
  !((q.arr == h.sreq || q.arr == h.rreq) && decide (q.slot < k))

/-- the memory after `_wait`: the request arrays, tables and buffers are gone, and so are the messages -/
def afterWait (h : Handle A) (m : Mem A) : Mem A :=
  { m with
    live := m.live \ h.inner.toFinset
    pend := m.pend.filter (noneLeft h h.total) }

/-- The hypotheses under which `_wait` and the destructor are looked at. -/
structure Ready (U : A → Prop) (h : Handle A) (m : Mem A) : Prop where
  own : Own U h m.slots
  live : ∀ b ∈ h.self :: h.inner, b ∈ m.live
  nodup : (h.self :: h.inner).Nodup
  mine : ∀ q ∈ m.pend, q.arr = h.sreq ∨ q.arr = h.rreq → InFlight U h q
  others : ∀ q ∈ m.pend, ¬ (q.arr = h.sreq ∨ q.arr = h.rreq) →
    q.arr ∉ h.self :: h.inner ∧ ∀ b ∈ h.self :: h.inner, q.buf ≠ .block b

theorem touch_ok {m : Mem A} {p : Buf A} (h : m.Valid p) : m.touch p = some m := if_pos h

theorem touches_ok {m : Mem A} : ∀ {as : List A}, (∀ a ∈ as, a ∈ m.arrays) →
    as.foldlM (fun m a => Mem.touch m (.array a)) m = some m
  | [], _ => rfl
  | a :: as, h => by
    rw [List.foldlM_cons, touch_ok (p := .array a) (h a (by simp))]
    exact touches_ok fun x hx => h x (by simp [hx])

theorem consume_ok {m : Mem A} {p : Buf A} {as : List A} (h : m.Valid p) (ha : ∀ a ∈ as, a ∈ m.arrays) :
    m.consume p as = some m := by
  unfold Mem.consume
  rw [touch_ok h]
  exact touches_ok ha

theorem sreq_mem (h : Handle A) : h.sreq ∈ h.inner := by simp [Handle.inner]
theorem rreq_mem (h : Handle A) : h.rreq ∈ h.inner := by simp [Handle.inner]

theorem blocks_mem (h : Handle A) {i : Nat} (hi : i < h.total) {b : Nat} (hb : b ∈ blk (h.sbuf i) ++ blk (h.rbuf i)) :
    b ∈ h.inner := by
  refine List.mem_append_right (h.sreq :: h.rreq :: h.tables) ?_
  exact List.mem_flatMap.2 ⟨i, List.mem_range.2 hi, hb⟩

/-- freeing the buffers of every slot -/
theorem free_bufs {s : Finset (Nat × Nat)} {U : A → Prop} {h : Handle A} (ho : Own U h s) (m : Mem A) (hn : h.blocks.Nodup)
    (hl : ∀ b ∈ h.blocks, b ∈ m.live ∧ ∀ q ∈ m.pend, q.arr ≠ b ∧ q.buf ≠ .block b) :
    (List.range h.total).foldlM (fun m i => Mem.frees m [h.sbuf i, h.rbuf i]) m =
      some { m with live := m.live \ h.blocks.toFinset } := by
  have e : ∀ (l : List Nat) (m : Mem A), l.foldlM (fun m i => Mem.frees m [h.sbuf i, h.rbuf i]) m =
      m.frees (l.flatMap fun i => [h.sbuf i, h.rbuf i]) := by
    intro l
    induction l with
    | nil => intro m; rfl
    | cons i l ih =>
      intro m
      rw [List.foldlM_cons, List.flatMap_cons]
      unfold Mem.frees
      rw [List.foldlM_append]
      congr 1
      funext m'
      exact ih m'
  rw [e]
  have eb : ((List.range h.total).flatMap fun i => [h.sbuf i, h.rbuf i]).flatMap blk = h.blocks := by
    rw [List.flatMap_assoc]
    unfold Handle.blocks
    congr 1
    funext i
    simp [List.flatMap_cons]
  have := frees_ok ((List.range h.total).flatMap fun i => [h.sbuf i, h.rbuf i]) m (by
    intro p hp
    obtain ⟨i, hi, hp⟩ := List.mem_flatMap.1 hp
    have hb := ho.bufs i (List.mem_range.1 hi)
    simp only [List.mem_cons, List.not_mem_nil, or_false] at hp
    rcases hp with rfl | rfl
    · exact hb.1
    · exact hb.2) (by rw [eb]; exact hn) (by rw [eb]; exact hl)
  rw [eb] at this
  exact this

theorem noneLeft_zero (h : Handle A) (m : Mem A) : { m with pend := m.pend.filter (noneLeft h 0) } = m := by
  have : m.pend.filter (noneLeft h 0) = m.pend := List.filter_eq_self.2 fun q _ => by simp [noneLeft]
  rw [this]

theorem inner_split (h : Handle A) : h.inner.toFinset = ({h.sreq, h.rreq} ∪ h.tables.toFinset) ∪ h.blocks.toFinset := by
  ext x; simp [Handle.inner]

theorem left_ok {U : A → Prop} {h : Handle A} {m : Mem A} (r : Ready U h m) :
    ∀ q ∈ m.pend.filter (noneLeft h h.total), ∀ b ∈ h.self :: h.inner, q.arr ≠ b ∧ q.buf ≠ .block b := by
  intro q hq b hb
  obtain ⟨hq, hn⟩ := List.mem_filter.1 hq
  by_cases ha : q.arr = h.sreq ∨ q.arr = h.rreq
  · have := (r.mine q hq ha).1
    exfalso
    rcases ha with ha | ha <;> simp [noneLeft, ha, this] at hn
  · have := r.others q hq ha
    exact ⟨fun e => this.1 (e ▸ hb), this.2 b hb⟩

theorem nodup_parts {h : Handle A} (hn : (h.self :: h.inner).Nodup) :
    h.blocks.Nodup ∧ h.tables.Nodup ∧ h.sreq ≠ h.rreq ∧ h.self ∉ h.inner ∧ (∀ b ∈ h.tables, b ≠ h.sreq ∧ b ≠ h.rreq) ∧
    (∀ b ∈ h.blocks, b ≠ h.sreq ∧ b ≠ h.rreq ∧ b ∉ h.tables) := by
  have h0 := List.nodup_cons.1 hn
  have h1 := h0.2
  rw [Handle.inner, List.nodup_append] at h1
  obtain ⟨h2, h3, h4⟩ := h1
  rw [List.nodup_cons, List.nodup_cons] at h2
  refine ⟨h3, h2.2.2, fun e => h2.1 (by simp [e]), h0.1, fun b hb => ⟨?_, ?_⟩, fun b hb => ⟨?_, ?_, ?_⟩⟩
  · rintro rfl; exact h2.1 (by simp [hb])
  · rintro rfl; exact h2.2.1 hb
  · rintro rfl; exact h4 _ (by simp) _ hb rfl
  · rintro rfl; exact h4 _ (by simp) _ hb rfl
  · intro ht; exact h4 b (by simp [ht]) _ hb rfl

theorem waitall_both {U : A → Prop} {h : Handle A} {m : Mem A} (a b : Nat)
    (hab : a = h.sreq ∧ b = h.rreq ∨ a = h.rreq ∧ b = h.sreq) (r : Ready U h m) :
    m.waitall h.total a = some { m with pend := m.pend.filter fun q => !(q.arr == a && decide (q.slot < h.total)) } ∧
    Mem.waitall { m with pend := m.pend.filter fun q => !(q.arr == a && decide (q.slot < h.total)) } h.total b =
      some { m with pend := m.pend.filter (noneLeft h h.total) } := by
  have hs : h.sreq ∈ m.live := r.live _ (by simp [Handle.inner])
  have hr : h.rreq ∈ m.live := r.live _ (by simp [Handle.inner])
  refine ⟨waitall_ok m _ _ (by rcases hab with ⟨rfl, _⟩ | ⟨rfl, _⟩ <;> assumption) fun i hi => by
    rcases hab with ⟨rfl, _⟩ | ⟨rfl, _⟩
    · exact (r.own.slots i hi).1
    · exact (r.own.slots i hi).2, ?_⟩
  rw [waitall_ok _ _ _ (by rcases hab with ⟨_, rfl⟩ | ⟨_, rfl⟩ <;> assumption) fun i hi => by
    rcases hab with ⟨_, rfl⟩ | ⟨_, rfl⟩
    · exact (r.own.slots i hi).2
    · exact (r.own.slots i hi).1]
  congr 2
  rw [List.filter_filter]
  apply List.filter_congr
  intro q _
  rw [Bool.eq_iff_iff]
  simp only [noneLeft, Bool.and_eq_true, Bool.or_eq_true, Bool.not_eq_true', Bool.and_eq_false_iff, Bool.or_eq_false_iff,
    beq_eq_false_iff_ne, decide_eq_false_iff_not]
  rcases hab with ⟨rfl, rfl⟩ | ⟨rfl, rfl⟩ <;> tauto

/-- freeing everything of a handle whose messages are gone, in any of the orders of the code -/
theorem frees_parts {U : A → Prop} {h : Handle A} {m : Mem A} (r : Ready U h m) (L : Finset Nat) (l : List Nat)
    (hl : l.Nodup) (hi : ∀ b ∈ l, b ∈ h.self :: h.inner ∧ b ∉ L) :
    Mem.frees { m with live := m.live \ L, pend := m.pend.filter (noneLeft h h.total) } (l.map .block) =
      some { m with live := m.live \ (L ∪ l.toFinset), pend := m.pend.filter (noneLeft h h.total) } := by
  rw [frees_blocks l _ hl fun b hb => ⟨Finset.mem_sdiff.2 ⟨r.live b (hi b hb).1, (hi b hb).2⟩,
    fun q hq => left_ok r q hq b (hi b hb).1⟩]
  congr 2
  ext x
  simp only [Finset.mem_sdiff, Finset.mem_union]
  tauto

/-- the same for the buffers -/
theorem free_bufs_parts {U : A → Prop} {h : Handle A} {m : Mem A} (r : Ready U h m) (L : Finset Nat)
    (hi : ∀ b ∈ h.blocks, b ∉ L) :
    (List.range h.total).foldlM (fun m i => Mem.frees m [h.sbuf i, h.rbuf i])
        { m with live := m.live \ L, pend := m.pend.filter (noneLeft h h.total) } =
      some { m with live := m.live \ (L ∪ h.blocks.toFinset), pend := m.pend.filter (noneLeft h h.total) } := by
  have hb : ∀ b ∈ h.blocks, b ∈ h.self :: h.inner := fun b hb => by simp [Handle.inner, hb]
  rw [free_bufs r.own _ (nodup_parts r.nodup).1 fun b h1 => ⟨Finset.mem_sdiff.2 ⟨r.live b (hb b h1), hi b h1⟩,
    fun q hq => left_ok r q hq b (hb b h1)⟩]
  congr 2
  ext x
  simp only [Finset.mem_sdiff, Finset.mem_union]
  tauto

theorem sdiff_none (m : Mem A) (p : List (Req A)) : { m with pend := p } = { m with live := m.live \ ∅, pend := p } := by
  simp

/-- `sync_guard_fields_2d_wait` does what it should -/
theorem waitGuard_ok {U : A → Prop} {h : Handle A} {m : Mem A} (r : Ready U h m) (hk : h.kind = .guard) :
    waitGuard h m = some (afterWait h m) := by
  obtain ⟨n1, n2, n3, n4, n5, n6⟩ := nodup_parts r.nodup
  have hself : m.touch (.block h.self) = some m := touch_ok (r.live _ (by simp))
  have hs : h.sreq ∈ m.live := r.live _ (by simp [Handle.inner])
  have hr : h.rreq ∈ m.live := r.live _ (by simp [Handle.inner])
  unfold waitGuard
  rw [hself]
  simp only [Option.bind_eq_bind, Option.bind_some]
  have loop := range_fold (fun m i => (Mem.wait m h.sreq i).bind fun m => Mem.wait m h.rreq i)
    (fun k => { m with pend := m.pend.filter (noneLeft h k) }) h.total (by
      intro k hk
      have e1 : Mem.wait { m with pend := m.pend.filter (noneLeft h k) } h.sreq k = some _ :=
        if_pos ⟨hs, (r.own.slots k hk).1⟩
      rw [e1, Option.bind_some]
      refine (if_pos ⟨hr, (r.own.slots k hk).2⟩).trans ?_
      congr 2
      rw [List.filter_filter, List.filter_filter]
      apply List.filter_congr
      intro q _
      have e : q.slot < k + 1 ↔ q.slot < k ∨ q.slot = k := by omega
      rw [Bool.eq_iff_iff]
      simp only [noneLeft, e, Bool.and_eq_true, Bool.or_eq_true, Bool.not_eq_true', Bool.and_eq_false_iff, Bool.or_eq_false_iff,
        beq_eq_false_iff_ne, decide_eq_false_iff_not]
      tauto)
  rw [noneLeft_zero] at loop
  rw [loop, Option.bind_some]
  rw [sdiff_none, frees_parts r ∅ h.tables n2 fun b hb => ⟨by simp [Handle.inner, hb], by simp⟩, Option.bind_some]
  have f1 := frees_parts r (∅ ∪ h.tables.toFinset) [h.sreq, h.rreq] (by simp [n3]) (by
    intro b hb
    simp only [List.mem_cons, List.not_mem_nil, or_false] at hb
    refine ⟨by rcases hb with rfl | rfl <;> simp [Handle.inner], ?_⟩
    simp only [Finset.empty_union, List.mem_toFinset]
    intro hx
    rcases hb with rfl | rfl
    · exact (n5 _ hx).1 rfl
    · exact (n5 _ hx).2 rfl)
  simp only [List.map_cons, List.map_nil] at f1
  rw [f1]
  unfold afterWait
  rw [inner_split, r.own.guard hk]
  congr 2
  ext x
  simp only [Finset.mem_sdiff, List.mem_toFinset, Finset.mem_union, Finset.mem_insert, Finset.mem_singleton,
    List.mem_cons, List.not_mem_nil, or_false, Finset.notMem_empty]
  tauto

/-- `fill_particles_from_boundary_2d_wait` -/
theorem waitParticles_ok {U : A → Prop} {h : Handle A} {m : Mem A} (r : Ready U h m)
    (ha : ∀ a, U a → a ∈ m.arrays) : waitParticles h m = some (afterWait h m) := by
  obtain ⟨n1, n2, n3, n4, n5, n6⟩ := nodup_parts r.nodup
  have hself : m.touch (.block h.self) = some m := touch_ok (r.live _ (by simp))
  obtain ⟨w1, w2⟩ := waitall_both h.rreq h.sreq (.inr ⟨rfl, rfl⟩) r
  unfold waitParticles
  rw [hself]
  simp only [Option.bind_eq_bind, Option.bind_some]
  rw [w1, Option.bind_some]
  have c := range_fold (fun m i => Mem.consume m (h.rbuf i) (h.uses i))
    (fun _ => { m with pend := m.pend.filter fun q => !(q.arr == h.rreq && decide (q.slot < h.total)) }) h.total (by
      intro i hi
      refine consume_ok ?_ fun a hm => ha a (r.own.uses i hi a hm)
      rcases (r.own.bufs i hi).2 with e | ⟨b, e⟩
      · rw [e]; trivial
      · rw [e]
        exact r.live b (List.mem_cons_of_mem _ (blocks_mem h hi (by simp [e, blk]))))
  rw [c, Option.bind_some, w2, Option.bind_some, sdiff_none, free_bufs_parts r ∅ (by simp), Option.bind_some]
  have f1 := frees_parts r (∅ ∪ h.blocks.toFinset) [h.sreq, h.rreq] (by simp [n3]) (by
    intro b hb
    simp only [List.mem_cons, List.not_mem_nil, or_false] at hb
    refine ⟨by rcases hb with rfl | rfl <;> simp [Handle.inner], ?_⟩
    simp only [Finset.empty_union, List.mem_toFinset]
    intro hx
    rcases hb with rfl | rfl
    · exact (n6 _ hx).1 rfl
    · exact (n6 _ hx).2.1 rfl)
  simp only [List.map_cons, List.map_nil] at f1
  rw [f1, Option.bind_some, frees_parts r _ h.tables n2 (by
    intro b hb
    refine ⟨by simp [Handle.inner, hb], ?_⟩
    simp only [Finset.empty_union, List.mem_toFinset, Finset.mem_union, List.mem_cons, List.not_mem_nil, or_false]
    rintro (hx | rfl | rfl)
    · exact (n6 _ hx).2.2 hb
    · exact (n5 _ hb).1 rfl
    · exact (n5 _ hb).2 rfl)]
  unfold afterWait
  rw [inner_split]
  congr 2
  ext x
  simp only [Finset.mem_sdiff, List.mem_toFinset, Finset.mem_union, Finset.mem_insert, Finset.mem_singleton,
    List.mem_cons, List.not_mem_nil, or_false, Finset.notMem_empty]
  tauto

/-- the destructor of an exchange that was never waited for -/
theorem drop_ok {U : A → Prop} {h : Handle A} {m : Mem A} (r : Ready U h m) (hf : h.finalized = false) :
    dropHandle h m = some { afterWait h m with live := (afterWait h m).live.erase h.self } := by
  obtain ⟨n1, n2, n3, n4, n5, n6⟩ := nodup_parts r.nodup
  have hself : m.touch (.block h.self) = some m := touch_ok (r.live _ (by simp))
  obtain ⟨w1, w2⟩ := waitall_both h.sreq h.rreq (.inl ⟨rfl, rfl⟩) r
  unfold dropHandle
  rw [hself]
  simp only [Option.bind_eq_bind, Option.bind_some, hf, Bool.false_eq_true, if_false]
  rw [w1, Option.bind_some, w2, Option.bind_some, sdiff_none]
  have f1 := frees_parts r ∅ [h.sreq, h.rreq] (by simp [n3]) (by
    intro b hb
    simp only [List.mem_cons, List.not_mem_nil, or_false] at hb
    exact ⟨by rcases hb with rfl | rfl <;> simp [Handle.inner], by simp⟩)
  simp only [List.map_cons, List.map_nil] at f1
  rw [f1, Option.bind_some]
  have f2 : (if h.kind = Kind.guard then
      some { m with live := m.live \ (∅ ∪ [h.sreq, h.rreq].toFinset), pend := m.pend.filter (noneLeft h h.total) }
    else (List.range h.total).foldlM (fun m i => Mem.frees m [h.sbuf i, h.rbuf i])
        { m with live := m.live \ (∅ ∪ [h.sreq, h.rreq].toFinset), pend := m.pend.filter (noneLeft h h.total) }) =
      some { m with live := m.live \ ((∅ ∪ [h.sreq, h.rreq].toFinset) ∪ h.blocks.toFinset),
                    pend := m.pend.filter (noneLeft h h.total) } := by
    by_cases hk : h.kind = .guard
    · rw [if_pos hk, r.own.guard hk]; simp
    · rw [if_neg hk]
      refine free_bufs_parts r _ ?_
      intro b hb
      simp only [Finset.empty_union, List.mem_toFinset, List.mem_cons, List.not_mem_nil, or_false]
      rintro (rfl | rfl)
      · exact (n6 _ hb).1 rfl
      · exact (n6 _ hb).2.1 rfl
  have f3 : ∀ (t : Mem A → Option (Mem A)) (X : Mem A), (if h.kind = Kind.guard then t X
      else ((List.range h.total).foldlM (fun m i => Mem.frees m [h.sbuf i, h.rbuf i]) X).bind t) =
      (if h.kind = Kind.guard then some X
        else (List.range h.total).foldlM (fun m i => Mem.frees m [h.sbuf i, h.rbuf i]) X).bind t := by
    intro t X; split <;> rfl
  refine (f3 (fun m => (m.frees (h.tables.map .block)).bind fun m => m.free (.block h.self)) _).trans ?_
  rw [f2, Option.bind_some, frees_parts r _ h.tables n2 (by
    intro b hb
    refine ⟨by simp [Handle.inner, hb], ?_⟩
    simp only [Finset.empty_union, List.mem_toFinset, Finset.mem_union, List.mem_cons, List.not_mem_nil, or_false]
    rintro ((rfl | rfl) | hx)
    · exact (n5 _ hb).1 rfl
    · exact (n5 _ hb).2 rfl
    · exact (n6 _ hx).2.2 hb), Option.bind_some]
  have es : h.self ∉ h.inner := n4
  rw [free_block _ _ ?_ fun q hq => left_ok r q hq _ (by simp)]
  · unfold afterWait
    rw [inner_split]
    congr 2
    ext x
    simp only [Finset.mem_erase, Finset.mem_sdiff, List.mem_toFinset, Finset.mem_union, Finset.mem_insert,
      Finset.mem_singleton, List.mem_cons, List.not_mem_nil, or_false, Finset.notMem_empty]
    tauto
  · refine Finset.mem_sdiff.2 ⟨r.live _ (by simp), ?_⟩
    simp only [Handle.inner, List.cons_append, List.mem_cons, List.mem_append] at es
    simp only [Finset.empty_union, List.mem_toFinset, Finset.mem_union, List.mem_cons, List.not_mem_nil, or_false]
    tauto

/-- the blocks of the first `k` slots -/
def Handle.firstBlocks (h : Handle A) (k : Nat) : List Nat :=
  (List.range k).flatMap fun i => blk (h.sbuf i) ++ blk (h.rbuf i)

theorem firstBlocks_succ (h : Handle A) (k : Nat) :
    h.firstBlocks (k + 1) = h.firstBlocks k ++ (blk (h.sbuf k) ++ blk (h.rbuf k)) := by
  simp [Handle.firstBlocks, List.range_succ]

/-- `sync_currents_2d_wait` -/
theorem waitCurrents_ok {U : A → Prop} {h : Handle A} {m : Mem A} (r : Ready U h m) (hk : h.kind = .currents)
    (ha : ∀ a, U a → a ∈ m.arrays) : waitCurrents h m = some (afterWait h m) := by
  obtain ⟨n1, n2, n3, n4, n5, n6⟩ := nodup_parts r.nodup
  have hself : m.touch (.block h.self) = some m := touch_ok (r.live _ (by simp))
  have hs : h.sreq ∈ m.live := r.live _ (by simp [Handle.inner])
  have hr : h.rreq ∈ m.live := r.live _ (by simp [Handle.inner])
  have hng : h.kind ≠ .guard := by rw [hk]; decide
  have mem_of : ∀ {k}, k ≤ h.total → ∀ b ∈ h.firstBlocks k, b ∈ h.blocks := by
    intro k hk' b hb
    obtain ⟨i, hi, hb⟩ := List.mem_flatMap.1 hb
    exact List.mem_flatMap.2 ⟨i, List.mem_range.2 (lt_of_lt_of_le (List.mem_range.1 hi) hk'), hb⟩
  have nd : ∀ k, k < h.total → (h.firstBlocks (k + 1)).Nodup := by
    intro k hk'
    have : h.blocks = h.firstBlocks (k + 1) ++ ((List.range' (k + 1) (h.total - (k + 1))).flatMap fun i =>
        blk (h.sbuf i) ++ blk (h.rbuf i)) := by
      have e : List.range h.total = List.range (k + 1) ++ List.range' (k + 1) (h.total - (k + 1)) := by
        have := List.range'_append_1 (s := 0) (m := k + 1) (n := h.total - (k + 1))
        rw [Nat.zero_add] at this
        rw [List.range_eq_range', List.range_eq_range', this]
        congr 1; omega
      unfold Handle.blocks Handle.firstBlocks
      rw [e, List.flatMap_append]
    rw [this] at n1
    exact (List.nodup_append.1 n1).1
  have loop := range_fold (currentsWaitOne h)
    (fun k => { m with
      live := m.live \ (h.firstBlocks k).toFinset
      pend := m.pend.filter (noneLeft h k) }) h.total (by
    intro k hk'
    unfold currentsWaitOne
    have fin : ∀ q : Req A, q.slot < k + 1 ↔ q.slot < k ∨ q.slot = k := fun q => by omega
    by_cases hn : h.sbuf k = .null
    · rw [if_pos hn]
      have hn2 := r.own.null hk k hk' hn
      congr 2
      · rw [firstBlocks_succ, hn, hn2]; simp [blk]
      · apply List.filter_congr
        intro q hq
        by_cases hm : q.arr = h.sreq ∨ q.arr = h.rreq
        · have := ((r.mine q hq hm).2.2 hng).2 hk
          have hne : q.slot ≠ k := fun e => this (e ▸ hn)
          have e : (q.slot < k + 1) ↔ q.slot < k := by omega
          simp [noneLeft, e]
        · have e1 : (q.arr == h.sreq) = false := by simpa using fun e => hm (.inl e)
          have e2 : (q.arr == h.rreq) = false := by simpa using fun e => hm (.inr e)
          simp [noneLeft, e1, e2]
    · rw [if_neg hn]
      have nsr : ∀ b ∈ h.firstBlocks k, b ≠ h.sreq ∧ b ≠ h.rreq := fun b hb =>
        ⟨(n6 b (mem_of (le_of_lt hk') b hb)).1, (n6 b (mem_of (le_of_lt hk') b hb)).2.1⟩
      have hr' : h.rreq ∈ m.live \ (h.firstBlocks k).toFinset :=
        Finset.mem_sdiff.2 ⟨hr, fun hx => (nsr _ (List.mem_toFinset.1 hx)).2 rfl⟩
      have hs' : h.sreq ∈ m.live \ (h.firstBlocks k).toFinset :=
        Finset.mem_sdiff.2 ⟨hs, fun hx => (nsr _ (List.mem_toFinset.1 hx)).1 rfl⟩
      have nk := nd k hk'
      rw [firstBlocks_succ, List.nodup_append] at nk
      have new : ∀ b ∈ blk (h.sbuf k) ++ blk (h.rbuf k), b ∈ m.live \ (h.firstBlocks k).toFinset := by
        intro b hb
        refine Finset.mem_sdiff.2 ⟨r.live b (List.mem_cons_of_mem _ (blocks_mem h hk' hb)), fun hx => ?_⟩
        exact nk.2.2 b (List.mem_toFinset.1 hx) b hb rfl
      have e1 : Mem.wait { m with live := m.live \ (h.firstBlocks k).toFinset, pend := m.pend.filter (noneLeft h k) }
          h.rreq k = some _ := if_pos ⟨hr', (r.own.slots k hk').2⟩
      rw [e1]
      simp only [Option.bind_eq_bind, Option.bind_some]
      have e3 : Mem.consume { m with
            live := m.live \ (h.firstBlocks k).toFinset,
            pend := (m.pend.filter (noneLeft h k)).filter fun q => !(q.arr == h.rreq && q.slot == k) }
          (h.rbuf k) (h.uses k) = some _ := consume_ok (by
        rcases (r.own.bufs k hk').2 with e | ⟨b, e⟩
        · rw [e]; trivial
        · rw [e]
          exact new b (by simp [e, blk])) fun a hm => ha a (r.own.uses k hk' a hm)
      rw [e3, Option.bind_some]
      have e2 : Mem.wait { m with
            live := m.live \ (h.firstBlocks k).toFinset,
            pend := (m.pend.filter (noneLeft h k)).filter fun q => !(q.arr == h.rreq && q.slot == k) }
          h.sreq k = some _ := if_pos ⟨hs', (r.own.slots k hk').1⟩
      rw [e2, Option.bind_some]
      have pe : (((m.pend.filter (noneLeft h k)).filter fun q => !(q.arr == h.rreq && q.slot == k)).filter
          fun q => !(q.arr == h.sreq && q.slot == k)) = m.pend.filter (noneLeft h (k + 1)) := by
        rw [List.filter_filter, List.filter_filter]
        apply List.filter_congr
        intro q _
        rw [Bool.eq_iff_iff]
        simp only [noneLeft, fin, Bool.and_eq_true, Bool.or_eq_true, Bool.not_eq_true', Bool.and_eq_false_iff,
          Bool.or_eq_false_iff, beq_eq_false_iff_ne, decide_eq_false_iff_not]
        tauto
      rw [pe]
      have fb : ([h.sbuf k, h.rbuf k].flatMap blk) = blk (h.sbuf k) ++ blk (h.rbuf k) := by simp [List.flatMap_cons]
      rw [frees_ok [h.sbuf k, h.rbuf k] _ (by
        intro p hp
        simp only [List.mem_cons, List.not_mem_nil, or_false] at hp
        rcases hp with rfl | rfl
        · exact (r.own.bufs k hk').1
        · exact (r.own.bufs k hk').2) (by rw [fb]; exact nk.2.1) (by
        rw [fb]
        intro b hb
        refine ⟨new b hb, fun q hq => ?_⟩
        obtain ⟨hq, hl⟩ := List.mem_filter.1 hq
        have hbi : b ∈ h.self :: h.inner := List.mem_cons_of_mem _ (blocks_mem h hk' hb)
        by_cases hm : q.arr = h.sreq ∨ q.arr = h.rreq
        · have hb' := n6 b (List.mem_flatMap.2 ⟨k, List.mem_range.2 hk', hb⟩)
          refine ⟨fun e => by rcases hm with e' | e' <;> rw [e'] at e; exacts [hb'.1 e.symm, hb'.2.1 e.symm], ?_⟩
          -- a message of another slot uses another buffer
          intro e
          have im := r.mine q hq hm
          have hslot : k < q.slot := by
            by_contra hc
            have e3 : q.slot < k + 1 := by omega
            rcases hm with e' | e' <;> simp [noneLeft, e', e3] at hl
          have hb2 : b ∈ blk (h.sbuf q.slot) ++ blk (h.rbuf q.slot) := by
            rcases (im.2.2 hng).1 with ⟨_, e'⟩ | ⟨_, e'⟩
            · rw [e] at e'; simp [← e', blk]
            · rw [e] at e'; simp [← e', blk]
          have n := nd q.slot im.1
          rw [firstBlocks_succ, List.nodup_append] at n
          exact n.2.2 b (List.mem_flatMap.2 ⟨k, List.mem_range.2 hslot, hb⟩) b hb2 rfl
        · have := r.others q hq hm
          exact ⟨fun e => this.1 (e ▸ hbi), this.2 b hbi⟩)]
      congr 2
      rw [fb, firstBlocks_succ]
      ext x
      simp only [Finset.mem_sdiff, List.mem_toFinset, List.mem_append, not_or]
      clear * -
      tauto)
  have e0 : ({ m with live := m.live \ (h.firstBlocks 0).toFinset, pend := m.pend.filter (noneLeft h 0) } : Mem A) = m := by
    have : m.pend.filter (noneLeft h 0) = m.pend := List.filter_eq_self.2 fun q _ => by simp [noneLeft]
    rw [this]; simp [Handle.firstBlocks]
  rw [e0] at loop
  unfold waitCurrents
  rw [hself]
  simp only [Option.bind_eq_bind, Option.bind_some]
  rw [loop, Option.bind_some]
  have eb : h.firstBlocks h.total = h.blocks := rfl
  rw [eb]
  have f1 := frees_parts r h.blocks.toFinset [h.sreq, h.rreq] (by simp [n3]) (by
    intro b hb
    simp only [List.mem_cons, List.not_mem_nil, or_false] at hb
    refine ⟨by rcases hb with rfl | rfl <;> simp [Handle.inner], ?_⟩
    simp only [List.mem_toFinset]
    intro hx
    rcases hb with rfl | rfl
    · exact (n6 _ hx).1 rfl
    · exact (n6 _ hx).2.1 rfl)
  simp only [List.map_cons, List.map_nil] at f1
  rw [f1, Option.bind_some, frees_parts r _ h.tables n2 (by
    intro b hb
    refine ⟨by simp [Handle.inner, hb], ?_⟩
    simp only [List.mem_toFinset, Finset.mem_union, List.mem_cons, List.not_mem_nil, or_false]
    rintro (hx | rfl | rfl)
    · exact (n6 _ hx).2.2 hb
    · exact (n5 _ hb).1 rfl
    · exact (n5 _ hb).2 rfl)]
  unfold afterWait
  rw [inner_split]
  congr 2
  ext x
  simp only [Finset.mem_sdiff, List.mem_toFinset, Finset.mem_union, Finset.mem_insert, Finset.mem_singleton,
    List.mem_cons, List.not_mem_nil, or_false]
  tauto

theorem wait_ok {U : A → Prop} {h : Handle A} {m : Mem A} (r : Ready U h m) (ha : ∀ a, U a → a ∈ m.arrays) :
    waitHandle h m = some ({ h with finalized := true }, afterWait h m) := by
  unfold waitHandle
  rcases hk : h.kind with _ | _ | _
  · simp only [waitGuard_ok r hk]; rfl
  · simp only [waitCurrents_ok r hk ha]; rfl
  · simp only [waitParticles_ok r ha]; rfl

end Verif.Capsule
