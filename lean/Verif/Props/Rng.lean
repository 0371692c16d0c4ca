import Verif.Model.Rng
import Mathlib.Data.List.Nodup
import Mathlib.Data.List.GetD
import Mathlib.Algebra.BigOperators.Group.List.Basic
import Mathlib.Tactic.Ring
import Mathlib.Tactic.Linarith
/-! # C84 — random generators: no number is used twice, and a seed decides the initial particles -/
namespace Verif.Rng

/-! ## Specification -/

/-- all streams handed out on all ranks of a run, where `h r` is the history of rank `r` -/
def allStreams (seed : Option Nat) (size : Nat) (h : Nat → List Use) : List Stream :=
  (List.range size).flatMap fun r => ((rankGen seed size r).elim [] fun g => handed g (h r)).map (·.stream)

/-- the streams of the generators of the ranks, and of the generator the seed makes -/
def ownStreams (seed : Option Nat) (size : Nat) : List Stream :=
  (seed.elim [] fun s => [⟨.seed s, []⟩]) ++ (List.range size).filterMap fun r => (rankGen seed size r).map (·.stream)

/-- reading `ns` numbers at a time, one request after the other, from a stream at `pos` -/
def reads (σ : Nat → ℚ) : Nat → List Nat → List (List ℚ)
  | _, [] => []
  | pos, n :: ns => ((List.range n).map fun i => σ (pos + i)) :: reads σ (pos + n) ns

/-- every loop has ended: none of the `np` patches has a draw left -/
def Ended (np : Nat) (ls : List Loop) : Prop := ∀ l ∈ ls, ∀ i < np, l.todo i = []

/-- particles created in the first `j` cells -/
def createdBefore {k : Nat} (p : Fill.Profile k) (cells : List (Fin k → ℚ)) (j : Nat) : Nat :=
  ((cells.take j).map fun c => if p.dens c > p.densMin then (p.ppc c).toNat else 0).sum

/-- particles created in all cells of a patch, for the first `q` species -/
def createdSpecies {k : Nat} (ps : List (Fill.Profile k)) (cells : List (Fin k → ℚ)) (q : Nat) : Nat :=
  ((ps.take q).map fun p => createdBefore p cells cells.length).sum

/-- a number drawn for a patch: species, cell, axis, particle of the cell -/
structure Slot (k : Nat) where
  q : Nat
  j : Nat
  d : Fin k
  a : Nat
deriving DecidableEq

/-- the draw takes place: the species and the cell exist, the cell is accepted and has that many particles -/
def Slot.Ok {k : Nat} (ps : List (Fill.Profile k)) (cells : List (Fin k → ℚ)) (s : Slot k) : Prop :=
  ∃ p c, ps[s.q]? = some p ∧ cells[s.j]? = some c ∧ p.densMin < p.dens c ∧ s.a < (p.ppc c).toNat

/-- the place of the draw in the stream of the patch -/
def Slot.place {k : Nat} (ps : List (Fill.Profile k)) (cells : List (Fin k → ℚ)) (s : Slot k) : Nat :=
  match ps[s.q]?, cells[s.j]? with
  | some p, some c => k * (createdSpecies ps cells s.q + createdBefore p cells s.j) + s.d * (p.ppc c).toNat + s.a
  | _, _ => 0

/-! ## Streams -/

theorem spawn_eq (g : Gen) (n : Nat) :
    (spawn g n).2.map (·.stream) = (List.range n).map fun i => ⟨g.stream.entropy, g.stream.key ++ [g.kids + i]⟩ := by
  simp [spawn, Function.comp_def]

theorem range_split (f : Nat → Stream) (a b : Nat) :
    (List.range (a + b)).map f = (List.range a).map f ++ (List.range b).map fun i => f (a + i) := by
  rw [List.range_add, List.map_append, List.map_map]; rfl

theorem spawns_eq (s : Nat) : ∀ (g : Gen) (n : Nat),
    (spawns s g n).1 = ⟨g.stream, g.kids + s * n⟩ ∧
    (spawns s g n).2.map (·.stream) = (List.range (s * n)).map fun i => ⟨g.stream.entropy, g.stream.key ++ [g.kids + i]⟩ := by
  induction s with
  | zero => intro g n; simp [spawns]
  | succ s ih =>
    intro g n
    obtain ⟨h1, h2⟩ := ih (spawn g n).1 n
    constructor
    · show (spawns s (spawn g n).1 n).1 = _
      rw [h1]; simp only [spawn, Gen.mk.injEq, true_and]; ring
    · show List.map _ ((spawn g n).2 ++ (spawns s (spawn g n).1 n).2) = _
      rw [List.map_append, h2, spawn_eq, Nat.succ_mul, Nat.add_comm (s * n) n, range_split]
      simp [spawn, Nat.add_assoc]

theorem use_eq (g : Gen) (u : Use) : ∃ n, (use g u).1 = ⟨g.stream, g.kids + n⟩ ∧
    (use g u).2.map (·.stream) = (List.range n).map fun i => ⟨g.stream.entropy, g.stream.key ++ [g.kids + i]⟩ := by
  cases u with
  | fill n => exact ⟨n, rfl, spawn_eq g n⟩
  | collide n => exact ⟨n, rfl, spawn_eq g n⟩
  | window s n => exact ⟨s * n, spawns_eq s g n⟩
  | temperature => exact ⟨1, rfl, spawn_eq g 1⟩

theorem handed_eq (us : List Use) : ∀ g : Gen, ∃ n,
    (handed g us).map (·.stream) = (List.range n).map fun i => ⟨g.stream.entropy, g.stream.key ++ [g.kids + i]⟩ := by
  induction us with
  | nil => intro g; exact ⟨0, rfl⟩
  | cons u us ih =>
    intro g
    obtain ⟨n, h1, h2⟩ := use_eq g u
    obtain ⟨m, h3⟩ := ih (use g u).1
    refine ⟨n + m, ?_⟩
    show List.map _ ((use g u).2 ++ handed (use g u).1 us) = _
    rw [List.map_append, h3, h2, range_split, h1]
    simp [Nat.add_assoc]

/-- what the generator of a rank is -/
theorem rankGen_eq (seed : Option Nat) (size r : Nat) (hr : r < size) :
    rankGen seed size r = some ⟨seed.elim ⟨.system r, []⟩ fun s => ⟨.seed s, [r]⟩, 0⟩ := by
  cases seed with
  | none => rfl
  | some s => simp [rankGen, spawn, hr]

/-- **C84** (streams). For every seed or none, every number of ranks and every history of fills, collisions, window shifts and
temperatures on every rank: the random streams handed out to patches, on all ranks together, are all different, and none of them
is the stream of a rank or of the seed. -/
theorem streams_distinct (seed : Option Nat) (size : Nat) (h : Nat → List Use) :
    (allStreams seed size h).Nodup ∧ ∀ s ∈ allStreams seed size h, s ∉ ownStreams seed size := by
  have key : ∀ r < size, ∃ n, ((rankGen seed size r).elim [] fun g => handed g (h r)).map (·.stream) =
      (List.range n).map fun i => (seed.elim ⟨.system r, [i]⟩ fun s => ⟨.seed s, [r, i]⟩ : Stream) := by
    intro r hr
    rw [rankGen_eq seed size r hr]
    obtain ⟨n, hn⟩ := handed_eq (h r) ⟨seed.elim ⟨.system r, []⟩ fun s => ⟨.seed s, [r]⟩, 0⟩
    refine ⟨n, ?_⟩
    show (handed _ (h r)).map (·.stream) = _
    rw [hn]
    cases seed <;> simp
  constructor
  · unfold allStreams
    rw [List.nodup_flatMap]
    constructor
    · intro r hr
      obtain ⟨n, hn⟩ := key r (List.mem_range.mp hr)
      rw [hn]
      refine List.Nodup.map ?_ List.nodup_range
      intro a b hab
      cases seed <;> simpa using hab
    · refine List.Pairwise.imp_of_mem ?_ (List.pairwise_lt_range (n := size))
      intro a b ha hb hab s h1 h2
      obtain ⟨n, hn⟩ := key a (List.mem_range.mp ha)
      obtain ⟨m, hm⟩ := key b (List.mem_range.mp hb)
      simp only [hn] at h1
      simp only [hm] at h2
      obtain ⟨i, _, hi⟩ := List.mem_map.mp h1
      obtain ⟨j, _, hj⟩ := List.mem_map.mp h2
      rw [← hj] at hi
      cases seed <;> simp at hi <;> omega
  · intro s hs ho
    obtain ⟨r, hr, h1⟩ := List.mem_flatMap.mp hs
    obtain ⟨n, hn⟩ := key r (List.mem_range.mp hr)
    rw [hn] at h1
    obtain ⟨i, _, hi⟩ := List.mem_map.mp h1
    rcases List.mem_append.mp ho with ho | ho
    · cases seed with
      | none => simp at ho
      | some t => simp at ho hi; rw [ho] at hi; simp at hi
    · obtain ⟨r', hr', h2⟩ := List.mem_filterMap.mp ho
      rw [rankGen_eq seed size r' (List.mem_range.mp hr')] at h2
      simp only [Option.map_some, Option.some.injEq] at h2
      rw [← h2] at hi
      cases seed <;> simp at hi

/-- three ranks; rank 1 fills, collides twice, shifts its window and sets a temperature: fourteen streams -/
example : (allStreams (some 7) 3 fun r => if r = 1 then [.fill 2, .collide 2, .window 2 1, .collide 3, .temperature] else [.fill 2]).length
    = 14 := by decide +kernel

/-! ## Draws -/

theorem reads_append (σ : Nat → ℚ) (a : List Nat) : ∀ (pos : Nat) (b : List Nat),
    reads σ pos (a ++ b) = reads σ pos a ++ reads σ (pos + a.sum) b := by
  induction a with
  | nil => intro pos b; simp [reads]
  | cons n ns ih => intro pos b; simp [reads, ih, Nat.add_assoc]

theorem length_reads (σ : Nat → ℚ) (a : List Nat) : ∀ pos, (reads σ pos a).length = a.length := by
  induction a with
  | nil => intro pos; rfl
  | cons n ns ih => intro pos; simp [reads, ih]

/-- the invariant of the parallel loop -/
structure Inv (σ : Nat → Nat → ℚ) (pos0 : Nat → Nat) (todo0 : Nat → List Nat) (l : Loop) : Prop where
  log : ∀ i, l.log i ++ reads (σ i) (l.pos i) (l.todo i) = reads (σ i) (pos0 i) (todo0 i)
  pos : ∀ i, l.pos i + (l.todo i).sum = pos0 i + (todo0 i).sum

theorem inv_draw {σ : Nat → Nat → ℚ} {pos0 : Nat → Nat} {todo0 : Nat → List Nat} {l : Loop} (h : Inv σ pos0 todo0 l) (i : Nat) :
    Inv σ pos0 todo0 (draw σ l i) := by
  unfold draw
  cases e : l.todo i with
  | nil => simpa using h
  | cons n ns =>
    constructor
    · intro j
      by_cases hj : j = i
      · subst hj
        rw [← h.log j, e]
        simp [reads, take]
      · simpa [Function.update_of_ne hj] using h.log j
    · intro j
      by_cases hj : j = i
      · subst hj
        rw [← h.pos j, e]
        simp [Nat.add_assoc]
      · simpa [Function.update_of_ne hj] using h.pos j

theorem inv_run {σ : Nat → Nat → ℚ} {pos0 : Nat → Nat} {todo0 : Nat → List Nat} (sched : List Nat) :
    ∀ {l : Loop}, Inv σ pos0 todo0 l → Inv σ pos0 todo0 (runLoop σ l sched) := by
  induction sched with
  | nil => intro l h; exact h
  | cons i is ih => intro l h; exact ih (inv_draw h i)

theorem fillAll_eq (np : Nat) (σ : Nat → Nat → ℚ) (sp : List ((Nat → List Nat) × List Nat)) : ∀ (pos : Nat → Nat),
    Ended np (fillAll σ pos sp) → ∀ (q : Nat) (l : Loop) (t : (Nat → List Nat) × List Nat), (fillAll σ pos sp)[q]? = some l →
      sp[q]? = some t → ∀ i < np, l.log i = reads (σ i) (pos i + ((sp.take q).map fun t => (t.1 i).sum).sum) (t.1 i) := by
  induction sp with
  | nil => intro pos _ q l t _ h; simp at h
  | cons s rest ih =>
    obtain ⟨todo, sched⟩ := s
    intro pos hE q l t hl ht i hi
    have inv : Inv σ pos todo (runLoop σ ⟨pos, todo, fun _ => []⟩ sched) := inv_run sched ⟨fun _ => rfl, fun _ => rfl⟩
    have e0 := hE _ (List.mem_cons_self (a := runLoop σ ⟨pos, todo, fun _ => []⟩ sched))
    cases q with
    | zero =>
      have h1 : runLoop σ ⟨pos, todo, fun _ => []⟩ sched = l := by simpa [fillAll] using hl
      have h2 : (todo, sched) = t := by simpa using ht
      have := inv.log i
      rw [e0 i hi] at this
      rw [← h1, ← h2]
      simpa [reads] using this
    | succ q =>
      have hp := inv.pos i
      rw [e0 i hi] at hp
      have := ih (runLoop σ ⟨pos, todo, fun _ => []⟩ sched).pos (fun l hl => hE l (List.mem_cons_of_mem _ hl)) q l t
        (by simpa [fillAll] using hl) (by simpa using ht) i hi
      rw [this]
      simp only [List.sum_nil, Nat.add_zero] at hp
      rw [hp]
      simp [Nat.add_assoc]

theorem sum_requests {k : Nat} (p : Fill.Profile k) (cells : List (Fin k → ℚ)) :
    (requests p cells).sum = k * createdBefore p cells cells.length := by
  unfold createdBefore
  rw [List.take_length]
  induction cells with
  | nil => simp [requests]
  | cons c cs ih =>
    unfold requests at ih ⊢
    rw [List.flatMap_cons, List.sum_append, ih, List.map_cons, List.sum_cons, Nat.mul_add]
    split <;> simp

theorem reads_replicate (σ : Nat → ℚ) (n : Nat) (k : Nat) : ∀ (pos d : Nat), d < k →
    (reads σ pos (List.replicate k n)).getD d [] = (List.range n).map fun i => σ (pos + d * n + i) := by
  induction k with
  | zero => intro pos d h; omega
  | succ k ih =>
    intro pos d h
    rw [List.replicate_succ, reads]
    cases d with
    | zero => simp
    | succ d =>
      rw [List.getD_cons_succ, ih (pos + n) d (by omega)]
      refine List.map_congr_left fun i _ => congrArg σ ?_
      ring

theorem drawn_eq {k : Nat} (σ : Nat → ℚ) (p : Fill.Profile k) (cells : List (Fin k → ℚ)) : ∀ (pos j : Nat) (c : Fin k → ℚ),
    cells[j]? = some c → p.densMin < p.dens c → ∀ (d : Fin k) (a : Nat), a < (p.ppc c).toNat →
      drawn p cells (reads σ pos (requests p cells)) j a d = σ (pos + k * createdBefore p cells j + d * (p.ppc c).toNat + a) := by
  induction cells with
  | nil => intro pos j c h; simp at h
  | cons b cs ih =>
    intro pos j c hc hd d a ha
    have er : requests p (b :: cs) = (if p.dens b > p.densMin then List.replicate k (p.ppc b).toNat else []) ++ requests p cs :=
      List.flatMap_cons
    unfold drawn
    rw [er, reads_append]
    cases j with
    | zero =>
      have hb : b = c := by simpa using hc
      subst hb
      rw [if_pos hd, show acceptedBefore p (b :: cs) 0 = 0 from rfl, Nat.zero_mul, Nat.zero_add,
        List.getD_append _ _ _ _ (by rw [length_reads, List.length_replicate]; exact d.2), reads_replicate _ _ _ _ _ d.2,
        show createdBefore p (b :: cs) 0 = 0 from rfl]
      simp [List.getD_eq_getElem?_getD, ha]
    | succ j =>
      have ih' := ih (pos + (if p.dens b > p.densMin then List.replicate k (p.ppc b).toNat else []).sum) j c (by simpa using hc) hd d a ha
      unfold drawn at ih'
      by_cases hb : p.dens b > p.densMin
      · rw [if_pos hb] at ih' ⊢
        have e1 : acceptedBefore p (b :: cs) (j + 1) = acceptedBefore p cs j + 1 := by simp [acceptedBefore, hb]
        have e2 : createdBefore p (b :: cs) (j + 1) = (p.ppc b).toNat + createdBefore p cs j := by simp [createdBefore, hb]
        rw [e1, e2, List.getD_append_right _ _ _ _ (by rw [length_reads, List.length_replicate, Nat.add_mul]; omega),
          length_reads, List.length_replicate, show (acceptedBefore p cs j + 1) * k + ↑d - k = acceptedBefore p cs j * k + d from by
            rw [Nat.add_mul]; omega, ih']
        refine congrArg σ ?_
        rw [List.sum_replicate, smul_eq_mul]; ring
      · rw [if_neg hb] at ih' ⊢
        have e1 : acceptedBefore p (b :: cs) (j + 1) = acceptedBefore p cs j := by simp [acceptedBefore, hb]
        have e2 : createdBefore p (b :: cs) (j + 1) = createdBefore p cs j := by simp [createdBefore, hb]
        rw [e1, e2]
        simpa [reads] using ih'

/-- the draws of `fill_particles` on a rank whose patches have the cells `cells i` (none beyond the last patch): species `ps`,
a schedule for each -/
def species {k : Nat} (ps : List (Fill.Profile k)) (cells : Nat → List (Fin k → ℚ)) (scheds : List (List Nat)) :
    List ((Nat → List Nat) × List Nat) :=
  (ps.zip scheds).map fun t => (fun i => requests t.1 (cells i), t.2)

/-- the streams of the patches of rank `r` in the first fill: those of the generators it is handed -/
def patchStreams (σ : Stream → Nat → ℚ) (seed : Option Nat) (size r np : Nat) (i : Nat) : Nat → ℚ :=
  ((rankGen seed size r).bind fun g => (handed g [.fill np])[i]?).elim (fun _ => 0) fun g => σ g.stream

/-- **C84** (seed). For every seed, number of ranks, species and cells of the patches, and every schedule of the threads that
lets them finish: the number used for particle `a` of cell `j` on axis `d`, for species `q` in patch `i` of rank `r`, is the
number at a fixed place of the stream of (seed, `r`, `i`). It depends on nothing else. -/
theorem seed_decides {k : Nat} (σ : Stream → Nat → ℚ) (seed size r np : Nat) (hr : r < size) (ps : List (Fill.Profile k))
    (cells : Nat → List (Fin k → ℚ)) (scheds : List (List Nat)) (hs : scheds.length = ps.length) (ls : List Loop)
    (hls : fillAll (patchStreams σ (some seed) size r np) (fun _ => 0) (species ps cells scheds) = ls) (hE : Ended np ls)
    (i : Nat) (hi : i < np) (s : Slot k) (ok : s.Ok ps (cells i)) :
    ∃ p l, ps[s.q]? = some p ∧ ls[s.q]? = some l ∧
      drawn p (cells i) (l.log i) s.j s.a s.d = σ ⟨.seed seed, [r, i]⟩ (s.place ps (cells i)) := by
  obtain ⟨p, c, hp, hc, hd, ha⟩ := ok
  have hq : s.q < ps.length := (List.getElem?_eq_some_iff.mp hp).1
  have len : ∀ (sp : List ((Nat → List Nat) × List Nat)) (σ : Nat → Nat → ℚ) pos, (fillAll σ pos sp).length = sp.length := by
    intro sp σ
    induction sp with
    | nil => intro pos; rfl
    | cons t rest ih => intro pos; simp [fillAll, ih]
  have hl : s.q < ls.length := by
    rw [← hls, len]; simp [species, hs, hq]
  have ht : (species ps cells scheds)[s.q]? = some (fun i => requests p (cells i), scheds[s.q]) := by
    have h1 : ps[s.q] = p := (List.getElem?_eq_some_iff.mp hp).2
    rw [List.getElem?_eq_getElem (by simp [species, hs, hq])]
    simp [species, h1]
  refine ⟨p, ls[s.q], hp, List.getElem?_eq_getElem hl, ?_⟩
  have hl' : (fillAll (patchStreams σ (some seed) size r np) (fun _ => 0) (species ps cells scheds))[s.q]? = some ls[s.q] := by
    rw [hls]; exact List.getElem?_eq_getElem hl
  have hst : patchStreams σ (some seed) size r np i = σ ⟨.seed seed, [r, i]⟩ := by
    unfold patchStreams
    rw [rankGen_eq _ _ _ hr]
    simp [handed, use, spawn, hi]
  have := fillAll_eq np _ _ _ (hls ▸ hE) s.q ls[s.q] _ hl' ht i hi
  rw [this, drawn_eq _ _ _ _ _ c hc hd s.d s.a ha, hst]
  refine congrArg _ ?_
  unfold Slot.place
  rw [hp, hc]
  have e : ((List.take s.q (species ps cells scheds)).map fun t => (t.1 i).sum).sum = k * createdSpecies ps (cells i) s.q := by
    unfold createdSpecies species
    rw [← List.map_take, List.map_map]
    have : ∀ (ps : List (Fill.Profile k)) (scheds : List (List Nat)) (q : Nat), scheds.length = ps.length →
        ((List.take q (ps.zip scheds)).map ((fun t : (Nat → List Nat) × List Nat => (t.1 i).sum) ∘
          fun t : Fill.Profile k × List Nat => (fun i => requests t.1 (cells i), t.2))).sum =
        k * ((ps.take q).map fun p => createdBefore p (cells i) (cells i).length).sum := by
      intro ps
      induction ps with
      | nil => intro scheds q _; simp
      | cons p ps ih =>
        intro scheds q hlen
        cases scheds with
        | nil => simp at hlen
        | cons s0 ss =>
          cases q with
          | zero => simp
          | succ q =>
            simp only [List.zip_cons_cons, List.take_succ_cons, List.map_cons, List.sum_cons, Function.comp_apply, Nat.mul_add]
            rw [ih ss q (by simpa using hlen), sum_requests]
    exact this ps scheds s.q hs
  simp only [e]; ring

/-! ## No number twice -/

theorem created_mono {k : Nat} (p : Fill.Profile k) (cells : List (Fin k → ℚ)) : ∀ {j j' : Nat} {c : Fin k → ℚ}, j < j' →
    cells[j]? = some c → p.densMin < p.dens c → createdBefore p cells j + (p.ppc c).toNat ≤ createdBefore p cells j' := by
  induction cells with
  | nil => intro j j' c _ h; simp at h
  | cons b cs ih =>
    intro j j' c h hc hd
    obtain ⟨m, rfl⟩ : ∃ m, j' = m + 1 := ⟨j' - 1, by omega⟩
    cases j with
    | zero =>
      have hb : b = c := by simpa using hc
      subst hb
      simp [createdBefore, hd]
    | succ j =>
      have := ih (j := j) (j' := m) (by omega) (by simpa using hc) hd
      unfold createdBefore at this ⊢
      simp only [List.take_succ_cons, List.map_cons, List.sum_cons]
      omega

theorem species_mono {k : Nat} (cells : List (Fin k → ℚ)) (ps : List (Fill.Profile k)) : ∀ {q q' : Nat} {p : Fill.Profile k},
    q < q' → ps[q]? = some p → createdSpecies ps cells q + createdBefore p cells cells.length ≤ createdSpecies ps cells q' := by
  induction ps with
  | nil => intro q q' p _ h; simp at h
  | cons b cs ih =>
    intro q q' p h hp
    obtain ⟨m, rfl⟩ : ∃ m, q' = m + 1 := ⟨q' - 1, by omega⟩
    cases q with
    | zero =>
      have hb : b = p := by simpa using hp
      subst hb
      simp [createdSpecies]
    | succ q =>
      have := ih (q := q) (q' := m) (by omega) (by simpa using hp)
      unfold createdSpecies at this ⊢
      simp only [List.take_succ_cons, List.map_cons, List.sum_cons]
      omega

/-- **C84** (no number twice). Two draws for a patch that differ in species, cell, axis or particle use different places of the
stream of the patch. With `streams_distinct`, no random number is used for two purposes. -/
theorem no_draw_twice {k : Nat} (ps : List (Fill.Profile k)) (cells : List (Fin k → ℚ)) (s t : Slot k) (hs : s.Ok ps cells)
    (ht : t.Ok ps cells) (h : s.place ps cells = t.place ps cells) : s = t := by
  -- a draw lies in the block of its cell
  have block : ∀ (s : Slot k) (p : Fill.Profile k) (c : Fin k → ℚ), ps[s.q]? = some p → cells[s.j]? = some c → s.a < (p.ppc c).toNat →
      s.place ps cells = k * (createdSpecies ps cells s.q + createdBefore p cells s.j) + (s.d * (p.ppc c).toNat + s.a) ∧
        s.d * (p.ppc c).toNat + s.a < k * (p.ppc c).toNat := by
    intro s p c hp hc ha
    constructor
    · unfold Slot.place; rw [hp, hc]; simp only; ring
    · have h1 : (s.d + 1 : Nat) * (p.ppc c).toNat ≤ k * (p.ppc c).toNat := Nat.mul_le_mul_right _ s.d.2
      rw [Nat.add_mul] at h1; omega
  -- earlier blocks lie before later ones
  have before : ∀ (s t : Slot k), s.Ok ps cells → t.Ok ps cells → (s.q < t.q ∨ s.q = t.q ∧ s.j < t.j) →
      s.place ps cells < t.place ps cells := by
    intro s t ⟨p, c, hp, hc, hd, ha⟩ ⟨p', c', hp', hc', hd', ha'⟩ hlt
    obtain ⟨e1, l1⟩ := block s p c hp hc ha
    obtain ⟨e2, _⟩ := block t p' c' hp' hc' ha'
    have key : createdSpecies ps cells s.q + createdBefore p cells s.j + (p.ppc c).toNat ≤
        createdSpecies ps cells t.q + createdBefore p' cells t.j := by
      rcases hlt with hlt | ⟨hq, hj⟩
      · have a1 := species_mono cells ps hlt hp
        have a2 := created_mono p cells (List.getElem?_eq_some_iff.mp hc).1 hc hd
        omega
      · rw [hq] at hp
        have : p = p' := by rw [hp] at hp'; exact Option.some.inj hp'
        subst this
        have a2 := created_mono p cells hj hc hd
        rw [hq]; omega
    have := Nat.mul_le_mul_left k key
    rw [Nat.mul_add] at this
    omega
  have hq : s.q = t.q := by
    rcases Nat.lt_trichotomy s.q t.q with h1 | h1 | h1
    · have := before s t hs ht (.inl h1); omega
    · exact h1
    · have := before t s ht hs (.inl h1); omega
  have hj : s.j = t.j := by
    rcases Nat.lt_trichotomy s.j t.j with h1 | h1 | h1
    · have := before s t hs ht (.inr ⟨hq, h1⟩); omega
    · exact h1
    · have := before t s ht hs (.inr ⟨hq.symm, h1⟩); omega
  obtain ⟨p, c, hp, hc, hd, ha⟩ := hs
  obtain ⟨p', c', hp', hc', hd', ha'⟩ := ht
  obtain ⟨e1, l1⟩ := block s p c hp hc ha
  obtain ⟨e2, l2⟩ := block t p' c' hp' hc' ha'
  rw [← hq] at hp' e2; rw [← hj] at hc' e2
  have ep : p = p' := by rw [hp] at hp'; exact Option.some.inj hp'
  have ec : c = c' := by rw [hc] at hc'; exact Option.some.inj hc'
  subst ep ec
  rw [e1, e2] at h
  have h' : s.d * (p.ppc c).toNat + s.a = t.d * (p.ppc c).toNat + t.a := by omega
  have hd' : (s.d : Nat) = t.d := by
    have f : ∀ (d a : Nat), a < (p.ppc c).toNat → (d * (p.ppc c).toNat + a) / (p.ppc c).toNat = d := by
      intro d a h
      rw [Nat.add_comm, Nat.add_mul_div_right _ _ (by omega), Nat.div_eq_of_lt h, Nat.zero_add]
    rw [← f s.d s.a ha, h', f t.d t.a ha']
  have ha'' : s.a = t.a := by rw [hd'] at h'; omega
  cases s; cases t; simp_all [Fin.ext_iff]

/-! ## What the seed does not decide -/

/-- the same two patches with the same seed, on one rank and on two: the second patch draws from another stream, so the initial
particles depend on the number of ranks although the seed is the same -/
theorem seed_ranks_fails (seed : Nat) : ∃ σ : Stream → Nat → ℚ,
    patchStreams σ (some seed) 1 0 2 1 ≠ patchStreams σ (some seed) 2 1 1 0 := by
  refine ⟨fun s n => if s.key = [0, 1] then 1 else 0, fun h => ?_⟩
  have := congrFun h 0
  simp [patchStreams, rankGen, handed, use, spawn] at this

/-- after loading, `generate_field_lists` (collision.py 148-152) hands the collisions of every patch new generators: the numbers a
restarted run draws in a patch are not those of the run that went on -/
theorem restart_collisions_fails (g : Gen) (n i : Nat) (hi : i < n) :
    ((use (use (use g (.fill n)).1 (.collide n)).1 (.collide n)).2[i]?).map (·.stream) ≠
      ((use (use g (.fill n)).1 (.collide n)).2[i]?).map (·.stream) := by
  simp [use, spawn, hi]
  omega

/-! ## Example -/

/-- two species, three cells, the second empty for the first species -/
def exPs : List (Fill.Profile 2) :=
  [⟨fun c => if c 0 = 1 then 0 else 1, 0, fun _ => 2⟩, ⟨fun _ => 1, 0, fun _ => 1⟩]

def exCells : Nat → List (Fin 2 → ℚ) := fun i => if i < 2 then [![0, 0], ![1, 0], ![2, 0]] else []

/-- two different schedules of two threads that both finish, and a draw they make -/
example : (∃ ls, fillAll (patchStreams (fun _ n => n) (some 7) 3 1 2) (fun _ => 0)
      (species exPs exCells [[0, 0, 1, 1, 0, 0, 1, 1], [1, 1, 1, 1, 1, 1, 0, 0, 0, 0, 0, 0]]) = ls ∧ Ended 2 ls) ∧
    (⟨1, 2, 1, 0⟩ : Slot 2).Ok exPs (exCells 1) ∧ (⟨1, 2, 1, 0⟩ : Slot 2).place exPs (exCells 1) = 13 := by
  refine ⟨⟨_, rfl, ?_⟩, ⟨_, _, rfl, rfl, ?_, ?_⟩, ?_⟩
  · unfold Ended; decide +kernel
  all_goals decide +kernel

end Verif.Rng
