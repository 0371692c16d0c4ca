import Mathlib.Data.Finset.Option
import Verif.Spec.CapsuleSim
import Verif.Proofs.CapsuleRun

/-!
# The calls of a simulation follow the rules of the exchanges
-/
namespace Verif.Capsule

set_option linter.unusedSectionVars false

variable {A : Type} [DecidableEq A]

/-- a history that follows the rules: `o` are the exchanges in flight, `d` those waited for whose capsules are held,
`n` bounds the names -/
structure St (hist : List (Op A)) (o d : Finset Nat) (n : Nat) : Prop where
  proper : Proper hist
  inFlight : ∀ id, id ∈ o ↔ WasStarted hist id ∧ Op.wait id ∉ hist ∧ Op.drop id ∉ hist
  done : ∀ id, id ∈ d ↔ WasStarted hist id ∧ Op.wait id ∈ hist ∧ Op.drop id ∉ hist
  names : ∀ id, WasStarted hist id → id < n
  begun : ∀ id, Op.wait id ∈ hist ∨ Op.drop id ∈ hist → WasStarted hist id
  ok : ∀ id k, Op.start id k ∈ hist → k.Ok

theorem st_init : St ([] : List (Op A)) ∅ ∅ 0 :=
  ⟨proper_nil, by simp [WasStarted], by simp [WasStarted], by simp [WasStarted], by simp, by simp⟩

theorem started_start {hist : List (Op A)} {id : Nat} {k : Start A} (x : Nat) :
    WasStarted (hist ++ [.start id k]) x ↔ WasStarted hist x ∨ x = id := by
  constructor
  · rintro ⟨k', hk'⟩
    rcases List.mem_append.1 hk' with h | h
    · exact .inl ⟨k', h⟩
    · simp only [List.mem_singleton, Op.start.injEq] at h
      exact .inr h.1
  · rintro (⟨k', h⟩ | rfl)
    · exact ⟨k', by simp [h]⟩
    · exact ⟨k, by simp⟩

theorem started_other {hist : List (Op A)} {op : Op A} (hop : ∀ id k, op ≠ .start id k) (x : Nat) :
    WasStarted (hist ++ [op]) x ↔ WasStarted hist x := by
  constructor
  · rintro ⟨k', hk'⟩
    rcases List.mem_append.1 hk' with h | h
    · exact ⟨k', h⟩
    · exact absurd (List.mem_singleton.1 h).symm (hop x k')
  · rintro ⟨k', h⟩
    exact ⟨k', by simp [h]⟩

theorem St.start {hist : List (Op A)} {o d : Finset Nat} {n : Nat} (s : St hist o d n) (k : Start A) (hk : k.Ok)
    (ha : ∀ a, k.Uses a → a ∈ arraysAfter hist) : St (hist ++ [.start n k]) (insert n o) d (n + 1) := by
  have hn : ¬ WasStarted hist n := fun h => lt_irrefl _ (s.names n h)
  refine ⟨proper_append s.proper ⟨hn, ha⟩, fun id => ?_, fun id => ?_, fun id => ?_, fun id => ?_, fun id k' h => ?_⟩
  · rw [started_start, Finset.mem_insert, s.inFlight]
    simp only [List.mem_append, List.mem_singleton, reduceCtorEq, or_false]
    constructor
    · rintro (rfl | h)
      · exact ⟨.inr rfl, fun h => hn (s.begun id (.inl h)), fun h => hn (s.begun id (.inr h))⟩
      · exact ⟨.inl h.1, h.2⟩
    · rintro ⟨h | h, h2⟩
      · exact .inr ⟨h, h2⟩
      · exact .inl h
  · rw [started_start, s.done]
    simp only [List.mem_append, List.mem_singleton, reduceCtorEq, or_false]
    constructor
    · exact fun h => ⟨.inl h.1, h.2⟩
    · rintro ⟨h | rfl, h2⟩
      · exact ⟨h, h2⟩
      · exact absurd (s.begun id (.inl h2.1)) hn
  · rw [started_start]
    rintro (h | rfl)
    · have := s.names id h; omega
    · omega
  · rw [started_start]
    simp only [List.mem_append, List.mem_singleton, reduceCtorEq, or_false]
    exact fun h => .inl (s.begun id h)
  · rcases List.mem_append.1 h with h | h
    · exact s.ok id k' h
    · simp only [List.mem_singleton, Op.start.injEq] at h
      exact h.2 ▸ hk

theorem St.wait {hist : List (Op A)} {o d : Finset Nat} {n : Nat} (s : St hist o d n) {id : Nat} (hi : id ∈ o) :
    St (hist ++ [.wait id]) (o.erase id) (insert id d) n := by
  have h := (s.inFlight id).1 hi
  refine ⟨proper_append s.proper h, fun x => ?_, fun x => ?_, fun x => ?_, fun x => ?_, fun x k hk => ?_⟩
  · rw [started_other (by simp), Finset.mem_erase, s.inFlight]
    simp only [List.mem_append, List.mem_singleton, reduceCtorEq, or_false, Op.wait.injEq]
    tauto
  · rw [started_other (by simp), Finset.mem_insert, s.done]
    simp only [List.mem_append, List.mem_singleton, reduceCtorEq, or_false, Op.wait.injEq]
    constructor
    · rintro (rfl | h')
      · exact ⟨h.1, .inr rfl, h.2.2⟩
      · exact ⟨h'.1, .inl h'.2.1, h'.2.2⟩
    · tauto
  · rw [started_other (by simp)]; exact s.names x
  · rw [started_other (by simp)]
    simp only [List.mem_append, List.mem_singleton, reduceCtorEq, or_false, Op.wait.injEq]
    rintro ((h' | rfl) | h')
    · exact s.begun x (.inl h')
    · exact h.1
    · exact s.begun x (.inr h')
  · exact s.ok x k (by simpa using hk)

theorem St.drop {hist : List (Op A)} {o d : Finset Nat} {n : Nat} (s : St hist o d n) {id : Nat} (hi : id ∈ o ∪ d) :
    St (hist ++ [.drop id]) (o.erase id) (d.erase id) n := by
  have h : WasStarted hist id ∧ Op.drop id ∉ hist := by
    rcases Finset.mem_union.1 hi with h | h
    · have := (s.inFlight id).1 h; exact ⟨this.1, this.2.2⟩
    · have := (s.done id).1 h; exact ⟨this.1, this.2.2⟩
  refine ⟨proper_append s.proper h, fun x => ?_, fun x => ?_, fun x => ?_, fun x => ?_, fun x k hk => ?_⟩
  · rw [started_other (by simp), Finset.mem_erase, s.inFlight]
    simp only [List.mem_append, List.mem_singleton, reduceCtorEq, or_false, Op.drop.injEq]
    tauto
  · rw [started_other (by simp), Finset.mem_erase, s.done]
    simp only [List.mem_append, List.mem_singleton, reduceCtorEq, or_false, Op.drop.injEq]
    tauto
  · rw [started_other (by simp)]; exact s.names x
  · rw [started_other (by simp)]
    simp only [List.mem_append, List.mem_singleton, reduceCtorEq, or_false, Op.drop.injEq]
    rintro (h' | h' | rfl)
    · exact s.begun x (.inl h')
    · exact s.begun x (.inr h')
    · exact h.1
  · exact s.ok x k (by simpa using hk)

theorem St.array {hist : List (Op A)} {o d : Finset Nat} {n : Nat} (s : St hist o d n) {op : Op A}
    (hop : (∃ a, op = .newArray a) ∨ ∃ a, op = .dropArray a ∧
      ∀ id ∈ o, ∀ k, Op.start id k ∈ hist → ¬ k.Uses a) : St (hist ++ [op]) o d n := by
  have hs : ∀ x, (∃ id k, x = Op.start id k) ∨ (∃ id, x = Op.wait id) ∨ (∃ id, x = Op.drop id) →
      (x ∈ hist ++ [op] ↔ x ∈ hist) := by
    rintro x (⟨_, _, rfl⟩ | ⟨_, rfl⟩ | ⟨_, rfl⟩) <;> rcases hop with ⟨a, rfl⟩ | ⟨a, rfl, _⟩ <;> simp
  have h1 := fun id k => hs (.start id k) (.inl ⟨_, _, rfl⟩)
  have h2 := fun id => hs (.wait id) (.inr (.inl ⟨_, rfl⟩))
  have h3 := fun id => hs (.drop id) (.inr (.inr ⟨_, rfl⟩))
  have hst : ∀ id, WasStarted (hist ++ [op]) id ↔ WasStarted hist id := fun id => by unfold WasStarted; simp only [h1]
  refine ⟨proper_append s.proper ?_, fun x => ?_, fun x => ?_, fun x => ?_, fun x => ?_, fun x k => ?_⟩
  · rcases hop with ⟨a, rfl⟩ | ⟨a, rfl, ha⟩
    · trivial
    · intro id k hk hu
      by_contra hc
      rw [not_or] at hc
      exact ha id ((s.inFlight id).2 ⟨⟨k, hk⟩, hc.1, hc.2⟩) k hk hu
  · rw [hst, h2, h3]; exact s.inFlight x
  · rw [hst, h2, h3]; exact s.done x
  · rw [hst]; exact s.names x
  · rw [hst, h2, h3]; exact s.begun x
  · rw [h1]; exact s.ok x k

theorem St.news {hist : List (Op A)} {o d : Finset Nat} {n : Nat} (s : St hist o d n) :
    ∀ l : List A, St (hist ++ l.map .newArray) o d n
  | [] => by simpa using s
  | a :: l => by
    have := (s.array (op := .newArray a) (.inl ⟨a, rfl⟩)).news l
    simpa using this

theorem St.gone {hist : List (Op A)} {o d : Finset Nat} {n : Nat} (s : St hist o d n) :
    ∀ l : List A, (∀ a ∈ l, ∀ id ∈ o, ∀ k, Op.start id k ∈ hist → ¬ k.Uses a) → St (hist ++ l.map .dropArray) o d n
  | [], _ => by simpa using s
  | a :: l, h => by
    have := (s.array (op := .dropArray a) (.inr ⟨a, rfl, h a (by simp)⟩)).gone l (by
      intro x hx id hid k hk
      exact h x (by simp [hx]) id hid k (by simpa using hk))
    simpa using this

theorem St.drops {hist : List (Op A)} {o d : Finset Nat} {n : Nat} (s : St hist o d n) :
    ∀ l : List Nat, l.Nodup → (∀ id ∈ l, id ∈ o ∪ d) →
      St (hist ++ l.map .drop) (o \ l.toFinset) (d \ l.toFinset) n
  | [], _, _ => by simpa using s
  | id :: l, hn, h => by
    rw [List.nodup_cons] at hn
    have := (s.drop (h id (by simp))).drops l hn.2 (by
      intro x hx
      have hne : x ≠ id := fun e => hn.1 (e ▸ hx)
      have := h x (by simp [hx])
      simp only [Finset.mem_union, Finset.mem_erase] at this ⊢
      tauto)
    have e1 : ∀ t : Finset Nat, t.erase id \ l.toFinset = t \ (id :: l).toFinset := by
      intro t; ext x; simp only [Finset.mem_sdiff, Finset.mem_erase, List.toFinset_cons, Finset.mem_insert]; tauto
    rw [e1, e1] at this
    simpa using this

theorem St.waits {hist : List (Op A)} {o d : Finset Nat} {n : Nat} (s : St hist o d n) :
    ∀ l : List Nat, l.Nodup → (∀ id ∈ l, id ∈ o) →
      St (hist ++ l.map .wait) (o \ l.toFinset) (d ∪ l.toFinset) n
  | [], _, _ => by simpa using s
  | id :: l, hn, h => by
    rw [List.nodup_cons] at hn
    have := (s.wait (h id (by simp))).waits l hn.2 (by
      intro x hx
      have hne : x ≠ id := fun e => hn.1 (e ▸ hx)
      exact Finset.mem_erase.2 ⟨hne, h x (by simp [hx])⟩)
    have e1 : o.erase id \ l.toFinset = o \ (id :: l).toFinset := by
      ext x; simp only [Finset.mem_sdiff, Finset.mem_erase, List.toFinset_cons, Finset.mem_insert]; tauto
    have e2 : insert id d ∪ l.toFinset = d ∪ (id :: l).toFinset := by
      ext x; simp only [Finset.mem_union, Finset.mem_insert, List.toFinset_cons]; tauto
    rw [e1, e2] at this
    simpa using this

theorem arraysAfter_start (hist : List (Op A)) (id : Nat) (k : Start A) (rest : List (Op A)) :
    arraysAfter (hist ++ .start id k :: rest) = arraysAfter (hist ++ rest) := by
  unfold arraysAfter
  simp [List.foldl_append]

/-- two histories with the same arrays after every continuation -/
def SameArrays (h₁ h₂ : List (Op A)) : Prop := arraysAfter h₁ = arraysAfter h₂

theorem sameArrays_append {h₁ h₂ : List (Op A)} (h : SameArrays h₁ h₂) (r : List (Op A)) :
    SameArrays (h₁ ++ r) (h₂ ++ r) := by
  unfold SameArrays arraysAfter at *
  rw [List.foldl_append, List.foldl_append, h]

theorem speciesFit_congr : ∀ (l : List (SpeciesArgs A)) (h₁ h₂ : List (Op A)) (F : A → Prop), SameArrays h₁ h₂ →
    SpeciesFit h₁ F l → SpeciesFit h₂ F l
  | [], _, _, _, _, _ => trivial
  | s :: l, h₁, h₂, F, h, ⟨f1, f2, f3⟩ => by
    have h' := sameArrays_append (sameArrays_append h (s.gone.map .dropArray)) (s.new.map .newArray)
    exact ⟨f1, fun a hu => by rw [← h']; exact f2 a hu, speciesFit_congr l _ _ _ h' f3⟩

/-- the loop that starts the exchanges of the species -/
theorem St.species : ∀ (l : List (SpeciesArgs A)) {hist : List (Op A)} {o d : Finset Nat} {n : Nat} (_ : St hist o d n)
    (F : A → Prop) (_ : ∀ id ∈ o, ∀ k, Op.start id k ∈ hist → ∀ a, k.Uses a → F a) (_ : SpeciesFit hist F l),
    St (hist ++ startSpecies l n) (o ∪ (List.range' n l.length).toFinset) d (n + l.length)
  | [], hist, o, d, n, s, F, _, _ => by simpa [startSpecies] using s
  | x :: l, hist, o, d, n, s, F, hF, ⟨f1, f2, f3⟩ => by
    have s1 := s.gone x.gone fun a ha id hid k hk hu => f1 a ha (hF id hid k hk a hu)
    have s2 := s1.news x.new
    have s3 := s2.start x.start rfl f2
    have s4 := St.species l s3 (fun a => F a ∨ x.start.Uses a) (by
      intro id hid k hk a hu
      rw [Finset.mem_insert] at hid
      rcases List.mem_append.1 hk with hk | hk
      · have hk' : Op.start id k ∈ hist := by simpa using hk
        rcases hid with rfl | hid
        · exact absurd (s.names id ⟨k, hk'⟩) (lt_irrefl _)
        · exact .inl (hF id hid k hk' a hu)
      · simp only [List.mem_singleton, Op.start.injEq] at hk
        exact .inr (hk.2 ▸ hu)) (speciesFit_congr l _ _ _ (by
          show arraysAfter _ = arraysAfter _
          rw [arraysAfter_start, List.append_nil]) f3)
    have e : insert n o ∪ (List.range' (n + 1) l.length).toFinset = o ∪ (List.range' n (x :: l).length).toFinset := by
      rw [List.length_cons, List.range'_succ]
      ext y; simp only [Finset.mem_union, Finset.mem_insert, List.toFinset_cons]; tauto
    rw [e] at s4
    have e2 : n + 1 + l.length = n + (x :: l).length := by rw [List.length_cons]; omega
    rw [e2] at s4
    simpa [startSpecies] using s4

/-- the capsules in the local variables of `run` -/
def Sim.vars (s : Sim) : List Nat := s.e.toList ++ s.b.toList ++ s.ps ++ s.h.toList

/-- the state of the simulation agrees with the history -/
structure SimInv (hist : List (Op A)) (s : Sim) : Prop where
  st : St hist s.handle.toFinset s.vars.toFinset s.next
  nodup : s.vars.Nodup
  one : s.ps ≠ [] → s.h = none

theorem simInv_init : SimInv ([] : List (Op A)) Sim.init :=
  ⟨st_init, by simp [Sim.vars, Sim.init], by simp [Sim.init]⟩

theorem St.congr {hist hist' : List (Op A)} {o d o' d' : Finset Nat} {n n' : Nat} (s : St hist o d n) (e : hist = hist')
    (eo : ∀ x, x ∈ o ↔ x ∈ o') (ed : ∀ x, x ∈ d ↔ x ∈ d') (en : n = n') : St hist' o' d' n' := by
  subst e en
  rw [← Finset.ext eo, ← Finset.ext ed]; exact s

theorem St.dropVar {hist : List (Op A)} {o d : Finset Nat} {n : Nat} (s : St hist o d n) (v : Option Nat)
    (h : ∀ id, v = some id → id ∈ o ∪ d) :
    St (hist ++ dropVar v) (o \ v.toFinset) (d \ v.toFinset) n := by
  cases v with
  | none => simpa [Capsule.dropVar] using s
  | some id =>
    refine (s.drop (h id rfl)).congr rfl (fun x => ?_) (fun x => ?_) rfl <;>
      simp [Finset.mem_erase, and_comm]

/-- the names in use are smaller than `next`, and a capsule is not both in flight and waited for -/
theorem St.lt {hist : List (Op A)} {o d : Finset Nat} {n : Nat} (s : St hist o d n) {x : Nat} (h : x ∈ o ∪ d) : x < n := by
  rcases Finset.mem_union.1 h with h | h
  · exact s.names x ((s.inFlight x).1 h).1
  · exact s.names x ((s.done x).1 h).1

theorem St.disj {hist : List (Op A)} {o d : Finset Nat} {n : Nat} (s : St hist o d n) {x : Nat} (h : x ∈ o) : x ∉ d :=
  fun h' => ((s.inFlight x).1 h).2.1 ((s.done x).1 h').2.1

theorem inv_currentsStart {hist : List (Op A)} {s : Sim} (i : SimInv hist s) (ranks : Nat) (c : CurrentArgs A)
    (ha : ∀ a, c.start.Uses a → a ∈ arraysAfter hist) :
    SimInv (hist ++ (currentsStart ranks c s).1) (currentsStart ranks c s).2 := by
  unfold currentsStart
  split
  · simpa using i
  · rename_i h
    split
    · exact ⟨by rw [List.append_nil]; exact i.st, i.nodup, i.one⟩
    · have hn : s.handle = none := by
        rcases hh : s.handle
        · rfl
        · simp [hh] at h
      refine ⟨(i.st.start c.start trivial ha).congr rfl (fun x => ?_) (fun x => Iff.rfl) rfl, i.nodup, i.one⟩
      simp [hn, eq_comm]

theorem inv_currentsWait {hist : List (Op A)} {s : Sim} (i : SimInv hist s) :
    SimInv (hist ++ (currentsWait s : List (Op A) × Sim).1) (currentsWait s : List (Op A) × Sim).2 := by
  unfold currentsWait
  rcases hh : s.handle with _ | id
  · simpa using i
  · dsimp only
    have hm : id ∈ s.handle.toFinset := by simp [hh]
    have hd := i.st.disj hm
    have h1 := (i.st.wait hm).drop (id := id) (by simp)
    refine ⟨h1.congr (by simp) (fun x => ?_) (fun x => ?_) rfl, i.nodup, i.one⟩
    · simp [hh, eq_comm]
    · simp only [Finset.mem_erase, Finset.mem_insert]
      constructor
      · rintro ⟨h2, h3 | h3⟩
        · exact absurd h3 h2
        · exact h3
      · intro h2
        exact ⟨fun e => hd (e ▸ h2), .inr h2⟩

theorem arraysAfter_other (hist : List (Op A)) : ∀ (r : List (Op A)), (∀ op ∈ r, (∃ id, op = .drop id) ∨ ∃ id, op = .wait id) →
    arraysAfter (hist ++ r) = arraysAfter hist := by
  intro r
  induction r using List.reverseRecOn with
  | nil => simp
  | append_singleton r op ih =>
    intro h
    rw [← List.append_assoc, arraysAfter_snoc, ih fun x hx => h x (by simp [hx])]
    rcases h op (by simp) with ⟨id, rfl⟩ | ⟨id, rfl⟩ <;> rfl

theorem inv_leave {hist : List (Op A)} {s : Sim} {o : Finset Nat} (st : St hist o s.vars.toFinset s.next)
    (nd : s.vars.Nodup) (ho : s.handle.toFinset = o) :
    SimInv (hist ++ (leave s : List (Op A) × Sim).1) (leave s : List (Op A) × Sim).2 := by
  have e : (leave s : List (Op A) × Sim).1 = s.vars.map .drop := by
    unfold leave Sim.vars
    have : ∀ v : Option Nat, (dropVar v : List (Op A)) = v.toList.map .drop := by intro v; cases v <;> rfl
    simp [this]
  rw [e]
  have h := st.drops s.vars nd fun id hid => Finset.mem_union_right _ (List.mem_toFinset.2 hid)
  refine ⟨h.congr rfl (fun x => ?_) (fun x => ?_) rfl, by simp [leave, Sim.vars], by simp [leave]⟩
  · show _ ↔ x ∈ s.handle.toFinset
    rw [ho, Finset.mem_sdiff]
    exact ⟨fun h => h.1, fun h => ⟨h, st.disj h⟩⟩
  · simp [leave, Sim.vars]

theorem mem_vars {s : Sim} {x : Nat} : x ∈ s.vars ↔ s.e = some x ∨ s.b = some x ∨ x ∈ s.ps ∨ s.h = some x := by
  simp [Sim.vars, or_assoc]

theorem vars_nodup (s : Sim) : s.vars.Nodup ↔ s.ps.Nodup ∧ (∀ x, s.e = some x → s.b ≠ some x ∧ x ∉ s.ps ∧ s.h ≠ some x) ∧
    (∀ x, s.b = some x → x ∉ s.ps ∧ s.h ≠ some x) ∧ ∀ x, s.h = some x → x ∉ s.ps := by
  obtain ⟨sy, ha, e, b, ps, h, n⟩ := s
  unfold Sim.vars
  cases e <;> cases b <;> cases h <;> simp [List.nodup_append, eq_comm] <;> grind

theorem inv_guard {hist : List (Op A)} {s : Sim} (i : SimInv hist s) (g : GuardArgs A) (v : Option Nat) (s' : Sim)
    (ha : ∀ a, g.start.Uses a → a ∈ arraysAfter hist) (hv : v = s.e ∧ s' = { s with e := some s.next, next := s.next + 1 } ∨
      v = s.b ∧ s' = { s with b := some s.next, next := s.next + 1 }) :
    SimInv (hist ++ (.start s.next g.start :: dropVar v ++ [.wait s.next])) s' := by
  have hlt : ∀ x, x ∈ s.handle.toFinset ∪ s.vars.toFinset → x < s.next := fun x hx => i.st.lt hx
  have hdj : ∀ x, x ∈ s.handle.toFinset → x ∉ s.vars.toFinset := fun x hx => i.st.disj hx
  have nd := (vars_nodup s).1 i.nodup
  have h1 := i.st.start g.start trivial ha
  have hvm : ∀ id, v = some id → id ∈ s.vars := by
    intro id hid
    rw [mem_vars]
    rcases hv with ⟨rfl, _⟩ | ⟨rfl, _⟩ <;> simp [hid]
  have h2 := h1.dropVar v (by
    intro id hid
    simp [hvm id hid])
  have hn : s.next ∉ s.vars := fun h => lt_irrefl _ (hlt _ (by simp [h]))
  have hnh : s.handle ≠ some s.next := fun h => lt_irrefl _ (hlt _ (by simp [h]))
  have hvn : v ≠ some s.next := fun h => hn (hvm _ h)
  have h3 := h2.wait (id := s.next) (by simp [hvn])
  simp only [mem_vars, not_or] at hn
  have hdj' : ∀ x, s.handle = some x → ¬ (s.e = some x ∨ s.b = some x ∨ x ∈ s.ps ∨ s.h = some x) := by
    intro x hx
    have := hdj x (by simp [hx])
    rwa [List.mem_toFinset, mem_vars] at this
  have key : ∀ x, x ∈ insert s.next (s.vars.toFinset \ v.toFinset) ↔ x ∈ s'.vars.toFinset := by
    intro x
    simp only [Finset.mem_insert, Finset.mem_sdiff, List.mem_toFinset, mem_vars, Option.mem_toFinset, Option.mem_def]
    have n1 := nd.2.1 x
    have n2 := nd.2.2.1 x
    rcases hv with ⟨rfl, rfl⟩ | ⟨rfl, rfl⟩
    · simp only [Option.some.injEq]
      have : s.next = x ↔ x = s.next := eq_comm
      tauto
    · simp only [Option.some.injEq]
      have : s.next = x ↔ x = s.next := eq_comm
      tauto
  have hs : s'.handle = s.handle ∧ s'.next = s.next + 1 ∧ s'.ps = s.ps ∧ s'.h = s.h := by
    rcases hv with ⟨_, rfl⟩ | ⟨_, rfl⟩ <;> exact ⟨rfl, rfl, rfl, rfl⟩
  refine ⟨h3.congr (by simp) (fun x => ?_) key hs.2.1.symm, ?_, by rw [hs.2.2.1, hs.2.2.2]; exact i.one⟩
  · rw [hs.1]
    simp only [Finset.mem_erase, Finset.mem_sdiff, Finset.mem_insert, Option.mem_toFinset, Option.mem_def]
    constructor
    · tauto
    · intro hx
      refine ⟨fun e => hnh (e ▸ hx), .inr hx, fun hv' => hdj x (by simp [hx]) (by simp [hvm x hv'])⟩
  · rw [vars_nodup]
    rcases hv with ⟨_, rfl⟩ | ⟨_, rfl⟩
    · refine ⟨nd.1, fun x hx => ?_, nd.2.2⟩
      have : x = s.next := by simpa [eq_comm] using hx
      subst this
      exact ⟨hn.2.1, hn.2.2.1, hn.2.2.2⟩
    · refine ⟨nd.1, fun x hx => ⟨fun e => ?_, (nd.2.1 x hx).2⟩, fun x hx => ?_, nd.2.2.2⟩
      · have : s.next = x := by simpa using e
        subst this
        exact hn.1 hx
      · have : x = s.next := by simpa [eq_comm] using hx
        subst this
        exact ⟨hn.2.2.1, hn.2.2.2⟩

theorem inv_guardOnce {hist : List (Op A)} {s : Sim} (i : SimInv hist s) (g : GuardArgs A)
    (ha : ∀ a, g.start.Uses a → a ∈ arraysAfter hist) :
    SimInv (hist ++ [.start s.next g.start, .wait s.next, .drop s.next]) { s with next := s.next + 1 } := by
  have h1 := ((i.st.start g.start trivial ha).wait (id := s.next) (by simp)).drop (id := s.next) (by simp)
  have hlt : ∀ x, x ∈ s.handle.toFinset ∪ s.vars.toFinset → x ≠ s.next := fun x hx e => by
    have := i.st.lt hx; omega
  refine ⟨h1.congr (by simp) (fun x => ?_) (fun x => ?_) rfl, i.nodup, i.one⟩
  · have := hlt x
    simp only [Finset.mem_erase, Finset.mem_insert, Finset.mem_union] at this ⊢
    tauto
  · have := hlt x
    show _ ↔ x ∈ s.vars.toFinset
    simp only [Finset.mem_erase, Finset.mem_insert, Finset.mem_union] at this ⊢
    tauto

theorem inv_breakGuard {hist : List (Op A)} {s : Sim} (i : SimInv hist s) (g : GuardArgs A)
    (ha : ∀ a, g.start.Uses a → a ∈ arraysAfter hist) :
    SimInv (hist ++ [.start s.next g.start, .drop s.next]) { s with next := s.next + 1 } := by
  have h1 := (i.st.start g.start trivial ha).drop (id := s.next) (by simp)
  have hlt : ∀ x, x ∈ s.handle.toFinset ∪ s.vars.toFinset → x ≠ s.next := fun x hx e => by
    have := i.st.lt hx; omega
  refine ⟨h1.congr (by simp) (fun x => ?_) (fun x => ?_) rfl, i.nodup, i.one⟩
  · have := hlt x
    simp only [Finset.mem_erase, Finset.mem_insert, Finset.mem_union] at this ⊢
    tauto
  · have := hlt x
    show _ ↔ x ∈ s.vars.toFinset
    simp only [Finset.mem_erase, Finset.mem_union] at this ⊢
    tauto

/-- the capsules of the last step dropped and the exchanges of the species started -/
theorem inv_starts {hist : List (Op A)} {s : Sim} (i : SimInv hist s) (l : List (SpeciesArgs A))
    (hf : SpeciesFit hist (CurrentsUse hist s) l) :
    St (hist ++ s.ps.dropLast.map .drop ++ startSpecies l s.next)
      (s.handle.toFinset ∪ (List.range' s.next l.length).toFinset)
      (s.e.toFinset ∪ s.b.toFinset ∪ (s.ps.getLast?.orElse fun _ => s.h).toFinset) (s.next + l.length) := by
  have nd := (vars_nodup s).1 i.nodup
  have hsub : ∀ x ∈ s.ps.dropLast, x ∈ s.vars := fun x hx => mem_vars.2 (.inr (.inr (.inl (List.dropLast_subset _ hx))))
  have h1 := i.st.drops s.ps.dropLast (nd.1.sublist (List.dropLast_sublist _)) fun x hx => by simp [hsub x hx]
  have h2 : St (hist ++ s.ps.dropLast.map .drop) s.handle.toFinset
      (s.e.toFinset ∪ s.b.toFinset ∪ (s.ps.getLast?.orElse fun _ => s.h).toFinset) s.next := by
    refine h1.congr rfl (fun x => ?_) (fun x => ?_) rfl
    · simp only [Finset.mem_sdiff, List.mem_toFinset]
      refine ⟨fun h => h.1, fun h => ⟨h, fun hx => i.st.disj h (by simp [hsub x hx])⟩⟩
    · simp only [Finset.mem_sdiff, List.mem_toFinset, mem_vars, Finset.mem_union, Option.mem_toFinset, Option.mem_def]
      have n1 := nd.2.1 x
      have n2 := nd.2.2.1 x
      have n3 := nd.2.2.2 x
      rcases List.eq_nil_or_concat s.ps with h | ⟨p, y, h⟩
      · simp [h, or_assoc]
      · rw [List.concat_eq_append] at h
        have hh : s.h = none := i.one (by simp [h])
        have nn : (p ++ [y]).Nodup := h ▸ nd.1
        have hy : y ∉ p := by
          have := List.nodup_append.1 nn
          exact fun hy => this.2.2 y hy y (by simp) rfl
        rw [h] at n1 n2 n3 ⊢
        rw [hh] at n1 n2 n3 ⊢
        simp only [List.dropLast_concat, List.getLast?_concat, Option.orElse_some, List.mem_append, List.mem_singleton,
          reduceCtorEq, or_false, Option.some.injEq] at n1 n2 n3 ⊢
        constructor
        · rintro ⟨h1 | h1 | h1 | h1, h2⟩
          · exact .inl (.inl h1)
          · exact .inl (.inr h1)
          · exact absurd h1 h2
          · exact .inr h1.symm
        · rintro ((h1 | h1) | h1)
          · exact ⟨.inl h1, fun h => (n1 h1).2.1 (.inl h)⟩
          · exact ⟨.inr (.inl h1), fun h => (n2 h1).1 (.inl h)⟩
          · exact ⟨.inr (.inr (.inr h1.symm)), fun h => hy (h1 ▸ h)⟩
  have hsame : SameArrays hist (hist ++ s.ps.dropLast.map .drop) := by
    show arraysAfter _ = arraysAfter _
    rw [arraysAfter_other]
    intro op hop
    obtain ⟨id, _, rfl⟩ := List.mem_map.1 hop
    exact .inl ⟨id, rfl⟩
  refine h2.species l (CurrentsUse hist s) ?_ (speciesFit_congr l _ _ _ hsame hf)
  intro id hid k hk a hu
  refine ⟨id, k, by simpa using hid, ?_, hu⟩
  rcases List.mem_append.1 hk with hk | hk
  · exact hk
  · obtain ⟨_, _, h⟩ := List.mem_map.1 hk
    cases h

theorem kept_facts {hist : List (Op A)} {s : Sim} (i : SimInv hist s) {x : Nat}
    (h : (s.ps.getLast?.orElse fun _ => s.h) = some x) : x ∈ s.ps ∨ s.h = some x := by
  rcases hg : s.ps.getLast? with _ | y
  · rw [hg] at h; exact .inr h
  · rw [hg] at h
    have : y = x := by simpa using h
    subst this
    exact .inl (List.mem_of_getLast? hg)

theorem inv_particles {hist : List (Op A)} {s : Sim} (i : SimInv hist s) (l : List (SpeciesArgs A))
    (hf : SpeciesFit hist (CurrentsUse hist s) l) :
    SimInv (hist ++ (particles l s).1) (particles l s).2 := by
  have h1 := inv_starts i l hf
  have nd := (vars_nodup s).1 i.nodup
  set kept := s.ps.getLast?.orElse fun _ => s.h with hkept
  have hk : ∀ x, kept = some x → x ∈ s.ps ∨ s.h = some x := fun x h => kept_facts i h
  have hlt : ∀ x, x ∈ s.handle.toFinset ∪ s.vars.toFinset → x < s.next := fun x hx => i.st.lt hx
  have hdj : ∀ x, s.handle = some x → x ∉ s.vars := fun x hx h => i.st.disj (x := x) (by simp [hx]) (by simp [h])
  rcases hl : l with _ | ⟨y, l'⟩
  · subst hl
    unfold particles
    simp only [List.length_nil, List.range'_zero, if_true, startSpecies, List.append_nil, Nat.add_zero, ← hkept]
    simp only [startSpecies, List.append_nil, List.length_nil, List.range'_zero, Nat.add_zero] at h1
    refine ⟨h1.congr rfl (fun x => by simp) (fun x => ?_) rfl, ?_, by simp⟩
    · simp [mem_vars, or_assoc]
    · rw [vars_nodup]
      refine ⟨by simp, fun x hx => ⟨(nd.2.1 x hx).1, by simp, fun hk' => ?_⟩, fun x hx => ⟨by simp, fun hk' => ?_⟩, by simp⟩
      · have n1 := nd.2.1 x hx
        rcases hk x hk' with h | h
        · exact n1.2.1 h
        · exact n1.2.2 h
      · have n1 := nd.2.2.1 x hx
        rcases hk x hk' with h | h
        · exact n1.1 h
        · exact n1.2 h
  · have hne : l ≠ [] := by simp [hl]
    rw [← hl]
    have hids : List.range' s.next l.length = s.next :: List.range' (s.next + 1) l'.length := by
      rw [hl, List.length_cons, List.range'_succ]
    have hops : (particles l s).1 = s.ps.dropLast.map .drop ++ startSpecies l s.next ++ dropVar kept ++
        (List.range' s.next l.length).map .wait := by
      unfold particles
      simp only [hids, ← hkept]
      simp
    have hst : (particles l s).2 = { s with ps := List.range' s.next l.length, h := none, next := s.next + l.length } := by
      unfold particles
      simp only [hids]
      simp
    rw [hops, hst]
    have kv : ∀ x, kept = some x → x ∈ s.vars := by
      intro x hx
      rw [mem_vars]
      rcases hk x hx with h | h <;> simp [h]
    have h2 := h1.dropVar kept (by
      intro x hx; simp [hx])
    have hge : ∀ x ∈ List.range' s.next l.length, s.next ≤ x := fun x hx => by
      simp only [List.mem_range'_1] at hx; exact hx.1
    have h3 := h2.waits (List.range' s.next l.length) List.nodup_range' (by
      intro x hx
      simp only [Finset.mem_sdiff, Finset.mem_union, List.mem_toFinset, Option.mem_toFinset, Option.mem_def]
      refine ⟨.inr hx, fun h => ?_⟩
      have := hlt x (by simp [kv x h]); have := hge x hx; omega)
    have hev : ∀ x, s.e = some x → x < s.next := fun x hx => hlt x (by simp [mem_vars, hx])
    have hbv : ∀ x, s.b = some x → x < s.next := fun x hx => hlt x (by simp [mem_vars, hx])
    refine ⟨h3.congr (by simp) (fun x => ?_) (fun x => ?_) rfl, ?_, by simp⟩
    · have g := hge x
      have hh : s.handle = some x → x < s.next := fun h => hlt x (by simp [h])
      have hd := hdj x
      have hk' := kv x
      simp only [Finset.mem_sdiff, Finset.mem_union, List.mem_toFinset, Option.mem_toFinset, Option.mem_def]
      constructor
      · tauto
      · intro h
        have := hh h
        exact ⟨⟨.inl h, fun h' => hd h (hk' h')⟩, fun h' => by have := g h'; omega⟩
    · simp only [Finset.mem_sdiff, Finset.mem_union, List.mem_toFinset, Option.mem_toFinset, Option.mem_def, mem_vars]
      have n1 := nd.2.1 x
      have n2 := nd.2.2.1 x
      have hk' := hk x
      constructor
      · tauto
      · rintro (h | h | h | h)
        · exact .inl ⟨.inl (.inl h), fun h' => by have := n1 h; have := hk' h'; tauto⟩
        · exact .inl ⟨.inl (.inr h), fun h' => by have := n2 h; have := hk' h'; tauto⟩
        · exact .inr h
        · simp at h
    · rw [vars_nodup]
      refine ⟨List.nodup_range', fun x hx => ⟨(nd.2.1 x hx).1, fun h => ?_, by simp⟩, fun x hx => ⟨fun h => ?_, by simp⟩, by simp⟩
      · have := hge x h; have := hev x hx; omega
      · have := hge x h; have := hbv x hx; omega

theorem inv_breakParticles {hist : List (Op A)} {s : Sim} (i : SimInv hist s) (l : List (SpeciesArgs A))
    (hf : SpeciesFit hist (CurrentsUse hist s) l) :
    SimInv (hist ++ (emit 2 s (.breakParticles l)).1) (emit 2 s (.breakParticles l)).2 := by
  have h1 := inv_starts i l hf
  have nd := (vars_nodup s).1 i.nodup
  have hk : ∀ x, (s.ps.getLast?.orElse fun _ => s.h) = some x → x ∈ s.ps ∨ s.h = some x := fun x h => kept_facts i h
  have hlt : ∀ x, x ∈ s.handle.toFinset ∪ s.vars.toFinset → x < s.next := fun x hx => i.st.lt hx
  have hdj : ∀ x, s.handle = some x → x ∉ s.vars := fun x hx h => i.st.disj (x := x) (by simp [hx]) (by simp [h])
  set kept := s.ps.getLast?.orElse fun _ => s.h with hkept
  set s2 : Sim := { s with
    ps := List.range' s.next l.length
    h := kept
    next := s.next + l.length } with hs2
  have hem : emit 2 s (.breakParticles l) = (s.ps.dropLast.map .drop ++ startSpecies l s.next ++ (leave s2 : List (Op A) × Sim).1,
      (leave s2 : List (Op A) × Sim).2) := rfl
  have hge : ∀ x ∈ List.range' s.next l.length, s.next ≤ x := fun x hx => by
    simp only [List.mem_range'_1] at hx; exact hx.1
  have kv : ∀ x, kept = some x → x ∈ s.vars := by
    intro x hx
    rw [mem_vars]
    rcases hk x hx with h | h <;> simp [h]
  have hev : ∀ x, x ∈ s.vars → x < s.next := fun x hx => hlt x (by simp [hx])
  have nd2 : s2.vars.Nodup := by
    rw [vars_nodup]
    refine ⟨List.nodup_range', fun x hx => ⟨(nd.2.1 x hx).1, fun h => ?_, fun h => ?_⟩, fun x hx => ⟨fun h => ?_, fun h => ?_⟩,
      fun x hx h => ?_⟩
    · have := hge x h; have := hev x (mem_vars.2 (.inl hx)); omega
    · have := nd.2.1 x hx; have := hk x h; tauto
    · have := hge x h; have := hev x (mem_vars.2 (.inr (.inl hx))); omega
    · have := nd.2.2.1 x hx; have := hk x h; tauto
    · have := hge x h; have := hev x (kv x hx); omega
  have e : (leave s2 : List (Op A) × Sim).1 = s2.vars.map .drop := by
    unfold leave Sim.vars
    have : ∀ v : Option Nat, (dropVar v : List (Op A)) = v.toList.map .drop := by intro v; cases v <;> rfl
    simp [this]
  rw [hem, e]
  have mv : ∀ x, x ∈ s2.vars ↔ s.e = some x ∨ s.b = some x ∨ x ∈ List.range' s.next l.length ∨ kept = some x := fun x => mem_vars
  have h2 := h1.drops s2.vars nd2 (by
    intro x hx
    rw [mv] at hx
    simp only [Finset.mem_union, List.mem_toFinset, Option.mem_toFinset, Option.mem_def]
    tauto)
  refine ⟨h2.congr (by simp) (fun x => ?_) (fun x => ?_) rfl, by simp [leave, Sim.vars], by simp [leave]⟩
  · show _ ↔ x ∈ s.handle.toFinset
    simp only [Finset.mem_sdiff, Finset.mem_union, List.mem_toFinset, Option.mem_toFinset, Option.mem_def, mv]
    constructor
    · tauto
    · intro h
      have hd := hdj x h
      have hk' := kv x
      have h4 := hlt x (by simp [h])
      have hg := hge x
      rw [mem_vars] at hd
      refine ⟨.inl h, ?_⟩
      rintro (h5 | h5 | h5 | h5)
      · exact hd (.inl h5)
      · exact hd (.inr (.inl h5))
      · have := hg h5; omega
      · exact hdj x h (hk' h5)
  · simp only [Finset.mem_sdiff, Finset.mem_union, List.mem_toFinset, Option.mem_toFinset, Option.mem_def, mv]
    simp only [leave, Sim.vars]
    simp
    tauto

/-- every call with fitting arguments keeps the invariant -/
theorem inv_emit {hist : List (Op A)} {s : Sim} (i : SimInv hist s) (ranks : Nat) (c : Call A) (hf : Fits hist s c) :
    SimInv (hist ++ (emit ranks s c).1) (emit ranks s c).2 := by
  cases c with
  | deposit => exact ⟨by simp only [emit, List.append_nil]; exact i.st, i.nodup, i.one⟩
  | currentsStart c => exact inv_currentsStart i ranks c hf
  | currentsWait => exact inv_currentsWait i
  | currents c =>
    simp only [emit]
    split
    · simpa using i
    · have := inv_currentsWait (inv_currentsStart i ranks c hf)
      rw [List.append_assoc] at this
      exact this
  | guardE g =>
    simp only [emit]
    split
    · simpa using i
    · exact inv_guard i g _ _ hf (.inl ⟨rfl, rfl⟩)
  | guardB g =>
    simp only [emit]
    split
    · simpa using i
    · exact inv_guard i g _ _ hf (.inr ⟨rfl, rfl⟩)
  | guardOnce g =>
    simp only [emit]
    split
    · simpa using i
    · exact inv_guardOnce i g hf
  | particles l =>
    simp only [emit]
    split
    · simpa using i
    · exact inv_particles i l hf
  | arrays new gone =>
    have h1 := (i.st.gone gone (by
      intro a ha id hid k hk hu
      exact hf a ha ⟨id, k, by simpa using hid, hk, hu⟩)).news new
    exact ⟨by simpa [emit] using h1, i.nodup, i.one⟩
  | leave => exact inv_leave i.st i.nodup rfl
  | breakGuard g =>
    simp only [emit]
    split
    · exact inv_leave i.st i.nodup rfl
    · have i' := inv_breakGuard i g hf
      have := inv_leave i'.st i'.nodup rfl
      rw [List.append_assoc] at this
      exact this
  | breakParticles l =>
    by_cases h1 : ranks = 1
    · subst h1
      exact inv_leave i.st i.nodup rfl
    · have : emit ranks s (.breakParticles l) = emit 2 s (.breakParticles l) := by
        simp only [emit]
        rw [if_neg h1, if_neg (by omega)]
      rw [this]
      exact inv_breakParticles i l hf

theorem emits_snoc (ranks : Nat) (calls : List (Call A)) (c : Call A) :
    emits ranks (calls ++ [c]) = ((emits ranks calls).1 ++ (emit ranks (emits ranks calls).2 c).1,
      (emit ranks (emits ranks calls).2 c).2) := by
  unfold emits
  rw [List.foldl_append]
  rfl

theorem inv_emits (ranks : Nat) (calls : List (Call A)) (h : FitsAll ranks calls) :
    SimInv (emits ranks calls).1 (emits ranks calls).2 := by
  induction calls using List.reverseRecOn with
  | nil => exact simInv_init
  | append_singleton calls c ih =>
    rw [emits_snoc]
    exact inv_emit (ih fun pre x post e => h pre x (post ++ [c]) (by simp [e])) ranks c (h calls c [] rfl)

end Verif.Capsule
