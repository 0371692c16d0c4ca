import Verif.Proofs.Restart
import Mathlib.Data.List.Induction
/-!
# C34, C35 — checkpoints

Specification: a checkpoint is `Complete` if its directory exists and every rank can load its shard, all of the same dump.
-/
namespace Verif.Restart

/-- every one of the `R` ranks can load from `t`, and all get the state of the same dump -/
def Complete (R : Nat) (d : Disk) (t : Nat) : Prop := ∃ s, ∀ r < R, load d t r = some s

theorem load_eq {d : Disk} {t r s : Nat} : load d t r = some s ↔ t ∈ d.dirs ∧ d.shard t r = some (.whole s) := by
  unfold load
  by_cases h : t ∈ d.dirs
  · rw [if_pos h]
    cases hs : d.shard t r with
    | none => simp
    | some x => cases x <;> simp [h]
  · rw [if_neg h]; simp [h]

theorem load_congr {d d' : Disk} {t : Nat} (h : (t ∈ d'.dirs ↔ t ∈ d.dirs) ∧ ∀ r, d'.shard t r = d.shard t r) (r : Nat) :
    load d' t r = load d t r := by
  unfold load
  rw [h.2]
  by_cases hm : t ∈ d.dirs
  · rw [if_pos hm, if_pos (h.1.mpr hm)]
  · rw [if_neg hm, if_neg fun x => hm (h.1.mp x)]

/-- which directories a dump deletes -/
def doomed (keep : Option Int) (dirs : List Nat) : List Nat :=
  match keep with
  | some n => if 0 < n then toDelete n.toNat dirs else []
  | none => []

theorem deletions_eq (keep : Option Int) (files : Nat → List Nat) (dirs : List Nat) :
    deletions keep files dirs = (doomed keep dirs).flatMap (deleteDir files) := by
  cases keep with
  | none => rfl
  | some n =>
    unfold deletions doomed
    by_cases h : 0 < n
    · dsimp only; rw [if_pos h, if_pos h]
    · dsimp only; rw [if_neg h, if_neg h]; rfl

theorem mem_doomed {keep : Option Int} {dirs : List Nat} (h : ∀ t ∈ dirs, t < 10 ^ 6) (hn : dirs.Nodup) (t : Nat) :
    t ∈ doomed keep dirs ↔ t ∈ dirs ∧ ∃ n : Int, keep = some n ∧ 0 < n ∧ n ≤ (dirs.filter (t < ·)).length := by
  cases keep with
  | none => simp [doomed]
  | some n =>
    unfold doomed
    by_cases hp : 0 < n
    · dsimp only
      rw [if_pos hp, mem_toDelete h hn]
      constructor
      · rintro ⟨h1, h2⟩
        exact ⟨h1, n, rfl, hp, by omega⟩
      · rintro ⟨h1, m, h2, _, h3⟩
        cases h2
        exact ⟨h1, by omega⟩
    · dsimp only
      rw [if_neg hp]
      constructor
      · intro h; cases h
      · rintro ⟨_, m, h2, h3, _⟩
        cases h2
        exact absurd h3 hp

theorem after_writes {R t s : Nat} {w : List FsOp} (hw : Writes R t s w) (d : Disk) :
    (execs (.mkdir t :: w) d).dirs = (exec d (.mkdir t)).dirs ∧
    (∀ r < R, load (execs (.mkdir t :: w) d) t r = some s) ∧
    ∀ a, a ≠ t → ∀ r, load (execs (.mkdir t :: w) d) a r = load d a r := by
  have hd : (execs (.mkdir t :: w) d).dirs = (exec d (.mkdir t)).dirs := hw.dirs (fun _ h => h) _
  refine ⟨hd, fun r hr => ?_, fun a ha r => ?_⟩
  · rw [load_eq, hd]
    exact ⟨mem_mkdir.mpr (Or.inl rfl), hw.done _ hr⟩
  · refine load_congr (execs_frame fun op ho => ?_) r
    rcases List.mem_cons.mp ho with rfl | ho
    · exact Ne.symm ha
    · obtain ⟨_, _, e | e⟩ := hw.mem.mp ho <;> rw [e] <;> exact Ne.symm ha

/-- **C34, one dump.** After a dump at step `t` the new checkpoint is complete if it is kept, a directory is kept exactly
if fewer than `keep` directories of later steps exist (all are kept if `keep` is `None` or not positive), and
the checkpoints that are kept are not altered. All steps below 10^6. -/
theorem dump_keeps {R : Nat} {keep : Option Int} {t s : Nat} {d : Disk} {ops : List FsOp} (h : Dump R keep t s d ops)
    (hn : d.dirs.Nodup) (hlt : ∀ a ∈ d.dirs, a < 10 ^ 6) (ht : t < 10 ^ 6) :
    ∀ d', d' = execs ops d → ∀ all : List Nat, (∀ a, a ∈ all ↔ a = t ∨ a ∈ d.dirs) → all.Nodup →
      d'.dirs.Nodup ∧
      (∀ a, a ∈ d'.dirs ↔ a ∈ all ∧ ∀ n : Int, keep = some n → 0 < n → (all.filter (a < ·)).length < n) ∧
      (t ∈ d'.dirs → ∀ r < R, load d' t r = some s) ∧
      ∀ a ∈ d'.dirs, a ≠ t → ∀ r, load d' a r = load d a r := by
  rintro d' rfl all hall hndall
  obtain ⟨w, files, hw, _, rfl⟩ := h
  obtain ⟨h1, h2, h3⟩ := after_writes hw d
  rw [deletions_eq, execs_append]
  have hn1 : (execs (.mkdir t :: w) d).dirs.Nodup := execs_nodup hn _
  have hm1 : ∀ a, a ∈ (execs (.mkdir t :: w) d).dirs ↔ a ∈ all := by
    intro a; rw [h1, mem_mkdir, hall]
  have hlt1 : ∀ a ∈ (execs (.mkdir t :: w) d).dirs, a < 10 ^ 6 := by
    intro a ha
    rcases (hall a).mp ((hm1 a).mp ha) with rfl | ha
    · exact ht
    · exact hlt a ha
  generalize execs (.mkdir t :: w) d = d1 at h1 h2 h3 hn1 hm1 hlt1
  have hperm : d1.dirs.Perm all := (List.perm_ext_iff_of_nodup hn1 hndall).mpr hm1
  have hcount : ∀ a, (d1.dirs.filter (a < ·)).length = (all.filter (a < ·)).length :=
    fun a => (hperm.filter _).length_eq
  have hD := fun a => mem_doomed (keep := keep) hlt1 hn1 a
  have hframe : ∀ a, a ∉ doomed keep d1.dirs → ∀ op ∈ (doomed keep d1.dirs).flatMap (deleteDir files), op.dir ≠ a :=
    fun a ha op ho e => ha (e ▸ (gc_dir ho).1)
  have hmem : ∀ a, a ∈ (execs ((doomed keep d1.dirs).flatMap (deleteDir files)) d1).dirs ↔
      a ∈ all ∧ a ∉ doomed keep d1.dirs := by
    intro a
    by_cases ha : a ∈ doomed keep d1.dirs
    · exact ⟨fun x => absurd x (gc_gone hn1 ha), fun x => absurd ha x.2⟩
    · rw [(execs_frame (hframe a ha)).1, hm1]
      exact ⟨fun x => ⟨x, ha⟩, fun x => x.1⟩
  refine ⟨execs_nodup hn1 _, fun a => ?_, fun htd r hr => ?_, fun a ha hne r => ?_⟩
  · rw [hmem, hD, hm1, hcount]
    constructor
    · rintro ⟨ha, hx⟩
      refine ⟨ha, fun n hk hp => ?_⟩
      by_contra hc
      exact hx ⟨ha, n, hk, hp, by omega⟩
    · rintro ⟨ha, hx⟩
      refine ⟨ha, ?_⟩
      rintro ⟨_, n, hk, hp, hle⟩
      have := hx n hk hp
      omega
  · rw [load_congr (execs_frame (hframe t ((hmem t).mp htd).2)) r]
    exact h2 r hr
  · rw [load_congr (execs_frame (hframe a ((hmem a).mp ha).2)) r]
    exact h3 a hne r

/-- all dumps of a run at steps `ts`, numbered from 0, starting with an empty directory -/
inductive Dumps (R : Nat) (keep : Option Int) : List Nat → Disk → Prop
  | nil : Dumps R keep [] ⟨[], fun _ _ => none⟩
  | snoc {ts d t ops} : Dumps R keep ts d → Dump R keep t ts.length d ops → Dumps R keep (ts ++ [t]) (execs ops d)

/-- **C34.** Dumps at increasing steps below 10^6 with `keep = n > 0`: exactly the last `n` are on disk, each of them is
complete on every rank, and `load` returns the state saved by the dump of that step.

Partial: for other histories the claim is false, see `rotation_deletes_newest_fails` and
`rotation_after_rollback_fails`. -/
theorem rotation_keeps_newest_partial {R : Nat} {n : Int} (hn : 0 < n) {ts : List Nat} {d : Disk}
    (h : Dumps R (some n) ts d) (hinc : ts.Pairwise (· < ·)) (hlt : ∀ t ∈ ts, t < 10 ^ 6) :
    d.dirs.Perm (ts.drop (ts.length - n.toNat)) ∧
    ∀ i, (hi : i < ts.length) → ts.length - n.toNat ≤ i → ∀ r < R, load d ts[i] r = some i := by
  induction h with
  | nil => exact ⟨by simp, fun i hi => absurd hi (by simp)⟩
  | @snoc ts d t ops _ hd ih =>
    rw [List.pairwise_append] at hinc
    obtain ⟨hinc1, _, hinc2⟩ := hinc
    obtain ⟨ih1, ih2⟩ := ih hinc1 fun a ha => hlt a (by simp [ha])
    have hnd : ts.Nodup := hinc1.imp fun h => Nat.ne_of_lt h
    have hsub : ∀ a ∈ d.dirs, a ∈ ts := fun a ha => List.mem_of_mem_drop (ih1.mem_iff.mp ha)
    have hdn : d.dirs.Nodup := ih1.nodup_iff.mpr (hnd.sublist (List.drop_sublist _ _))
    have hlast : ∀ a ∈ ts, a < t := fun a ha => hinc2 a ha t (by simp)
    have htn : t ∉ d.dirs := fun hm => Nat.lt_irrefl _ (hlast t (hsub t hm))
    -- all directories before deleting, in the order of time
    have hall : ∀ a, a ∈ ts.drop (ts.length - n.toNat) ++ [t] ↔ a = t ∨ a ∈ d.dirs := by
      intro a; rw [List.mem_append, List.mem_singleton, ih1.mem_iff, or_comm]
    have hsorted : (ts.drop (ts.length - n.toNat) ++ [t]).Pairwise (· < ·) := by
      rw [List.pairwise_append]
      refine ⟨hinc1.sublist (List.drop_sublist _ _), by simp, ?_⟩
      intro a ha b hb
      rw [List.mem_singleton.mp hb]
      exact hlast a (List.mem_of_mem_drop ha)
    have hallnd : (ts.drop (ts.length - n.toNat) ++ [t]).Nodup := hsorted.imp fun h => Nat.ne_of_lt h
    obtain ⟨k1, k2, k3, k4⟩ := dump_keeps hd hdn (fun a ha => hlt a (by simp [hsub a ha])) (hlt t (by simp)) _ rfl _
      hall hallnd
    have hdrop : (ts ++ [t]).drop ((ts ++ [t]).length - n.toNat) =
        (ts.drop (ts.length - n.toNat) ++ [t]).drop ((ts.drop (ts.length - n.toNat) ++ [t]).length - n.toNat) := by
      by_cases hle : ts.length < n.toNat
      · have e1 : ts.length - n.toNat = 0 := by omega
        have e2 : (ts ++ [t]).length - n.toNat = 0 := by simp; omega
        rw [e1, List.drop_zero]
      · have e1 : ts.drop (ts.length - n.toNat) ++ [t] = (ts ++ [t]).drop (ts.length - n.toNat) := by
          rw [List.drop_append_of_le_length (by omega)]
        rw [e1, List.drop_drop, List.length_drop]
        congr 1
        simp; omega
    have hmem : ∀ a, a ∈ (execs ops d).dirs ↔ a ∈ (ts ++ [t]).drop ((ts ++ [t]).length - n.toNat) := by
      intro a
      rw [k2, hdrop]
      generalize ts.drop (ts.length - n.toNat) ++ [t] = L at hsorted
      constructor
      · rintro ⟨ha, hx⟩
        obtain ⟨i, hi, e⟩ := List.mem_iff_getElem.mp ha
        have hx := hx n rfl hn
        rw [← e, filter_larger hsorted i hi] at hx
        refine List.mem_iff_getElem.mpr ⟨i - (L.length - n.toNat), ?_, ?_⟩
        · rw [List.length_drop]; omega
        · rw [List.getElem_drop]
          have : L.length - n.toNat + (i - (L.length - n.toNat)) = i := by omega
          rw [← e]; congr 1
      · intro ha
        refine ⟨List.mem_of_mem_drop ha, ?_⟩
        intro n' hn' _
        cases hn'
        obtain ⟨i, hi, e⟩ := List.mem_iff_getElem.mp ha
        rw [List.length_drop] at hi
        rw [List.getElem_drop] at e
        rw [← e, filter_larger hsorted _ (by omega)]
        omega
    have hnd' : (ts ++ [t]).Nodup := by
      rw [List.nodup_append]
      exact ⟨hnd, by simp, fun a ha b hb => by rw [List.mem_singleton.mp hb]; exact Nat.ne_of_lt (hlast a ha)⟩
    refine ⟨(List.perm_ext_iff_of_nodup k1 (hnd'.sublist (List.drop_sublist _ _))).mpr hmem, ?_⟩
    intro i hi hle r hr
    have hin : (ts ++ [t])[i] ∈ (execs ops d).dirs := by
      rw [hmem]
      refine List.mem_iff_getElem.mpr ⟨i - ((ts ++ [t]).length - n.toNat), ?_, ?_⟩
      · rw [List.length_drop]; omega
      · rw [List.getElem_drop]
        congr 1; omega
    have hlen : (ts ++ [t]).length = ts.length + 1 := by simp
    by_cases hil : i < ts.length
    · have e : (ts ++ [t])[i] = ts[i] := List.getElem_append_left hil
      rw [e] at hin ⊢
      rw [k4 _ hin (Nat.ne_of_lt (hlast _ (List.getElem_mem hil))) r]
      exact ih2 i hil (by omega) r hr
    · have hi' : i = ts.length := by omega
      subst hi'
      have e : (ts ++ [t])[ts.length] = t := by simp
      rw [e] at hin ⊢
      exact k3 hin r hr

/-! ### crashes -/

/-- **C35, one dump.** The dump of step `t` is killed after any of its system calls, `R` ranks interleaved in any way.
If no later directory exists and some checkpoint of another step was complete, then at that moment it still is, unaltered,
or the new one is complete. -/
theorem crash_safe {R : Nat} {keep : Option Int} {t s : Nat} {d : Disk} {ops : List FsOp} (h : Dump R keep t s d ops)
    (hn : d.dirs.Nodup) (ht : t < 10 ^ 6) (hle : ∀ a ∈ d.dirs, a ≤ t) {c : Nat} (hc : c ≠ t) (hcc : Complete R d c)
    {pre : List FsOp} (hpre : pre <+: ops) :
    (∀ r, load (execs pre d) c r = load d c r) ∨ ∀ r < R, load (execs pre d) t r = some s := by
  obtain ⟨w, files, hw, _, rfl⟩ := h
  rw [deletions_eq] at hpre
  obtain ⟨suf, hsuf⟩ := hpre
  rcases List.append_eq_append_iff.mp hsuf with ⟨x, hx, _⟩ | ⟨x, hx, hx2⟩
  · -- killed while writing
    left
    intro r
    refine load_congr (execs_frame fun op ho => ?_) r
    have ho' : op ∈ FsOp.mkdir t :: w := by rw [hx]; exact List.mem_append_left _ ho
    rcases List.mem_cons.mp ho' with rfl | ho'
    · exact Ne.symm hc
    · obtain ⟨_, _, e | e⟩ := hw.mem.mp ho' <;> rw [e] <;> exact Ne.symm hc
  · -- killed while deleting
    right
    intro r hr
    obtain ⟨h1, h2, _⟩ := after_writes hw d
    rw [hx, execs_append, load_congr (d := execs (.mkdir t :: w) d) _ r]
    · exact h2 r hr
    · refine execs_frame fun op ho => ?_
      have ho' : op ∈ (doomed keep (execs (.mkdir t :: w) d).dirs).flatMap (deleteDir files) := by
        rw [hx2]; exact List.mem_append_left _ ho
      have hd := (gc_dir ho').1
      have hle1 : ∀ a ∈ (execs (.mkdir t :: w) d).dirs, a ≤ t := by
        intro a ha
        rw [h1, mem_mkdir] at ha
        rcases ha with rfl | ha
        · exact Nat.le_refl _
        · exact hle a ha
      intro e
      rw [e, mem_doomed (fun a ha => Nat.lt_of_le_of_lt (hle1 a ha) ht) (execs_nodup hn _)] at hd
      obtain ⟨_, n, _, hp, hx⟩ := hd
      have : (execs (.mkdir t :: w) d).dirs.filter (t < ·) = [] := by
        apply List.filter_eq_nil_iff.mpr
        intro a ha hlt
        have := hle1 a ha
        simp at hlt
        omega
      rw [this] at hx
      simp at hx
      omega

/-- the newest complete checkpoint, if there is one -/
def Newest (R : Nat) (d : Disk) : Option Nat → Prop
  | none => ∀ t, ¬ Complete R d t
  | some c => Complete R d c ∧ ∀ t, Complete R d t → t ≤ c

/-- the step of the next dump: `n` after the checkpoint the run was continued from, or the first step -/
def nextDump (n : Nat) : Option Nat → Nat
  | none => 0
  | some c => c + n

/-- a life with crashes: dumps every `n` steps (`interval=n`, first dump at step 0), each of them possibly killed after
any system call; after a crash the run is continued from the newest complete checkpoint, or from the beginning if there is
none. The second argument is the newest complete checkpoint. -/
inductive Life (R : Nat) (keep : Option Int) (n : Nat) : Disk → Option Nat → Prop
  | start : Life R keep n ⟨[], fun _ _ => none⟩ none
  | dump {d last s ops pre last'} : Life R keep n d last →
      (nextDump n last) < 10 ^ 6 →
      Dump R keep (nextDump n last) s d ops → pre <+: ops →
      Newest R (execs pre d) last' → Life R keep n (execs pre d) last'

theorem life_inv {R : Nat} {keep : Option Int} {n : Nat} (hn : 0 < n) {d : Disk} {last : Option Nat}
    (h : Life R keep n d last) : d.dirs.Nodup ∧ (∀ a ∈ d.dirs, a ≤ nextDump n last) ∧
    ∀ c, last = some c → Complete R d c := by
  induction h with
  | start => exact ⟨List.nodup_nil, fun a ha => by simp at ha, fun c hc => by cases hc⟩
  | @dump d last s ops pre last' hl ht hd hpre hnew ih =>
    obtain ⟨i1, i2, i3⟩ := ih
    have hsub : ∀ a ∈ (execs pre d).dirs, a ≤ nextDump n last := by
      intro a ha
      by_cases hat : a = nextDump n last
      · exact Nat.le_of_eq hat
      · -- only the directory of the dump is new
        have hops : ∀ op ∈ ops, op.dir ≠ a ∨ ∀ t, op ≠ .mkdir t := by
          obtain ⟨w, files, hw, _, rfl⟩ := hd
          intro op ho
          rcases List.mem_append.mp ho with ho | ho
          · left
            rcases List.mem_cons.mp ho with rfl | ho
            · exact Ne.symm hat
            · obtain ⟨_, _, e | e⟩ := hw.mem.mp ho <;> rw [e] <;> exact Ne.symm hat
          · right
            rw [deletions_eq] at ho
            exact (gc_dir ho).2
        have hstep : ∀ (l : List FsOp) (d : Disk), (∀ op ∈ l, op.dir ≠ a ∨ ∀ t, op ≠ .mkdir t) →
            a ∈ (execs l d).dirs → a ∈ d.dirs := by
          intro l
          induction l with
          | nil => exact fun d _ h => h
          | cons op l ih =>
            intro d hl ha
            have h1 := ih (exec d op) (fun o ho => hl o (by simp [ho])) ha
            rcases hl op (by simp) with h | h
            · exact (exec_frame h).1.mp h1
            · exact gc_subset (ops := [op]) (fun o ho => by rw [List.mem_singleton.mp ho]; exact h) d h1
        exact i2 a (hstep pre d (fun op ho => hops op (hpre.subset ho)) ha)
    refine ⟨execs_nodup i1 _, ?_, ?_⟩
    · intro a ha
      have h1 := hsub a ha
      cases last with
      | none =>
        cases last' with
        | none => exact h1
        | some c' => exact Nat.le_trans h1 (Nat.zero_le _)
      | some c =>
        have hcc := i3 c rfl
        have := crash_safe hd i1 ht i2 (c := c) (by show c ≠ c + n; omega) hcc hpre
        have hlater : ∃ c'', c ≤ c'' ∧ Complete R (execs pre d) c'' := by
          rcases this with h | h
          · obtain ⟨s', hs'⟩ := hcc
            exact ⟨c, Nat.le_refl _, s', fun r hr => (h r).trans (hs' r hr)⟩
          · exact ⟨c + n, Nat.le_add_right _ _, s, h⟩
        obtain ⟨c'', h2, h3⟩ := hlater
        cases last' with
        | none => exact absurd h3 (hnew c'')
        | some c' =>
          have := hnew.2 c'' h3
          unfold nextDump at h1 ⊢
          dsimp only at h1 ⊢
          omega
    · rintro c rfl
      exact hnew.1

/-- **C35.** In every life with crashes, once a checkpoint is complete there is a complete checkpoint, at least as new, at
every later moment: whichever system call of the next dump is the last one before the crash.

Partial: dumps every `n` steps, continued from the newest complete checkpoint, steps below 10^6; for other lives the claim is
false, see `crash_then_rotation_fails` and `crash_while_overwriting_fails`. -/
theorem never_without_checkpoint_partial {R : Nat} {keep : Option Int} {n : Nat} (hn : 0 < n) {d : Disk} {c : Nat}
    (h : Life R keep n d (some c)) {s : Nat} {ops pre : List FsOp} (ht : c + n < 10 ^ 6)
    (hd : Dump R keep (c + n) s d ops) (hpre : pre <+: ops) :
    ∃ c', c ≤ c' ∧ Complete R (execs pre d) c' := by
  obtain ⟨i1, i2, i3⟩ := life_inv hn h
  have hcc := i3 c rfl
  rcases crash_safe hd i1 ht i2 (c := c) (by omega) hcc hpre with h | h
  · obtain ⟨s', hs'⟩ := hcc
    exact ⟨c, Nat.le_refl _, s', fun r hr => (h r).trans (hs' r hr)⟩
  · exact ⟨c + n, Nat.le_add_right _ _, s, h⟩

/-! ### executions exist -/

/-- one rank after the other -/
def seqWrites (R t s : Nat) : List FsOp := (List.range R).flatMap fun r => [.create t r, .finish t r s]

theorem seqWrites_ok (R t s : Nat) : Writes R t s (seqWrites R t s) := by
  refine ⟨List.Perm.refl _, ?_⟩
  intro l1 l2 r h
  unfold seqWrites at h
  induction R generalizing l2 with
  | zero => simp at h
  | succ R ih =>
    rw [List.range_succ, List.flatMap_append] at h
    rcases List.append_eq_append_iff.mp h with ⟨x, hx, hx2⟩ | ⟨x, hx, hx2⟩
    · -- the last rank
      rw [hx]
      match x, hx2 with
      | [], h2 => simp at h2
      | [a], h2 =>
        simp at h2
        obtain ⟨e1, e2, _⟩ := h2
        subst e1; subst e2
        simp
      | a :: b :: x, h2 => simp at h2
    · cases x with
      | nil =>
        simp at hx2
      | cons y x =>
        have hy : y = .finish t r s := by
          have := hx2; simp at this; exact this.1.symm
        rw [hy] at hx
        exact ih _ hx

/-- the system calls of `_call`, one rank after the other; files are deleted in the order of the ranks -/
def dumpOps (R : Nat) (keep : Option Int) (t s : Nat) (files : List Nat) (d : Disk) : List FsOp :=
  .mkdir t :: seqWrites R t s ++
    deletions keep (fun _ => files) (execs (.mkdir t :: seqWrites R t s) d).dirs

/-- every file on disk belongs to a rank in `files` -/
def In (files : List Nat) (d : Disk) : Prop := ∀ a r, d.shard a r ≠ none → r ∈ files

theorem exec_in {files : List Nat} {d : Disk} (h : In files d) {op : FsOp} (h1 : ∀ t r, op = .create t r → r ∈ files)
    (h2 : ∀ t r s, op = .finish t r s → r ∈ files) : In files (exec d op) := by
  intro a r hr
  by_cases hs : d.shard a r = none
  · cases op with
    | mkdir t =>
      rw [exec_mkdir] at hr
      by_cases hm : t ∈ d.dirs
      · rw [if_pos hm] at hr; exact h a r hr
      · rw [if_neg hm] at hr
        have hr : (if a = t then none else d.shard a r) ≠ none := hr
        rw [hs] at hr; simp at hr
    | create t b =>
      have hr : (if a = t ∧ r = b then some .torn else d.shard a r) ≠ none := hr
      by_cases hc : a = t ∧ r = b
      · exact hc.2 ▸ h1 t b rfl
      · rw [if_neg hc] at hr; exact h a r hr
    | finish t b s =>
      have hr : (if a = t ∧ r = b then some (.whole s) else d.shard a r) ≠ none := hr
      by_cases hc : a = t ∧ r = b
      · exact hc.2 ▸ h2 t b s rfl
      · rw [if_neg hc] at hr; exact h a r hr
    | unlink t b =>
      have hr : (if a = t ∧ r = b then none else d.shard a r) ≠ none := hr
      rw [hs] at hr; simp at hr
    | rmdir t => exact h a r hr
  · exact h a r hs

theorem execs_in {files : List Nat} {ops : List FsOp} (h1 : ∀ t r, .create t r ∈ ops → r ∈ files)
    (h2 : ∀ t r s, .finish t r s ∈ ops → r ∈ files) {d : Disk} (h : In files d) : In files (execs ops d) := by
  induction ops generalizing d with
  | nil => exact h
  | cons op ops ih =>
    refine ih (fun t r hm => h1 t r (by simp [hm])) (fun t r s hm => h2 t r s (by simp [hm])) (exec_in h ?_ ?_)
    · rintro t r rfl; exact h1 t r (by simp)
    · rintro t r s rfl; exact h2 t r s (by simp)

theorem dumpOps_files {R : Nat} {keep : Option Int} {t s : Nat} {d : Disk} :
    (∀ a r, .create a r ∈ dumpOps R keep t s (List.range R) d → r ∈ List.range R) ∧
    ∀ a r x, .finish a r x ∈ dumpOps R keep t s (List.range R) d → r ∈ List.range R := by
  have hg : ∀ op ∈ dumpOps R keep t s (List.range R) d, op = .mkdir t ∨ op ∈ seqWrites R t s ∨
      (∃ a r, op = .unlink a r) ∨ ∃ a, op = .rmdir a := by
    intro op ho
    unfold dumpOps at ho
    rw [deletions_eq] at ho
    rcases List.mem_append.mp ho with ho | ho
    · rcases List.mem_cons.mp ho with ho | ho
      · exact Or.inl ho
      · exact Or.inr (Or.inl ho)
    · obtain ⟨a, _, ho⟩ := List.mem_flatMap.mp ho
      unfold deleteDir at ho
      rcases List.mem_append.mp ho with ho | ho
      · obtain ⟨r, _, rfl⟩ := List.mem_map.mp ho
        exact Or.inr (Or.inr (Or.inl ⟨a, r, rfl⟩))
      · exact Or.inr (Or.inr (Or.inr ⟨a, List.mem_singleton.mp ho⟩))
  constructor
  · intro a r hm
    rcases hg _ hm with e | hw | ⟨_, _, e⟩ | ⟨_, e⟩
    · cases e
    · obtain ⟨r', hr, e | e⟩ := (seqWrites_ok R t s).mem.mp hw <;> cases e
      exact List.mem_range.mpr hr
    · cases e
    · cases e
  · intro a r x hm
    rcases hg _ hm with e | hw | ⟨_, _, e⟩ | ⟨_, e⟩
    · cases e
    · obtain ⟨r', hr, e | e⟩ := (seqWrites_ok R t s).mem.mp hw <;> cases e
      exact List.mem_range.mpr hr
    · cases e
    · cases e

theorem dumpOps_ok {R : Nat} {keep : Option Int} {t s : Nat} {d : Disk} (h : In (List.range R) d) :
    Dump R keep t s d (dumpOps R keep t s (List.range R) d) ∧
      ∀ pre, pre <+: dumpOps R keep t s (List.range R) d → In (List.range R) (execs pre d) := by
  refine ⟨⟨seqWrites R t s, fun _ => List.range R, seqWrites_ok R t s, ?_, rfl⟩, ?_⟩
  · refine execs_in ?_ ?_ h
    · intro a r hm
      rcases List.mem_cons.mp hm with e | hw
      · cases e
      · obtain ⟨r', hr, e | e⟩ := (seqWrites_ok R t s).mem.mp hw <;> cases e
        exact List.mem_range.mpr hr
    · intro a r x hm
      rcases List.mem_cons.mp hm with e | hw
      · cases e
      · obtain ⟨r', hr, e | e⟩ := (seqWrites_ok R t s).mem.mp hw <;> cases e
        exact List.mem_range.mpr hr
  · intro pre hpre
    exact execs_in (fun a r hm => dumpOps_files.1 a r (hpre.subset hm))
      (fun a r x hm => dumpOps_files.2 a r x (hpre.subset hm)) h

/-- the disk after dumps one after the other -/
def seqDumps (R : Nat) (keep : Option Int) (ts : List Nat) : Disk :=
  (ts.foldl (fun (x : Nat × Disk) t => (x.1 + 1, execs (dumpOps R keep t x.1 (List.range R) x.2) x.2))
    (0, ⟨[], fun _ _ => none⟩)).2

theorem seqDumps_ok (R : Nat) (keep : Option Int) (ts : List Nat) :
    Dumps R keep ts (seqDumps R keep ts) ∧ In (List.range R) (seqDumps R keep ts) := by
  have main : (ts.foldl (fun (x : Nat × Disk) t => (x.1 + 1, execs (dumpOps R keep t x.1 (List.range R) x.2) x.2))
      (0, ⟨[], fun _ _ => none⟩)).1 = ts.length ∧ Dumps R keep ts (seqDumps R keep ts) ∧
      In (List.range R) (seqDumps R keep ts) := by
    induction ts using List.reverseRecOn with
    | nil => exact ⟨rfl, .nil, fun _ _ h => absurd rfl h⟩
    | append_singleton ts t ih =>
      obtain ⟨h1, h2, h3⟩ := ih
      unfold seqDumps
      rw [List.foldl_append]
      show _ + 1 = _ ∧ Dumps R keep (ts ++ [t]) (execs (dumpOps R keep t _ (List.range R) (seqDumps R keep ts))
        (seqDumps R keep ts)) ∧ In _ (execs (dumpOps R keep t _ (List.range R) (seqDumps R keep ts)) (seqDumps R keep ts))
      rw [h1]
      exact ⟨by simp, .snoc h2 (dumpOps_ok h3).1, (dumpOps_ok h3).2 _ List.prefix_rfl⟩
  exact main.2

/-- two ranks, `keep=2`, dumps at steps 0, 100, 200: the hypotheses of `rotation_keeps_newest_partial` are met -/
example : ∃ d, Dumps 2 (some 2) [0, 100, 200] d ∧ d.dirs = [200, 100] ∧ load d 200 1 = some 2 ∧ load d 0 0 = none :=
  ⟨_, (seqDumps_ok _ _ _).1, by decide +kernel, by decide +kernel, by decide +kernel⟩

/-- The claim fails from step 10^6 on: names are compared as strings, so the dump of step 1000000 counts as older
than that of step 999000 and is deleted by the very dump that wrote it. -/
theorem rotation_deletes_newest_fails : ∃ d, Dumps 1 (some 1) [999000, 1000000] d ∧ load d 1000000 0 = none ∧
    load d 999000 0 = some 0 :=
  ⟨_, (seqDumps_ok _ _ _).1, by decide +kernel, by decide +kernel⟩

/-- The claim fails when the run was continued from an older checkpoint: the new dump has a smaller step than those
left from before and is deleted by the very dump that wrote it. -/
theorem rotation_after_rollback_fails : ∃ d, Dumps 1 (some 1) [100, 300, 200] d ∧ load d 200 0 = none ∧
    load d 300 0 = some 1 :=
  ⟨_, (seqDumps_ok _ _ _).1, by decide +kernel, by decide +kernel⟩

/-- A life with a crash: the checkpoint of step 0 is complete, the dump of step 100 is killed after the first shard was
opened -/
example : ∃ d, Life 2 (some 1) 100 d (some 0) ∧ d.dirs = [100, 0] ∧ load d 100 0 = none ∧ load d 0 1 = some 0 := by
  have h1 := @dumpOps_ok 2 (some 1) 0 0 ⟨[], fun _ _ => none⟩ fun _ _ h => absurd rfl h
  have i1 := h1.2 _ List.prefix_rfl
  have h2 := @dumpOps_ok 2 (some 1) 100 1 _ i1
  have l1 : Life 2 (some 1) 100 (execs (dumpOps 2 (some 1) 0 0 (List.range 2) ⟨[], fun _ _ => none⟩)
      ⟨[], fun _ _ => none⟩) (some 0) := by
    refine .dump .start (by decide) h1.1 List.prefix_rfl ⟨⟨0, ?_⟩, ?_⟩
    · decide +kernel
    · rintro t ⟨s, hs⟩
      have := (load_eq.mp (hs 0 (by decide))).1
      have hd : (execs (dumpOps 2 (some 1) 0 0 (List.range 2) ⟨[], fun _ _ => none⟩) ⟨[], fun _ _ => none⟩).dirs = [0] := by
        decide +kernel
      rw [hd] at this
      simp at this; omega
  refine ⟨_, .dump l1 (by decide) h2.1 (List.take_prefix 2 _) ⟨⟨0, ?_⟩, ?_⟩, ?_, ?_, ?_⟩
  · decide +kernel
  · rintro t ⟨s, hs⟩
    have h := load_eq.mp (hs 0 (by decide))
    generalize hD : execs (List.take 2 (dumpOps 2 (some 1) 100 1 (List.range 2) _)) _ = D at h
    have hd : D.dirs = [100, 0] := by rw [← hD]; decide +kernel
    have hs : D.shard 100 0 = some .torn := by rw [← hD]; decide +kernel
    rw [hd] at h
    by_cases h100 : t = 100
    · rw [h100, hs] at h; cases h.2
    · have h := h.1
      simp [h100] at h; omega
  · decide +kernel
  · decide +kernel
  · decide +kernel

/-- The claim fails when a torn directory of a later step is left from a crash and the run, continued from an older
checkpoint, dumps at an earlier step (another interval, or a dump on a signal): deleting by name keeps the torn directory and
removes both complete checkpoints. -/
theorem crash_then_rotation_fails : ∃ (d1 d2 d3 : Disk) (ops2 ops3 : List FsOp), Dumps 1 (some 1) [200] d1 ∧
    Dump 1 (some 1) 300 1 d1 ops2 ∧ d2 = execs (ops2.take 2) d1 ∧ Complete 1 d2 200 ∧
    Dump 1 (some 1) 250 2 d2 ops3 ∧ d3 = execs ops3 d2 ∧ ∀ t, ¬ Complete 1 d3 t := by
  have i1 := seqDumps_ok 1 (some 1) [200]
  have h2 := @dumpOps_ok 1 (some 1) 300 1 _ i1.2
  have h3 := @dumpOps_ok 1 (some 1) 250 2 _ (h2.2 _ (List.take_prefix 2 _))
  refine ⟨_, _, _, _, _, i1.1, h2.1, rfl, ⟨0, by decide +kernel⟩, h3.1, rfl, ?_⟩
  rintro t ⟨s, hs⟩
  have h := load_eq.mp (hs 0 (by decide))
  generalize hD : execs (dumpOps 1 (some 1) 250 2 (List.range 1) _) _ = D at h
  have hd : D.dirs = [300] := by rw [← hD]; decide +kernel
  have hs : D.shard 300 0 = some .torn := by rw [← hD]; decide +kernel
  rw [hd, List.mem_singleton] at h
  rw [h.1, hs] at h; cases h.2

/-- The claim fails when the only complete checkpoint is dumped again at the same step (the run was started again in the same
directory): the shard is overwritten in place, and a crash right after it was opened leaves nothing. -/
theorem crash_while_overwriting_fails : ∃ (d1 d2 : Disk) (ops : List FsOp), Dumps 1 none [100] d1 ∧ Complete 1 d1 100 ∧
    Dump 1 none 100 1 d1 ops ∧ d2 = execs (ops.take 2) d1 ∧ ∀ t, ¬ Complete 1 d2 t := by
  have i1 := seqDumps_ok 1 none [100]
  have h2 := @dumpOps_ok 1 none 100 1 _ i1.2
  refine ⟨_, _, _, i1.1, ⟨0, by decide +kernel⟩, h2.1, rfl, ?_⟩
  rintro t ⟨s, hs⟩
  have h := load_eq.mp (hs 0 (by decide))
  generalize hD : execs (List.take 2 (dumpOps 1 none 100 1 (List.range 1) _)) _ = D at h
  have hd : D.dirs = [100] := by rw [← hD]; decide +kernel
  have hs : D.shard 100 0 = some .torn := by rw [← hD]; decide +kernel
  rw [hd, List.mem_singleton] at h
  rw [h.1, hs] at h; cases h.2

end Verif.Restart
