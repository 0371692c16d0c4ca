import Verif.Model.Restart
import Mathlib.Data.List.Lex
import Mathlib.Data.List.Nodup
import Mathlib.Data.List.Perm.Basic
/-! Lemmas on checkpoint names and disk operations. -/
namespace Verif.Restart

/-! ### names -/

theorem length_digits (w n : Nat) : (digits w n).length = w := by
  induction w generalizing n with
  | zero => rfl
  | succ w ih => rw [digits, List.length_append, ih]; rfl

theorem digitChar_lt : ∀ a < 10, ∀ b < 10, a < b → Nat.digitChar a < Nat.digitChar b := by decide

theorem digitChar_inj : ∀ a < 10, ∀ b < 10, Nat.digitChar a = Nat.digitChar b → a = b := by decide

theorem lex_append {r : Char → Char → Prop} {a b : List Char} (h : List.Lex r a b) (hl : a.length = b.length)
    (x y : List Char) : List.Lex r (a ++ x) (b ++ y) := by
  induction h with
  | nil => simp at hl
  | cons _ ih => exact .cons (ih (by simpa using hl))
  | rel h => exact .rel h

theorem digits_lt {w a b : Nat} (hb : b < 10 ^ w) (h : a < b) : digits w a < digits w b := by
  induction w generalizing a b with
  | zero => omega
  | succ w ih =>
    rw [digits, digits]
    rcases Nat.lt_or_ge (a / 10) (b / 10) with h1 | h1
    · exact lex_append (ih (by rw [Nat.pow_succ] at hb; omega) h1) (by rw [length_digits, length_digits]) _ _
    · have e : a / 10 = b / 10 := by omega
      rw [e]
      exact List.append_left_lt (List.Lex.rel (digitChar_lt _ (by omega) _ (by omega) (by omega)))

theorem digits_inj {w a b : Nat} (ha : a < 10 ^ w) (hb : b < 10 ^ w) (h : digits w a = digits w b) : a = b := by
  rcases Nat.lt_trichotomy a b with h1 | h1 | h1
  · exact absurd (h ▸ digits_lt hb h1) (List.lt_irrefl _)
  · exact h1
  · exact absurd (h ▸ digits_lt ha h1) (List.lt_irrefl _)

theorem lt_width (n : Nat) : n < 10 ^ max 6 (Nat.log 10 n + 1) :=
  Nat.lt_of_lt_of_le (Nat.lt_pow_succ_log_self (by decide) n) (Nat.pow_le_pow_right (by decide) (le_max_right _ _))

/-- different steps have different directories -/
theorem name_inj {a b : Nat} (h : name a = name b) : a = b := by
  have h1 : pad6 a = pad6 b := List.append_cancel_left h
  have h2 := congrArg List.length h1
  unfold pad6 at h1 h2
  rw [length_digits, length_digits] at h2
  rw [h2] at h1
  exact digits_inj (h2 ▸ lt_width a) (lt_width b) h1

theorem width_six {n : Nat} (h : n < 10 ^ 6) : max 6 (Nat.log 10 n + 1) = 6 := by
  have : Nat.log 10 n < 6 := Nat.log_lt_of_lt_pow' (by decide) h
  omega

/-- up to step 999999 the order of the names is the order of the steps -/
theorem name_lt {a b : Nat} (hb : b < 10 ^ 6) (h : a < b) : name a < name b := by
  unfold name pad6
  rw [width_six hb, width_six (by omega)]
  exact List.append_left_lt (digits_lt hb h)

theorem nameLE_iff {a b : Nat} (ha : a < 10 ^ 6) (hb : b < 10 ^ 6) : nameLE a b ↔ a ≤ b := by
  unfold nameLE
  constructor
  · intro h
    by_contra hc
    exact h (name_lt ha (by omega))
  · intro h hc
    rcases Nat.lt_or_ge a b with h1 | h1
    · exact List.lt_asymm hc (name_lt hb h1)
    · have : a = b := by omega
      rw [this] at hc
      exact List.lt_irrefl _ hc

/-- the directories in the order of their steps -/
theorem sort_dirs {dirs : List Nat} (h : ∀ t ∈ dirs, t < 10 ^ 6) :
    dirs.insertionSort nameLE = dirs.insertionSort (· ≤ ·) := by
  have := List.map_insertionSort (r := nameLE) (s := (· ≤ ·)) (f := id) dirs
    (fun a ha b hb => nameLE_iff (h a ha) (h b hb))
  simpa using this

theorem sorted_lt {dirs : List Nat} (hn : dirs.Nodup) : (dirs.insertionSort (· ≤ ·)).Pairwise (· < ·) := by
  have h1 := List.pairwise_insertionSort (α := Nat) (· ≤ ·) dirs
  have h2 : (dirs.insertionSort (· ≤ ·)).Nodup := (List.perm_insertionSort (· ≤ ·) dirs).nodup_iff.mpr hn
  exact (h1.and h2).imp fun h => lt_of_le_of_ne h.1 h.2

theorem filter_larger {l : List Nat} (h : l.Pairwise (· < ·)) (i : Nat) (hi : i < l.length) :
    (l.filter (l[i] < ·)).length = l.length - 1 - i := by
  induction l generalizing i with
  | nil => simp at hi
  | cons a l ih =>
    rw [List.pairwise_cons] at h
    cases i with
    | zero =>
      have : (a :: l).filter (a < ·) = l := by
        rw [List.filter_cons_of_neg (by simp)]
        exact List.filter_eq_self.mpr fun b hb => by simpa using h.1 b hb
      show ((a :: l).filter (a < ·)).length = _
      rw [this]; simp
    | succ i =>
      have hi' : i < l.length := by simpa using hi
      have hlt : a < l[i] := h.1 _ (List.getElem_mem hi')
      show ((a :: l).filter (l[i] < ·)).length = _
      rw [List.filter_cons_of_neg (by simp; omega), ih h.2 i hi']
      simp; omega

/-- what is deleted: the directories that have at least `keep` newer ones -/
theorem mem_toDelete {keep : Nat} {dirs : List Nat} (h : ∀ t ∈ dirs, t < 10 ^ 6) (hn : dirs.Nodup) (t : Nat) :
    t ∈ toDelete keep dirs ↔ t ∈ dirs ∧ keep ≤ (dirs.filter (t < ·)).length := by
  unfold toDelete
  rw [sort_dirs h]
  dsimp only
  have hp := List.perm_insertionSort (· ≤ ·) dirs
  have hs := sorted_lt hn
  generalize dirs.insertionSort (· ≤ ·) = L at hp hs
  have hf : ∀ t, (dirs.filter (t < ·)).length = (L.filter (t < ·)).length := fun t => ((hp.filter _).length_eq).symm
  rw [← hp.mem_iff, hf]
  have key : t ∈ L.take (L.length - keep) ↔ t ∈ L ∧ keep ≤ (L.filter (t < ·)).length := by
    constructor
    · intro ht
      obtain ⟨i, hi, e⟩ := List.mem_iff_getElem.mp ht
      rw [List.length_take] at hi
      rw [List.getElem_take] at e
      have hi' : i < L.length := by omega
      refine ⟨List.mem_of_mem_take ht, ?_⟩
      rw [← e, filter_larger hs i hi']
      omega
    · rintro ⟨ht, hk⟩
      obtain ⟨i, hi, e⟩ := List.mem_iff_getElem.mp ht
      rw [← e, filter_larger hs i hi] at hk
      refine List.mem_iff_getElem.mpr ⟨i, ?_, ?_⟩
      · rw [List.length_take]; omega
      · rw [List.getElem_take]; exact e
  by_cases hle : L.length ≤ keep
  · rw [if_pos hle, ← key]
    have : L.length - keep = 0 := by omega
    rw [this]; simp
  · rw [if_neg hle]; exact key

/-! ### disk operations -/

/-- the directory an operation works on -/
def FsOp.dir : FsOp → Nat
  | .mkdir t => t
  | .create t _ => t
  | .finish t _ _ => t
  | .unlink t _ => t
  | .rmdir t => t

theorem execs_append (a b : List FsOp) (d : Disk) : execs (a ++ b) d = execs b (execs a d) := List.foldl_append

theorem exec_mkdir (d : Disk) (t : Nat) : exec d (.mkdir t) =
    if t ∈ d.dirs then d else ⟨t :: d.dirs, fun a b => if a = t then none else d.shard a b⟩ := rfl

/-- operations on other directories do not matter -/
theorem exec_frame {d : Disk} {op : FsOp} {a : Nat} (h : op.dir ≠ a) :
    (a ∈ (exec d op).dirs ↔ a ∈ d.dirs) ∧ ∀ r, (exec d op).shard a r = d.shard a r := by
  have ha : ∀ t r b : Nat, t ≠ a → ¬ (a = t ∧ b = r) := fun t r b h e => h e.1.symm
  cases op with
  | mkdir t =>
    rw [exec_mkdir]
    have h : t ≠ a := h
    by_cases hm : t ∈ d.dirs
    · rw [if_pos hm]; exact ⟨Iff.rfl, fun _ => rfl⟩
    · rw [if_neg hm]
      refine ⟨by simp [Ne.symm h], fun r => ?_⟩
      show (if a = t then none else d.shard a r) = _
      rw [if_neg (Ne.symm h)]
  | create t r => exact ⟨Iff.rfl, fun b => if_neg (ha t r b h)⟩
  | finish t r s => exact ⟨Iff.rfl, fun b => if_neg (ha t r b h)⟩
  | unlink t r => exact ⟨Iff.rfl, fun b => if_neg (ha t r b h)⟩
  | rmdir t => exact ⟨List.mem_erase_of_ne (Ne.symm h), fun _ => rfl⟩

theorem execs_frame {ops : List FsOp} {d : Disk} {a : Nat} (h : ∀ op ∈ ops, op.dir ≠ a) :
    (a ∈ (execs ops d).dirs ↔ a ∈ d.dirs) ∧ ∀ r, (execs ops d).shard a r = d.shard a r := by
  induction ops generalizing d with
  | nil => exact ⟨Iff.rfl, fun _ => rfl⟩
  | cons op ops ih =>
    obtain ⟨h1, h2⟩ := exec_frame (d := d) (h op (by simp))
    obtain ⟨h3, h4⟩ := ih (d := exec d op) fun o ho => h o (by simp [ho])
    exact ⟨h3.trans h1, fun r => (h4 r).trans (h2 r)⟩

/-- the files an operation writes -/
theorem exec_shard {d : Disk} {op : FsOp} {t r : Nat} (h1 : op ≠ .create t r) (h2 : ∀ s, op ≠ .finish t r s)
    (h3 : op ≠ .unlink t r) (h4 : op ≠ .mkdir t) : (exec d op).shard t r = d.shard t r := by
  cases op with
  | mkdir a =>
    rw [exec_mkdir]
    by_cases hm : a ∈ d.dirs
    · rw [if_pos hm]
    · rw [if_neg hm]
      exact if_neg fun (e : t = a) => h4 (by rw [e])
  | create a b => exact if_neg fun (e : t = a ∧ r = b) => h1 (by rw [e.1, e.2])
  | finish a b s => exact if_neg fun (e : t = a ∧ r = b) => h2 s (by rw [e.1, e.2])
  | unlink a b => exact if_neg fun (e : t = a ∧ r = b) => h3 (by rw [e.1, e.2])
  | rmdir a => rfl

theorem execs_shard {ops : List FsOp} {d : Disk} {t r : Nat} (h : ∀ op ∈ ops, op ≠ .create t r ∧
    (∀ s, op ≠ .finish t r s) ∧ op ≠ .unlink t r ∧ op ≠ .mkdir t) : (execs ops d).shard t r = d.shard t r := by
  induction ops generalizing d with
  | nil => rfl
  | cons op ops ih =>
    obtain ⟨a, b, c, e⟩ := h op (by simp)
    exact (ih fun o ho => h o (by simp [ho])).trans (exec_shard a b c e)

theorem Writes.mem {R t s : Nat} {w : List FsOp} (h : Writes R t s w) {op : FsOp} :
    op ∈ w ↔ ∃ r < R, op = .create t r ∨ op = .finish t r s := by
  rw [h.1.mem_iff, List.mem_flatMap]
  constructor
  · rintro ⟨r, hr, ho⟩
    exact ⟨r, List.mem_range.mp hr, by simpa using ho⟩
  · rintro ⟨r, hr, ho⟩
    exact ⟨r, List.mem_range.mpr hr, by simpa using ho⟩

theorem Writes.nodup {R t s : Nat} {w : List FsOp} (h : Writes R t s w) : w.Nodup := by
  rw [h.1.nodup_iff, List.nodup_flatMap]
  refine ⟨fun r _ => by simp, ?_⟩
  apply List.nodup_range.imp
  intro a b hab
  simp only [Function.onFun]
  intro x hx hy
  simp at hx hy
  rcases hx with rfl | rfl <;> rcases hy with h | h <;> cases h <;> exact hab rfl

/-- the writes touch only files of the new directory and do not make or remove directories -/
theorem Writes.dirs {R t s : Nat} {w : List FsOp} (h : Writes R t s w) {p : List FsOp} (hp : ∀ op ∈ p, op ∈ w) (d : Disk) :
    (execs p d).dirs = d.dirs := by
  induction p generalizing d with
  | nil => rfl
  | cons op p ih =>
    have h1 : (exec d op).dirs = d.dirs := by
      obtain ⟨r, _, e | e⟩ := h.mem.mp (hp op (by simp)) <;> rw [e] <;> rfl
    exact (ih (fun o ho => hp o (by simp [ho])) _).trans h1

/-- after the writes all shards are whole -/
theorem Writes.done {R t s : Nat} {w : List FsOp} (h : Writes R t s w) (d : Disk) {r : Nat} (hr : r < R) :
    (execs w d).shard t r = some (.whole s) := by
  have hf : FsOp.finish t r s ∈ w := h.mem.mpr ⟨r, hr, Or.inr rfl⟩
  obtain ⟨l1, l2, e⟩ := List.append_of_mem hf
  have hc := h.2 l1 l2 r e
  have hn := h.nodup
  rw [e, List.nodup_append] at hn
  have hn2 := List.nodup_cons.mp hn.2.1
  rw [e, execs_append]
  show (execs l2 (exec (execs l1 d) (.finish t r s))).shard t r = _
  rw [execs_shard]
  · exact if_pos ⟨rfl, rfl⟩
  · intro op hop
    obtain ⟨r', hr', h1 | h1⟩ := h.mem.mp (by rw [e]; simp [hop] : op ∈ w)
    · refine ⟨fun h2 => ?_, fun _ h2 => ?_, fun h2 => ?_, fun h2 => ?_⟩
      · rw [h2] at hop
        exact hn.2.2 _ hc _ (List.mem_cons_of_mem _ hop) rfl
      all_goals rw [h1] at h2; cases h2
    · refine ⟨fun h2 => ?_, fun s' h2 => ?_, fun h2 => ?_, fun h2 => ?_⟩
      · rw [h1] at h2; cases h2
      · have : s' = s := by rw [h1] at h2; cases h2; rfl
        rw [h2, this] at hop
        exact hn2.1 hop
      all_goals rw [h1] at h2; cases h2

theorem mkdir_dirs (d : Disk) (t : Nat) : (exec d (.mkdir t)).dirs = if t ∈ d.dirs then d.dirs else t :: d.dirs := by
  rw [exec_mkdir]
  by_cases h : t ∈ d.dirs
  · rw [if_pos h, if_pos h]
  · rw [if_neg h, if_neg h]

theorem mem_mkdir {d : Disk} {t a : Nat} : a ∈ (exec d (.mkdir t)).dirs ↔ a = t ∨ a ∈ d.dirs := by
  rw [mkdir_dirs]
  by_cases h : t ∈ d.dirs
  · rw [if_pos h]; exact ⟨Or.inr, fun x => x.elim (fun e => e ▸ h) id⟩
  · rw [if_neg h]; simp

theorem nodup_mkdir {d : Disk} {t : Nat} (h : d.dirs.Nodup) : (exec d (.mkdir t)).dirs.Nodup := by
  rw [mkdir_dirs]
  by_cases hm : t ∈ d.dirs
  · rw [if_pos hm]; exact h
  · rw [if_neg hm]; exact List.nodup_cons.mpr ⟨hm, h⟩

theorem exec_nodup {d : Disk} (h : d.dirs.Nodup) (op : FsOp) : (exec d op).dirs.Nodup := by
  cases op with
  | mkdir t => exact nodup_mkdir h
  | rmdir t => exact h.erase t
  | _ => exact h

theorem execs_nodup {d : Disk} (h : d.dirs.Nodup) (ops : List FsOp) : (execs ops d).dirs.Nodup := by
  induction ops generalizing d with
  | nil => exact h
  | cons op ops ih => exact ih (exec_nodup h op)

theorem gc_dir {files : Nat → List Nat} {del : List Nat} {op : FsOp} (h : op ∈ del.flatMap (deleteDir files)) :
    op.dir ∈ del ∧ ∀ t, op ≠ .mkdir t := by
  obtain ⟨t, ht, ho⟩ := List.mem_flatMap.mp h
  unfold deleteDir at ho
  rcases List.mem_append.mp ho with ho | ho
  · obtain ⟨r, _, rfl⟩ := List.mem_map.mp ho
    exact ⟨ht, fun _ e => by cases e⟩
  · rw [List.mem_singleton.mp ho]
    exact ⟨ht, fun _ e => by cases e⟩

/-- directories only disappear while deleting -/
theorem gc_subset {ops : List FsOp} (h : ∀ op ∈ ops, ∀ t, op ≠ .mkdir t) (d : Disk) {a : Nat}
    (ha : a ∈ (execs ops d).dirs) : a ∈ d.dirs := by
  induction ops generalizing d with
  | nil => exact ha
  | cons op ops ih =>
    have h1 := ih (fun o ho => h o (by simp [ho])) (exec d op) ha
    cases op with
    | mkdir t => exact absurd rfl (h _ (by simp) t)
    | rmdir t => exact List.mem_of_mem_erase h1
    | _ => exact h1

/-- deleted directories are gone -/
theorem gc_gone {files : Nat → List Nat} {del : List Nat} {d : Disk} (hn : d.dirs.Nodup) {a : Nat} (ha : a ∈ del) :
    a ∉ (execs (del.flatMap (deleteDir files)) d).dirs := by
  obtain ⟨l1, l2, e⟩ := List.append_of_mem ha
  intro hc
  have hsplit : del.flatMap (deleteDir files) =
      (l1.flatMap (deleteDir files) ++ (files a).map (.unlink a)) ++ ([.rmdir a] ++ l2.flatMap (deleteDir files)) := by
    rw [e]; simp [deleteDir]
  rw [hsplit, execs_append] at hc
  have h1 := execs_nodup hn (l1.flatMap (deleteDir files) ++ (files a).map (.unlink a))
  generalize execs (l1.flatMap (deleteDir files) ++ (files a).map (.unlink a)) d = d1 at hc h1
  rw [execs_append] at hc
  have h2 := gc_subset (fun op ho => (gc_dir ho).2) _ hc
  exact h1.not_mem_erase h2

end Verif.Restart
