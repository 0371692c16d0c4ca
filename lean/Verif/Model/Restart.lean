import Mathlib.Data.List.Sort
import Mathlib.Data.Nat.Log
/-!
# Checkpoints on disk

Models `RestartDump._call`, `_ckpt_dir`, `_gc_old_checkpoints` and the part of `RestartDump.load` that reads the shard
(callback/restart.py 79-162).

Simplifications: `out_dir` holds only directories made by `RestartDump` (their names are `ckpt_<itime>`); a system call
either succeeds or the run crashes there, and what was done before the crash is on disk (no power loss between write and
flush); a shard is unreadable from `open(…, "wb")` until its last byte is written.
-/
namespace Verif.Restart

/-- the last `w` decimal digits of `n` -/
def digits : Nat → Nat → List Char
  | 0, _ => []
  | w + 1, n => digits w (n / 10) ++ [Nat.digitChar (n % 10)]

/-- `f"{itime:06d}"`: all digits of the number, padded with zeros to at least six (restart.py 80) -/
def pad6 (n : Nat) : List Char := digits (max 6 (Nat.log 10 n + 1)) n

/-- `f"ckpt_{itime:06d}"` (restart.py 79-80) -/
def name (itime : Nat) : List Char := ['c', 'k', 'p', 't', '_'] ++ pad6 itime

/-- a shard file: being written, or holding the state of one rank saved by dump number `dump` -/
inductive Shard
  | torn
  | whole (dump : Nat)
deriving DecidableEq

/-- the content of `out_dir`: which checkpoint directories exist (by `itime`) and the shard file of each rank in them -/
structure Disk where
  dirs : List Nat
  shard : Nat → Nat → Option Shard

/-- system calls of a dump -/
inductive FsOp
  | mkdir (t : Nat)
  | create (t r : Nat)
  | finish (t r dump : Nat)
  | unlink (t r : Nat)
  | rmdir (t : Nat)
deriving DecidableEq

/-- `mkdir(parents=True, exist_ok=True)`, `open(…, "wb")` (truncates), end of the `with` block, `unlink(missing_ok=True)`,
`rmdir` -/
def exec (d : Disk) : FsOp → Disk
  | .mkdir t => if t ∈ d.dirs then d else ⟨t :: d.dirs, fun a b => if a = t then none else d.shard a b⟩
  | .create t r => ⟨d.dirs, fun a b => if a = t ∧ b = r then some .torn else d.shard a b⟩
  | .finish t r s => ⟨d.dirs, fun a b => if a = t ∧ b = r then some (.whole s) else d.shard a b⟩
  | .unlink t r => ⟨d.dirs, fun a b => if a = t ∧ b = r then none else d.shard a b⟩
  | .rmdir t => ⟨d.dirs.erase t, d.shard⟩

def execs (ops : List FsOp) (d : Disk) : Disk := ops.foldl exec d

/-- order of the directory names: Python compares strings character by character -/
def nameLE (a b : Nat) : Prop := name a ≤ name b

instance : DecidableRel nameLE := fun a b => inferInstanceAs (Decidable (name a ≤ name b))

/-- the directories `_gc_old_checkpoints` deletes (restart.py 109-115) -/
def toDelete (keep : Nat) (dirs : List Nat) : List Nat :=
  let subdirs := dirs.insertionSort nameLE
  if subdirs.length ≤ keep then [] else subdirs.take (subdirs.length - keep)

/-- the system calls that delete one directory: every file in it, in some order, then the directory (restart.py 117-124) -/
def deleteDir (files : Nat → List Nat) (t : Nat) : List FsOp := (files t).map (.unlink t) ++ [.rmdir t]

/-- the deletions at the end of `_call` (restart.py 104-105); `keep` may be `None`, zero or negative -/
def deletions (keep : Option Int) (files : Nat → List Nat) (dirs : List Nat) : List FsOp :=
  match keep with
  | some n => if 0 < n then (toDelete n.toNat dirs).flatMap (deleteDir files) else []
  | none => []

/-- what the ranks write between the two barriers: each rank opens and finishes its shard, the ranks interleaved in any
way (restart.py 97-99) -/
def Writes (R t dump : Nat) (w : List FsOp) : Prop :=
  w.Perm ((List.range R).flatMap fun r => [.create t r, .finish t r dump]) ∧
  ∀ l1 l2 r, w = l1 ++ .finish t r dump :: l2 → FsOp.create t r ∈ l1

/-- `_call` on `R` ranks (restart.py 86-107): rank 0 makes the directory; barrier; all ranks write; barrier; rank 0
deletes old directories when `keep` is a positive number; barrier. `ops` is one possible order of all system calls. -/
def Dump (R : Nat) (keep : Option Int) (t dump : Nat) (d : Disk) (ops : List FsOp) : Prop :=
  ∃ (w : List FsOp) (files : Nat → List Nat), Writes R t dump w ∧
    (∀ a r, (execs (.mkdir t :: w) d).shard a r ≠ none → r ∈ files a) ∧
    ops = .mkdir t :: w ++ deletions keep files (execs (.mkdir t :: w) d).dirs

/-- `RestartDump.load` reads the shard of its rank from the given directory; `none` is an exception (restart.py 143-150) -/
def load (d : Disk) (t r : Nat) : Option Nat :=
  if t ∈ d.dirs then
    match d.shard t r with
    | some (.whole s) => some s
    | _ => none
  else none

end Verif.Restart
