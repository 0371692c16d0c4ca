import Verif.Model.Capsule

/-!
# The rules for the use of the exchanges between ranks

What a caller of the `_start` and `_wait` functions has to do, in terms of the history of the calls only: the names
under which exchanges are started, the arrays handed over, and what has been waited for or dropped so far.
-/
namespace Verif.Capsule

variable {A : Type} [DecidableEq A]

/-- the arrays handed to a start: the fields exchanged, the currents and densities, the attributes of the particles -/
def Start.Uses : Start A → A → Prop
  | .guard np _ na _ arr, a => ∃ ia < na, ∃ ip < np, a = arr ia ip
  | .currents np _ _ j, a => ∃ k < 4, ∃ ip < np, a = j k ip
  | .particles _ np _ _ _ _ _ _ arrs, a => ∃ ip < np, a ∈ arrs ip

/-- a start that does not raise: the attributes of the particles contain their positions -/
def Start.Ok : Start A → Prop
  | .particles _ _ _ _ ok _ _ _ _ => ok = true
  | _ => True

/-- the arrays that exist after a history: created and not released since -/
def arraysAfter (ops : List (Op A)) : Finset A :=
  ops.foldl (fun s op => match op with
    | .newArray a => insert a s
    | .dropArray a => s.erase a
    | _ => s) ∅

/-- `id` has been started -/
def WasStarted (pre : List (Op A)) (id : Nat) : Prop := ∃ k, Op.start id k ∈ pre

/-- The rules for the next operation after a history `pre`: every exchange has a name of its own and works on arrays
that exist; it is waited for at most once, and not after its capsule has been dropped; its capsule is dropped at most
once; an array is not released while an exchange that works on it is neither waited for nor dropped. -/
def Allowed (pre : List (Op A)) : Op A → Prop
  | .start id k => ¬ WasStarted pre id ∧ ∀ a, k.Uses a → a ∈ arraysAfter pre
  | .wait id => WasStarted pre id ∧ Op.wait id ∉ pre ∧ Op.drop id ∉ pre
  | .drop id => WasStarted pre id ∧ Op.drop id ∉ pre
  | .newArray _ => True
  | .dropArray a => ∀ id k, Op.start id k ∈ pre → k.Uses a → Op.wait id ∈ pre ∨ Op.drop id ∈ pre

/-- a history that follows the rules throughout -/
def Proper (ops : List (Op A)) : Prop := ∀ pre op post, ops = pre ++ op :: post → Allowed pre op

end Verif.Capsule
