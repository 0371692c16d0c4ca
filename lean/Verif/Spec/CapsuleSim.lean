import Verif.Model.CapsuleSim
import Verif.Spec.Capsule

/-!
# What the arguments of the calls of a simulation have to satisfy
-/
namespace Verif.Capsule

variable {A : Type} [DecidableEq A]

/-- What the arrays of the species have to satisfy: each exchange works on arrays that exist after its own resizing,
and no resizing releases an array that an exchange in flight works on (species do not share arrays, and the currents
are other arrays). -/
def SpeciesFit (hist : List (Op A)) (inFlight : A → Prop) : List (SpeciesArgs A) → Prop
  | [] => True
  | s :: l =>
    let hist' := hist ++ s.gone.map .dropArray ++ s.new.map .newArray
    (∀ a ∈ s.gone, ¬ inFlight a) ∧ (∀ a, s.start.Uses a → a ∈ arraysAfter hist') ∧
      SpeciesFit hist' (fun a => inFlight a ∨ s.start.Uses a) l

/-- the arrays the exchange of currents in flight works on -/
def CurrentsUse (hist : List (Op A)) (s : Sim) (a : A) : Prop :=
  ∃ id k, s.handle = some id ∧ Op.start id k ∈ hist ∧ k.Uses a

/-- The arguments of a call after the operations `hist`: every array handed over exists, and the arrays replaced by
the load balancer or by new particles are not those of the currents in flight. -/
def Fits (hist : List (Op A)) (s : Sim) : Call A → Prop
  | .deposit | .currentsWait | .leave => True
  | .currentsStart c | .currents c => ∀ a, c.start.Uses a → a ∈ arraysAfter hist
  | .guardE g | .guardB g | .guardOnce g | .breakGuard g => ∀ a, g.start.Uses a → a ∈ arraysAfter hist
  | .particles l | .breakParticles l => SpeciesFit hist (CurrentsUse hist s) l
  | .arrays _ gone => ∀ a ∈ gone, ¬ CurrentsUse hist s a

/-- a history of calls with fitting arguments -/
def FitsAll (ranks : Nat) (calls : List (Call A)) : Prop :=
  ∀ pre c post, calls = pre ++ c :: post → Fits (emits ranks pre).1 (emits ranks pre).2 c

end Verif.Capsule
