/-!
# Message passing between ranks

The part of MPI the python code uses in `LoadBalancer._exchange` (core/mpi/load_balancer.py 171-224):
`isend` (posts a message and returns), blocking `recv(source, tag)` (takes the oldest message of that
source, destination and tag) and `waitall` on the posted sends (returns when all of them have been
received; the weakest progress guarantee MPI gives: a rendezvous send needs its receiver).  Ranks
interleave arbitrarily.  Simplification: one communicator, and no other traffic on it (the collectives
before the exchange are completed by all ranks).
-/
namespace Verif.Message

/-- one MPI call of a rank -/
inductive Op (M : Type) where
  /-- `comm.isend(data, dest, tag)` (load_balancer.py 211) -/
  | send (dst tag : Nat) (m : M)
  /-- `comm.recv(source, tag)` (load_balancer.py 219) -/
  | recv (src tag : Nat)
  /-- `MPI.Request.waitall(requests)` (load_balancer.py 224) -/
  | waitall

/-- a message in flight -/
structure Msg (M : Type) where
  src : Nat
  dst : Nat
  tag : Nat
  data : M

/-- state of the whole job: what each rank has left to do, what it received so far, messages in
flight (oldest first) -/
structure Net (M : Type) where
  prog : Nat → List (Op M)
  got : Nat → List M
  flight : List (Msg M)

/-- replace the entry of one rank -/
def setAt {α : Type} (f : Nat → α) (r : Nat) (x : α) : Nat → α := fun k => if k = r then x else f k

/-- one step of some rank (load_balancer.py 207-224; MPI-4 standard §3.5 for message order) -/
inductive Step {M : Type} : Net M → Net M → Prop where
  | send (s : Net M) (r d t : Nat) (m : M) (rest : List (Op M))
      (h : s.prog r = .send d t m :: rest) :
      Step s ⟨setAt s.prog r rest, s.got, s.flight ++ [⟨r, d, t, m⟩]⟩
  | recv (s : Net M) (r src t : Nat) (m : M) (rest : List (Op M)) (pre post : List (Msg M))
      (h : s.prog r = .recv src t :: rest) (hf : s.flight = pre ++ ⟨src, r, t, m⟩ :: post)
      (hfirst : ∀ x ∈ pre, ¬ (x.src = src ∧ x.dst = r ∧ x.tag = t)) :
      Step s ⟨setAt s.prog r rest, setAt s.got r (s.got r ++ [m]), pre ++ post⟩
  | waitall (s : Net M) (r : Nat) (rest : List (Op M))
      (h : s.prog r = .waitall :: rest) (hf : ∀ x ∈ s.flight, x.src ≠ r) :
      Step s ⟨setAt s.prog r rest, s.got, s.flight⟩

/-- `k` steps -/
inductive Steps {M : Type} : Nat → Net M → Net M → Prop where
  | zero (s : Net M) : Steps 0 s s
  | succ {k : Nat} {s t u : Net M} (h : Steps k s t) (h' : Step t u) : Steps (k + 1) s u

/-- the program of a rank that posts all its sends, then receives, then waits (the shape of
load_balancer.py 202-224) -/
def program {M : Type} (sends : List (Nat × Nat × M)) (recvs : List (Nat × Nat)) : List (Op M) :=
  sends.map (fun x => .send x.1 x.2.1 x.2.2) ++ (recvs.map (fun x => .recv x.1 x.2) ++ [.waitall])

/-- all ranks at the start of the exchange; ranks beyond the job size do nothing -/
def start {M : Type} (R : Nat) (sends : Nat → List (Nat × Nat × M)) (recvs : Nat → List (Nat × Nat)) :
    Net M :=
  ⟨fun r => if r < R then program (sends r) (recvs r) else [], fun _ => [], []⟩

end Verif.Message
