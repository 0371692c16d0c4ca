import Verif.Model.Fill
/-!
# Random generators

Models how simulation/simulation.py 700-717, core/patch/patch.py 864-908, core/collision/collision.py 98 and 148-152 and
callback/utils.py 769, 810, 952 derive the random generators, and in which order the loops of core/patch/cpu.py 21-48, 66-105
draw from them.

`numpy.random.Generator` itself is library code. What is modelled of it: a generator is determined by its entropy and its spawn
key, `spawn(n)` appends the running number of the child to the key and advances the counter of children (`SeedSequence.spawn`),
`uniform(a, b, n)` reads the next `n` numbers of the stream of that generator. The numbers of a stream are an arbitrary function
`σ` of (entropy, key) and position. Pickling (the `scatter` of simulation.py 717, checkpoints) keeps entropy, key and counter.
-/
namespace Verif.Rng

/-- where the entropy comes from: `default_rng(seed)`, or `default_rng()` on a rank (simulation.py 707, 711) -/
inductive Entropy
  | seed (n : Nat)
  | system (rank : Nat)
deriving DecidableEq

/-- what decides the numbers of a generator -/
structure Stream where
  entropy : Entropy
  key : List Nat
deriving DecidableEq

/-- a generator: its stream and the number of children spawned so far -/
structure Gen where
  stream : Stream
  kids : Nat
deriving DecidableEq

/-- `gen.spawn(n)`: the generator afterwards and the children -/
def spawn (g : Gen) (n : Nat) : Gen × List Gen :=
  (⟨g.stream, g.kids + n⟩, (List.range n).map fun i => ⟨⟨g.stream.entropy, g.stream.key ++ [g.kids + i]⟩, 0⟩)

/-- `_init_random_generator` (simulation.py 700-717): the generator of a rank. Without a seed every rank asks the system; with a
seed rank 0 spawns one child per rank and scatters them. -/
def rankGen (seed : Option Nat) (size rank : Nat) : Option Gen :=
  match seed with
  | none => some ⟨⟨.system rank, []⟩, 0⟩
  | some s => (spawn ⟨⟨.seed s, []⟩, 0⟩ size).2[rank]?

/-- what a rank asks its generator for -/
inductive Use
  /-- `patches.fill_particles(self.rand_gen)`, one child per patch (patch.py 865) -/
  | fill (npatches : Nat)
  /-- `Collision.generate_field_lists` (collision.py 98), at set-up, after each rebalancing and after loading (148-152) -/
  | collide (npatches : Nat)
  /-- the moving window fills new patches: one spawn for every species with a density (callback/utils.py 760-769, 797-810) -/
  | window (species patches : Nat)
  /-- `SetTemperature._call` (callback/utils.py 952) -/
  | temperature
deriving DecidableEq

/-- `n` spawns one after the other -/
def spawns : Nat → Gen → Nat → Gen × List Gen
  | 0, g, _ => (g, [])
  | s + 1, g, n => let (g1, a) := spawn g n; let (g2, b) := spawns s g1 n; (g2, a ++ b)

/-- one use: the generator of the rank afterwards and the generators handed out -/
def use (g : Gen) : Use → Gen × List Gen
  | .fill n => spawn g n
  | .collide n => spawn g n
  | .window s n => spawns s g n
  | .temperature => spawn g 1

/-- all generators handed out on a rank in a history -/
def handed : Gen → List Use → List Gen
  | _, [] => []
  | g, u :: us => (use g u).2 ++ handed (use g u).1 us

/-- the sizes of the draws of one patch for one species, in order: for every accepted cell one call of `uniform(..., ppc)` per
axis (cpu.py 36-44, 86-97) -/
def requests {k : Nat} (p : Fill.Profile k) (cells : List (Fin k → ℚ)) : List Nat :=
  cells.flatMap fun c => if p.dens c > p.densMin then List.replicate k (p.ppc c).toNat else []

/-- the loop `for ipatch in prange(npatches)` of one species, between two draws: how far each generator of `rand_gens` has been
read, and for each patch the draws still to do and the numbers drawn so far -/
structure Loop where
  pos : Nat → Nat
  todo : Nat → List Nat
  log : Nat → List (List ℚ)

/-- the next `n` numbers of a stream -/
def take (σ : Nat → ℚ) (pos n : Nat) : List ℚ := (List.range n).map fun i => σ (pos + i)

/-- the thread working on patch `i` makes its next draw from `gen = rand_gens[ipatch]` (cpu.py 34, 41-42, 86, 93-95); `σ g` is
the stream of generator `g` of the list -/
def draw (σ : Nat → Nat → ℚ) (l : Loop) (i : Nat) : Loop :=
  match l.todo i with
  | [] => l
  | n :: ns =>
    let g := i
    ⟨Function.update l.pos g (l.pos g + n), Function.update l.todo i ns,
      Function.update l.log i (l.log i ++ [take (σ g) (l.pos g) n])⟩

/-- the loop under a schedule: which patch makes the next draw, at each point of time -/
def runLoop (σ : Nat → Nat → ℚ) (l : Loop) (sched : List Nat) : Loop := sched.foldl (draw σ) l

/-- `fill_particles` (patch.py 865-908): one species after the other, all with the same generators; each species has the draws
its patches make and a schedule -/
def fillAll (σ : Nat → Nat → ℚ) : (Nat → Nat) → List ((Nat → List Nat) × List Nat) → List Loop
  | _, [] => []
  | pos, (todo, sched) :: rest =>
    let l := runLoop σ ⟨pos, todo, fun _ => []⟩ sched
    l :: fillAll σ l.pos rest

/-- number of accepted cells among the first `j` -/
def acceptedBefore {k : Nat} (p : Fill.Profile k) (cells : List (Fin k → ℚ)) (j : Nat) : Nat :=
  (cells.take j).countP fun c => p.dens c > p.densMin

/-- the numbers as the cells use them: particle `i` on axis `d` of cell `j` (cpu.py 41-42, 93-95) -/
def drawn {k : Nat} (p : Fill.Profile k) (cells : List (Fin k → ℚ)) (log : List (List ℚ)) (j i : Nat) (d : Fin k) : ℚ :=
  (log.getD (acceptedBefore p cells j * k + d) []).getD i 0

end Verif.Rng
