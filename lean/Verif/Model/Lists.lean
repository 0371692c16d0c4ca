/-!
# The lists of particle arrays the modules keep

The arrays of a container are `numpy` arrays. `extend` and `prune` resize them in place (the object stays, its memory moves), `initialize` makes new ones.
The pusher, the collision module and the QED modules keep `numba` typed lists, which hold the memory address at the time the list was filled; the sorter keeps
Python lists, which hold the object, and index buffers of its own. A module works on the current data if what it holds is what the container has now.
The interpolator, the depositor and the unified pusher are handed the containers at every call and keep nothing
(core/interpolation/field_interpolation.py 150-157, core/current/deposition.py 159-168, core/pusher/pusher.py 121-136).

Simplification: the loops over patches and species do independent assignments, so they are written as one update of a function. All arrays of a container move
together, so one number stands for them. What `pickle` does to the lists at a restart is in `Verif.Model.Resume`.
-/
namespace Verif.Lists

/-- memory of the arrays of a container: object and how often it moved -/
structure Ref where
  obj : Nat
  ver : Nat
  deriving DecidableEq, Repr

/-- one container; core/particles.py 60-70 -/
structure Cont where
  ref : Ref
  size : Nat
  ext : Bool
  deriving Repr

/-- what the radiation module of a species holds; core/qed/radiation.py 46-66, 125-151 -/
structure Rad where
  pho : Nat
  own : Nat → Ref
  phos : Nat → Ref

/-- what the pair production module of a species holds; core/qed/pair_production.py 44-64, 124-167 -/
structure Pair where
  ele : Nat
  pos : Nat
  own : Nat → Ref
  eles : Nat → Ref
  poss : Nat → Ref

/-- what the collision module holds: particle data of all species, and the bucket bounds of the sorters (which generation); core/collision/collision.py 65-99 -/
structure Coll where
  part : Nat → Nat → Ref
  bounds : Nat → Nat

structure World where
  /-- containers by species and patch -/
  cont : Nat → Nat → Cont
  /-- core/pusher/pusher.py 37-65 -/
  pusher : Nat → Nat → Ref
  /-- object held by the sorter and size of its index buffers; core/sort/particle_sort.py 91-116 -/
  sorter : Nat → Nat → Nat × Nat
  /-- generation of the bucket arrays of a sorter; core/sort/particle_sort.py 178-192 -/
  bucket : Nat → Nat
  coll : Option Coll
  rad : Nat → Option Rad
  pair : Nat → Option Pair

/-- replace one container -/
def World.setCont (w : World) (i p : Nat) (c : Cont) : World := { w with cont := fun j q => if j = i ∧ q = p then c else w.cont j q }

/-- `Particles.extend(n)`; core/particles.py 138-168 -/
def extend (w : World) (i p n : Nat) : World :=
  if n = 0 then w
  else w.setCont i p ⟨⟨(w.cont i p).ref.obj, (w.cont i p).ref.ver + 1⟩, (w.cont i p).size + n, true⟩

/-- `Particles.prune` down to `n` slots; core/particles.py 170-193 -/
def prune (w : World) (i p n : Nat) : World :=
  if (w.cont i p).size ≤ n then w
  else w.setCont i p ⟨⟨(w.cont i p).ref.obj, (w.cont i p).ref.ver + 1⟩, n, true⟩

/-- `Particles.initialize(n)`: new arrays, the flag is not touched; core/particles.py 118-138 -/
def init (w : World) (i p n : Nat) : World :=
  w.setCont i p ⟨⟨(w.cont i p).ref.obj + 1, 0⟩, n, (w.cont i p).ext⟩

/-- core/qed/radiation.py 154-179 for the patches in `sel` -/
def Rad.refresh (w : World) (i : Nat) (r : Rad) (sel : Nat → Bool) : Rad where
  pho := r.pho
  own := fun p => if sel p then (w.cont i p).ref else r.own p
  phos := fun p => if sel p then (w.cont r.pho p).ref else r.phos p

/-- core/qed/pair_production.py 170-211 for the patches in `sel` -/
def Pair.refresh (w : World) (i : Nat) (r : Pair) (sel : Nat → Bool) : Pair where
  ele := r.ele
  pos := r.pos
  own := fun p => if sel p then (w.cont i p).ref else r.own p
  eles := fun p => if sel p then (w.cont r.ele p).ref else r.eles p
  poss := fun p => if sel p then (w.cont r.pos p).ref else r.poss p

/-- core/pusher/pusher.py 68-97, core/sort/particle_sort.py 118-146 where a container is extended; core/collision/collision.py 74-78;
simulation/simulation.py 791-820 -/
def refreshLists (w : World) : World where
  cont := w.cont
  pusher := fun i p => if (w.cont i p).ext then (w.cont i p).ref else w.pusher i p
  sorter := fun i p => if (w.cont i p).ext then ((w.cont i p).ref.obj, (w.cont i p).size) else w.sorter i p
  bucket := w.bucket
  coll := w.coll.map fun c => { c with part := fun i p => if (w.cont i p).ext then (w.cont i p).ref else c.part i p }
  rad := fun i => (w.rad i).map fun r => r.refresh w i fun p => (w.cont i p).ext || (w.cont r.pho p).ext
  pair := fun i => (w.pair i).map fun r => r.refresh w i fun p => (w.cont i p).ext || (w.cont r.ele p).ext || (w.cont r.pos p).ext

/-- simulation/simulation.py 822-824 -/
def clearFlags (w : World) : World := { w with cont := fun i p => { w.cont i p with ext := false } }

/-- `Simulation.update_lists`; simulation/simulation.py 781-824 -/
def updateLists (w : World) : World := clearFlags (refreshLists w)

/-- `Simulation.update_patches`: everything is generated again (sorters before collisions); simulation/simulation.py 827-855 -/
def updatePatches (w : World) : World :=
  updateLists
    { cont := w.cont
      pusher := fun i p => (w.cont i p).ref
      sorter := fun i p => ((w.cont i p).ref.obj, (w.cont i p).size)
      bucket := fun i => w.bucket i + 1
      coll := w.coll.map fun _ => ⟨fun i p => (w.cont i p).ref, fun i => w.bucket i + 1⟩
      rad := fun i => (w.rad i).map fun r => r.refresh w i fun _ => true
      pair := fun i => (w.pair i).map fun r => r.refresh w i fun _ => true }

/-- `NonlinearComptonLCFA._update_particle_lists`; core/qed/radiation.py 181-186 -/
def radUpdate (w : World) (i : Nat) : World :=
  { w with rad := fun j => if j = i then (w.rad j).map fun r => r.refresh w i fun p => (w.cont i p).ext || (w.cont r.pho p).ext else w.rad j }

/-- `NonlinearPairProductionLCFA._update_particle_lists`; core/qed/pair_production.py 213-218 -/
def pairUpdate (w : World) (i : Nat) : World :=
  { w with pair := fun j => if j = i then
      (w.pair j).map fun r => r.refresh w i fun p => (w.cont i p).ext || (w.cont r.ele p).ext || (w.cont r.pos p).ext else w.pair j }

/-- extend a species by `ns p` slots in each patch -/
def extendAll (w : World) (i : Nat) (ns : Nat → Nat) : World :=
  { w with cont := fun j p => if j = i ∧ ns p ≠ 0 then ⟨⟨(w.cont j p).ref.obj, (w.cont j p).ref.ver + 1⟩, (w.cont j p).size + ns p, true⟩ else w.cont j p }

/-- making room in `create_particles` (radiation): extend the photons of the patches that need it, then refresh own lists there; core/qed/radiation.py 205-217 -/
def radCreate (w : World) (i : Nat) (ns : Nat → Nat) : World :=
  match w.rad i with
  | none => w
  | some r =>
    let w' := extendAll w r.pho ns
    { w' with rad := fun j => if j = i then some (r.refresh w' i fun p => ns p != 0) else w'.rad j }

/-- making room in `create_particles` (pairs); core/qed/pair_production.py 236-257 -/
def pairCreate (w : World) (i : Nat) (n1 n2 : Nat → Nat) : World :=
  match w.pair i with
  | none => w
  | some r =>
    let w' := extendAll (extendAll w r.ele n1) r.pos n2
    { w' with pair := fun j => if j = i then some (r.refresh w' i fun p => n1 p != 0 || n2 p != 0) else w'.pair j }

/-- the check of the sorter at each call; core/sort/particle_sort.py 148-176 -/
def sorterCheck (w : World) (i : Nat) : World :=
  { w with sorter := fun j p => if j = i then
      if (w.cont i p).ref.obj ≠ (w.sorter i p).1 then ((w.cont i p).ref.obj, (w.cont i p).size)
      else if (w.sorter i p).2 < (w.cont i p).size then ((w.sorter i p).1, (w.cont i p).size) else w.sorter i p
    else w.sorter j p }

/-- `sorter.generate_field_lists(); sorter.generate_particle_lists()` for all sorters; callback/utils.py 589-591 -/
def sorterGenerate (w : World) : World :=
  { w with
    sorter := fun i p => ((w.cont i p).ref.obj, (w.cont i p).size)
    bucket := fun i => w.bucket i + 1 }

/-- modules as they are called in a step -/
inductive Mod
  | pusher (i : Nat)
  | sorter (i : Nat)
  | coll
  | rad (i : Nat)
  | pair (i : Nat)
  /-- interpolator, depositor, unified pusher of a species -/
  | direct (i : Nat)

/-- what can happen to containers and lists in a step -/
inductive Ev
  | call (m : Mod)
  | extend (i p n : Nat)
  | prune (i p n : Nat)
  | init (i p n : Nat)
  | updateLists
  | radUpdate (i : Nat)
  | pairUpdate (i : Nat)
  | radCreate (i : Nat) (ns : Nat → Nat)
  | pairCreate (i : Nat) (n1 n2 : Nat → Nat)
  /-- patches come and go (containers by patch change at will), then `update_patches`; simulation/simulation.py 1085-1087 -/
  | rebalance (cont : Nat → Nat → Cont)
  | sorterGenerate

def exec (w : World) : Ev → World
  | .call (.sorter i) => sorterCheck w i
  | .call _ => w
  | .extend i p n => extend w i p n
  | .prune i p n => prune w i p n
  | .init i p n => init w i p n
  | .updateLists => updateLists w
  | .radUpdate i => radUpdate w i
  | .pairUpdate i => pairUpdate w i
  | .radCreate i ns => radCreate w i ns
  | .pairCreate i n1 n2 => pairCreate w i n1 n2
  | .rebalance c => updatePatches { w with cont := c }
  | .sorterGenerate => sorterGenerate w

def run (w : World) (evs : List Ev) : World := evs.foldl exec w

/-- a container operation of a callback or of the particle exchange -/
inductive Grow
  | extend (i p n : Nat)
  | prune (i p n : Nat)

def Grow.ev : Grow → Ev
  | .extend i p n => .extend i p n
  | .prune i p n => .prune i p n

/-- callbacks of a stage: each does nothing to containers, or extends and prunes some and calls `sim.update_lists()` at its end as `LoadParticles` does
(callback/utils.py 1102-1150) -/
abbrev Stage := List (List Grow)
def Stage.evs (s : Stage) : List Ev := s.flatMap fun gs => match gs with
  | [] => []
  | gs => gs.map Grow.ev ++ [.updateLists]

/-- input of one step -/
structure StepIn where
  /-- enabled species, in order -/
  species : List Nat
  /-- species pushed by the unified pusher -/
  unified : Nat → Bool
  hasColl : Bool
  /-- species with radiation / pair production -/
  hasRad : Nat → Bool
  hasPair : Nat → Bool
  /-- callbacks before the sorting, inside the loop of a species (five stages), after the loop body of a species, and at the end -/
  before : Stage
  inside : Nat → Fin 5 → Stage
  deposit : Nat → Stage
  after : Stage
  /-- slots made by the QED modules -/
  photons : Nat → Nat → Nat
  electrons : Nat → Nat → Nat
  positrons : Nat → Nat → Nat
  /-- slots made by the two particle exchanges -/
  exchange : List (Nat × Nat × Nat)
  /-- patches move between ranks -/
  rebalance : Option (Nat → Nat → Cont)

/-- the calls for one species; simulation/simulation.py 971-1033 -/
def speciesEvs (S : StepIn) (i : Nat) : List Ev :=
  (if S.unified i then [.call (.direct i)]
  else
    [.call (.pusher i)] ++ (S.inside i 0).evs ++
    [.call (.direct i)] ++ (S.inside i 1).evs ++
    (if S.hasRad i then [.call (.rad i)] else []) ++
    (if S.hasPair i then [.call (.pair i)] else []) ++ (S.inside i 2).evs ++
    [.call (.pusher i)] ++ (S.inside i 3).evs ++
    [.call (.pusher i)] ++ (S.inside i 4).evs ++
    [.call (.direct i)]) ++
  (S.deposit i).evs

/-- creation for one species; simulation/simulation.py 1046-1061 -/
def createEvs (S : StepIn) (i : Nat) : List Ev :=
  (if S.hasRad i then [.radUpdate i, .call (.rad i), .radCreate i (S.photons i), .call (.rad i)] else []) ++
  (if S.hasPair i then [.pairUpdate i, .call (.pair i), .pairCreate i (S.electrons i) (S.positrons i), .call (.pair i)] else [])

/-- simulation/simulation.py 1080-1088 -/
def rebalanceEvs : Option (Nat → Nat → Cont) → List Ev
  | none => []
  | some c => [.rebalance c]

/-- one step; simulation/simulation.py 937-1128 -/
def stepEvs (S : StepIn) : List Ev :=
  S.before.evs ++
  S.species.map (fun i => .call (.sorter i)) ++
  (if S.hasColl then [.call .coll] else []) ++
  S.species.flatMap (speciesEvs S) ++
  S.species.flatMap (createEvs S) ++
  S.exchange.map (fun e => .extend e.1 e.2.1 e.2.2) ++
  rebalanceEvs S.rebalance ++
  [.updateLists] ++
  S.after.evs

/-- the moving window when it shifts: new arrays in the recycled patches, `update_lists`, the sorters are generated again; callback/utils.py 577-591, 728-745, 781, 823 -/
def windowEvs (fills : List (Nat × Nat × Nat)) : List Ev :=
  fills.map (fun e => .init e.1 e.2.1 e.2.2) ++ [.updateLists, .sorterGenerate]

end Verif.Lists
