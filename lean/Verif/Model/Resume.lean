import Verif.Model.Lists
import Verif.Model.WholeRun
/-!
# What a restart does to arrays, lists and patches

Models the part of `RestartDump` (callback/restart.py 88-107, 130-161) that the clock model of `Verif.Model.RunLoop` leaves out: which arrays the containers and the
modules hold after a simulation is read back, what the modules then do to the data, and which patches exist when the files of the ranks are read by another number of ranks.

Trusted: `dill` gives back every object with the values it had and keeps apart or together the arrays that were so. Simplification: field arrays are taken to be
shared by patches and field solver as before the dump (`MaxwellSolver` goes through core/utils/pickle_list.py; whether reading a `numba` typed list gives back the same
array object was not checked). All arrays of a container move together, as in `Verif.Model.Lists`.
-/
namespace Verif.Resume
open Verif.Lists

/-- `ParticlesBase.__setstate__` copies every array, the flag and the size come back as they were (core/particles.py 213-217); the typed lists of the pushers and the QED modules
come back with the arrays they held (core/utils/pickle_list.py 4-19), as do the Python lists of the sorters; the collision module is generated again
(core/collision/collision.py 139-151) -/
def unpickle (w : Lists.World) : Lists.World where
  cont := fun i p => ⟨⟨(w.cont i p).ref.obj + 1, 0⟩, (w.cont i p).size, (w.cont i p).ext⟩
  pusher := w.pusher
  sorter := w.sorter
  bucket := w.bucket
  coll := w.coll.map fun _ => ⟨fun i p => ⟨(w.cont i p).ref.obj + 1, 0⟩, w.bucket⟩
  rad := w.rad
  pair := w.pair

/-- `RestartDump.load`: read the file, then `sim.update_lists()` (callback/restart.py 149-153) -/
def load (w : Lists.World) : Lists.World := updateLists (unpickle w)

/-- the contents of the memory: species, patch, arrays -/
abbrev Mem (α : Type) := Nat → Nat → Ref → α

/-- the particles of a species in a patch, as callbacks, the exchange and the deposition see them -/
def seen {α : Type} (w : Lists.World) (m : Mem α) (i p : Nat) : α := m i p (w.cont i p).ref

/-- the copies hold what the arrays held (core/particles.py 213-217) -/
def unpickleMem {α : Type} (w : Lists.World) (m : Mem α) : Mem α := fun i p r =>
  if r = ⟨(w.cont i p).ref.obj + 1, 0⟩ then m i p (w.cont i p).ref else m i p r

/-- a pusher of the split path changes the arrays its typed lists hold (core/pusher/pusher.py 100-119; core/pusher/cpu.py) -/
def push {α : Type} (w : Lists.World) (i : Nat) (f : Nat → α → α) (m : Mem α) : Mem α := fun j p r =>
  if j = i ∧ r = w.pusher i p then f p (m j p r) else m j p r

/-- the unified pusher and the interpolator are handed the containers (core/pusher/pusher.py 121-136, core/interpolation/field_interpolation.py 150-157) -/
def direct {α : Type} (w : Lists.World) (i : Nat) (f : Nat → α → α) (m : Mem α) : Mem α := fun j p r =>
  if j = i ∧ r = (w.cont i p).ref then f p (m j p r) else m j p r

/-! ## the files of the ranks -/
open Verif.WholeRun Verif.Maxwell Verif.Pusher

/-- what a rank keeps of one patch: fields, and the particles of each species with its charge and mass -/
structure PatchData (k : Nat) where
  fld : Fields k
  parts : List (Kind × List (Slot k))

/-- patch `t` of a state -/
def patch {k : Nat} (x : St k) (t : Nat) : PatchData k := ⟨x.fld t, x.parts.map fun s => (s.1.toKind, s.2 t)⟩

/-- the file of rank `r`: its own patches, with their numbers (callback/restart.py 88-101) -/
def shard {k : Nat} (N : Nat) (rk : Nat → Nat) (x : St k) (r : Nat) : List (Nat × PatchData k) :=
  ((List.range N).filter fun t => rk t == r).map fun t => (t, patch x t)

/-- `R'` ranks each read the file of their own number; `none`: there is no such file for some rank, which raises `FileNotFoundError` there
(callback/restart.py 143-151). `R` ranks wrote files. -/
def readShards {k : Nat} (N R : Nat) (rk : Nat → Nat) (x : St k) (R' : Nat) : Option (List (Nat × PatchData k)) :=
  if R' ≤ R then some ((List.range R').flatMap (shard N rk x)) else none

end Verif.Resume
