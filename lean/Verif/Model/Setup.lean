/-!
# What `initialize` makes of the species

Profiles, particle classes, pushers and QED modules (core/species.py; simulation/simulation.py 559-575, 638-689; core/pusher/pusher.py;
core/qed/radiation.py 115-123; core/qed/pair_production.py 108-122), and which pusher object the run loop calls for which species.
-/
namespace Verif.Setup

/-- Python exceptions that end the set-up or the run -/
inductive Err where
  | value | assertion | attribute | index
  deriving DecidableEq, Repr

/-- the classes of species; core/species.py 51, 184, 210, 215, 222 -/
inductive Cls where
  | species | electron | positron | proton | photon
  deriving DecidableEq, Repr

/-- `isinstance(s, Electron)`: `Positron` is a subclass; core/species.py 184, 210 -/
def Cls.isElectron : Cls → Bool
  | .electron | .positron => true
  | _ => false

/-- the values `pusher` may take; core/species.py 39-42 -/
inductive PusherName where
  | boris | photon | tbmt
  deriving DecidableEq, Repr

/-- the values `radiation` may take besides `None`; core/species.py 185 -/
inductive Rad where
  | ll | photons
  deriving DecidableEq, Repr

/-- what can be passed as `density` or `ppc`: a number, a Python function with so many arguments, a jitted function, any other callable
(an object with `__call__`, `functools.partial`); core/species.py 25, 27 accept them all -/
inductive Prof where
  | number | pyfun (nargs : Nat) | jitted | callable
  deriving DecidableEq, Repr

/-- another species an object refers to: one added to the simulation, with its `ispec`, or one never added -/
inductive Ref where
  | added (i : Nat) | stray (c : Cls)
  deriving DecidableEq, Repr

/-- a species object when `initialize` is called. `radiation` and `photon` exist on electrons and positrons only, `pair` (the arguments of
`set_bw_pair`) on photons only; core/species.py 64-77, 184-196, 222-238 -/
structure Sp where
  cls : Cls
  pusher : PusherName := .boris
  density : Option Prof := none
  ppc : Prof := .number
  /-- the momentum profile, as the momentum asked for at every place; `none`: not given -/
  momentum : Option (List Int → Fin 3 → Int) := none
  radiation : Option Rad := none
  photon : Option Ref := none
  polarised : Bool := false
  pair : Option (Ref × Ref) := none
  enabled : Bool := true

/-! ### profiles -/

/-- `Species.compile_jit` (core/species.py 141-169) with dimension 2 or 3 -/
def compileJit (dim : Nat) : Prof → Except Err Unit
  | .jitted => .ok ()
  | .pyfun n => if n ≠ dim then .error .value else .ok ()
  | .number => if dim = 2 then .ok () else if dim = 3 then .ok () else .error .value
  | .callable => .error .value

/-- `Species.is_compatible` (core/species.py 114-127) -/
def isCompatible (dim : Nat) (s : Sp) : Bool :=
  ([s.density, some s.ppc].all fun f => match f with
    | some (.pyfun n) => n == dim
    | _ => true)

/-- `_add_default_species_if_empty` (simulation.py 559-575): what is registered when the user added nothing -/
def defaultSpecies (dim : Nat) (initialized : Bool) (added all : List Sp) : List Sp :=
  if added.isEmpty && !initialized && !all.isEmpty then all.filter (isCompatible dim) else added

/-- the profile part of `Patches.calculate_npart` (core/patch/patch.py 804-807), for species whose profiles were not compiled before -/
def compileProfiles (dim : Nat) (s : Sp) : Except Err Unit := do
  match s.density with
  | none => pure ()
  | some f => compileJit dim f
  compileJit dim s.ppc

/-- momentum of a particle made by the set-up: `initialize` fills all attributes with zeros (core/particles.py 131-134; `inv_gamma` with 1) and `fill_particles`
writes positions and weights only (core/patch/patch.py 864-907); no file reads `Species.momentum` -/
def initialMomentum (_s : Sp) (_place : List Int) : Fin 3 → Int := fun _ => 0

/-! ### particle classes -/

/-- the arrays of a particle container that matter here -/
inductive Attr where
  | chi | tau | delta | event | sx | sy | sz
  deriving DecidableEq, Repr

/-- `QEDParticles`: core/particles.py 219-250 -/
def qedAttrs : List Attr := [.chi, .tau, .delta, .event]

/-- `SpinParticles`: core/particles.py 273-279 -/
def spinAttrs : List Attr := [.sx, .sy, .sz]

/-- `create_particles` (core/species.py 172-182, 199-208, 239-245): the arrays besides those every container has -/
def created (s : Sp) : List Attr :=
  match s.cls with
  | .electron | .positron =>
    if s.photon.isSome then
      if !s.polarised then qedAttrs else qedAttrs ++ spinAttrs
    else if s.polarised then spinAttrs
    else []
  | .photon => if s.pair.isSome then qedAttrs else []
  | _ => []

/-! ### pushers -/

/-- the class of a pusher object: `BorisPusher` or `PhotonPusher`; core/pusher/pusher.py 116, 144 -/
inductive Kind where
  | boris | photon
  deriving DecidableEq, Repr

/-- a pusher object: it moves the particles of species `ispec` with the charge and mass of that species (core/pusher/pusher.py 16-32) -/
structure PusherObj where
  kind : Kind
  ispec : Nat
  deriving DecidableEq, Repr

/-- the body of the loop in `_init_pushers` (simulation.py 650-655): there is no branch for "boris+tbmt" -/
def initPusher (s : Sp) (i : Nat) : Option PusherObj :=
  match s.pusher with
  | .boris => some ⟨.boris, i⟩
  | .photon => some ⟨.photon, i⟩
  | .tbmt => none

/-- `_init_pushers` (simulation.py 638-655) -/
def initPushers (sp : List Sp) : List PusherObj := sp.zipIdx.filterMap fun a => initPusher a.1 a.2

/-! ### QED modules -/

/-- class of the species a reference points to -/
def Ref.cls (sp : List Sp) : Ref → Option Cls
  | .added i => (sp[i]?).map (·.cls)
  | .stray c => some c

/-- `s.ispec` (core/species.py 130-134) -/
def Ref.ispec : Ref → Except Err Nat
  | .added i => .ok i
  | .stray _ => .error .value

/-- `assert` -/
def assert (b : Bool) : Except Err Unit := if b then .ok () else .error .assertion

/-- `generate_particle_lists` of the base classes reads `tau`, `chi`, `delta` and `event` of the particles
(core/qed/radiation.py 46-66, core/qed/pair_production.py 44-64) -/
def readQed (s : Sp) : Except Err Unit := if qedAttrs.all (created s).contains then .ok () else .error .attribute

/-- `NonlinearComptonLCFA(patches, ispec)` (core/qed/radiation.py 115-123): the number of the photon species -/
def initCompton (sp : List Sp) (s : Sp) : Except Err Nat := do
  assert s.cls.isElectron
  match s.photon with
  | none => .error .assertion
  | some r =>
    assert (r.cls sp == some .photon)
    let j ← r.ispec
    readQed s
    return j

/-- the first loop of `_init_qed` (simulation.py 667-679), for one species -/
def initRadiation (sp : List Sp) (s : Sp) : Except Err (Option Nat) :=
  if !s.cls.isElectron then .ok none
  else match s.radiation with
    | some .photons => (initCompton sp s).map some
    | none => .ok none
    | some .ll => .error .value

/-- `NonlinearPairProductionLCFA(patches, ispec)` (core/qed/pair_production.py 108-122): the numbers of the two species -/
def initBreitWheeler (sp : List Sp) (s : Sp) (e p : Ref) : Except Err (Nat × Nat) := do
  assert (s.cls == .photon)
  assert (((e.cls sp).map Cls.isElectron).getD false)
  assert (p.cls sp == some .positron)
  let i ← e.ispec
  let j ← p.ispec
  readQed s
  return (i, j)

/-- the second loop of `_init_qed` (simulation.py 681-688), for one species -/
def initPairs (sp : List Sp) (s : Sp) : Except Err (Option (Nat × Nat)) :=
  if s.cls = .photon then
    match s.pair with
    | some (e, p) => (initBreitWheeler sp s e p).map some
    | none => .ok none
  else .ok none

/-- `_init_qed` (simulation.py 657-688) -/
def initQed (sp : List Sp) : Except Err (List (Option Nat) × List (Option (Nat × Nat))) := do
  let r ← sp.mapM (initRadiation sp)
  let p ← sp.mapM (initPairs sp)
  return (r, p)

/-! ### the run loop -/

/-- everything the run loop uses -/
structure Sim where
  sp : List Sp
  pushers : List PusherObj
  radiation : List (Option Nat)
  pairs : List (Option (Nat × Nat))

/-- the parts of `initialize` modelled here, in their order (simulation.py 384-409) -/
def initSim (dim : Nat) (sp : List Sp) : Except Err Sim := do
  let _ ← sp.mapM (compileProfiles dim)
  let (r, p) ← initQed sp
  return ⟨sp, initPushers sp, r, p⟩

/-- `use_unified_pusher[ispec]` (simulation.py 904-911): the loop goes over the pusher objects and uses their places in the list as species
numbers; `busy`: some stage inside the push has callbacks -/
def unified (S : Sim) (busy : Bool) (i : Nat) : Bool :=
  match S.pushers[i]? with
  | none => false
  | some o => (o.kind == .boris) && !((S.radiation[i]?.getD none).isSome) && !((S.pairs[i]?.getD none).isSome) && !busy

/-- what is done to particles in one pass of the species loop (simulation.py 983-1041): `full j`: the unified push of species `j`;
`move j`: positions of species `j` by half a step; `gather i`, `radiate i`, `pairs i`, `deposit i`: fields at, QED events of, and current of
species `i`; `kick j k`: the call of a pusher of class `k` on species `j` -/
inductive Act where
  | full (j : Nat) | move (j : Nat) | gather (i : Nat) | radiate (i : Nat) | pairs (i : Nat) | kick (j : Nat) (k : Kind) | deposit (i : Nat)
  deriving DecidableEq, Repr

/-- one species of the loop; `self.pusher[ispec]` raises `IndexError` past the end -/
def speciesActs (S : Sim) (busy : Bool) (i : Nat) : Except Err (List Act) :=
  match S.pushers[i]? with
  | none => .error .index
  | some o =>
    if unified S busy i then .ok [.full o.ispec]
    else .ok ([.move o.ispec, .gather i] ++ (if (S.radiation[i]?.getD none).isSome then [.radiate i] else []) ++
      (if (S.pairs[i]?.getD none).isSome then [.pairs i] else []) ++ [.kick o.ispec o.kind, .move o.ispec, .deposit i])

/-- the species loop of a step (simulation.py 983-1041) -/
def stepActs (S : Sim) (busy : Bool) : Except Err (List Act) :=
  ((List.range S.sp.length).filter fun i => (S.sp[i]?.map (·.enabled)).getD false).foldlM
    (fun acc i => (speciesActs S busy i).map (acc ++ ·)) []

end Verif.Setup
