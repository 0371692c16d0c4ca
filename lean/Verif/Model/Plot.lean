import Mathlib.Algebra.Order.Field.Rat
import Verif.Model.Restart
/-!
# Pictures of fields

Models `PlotFields` (callback/plot.py 15-194): the constructor, `_call` on each rank, and the registration of the colour maps.

Simplifications: `get_fields` is a function `fetch` from the name of a component to its array (C48 is about `get_fields`); a name that is
no component stops the program elsewhere and is left out. An array given by the user is a reference to a place in memory and is looked up when the picture is
drawn. Of matplotlib the model has the registry of colour maps (`register` refuses names that are taken, `unregister` removes a name) and
`imshow`, which refuses names that are not in the registry and arrays that do not have two axes (it would take three axes for an image
in colours if the last one has one, three or four entries; this is left out). The disk is a list of pairs of a name and the picture
last saved under it. Figures, axes and the directory are left out.
-/
namespace Verif.Plot

/-- what `cfg['field']` may be (plot.py 84-93): a name, an array of the user, or anything else -/
inductive Field
  | name (s : String)
  | array (ref : Nat)
  | other

/-- one entry of `field_configs`; `scale` is 1 if it is not given (plot.py 106-110) -/
structure Cfg where
  field : Field
  scale : ℚ := 1
  cmap : Option String := none
  vmin : Option ℚ := none
  vmax : Option ℚ := none

/-- an array: of two axes, with its lengths and values, or of another number of axes -/
inductive Arr
  | plane (nx ny : Nat) (val : Nat → Nat → ℚ)
  | more

/-- what a call reads from the simulation (plot.py 79, 87, 114, 127, 133) and from memory -/
structure Sim where
  lx : ℚ
  ly : ℚ
  time : ℚ
  itime : Nat
  fetch : String → Arr
  memory : Nat → Arr

/-- one image of a picture: `pix row column`, rows counted from below (`origin='lower'`), and its colours and label (plot.py 112-125) -/
structure Layer where
  rows : Nat
  cols : Nat
  pix : Nat → Nat → ℚ
  cmap : Option String
  vmin : Option ℚ
  vmax : Option ℚ
  label : String × ℚ

/-- a saved picture: its size, the lengths of its axes, its images from below to above, and its title (plot.py 102, 114, 127) -/
structure Picture where
  size : ℚ × ℚ
  extent : ℚ × ℚ
  layers : List Layer
  title : ℚ × Nat

/-- the callback: its configuration and `figsize` (plot.py 61-66) -/
structure Plot where
  cfgs : List Cfg
  figsize : Option (ℚ × ℚ) := none

/-- a process: the colour maps matplotlib knows, and the files in the directory -/
structure Proc where
  registry : List String
  files : List (List Char × Picture)

inductive Err
  | fieldType
  | taken (name : String)
  | unknown (name : String)
  | shape
deriving DecidableEq

/-- the names of `_cmaps` (plot.py 139-184) -/
def custom : List String := ["bwr_alpha", "gold_alpha", "grey_alpha", "red_alpha", "blue_alpha", "gwb_alpha"]

/-- `f"fields_{sim.itime:06d}.png"` (plot.py 133) -/
def fileName (itime : Nat) : List Char := ['f', 'i', 'e', 'l', 'd', 's', '_'] ++ Restart.pad6 itime ++ ['.', 'p', 'n', 'g']

/-- the first loop of `_call` (plot.py 81-93): the components asked of `get_fields`, in which all ranks have to take part, and the arrays, in
the order of the configuration -/
def gather (sim : Sim) : List Cfg → List String × Except Err (List Arr)
  | [] => ([], .ok [])
  | c :: cs => match c.field with
    | .name s => (s :: (gather sim cs).1, (gather sim cs).2.map (sim.fetch s :: ·))
    | .array r => ((gather sim cs).1, (gather sim cs).2.map (sim.memory r :: ·))
    | .other => ([], .error .fieldType)

/-- `register_cmaps` (plot.py 186-189): names registered before a refusal stay -/
def register : List String → List String → Option Err × List String
  | [], reg => (none, reg)
  | n :: ns, reg => if n ∈ reg then (some (.taken n), reg) else register ns (reg ++ [n])

/-- `unregister_cmaps` (plot.py 191-194) -/
def unregister (ns reg : List String) : List String := reg.filter fun n => n ∉ ns

/-- the label of the colour bar (plot.py 123-125) -/
def label (c : Cfg) : String × ℚ :=
  (match c.field with | .name s => s | _ => "field", c.scale)

/-- `ax.imshow(field_data[i].T * scale, …)` (plot.py 112-120): the transposed array has one row per cell along y -/
def imshow (reg : List String) (c : Cfg) : Arr → Except Err Layer
  | .more => .error (c.cmap.elim .shape fun n => if n ∈ reg then .shape else .unknown n)
  | .plane nx ny val => match c.cmap with
    | none => .ok ⟨ny, nx, fun row col => val col row * c.scale, none, c.vmin, c.vmax, label c⟩
    | some n => if n ∈ reg then .ok ⟨ny, nx, fun row col => val col row * c.scale, some n, c.vmin, c.vmax, label c⟩ else .error (.unknown n)

/-- the second loop of `_call` (plot.py 105-125) -/
def draw (reg : List String) : List Cfg → List Arr → Except Err (List Layer)
  | c :: cs, a :: as => match imshow reg c a with
    | .error e => .error e
    | .ok l => (draw reg cs as).map (l :: ·)
  | _, _ => .ok []

/-- how a call ends: its error, the components it gathered, and the callback and the process afterwards -/
structure Out where
  err : Option Err
  gathered : List String
  plot : Plot
  proc : Proc

/-- `_call` on rank `rank` (plot.py 77-137) -/
def call (rank : Nat) (sim : Sim) (p : Plot) (w : Proc) : Out :=
  let size := p.figsize.getD (10, 10 * sim.ly / sim.lx)
  let p' := { p with figsize := some size }
  let g := gather sim p.cfgs
  match g.2 with
  | .error e => ⟨some e, g.1, p', w⟩
  | .ok data =>
    if 0 < rank then ⟨none, g.1, p', w⟩ else
    match register custom w.registry with
    | (some e, reg) => ⟨some e, g.1, p', { w with registry := reg }⟩
    | (none, reg) =>
      match draw reg p.cfgs data with
      | .error e => ⟨some e, g.1, p', { w with registry := reg }⟩
      | .ok layers =>
        let pic : Picture := ⟨size, (sim.lx, sim.ly), layers, (sim.time, sim.itime)⟩
        ⟨none, g.1, p', ⟨unregister custom reg, (fileName sim.itime, pic) :: w.files.filter fun f => f.1 ≠ fileName sim.itime⟩⟩

/-- the calls of a run one after the other on one rank; the run ends with the first error -/
def calls (rank : Nat) : List Sim → Plot → Proc → Option Err × Plot × Proc
  | [], p, w => (none, p, w)
  | s :: ss, p, w => match (call rank s p w).err with
    | some e => (some e, (call rank s p w).plot, (call rank s p w).proc)
    | none => calls rank ss (call rank s p w).plot (call rank s p w).proc

end Verif.Plot
