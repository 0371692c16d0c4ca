import Mathlib.Tactic.Linarith
import Mathlib.Tactic.FieldSimp
import Mathlib.Tactic.Ring
import Mathlib.Algebra.Order.Ring.Rat
import Verif.Model.Plot
import Verif.Proofs.Restart
/-!
# Pictures of fields (C109)

Vocabulary: `Shown`: what a call reads for an entry of the configuration. `Drawable`: the entries are names or arrays with two axes, and their
colour maps are known to matplotlib or come with the program. `Shows`: a saved picture shows the entries at the time of a call.
-/
namespace Verif.Plot

/-- the array an entry stands for when the picture is drawn -/
inductive Shown (sim : Sim) : Field → Arr → Prop
  | name (s : String) : Shown sim (.name s) (sim.fetch s)
  | array (r : Nat) : Shown sim (.array r) (sim.memory r)

/-- the picture of a call can be drawn -/
def Drawable (known : List String) (cfgs : List Cfg) (sim : Sim) : Prop :=
  ∀ c ∈ cfgs, (∃ nx ny val, Shown sim c.field (.plane nx ny val)) ∧ ∀ n, c.cmap = some n → n ∈ known ∨ n ∈ custom

/-- one image of a picture: the pixel in column `i` and row `j` from below is the value of cell `(i, j)` times the scale -/
def ShowsEntry (sim : Sim) (c : Cfg) (l : Layer) : Prop :=
  ∃ nx ny val, Shown sim c.field (.plane nx ny val) ∧ l.cols = nx ∧ l.rows = ny ∧ (∀ i j, l.pix j i = c.scale * val i j) ∧
    l.cmap = c.cmap ∧ l.vmin = c.vmin ∧ l.vmax = c.vmax

/-- a picture shows the entries of the configuration in their order, with the lengths of the box and the time and step of the call -/
def Shows (cfgs : List Cfg) (sim : Sim) (pic : Picture) : Prop :=
  List.Forall₂ (ShowsEntry sim) cfgs pic.layers ∧ pic.extent = (sim.lx, sim.ly) ∧ pic.title = (sim.time, sim.itime)

theorem gather_ok {known : List String} {sim : Sim} : ∀ {cfgs : List Cfg}, Drawable known cfgs sim →
    ∃ data, (gather sim cfgs).2 = .ok data ∧ List.Forall₂ (fun c a => Shown sim c.field a ∧ ∃ nx ny val, a = .plane nx ny val) cfgs data
  | [], _ => ⟨[], rfl, .nil⟩
  | c :: cs, h => by
    obtain ⟨data, e, hd⟩ := gather_ok fun c' hc' => h c' (.tail _ hc')
    obtain ⟨⟨nx, ny, val, hs⟩, -⟩ := h c (.head _)
    obtain ⟨f, sc, cm, v1, v2⟩ := c
    generalize hA : Arr.plane nx ny val = A at hs
    cases hs with
    | name s => exact ⟨sim.fetch s :: data, by simp [gather, e, Except.map], .cons ⟨.name s, nx, ny, val, hA.symm⟩ hd⟩
    | array r => exact ⟨sim.memory r :: data, by simp [gather, e, Except.map], .cons ⟨.array r, nx, ny, val, hA.symm⟩ hd⟩

theorem register_ok : ∀ {ns reg : List String}, ns.Nodup → (∀ n ∈ ns, n ∉ reg) → register ns reg = (none, reg ++ ns)
  | [], reg, _, _ => by simp [register]
  | n :: ns, reg, hn, h => by
    rw [register, if_neg (h n (.head _)), register_ok (List.nodup_cons.mp hn).2]
    · simp
    · intro m hm hr
      rcases List.mem_append.mp hr with hr | hr
      · exact h m (.tail _ hm) hr
      · exact (List.nodup_cons.mp hn).1 (List.mem_singleton.mp hr ▸ hm)

theorem custom_nodup : custom.Nodup := by decide

theorem unregister_registered {reg : List String} (h : ∀ n ∈ custom, n ∉ reg) : unregister custom (reg ++ custom) = reg := by
  unfold unregister
  rw [List.filter_append, List.filter_eq_self.mpr, List.filter_eq_nil_iff.mpr, List.append_nil]
  · intro n hn
    simpa using hn
  · intro n hn
    simpa using fun hc => h n hc hn

theorem draw_ok {known : List String} {sim : Sim} : ∀ {cfgs : List Cfg} {data : List Arr}, Drawable known cfgs sim →
    List.Forall₂ (fun c a => Shown sim c.field a ∧ ∃ nx ny val, a = .plane nx ny val) cfgs data →
    ∃ ls, draw (known ++ custom) cfgs data = .ok ls ∧ List.Forall₂ (ShowsEntry sim) cfgs ls
  | [], _, _, .nil => ⟨[], rfl, .nil⟩
  | c :: cs, _ :: as, h, .cons ⟨hs, nx, ny, val, e⟩ ht => by
    obtain ⟨ls, e2, hl⟩ := draw_ok (fun c' hc' => h c' (.tail _ hc')) ht
    subst e
    have hi : imshow (known ++ custom) c (.plane nx ny val) =
        .ok ⟨ny, nx, fun row col => val col row * c.scale, c.cmap, c.vmin, c.vmax, label c⟩ := by
      cases hc : c.cmap with
      | none => simp [imshow, hc]
      | some n =>
        have := (h c (.head _)).2 n hc
        simp [imshow, hc, this]
    refine ⟨⟨ny, nx, fun row col => val col row * c.scale, c.cmap, c.vmin, c.vmax, label c⟩ :: ls, ?_, .cons ⟨nx, ny, val, hs, rfl, rfl, fun i j => mul_comm _ _, rfl, rfl, rfl⟩ hl⟩
    rw [draw, hi]
    simp [e2, Except.map]

/-- two steps never share a file -/
theorem fileName_inj {a b : Nat} (h : fileName a = fileName b) : a = b := by
  unfold fileName at h
  have h1 := List.append_cancel_left (List.append_cancel_right h)
  exact Restart.name_inj (congrArg (['c', 'k', 'p', 't', '_'] ++ ·) h1)

/-- one call on the first rank -/
theorem call_draws {sim : Sim} {p : Plot} {w : Proc} (hn : ∀ n ∈ custom, n ∉ w.registry) (hd : Drawable w.registry p.cfgs sim) :
    ∃ pic p' w', call 0 sim p w = ⟨none, (gather sim p.cfgs).1, p', w'⟩ ∧ Shows p.cfgs sim pic ∧ pic.size = p.figsize.getD (10, 10 * sim.ly / sim.lx) ∧
      p'.cfgs = p.cfgs ∧ p'.figsize = some pic.size ∧ w'.registry = w.registry ∧
      w'.files = (fileName sim.itime, pic) :: w.files.filter fun f => f.1 ≠ fileName sim.itime := by
  obtain ⟨data, e1, hg⟩ := gather_ok hd
  obtain ⟨ls, e2, hl⟩ := draw_ok hd hg
  refine ⟨⟨p.figsize.getD (10, 10 * sim.ly / sim.lx), (sim.lx, sim.ly), ls, (sim.time, sim.itime)⟩,
    { p with figsize := some (p.figsize.getD (10, 10 * sim.ly / sim.lx)) },
    ⟨w.registry, (fileName sim.itime, _) :: w.files.filter fun f => f.1 ≠ fileName sim.itime⟩, ?_, ⟨hl, rfl, rfl⟩, rfl, rfl, rfl, rfl, rfl⟩
  simp only [call, e1, Nat.lt_irrefl, if_false, register_ok custom_nodup hn, e2, unregister_registered hn]

/-- **C109.** A run on the first rank in which every picture can be drawn: no call fails; afterwards there is one file for every step at which
the callback ran (and for those before), found under the name of the step, and it shows the entries of the configuration in their order
at the last call of that step; files of other steps are as before, and so are the colour maps matplotlib knows. -/
theorem pictures {p : Plot} : ∀ {sims : List Sim} {w : Proc}, (∀ n ∈ custom, n ∉ w.registry) → (∀ s ∈ sims, Drawable w.registry p.cfgs s) →
    ∃ p' w', calls 0 sims p w = (none, p', w') ∧ w'.registry = w.registry ∧
      (∀ before s after, sims = before ++ s :: after → (∀ s' ∈ after, s'.itime ≠ s.itime) →
        ∃ pic, (∀ x, (fileName s.itime, x) ∈ w'.files ↔ x = pic) ∧ Shows p.cfgs s pic) ∧
      (∀ f, (∀ s ∈ sims, f.1 ≠ fileName s.itime) → (f ∈ w'.files ↔ f ∈ w.files)) := by
  intro sims
  induction sims generalizing p with
  | nil =>
    intro w _ _
    exact ⟨p, w, rfl, rfl, fun before s after h => by simp at h, fun _ _ => Iff.rfl⟩
  | cons s ss ih =>
    intro w hn hd
    obtain ⟨pic, p1, w1, e1, hs, -, hp, -, hr, hf⟩ := call_draws hn (hd s (.head _))
    obtain ⟨p', w', e2, hr2, h2, h3⟩ := ih (p := p1) (w := w1) (hr ▸ hn) (fun t ht => by rw [hr, hp]; exact hd t (.tail _ ht))
    refine ⟨p', w', ?_, hr2.trans hr, ?_, ?_⟩
    · simp only [calls, e1, e2]
    · intro before t after e hlast
      cases before with
      | nil =>
        obtain ⟨rfl, rfl⟩ := List.cons.inj e
        refine ⟨pic, fun x => ?_, hs⟩
        rw [h3 (fileName s.itime, x) fun s' hs' he => hlast s' hs' (fileName_inj he).symm, hf]
        simp
      | cons b bs =>
        obtain ⟨rfl, e'⟩ := List.cons.inj e
        rw [← hp]
        exact h2 bs t after e' hlast
    · intro f h
      rw [h3 f fun t ht => h t (.tail _ ht), hf]
      have h0 := h s (.head _)
      constructor
      · intro hm
        rcases List.mem_cons.mp hm with rfl | hm
        · exact absurd rfl h0
        · exact (List.mem_filter.mp hm).1
      · intro hm
        exact .tail _ (List.mem_filter.mpr ⟨hm, by simpa using h0⟩)

theorem gather_iff (sim : Sim) (cs : List Cfg) : (∃ d, (gather sim cs).2 = .ok d) ↔ ∀ c ∈ cs, c.field ≠ .other := by
  induction cs with
  | nil => simp [gather]
  | cons c cs ih =>
    rw [List.forall_mem_cons, ← ih, gather]
    cases hc : c.field with
    | name s =>
      cases hg : (gather sim cs).2 with
      | ok d => simp [Except.map]
      | error e => simp [Except.map]
    | array s =>
      cases hg : (gather sim cs).2 with
      | ok d => simp [Except.map]
      | error e => simp [Except.map]
    | other => simp

theorem call_gathered (rank : Nat) (sim : Sim) (p : Plot) (w : Proc) : (call rank sim p w).gathered = (gather sim p.cfgs).1 := by
  simp only [call]
  repeat' split
  all_goals rfl

theorem gather_names (sim : Sim) {cs : List Cfg} (h : ∀ c ∈ cs, c.field ≠ .other) :
    (gather sim cs).1 = cs.filterMap fun c => match c.field with | .name s => some s | _ => none := by
  induction cs with
  | nil => rfl
  | cons c cs ih =>
    rw [gather, List.filterMap_cons, ← ih fun c' hc' => h c' (.tail _ hc')]
    cases hc : c.field with
    | name s => rfl
    | array s => rfl
    | other => exact absurd hc (h c (.head _))

/-- **C109, all ranks.** The ranks gather the same components in the same order, whatever they have in memory and draw: those named in the
configuration. The other ranks draw nothing: they change neither files nor colour maps, and do not fail. -/
theorem all_ranks {p : Plot} (hf : ∀ c ∈ p.cfgs, c.field ≠ .other) (rank : Nat) (sim : Sim) (w : Proc) :
    (call rank sim p w).gathered = (p.cfgs.filterMap fun c => match c.field with | .name s => some s | _ => none) ∧
    (0 < rank → (call rank sim p w).err = none ∧ (call rank sim p w).proc = w) := by
  refine ⟨(call_gathered ..).trans (gather_names sim hf), fun hr => ?_⟩
  obtain ⟨d, h⟩ := (gather_iff sim p.cfgs).mpr hf
  simp only [call, h, hr, if_true]
  exact ⟨trivial, trivial⟩

/-- **C109 is false after a failure**: a call that fails while it draws leaves the colour maps of the program behind, and from then
on no picture is drawn in this process, whatever is to be drawn and by whichever callback. -/
theorem after_failure_fails {sim : Sim} {p : Plot} {w : Proc} (hn : ∀ n ∈ custom, n ∉ w.registry) {e : Err}
    (h : (call 0 sim p w).err = some e) (hf : ∀ c ∈ p.cfgs, c.field ≠ .other) (sim' : Sim) (q : Plot) :
    (call 0 sim' q (call 0 sim p w).proc).err ≠ none ∧ (call 0 sim' q (call 0 sim p w).proc).proc.files = w.files := by
  obtain ⟨d, hg⟩ := (gather_iff sim p.cfgs).mpr hf
  have hw : (call 0 sim p w).proc = ⟨w.registry ++ custom, w.files⟩ := by
    revert h
    simp only [call, hg, Nat.lt_irrefl, if_false, register_ok custom_nodup hn]
    cases hd : draw (w.registry ++ custom) p.cfgs d with
    | error e' => simp
    | ok l => simp
  rw [hw]
  have hreg : register custom (w.registry ++ custom) = (some (.taken "bwr_alpha"), w.registry ++ custom) := by
    rw [custom, register, if_pos]
    simp
  unfold call
  cases h2 : (gather sim' q.cfgs).2 with
  | error e' => simp [h2]
  | ok d' =>
    simp only [h2, Nat.lt_irrefl, if_false, hreg]
    exact ⟨by simp, trivial⟩

/-- calls that fail while they draw: a colour map that nobody knows -/
theorem unknown_colours {sim : Sim} {p : Plot} {w : Proc} (hn : ∀ n ∈ custom, n ∉ w.registry) {c : Cfg} {n : String} (hc : p.cfgs = [c])
    (hm : c.cmap = some n) (h1 : n ∉ w.registry) (h2 : n ∉ custom) {s : String} (hf : c.field = .name s) :
    (call 0 sim p w).err = some (.unknown n) := by
  have hi : ∀ a, imshow (w.registry ++ custom) c a = .error (.unknown n) := by
    intro a
    cases a <;> simp [imshow, hm, h1, h2]
  simp [call, hc, gather, hf, Except.map, register_ok custom_nodup hn, draw, hi]

/-- **C109 is false for the densities of a 3D simulation**: an array with three axes, such as those of `ExtractSpeciesDensity` in 3D, is not drawn. -/
theorem volumes_fail {sim : Sim} {p : Plot} {w : Proc} (hn : ∀ n ∈ custom, n ∉ w.registry) {c : Cfg} (hc : p.cfgs = [c])
    (hm : ∀ n, c.cmap = some n → n ∈ w.registry) {r : Nat} (hf : c.field = .array r) (ha : sim.memory r = .more) :
    (call 0 sim p w).err = some .shape := by
  have hi : imshow (w.registry ++ custom) c .more = .error .shape := by
    cases h : c.cmap with
    | none => simp [imshow, h]
    | some n => simp [imshow, h, hm n h]
  simp [call, hc, gather, hf, ha, Except.map, register_ok custom_nodup hn, draw, hi]

/-- the place on the x axis of the middle of column `i`: the image is spread evenly from 0 to the length of the axis (`extent` of `imshow`) -/
def middle (pic : Picture) (l : Layer) (i : Nat) : ℚ := pic.extent.1 * (i + 1 / 2) / l.cols

/-- **C109 is false for the places on the axes**: for a component of `nx` cells of length `dx`, the value of cell `i` is drawn around
`(i + 1/2) dx`, half a cell to the right of the place `i dx` of the cell. -/
theorem places_fail {cfgs : List Cfg} {sim : Sim} {pic : Picture} (h : Shows cfgs sim pic) {nx : Nat} {dx : ℚ} (hd : 0 < dx) (hn : 0 < nx)
    (hx : sim.lx = nx * dx) {l : Layer} (_ : l ∈ pic.layers) (hl : l.cols = nx) (i : Nat) :
    middle pic l i = i * dx + dx / 2 ∧ middle pic l i ≠ i * dx := by
  have h0 : (nx : ℚ) ≠ 0 := by positivity
  have : middle pic l i = i * dx + dx / 2 := by
    rw [middle, h.2.1, hl, hx]
    field_simp
  exact ⟨this, by rw [this]; linarith⟩

/-- a run with two calls: a component, and an array of the user with a colour map of the program -/
def exSim (t : Nat) : Sim where
  lx := 3
  ly := 2
  time := t
  itime := t
  fetch _ := .plane 3 2 fun i j => 10 * i + j + 100 * t
  memory _ := .plane 3 2 fun i j => i - j

def exPlot : Plot where
  cfgs := [{ field := .array 0, scale := 1 / 2, cmap := some "viridis" }, { field := .name "ey", cmap := some "bwr_alpha" }]

example : (∀ n ∈ custom, n ∉ (⟨["viridis"], []⟩ : Proc).registry) ∧
    (∀ s ∈ [exSim 0, exSim 7], Drawable (⟨["viridis"], []⟩ : Proc).registry exPlot.cfgs s) ∧
    ((calls 0 [exSim 0, exSim 7] exPlot ⟨["viridis"], []⟩).2.2.files.map fun f => (f.2.title.2, f.2.layers.map fun l => (l.cols, l.rows, l.pix 1 2))) =
      [(7, [(3, 2, 1 / 2), (3, 2, 721)]), (0, [(3, 2, 1 / 2), (3, 2, 21)])] := by
  refine ⟨by decide, ?_, by decide +kernel⟩
  intro s hs c hc
  have hsim : ∃ t, s = exSim t := by
    rcases List.mem_cons.mp hs with rfl | hs
    · exact ⟨_, rfl⟩
    · exact ⟨_, List.mem_singleton.mp hs⟩
  obtain ⟨t, rfl⟩ := hsim
  rcases List.mem_cons.mp hc with rfl | hc
  · exact ⟨⟨_, _, _, .array 0⟩, fun n h => .inl (by simp_all)⟩
  · obtain rfl := List.mem_singleton.mp hc
    exact ⟨⟨_, _, _, .name "ey"⟩, fun n h => .inr (by simp at h; subst h; decide)⟩

/-- the hypotheses of `after_failure_fails` -/
example : (call 0 (exSim 0) { cfgs := [{ field := .name "ey", cmap := some "no such map" }] } ⟨["viridis"], []⟩).err = some (.unknown "no such map") := by
  decide +kernel

end Verif.Plot
