import Verif.Proofs.Track
import Verif.Props.WholeRun
import Verif.Props.WholePml
import Verif.Props.Reverse
/-!
# C100 — every particle can be followed through a run

Specification vocabulary: `Verif/Spec/Track.lean` (`Along`, `Later`, `Tracked`), `Admissible`, `Starts` of
`Verif/Props/WholeRun.lean`, `LStarts` of `Verif/Props/WholePml.lean`, and `NearLayer` below.
-/
namespace Verif.Track
open Verif.WholeRun Verif.Pusher Verif.Deposit Verif.Maxwell
open Verif.WholePml (LConf LSt LWorld LStarts LAgrees Free lsys2 lsys3 LRun2 LRun3)
open Verif.Cpml (Inits2 Inits3)

section Gen
variable {k : Nat}

/-- Specification: the lengths of the domain -/
def lengths (C : Conf k) (i : Fin k) : ℚ := C.np i * C.n i * C.d i

/-- Specification: the lengths of the domain after which places are the same: none along absorbing axes -/
def openLengths (C : LConf k) (i : Fin k) : ℚ := if C.pml i = true then 0 else C.np i * C.n i * C.par.d i

/-- Specification: one of the absorbing layers can be reached from `x` on a way of length `r` -/
def NearLayer (C : LConf k) (r : ℚ) (x : Fin k → ℚ) : Prop :=
  ∃ i, C.pml i = true ∧ (x i - r < C.thick * C.par.d i - C.par.d i / 2 ∨
    ((C.np i * C.n i : Nat) - C.thick) * C.par.d i - C.par.d i / 2 < x i + r)

theorem near_fate (C : LConf k) : Fate (openLengths C) (NearLayer C) where
  more := by
    rintro r r' x hr ⟨i, hi, h⟩
    refine ⟨i, hi, h.imp (fun h => ?_) fun h => ?_⟩ <;> linarith
  back := by
    rintro r r' p q hpq ⟨i, hi, h⟩
    obtain ⟨z, hz⟩ := hpq.pos i
    unfold openLengths at hz
    rw [if_pos hi, mul_zero, sub_zero, abs_le] at hz
    refine ⟨i, hi, h.imp (fun h => ?_) fun h => ?_⟩ <;> linarith [hz.1, hz.2]

theorem leaves_near (C : LConf k) (r : ℚ) (p q : Ptc k) (h : Along (fun _ => 0) r p q) (hq : ¬ Free C.whole q.pos) : NearLayer C r p.pos := by
  unfold Free at hq
  push Not at hq
  obtain ⟨i, hi, h'⟩ := hq
  obtain ⟨z, hz⟩ := h.pos i
  rw [mul_zero, sub_zero, abs_le] at hz
  refine ⟨i, hi, ?_⟩
  rcases lt_or_ge (q.pos i) (C.whole.thick * C.whole.par.d i - C.whole.par.d i / 2) with h1 | h1
  · left
    have h1' : q.pos i < C.thick * C.par.d i - C.par.d i / 2 := h1
    linarith [hz.1, hz.2]
  · right
    have h2 : ((C.np i * C.n i : Nat) - C.thick) * C.par.d i - C.par.d i / 2 < q.pos i := h' h1
    linarith [hz.1, hz.2]

theorem slow_cloud {C : Conf k} {N : Nat} {co : Nat → Fin k → Nat} {β : ℚ} {L : Fin k → ℚ} {x : St k} {cl : List (Kind × List (Ptc k))}
    (h : SameCloud L (cloudOf N x.parts) cl) (hi : Inside C N co β x) :
    ∀ s ∈ cl, ∀ p ∈ s.2, ∀ i : Fin k, |p.mom.invGamma * uAt p.mom i| ≤ β :=
  SameCloud.moms h (P := fun m => ∀ i : Fin k, |m.invGamma * uAt m i| ≤ β)
    (Reverse.slot_of (P := fun m => ∀ i : Fin k, |m.invGamma * uAt m i| ≤ β) fun a ha t ht s hs hd => (hi a ha t ht s hs hd).choose_spec.2.2)

/-- steps of the undivided simulation, as the clouds of the program show them -/
theorem track_all {L : Fin k → ℚ} {lost : ℚ → (Fin k → ℚ) → Prop} (F : Fate L lost) {r : ℚ} (hr : 0 ≤ r)
    {a b : Nat → List (Kind × List (Ptc k))} (h : ∀ i, SameCloud L (a i) (b i)) (hs : ∀ i, Tracked L lost r (b i) (b (i + 1))) (i j : Nat) :
    Tracked L lost (j * r) (a i) (a (i + j)) := by
  have all : ∀ j : Nat, Tracked L lost (j * r) (b i) (b (i + j)) := by
    intro j
    induction j with
    | zero =>
      rw [Nat.cast_zero, zero_mul]
      exact tracked_same (List.forall₂_same.mpr fun s _ => ⟨rfl, .of_perm (.refl _)⟩)
    | succ j ih =>
      have := ih.trans F hr (hs (i + j))
      push_cast
      rw [add_one_mul]
      exact this
  have h1 := (tracked_same (lost := lost) (h i)).trans F (mul_nonneg (Nat.cast_nonneg j) hr) (all j)
  have h2 := h1.trans F (le_refl 0) (tracked_same (lost := lost) (h (i + j)).symm)
  rwa [zero_add, add_zero] at h2

theorem way_nonneg {C : Conf k} {β : ℚ} (hC : Admissible C β) : 0 ≤ lightSpeed * |C.dt| * β :=
  mul_nonneg (mul_nonneg (by unfold lightSpeed; norm_num) (abs_nonneg _)) hC.speed
end Gen

/-- C100: in every 2D run on periodic axes, on any patches, rank layouts, schedules and orders and on either path of the push, the
particles of every later state are the particles of the earlier one, one to one and with none lost or added: each has the same
weight and species and has moved by at most the way of light in that time along each axis (`β` times, up to whole lengths of the
domain) -/
theorem tracked2 {C : Conf 2} {β : ℚ} (hC : Admissible C β) {W : World 2} {rk : Nat → Nat → Nat} {x : Nat → St 2}
    (h0 : Starts C (sys2 C).npatches C.coord2 β (x 0) W) (hrun : Run (sys2 C) rk x) (i j : Nat) :
    Tracked (lengths C) Never (j * (lightSpeed * |C.dt| * β)) (cloudOf (sys2 C).npatches (x i).parts)
      (cloudOf (sys2 C).npatches (x (i + j)).parts) :=
  track_all (b := fun i => (undividedRun2 C W i).cloud) (never_fate _) (way_nonneg hC) (fun i => (run_is_undivided2 hC h0 hrun i).1.species)
    (fun i => step_tracked (Φ := C.phys2) _ hC.speed hC.root (undividedRun2 C W i)
      (slow_cloud (run_is_undivided2 hC h0 hrun i).1.species (run_is_undivided2 hC h0 hrun i).2)) i j

/-- C100 in 3D for species on the unified path. Missing for the full property: species on the split path, which the code does not
move. -/
theorem tracked3_partial {C : Conf 3} {β : ℚ} (hC : Admissible C β) {W : World 3} {rk : Nat → Nat → Nat} {x : Nat → St 3}
    (h0 : Starts C (sys3 C).npatches C.coord3 β (x 0) W) (hu : ∀ a ∈ (x 0).parts, a.1.unified = true)
    (hrun : Run (sys3 C) rk x) (i j : Nat) :
    Tracked (lengths C) Never (j * (lightSpeed * |C.dt| * β)) (cloudOf (sys3 C).npatches (x i).parts)
      (cloudOf (sys3 C).npatches (x (i + j)).parts) :=
  track_all (b := fun i => (undividedRun3 C W i).cloud) (never_fate _) (way_nonneg hC) (fun i => (run_is_undivided3_partial hC h0 hu hrun i).1.species)
    (fun i => step_tracked (Φ := C.phys3) _ hC.speed hC.root (undividedRun3 C W i)
      (slow_cloud (run_is_undivided3_partial hC h0 hu hrun i).1.species (run_is_undivided3_partial hC h0 hu hrun i).2)) i j

/-- C100 with absorbing layers: the same, but particles can be lost; only those are lost that light could bring to a layer in that
time -/
theorem tracked_open2 {C : LConf 2} {β : ℚ} (hC : Admissible C.conf β) (hth : 0 < C.thick) {U : LWorld 2}
    {rk : Nat → Nat → Nat} {x : Nat → LSt 2} (hi : Inits2 C.toPConf (x 0).dom.lay)
    (h0 : LStarts C (lsys2 C).npatches C.coord2 β (x 0) U) (hrun : LRun2 C rk x) (i j : Nat) :
    Tracked (openLengths C) (NearLayer C) (j * (lightSpeed * |C.dt| * β)) (cloudOf (lsys2 C).npatches (x i).parts)
      (cloudOf (lsys2 C).npatches (x (i + j)).parts) :=
  track_all (b := fun i => (WholePml.undividedRun2 C U i).cloud) (near_fate C) (way_nonneg hC)
    (fun i => (WholePml.run_is_undivided2 hC hth hi h0 hrun i).1.species)
    (fun i => lstep_tracked (W := C.whole) (Φ := WholePml.lphys2 C.whole C.dt C.rs) _ hC.speed hC.root (fun p q => leaves_near C _ p q)
      (WholePml.undividedRun2 C U i) (slow_cloud (x := ⟨(x i).dom.fld, (x i).parts⟩)
        (WholePml.run_is_undivided2 hC hth hi h0 hrun i).1.species (WholePml.run_is_undivided2 hC hth hi h0 hrun i).2)) i j

/-- C100 with absorbing layers in 3D. Missing for the full property: a single patch on an absorbing axis, and species on the split
path. -/
theorem tracked_open3_partial {C : LConf 3} {β : ℚ} (hC : Admissible C.conf β) (hth : 0 < C.thick)
    (htwo : ∀ a, C.pml a = true → 2 ≤ C.np a) {U : LWorld 3}
    {rk : Nat → Nat → Nat} {x : Nat → LSt 3} (hi : Inits3 C.toPConf (x 0).dom.lay)
    (h0 : LStarts C (lsys3 C).npatches C.coord3 β (x 0) U) (hu : ∀ a ∈ (x 0).parts, a.1.unified = true) (hrun : LRun3 C rk x) (i j : Nat) :
    Tracked (openLengths C) (NearLayer C) (j * (lightSpeed * |C.dt| * β)) (cloudOf (lsys3 C).npatches (x i).parts)
      (cloudOf (lsys3 C).npatches (x (i + j)).parts) :=
  track_all (b := fun i => (WholePml.undividedRun3 C U i).cloud) (near_fate C) (way_nonneg hC)
    (fun i => (WholePml.run_is_undivided3_partial hC hth htwo hi h0 hu hrun i).1.species)
    (fun i => lstep_tracked (W := C.whole) (Φ := WholePml.lphys3 C.whole C.dt C.rs) _ hC.speed hC.root (fun p q => leaves_near C _ p q)
      (WholePml.undividedRun3 C U i) (slow_cloud (x := ⟨(x i).dom.fld, (x i).parts⟩)
        (WholePml.run_is_undivided3_partial hC hth htwo hi h0 hu hrun i).1.species (WholePml.run_is_undivided3_partial hC hth htwo hi h0 hu hrun i).2)) i j

/-! ## cases that meet the hypotheses -/

/-- 2D: a run on two patches that change their rank in every step, with the split path -/
example : ∃ x : Nat → St 2, Admissible (exConf 2 ![2, 1] ![4, 3]) 1 ∧
    Starts (exConf 2 ![2, 1] ![4, 3]) (sys2 (exConf 2 ![2, 1] ![4, 3])).npatches (exConf 2 ![2, 1] ![4, 3]).coord2 1 (x 0) (exWorld 2) ∧
    Run (sys2 (exConf 2 ![2, 1] ![4, 3])) (fun i t => (i + t) % 2) x := by
  have a1 : Admissible (exConf 2 ![2, 1] ![4, 3]) 1 :=
    exConf_ok (fun a => match a with | 0 => by decide | 1 => by decide) (fun a => match a with | 0 => by decide | 1 => by decide)
  have s1 := exStarts (np := ![2, 1]) (n := ![4, 3]) (N := (sys2 (exConf 2 ![2, 1] ![4, 3])).npatches)
    (co := (exConf 2 ![2, 1] ![4, 3]).coord2) (fun a => match a with | 0 => by decide | 1 => by decide) (by decide)
    (by funext a; match a with | 0 => rfl | 1 => rfl) false
  obtain ⟨x, e1, r1⟩ := runs2 a1 s1 (fun i t => (i + t) % 2)
  exact ⟨x, a1, e1 ▸ s1, r1⟩

/-- 2D with layers -/
example : ∃ x : Nat → LSt 2, Admissible (WholePml.exL 2 ![2, 1] ![6, 3]).conf 1 ∧
    Inits2 (WholePml.exL 2 ![2, 1] ![6, 3]).toPConf (x 0).dom.lay ∧
    LStarts (WholePml.exL 2 ![2, 1] ![6, 3]) (lsys2 (WholePml.exL 2 ![2, 1] ![6, 3])).npatches (WholePml.exL 2 ![2, 1] ![6, 3]).coord2 1 (x 0) (WholePml.exU 2) ∧
    LRun2 (WholePml.exL 2 ![2, 1] ![6, 3]) (fun i t => (i + t) % 2) x := by
  have a1 : Admissible (WholePml.exL 2 ![2, 1] ![6, 3]).conf 1 := WholeRun.exConf_ok (np := ![2, 1]) (n := ![6, 3])
    (fun a => match a with | 0 => by decide | 1 => by decide) (fun a => match a with | 0 => by decide | 1 => by decide)
  have i1 : Inits2 (WholePml.exL 2 ![2, 1] ![6, 3]).toPConf (Cpml.exLay (WholePml.exL 2 ![2, 1] ![6, 3]).toPConf) := Cpml.exInits _ (by decide +kernel)
  have s1 := WholePml.exLStarts (np := ![2, 1]) (n := ![6, 3]) (N := (lsys2 (WholePml.exL 2 ![2, 1] ![6, 3])).npatches)
    (co := (WholePml.exL 2 ![2, 1] ![6, 3]).coord2) (fun a => match a with | 0 => by decide | 1 => by decide) (by decide)
    (by funext a; match a with | 0 => rfl | 1 => rfl) (Cpml.exLay (WholePml.exL 2 ![2, 1] ![6, 3]).toPConf) false
  obtain ⟨x, e1, r1⟩ := WholePml.runs2 a1 (by decide) i1 s1 (fun i t => (i + t) % 2)
  exact ⟨x, a1, e1 ▸ i1, e1 ▸ s1, r1⟩

/-- a particle in cell 3 of 12 is out of reach of the layers for five steps of half a cell, and within reach for six -/
example : ¬ NearLayer (WholePml.exL 2 ![2, 1] ![6, 3]) (5 / 2) (fun _ => 3) ∧ NearLayer (WholePml.exL 2 ![2, 1] ![6, 3]) 3 (fun _ => 3) := by
  constructor
  · rintro ⟨i, hi, h⟩
    match i with
    | 0 =>
      rcases h with h | h
      · have : (3 : ℚ) - 5 / 2 < (1 : Nat) * 1 - 1 / 2 := h
        norm_num at this
      · have : (((2 * 6 : Nat) : ℚ) - (1 : Nat)) * 1 - 1 / 2 < 3 + 5 / 2 := h
        norm_num at this
    | 1 => cases hi
  · refine ⟨0, rfl, .inl ?_⟩
    show (3 : ℚ) - 3 < (1 : Nat) * 1 - 1 / 2
    norm_num

/-- two particles change places: they can be followed, and neither is lost -/
example : Tracked (k := 1) (fun _ => 4) Never (1 / 2)
    [(⟨-1, 1⟩, [⟨fun _ => 0, exMom⟩, ⟨fun _ => 3, exMom⟩])] [(⟨-1, 1⟩, [⟨fun _ => 3 / 2 + 1, exMom⟩, ⟨fun _ => 4, exMom⟩])] := by
  refine .cons ⟨rfl, [⟨fun _ => 0, exMom⟩, ⟨fun _ => 3, exMom⟩], [], [⟨fun _ => 4, exMom⟩, ⟨fun _ => 3 / 2 + 1, exMom⟩], .refl _,
    .swap _ _ _, .cons ⟨rfl, fun _ => ⟨1, ?_⟩⟩ (.cons ⟨rfl, fun _ => ⟨0, ?_⟩⟩ .nil), fun _ h => by cases h⟩ .nil
  · norm_num
  · show |(3 / 2 + 1 : ℚ) - 3 - (0 : ℤ) * 4| ≤ 1 / 2
    rw [abs_le]
    norm_num

end Verif.Track
