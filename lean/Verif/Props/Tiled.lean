import Verif.Proofs.Tiled
import Verif.Props.Matter
import Verif.Props.Begin
/-!
# C108 — a periodic box stands for an infinite lattice: a box made of copies of a smaller box behaves as the smaller box

Specification vocabulary: `Verif/Spec/Tiled.lean` (`Tiles`), `TiledBy` below (two states of the program); `Admissible`, `Starts`,
`Inside` of C66.
-/
namespace Verif.Tiled
open Verif.Maxwell Verif.SyncFields Verif.Pusher Verif.Deposit Verif.Shape Verif.WholeRun Verif.PicStep Verif.Symmetry Verif.Matter Verif.Begin

variable {k : Nat}

/-- Specification: a state `y` of a program with a larger periodic box shows copies of a state `x` of a program with a smaller periodic
box, on patches that have nothing to do with each other: stored cells of E and B and own cells of the currents hold the same
values wherever the cells have the same place in the smaller box, and the matter of `y` consists of copies of that of `x` -/
structure TiledBy (m : Fin k → Nat) (C : Conf k) (N : Nat) (co : Nat → Fin k → Nat) (x : St k) (D : Conf k) (M : Nat)
    (cd : Nat → Fin k → Nat) (y : St k) : Prop where
  eb : ∀ t, t < N → ∀ s, s < M → ∀ v w, Stored C.n C.ng v → Stored D.n D.ng w →
    (∀ a, onGrid D.n (cd s) w a ≡ onGrid C.n (co t) v a [ZMOD (C.np a * C.n a : Int)]) → ∀ f,
    (y.fld s).e f (index D.n D.ng w) = (x.fld t).e f (index C.n C.ng v) ∧
    (y.fld s).b f (index D.n D.ng w) = (x.fld t).b f (index C.n C.ng v)
  j : ∀ t, t < N → ∀ s, s < M → ∀ v w, Stored C.n 0 v → Stored D.n 0 w →
    (∀ a, onGrid D.n (cd s) w a ≡ onGrid C.n (co t) v a [ZMOD (C.np a * C.n a : Int)]) → ∀ f,
    (y.fld s).j f (index D.n D.ng w) = (x.fld t).j f (index C.n C.ng v)
  matter : Tiles m (fun i => C.np i * C.n i * C.d i) (cloudOf N x.parts) (cloudOf M y.parts)

/-- Specification: the larger program has the same cells, constants and step, and `m a` times as many cells along axis `a` -/
structure Larger (m : Fin k → Nat) (C D : Conf k) : Prop where
  copies : ∀ a, 0 < m a
  cells : ∀ a, D.np a * D.n a = m a * (C.np a * C.n a)
  d : D.d = C.d
  c2 : D.c2 = C.c2
  eps0 : D.eps0 = C.eps0
  dt : D.dt = C.dt
  rs : D.rs = C.rs

/-! ## from states to undivided simulations and back -/

section
variable {m : Fin k → Nat} {C D : Conf k} {β : ℚ} {N M : Nat} {co cd : Nat → Fin k → Nat} {x y : St k}

theorem starts_tiled {V : World k} (hl : Larger m C D) (hcov : Covered C N co) (h : Starts C N co β x V) (ht : TiledBy m C N co x D M cd y)
    (hi : Inside D M cd β y) : Starts D M cd β y ⟨V.fld, cloudOf M y.parts⟩ where
  agrees := by
    have st : ∀ v : Fin k → Int, Stored C.n 0 v → Stored C.n C.ng v := fun v hv a => by
      have := hv a
      push_cast at this
      constructor <;> omega
    refine ⟨?_, ?_, ?_, List.forall₂_same.mpr fun s _ => ⟨rfl, .of_perm (.refl _)⟩⟩
    · intro s hs f w hw
      obtain ⟨t, h1, v, hv, he⟩ := hcov (onGrid D.n (cd s) w)
      rw [(ht.eb t h1 s hs v w (st v hv) hw (fun a => (he a).symm) f).1, h.agrees.e t h1 f v (st v hv)]
      exact (h.period _ _ he f).1
    · intro s hs f w hw
      obtain ⟨t, h1, v, hv, he⟩ := hcov (onGrid D.n (cd s) w)
      rw [(ht.eb t h1 s hs v w (st v hv) hw (fun a => (he a).symm) f).2, h.agrees.b t h1 f v (st v hv)]
      exact (h.period _ _ he f).2.1
    · intro s hs f w hw
      obtain ⟨t, h1, v, hv, he⟩ := hcov (onGrid D.n (cd s) w)
      rw [ht.j t h1 s hs v w hv hw (fun a => (he a).symm) f, h.agrees.j t h1 f v hv]
      exact (h.period _ _ he f).2.2
  inside := hi
  period := by
    intro v w hvw f
    refine h.period v w (fun a => (hvw a).of_dvd ?_) f
    have e : (D.np a * D.n a : Int) = m a * (C.np a * C.n a) := by exact_mod_cast hl.cells a
    rw [e]
    exact Dvd.intro_left _ rfl

theorem tiled_of {V W : World k} (hl : Larger m C D) (h : Starts C N co β x V) (h' : Starts D M cd β y W) (hf : W.fld = V.fld)
    (hm : Tiles m (len C.np C.n C.d) V.cloud W.cloud) : TiledBy m C N co x D M cd y where
  eb t ht s hs v w hv hw he f := by
    obtain ⟨r1, r2, _⟩ := h.period _ _ he f
    exact ⟨by rw [h.agrees.e t ht f v hv, h'.agrees.e s hs f w hw, hf, r1],
      by rw [h.agrees.b t ht f v hv, h'.agrees.b s hs f w hw, hf, r2]⟩
  j t ht s hs v w hv hw he f := by
    obtain ⟨_, _, r3⟩ := h.period _ _ he f
    rw [h.agrees.j t ht f v hv, h'.agrees.j s hs f w hw, hf, r3]
  matter := by
    refine hm.of_matter hl.copies (SameMatter.of_same h.agrees.species).symm ?_
    have := (SameMatter.of_same h'.agrees.species).symm
    have e : (fun i => (D.np i * D.n i * D.d i : ℚ)) = fun i => m i * len C.np C.n C.d i := by
      have := long_len (d := C.d) hl.cells
      rw [← hl.d] at this ⊢
      exact this
    rw [e] at this
    exact this

theorem tiles_of {V : World k} (hl : Larger m C D) (h : Starts C N co β x V) (ht : TiledBy m C N co x D M cd y) :
    Tiles m (len C.np C.n C.d) V.cloud (cloudOf M y.parts) :=
  Tiles.of_matter ht.matter hl.copies (SameMatter.of_same h.agrees.species) fun _ _ => rfl
end

/-- C108 in 2D: two runs, on whatever patches, ranks, schedules, orders and paths of the push, of a periodic box and of a larger
periodic box of the same cells, `m a` times as long along axis `a`. If the larger one begins with copies of the fields and of the
matter of the smaller one side by side, it shows copies of the fields and of the matter of the smaller one after every number of steps. -/
theorem lattice2 {m : Fin 2 → Nat} {C D : Conf 2} {β : ℚ} (hC : Admissible C β) (hD : Admissible D β) (hl : Larger m C D) {V : World 2}
    {rk rk' : Nat → Nat → Nat} {x y : Nat → St 2} (h0 : Starts C (sys2 C).npatches C.coord2 β (x 0) V) (hrun : Run (sys2 C) rk x)
    (ht : TiledBy m C (sys2 C).npatches C.coord2 (x 0) D (sys2 D).npatches D.coord2 (y 0)) (hi : Inside D (sys2 D).npatches D.coord2 β (y 0))
    (hrun' : Run (sys2 D) rk' y) (i : Nat) : TiledBy m C (sys2 C).npatches C.coord2 (x i) D (sys2 D).npatches D.coord2 (y i) := by
  have h := fun i => follows2.mp (run_follows hC.facts2 hC.bounds2 (follows2.mpr h0) hrun i)
  have h' := fun i => follows2.mp (run_follows hD.facts2 hD.bounds2 (follows2.mpr (starts_tiled hl (covered2 hC) h0 ht hi)) hrun' i)
  have p0 : ∀ a, 0 < C.np a * C.n a := fun a => lt_of_lt_of_le (by omega) (Reverse.cells_two hC a)
  have g := run_tiles (Φ := C.phys2) (Φ' := D.phys2) (d := C.d) (m := m)
    (weighs2 (np := C.np) (n := C.n) (c2 := C.c2) (eps0 := C.eps0) p0 hC.cell hC.step C.rs)
    (by
      have := weighs2 (np := D.np) (n := D.n) (c2 := D.c2) (eps0 := D.eps0) (fun a => lt_of_lt_of_le (by omega) (Reverse.cells_two hD a)) hD.cell hD.step D.rs
      rw [hl.d] at this
      unfold Conf.phys2
      rw [hl.d]
      exact this) hl.cells
    (by unfold Conf.phys2 phys2; rw [hl.d, hl.c2, hl.eps0]) (by unfold Conf.phys2 phys2; rw [hl.d, hl.c2, hl.eps0])
    (by unfold Conf.phys2 phys2; rw [hl.d]) hl.rs hl.dt
    (fun a b hab ha hb => by
      show cur2 _ D.d D.dt b = cur2 _ C.d C.dt a
      rw [hl.d, hl.dt]
      exact cur_tiles2 p0 hl.copies hl.cells hC.cell hC.step a b hab ha hb)
    (W := V) (W' := ⟨V.fld, cloudOf (sys2 D).npatches (y 0).parts⟩) (fun i => (h i).period.per) rfl
    (fun i => Reverse.slow_start hC (h i)) (fun i => by rw [← hl.d]; exact Reverse.slow_start hD (h' i)) (tiles_of hl h0 ht) i
  exact tiled_of hl (h i) (h' i) g.1 g.2

/-- C108 in 3D for species on the unified path. Missing for the full property: species on the split path, which the code does not
move in 3D (C24). -/
theorem lattice3_partial {m : Fin 3 → Nat} {C D : Conf 3} {β : ℚ} (hC : Admissible C β) (hD : Admissible D β) (hl : Larger m C D) {V : World 3}
    {rk rk' : Nat → Nat → Nat} {x y : Nat → St 3} (h0 : Starts C (sys3 C).npatches C.coord3 β (x 0) V)
    (hu : ∀ a ∈ (x 0).parts, a.1.unified = true) (hrun : Run (sys3 C) rk x)
    (ht : TiledBy m C (sys3 C).npatches C.coord3 (x 0) D (sys3 D).npatches D.coord3 (y 0)) (hi : Inside D (sys3 D).npatches D.coord3 β (y 0))
    (hu' : ∀ a ∈ (y 0).parts, a.1.unified = true)
    (hrun' : Run (sys3 D) rk' y) (i : Nat) : TiledBy m C (sys3 C).npatches C.coord3 (x i) D (sys3 D).npatches D.coord3 (y i) := by
  have h := fun i => (follows3.mp (run_follows hC.facts3 hC.bounds3 (follows3.mpr ⟨h0, hu⟩) hrun i)).1
  have h' := fun i => (follows3.mp (run_follows hD.facts3 hD.bounds3 (follows3.mpr ⟨starts_tiled hl (covered3 hC) h0 ht hi, hu'⟩) hrun' i)).1
  have g := run_tiles (Φ := C.phys3) (Φ' := D.phys3) (d := C.d) (m := m)
    (weighs3 (np := C.np) (n := C.n) (c2 := C.c2) (eps0 := C.eps0) (Reverse.cells_two hC) hC.cell hC.step C.rs)
    (by
      have := weighs3 (np := D.np) (n := D.n) (c2 := D.c2) (eps0 := D.eps0) (Reverse.cells_two hD) hD.cell hD.step D.rs
      rw [hl.d] at this
      unfold Conf.phys3
      rw [hl.d]
      exact this) hl.cells
    (by unfold Conf.phys3 phys3; rw [hl.d, hl.c2, hl.eps0]) (by unfold Conf.phys3 phys3; rw [hl.d, hl.c2, hl.eps0])
    (by unfold Conf.phys3 phys3; rw [hl.d]) hl.rs hl.dt
    (fun a b hab ha hb => by
      show cur3 _ D.d D.dt b = cur3 _ C.d C.dt a
      rw [hl.d, hl.dt]
      exact cur_tiles3 (Reverse.cells_two hC) hl.copies hl.cells hC.cell hC.step a b hab ha hb)
    (W := V) (W' := ⟨V.fld, cloudOf (sys3 D).npatches (y 0).parts⟩) (fun i => (h i).period.per) rfl
    (fun i => Reverse.slow_start hC (h i)) (fun i => by rw [← hl.d]; exact Reverse.slow_start hD (h' i)) (tiles_of hl h0 ht) i
  exact tiled_of hl (h i) (h' i) g.1 g.2

/-! ## cases that meet the hypotheses -/

/-- an electron at `(h, 1, …)` -/
def exPos (h : ℚ) : Fin k → ℚ := fun i => if (i : Nat) = 0 then h else 1
def exSlot (h : ℚ) : Slot k := ⟨fun i => .val (exPos h i), exMom, ⟨0, 0, 0, 0, 0, 0⟩, false⟩

/-- two patches with an electron at `(1, 1, …)` in the first and at `(7, 1, …)` in the second -/
def exTwice (k : Nat) (un : Bool) : St k :=
  ⟨fun _ => ⟨fun f _ => if f = 1 then 5 else 0, fun _ _ => 0, fun _ _ => 0⟩,
   [(⟨⟨-1, 1⟩, un⟩, fun t => if t = 0 then [exSlot 1] else if t = 1 then [exSlot 7] else [])]⟩

theorem exSlotNums (h : ℚ) : nums (exSlot (k := k) h).pos = some (exPos h) := by
  unfold nums exSlot
  rw [if_pos (fun _ => by simp)]

theorem exInside {np n : Fin k → Nat} {co : Nat → Fin k → Nat} (hn : ∀ a, 3 ≤ n a) (h6 : ∀ a : Fin k, (a : Nat) = 0 → n a = 6)
    (h0 : ∀ a, co 0 a = 0) (h1 : ∀ a : Fin k, co 1 a = if (a : Nat) = 0 then 1 else 0) (un : Bool) :
    Inside (exConf k np n) 2 co 1 (exTwice k un) := by
  intro a ha t ht s hs hd
  rcases List.mem_singleton.mp ha with rfl
  have slow : ∀ i : Fin k, |(exMom.invGamma) * uAt exMom i| ≤ 1 := by
    intro i
    show |(4 / 5 : ℚ) * uAt exMom i| ≤ 1
    unfold uAt
    match (i : Nat) with
    | 0 => show |(4 / 5 : ℚ) * (3 / 4)| ≤ 1; rw [abs_of_pos (by norm_num)]; norm_num
    | 1 => show |(4 / 5 : ℚ) * 0| ≤ 1; norm_num
    | (j + 2) => show |(4 / 5 : ℚ) * 0| ≤ 1; norm_num
  dsimp only at hs
  split at hs
  · rename_i e
    subst e
    rcases List.mem_singleton.mp hs with rfl
    refine ⟨_, exSlotNums 1, fun i => ?_, slow⟩
    have : (3 : ℚ) ≤ n i := by exact_mod_cast hn i
    have e : exPos (k := k) 1 i = 1 := by unfold exPos; split <;> rfl
    show (co 0 i : ℚ) * n i * 1 - 1 / 2 ≤ exPos 1 i ∧ exPos 1 i ≤ (co 0 i : ℚ) * n i * 1 + n i * 1 - 1 / 2
    rw [e, h0]
    constructor <;> push_cast <;> linarith
  · split at hs
    · rename_i e
      subst e
      rcases List.mem_singleton.mp hs with rfl
      refine ⟨_, exSlotNums 7, fun i => ?_, slow⟩
      have : (3 : ℚ) ≤ n i := by exact_mod_cast hn i
      show (co 1 i : ℚ) * n i * 1 - 1 / 2 ≤ exPos 7 i ∧ exPos 7 i ≤ (co 1 i : ℚ) * n i * 1 + n i * 1 - 1 / 2
      rw [h1]
      unfold exPos
      split
      · rename_i e
        rw [h6 i e]
        norm_num
      · constructor <;> push_cast <;> linarith
    · cases hs

theorem exTiled {np n np' n' : Fin k → Nat} {m : Fin k → Nat} (hm : ∀ i, 0 < m i) (N : Nat) (hN : 0 < N) {co cd : Nat → Fin k → Nat} (un : Bool)
    (hs : ∀ F : (Fin k → ℚ) → ℚ, ∑ z : (i : Fin k) → Fin (m i), F (fun i => 1 + (z i : Nat) * ((np i : ℚ) * n i * 1)) = F (exPos 1) + F (exPos 7)) :
    TiledBy m (exConf k np n) N co (exState k un) (exConf k np' n') 2 cd (exTwice k un) where
  eb := fun _ _ _ _ _ _ _ _ _ _ => ⟨rfl, rfl⟩
  j := fun _ _ _ _ _ _ _ _ _ _ => rfl
  matter := by
    have ha : SameMatter (fun i => (np i * n i * 1 : ℚ)) (cloudOf N (exState k un).parts) (exWorld k).cloud :=
      SameMatter.of_same (exSpecies hN _ un (-1))
    intro F hF
    have e2 : ptc (exSlot (k := k) 1) = some ⟨exPos 1, exMom⟩ := by unfold ptc; rw [exSlotNums]; rfl
    have e3 : ptc (exSlot (k := k) 7) = some ⟨exPos 7, exMom⟩ := by unfold ptc; rw [exSlotNums]; rfl
    have c2 : cloudOf 2 (exTwice k un).parts = [(⟨-1, 1⟩, [⟨exPos 1, exMom⟩, ⟨exPos 7, exMom⟩])] := by
      show [((⟨-1, 1⟩ : Kind), List.filterMap ptc [exSlot 1] ++ (List.filterMap ptc [exSlot 7] ++ []))] = _
      rw [List.filterMap_cons_some e2, List.filterMap_cons_some e3]
      rfl
    rw [c2]
    refine Eq.trans ?_ (ha _ fun κ x u z => copies_shift hm (F := fun y => F κ y u) (fun y w => hF κ y u w) x z).symm
    show (1 * F ⟨-1, 1⟩ (exPos 1) ⟨3 / 4, 0, 0, 4 / 5⟩ + (1 * F ⟨-1, 1⟩ (exPos 7) ⟨3 / 4, 0, 0, 4 / 5⟩ + 0)) + 0
      = (1 * (∑ z : (i : Fin k) → Fin (m i), F ⟨-1, 1⟩ (fun i => 1 + (z i : Nat) * ((np i : ℚ) * n i * 1)) ⟨3 / 4, 0, 0, 4 / 5⟩) + 0) + (0 : ℚ)
    rw [hs fun y => F ⟨-1, 1⟩ y ⟨3 / 4, 0, 0, 4 / 5⟩]
    show _ = (1 * (F ⟨-1, 1⟩ (exPos 1) ⟨3 / 4, 0, 0, 4 / 5⟩ + F ⟨-1, 1⟩ (exPos 7) ⟨3 / 4, 0, 0, 4 / 5⟩) + 0) + (0 : ℚ)
    ring

/-- 2D: a box of two patches of 3 × 3 cells with one electron, on changing ranks and the split path, and a box of two patches of 6 × 3
cells with two electrons -/
example : ∃ x y : Nat → St 2,
    Admissible (exConf 2 ![2, 1] ![3, 3]) 1 ∧ Admissible (exConf 2 ![2, 1] ![6, 3]) 1 ∧
    Larger ![2, 1] (exConf 2 ![2, 1] ![3, 3]) (exConf 2 ![2, 1] ![6, 3]) ∧
    Starts (exConf 2 ![2, 1] ![3, 3]) (sys2 (exConf 2 ![2, 1] ![3, 3])).npatches (exConf 2 ![2, 1] ![3, 3]).coord2 1 (x 0) (exWorld 2) ∧
    Run (sys2 (exConf 2 ![2, 1] ![3, 3])) (fun i t => (i + t) % 2) x ∧
    TiledBy ![2, 1] (exConf 2 ![2, 1] ![3, 3]) (sys2 (exConf 2 ![2, 1] ![3, 3])).npatches (exConf 2 ![2, 1] ![3, 3]).coord2 (x 0)
      (exConf 2 ![2, 1] ![6, 3]) (sys2 (exConf 2 ![2, 1] ![6, 3])).npatches (exConf 2 ![2, 1] ![6, 3]).coord2 (y 0) ∧
    Inside (exConf 2 ![2, 1] ![6, 3]) (sys2 (exConf 2 ![2, 1] ![6, 3])).npatches (exConf 2 ![2, 1] ![6, 3]).coord2 1 (y 0) ∧
    Run (sys2 (exConf 2 ![2, 1] ![6, 3])) (fun _ _ => 0) y := by
  have a1 : Admissible (exConf 2 ![2, 1] ![3, 3]) 1 :=
    exConf_ok (fun a => match a with | 0 => by decide | 1 => by decide) (fun a => match a with | 0 => by decide | 1 => by decide)
  have a2 : Admissible (exConf 2 ![2, 1] ![6, 3]) 1 :=
    exConf_ok (fun a => match a with | 0 => by decide | 1 => by decide) (fun a => match a with | 0 => by decide | 1 => by decide)
  have s1 := exStarts (np := ![2, 1]) (n := ![3, 3]) (N := (sys2 (exConf 2 ![2, 1] ![3, 3])).npatches)
    (co := (exConf 2 ![2, 1] ![3, 3]).coord2) (fun a => match a with | 0 => by decide | 1 => by decide) (by decide)
    (by funext a; match a with | 0 => rfl | 1 => rfl) false
  have l1 : Larger ![2, 1] (exConf 2 ![2, 1] ![3, 3]) (exConf 2 ![2, 1] ![6, 3]) :=
    ⟨fun a => match a with | 0 => by decide | 1 => by decide, fun a => match a with | 0 => rfl | 1 => rfl, rfl, rfl, rfl, rfl, rfl⟩
  have t1 : TiledBy ![2, 1] (exConf 2 ![2, 1] ![3, 3]) (sys2 (exConf 2 ![2, 1] ![3, 3])).npatches (exConf 2 ![2, 1] ![3, 3]).coord2 (exState 2 false)
      (exConf 2 ![2, 1] ![6, 3]) (sys2 (exConf 2 ![2, 1] ![6, 3])).npatches (exConf 2 ![2, 1] ![6, 3]).coord2 (exTwice 2 false) :=
    exTiled l1.copies _ (by decide) false fun F => by
      have u : (Finset.univ : Finset ((i : Fin 2) → Fin ((![2, 1] : Fin 2 → Nat) i)))
          = {(fun i => match i with | 0 => (0 : Fin 2) | 1 => (0 : Fin 1)), (fun i => match i with | 0 => (1 : Fin 2) | 1 => (0 : Fin 1))} := by
        decide
      rw [u, Finset.sum_pair (by decide)]
      congr 2
      · funext i
        match i with
        | 0 => show (1 + ((0 : Nat) : ℚ) * _ : ℚ) = 1; simp
        | 1 => show (1 + ((0 : Nat) : ℚ) * _ : ℚ) = 1; simp
      · funext i
        match i with
        | 0 => show (1 + ((1 : Nat) : ℚ) * (((2 : Nat) : ℚ) * ((3 : Nat) : ℚ) * 1) : ℚ) = 7; norm_num
        | 1 => show (1 + ((0 : Nat) : ℚ) * _ : ℚ) = 1; simp
  have i1 : Inside (exConf 2 ![2, 1] ![6, 3]) (sys2 (exConf 2 ![2, 1] ![6, 3])).npatches (exConf 2 ![2, 1] ![6, 3]).coord2 1 (exTwice 2 false) :=
    exInside (k := 2) (fun a => match a with | 0 => by decide | 1 => by decide) (fun a => match a with | 0 => fun _ => rfl | 1 => (fun h => by cases h))
      (fun a => match a with | 0 => rfl | 1 => rfl) (fun a => match a with | 0 => rfl | 1 => rfl) false
  obtain ⟨x, e1, r1⟩ := runs2 a1 s1 (fun i t => (i + t) % 2)
  obtain ⟨y, e2, r2⟩ := runs2 a2 (starts_tiled l1 (covered2 a1) s1 t1 i1) (fun _ _ => 0)
  exact ⟨x, y, a1, a2, l1, e1 ▸ s1, r1, e1 ▸ e2 ▸ t1, e2 ▸ i1, r2⟩

/-- 3D, on the unified path -/
example : ∃ x y : Nat → St 3,
    Admissible (exConf 3 ![2, 1, 1] ![3, 3, 3]) 1 ∧ Admissible (exConf 3 ![2, 1, 1] ![6, 3, 3]) 1 ∧
    Larger ![2, 1, 1] (exConf 3 ![2, 1, 1] ![3, 3, 3]) (exConf 3 ![2, 1, 1] ![6, 3, 3]) ∧
    Starts (exConf 3 ![2, 1, 1] ![3, 3, 3]) (sys3 (exConf 3 ![2, 1, 1] ![3, 3, 3])).npatches (exConf 3 ![2, 1, 1] ![3, 3, 3]).coord3 1 (x 0) (exWorld 3) ∧
    (∀ a ∈ (x 0).parts, a.1.unified = true) ∧
    Run (sys3 (exConf 3 ![2, 1, 1] ![3, 3, 3])) (fun _ t => t) x ∧
    TiledBy ![2, 1, 1] (exConf 3 ![2, 1, 1] ![3, 3, 3]) (sys3 (exConf 3 ![2, 1, 1] ![3, 3, 3])).npatches (exConf 3 ![2, 1, 1] ![3, 3, 3]).coord3 (x 0)
      (exConf 3 ![2, 1, 1] ![6, 3, 3]) (sys3 (exConf 3 ![2, 1, 1] ![6, 3, 3])).npatches (exConf 3 ![2, 1, 1] ![6, 3, 3]).coord3 (y 0) ∧
    Inside (exConf 3 ![2, 1, 1] ![6, 3, 3]) (sys3 (exConf 3 ![2, 1, 1] ![6, 3, 3])).npatches (exConf 3 ![2, 1, 1] ![6, 3, 3]).coord3 1 (y 0) ∧
    (∀ a ∈ (y 0).parts, a.1.unified = true) ∧
    Run (sys3 (exConf 3 ![2, 1, 1] ![6, 3, 3])) (fun _ _ => 0) y := by
  have a1 : Admissible (exConf 3 ![2, 1, 1] ![3, 3, 3]) 1 :=
    exConf_ok (fun a => match a with | 0 => by decide | 1 => by decide | 2 => by decide) (fun a => match a with | 0 => by decide | 1 => by decide | 2 => by decide)
  have a2 : Admissible (exConf 3 ![2, 1, 1] ![6, 3, 3]) 1 :=
    exConf_ok (fun a => match a with | 0 => by decide | 1 => by decide | 2 => by decide) (fun a => match a with | 0 => by decide | 1 => by decide | 2 => by decide)
  have s1 := exStarts (np := ![2, 1, 1]) (n := ![3, 3, 3]) (N := (sys3 (exConf 3 ![2, 1, 1] ![3, 3, 3])).npatches)
    (co := (exConf 3 ![2, 1, 1] ![3, 3, 3]).coord3) (fun a => match a with | 0 => by decide | 1 => by decide | 2 => by decide) (by decide)
    (by funext a; match a with | 0 => rfl | 1 => rfl | 2 => rfl) true
  have l1 : Larger ![2, 1, 1] (exConf 3 ![2, 1, 1] ![3, 3, 3]) (exConf 3 ![2, 1, 1] ![6, 3, 3]) :=
    ⟨fun a => match a with | 0 => by decide | 1 => by decide | 2 => by decide, fun a => match a with | 0 => rfl | 1 => rfl | 2 => rfl, rfl, rfl, rfl, rfl, rfl⟩
  have t1 : TiledBy ![2, 1, 1] (exConf 3 ![2, 1, 1] ![3, 3, 3]) (sys3 (exConf 3 ![2, 1, 1] ![3, 3, 3])).npatches (exConf 3 ![2, 1, 1] ![3, 3, 3]).coord3 (exState 3 true)
      (exConf 3 ![2, 1, 1] ![6, 3, 3]) (sys3 (exConf 3 ![2, 1, 1] ![6, 3, 3])).npatches (exConf 3 ![2, 1, 1] ![6, 3, 3]).coord3 (exTwice 3 true) :=
    exTiled l1.copies _ (by decide) true fun F => by
      have u : (Finset.univ : Finset ((i : Fin 3) → Fin ((![2, 1, 1] : Fin 3 → Nat) i)))
          = {(fun i => match i with | 0 => (0 : Fin 2) | 1 => (0 : Fin 1) | 2 => (0 : Fin 1)),
             (fun i => match i with | 0 => (1 : Fin 2) | 1 => (0 : Fin 1) | 2 => (0 : Fin 1))} := by
        decide
      rw [u, Finset.sum_pair (by decide)]
      congr 2
      · funext i
        match i with
        | 0 => show (1 + ((0 : Nat) : ℚ) * _ : ℚ) = 1; simp
        | 1 => show (1 + ((0 : Nat) : ℚ) * _ : ℚ) = 1; simp
        | 2 => show (1 + ((0 : Nat) : ℚ) * _ : ℚ) = 1; simp
      · funext i
        match i with
        | 0 => show (1 + ((1 : Nat) : ℚ) * (((2 : Nat) : ℚ) * ((3 : Nat) : ℚ) * 1) : ℚ) = 7; norm_num
        | 1 => show (1 + ((0 : Nat) : ℚ) * _ : ℚ) = 1; simp
        | 2 => show (1 + ((0 : Nat) : ℚ) * _ : ℚ) = 1; simp
  have i1 : Inside (exConf 3 ![2, 1, 1] ![6, 3, 3]) (sys3 (exConf 3 ![2, 1, 1] ![6, 3, 3])).npatches (exConf 3 ![2, 1, 1] ![6, 3, 3]).coord3 1 (exTwice 3 true) :=
    exInside (k := 3) (fun a => match a with | 0 => by decide | 1 => by decide | 2 => by decide)
      (fun a => match a with | 0 => fun _ => rfl | 1 => (fun h => by cases h) | 2 => (fun h => by cases h))
      (fun a => match a with | 0 => rfl | 1 => rfl | 2 => rfl) (fun a => match a with | 0 => rfl | 1 => rfl | 2 => rfl) true
  have hu : ∀ a ∈ (exState 3 true).parts, a.1.unified = true := by
    intro a ha
    rcases List.mem_singleton.mp ha with rfl
    rfl
  have hu' : ∀ a ∈ (exTwice 3 true).parts, a.1.unified = true := by
    intro a ha
    rcases List.mem_singleton.mp ha with rfl
    rfl
  obtain ⟨x, e1, r1⟩ := runs3 a1 s1 hu (fun _ t => t)
  obtain ⟨y, e2, r2⟩ := runs3 a2 (starts_tiled l1 (covered3 a1) s1 t1 i1) hu' (fun _ _ => 0)
  exact ⟨x, y, a1, a2, l1, e1 ▸ s1, e1 ▸ hu, r1, e1 ▸ e2 ▸ t1, e2 ▸ i1, e2 ▸ hu', r2⟩

end Verif.Tiled
