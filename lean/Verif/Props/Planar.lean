import Verif.Proofs.Planar
import Verif.Props.Reverse
import Verif.Props.Begin
/-!
# C103 — a 3D run of a problem that does not depend on z is the 2D run

Specification vocabulary: `Verif/Spec/Planar.lean` (`flat`, `DrawnOut`, `Planar`), `SameColumn` below; `Admissible`, `Starts` of C66.
-/
namespace Verif.Planar
open Verif.Maxwell Verif.SyncFields Verif.Pusher Verif.Deposit Verif.WholeRun Verif.Symmetry Verif.Matter

/-- Specification: a state `x` of a 2D program and a state `y` of a 3D program, on patches that have nothing to do with each other,
show the same: stored cells of E and B and own cells of the currents over the same cell of the x-y plane hold the same values,
whatever their place along z, and the matter of `y` is that of `x` drawn out along z -/
structure SameColumn (C : Conf 2) (N : Nat) (co : Nat → Fin 2 → Nat) (x : St 2) (D : Conf 3) (M : Nat) (cd : Nat → Fin 3 → Nat) (y : St 3) : Prop where
  eb : ∀ t, t < N → ∀ s, s < M → ∀ v w, Stored C.n C.ng v → Stored D.n D.ng w →
    (∀ a, flat (onGrid D.n (cd s) w) a ≡ onGrid C.n (co t) v a [ZMOD (C.np a * C.n a : Int)]) → ∀ f,
    (y.fld s).e f (index D.n D.ng w) = (x.fld t).e f (index C.n C.ng v) ∧
    (y.fld s).b f (index D.n D.ng w) = (x.fld t).b f (index C.n C.ng v)
  j : ∀ t, t < N → ∀ s, s < M → ∀ v w, Stored C.n 0 v → Stored D.n 0 w →
    (∀ a, flat (onGrid D.n (cd s) w) a ≡ onGrid C.n (co t) v a [ZMOD (C.np a * C.n a : Int)]) → ∀ f,
    (y.fld s).j f (index D.n D.ng w) = (x.fld t).j f (index C.n C.ng v)
  matter : DrawnOut (fun i => D.np i * D.n i * D.d i) (D.d 2) (cloudOf N x.parts) (cloudOf M y.parts)

theorem flat_fits {C : Conf 2} {D : Conf 3} (hN : ∀ a, C.np a * C.n a = flat D.np a * flat D.n a) (hd : C.d = flat D.d) :
    flat (fun i => (D.np i * D.n i * D.d i : ℚ)) = fun i => C.np i * C.n i * C.d i := by
  funext i
  have e : ((C.np i * C.n i : Nat) : ℚ) = ((flat D.np i * flat D.n i : Nat) : ℚ) := by rw [hN i]
  push_cast at e
  rw [e, hd]
  match i with
  | 0 => rfl
  | 1 => rfl

theorem drawn_of {L : Fin 3 → ℚ} {dz : ℚ} {a a' : List (Kind × List (Ptc 2))} {b b' : List (Kind × List (Ptc 3))}
    (ha : SameMatter (flat L) a a') (hb : SameMatter L b b') (h : DrawnOut L dz a b) : DrawnOut L dz a' b' where
  even F hF := by
    have hl : ∀ cl, amount F (lifted dz cl) = amount (fun κ x u => F κ (along dz x) u) cl := fun cl =>
      (amount_map F (fun _ => liftP dz) (fun κ x u => F κ (along dz x) u) (fun _ _ => rfl) cl)
    have hF' : ∀ κ x u (z : Fin 3 → ℤ), F κ (along dz fun i => x i + z i * L i) u = F κ (along dz x) u := by
      intro κ x u z
      rw [← hF κ (along dz x) u z]
      congr 1
      funext i
      match i with
      | 0 => rfl
      | 1 => rfl
      | 2 => show x 2 + z 2 * L 2 + dz = x 2 + dz + z 2 * L 2; ring
    rw [hl, ← hb _ hF', ← hl, h.even F hF, hb F hF]
  column F hF := by
    rw [← ha F hF, ← h.column F hF]
    refine (hb _ ?_).symm
    intro κ x u z
    rw [← hF κ (flat x) u (flat z)]
    congr 1
    funext i
    match i with
    | 0 => rfl
    | 1 => rfl

theorem column_of {C : Conf 2} {D : Conf 3} {β : ℚ} {N M : Nat} {co : Nat → Fin 2 → Nat} {cd : Nat → Fin 3 → Nat} {x : St 2} {y : St 3}
    {V : World 2} {W : World 3} (h : Starts C N co β x V) (h' : Starts D M cd β y W)
    (hN : ∀ a, C.np a * C.n a = flat D.np a * flat D.n a) (hd : C.d = flat D.d)
    (hp : Planar (fun i => D.np i * D.n i * D.d i) (D.d 2) V W) : SameColumn C N co x D M cd y where
  eb t ht s hs v w hv hw he f := by
    obtain ⟨r1, r2, _⟩ := h.period _ _ he f
    obtain ⟨a1, a2, _⟩ := hp.fields f (onGrid D.n (cd s) w)
    exact ⟨by rw [h.agrees.e t ht f v hv, h'.agrees.e s hs f w hw, a1, r1],
      by rw [h.agrees.b t ht f v hv, h'.agrees.b s hs f w hw, a2, r2]⟩
  j t ht s hs v w hv hw he f := by
    obtain ⟨_, _, r3⟩ := h.period _ _ he f
    obtain ⟨_, _, a3⟩ := hp.fields f (onGrid D.n (cd s) w)
    rw [h.agrees.j t ht f v hv, h'.agrees.j s hs f w hw, a3, r3]
  matter := drawn_of (by
    have := (SameMatter.of_same h.agrees.species).symm
    rw [← flat_fits hN hd] at this
    exact this) (SameMatter.of_same h'.agrees.species).symm hp.matter

/-- the undivided simulation the 3D state begins with -/
theorem starts_column {C : Conf 2} {D : Conf 3} {β : ℚ} {N M : Nat} {co : Nat → Fin 2 → Nat} {cd : Nat → Fin 3 → Nat} {x : St 2} {y : St 3}
    {V : World 2} (h : Starts C N co β x V) (hcov : Begin.Covered C N co) (hN : ∀ a, C.np a * C.n a = flat D.np a * flat D.n a)
    (ht : SameColumn C N co x D M cd y) (hi : Inside D M cd β y) : Starts D M cd β y ⟨extF V.fld, cloudOf M y.parts⟩ where
  agrees := by
    refine ⟨?_, ?_, ?_, List.forall₂_same.mpr fun s _ => ⟨rfl, .of_perm (.refl _)⟩⟩
    · intro s hs f w hw
      obtain ⟨t, h1, v, hv, he⟩ := hcov (flat (onGrid D.n (cd s) w))
      rw [(ht.eb t h1 s hs v w (Begin.own_stored hv) hw (fun a => (he a).symm) f).1, h.agrees.e t h1 f v (Begin.own_stored hv)]
      exact (h.period _ _ he f).1
    · intro s hs f w hw
      obtain ⟨t, h1, v, hv, he⟩ := hcov (flat (onGrid D.n (cd s) w))
      rw [(ht.eb t h1 s hs v w (Begin.own_stored hv) hw (fun a => (he a).symm) f).2, h.agrees.b t h1 f v (Begin.own_stored hv)]
      exact (h.period _ _ he f).2.1
    · intro s hs f w hw
      obtain ⟨t, h1, v, hv, he⟩ := hcov (flat (onGrid D.n (cd s) w))
      rw [ht.j t h1 s hs v w hv hw (fun a => (he a).symm) f, h.agrees.j t h1 f v hv]
      exact (h.period _ _ he f).2.2
  inside := hi
  period := by
    intro v w hvw f
    refine h.period (flat v) (flat w) (fun a => ?_) f
    have e : (C.np a * C.n a : Int) = flat D.np a * flat D.n a := by exact_mod_cast hN a
    rw [e]
    match a with
    | 0 => exact hvw 0
    | 1 => exact hvw 1

theorem planar_of {C : Conf 2} {D : Conf 3} {β : ℚ} {N M : Nat} {co : Nat → Fin 2 → Nat} {cd : Nat → Fin 3 → Nat} {x : St 2} {y : St 3}
    {V : World 2} (h : Starts C N co β x V) (hN : ∀ a, C.np a * C.n a = flat D.np a * flat D.n a) (hd : C.d = flat D.d)
    (ht : SameColumn C N co x D M cd y) : Planar (fun i => D.np i * D.n i * D.d i) (D.d 2) V ⟨extF V.fld, cloudOf M y.parts⟩ where
  fields f c := ⟨rfl, rfl, rfl⟩
  matter := drawn_of (by
    have := SameMatter.of_same h.agrees.species
    rw [← flat_fits hN hd] at this
    exact this) (fun _ _ => rfl) ht.matter

/-- C103 for species on the unified path: a 2D run and a 3D run, on any patches, rank layouts, schedules, orders and paths of the
push, on domains with the same cells in the x-y plane. If the 3D run begins with the fields of the 2D run, the same in every cell
along z, and with its matter drawn out along z, then it shows the fields of the 2D run in every cell along z, and its matter drawn
out along z, after every number of steps.
Missing for the full property: species on the split path of the 3D run, which the code does not move (C24). -/
theorem planar_run3_partial {C : Conf 2} {D : Conf 3} {β : ℚ} (hC : Admissible C β) (hD : Admissible D β)
    (hN : ∀ a, C.np a * C.n a = flat D.np a * flat D.n a) (hd : C.d = flat D.d) (hc : C.c2 = D.c2) (he : C.eps0 = D.eps0)
    (ht : C.dt = D.dt) (hs : C.rs = D.rs) {V : World 2} {rk rk' : Nat → Nat → Nat} {x : Nat → St 2} {y : Nat → St 3}
    (h0 : Starts C (sys2 C).npatches C.coord2 β (x 0) V) (hi : Inside D (sys3 D).npatches D.coord3 β (y 0))
    (hu : ∀ a ∈ (y 0).parts, a.1.unified = true) (hrun : Run (sys2 C) rk x) (hrun' : Run (sys3 D) rk' y)
    (hp : SameColumn C (sys2 C).npatches C.coord2 (x 0) D (sys3 D).npatches D.coord3 (y 0)) (i : Nat) :
    SameColumn C (sys2 C).npatches C.coord2 (x i) D (sys3 D).npatches D.coord3 (y i) := by
  have h0' := starts_column h0 (Begin.covered2 hC) hN hp hi
  have hp := planar_of h0 hN hd hp
  have h := fun i => follows2.mp (run_follows hC.facts2 hC.bounds2 (follows2.mpr h0) hrun i)
  have h' := fun i => (follows3.mp (run_follows hD.facts3 hD.bounds3 (follows3.mpr ⟨h0', hu⟩) hrun' i)).1
  have eN : (flat fun a => D.np a * D.n a) = fun a => C.np a * C.n a := by
    funext a
    rw [hN a]
    match a with
    | 0 => rfl
    | 1 => rfl
  have e : C.phys2 = phys2 (flat fun a => D.np a * D.n a) (flat D.d) D.c2 D.eps0 D.dt D.rs := by
    rw [eN, ← hd, ← hc, ← he, ← ht, ← hs]
    rfl
  rw [e] at h
  refine column_of (h i) (h' i) hN hd ?_
  refine planar_run (np := D.np) (n := D.n) (Reverse.cells_two hD) hD.cell hD.step hp (fun i => ?_) (fun i => ?_)
    (fun i => Reverse.slow_start hD (h' i)) i
  · have hq := (h i).period.per
    have hk : ∀ v w : Fin 2 → Int, (∀ a, v a ≡ w a [ZMOD (flat D.np a * flat D.n a : Int)]) → ∀ a, v a ≡ w a [ZMOD (C.np a * C.n a : Int)] :=
      fun v w hvw a => by
        have e : (C.np a * C.n a : Int) = flat D.np a * flat D.n a := by exact_mod_cast hN a
        rw [e]
        exact hvw a
    exact ⟨fun f v w hvw => hq.e f v w (hk v w hvw), fun f v w hvw => hq.b f v w (hk v w hvw), fun f v w hvw => hq.j f v w (hk v w hvw)⟩
  · have := Reverse.slow_start hC (h i)
    rw [hd, ht] at this
    exact this

/-! ## a case that meets the hypotheses -/

/-- an electron in every one of three cells along z, over the electron of `exWorld 2` -/
def exColumn : World 3 :=
  ⟨(exWorld 3).fld, [(⟨-1, 1⟩, [⟨![1, 1, 0], exMom⟩, ⟨![1, 1, 1], exMom⟩, ⟨![1, 1, 2], exMom⟩])]⟩
def exSlot (z : ℚ) : Slot 3 := ⟨fun a => .val ((![1, 1, z] : Fin 3 → ℚ) a), exMom, ⟨0, 0, 0, 0, 0, 0⟩, false⟩
def exColumnState : St 3 := ⟨(exState 3 true).fld, [(⟨⟨-1, 1⟩, true⟩, fun t => if t = 0 then [exSlot 0, exSlot 1, exSlot 2] else [])]⟩

theorem exSlotNums (z : ℚ) : nums (exSlot z).pos = some ![1, 1, z] := by
  unfold nums exSlot
  rw [if_pos (fun _ => by simp)]

theorem exColumnStarts {np n : Fin 3 → Nat} {co : Nat → Fin 3 → Nat} (hn : ∀ a, 3 ≤ n a) (hc : co 0 = fun _ => 0) :
    Starts (exConf 3 np n) 1 co 1 exColumnState exColumn where
  agrees := ⟨fun _ _ _ _ _ => rfl, fun _ _ _ _ _ => rfl, fun _ _ _ _ _ => rfl, .cons ⟨rfl, .of_perm (by
    show (([exSlot 0, exSlot 1, exSlot 2].filterMap ptc) ++ []).Perm _
    have : ∀ z, ptc (exSlot z) = some ⟨![1, 1, z], exMom⟩ := fun z => by unfold ptc; rw [exSlotNums]; rfl
    rw [List.append_nil, List.filterMap_cons_some (this 0), List.filterMap_cons_some (this 1), List.filterMap_cons_some (this 2)]
    exact .refl _)⟩ .nil⟩
  inside := by
    intro a ha t ht s hs hd
    rcases List.mem_singleton.mp ha with rfl
    dsimp only at hs
    split at hs
    · rename_i h0
      subst h0
      obtain ⟨z, rfl, hz0, hz2⟩ : ∃ z : ℚ, s = exSlot z ∧ 0 ≤ z ∧ z ≤ 2 := by
        rcases List.mem_cons.mp hs with rfl | hs
        · exact ⟨0, rfl, by norm_num, by norm_num⟩
        rcases List.mem_cons.mp hs with rfl | hs
        · exact ⟨1, rfl, by norm_num, by norm_num⟩
        rcases List.mem_singleton.mp hs with rfl
        exact ⟨2, rfl, by norm_num, by norm_num⟩
      refine ⟨_, exSlotNums z, ?_, ?_⟩
      · intro i
        rw [hc]
        show ((0 : Nat) : ℚ) * n i * 1 - 1 / 2 ≤ (![1, 1, z] : Fin 3 → ℚ) i ∧ (![1, 1, z] : Fin 3 → ℚ) i ≤ ((0 : Nat) : ℚ) * n i * 1 + n i * 1 - 1 / 2
        have : (3 : ℚ) ≤ n i := by exact_mod_cast hn i
        have hz : 0 ≤ (![1, 1, z] : Fin 3 → ℚ) i ∧ (![1, 1, z] : Fin 3 → ℚ) i ≤ 2 := by
          match i with
          | 0 => exact ⟨by show (0 : ℚ) ≤ 1; norm_num, by show (1 : ℚ) ≤ 2; norm_num⟩
          | 1 => exact ⟨by show (0 : ℚ) ≤ 1; norm_num, by show (1 : ℚ) ≤ 2; norm_num⟩
          | 2 => exact ⟨hz0, hz2⟩
        constructor
        · push_cast; linarith [hz.1]
        · push_cast; linarith [hz.2]
      · intro i
        show |(4 / 5 : ℚ) * uAt exMom i| ≤ 1
        match i with
        | 0 => show |(4 / 5 : ℚ) * (3 / 4)| ≤ 1; rw [abs_of_pos (by norm_num)]; norm_num
        | 1 => show |(4 / 5 : ℚ) * 0| ≤ 1; norm_num
        | 2 => show |(4 / 5 : ℚ) * 0| ≤ 1; norm_num
    · cases hs
  period := fun _ _ _ _ => ⟨rfl, rfl, rfl⟩

/-- a 2D run of an electron in a constant field on two patches that change their rank in every step, and a 3D run of an electron
in each of the three cells along z, on one patch -/
example : ∃ (x : Nat → St 2) (y : Nat → St 3),
    Admissible (exConf 2 ![2, 1] ![3, 3]) 1 ∧ Admissible (exConf 3 ![1, 1, 1] ![6, 3, 3]) 1 ∧
    (∀ a, (![2, 1] : Fin 2 → Nat) a * (![3, 3] : Fin 2 → Nat) a = flat (![1, 1, 1] : Fin 3 → Nat) a * flat (![6, 3, 3] : Fin 3 → Nat) a) ∧
    Starts (exConf 2 ![2, 1] ![3, 3]) (sys2 (exConf 2 ![2, 1] ![3, 3])).npatches (exConf 2 ![2, 1] ![3, 3]).coord2 1 (x 0) (exWorld 2) ∧
    Inside (exConf 3 ![1, 1, 1] ![6, 3, 3]) (sys3 (exConf 3 ![1, 1, 1] ![6, 3, 3])).npatches (exConf 3 ![1, 1, 1] ![6, 3, 3]).coord3 1 (y 0) ∧
    (∀ a ∈ (y 0).parts, a.1.unified = true) ∧
    Run (sys2 (exConf 2 ![2, 1] ![3, 3])) (fun i t => (i + t) % 2) x ∧ Run (sys3 (exConf 3 ![1, 1, 1] ![6, 3, 3])) (fun _ _ => 0) y ∧
    SameColumn (exConf 2 ![2, 1] ![3, 3]) (sys2 (exConf 2 ![2, 1] ![3, 3])).npatches (exConf 2 ![2, 1] ![3, 3]).coord2 (x 0)
      (exConf 3 ![1, 1, 1] ![6, 3, 3]) (sys3 (exConf 3 ![1, 1, 1] ![6, 3, 3])).npatches (exConf 3 ![1, 1, 1] ![6, 3, 3]).coord3 (y 0) := by
  have a1 : Admissible (exConf 2 ![2, 1] ![3, 3]) 1 :=
    exConf_ok (fun a => match a with | 0 => by decide | 1 => by decide) (fun a => match a with | 0 => by decide | 1 => by decide)
  have a2 : Admissible (exConf 3 ![1, 1, 1] ![6, 3, 3]) 1 :=
    exConf_ok (fun a => match a with | 0 => by decide | 1 => by decide | 2 => by decide)
      (fun a => match a with | 0 => by decide | 1 => by decide | 2 => by decide)
  have s1 := exStarts (np := ![2, 1]) (n := ![3, 3]) (N := (sys2 (exConf 2 ![2, 1] ![3, 3])).npatches)
    (co := (exConf 2 ![2, 1] ![3, 3]).coord2) (fun a => match a with | 0 => by decide | 1 => by decide) (by decide)
    (by funext a; match a with | 0 => rfl | 1 => rfl) false
  have s2 := exColumnStarts (np := ![1, 1, 1]) (n := ![6, 3, 3]) (co := (exConf 3 ![1, 1, 1] ![6, 3, 3]).coord3)
    (fun a => match a with | 0 => by decide | 1 => by decide | 2 => by decide) (by funext a; match a with | 0 => rfl | 1 => rfl | 2 => rfl)
  have hu : ∀ a ∈ exColumnState.parts, a.1.unified = true := by
    intro a ha
    rcases List.mem_singleton.mp ha with rfl
    rfl
  obtain ⟨x, e1, r1⟩ := runs2 a1 s1 (fun i t => (i + t) % 2)
  obtain ⟨y, e2, r2⟩ := runs3 a2 (show Starts _ (sys3 (exConf 3 ![1, 1, 1] ![6, 3, 3])).npatches _ 1 exColumnState exColumn from s2) hu (fun _ _ => 0)
  refine ⟨x, y, a1, a2, fun a => match a with | 0 => rfl | 1 => rfl, e1 ▸ s1, (e2 ▸ s2).inside, e2 ▸ hu, r1, r2,
    column_of (e1 ▸ s1) (e2 ▸ s2) (fun a => match a with | 0 => rfl | 1 => rfl) (by funext a; match a with | 0 => rfl | 1 => rfl)
      ⟨fun f c => ⟨rfl, rfl, rfl⟩, ?_, ?_⟩⟩
  · intro F hF
    have e3 : F ⟨-1, 1⟩ ![1, 1, 2 + 1] ⟨3/4, 0, 0, 4/5⟩ = F ⟨-1, 1⟩ ![1, 1, 0] ⟨3/4, 0, 0, 4/5⟩ := by
      rw [← hF ⟨-1, 1⟩ ![1, 1, 0] ⟨3/4, 0, 0, 4/5⟩ ![0, 0, 1]]
      congr 1
      funext i
      match i with
      | 0 => show (1 : ℚ) = 1 + ((0 : ℤ) : ℚ) * _; simp
      | 1 => show (1 : ℚ) = 1 + ((0 : ℤ) : ℚ) * _; simp
      | 2 => show (2 + 1 : ℚ) = 0 + ((1 : ℤ) : ℚ) * (((1 : Nat) : ℚ) * ((3 : Nat) : ℚ) * 1); norm_num
    show (1 * F ⟨-1, 1⟩ ![1, 1, 0 + 1] ⟨3/4, 0, 0, 4/5⟩ + (1 * F ⟨-1, 1⟩ ![1, 1, 1 + 1] ⟨3/4, 0, 0, 4/5⟩ +
        (1 * F ⟨-1, 1⟩ ![1, 1, 2 + 1] ⟨3/4, 0, 0, 4/5⟩ + 0))) + 0
      = (1 * F ⟨-1, 1⟩ ![1, 1, 0] ⟨3/4, 0, 0, 4/5⟩ + (1 * F ⟨-1, 1⟩ ![1, 1, 1] ⟨3/4, 0, 0, 4/5⟩ +
        (1 * F ⟨-1, 1⟩ ![1, 1, 2] ⟨3/4, 0, 0, 4/5⟩ + 0))) + (0 : ℚ)
    rw [e3, show (0 + 1 : ℚ) = 1 by norm_num, show (1 + 1 : ℚ) = 2 by norm_num]
    ring
  · intro F _
    have e : (fun _ : Fin 2 => (1 : ℚ)) = ![1, 1] := by funext i; match i with | 0 => rfl | 1 => rfl
    show (1 * F ⟨-1, 1⟩ ![1, 1] ⟨3/4, 0, 0, 4/5⟩ + (1 * F ⟨-1, 1⟩ ![1, 1] ⟨3/4, 0, 0, 4/5⟩ +
        (1 * F ⟨-1, 1⟩ ![1, 1] ⟨3/4, 0, 0, 4/5⟩ + 0))) + 0
      = ((1 : Nat) : ℚ) * ((3 : Nat) : ℚ) * 1 * ((1 * F ⟨-1, 1⟩ (fun _ => 1) ⟨3/4, 0, 0, 4/5⟩ + 0) + (0 : ℚ))
    rw [e]
    push_cast
    ring

end Verif.Planar
