import Verif.Proofs.Symmetry3
import Verif.Props.WholeRun
/-!
# C87 — no axis, no direction, no place and no sign of the charge is special

Specification vocabulary: a simulation seen in another view and sequences of changes of the view (`View`, `moved2`,
`moved3` in `Verif/Spec/Symmetry.lean`), and what the program shows (`Agrees`, `Starts`, `Repeats` of C66).
-/
namespace Verif.Symmetry
open Verif.Maxwell Verif.Pusher Verif.Deposit Verif.Shape Verif.WholeRun Verif.PicStep Verif.SyncFields

/-! ## two dimensions -/

theorem Move2.respects (m : Move2) {N : Fin 2 → Nat} (hN : ∀ a, 0 < N a) {d : Fin 2 → ℚ} {c2 eps0 dt : ℚ} {rs : ℚ → ℚ}
    (hd : ∀ a, 0 < d a) (hdt : dt ≠ 0) :
    Respects (m.view d) (phys2 N d c2 eps0 dt rs) (phys2 (m.axes N) (m.axes d) c2 eps0 dt rs) d := by
  match m with
  | .swap => exact respects_swap2 hN hd hdt
  | .mirror => exact respects_mirror2 hN hd hdt
  | .upside => exact respects_upside2 hN hd hdt
  | .shift z => exact respects_move2 hN hd hdt z
  | .charge => exact respects_charge2 hN hd hdt

theorem Move2.all {α : Type} {P : α → Prop} {u : Fin 2 → α} (h : ∀ a, P (u a)) (m : Move2) : ∀ a, P (m.axes u a) := by
  intro a
  match m with
  | .swap => match a with | 0 => exact h 1 | 1 => exact h 0
  | .mirror => exact h a
  | .upside => exact h a
  | .shift z => exact h a
  | .charge => exact h a

/-- the undivided 2D simulation of a moved set-up is the moved simulation -/
theorem world_moved2 {β : ℚ} (c2 eps0 : ℚ) {dt : ℚ} {rs : ℚ → ℚ} : ∀ (l : List Move2) {N : Fin 2 → Nat} (_ : ∀ a, 0 < N a) {d : Fin 2 → ℚ}
    (_ : Lim d rs dt β) (W : World 2) (i : Nat),
    (moved2 l d W).run (phys2 (axes2 l N) (axes2 l d) c2 eps0 dt rs) i = moved2 l d (W.run (phys2 N d c2 eps0 dt rs) i)
  | [], _, _, _, _, _, _ => rfl
  | m :: l, N, hN, d, L, W, i => by
    have L' : Lim (m.axes d) rs dt β := ⟨m.all L.d_pos, L.step, L.β0, L.rsβ, m.all L.cfl⟩
    have ih := world_moved2 c2 eps0 l (m.all hN) L' ((m.view d).world W) i
    show (moved2 l (m.axes d) ((m.view d).world W)).run (phys2 (axes2 l (m.axes N)) (axes2 l (m.axes d)) c2 eps0 dt rs) i = _
    rw [ih, (m.respects hN L.d_pos L.step).run (fun W => Lim.slow (Φ := phys2 N d c2 eps0 dt rs) L W)]
    rfl

theorem lim_of {k : Nat} {C : Conf k} {β : ℚ} (h : Admissible C β) : Lim C.d C.rs C.dt β :=
  ⟨h.cell, h.step, h.speed, h.root, h.courant⟩

theorem cells_pos {k : Nat} {C : Conf k} {β : ℚ} (h : Admissible C β) (a : Fin k) : 0 < C.np a * C.n a := by
  have h1 := h.patches a
  have h2 := h.wide a
  have h3 := h.guard
  exact Nat.mul_pos h1 (by omega)

/-- C87: if one 2D run begins with a set-up and another run, on its own patches, ranks, schedules, orders and paths of the
push, begins with the set-up after any sequence of exchanges of the axes, reflections, moves by whole cells and changes of
the sign of all charges and fields, then after every number of steps the second run shows what the first run shows after
the same sequence. -/
theorem run_moved2 {C C' : Conf 2} {β : ℚ} (hC : Admissible C β) (hC' : Admissible C' β) (l : List Move2)
    (hN : ∀ a, C'.np a * C'.n a = axes2 l (fun a => C.np a * C.n a) a) (hd : C'.d = axes2 l C.d) (hc : C'.c2 = C.c2)
    (he : C'.eps0 = C.eps0) (ht : C'.dt = C.dt) (hs : C'.rs = C.rs) {W : World 2} {rk rk' : Nat → Nat → Nat}
    {x x' : Nat → St 2} (h0 : Starts C (sys2 C).npatches C.coord2 β (x 0) W)
    (h0' : Starts C' (sys2 C').npatches C'.coord2 β (x' 0) (moved2 l C.d W)) (hrun : Run (sys2 C) rk x)
    (hrun' : Run (sys2 C') rk' x') (i : Nat) :
    ∃ V, Agrees C (sys2 C).npatches C.coord2 (x i) V ∧ Repeats C V.fld ∧
      Agrees C' (sys2 C').npatches C'.coord2 (x' i) (moved2 l C.d V) := by
  have h := follows2.mp (run_follows hC.facts2 hC.bounds2 (follows2.mpr h0) hrun i)
  have h' := (run_is_undivided2 hC' h0' hrun' i).1
  refine ⟨_, h.agrees, h.period, ?_⟩
  have e : undividedRun2 C' (moved2 l C.d W) i = moved2 l C.d (undividedRun2 C W i) := by
    unfold undividedRun2
    rw [hc, he, ht, hs, hd, show (fun a => C'.np a * C'.n a) = axes2 l fun a => C.np a * C.n a from funext hN]
    exact world_moved2 C.c2 C.eps0 l (cells_pos hC) (lim_of hC) W i
  rw [e] at h'
  exact h'

/-- C87: the exchange of the axes, cell by cell: where the cells of the two runs are images of each other at the diagonal,
`Ex`, `Ey`, `Ez` of one are `Ey`, `Ex`, `Ez` of the other, and `Bx`, `By`, `Bz` are `-By`, `-Bx`, `-Bz`; the particles are
the same with `x` and `y`, `ux` and `uy` exchanged. -/
theorem run_diagonal2 {C C' : Conf 2} {β : ℚ} (hC : Admissible C β) (hC' : Admissible C' β)
    (hN0 : C'.np 0 * C'.n 0 = C.np 1 * C.n 1) (hN1 : C'.np 1 * C'.n 1 = C.np 0 * C.n 0) (hd0 : C'.d 0 = C.d 1)
    (hd1 : C'.d 1 = C.d 0) (hc : C'.c2 = C.c2) (he : C'.eps0 = C.eps0) (ht : C'.dt = C.dt) (hs : C'.rs = C.rs)
    {W : World 2} {rk rk' : Nat → Nat → Nat} {x x' : Nat → St 2} (h0 : Starts C (sys2 C).npatches C.coord2 β (x 0) W)
    (h0' : Starts C' (sys2 C').npatches C'.coord2 β (x' 0) (swap2.world W)) (hrun : Run (sys2 C) rk x)
    (hrun' : Run (sys2 C') rk' x') (i : Nat) :
    (∀ t, t < (sys2 C).npatches → ∀ t', t' < (sys2 C').npatches → ∀ v v', Stored C.n C.ng v → Stored C'.n C'.ng v' →
      onGrid C.n (C.coord2 t) v 0 ≡ onGrid C'.n (C'.coord2 t') v' 1 [ZMOD (C.np 0 * C.n 0 : Int)] →
      onGrid C.n (C.coord2 t) v 1 ≡ onGrid C'.n (C'.coord2 t') v' 0 [ZMOD (C.np 1 * C.n 1 : Int)] →
      ∀ F F', F = (x i).fld t → F' = (x' i).fld t' → ∀ u u', u = index C.n C.ng v → u' = index C'.n C'.ng v' →
        F'.e 0 u' = F.e 1 u ∧ F'.e 1 u' = F.e 0 u ∧ F'.e 2 u' = F.e 2 u ∧
        F'.b 0 u' = -F.b 1 u ∧ F'.b 1 u' = -F.b 0 u ∧ F'.b 2 u' = -F.b 2 u) ∧
    ∃ cl, SameCloud (fun a => C.np a * C.n a * C.d a) (cloudOf (sys2 C).npatches (x i).parts) cl ∧
      SameCloud (fun a => C'.np a * C'.n a * C'.d a) (cloudOf (sys2 C').npatches (x' i).parts) (swap2.cloud cl) := by
  obtain ⟨V, hV, hr, hV'⟩ := run_moved2 hC hC' [.swap] (fun a => by match a with | 0 => exact hN0 | 1 => exact hN1)
    (by funext a; match a with | 0 => exact hd0 | 1 => exact hd1) hc he ht hs h0 h0' hrun hrun' i
  refine ⟨?_, V.cloud, hV.species, hV'.species⟩
  rintro t ht t' ht' v v' hv hv' h0 h1 F F' rfl rfl u u' rfl rfl
  have hm : ∀ a, onGrid C.n (C.coord2 t) v a ≡ ex2 (onGrid C'.n (C'.coord2 t') v') a [ZMOD (C.np a * C.n a : Int)] := by
    intro a
    match a with
    | 0 => exact h0
    | 1 => exact h1
  have r := hr _ _ hm
  rw [hV'.e t' ht' 0 v' hv', hV'.e t' ht' 1 v' hv', hV'.e t' ht' 2 v' hv', hV'.b t' ht' 0 v' hv', hV'.b t' ht' 1 v' hv',
    hV'.b t' ht' 2 v' hv', hV.e t ht 0 v hv, hV.e t ht 1 v hv, hV.e t ht 2 v hv, hV.b t ht 0 v hv, hV.b t ht 1 v hv,
    hV.b t ht 2 v hv, (r 0).1, (r 1).1, (r 2).1, (r 0).2.1, (r 1).2.1, (r 2).2.1]
  exact ⟨rfl, rfl, rfl, rfl, rfl, rfl⟩

/-- C87: a set-up that is its own image under any such sequence stays so in every step: what the program shows is also the
image of what it shows. -/
theorem symmetric_stays2 {C : Conf 2} {β : ℚ} (hC : Admissible C β) (l : List Move2)
    (hN : ∀ a, C.np a * C.n a = axes2 l (fun a => C.np a * C.n a) a) (hd : C.d = axes2 l C.d) {W : World 2}
    {rk : Nat → Nat → Nat} {x : Nat → St 2} (h0 : Starts C (sys2 C).npatches C.coord2 β (x 0) W)
    (h0' : Starts C (sys2 C).npatches C.coord2 β (x 0) (moved2 l C.d W)) (hrun : Run (sys2 C) rk x) (i : Nat) :
    ∃ V, Agrees C (sys2 C).npatches C.coord2 (x i) V ∧ Repeats C V.fld ∧
      Agrees C (sys2 C).npatches C.coord2 (x i) (moved2 l C.d V) :=
  run_moved2 hC hC l hN hd rfl rfl rfl rfl h0 h0' hrun hrun i

theorem mem_same {k : Nat} {L : Fin k → ℚ} {a b : List (Kind × List (Ptc k))} (h : SameCloud L a b) {P : Mom → Prop}
    (hb : ∀ s ∈ b, ∀ p ∈ s.2, P p.mom) : ∀ s ∈ a, ∀ p ∈ s.2, P p.mom := h.symm.moms hb

/-- C87: a 2D simulation whose particles move in the plane, with `Ez = Bx = By = 0` and `jz = 0`, stays so: in every step
these fields are zero in all stored cells of all patches, and no living particle has a momentum out of the plane. -/
theorem in_plane2 {C : Conf 2} {β : ℚ} (hC : Admissible C β) {W : World 2} (hez : ∀ c, W.fld.e 2 c = 0)
    (hjz : ∀ c, W.fld.j 2 c = 0) (hbx : ∀ c, W.fld.b 0 c = 0) (hby : ∀ c, W.fld.b 1 c = 0)
    (huz : ∀ s ∈ W.cloud, ∀ p ∈ s.2, p.mom.uz = 0) {rk : Nat → Nat → Nat} {x : Nat → St 2}
    (h0 : Starts C (sys2 C).npatches C.coord2 β (x 0) W) (hrun : Run (sys2 C) rk x) (i : Nat) :
    (∀ t, t < (sys2 C).npatches → ∀ v, Stored C.n C.ng v → ((x i).fld t).e 2 (index C.n C.ng v) = 0 ∧
      ((x i).fld t).b 0 (index C.n C.ng v) = 0 ∧ ((x i).fld t).b 1 (index C.n C.ng v) = 0) ∧
    ∀ s ∈ cloudOf (sys2 C).npatches (x i).parts, ∀ p ∈ s.2, p.mom.uz = 0 := by
  have hW : upside2.world W = W := by
    obtain ⟨⟨e, b, j⟩, cl⟩ := W
    have e1 : upside2.ej e = e := v3_ext (fun _ => rfl) (fun _ => rfl) (fun c => by
      show -e 2 c = e 2 c; rw [show e 2 c = 0 from hez c, neg_zero])
    have e2 : upside2.b b = b := v3_ext (fun c => by show -b 0 c = b 0 c; rw [show b 0 c = 0 from hbx c, neg_zero])
      (fun c => by show -b 1 c = b 1 c; rw [show b 1 c = 0 from hby c, neg_zero]) (fun _ => rfl)
    have e3 : upside2.ej j = j := v3_ext (fun _ => rfl) (fun _ => rfl) (fun c => by
      show -j 2 c = j 2 c; rw [show j 2 c = 0 from hjz c, neg_zero])
    have e4 : upside2.cloud cl = cl := by
      unfold View.cloud
      conv_rhs => rw [← List.map_id cl]
      refine List.map_congr_left fun s hs => ?_
      show (s.1, s.2.map upside2.ptc) = s
      have : s.2.map upside2.ptc = s.2 := by
        conv_rhs => rw [← List.map_id s.2]
        refine List.map_congr_left fun p hp => ?_
        obtain ⟨pos, ⟨ux, uy, uz, ig, w⟩⟩ := p
        have hz : uz = 0 := huz s hs _ hp
        subst hz
        show (⟨pos, ⟨ux, uy, -0, ig, w⟩⟩ : Ptc 2) = ⟨pos, ⟨ux, uy, 0, ig, w⟩⟩
        rw [neg_zero]
      rw [this]
    show World.mk ⟨upside2.ej e, upside2.b b, upside2.ej j⟩ (upside2.cloud cl) = _
    rw [e1, e2, e3, e4]
  have h := (run_is_undivided2 hC h0 hrun i).1
  have hV : undividedRun2 C W i = upside2.world (undividedRun2 C W i) := by
    have := world_moved2 C.c2 C.eps0 [.upside] (cells_pos hC) (lim_of hC) W i
    change (upside2.world W).run _ i = upside2.world _ at this
    rw [hW] at this
    exact this
  generalize undividedRun2 C W i = V at h hV
  have hz : ∀ q : ℚ, q = -q → q = 0 := fun q hq => by linarith
  refine ⟨fun t ht v hv => ?_, ?_⟩
  · rw [h.e t ht 2 v hv, h.b t ht 0 v hv, h.b t ht 1 v hv]
    refine ⟨hz _ ?_, hz _ ?_, hz _ ?_⟩
    · exact congrArg (fun V : World 2 => V.fld.e 2 (onGrid C.n (C.coord2 t) v)) hV
    · exact congrArg (fun V : World 2 => V.fld.b 0 (onGrid C.n (C.coord2 t) v)) hV
    · exact congrArg (fun V : World 2 => V.fld.b 1 (onGrid C.n (C.coord2 t) v)) hV
  · refine mem_same (P := fun m => m.uz = 0) h.species ?_
    have hc : V.cloud = upside2.cloud V.cloud := congrArg World.cloud hV
    intro s hs p hp
    obtain ⟨n, hn, rfl⟩ := List.mem_iff_getElem.mp hs
    obtain ⟨r, hr, rfl⟩ := List.mem_iff_getElem.mp hp
    apply hz
    have key : ∀ cl : List (Kind × List (Ptc 2)), cl = upside2.cloud cl → ∀ s ∈ cl, s.2 = s.2.map upside2.ptc := by
      intro cl
      induction cl with
      | nil => intro _ s hs; cases hs
      | cons a l ih =>
        intro he s hs
        obtain ⟨ha, hl⟩ := List.cons.inj he
        rcases List.mem_cons.mp hs with rfl | hs
        · exact congrArg Prod.snd ha
        · exact ih hl s hs
    have hm := key _ hc _ hs
    have : ∀ (l : List (Ptc 2)), l = l.map upside2.ptc → ∀ p ∈ l, p.mom.uz = -p.mom.uz := by
      intro l
      induction l with
      | nil => intro _ p hp; cases hp
      | cons a l ih =>
        intro he p hp
        obtain ⟨ha, hl⟩ := List.cons.inj he
        rcases List.mem_cons.mp hp with rfl | hp
        · exact congrArg (fun p : Ptc 2 => p.mom.uz) ha
        · exact ih hl p hp
    exact this _ hm _ hp

/-! ## three dimensions -/

theorem Move3.respects (m : Move3) {N : Fin 3 → Nat} (hN : ∀ a, 2 ≤ N a) {d : Fin 3 → ℚ} {c2 eps0 dt : ℚ} {rs : ℚ → ℚ}
    (hd : ∀ a, 0 < d a) (hdt : dt ≠ 0) :
    Respects (m.view d) (phys3 N d c2 eps0 dt rs) (phys3 (m.axes N) (m.axes d) c2 eps0 dt rs) d := by
  match m with
  | .turn => exact respects_turn3 hN hd hdt
  | .swap => exact respects_swap3 hN hd hdt
  | .mirror => exact respects_mirror3 hN hd hdt
  | .shift z => exact respects_move3 hN hd hdt z
  | .charge => exact respects_charge3 hN hd hdt

theorem Move3.all {α : Type} {P : α → Prop} {u : Fin 3 → α} (h : ∀ a, P (u a)) (m : Move3) : ∀ a, P (m.axes u a) := by
  intro a
  match m with
  | .turn => match a with | 0 => exact h 1 | 1 => exact h 2 | 2 => exact h 0
  | .swap => match a with | 0 => exact h 1 | 1 => exact h 0 | 2 => exact h 2
  | .mirror => exact h a
  | .shift z => exact h a
  | .charge => exact h a

/-- the undivided 3D simulation of a moved set-up is the moved simulation -/
theorem world_moved3 {β : ℚ} (c2 eps0 : ℚ) {dt : ℚ} {rs : ℚ → ℚ} : ∀ (l : List Move3) {N : Fin 3 → Nat} (_ : ∀ a, 2 ≤ N a) {d : Fin 3 → ℚ}
    (_ : Lim d rs dt β) (W : World 3) (i : Nat),
    (moved3 l d W).run (phys3 (axes3 l N) (axes3 l d) c2 eps0 dt rs) i = moved3 l d (W.run (phys3 N d c2 eps0 dt rs) i)
  | [], _, _, _, _, _, _ => rfl
  | m :: l, N, hN, d, L, W, i => by
    have L' : Lim (m.axes d) rs dt β := ⟨m.all L.d_pos, L.step, L.β0, L.rsβ, m.all L.cfl⟩
    have ih := world_moved3 c2 eps0 l (m.all hN) L' ((m.view d).world W) i
    show (moved3 l (m.axes d) ((m.view d).world W)).run (phys3 (axes3 l (m.axes N)) (axes3 l (m.axes d)) c2 eps0 dt rs) i = _
    rw [ih, (m.respects hN L.d_pos L.step).run (fun W => Lim.slow (Φ := phys3 N d c2 eps0 dt rs) L W)]
    rfl

theorem cells_two {k : Nat} {C : Conf k} {β : ℚ} (h : Admissible C β) (a : Fin k) : 2 ≤ C.np a * C.n a := by
  have h1 := h.patches a
  have h2 := h.wide a
  have h3 := h.guard
  exact le_trans (by omega) (Nat.le_mul_of_pos_left (C.n a) h1)

/-- C87 in 3D, for species on the unified path: any sequence of turns and exchanges of the axes, reflections, moves by whole
cells and changes of the sign of all charges and fields. Missing for the full property: species on the split path, which
the code does not move in 3D. -/
theorem run_moved3_partial {C C' : Conf 3} {β : ℚ} (hC : Admissible C β) (hC' : Admissible C' β) (l : List Move3)
    (hN : ∀ a, C'.np a * C'.n a = axes3 l (fun a => C.np a * C.n a) a) (hd : C'.d = axes3 l C.d) (hc : C'.c2 = C.c2)
    (he : C'.eps0 = C.eps0) (ht : C'.dt = C.dt) (hs : C'.rs = C.rs) {W : World 3} {rk rk' : Nat → Nat → Nat}
    {x x' : Nat → St 3} (h0 : Starts C (sys3 C).npatches C.coord3 β (x 0) W)
    (h0' : Starts C' (sys3 C').npatches C'.coord3 β (x' 0) (moved3 l C.d W)) (hu : ∀ a ∈ (x 0).parts, a.1.unified = true)
    (hu' : ∀ a ∈ (x' 0).parts, a.1.unified = true) (hrun : Run (sys3 C) rk x) (hrun' : Run (sys3 C') rk' x') (i : Nat) :
    ∃ V, Agrees C (sys3 C).npatches C.coord3 (x i) V ∧ Repeats C V.fld ∧
      Agrees C' (sys3 C').npatches C'.coord3 (x' i) (moved3 l C.d V) := by
  have h := (follows3.mp (run_follows hC.facts3 hC.bounds3 (follows3.mpr ⟨h0, hu⟩) hrun i)).1
  have h' := (run_is_undivided3_partial hC' h0' hu' hrun' i).1
  refine ⟨_, h.agrees, h.period, ?_⟩
  have e : undividedRun3 C' (moved3 l C.d W) i = moved3 l C.d (undividedRun3 C W i) := by
    unfold undividedRun3
    rw [hc, he, ht, hs, hd, show (fun a => C'.np a * C'.n a) = axes3 l fun a => C.np a * C.n a from funext hN]
    exact world_moved3 C.c2 C.eps0 l (cells_two hC) (lim_of hC) W i
  rw [e] at h'
  exact h'

/-- C87 in 3D, for species on the unified path: the turn of the axes, cell by cell: where the cells of the two runs are
images of each other, the components `x`, `y`, `z` of E and B of one are the components `y`, `z`, `x` of the other, and
the particles are the same with turned positions and momenta. Missing for the full property: species on the split path. -/
theorem run_turned3_partial {C C' : Conf 3} {β : ℚ} (hC : Admissible C β) (hC' : Admissible C' β)
    (hN : ∀ a, C'.np a * C'.n a = C.np (a + 1) * C.n (a + 1)) (hd : ∀ a, C'.d a = C.d (a + 1)) (hc : C'.c2 = C.c2)
    (he : C'.eps0 = C.eps0) (ht : C'.dt = C.dt) (hs : C'.rs = C.rs) {W : World 3} {rk rk' : Nat → Nat → Nat}
    {x x' : Nat → St 3} (h0 : Starts C (sys3 C).npatches C.coord3 β (x 0) W)
    (h0' : Starts C' (sys3 C').npatches C'.coord3 β (x' 0) (turn3.world W)) (hu : ∀ a ∈ (x 0).parts, a.1.unified = true)
    (hu' : ∀ a ∈ (x' 0).parts, a.1.unified = true) (hrun : Run (sys3 C) rk x) (hrun' : Run (sys3 C') rk' x') (i : Nat) :
    (∀ t, t < (sys3 C).npatches → ∀ t', t' < (sys3 C').npatches → ∀ v v', Stored C.n C.ng v → Stored C'.n C'.ng v' →
      (∀ a, onGrid C.n (C.coord3 t) v (a + 1) ≡ onGrid C'.n (C'.coord3 t') v' a [ZMOD (C.np (a + 1) * C.n (a + 1) : Int)]) →
      ∀ f, ((x' i).fld t').e f (index C'.n C'.ng v') = ((x i).fld t).e (f + 1) (index C.n C.ng v) ∧
        ((x' i).fld t').b f (index C'.n C'.ng v') = ((x i).fld t).b (f + 1) (index C.n C.ng v)) ∧
    ∃ cl, SameCloud (fun a => C.np a * C.n a * C.d a) (cloudOf (sys3 C).npatches (x i).parts) cl ∧
      SameCloud (fun a => C'.np a * C'.n a * C'.d a) (cloudOf (sys3 C').npatches (x' i).parts) (turn3.cloud cl) := by
  obtain ⟨V, hV, hr, hV'⟩ := run_moved3_partial hC hC' [.turn] (fun a => by
      match a with | 0 => exact hN 0 | 1 => exact hN 1 | 2 => exact hN 2)
    (by funext a; match a with | 0 => exact hd 0 | 1 => exact hd 1 | 2 => exact hd 2) hc he ht hs h0 h0' hu hu' hrun hrun' i
  refine ⟨?_, V.cloud, hV.species, hV'.species⟩
  intro t ht t' ht' v v' hv hv' h f
  have hm : ∀ a, onGrid C.n (C.coord3 t) v a ≡ back3 (onGrid C'.n (C'.coord3 t') v') a [ZMOD (C.np a * C.n a : Int)] := by
    intro a
    match a with
    | 0 => exact h 2
    | 1 => exact h 0
    | 2 => exact h 1
  have r := hr _ _ hm
  rw [hV'.e t' ht' f v' hv', hV'.b t' ht' f v' hv', hV.e t ht (f + 1) v hv, hV.b t ht (f + 1) v hv, (r (f + 1)).1, (r (f + 1)).2.1]
  match f with
  | 0 => exact ⟨rfl, rfl⟩
  | 1 => exact ⟨rfl, rfl⟩
  | 2 => exact ⟨rfl, rfl⟩

/-- C87 in 3D, for species on the unified path: a set-up that is its own image stays so. Missing for the full property:
species on the split path. -/
theorem symmetric_stays3_partial {C : Conf 3} {β : ℚ} (hC : Admissible C β) (l : List Move3)
    (hN : ∀ a, C.np a * C.n a = axes3 l (fun a => C.np a * C.n a) a) (hd : C.d = axes3 l C.d) {W : World 3}
    {rk : Nat → Nat → Nat} {x : Nat → St 3} (h0 : Starts C (sys3 C).npatches C.coord3 β (x 0) W)
    (h0' : Starts C (sys3 C).npatches C.coord3 β (x 0) (moved3 l C.d W)) (hu : ∀ a ∈ (x 0).parts, a.1.unified = true)
    (hrun : Run (sys3 C) rk x) (i : Nat) :
    ∃ V, Agrees C (sys3 C).npatches C.coord3 (x i) V ∧ Repeats C V.fld ∧
      Agrees C (sys3 C).npatches C.coord3 (x i) (moved3 l C.d V) :=
  run_moved3_partial hC hC l hN hd rfl rfl rfl rfl h0 h0' hu hu hrun hrun i

/-! ## cases that meet the hypotheses -/

/-- constant fields and an electron at cell (1, 1, …) with momentum `m` -/
def symWorld (k : Nat) (e : Fin 3 → ℚ) (m : Mom) : World k :=
  ⟨⟨fun f _ => e f, fun _ _ => 0, fun _ _ => 0⟩, [(⟨-1, 1⟩, [⟨fun _ => 1, m⟩])]⟩
def symState (k : Nat) (un : Bool) (e : Fin 3 → ℚ) (m : Mom) : St k :=
  ⟨fun _ => ⟨fun f _ => e f, fun _ _ => 0, fun _ _ => 0⟩,
   [(⟨⟨-1, 1⟩, un⟩, fun t => if t = 0 then [⟨fun _ => .val 1, m, ⟨0, 0, 0, 0, 0, 0⟩, false⟩] else [])]⟩

theorem symStarts {k : Nat} {np n : Fin k → Nat} {N : Nat} {co : Nat → Fin k → Nat} (hn : ∀ a, 3 ≤ n a) (hN : 0 < N)
    (hc : co 0 = fun _ => 0) (un : Bool) (e : Fin 3 → ℚ) {m : Mom} (hm : ∀ i : Nat, |m.invGamma * uAt m i| ≤ 1) :
    Starts (exConf k np n) N co 1 (symState k un e m) (symWorld k e m) where
  agrees := ⟨fun _ _ _ _ _ => rfl, fun _ _ _ _ _ => rfl, fun _ _ _ _ _ => rfl, by
    refine .cons ⟨rfl, ?_⟩ .nil
    apply SameParticles.of_perm
    show (particles N fun t => if t = 0 then _ else []).Perm _
    obtain ⟨M, rfl⟩ : ∃ M, N = M + 1 := ⟨N - 1, by omega⟩
    unfold particles
    rw [List.range_succ_eq_map, List.flatMap_cons, List.flatMap_map]
    have : (List.range M).flatMap (fun t => List.filterMap ptc (if t.succ = 0 then
        [(⟨fun _ => .val 1, m, ⟨0, 0, 0, 0, 0, 0⟩, false⟩ : Slot k)] else [])) = [] := by
      rw [List.flatMap_eq_nil_iff]
      intro t _
      rw [if_neg (Nat.succ_ne_zero t)]
      rfl
    dsimp only
    rw [this, if_pos rfl, List.append_nil, List.filterMap_cons_some (b := ⟨fun _ => 1, m⟩) (by unfold ptc; rw [exNums]; rfl)]
    exact .refl _⟩
  inside := by
    intro a ha t ht s hs hd
    rcases List.mem_singleton.mp ha with rfl
    dsimp only at hs
    split at hs
    · rename_i h0
      subst h0
      rcases List.mem_singleton.mp hs with rfl
      refine ⟨_, exNums k, ?_, fun i => hm i⟩
      intro i
      rw [hc]
      show ((0 : Nat) : ℚ) * n i * 1 - 1 / 2 ≤ 1 ∧ (1 : ℚ) ≤ ((0 : Nat) : ℚ) * n i * 1 + n i * 1 - 1 / 2
      have : (3 : ℚ) ≤ n i := by exact_mod_cast hn i
      constructor
      · norm_num
      · push_cast; linarith
    · cases hs
  period := fun _ _ _ _ => ⟨rfl, rfl, rfl⟩

theorem slow_x : ∀ i : Nat, |(⟨3/4, 0, 0, 4/5, 1⟩ : Mom).invGamma * uAt ⟨3/4, 0, 0, 4/5, 1⟩ i| ≤ 1
  | 0 => by show |(4 / 5 : ℚ) * (3 / 4)| ≤ 1; norm_num [abs_of_pos]
  | 1 => by show |(4 / 5 : ℚ) * 0| ≤ 1; norm_num
  | _ + 2 => by show |(4 / 5 : ℚ) * 0| ≤ 1; norm_num
theorem slow_y : ∀ i : Nat, |(⟨0, 3/4, 0, 4/5, 1⟩ : Mom).invGamma * uAt ⟨0, 3/4, 0, 4/5, 1⟩ i| ≤ 1
  | 0 => by show |(4 / 5 : ℚ) * 0| ≤ 1; norm_num
  | 1 => by show |(4 / 5 : ℚ) * (3 / 4)| ≤ 1; norm_num [abs_of_pos]
  | _ + 2 => by show |(4 / 5 : ℚ) * 0| ≤ 1; norm_num
theorem slow_z : ∀ i : Nat, |(⟨0, 0, 3/4, 4/5, 1⟩ : Mom).invGamma * uAt ⟨0, 0, 3/4, 4/5, 1⟩ i| ≤ 1
  | 0 => by show |(4 / 5 : ℚ) * 0| ≤ 1; norm_num
  | 1 => by show |(4 / 5 : ℚ) * 0| ≤ 1; norm_num
  | _ + 2 => by show |(4 / 5 : ℚ) * (3 / 4)| ≤ 1; norm_num [abs_of_pos]

/-- 2D: an electron that moves along `x` in a field along `y`, on two patches of 4 × 3 cells; and its image, an electron
that moves along `y` in a field along `x`, on one patch of 3 × 8 cells -/
example : ∃ x x' : Nat → St 2,
    Admissible (exConf 2 ![2, 1] ![4, 3]) 1 ∧ Admissible (exConf 2 ![1, 1] ![3, 8]) 1 ∧
    (∀ a, (![1, 1] : Fin 2 → Nat) a * (![3, 8] : Fin 2 → Nat) a
      = axes2 [.swap] (fun a => (![2, 1] : Fin 2 → Nat) a * (![4, 3] : Fin 2 → Nat) a) a) ∧
    Starts (exConf 2 ![2, 1] ![4, 3]) (sys2 (exConf 2 ![2, 1] ![4, 3])).npatches (exConf 2 ![2, 1] ![4, 3]).coord2 1 (x 0)
      (symWorld 2 ![0, 5, 0] ⟨3/4, 0, 0, 4/5, 1⟩) ∧
    Starts (exConf 2 ![1, 1] ![3, 8]) (sys2 (exConf 2 ![1, 1] ![3, 8])).npatches (exConf 2 ![1, 1] ![3, 8]).coord2 1 (x' 0)
      (moved2 [.swap] (fun _ => 1) (symWorld 2 ![0, 5, 0] ⟨3/4, 0, 0, 4/5, 1⟩)) ∧
    Run (sys2 (exConf 2 ![2, 1] ![4, 3])) (fun i t => (i + t) % 2) x ∧
    Run (sys2 (exConf 2 ![1, 1] ![3, 8])) (fun _ _ => 0) x' := by
  have a1 : Admissible (exConf 2 ![2, 1] ![4, 3]) 1 :=
    exConf_ok (fun a => match a with | 0 => by decide | 1 => by decide) (fun a => match a with | 0 => by decide | 1 => by decide)
  have a2 : Admissible (exConf 2 ![1, 1] ![3, 8]) 1 :=
    exConf_ok (fun a => match a with | 0 => by decide | 1 => by decide) (fun a => match a with | 0 => by decide | 1 => by decide)
  have s1 := symStarts (np := ![2, 1]) (n := ![4, 3]) (N := (sys2 (exConf 2 ![2, 1] ![4, 3])).npatches)
    (co := (exConf 2 ![2, 1] ![4, 3]).coord2) (fun a => match a with | 0 => by decide | 1 => by decide) (by decide)
    (by funext a; match a with | 0 => rfl | 1 => rfl) false ![0, 5, 0] slow_x
  have s2 := symStarts (np := ![1, 1]) (n := ![3, 8]) (N := (sys2 (exConf 2 ![1, 1] ![3, 8])).npatches)
    (co := (exConf 2 ![1, 1] ![3, 8]).coord2) (fun a => match a with | 0 => by decide | 1 => by decide) (by decide)
    (by funext a; match a with | 0 => rfl | 1 => rfl) true ![5, 0, 0] slow_y
  have e : symWorld 2 ![5, 0, 0] ⟨0, 3/4, 0, 4/5, 1⟩
      = moved2 [.swap] (fun _ => 1) (symWorld 2 ![0, 5, 0] ⟨3/4, 0, 0, 4/5, 1⟩) := by
    have f1 : (fun (f : Fin 3) (_ : Fin 2 → Int) => (![5, 0, 0] : Fin 3 → ℚ) f)
      = swap2.ej fun f _ => (![0, 5, 0] : Fin 3 → ℚ) f := v3_ext (fun _ => rfl) (fun _ => rfl) (fun _ => rfl)
    have f2 : (fun (_ : Fin 3) (_ : Fin 2 → Int) => (0 : ℚ)) = swap2.b fun _ _ => 0 :=
      v3_ext (fun _ => neg_zero.symm) (fun _ => neg_zero.symm) (fun _ => neg_zero.symm)
    have f3 : (fun (_ : Fin 3) (_ : Fin 2 → Int) => (0 : ℚ)) = swap2.ej fun _ _ => 0 :=
      v3_ext (fun _ => rfl) (fun _ => rfl) (fun _ => rfl)
    have f4 : (fun _ : Fin 2 => (1 : ℚ)) = ex2 fun _ => 1 := by funext a; match a with | 0 => rfl | 1 => rfl
    show World.mk ⟨_, _, _⟩ [(⟨-1, 1⟩, [⟨_, _⟩])] = World.mk ⟨swap2.ej fun f _ => (![0, 5, 0] : Fin 3 → ℚ) f, swap2.b fun _ _ => 0,
      swap2.ej fun _ _ => 0⟩ [(⟨-1, 1⟩, [⟨ex2 fun _ => 1, ⟨0, 3/4, 0, 4/5, 1⟩⟩])]
    rw [f1, ← f2, ← f3, ← f4]
  rw [e] at s2
  obtain ⟨x, e1, r1⟩ := runs2 a1 s1 (fun i t => (i + t) % 2)
  obtain ⟨x', e2, r2⟩ := runs2 a2 s2 (fun _ _ => 0)
  exact ⟨x, x', a1, a2, fun a => match a with | 0 => rfl | 1 => rfl, e1 ▸ s1, e2 ▸ s2, r1, r2⟩

/-- 2D: the electron that moves along `x` in a field along `y` meets the hypotheses of `in_plane2` -/
example : (∀ c, (symWorld 2 ![0, 5, 0] ⟨3/4, 0, 0, 4/5, 1⟩).fld.e 2 c = 0) ∧
    (∀ c, (symWorld 2 ![0, 5, 0] ⟨3/4, 0, 0, 4/5, 1⟩).fld.j 2 c = 0) ∧
    (∀ c, (symWorld 2 ![0, 5, 0] ⟨3/4, 0, 0, 4/5, 1⟩).fld.b 0 c = 0) ∧
    (∀ c, (symWorld 2 ![0, 5, 0] ⟨3/4, 0, 0, 4/5, 1⟩).fld.b 1 c = 0) ∧
    ∀ s ∈ (symWorld 2 ![0, 5, 0] ⟨3/4, 0, 0, 4/5, 1⟩).cloud, ∀ p ∈ s.2, p.mom.uz = 0 := by
  refine ⟨fun _ => rfl, fun _ => rfl, fun _ => rfl, fun _ => rfl, fun s hs p hp => ?_⟩
  rcases List.mem_singleton.mp hs with rfl
  rcases List.mem_singleton.mp hp with rfl
  rfl

/-- 3D: an electron that moves along `x` in a field along `y`, and its turned image, an electron that moves along `z` in a
field along `x` -/
example : ∃ x x' : Nat → St 3,
    Admissible (exConf 3 ![2, 1, 1] ![4, 3, 3]) 1 ∧ Admissible (exConf 3 ![1, 1, 2] ![3, 3, 4]) 1 ∧
    (∀ a, (![1, 1, 2] : Fin 3 → Nat) a * (![3, 3, 4] : Fin 3 → Nat) a
      = axes3 [.turn] (fun a => (![2, 1, 1] : Fin 3 → Nat) a * (![4, 3, 3] : Fin 3 → Nat) a) a) ∧
    Starts (exConf 3 ![2, 1, 1] ![4, 3, 3]) (sys3 (exConf 3 ![2, 1, 1] ![4, 3, 3])).npatches
      (exConf 3 ![2, 1, 1] ![4, 3, 3]).coord3 1 (x 0) (symWorld 3 ![0, 5, 0] ⟨3/4, 0, 0, 4/5, 1⟩) ∧
    Starts (exConf 3 ![1, 1, 2] ![3, 3, 4]) (sys3 (exConf 3 ![1, 1, 2] ![3, 3, 4])).npatches
      (exConf 3 ![1, 1, 2] ![3, 3, 4]).coord3 1 (x' 0) (moved3 [.turn] (fun _ => 1) (symWorld 3 ![0, 5, 0] ⟨3/4, 0, 0, 4/5, 1⟩)) ∧
    (∀ a ∈ (x 0).parts, a.1.unified = true) ∧ (∀ a ∈ (x' 0).parts, a.1.unified = true) ∧
    Run (sys3 (exConf 3 ![2, 1, 1] ![4, 3, 3])) (fun _ t => t) x ∧
    Run (sys3 (exConf 3 ![1, 1, 2] ![3, 3, 4])) (fun _ _ => 0) x' := by
  have a1 : Admissible (exConf 3 ![2, 1, 1] ![4, 3, 3]) 1 :=
    exConf_ok (fun a => match a with | 0 => by decide | 1 => by decide | 2 => by decide)
      (fun a => match a with | 0 => by decide | 1 => by decide | 2 => by decide)
  have a2 : Admissible (exConf 3 ![1, 1, 2] ![3, 3, 4]) 1 :=
    exConf_ok (fun a => match a with | 0 => by decide | 1 => by decide | 2 => by decide)
      (fun a => match a with | 0 => by decide | 1 => by decide | 2 => by decide)
  have s1 := symStarts (np := ![2, 1, 1]) (n := ![4, 3, 3]) (N := (sys3 (exConf 3 ![2, 1, 1] ![4, 3, 3])).npatches)
    (co := (exConf 3 ![2, 1, 1] ![4, 3, 3]).coord3) (fun a => match a with | 0 => by decide | 1 => by decide | 2 => by decide)
    (by decide) (by funext a; match a with | 0 => rfl | 1 => rfl | 2 => rfl) true ![0, 5, 0] slow_x
  have s2 := symStarts (np := ![1, 1, 2]) (n := ![3, 3, 4]) (N := (sys3 (exConf 3 ![1, 1, 2] ![3, 3, 4])).npatches)
    (co := (exConf 3 ![1, 1, 2] ![3, 3, 4]).coord3) (fun a => match a with | 0 => by decide | 1 => by decide | 2 => by decide)
    (by decide) (by funext a; match a with | 0 => rfl | 1 => rfl | 2 => rfl) true ![5, 0, 0] slow_z
  have e : symWorld 3 ![5, 0, 0] ⟨0, 0, 3/4, 4/5, 1⟩
      = moved3 [.turn] (fun _ => 1) (symWorld 3 ![0, 5, 0] ⟨3/4, 0, 0, 4/5, 1⟩) := by
    have f1 : (fun (f : Fin 3) (_ : Fin 3 → Int) => (![5, 0, 0] : Fin 3 → ℚ) f)
      = turn3.ej fun f _ => (![0, 5, 0] : Fin 3 → ℚ) f := v3_ext (fun _ => rfl) (fun _ => rfl) (fun _ => rfl)
    have f2 : (fun (_ : Fin 3) (_ : Fin 3 → Int) => (0 : ℚ)) = turn3.b fun _ _ => 0 :=
      v3_ext (fun _ => rfl) (fun _ => rfl) (fun _ => rfl)
    have f3 : (fun (_ : Fin 3) (_ : Fin 3 → Int) => (0 : ℚ)) = turn3.ej fun _ _ => 0 :=
      v3_ext (fun _ => rfl) (fun _ => rfl) (fun _ => rfl)
    have f4 : (fun _ : Fin 3 => (1 : ℚ)) = rot3 fun _ => 1 := by funext a; match a with | 0 => rfl | 1 => rfl | 2 => rfl
    show World.mk ⟨_, _, _⟩ [(⟨-1, 1⟩, [⟨_, _⟩])] = World.mk ⟨turn3.ej fun f _ => (![0, 5, 0] : Fin 3 → ℚ) f, turn3.b fun _ _ => 0,
      turn3.ej fun _ _ => 0⟩ [(⟨-1, 1⟩, [⟨rot3 fun _ => 1, ⟨0, 0, 3/4, 4/5, 1⟩⟩])]
    rw [f1, ← f2, ← f3, ← f4]
  rw [e] at s2
  have hu : ∀ e m, ∀ a ∈ (symState 3 true e m).parts, a.1.unified = true := by
    intro e m a ha
    rcases List.mem_singleton.mp ha with rfl
    rfl
  obtain ⟨x, e1, r1⟩ := runs3 a1 s1 (hu _ _) (fun _ t => t)
  obtain ⟨x', e2, r2⟩ := runs3 a2 s2 (hu _ _) (fun _ _ => 0)
  exact ⟨x, x', a1, a2, fun a => match a with | 0 => rfl | 1 => rfl | 2 => rfl, e1 ▸ s1, e2 ▸ s2, e1 ▸ hu _ _, e2 ▸ hu _ _, r1, r2⟩

end Verif.Symmetry
