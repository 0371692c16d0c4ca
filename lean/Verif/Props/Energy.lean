import Verif.Proofs.Energy
import Verif.Props.WholeGauss
/-!
# C83 — the energy of the fields in complete runs, and the stability of the time step

Runs, configurations and starts are those of C66. The sums go over the own cells of all patches, as the program stores
them.
-/
namespace Verif.WholeRun
open Verif.Maxwell Verif.SyncFields Verif.Pusher Verif.Deposit Verif.Geometry Verif.Neighbors
open Finset (range)

section Spec
variable {k : Nat}

/-- Specification: three components for every cell of every patch -/
abbrev Comp (k : Nat) := Nat → Fin 3 → (Fin k → Int) → ℚ

/-- Specification: sum of the products of two fields over the three components and the own cells of the patches `0 … N-1` -/
def overCells (n : Fin k → Nat) (N : Nat) (A B : Comp k) : ℚ :=
  ∑ t ∈ range N, ∑ u : (a : Fin k) → Fin (n a), ∑ f : Fin 3, A t f (fun a => ((u a : Nat) : Int)) * B t f fun a => ((u a : Nat) : Int)

/-- Specification: E, B and J as the patches store them -/
def storedE (C : Conf k) (x : St k) : Comp k := fun t => cellsOf C.n C.ng (x.fld t).e
def storedB (C : Conf k) (x : St k) : Comp k := fun t => cellsOf C.n C.ng (x.fld t).b
def storedJ (C : Conf k) (x : St k) : Comp k := fun t => cellsOf C.n C.ng (x.fld t).j

/-- Specification: energy of the fields over the volume of a cell: ε₀/2 (E² + c² B²), less the term of second order in `dt`
that belongs to the staggering of E and B in time; `curl` is the discrete curl of B -/
def fieldEnergy (C : Conf k) (N : Nat) (curl : V3 k → V3 k) (x : St k) : ℚ :=
  C.eps0 / 2 * (overCells C.n N (storedE C x) (storedE C x) + C.c2 * overCells C.n N (storedB C x) (storedB C x)
    - (C.dt / 2) ^ 2 * C.c2 ^ 2 * overCells C.n N (fun t => curl (storedB C x t)) fun t => curl (storedB C x t))

/-- Specification: power the fields give to the currents, over the volume of a cell -/
def work (C : Conf k) (N : Nat) (x : St k) : ℚ := overCells C.n N (storedJ C x) (storedE C x)
end Spec

section Gen
variable {k : Nat}

/-- the own cells of all patches are the cells of the undivided grid -/
theorem sum_patches {M : Type} [AddCommMonoid M] {N : Nat} {g : Place k} {n : Fin k → Nat} (hb : ∀ t, t < N → ∀ a, g.coord t a < g.np a)
    (hi : ∀ t u, t < N → u < N → g.coord t = g.coord u → t = u)
    (hf : ∀ c : Fin k → Nat, (∀ a, c a < g.np a) → ∃ u, u < N ∧ g.coord u = c) (f : (Fin k → Int) → M) :
    ∑ t ∈ range N, ∑ u : (a : Fin k) → Fin (n a), f (globalCell n (g.coord t) fun a => ((u a : Nat) : Int)) =
      tot (fun a => g.np a * n a) f := by
  have h1 : tot (fun a => g.np a * n a) f = ∑ c : (a : Fin k) → Fin (g.np a), ∑ u : (a : Fin k) → Fin (n a),
      f (globalCell n (fun a => (c a : Nat)) fun a => ((u a : Nat) : Int)) := by
    rw [← Fintype.sum_prod_type']
    unfold tot
    symm
    refine Fintype.sum_bijective (fun p a => finProdFinEquiv (p.1 a, p.2 a)) ⟨?_, ?_⟩ _ _ ?_
    · intro p q h
      have h' : ∀ a, (p.1 a, p.2 a) = (q.1 a, q.2 a) := fun a => finProdFinEquiv.injective (congrFun h a)
      refine Prod.ext (funext fun a => ?_) (funext fun a => ?_)
      · exact congrArg Prod.fst (h' a)
      · exact congrArg Prod.snd (h' a)
    · intro w
      refine ⟨(fun a => (finProdFinEquiv.symm (w a)).1, fun a => (finProdFinEquiv.symm (w a)).2), ?_⟩
      funext a
      exact finProdFinEquiv.apply_symm_apply (w a)
    · intro p
      congr 1
      funext a
      show ((p.1 a : Nat) : Int) * n a + ((p.2 a : Nat) : Int) = ((finProdFinEquiv (p.1 a, p.2 a) : Nat) : Int)
      rw [finProdFinEquiv_apply_val]
      push_cast; ring
  rw [h1]
  refine Finset.sum_bij (fun t ht a => ⟨g.coord t a, hb t (Finset.mem_range.mp ht) a⟩) (fun _ _ => Finset.mem_univ _) ?_ ?_ ?_
  · intro t ht u hu h
    exact hi t u (Finset.mem_range.mp ht) (Finset.mem_range.mp hu) (funext fun a => congrArg Fin.val (congrFun h a))
  · intro c _
    obtain ⟨u, hu, hc⟩ := hf (fun a => c a) fun a => (c a).2
    exact ⟨u, Finset.mem_range.mpr hu, funext fun a => Fin.ext (congrFun hc a)⟩
  · intro t ht
    rfl

/-- sums over patches as sums on the undivided grid -/
theorem over_dot {N : Nat} {g : Place k} {n : Fin k → Nat} (hb : ∀ t, t < N → ∀ a, g.coord t a < g.np a)
    (hi : ∀ t u, t < N → u < N → g.coord t = g.coord u → t = u)
    (hf : ∀ c : Fin k → Nat, (∀ a, c a < g.np a) → ∃ u, u < N ∧ g.coord u = c) {A B : Comp k} {X Y : V3 k}
    (hA : ∀ t, t < N → ∀ f v, Own n v → A t f v = X f (globalCell n (g.coord t) v))
    (hB : ∀ t, t < N → ∀ f v, Own n v → B t f v = Y f (globalCell n (g.coord t) v)) :
    overCells n N A B = dot (fun a => g.np a * n a) X Y := by
  unfold overCells dot
  rw [← sum_patches hb hi hf]
  refine Finset.sum_congr rfl fun t ht => Finset.sum_congr rfl fun u _ => ?_
  have hu : Own n fun a => ((u a : Nat) : Int) := fun a => ⟨Int.natCast_nonneg _, Int.ofNat_lt.mpr (u a).2⟩
  rw [Fin.sum_univ_three]
  simp only [hA t (Finset.mem_range.mp ht) _ _ hu, hB t (Finset.mem_range.mp ht) _ _ hu]

end Gen

/-! ## from the patches to the undivided grid -/

/-- what is known about the patches, independent of the dimension -/
structure Layout {k : Nat} (C : Conf k) (N : Nat) (g : Place k) : Prop where
  np : g.np = C.np
  bound : ∀ t, t < N → ∀ a, g.coord t a < g.np a
  inj : ∀ t u, t < N → u < N → g.coord t = g.coord u → t = u
  full : ∀ c : Fin k → Nat, (∀ a, c a < g.np a) → ∃ u, u < N ∧ g.coord u = c

theorem layout2 (C : Conf 2) : Layout C (sys2 C).npatches C.place2 := by
  have hg := nbrGeo2 (s := (sys2 C).solver.sync) (bx := perBC) (by' := perBC)
    rfl rfl (grid_createPatches2 (C.np 0) (C.np 1)) (fun _ h => h) (nodup_createPatches2 _ _) rfl rfl
  have ha := allLocal2 (npx := C.np 0) (npy := C.np 1) (bx := perBC) (by' := perBC) rfl rfl (fun _ h => h)
    (s := (sys2 C).solver.sync) rfl
  exact ⟨vec2 C.np, hg.bound, hg.inj, ha.full⟩

theorem layout3 (C : Conf 3) : Layout C (sys3 C).npatches C.place3 := by
  have hg := nbrGeo3 (s := (sys3 C).solver.sync) (bx := perBC) (by' := perBC) (bz := perBC)
    rfl rfl rfl (grid_createPatches3 (C.np 0) (C.np 1) (C.np 2)) (fun _ h => h) (nodup_createPatches3 _ _ _) rfl rfl
  have ha := allLocal3 (npx := C.np 0) (npy := C.np 1) (npz := C.np 2) (bx := perBC) (by' := perBC) (bz := perBC) rfl rfl rfl
    (fun _ h => h) (s := (sys3 C).solver.sync) rfl
  exact ⟨vec3 C.np, hg.bound, hg.inj, ha.full⟩

section Gen2
variable {k : Nat} {D A : Type} {Y : Sys k D A} {C : Conf k} {g : Place k}
  {CB CE : V3 k → V3 k} {R : ℚ}

/-- the state lies on the grid `G`; the last line is the curl of B near the border of a patch -/
structure On (Y : Sys k D A) (C : Conf k) (g : Place k) (CB : V3 k → V3 k) (x : St k) (G : GF k) : Prop where
  rep : Rep Y.solver g x.fld G
  per : G.Per g.np Y.solver.sync.n
  curl : ∀ t, t < Y.npatches → ∀ f v, Own C.n v → CB (cellsOf C.n C.ng (x.fld t).b) f v = CB G.b f (globalCell C.n (g.coord t) v)

theorem On.sums {x : St k} {G : GF k} (L : Layout C Y.npatches g) (hn : Y.solver.sync.n = C.n) (hng : Y.solver.sync.ng = C.ng)
    (hN : Y.solver.sync.npatches = Y.npatches) (h : On Y C g CB x G) :
    overCells C.n Y.npatches (storedE C x) (storedE C x) = dot (fun a => C.np a * C.n a) G.e G.e ∧
    overCells C.n Y.npatches (storedB C x) (storedB C x) = dot (fun a => C.np a * C.n a) G.b G.b ∧
    overCells C.n Y.npatches (storedJ C x) (storedJ C x) = dot (fun a => C.np a * C.n a) G.j G.j ∧
    overCells C.n Y.npatches (storedJ C x) (storedE C x) = dot (fun a => C.np a * C.n a) G.j G.e ∧
    overCells C.n Y.npatches (fun t => CB (storedB C x t)) (fun t => CB (storedB C x t)) = dot (fun a => C.np a * C.n a) (CB G.b) (CB G.b) := by
  have he : ∀ t, t < Y.npatches → ∀ f v, Own C.n v → storedE C x t f v = G.e f (globalCell C.n (g.coord t) v) := by
    intro t ht f v hv
    have := h.rep.e t (hN ▸ ht) f v (by rw [hn, hng]; exact hv.inRange _)
    rwa [hn, hng] at this
  have hb : ∀ t, t < Y.npatches → ∀ f v, Own C.n v → storedB C x t f v = G.b f (globalCell C.n (g.coord t) v) := by
    intro t ht f v hv
    have := h.rep.b t (hN ▸ ht) f v (by rw [hn, hng]; exact hv.inRange _)
    rwa [hn, hng] at this
  have hj : ∀ t, t < Y.npatches → ∀ f v, Own C.n v → storedJ C x t f v = G.j f (globalCell C.n (g.coord t) v) := by
    intro t ht f v hv
    have := h.rep.j t (hN ▸ ht) f v (by rw [hn]; exact hv)
    rwa [hn, hng] at this
  rw [← L.np]
  exact ⟨over_dot L.bound L.inj L.full he he, over_dot L.bound L.inj L.full hb hb, over_dot L.bound L.inj L.full hj hj,
    over_dot L.bound L.inj L.full hj he, over_dot L.bound L.inj L.full h.curl h.curl⟩

/-- the balance of one step, from the undivided grid to the patches -/
theorem balance {x x' : St k} {G : GF k} {J : V3 k} {FE : ℚ → V3 k → V3 k → V3 k} {FB : ℚ → V3 k → V3 k}
    (Z : Yee (fun a => C.np a * C.n a) C.c2 C.eps0 R FE FB CB CE) (hl : LocalFE FE) (h0 : C.eps0 ≠ 0)
    (L : Layout C Y.npatches g) (hn : Y.solver.sync.n = C.n) (hng : Y.solver.sync.ng = C.ng)
    (hN : Y.solver.sync.npatches = Y.npatches) (h : On Y C g CB x G) (h' : On Y C g CB x' (G.step FE FB C.dt J)) :
    fieldEnergy C Y.npatches CB x' - fieldEnergy C Y.npatches CB x =
      - (C.dt * ((work C Y.npatches x + work C Y.npatches x') / 2))
      + C.dt ^ 2 / (8 * C.eps0) * (overCells C.n Y.npatches (storedJ C x) (storedJ C x) - overCells C.n Y.npatches (storedJ C x') (storedJ C x')) := by
  obtain ⟨s1, s2, s3, s4, s5⟩ := h.sums L hn hng hN
  obtain ⟨t1, t2, t3, t4, t5⟩ := h'.sums L hn hng hN
  have hp := h.per
  have hp' := h'.per
  rw [L.np, hn] at hp hp'
  have e := energy_step Z C.dt J G (fun d => hp.b.comp d) (fun d => (hp.stepE hl (1 / 2 * C.dt)).e.comp d) (fun d => hp'.b.comp d)
  unfold fieldEnergy work
  rw [s1, s2, s3, s4, s5, t1, t2, t3, t4, t5]
  unfold energy at e
  have hj : (G.step FE FB C.dt J).j = J := rfl
  rw [hj]
  have f1 : C.eps0 / 2 * (C.dt / C.eps0) = C.dt / 2 := by field_simp
  have f2 : C.eps0 / 2 * (C.dt / (2 * C.eps0)) ^ 2 = C.dt ^ 2 / (8 * C.eps0) := by field_simp; ring
  rw [← f2]
  linear_combination C.eps0 / 2 * e - (dot (fun a => C.np a * C.n a) G.j G.e + dot (fun a => C.np a * C.n a) J (G.step FE FB C.dt J).e) * f1

/-- with the Courant condition the energy lies between the squares of the fields -/
theorem energy_between {x : St k} {G : GF k} {FE : ℚ → V3 k → V3 k → V3 k} {FB : ℚ → V3 k → V3 k}
    (Z : Yee (fun a => C.np a * C.n a) C.c2 C.eps0 R FE FB CB CE) (h0 : 0 < C.eps0) (hc : 0 ≤ C.c2) {q : ℚ}
    (hq : C.c2 * C.dt ^ 2 * R ≤ q ^ 2)
    (L : Layout C Y.npatches g) (hn : Y.solver.sync.n = C.n) (hng : Y.solver.sync.ng = C.ng)
    (hN : Y.solver.sync.npatches = Y.npatches) (h : On Y C g CB x G) :
    C.eps0 / 2 * (overCells C.n Y.npatches (storedE C x) (storedE C x) + (1 - q ^ 2) * C.c2 * overCells C.n Y.npatches (storedB C x) (storedB C x))
      ≤ fieldEnergy C Y.npatches CB x ∧
    fieldEnergy C Y.npatches CB x ≤
      C.eps0 / 2 * (overCells C.n Y.npatches (storedE C x) (storedE C x) + C.c2 * overCells C.n Y.npatches (storedB C x) (storedB C x)) := by
  obtain ⟨s1, s2, s3, s4, s5⟩ := h.sums L hn hng hN
  have hp := h.per
  rw [L.np, hn] at hp
  have e := energy_bounds Z hc hq G.e G.b (fun d => hp.b.comp d)
  unfold fieldEnergy
  rw [s1, s2, s5]
  exact ⟨mul_le_mul_of_nonneg_left e.1 (by positivity), mul_le_mul_of_nonneg_left e.2 (by positivity)⟩
end Gen2

theorem curlB2_shows {C : Conf 2} (hng : 1 ≤ C.ng) {x : St 2} {G : GF 2} (h : Rep (sys2 C).solver C.place2 x.fld G) :
    ∀ t, t < (sys2 C).npatches → ∀ f v, Own C.n v →
      curlB2 C.par (cellsOf C.n C.ng (x.fld t).b) f v = curlB2 C.par G.b f (globalCell C.n (C.place2.coord t) v) := by
  intro t ht f v hv
  have hnv : (sys2 C).solver.sync.n = C.n := vec2 C.n
  have hs : Shows C.n C.ng (sys2 C).npatches C.place2 (InRange C.n C.ng) (fun t => (x.fld t).b) G.b := by
    have := h.b; rw [hnv] at this; exact this
  have hdn : ∀ a, dn a (globalCell C.n (C.place2.coord t) v) = globalCell C.n (C.place2.coord t) (dn a v) := fun a => dn_shift a _ v
  have h1 : ∀ d, cellsOf C.n C.ng (x.fld t).b d v = _ := fun d => hs t ht d v (hv.inRange _)
  have h2 : ∀ d a, cellsOf C.n C.ng (x.fld t).b d (dn a v) = _ := fun d a => hs t ht d (dn a v) (dn_inRange hng hv a)
  match f with
  | 0 => simp only [curlB2, Matrix.cons_val, h1, h2, hdn]
  | 1 => simp only [curlB2, Matrix.cons_val, h1, h2, hdn]
  | 2 => simp only [curlB2, Matrix.cons_val, h1, h2, hdn]

theorem curlB3_shows {C : Conf 3} (hng : 1 ≤ C.ng) {x : St 3} {G : GF 3} (h : Rep (sys3 C).solver C.place3 x.fld G) :
    ∀ t, t < (sys3 C).npatches → ∀ f v, Own C.n v →
      curlB3 C.par (cellsOf C.n C.ng (x.fld t).b) f v = curlB3 C.par G.b f (globalCell C.n (C.place3.coord t) v) := by
  intro t ht f v hv
  have hnv : (sys3 C).solver.sync.n = C.n := vec3 C.n
  have hs : Shows C.n C.ng (sys3 C).npatches C.place3 (InRange C.n C.ng) (fun t => (x.fld t).b) G.b := by
    have := h.b; rw [hnv] at this; exact this
  have hdn : ∀ a, dn a (globalCell C.n (C.place3.coord t) v) = globalCell C.n (C.place3.coord t) (dn a v) := fun a => dn_shift a _ v
  have h1 : ∀ d, cellsOf C.n C.ng (x.fld t).b d v = _ := fun d => hs t ht d v (hv.inRange _)
  have h2 : ∀ d a, cellsOf C.n C.ng (x.fld t).b d (dn a v) = _ := fun d a => hs t ht d (dn a v) (dn_inRange hng hv a)
  match f with
  | 0 => simp only [curlB3, Matrix.cons_val, h1, h2, hdn]
  | 1 => simp only [curlB3, Matrix.cons_val, h1, h2, hdn]
  | 2 => simp only [curlB3, Matrix.cons_val, h1, h2, hdn]

/-- every state of a 2D run lies on an undivided grid, and so does the next, one step later -/
theorem on_run2 {C : Conf 2} {β : ℚ} (hC : Admissible C β) {W : World 2} {rk : Nat → Nat → Nat} {x : Nat → St 2}
    (h0 : Starts C (sys2 C).npatches C.coord2 β (x 0) W) (hrun : Run (sys2 C) rk x) (i : Nat) :
    ∃ G J, On (sys2 C) C C.place2 (curlB2 C.par) (x i) G ∧
      On (sys2 C) C C.place2 (curlB2 C.par) (x (i + 1)) (G.step (yeeE2 C.par) (yeeB2 C.par) C.dt J) := by
  have hng : 1 ≤ C.ng := le_trans (by decide) hC.guard
  have L := layout2 C
  have hi := run_follows hC.facts2 hC.bounds2 (follows2.mpr h0) hrun i
  obtain ⟨J, r', p'⟩ := fields_step hC.facts2 L.bound L.inj hi.rep hi.per (hrun i)
  exact ⟨_, J, ⟨hi.rep, hi.per, curlB2_shows hng hi.rep⟩, ⟨r', p', curlB2_shows hng r'⟩⟩

theorem on_run3 {C : Conf 3} {β : ℚ} (hC : Admissible C β) {W : World 3} {rk : Nat → Nat → Nat} {x : Nat → St 3}
    (h0 : Starts C (sys3 C).npatches C.coord3 β (x 0) W) (hrun : Run (sys3 C) rk x) (i : Nat) :
    ∃ G J, On (sys3 C) C C.place3 (curlB3 C.par) (x i) G ∧
      On (sys3 C) C C.place3 (curlB3 C.par) (x (i + 1)) (G.step (yeeE3 C.par) (yeeB3 C.par) C.dt J) := by
  have hng : 1 ≤ C.ng := le_trans (by decide) hC.guard
  have L := layout3 C
  obtain ⟨G, r, p, -⟩ := divB_follows3 hC h0 hrun i
  obtain ⟨J, r', p'⟩ := fields_step hC.facts3 L.bound L.inj r p (hrun i)
  exact ⟨G, J, ⟨r, p, curlB3_shows hng r⟩, ⟨r', p', curlB3_shows hng r'⟩⟩

/-! ## C83: energy balance -/

/-- **C83 (2D), energy balance.** In every run of the 2D program, on any patches, ranks and schedules and either path of
the push, the energy of the fields changes in a step by minus the mean work on the currents before and after the step
times `dt`; the remainder is a difference of `J²` that telescopes over a run. -/
theorem poynting2 {C : Conf 2} {β : ℚ} (hC : Admissible C β) (he : C.eps0 ≠ 0) {W : World 2} {rk : Nat → Nat → Nat} {x : Nat → St 2}
    (h0 : Starts C (sys2 C).npatches C.coord2 β (x 0) W) (hrun : Run (sys2 C) rk x) (i : Nat) :
    fieldEnergy C (sys2 C).npatches (curlB2 C.par) (x (i + 1)) - fieldEnergy C (sys2 C).npatches (curlB2 C.par) (x i) =
      - (C.dt * ((work C (sys2 C).npatches (x i) + work C (sys2 C).npatches (x (i + 1))) / 2))
      + C.dt ^ 2 / (8 * C.eps0) * (overCells C.n (sys2 C).npatches (storedJ C (x i)) (storedJ C (x i))
          - overCells C.n (sys2 C).npatches (storedJ C (x (i + 1))) (storedJ C (x (i + 1)))) := by
  obtain ⟨G, J, a, b⟩ := on_run2 hC h0 hrun i
  exact balance (yee2 _ C.par) (localFE2 C.par) he (layout2 C) (vec2 C.n) rfl rfl a b

/-- **C83 (3D), energy balance.** The same in 3D, on either path of the push. -/
theorem poynting3 {C : Conf 3} {β : ℚ} (hC : Admissible C β) (he : C.eps0 ≠ 0) {W : World 3} {rk : Nat → Nat → Nat} {x : Nat → St 3}
    (h0 : Starts C (sys3 C).npatches C.coord3 β (x 0) W) (hrun : Run (sys3 C) rk x) (i : Nat) :
    fieldEnergy C (sys3 C).npatches (curlB3 C.par) (x (i + 1)) - fieldEnergy C (sys3 C).npatches (curlB3 C.par) (x i) =
      - (C.dt * ((work C (sys3 C).npatches (x i) + work C (sys3 C).npatches (x (i + 1))) / 2))
      + C.dt ^ 2 / (8 * C.eps0) * (overCells C.n (sys3 C).npatches (storedJ C (x i)) (storedJ C (x i))
          - overCells C.n (sys3 C).npatches (storedJ C (x (i + 1))) (storedJ C (x (i + 1)))) := by
  obtain ⟨G, J, a, b⟩ := on_run3 hC h0 hrun i
  exact balance (yee3 _ C.par) (localFE3 C.par) he (layout3 C) (vec3 C.n) rfl rfl a b

/-- Specification: no currents in the own cells of the patches -/
def NoCurrent {k : Nat} (C : Conf k) (N : Nat) (x : St k) : Prop := ∀ t, t < N → ∀ f v, Own C.n v → storedJ C x t f v = 0

theorem NoCurrent.over {k : Nat} {C : Conf k} {N : Nat} {x : St k} (h : NoCurrent C N x) (B : Comp k) : overCells C.n N (storedJ C x) B = 0 := by
  refine Finset.sum_eq_zero fun t ht => Finset.sum_eq_zero fun u _ => Finset.sum_eq_zero fun f _ => ?_
  rw [h t (Finset.mem_range.mp ht) f _ fun a => ⟨Int.natCast_nonneg _, Int.ofNat_lt.mpr (u a).2⟩, zero_mul]

/-- **C83 (2D), stability.** `q` is the factor `dt_cfl` of the configuration, so that `c² dt² (1/dx² + 1/dy²) = q²`. As long
as there are no currents, E² + (1 - q²) c² B², summed over all cells, never exceeds E² + c² B² of the start: with
`dt_cfl < 1` the fields stay bounded however many steps are made. Missing for the full property: `dt_cfl = 1`, for which
the code is not stable (`cfl_one_fails`). -/
theorem stable2_partial {C : Conf 2} {β : ℚ} (hC : Admissible C β) (he : 0 < C.eps0) (hc : 0 ≤ C.c2) {q : ℚ}
    (hq : C.c2 * C.dt ^ 2 * (1 / C.d 0 ^ 2 + 1 / C.d 1 ^ 2) = q ^ 2) {W : World 2} {rk : Nat → Nat → Nat} {x : Nat → St 2}
    (h0 : Starts C (sys2 C).npatches C.coord2 β (x 0) W) (hrun : Run (sys2 C) rk x) (i : Nat)
    (hJ : ∀ j, j ≤ i → NoCurrent C (sys2 C).npatches (x j)) :
    overCells C.n (sys2 C).npatches (storedE C (x i)) (storedE C (x i))
      + (1 - q ^ 2) * C.c2 * overCells C.n (sys2 C).npatches (storedB C (x i)) (storedB C (x i)) ≤
    overCells C.n (sys2 C).npatches (storedE C (x 0)) (storedE C (x 0))
      + C.c2 * overCells C.n (sys2 C).npatches (storedB C (x 0)) (storedB C (x 0)) := by
  have con : ∀ j, j ≤ i → fieldEnergy C (sys2 C).npatches (curlB2 C.par) (x j) = fieldEnergy C (sys2 C).npatches (curlB2 C.par) (x 0) := by
    intro j
    induction j with
    | zero => intro _; rfl
    | succ j ih =>
      intro hj
      have p := poynting2 hC he.ne' h0 hrun j
      unfold work at p
      rw [(hJ j (by omega)).over, (hJ j (by omega)).over, (hJ (j + 1) hj).over, (hJ (j + 1) hj).over] at p
      rw [← ih (by omega)]
      linarith
  obtain ⟨G, _, a, -⟩ := on_run2 hC h0 hrun i
  obtain ⟨G0, _, a0, -⟩ := on_run2 hC h0 hrun 0
  have l := (energy_between (yee2 _ C.par) he hc hq.le (layout2 C) (vec2 C.n) rfl rfl a).1
  have u := (energy_between (yee2 _ C.par) he hc hq.le (layout2 C) (vec2 C.n) rfl rfl a0).2
  rw [con i le_rfl] at l
  exact le_of_mul_le_mul_left (l.trans u) (by positivity)

/-- **C83 (3D), stability.** The same in 3D. Missing for the full property: `dt_cfl = 1`. -/
theorem stable3_partial {C : Conf 3} {β : ℚ} (hC : Admissible C β) (he : 0 < C.eps0) (hc : 0 ≤ C.c2) {q : ℚ}
    (hq : C.c2 * C.dt ^ 2 * (1 / C.d 0 ^ 2 + 1 / C.d 1 ^ 2 + 1 / C.d 2 ^ 2) = q ^ 2) {W : World 3} {rk : Nat → Nat → Nat} {x : Nat → St 3}
    (h0 : Starts C (sys3 C).npatches C.coord3 β (x 0) W) (hrun : Run (sys3 C) rk x) (i : Nat)
    (hJ : ∀ j, j ≤ i → NoCurrent C (sys3 C).npatches (x j)) :
    overCells C.n (sys3 C).npatches (storedE C (x i)) (storedE C (x i))
      + (1 - q ^ 2) * C.c2 * overCells C.n (sys3 C).npatches (storedB C (x i)) (storedB C (x i)) ≤
    overCells C.n (sys3 C).npatches (storedE C (x 0)) (storedE C (x 0))
      + C.c2 * overCells C.n (sys3 C).npatches (storedB C (x 0)) (storedB C (x 0)) := by
  have con : ∀ j, j ≤ i → fieldEnergy C (sys3 C).npatches (curlB3 C.par) (x j) = fieldEnergy C (sys3 C).npatches (curlB3 C.par) (x 0) := by
    intro j
    induction j with
    | zero => intro _; rfl
    | succ j ih =>
      intro hj
      have p := poynting3 hC he.ne' h0 hrun j
      unfold work at p
      rw [(hJ j (by omega)).over, (hJ j (by omega)).over, (hJ (j + 1) hj).over, (hJ (j + 1) hj).over] at p
      rw [← ih (by omega)]
      linarith
  obtain ⟨G, _, a, -⟩ := on_run3 hC h0 hrun i
  obtain ⟨G0, _, a0, -⟩ := on_run3 hC h0 hrun 0
  have l := (energy_between (yee3 _ C.par) he hc hq.le (layout3 C) (vec3 C.n) rfl rfl a).1
  have u := (energy_between (yee3 _ C.par) he hc hq.le (layout3 C) (vec3 C.n) rfl rfl a0).2
  rw [con i le_rfl] at l
  exact le_of_mul_le_mul_left (l.trans u) (by positivity)

/-! ### runs without particles have no currents -/

theorem cur2_nil (N : Fin 2 → Nat) (d : Fin 2 → ℚ) (dt : ℚ) (f : Fin 3) (v : Fin 2 → Int) : cur2 N d dt [] f v = 0 := by
  match f with
  | 0 => rfl
  | 1 => rfl
  | 2 => rfl
theorem cur3_nil (N : Fin 3 → Nat) (d : Fin 3 → ℚ) (dt : ℚ) (f : Fin 3) (v : Fin 3 → Int) : cur3 N d dt [] f v = 0 := by
  match f with
  | 0 => rfl
  | 1 => rfl
  | 2 => rfl

theorem cloud_nil {k : Nat} (Φ : Phys k) {W : World k} (h : W.cloud = []) (i : Nat) : (W.run Φ i).cloud = [] := by
  induction i with
  | zero => exact h
  | succ i ih =>
    show (W.run Φ i).cloud.map _ = []
    rw [ih]; rfl

theorem vacuum2 {C : Conf 2} {β : ℚ} (hC : Admissible C β) {W : World 2} {rk : Nat → Nat → Nat} {x : Nat → St 2}
    (h0 : Starts C (sys2 C).npatches C.coord2 β (x 0) W) (hrun : Run (sys2 C) rk x) (hp : (x 0).parts = [])
    (hj : NoCurrent C (sys2 C).npatches (x 0)) (i : Nat) : NoCurrent C (sys2 C).npatches (x i) := by
  cases i with
  | zero => exact hj
  | succ i =>
    have hw : W.cloud = [] := by
      have := h0.agrees.species
      rw [hp] at this
      cases hc : W.cloud with
      | nil => rfl
      | cons a l => rw [hc] at this; cases this
    intro t ht f v hv
    have h := (run_is_undivided2 hC h0 hrun (i + 1)).1.j t ht f v (stored_zero.mpr hv)
    refine h.trans ?_
    show cur2 _ _ _ (World.run _ W (i + 1)).cloud f _ = 0
    rw [cloud_nil _ hw, cur2_nil]

theorem vacuum3 {C : Conf 3} {β : ℚ} (hC : Admissible C β) {W : World 3} {rk : Nat → Nat → Nat} {x : Nat → St 3}
    (h0 : Starts C (sys3 C).npatches C.coord3 β (x 0) W) (hrun : Run (sys3 C) rk x) (hp : (x 0).parts = [])
    (hj : NoCurrent C (sys3 C).npatches (x 0)) (i : Nat) : NoCurrent C (sys3 C).npatches (x i) := by
  cases i with
  | zero => exact hj
  | succ i =>
    have hw : W.cloud = [] := by
      have := h0.agrees.species
      rw [hp] at this
      cases hc : W.cloud with
      | nil => rfl
      | cons a l => rw [hc] at this; cases this
    intro t ht f v hv
    have hi := run_follows hC.facts3 hC.bounds3 (follows3.mpr ⟨h0, by rw [hp]; simp⟩) hrun (i + 1)
    have h := (follows3.mp hi).1.agrees.j t ht f v (stored_zero.mpr hv)
    refine h.trans ?_
    show cur3 _ _ _ (World.run _ W (i + 1)).cloud f _ = 0
    rw [cloud_nil _ hw, cur3_nil]

/-! ## `dt_cfl = 1`

The configuration accepts `dt_cfl = 1` (simulation.py 59: `le=1`; the documentation says "Must be ≤ 1.0", 131). The bound
above then says nothing about B, and there is none. -/

/-- the sign that alternates from cell to cell -/
def zig (v : Fin 2 → Int) : ℚ := if (v 0 + v 1) % 2 = 0 then 1 else -1

theorem zig_sq (v : Fin 2 → Int) : zig v * zig v = 1 := by unfold zig; split <;> norm_num
theorem zig_up (v : Fin 2 → Int) (a : Fin 2) : zig (up a v) = -zig v := by
  have h : (up a v 0 + up a v 1) = v 0 + v 1 + 1 := by
    match a with
    | 0 => simp [up]; ring
    | 1 => simp [up]; ring
  unfold zig
  rw [h]
  by_cases h2 : (v 0 + v 1) % 2 = 0
  · rw [if_pos h2, if_neg (by omega)]
  · rw [if_neg h2, if_pos (by omega)]; norm_num
theorem zig_dn (v : Fin 2 → Int) (a : Fin 2) : zig (dn a v) = -zig v := by
  have := zig_up (dn a v) a
  rw [up_dn] at this
  linarith
theorem zig_par {v w : Fin 2 → Int} (h : ∀ a, (v a - w a) % 2 = 0) : zig v = zig w := by
  unfold zig
  have h0 := h 0
  have h1 := h 1
  by_cases h2 : (w 0 + w 1) % 2 = 0
  · rw [if_pos h2, if_pos (by omega)]
  · rw [if_neg h2, if_neg (by omega)]

/-- cells of 3 × 4, one patch of 4 × 4 cells, `c dt = 12/5 = (1/9 + 1/16)^(-1/2)` -/
def oneConf : Conf 2 := ⟨![1, 1], ![4, 4], 3, ![3, 4], lightSpeed ^ 2, 1, 12 / (5 * lightSpeed), fun s => 1 / s⟩
/-- the fields of the zigzag: E is `α` times the curl of the zigzag, B is `γ` times the zigzag -/
def zigField (α γ : ℚ) : GF 2 := ⟨![fun v => α / 2 * zig v, fun v => -(2 / 3) * α * zig v, fun _ => 0], ![fun _ => 0, fun _ => 0, fun v => γ * zig v], fun _ _ => 0⟩

theorem zig_step (α γ : ℚ) : (zigField α γ).step (yeeE2 oneConf.par) (yeeB2 oneConf.par) oneConf.dt (fun _ _ => 0) = zigField (-α) (-γ - 5 / (3 * lightSpeed) * α) := by
  have hl : lightSpeed ≠ 0 := by unfold lightSpeed; norm_num
  have ed : oneConf.par.d 0 = 3 := rfl
  have ed1 : oneConf.par.d 1 = 4 := rfl
  have ec : oneConf.par.c2 = lightSpeed ^ 2 := rfl
  have et : oneConf.dt = 12 / (5 * lightSpeed) := rfl
  have H : ∀ (G G' : GF 2), G.e = G'.e → G.b = G'.b → G.j = G'.j → G = G' := by
    rintro ⟨_, _, _⟩ ⟨_, _, _⟩ rfl rfl rfl; rfl
  refine H _ _ ?_ ?_ rfl
  · funext f v
    match f with
    | 0 =>
      simp only [GF.step, GF.stepE, GF.stepB, zigField, yeeE2, yeeB2, Matrix.cons_val, zig_up, zig_dn, ed, ed1, ec, et]
      field_simp; ring
    | 1 =>
      simp only [GF.step, GF.stepE, GF.stepB, zigField, yeeE2, yeeB2, Matrix.cons_val, zig_up, zig_dn, ed, ed1, ec, et]
      field_simp; ring
    | 2 =>
      simp only [GF.step, GF.stepE, GF.stepB, zigField, yeeE2, yeeB2, Matrix.cons_val, zig_up, zig_dn, ed, ed1, ec, et]
      ring
  · funext f v
    match f with
    | 0 =>
      simp only [GF.step, GF.stepE, GF.stepB, zigField, yeeE2, yeeB2, Matrix.cons_val, zig_up, zig_dn, ed, ed1, ec, et]
      ring
    | 1 =>
      simp only [GF.step, GF.stepE, GF.stepB, zigField, yeeE2, yeeB2, Matrix.cons_val, zig_up, zig_dn, ed, ed1, ec, et]
      ring
    | 2 =>
      simp only [GF.step, GF.stepE, GF.stepB, zigField, yeeE2, yeeB2, Matrix.cons_val, zig_up, zig_dn, ed, ed1, ec, et]
      field_simp; ring

def zigWorld : World 2 := ⟨zigField 1 0, []⟩
def zigState : St 2 := ⟨fun _ => ⟨(zigField 1 0).e, (zigField 1 0).b, fun _ _ => 0⟩, []⟩

theorem oneConf_ok : Admissible oneConf 1 where
  patches := fun a => match a with | 0 => by decide | 1 => by decide
  guard := le_refl _
  wide := fun a => match a with | 0 => by decide | 1 => by decide
  cell := fun a => match a with | 0 => (show (0 : ℚ) < 3 by norm_num) | 1 => (show (0 : ℚ) < 4 by norm_num)
  step := by show (12 / (5 * lightSpeed) : ℚ) ≠ 0; unfold lightSpeed; norm_num
  speed := by norm_num
  root := (exConf_ok (k := 2) (np := ![1, 1]) (n := ![4, 4]) (fun a => match a with | 0 => by decide | 1 => by decide)
    (fun a => match a with | 0 => by decide | 1 => by decide)).root
  courant := by
    have h : lightSpeed * |12 / (5 * lightSpeed)| * 1 = (12 / 5 : ℚ) := by
      unfold lightSpeed
      rw [abs_of_pos (by norm_num)]
      norm_num
    intro a
    show lightSpeed * |12 / (5 * lightSpeed)| * 1 ≤ _
    rw [h]
    match a with
    | 0 => exact (by norm_num : (12 / 5 : ℚ) ≤ 3)
    | 1 => exact (by norm_num : (12 / 5 : ℚ) ≤ 4)

theorem zigField_par (α γ : ℚ) {v w : Fin 2 → Int} (h : ∀ a, (v a - w a) % 2 = 0) (f : Fin 3) :
    (zigField α γ).e f v = (zigField α γ).e f w ∧ (zigField α γ).b f v = (zigField α γ).b f w := by
  have z := zig_par h
  match f with
  | 0 => exact ⟨congrArg (α / 2 * ·) z, rfl⟩
  | 1 => exact ⟨congrArg (-(2 / 3) * α * ·) z, rfl⟩
  | 2 => exact ⟨rfl, congrArg (γ * ·) z⟩

theorem zig_starts : Starts oneConf (sys2 oneConf).npatches oneConf.coord2 1 zigState zigWorld := by
  have hn : ∀ a, oneConf.n a = 4 := fun a => match a with | 0 => rfl | 1 => rfl
  have hnp : ∀ a, oneConf.np a = 1 := fun a => match a with | 0 => rfl | 1 => rfl
  have hng : oneConf.ng = 3 := rfl
  have key : ∀ t v a, (index oneConf.n oneConf.ng v a - onGrid oneConf.n (oneConf.coord2 t) v a) % 2 = 0 := by
    intro t v a
    unfold index wrapIx onGrid
    rw [hn, hng]
    split <;> omega
  refine ⟨⟨fun t _ f v _ => (zigField_par 1 0 (key t v) f).1, fun t _ f v _ => (zigField_par 1 0 (key t v) f).2, fun _ _ _ _ _ => rfl, .nil⟩, ?_, ?_⟩
  · intro a ha; cases ha
  · intro v w h f
    have : ∀ a, (v a - w a) % 2 = 0 := by
      intro a
      have := (h a).sub_right (w a)
      rw [hn, hnp, sub_self] at this
      have h4 := Int.ModEq.dvd this
      omega
    exact ⟨(zigField_par 1 0 this f).1, (zigField_par 1 0 this f).2, rfl⟩

theorem zig_run (i : Nat) : (zigWorld.run oneConf.phys2 i).fld = zigField ((-1) ^ i) ((-1) ^ i * (5 / (3 * lightSpeed) * i)) := by
  induction i with
  | zero => simp [World.run, zigWorld]
  | succ i ih =>
    have hc := cloud_nil oneConf.phys2 (W := zigWorld) rfl (i + 1)
    have h1 : (zigWorld.run oneConf.phys2 (i + 1)).fld = GF.step (yeeE2 oneConf.par) (yeeB2 oneConf.par) oneConf.dt
        (oneConf.phys2.cur (zigWorld.run oneConf.phys2 (i + 1)).cloud) (zigWorld.run oneConf.phys2 i).fld := rfl
    rw [h1, hc, ih]
    have h2 : oneConf.phys2.cur [] = fun _ _ => 0 := by funext f v; exact cur2_nil _ _ _ f v
    rw [h2, zig_step]
    congr 1
    · rw [pow_succ]; ring
    · rw [pow_succ]; push_cast; ring

/-- **C83, defect.** `dt_cfl = 1`, which the configuration accepts, is not stable: in a box without particles and currents
there are fields for which `c² B²`, summed over all cells, exceeds every bound, whatever the ranks are. -/
theorem cfl_one_fails (rk : Nat → Nat → Nat) : ∃ (C : Conf 2) (W : World 2) (x : Nat → St 2), Admissible C 1 ∧
    C.c2 = lightSpeed ^ 2 ∧ C.c2 * C.dt ^ 2 * (1 / C.d 0 ^ 2 + 1 / C.d 1 ^ 2) = 1 ∧
    Starts C (sys2 C).npatches C.coord2 1 (x 0) W ∧ Run (sys2 C) rk x ∧ (x 0).parts = [] ∧ NoCurrent C (sys2 C).npatches (x 0) ∧
    ∀ M, ∃ i, M < C.c2 * overCells C.n (sys2 C).npatches (storedB C (x i)) (storedB C (x i)) := by
  obtain ⟨x, e, r⟩ := runs2 oneConf_ok zig_starts rk
  have hl : lightSpeed ≠ 0 := by unfold lightSpeed; norm_num
  refine ⟨oneConf, zigWorld, x, oneConf_ok, rfl, ?_, e ▸ zig_starts, r, by rw [e]; rfl, ?_, ?_⟩
  · show lightSpeed ^ 2 * (12 / (5 * lightSpeed)) ^ 2 * (1 / 3 ^ 2 + 1 / 4 ^ 2) = 1
    field_simp
    norm_num
  · intro t _ f v _
    rw [e]; rfl
  · intro M
    have val : ∀ i, oneConf.c2 * overCells oneConf.n (sys2 oneConf).npatches (storedB oneConf (x i)) (storedB oneConf (x i)) = 400 / 9 * (i : ℚ) ^ 2 := by
      intro i
      have hi := run_follows oneConf_ok.facts2 oneConf_ok.bounds2 (follows2.mpr (e ▸ zig_starts)) r i
      have on : On (sys2 oneConf) oneConf oneConf.place2 (curlB2 oneConf.par) (x i) (zigWorld.run oneConf.phys2 i).fld :=
        ⟨hi.rep, hi.per, curlB2_shows (by decide) hi.rep⟩
      rw [(on.sums (layout2 oneConf) (vec2 _) rfl rfl).2.1, zig_run]
      have hd : dot (fun a => oneConf.np a * oneConf.n a) (zigField ((-1) ^ i) ((-1) ^ i * (5 / (3 * lightSpeed) * i))).b
          (zigField ((-1) ^ i) ((-1) ^ i * (5 / (3 * lightSpeed) * i))).b = 16 * (5 / (3 * lightSpeed) * i) ^ 2 := by
        have one : ((-1 : ℚ) ^ i) ^ 2 = 1 := by rw [← pow_mul, mul_comm, pow_mul]; norm_num
        have hv : ∀ v, (zigField ((-1) ^ i) ((-1) ^ i * (5 / (3 * lightSpeed) * i))).b 0 v * (zigField ((-1) ^ i) ((-1) ^ i * (5 / (3 * lightSpeed) * i))).b 0 v
            + (zigField ((-1) ^ i) ((-1) ^ i * (5 / (3 * lightSpeed) * i))).b 1 v * (zigField ((-1) ^ i) ((-1) ^ i * (5 / (3 * lightSpeed) * i))).b 1 v
            + (zigField ((-1) ^ i) ((-1) ^ i * (5 / (3 * lightSpeed) * i))).b 2 v * (zigField ((-1) ^ i) ((-1) ^ i * (5 / (3 * lightSpeed) * i))).b 2 v
            = (5 / (3 * lightSpeed) * i) ^ 2 := by
          intro v
          have z := zig_sq v
          simp only [zigField, Matrix.cons_val]
          linear_combination (((-1 : ℚ) ^ i) ^ 2 * (5 / (3 * lightSpeed) * i) ^ 2) * z + (5 / (3 * lightSpeed) * i) ^ 2 * one
        unfold dot
        simp only [hv]
        unfold tot
        rw [Finset.sum_const, Finset.card_univ, Fintype.card_pi, Fin.prod_univ_two, nsmul_eq_mul]
        simp only [Fintype.card_fin]
        have hc : oneConf.np 0 * oneConf.n 0 * (oneConf.np 1 * oneConf.n 1) = 16 := by decide
        rw [hc]; norm_num
      rw [hd]
      show lightSpeed ^ 2 * _ = _
      field_simp
      ring
    obtain ⟨m, hm⟩ := exists_nat_gt M
    refine ⟨m, ?_⟩
    rw [val]
    have : (m : ℚ) ≤ (m : ℚ) ^ 2 := by exact_mod_cast Nat.le_self_pow (by decide) m
    have h0 : (0 : ℚ) ≤ (m : ℚ) ^ 2 := by positivity
    linarith

/-! ## cases that meet the hypotheses -/

/-- energy balance: the electron of C66 on two patches that change their rank in every step; the currents are not zero
(the electron moves) -/
example : ∃ (rk : Nat → Nat → Nat) (x : Nat → St 2), let C := exConf 2 ![2, 1] ![4, 3]
    Admissible C 1 ∧ C.eps0 ≠ 0 ∧ Starts C (sys2 C).npatches C.coord2 1 (x 0) (exWorld 2) ∧ Run (sys2 C) rk x := by
  have a1 : Admissible (exConf 2 ![2, 1] ![4, 3]) 1 :=
    exConf_ok (fun a => match a with | 0 => by decide | 1 => by decide) (fun a => match a with | 0 => by decide | 1 => by decide)
  have s1 := exStarts (np := ![2, 1]) (n := ![4, 3]) (N := (sys2 (exConf 2 ![2, 1] ![4, 3])).npatches)
    (co := (exConf 2 ![2, 1] ![4, 3]).coord2) (fun a => match a with | 0 => by decide | 1 => by decide) (by decide)
    (by funext a; match a with | 0 => rfl | 1 => rfl) false
  obtain ⟨x, e, r⟩ := runs2 a1 s1 (fun i t => (i + t) % 2)
  exact ⟨_, x, a1, one_ne_zero, e ▸ s1, r⟩

/-- the same in 3D -/
example : ∃ (rk : Nat → Nat → Nat) (x : Nat → St 3), let C := exConf 3 ![2, 1, 1] ![4, 3, 3]
    Admissible C 1 ∧ C.eps0 ≠ 0 ∧ Starts C (sys3 C).npatches C.coord3 1 (x 0) (exWorld 3) ∧ Run (sys3 C) rk x := by
  have a1 : Admissible (exConf 3 ![2, 1, 1] ![4, 3, 3]) 1 :=
    exConf_ok (fun a => match a with | 0 => by decide | 1 => by decide | 2 => by decide)
      (fun a => match a with | 0 => by decide | 1 => by decide | 2 => by decide)
  have s1 := exStarts (np := ![2, 1, 1]) (n := ![4, 3, 3]) (N := (sys3 (exConf 3 ![2, 1, 1] ![4, 3, 3])).npatches)
    (co := (exConf 3 ![2, 1, 1] ![4, 3, 3]).coord3) (fun a => match a with | 0 => by decide | 1 => by decide | 2 => by decide) (by decide)
    (by funext a; match a with | 0 => rfl | 1 => rfl | 2 => rfl) true
  have hu : ∀ a ∈ (exState 3 true).parts, a.1.unified = true := by
    intro a ha
    rcases List.mem_singleton.mp ha with rfl
    rfl
  obtain ⟨x, e, r⟩ := runs3 a1 s1 hu (fun _ t => t)
  exact ⟨_, x, a1, one_ne_zero, e ▸ s1, r⟩

/-- stability: the zigzag with half the time step (`dt_cfl = 1/2`), whose fields are not zero -/
example : ∃ (C : Conf 2) (W : World 2) (x : Nat → St 2), Admissible C 1 ∧ 0 < C.eps0 ∧ 0 ≤ C.c2 ∧
    C.c2 * C.dt ^ 2 * (1 / C.d 0 ^ 2 + 1 / C.d 1 ^ 2) = (1 / 2) ^ 2 ∧ Starts C (sys2 C).npatches C.coord2 1 (x 0) W ∧
    Run (sys2 C) (fun _ _ => 0) x ∧ (∀ i, NoCurrent C (sys2 C).npatches (x i)) ∧ storedE C (x 0) 0 0 (fun _ => 0) ≠ 0 := by
  have hl : lightSpeed ≠ 0 := by unfold lightSpeed; norm_num
  have a1 : Admissible { oneConf with dt := 6 / (5 * lightSpeed) } 1 := by
    refine ⟨oneConf_ok.patches, oneConf_ok.guard, oneConf_ok.wide, oneConf_ok.cell, ?_, oneConf_ok.speed, oneConf_ok.root, ?_⟩
    · show (6 / (5 * lightSpeed) : ℚ) ≠ 0
      unfold lightSpeed; norm_num
    · intro a
      have h : lightSpeed * |6 / (5 * lightSpeed)| * 1 = (6 / 5 : ℚ) := by
        unfold lightSpeed
        rw [abs_of_pos (by norm_num)]
        norm_num
      show lightSpeed * |6 / (5 * lightSpeed)| * 1 ≤ oneConf.d a
      rw [h]
      match a with
      | 0 => exact (by norm_num : (6 / 5 : ℚ) ≤ 3)
      | 1 => exact (by norm_num : (6 / 5 : ℚ) ≤ 4)
  have s1 : Starts { oneConf with dt := 6 / (5 * lightSpeed) } (sys2 { oneConf with dt := 6 / (5 * lightSpeed) }).npatches
      (Conf.coord2 { oneConf with dt := 6 / (5 * lightSpeed) }) 1 zigState zigWorld :=
    ⟨⟨zig_starts.agrees.e, zig_starts.agrees.b, zig_starts.agrees.j, zig_starts.agrees.species⟩, zig_starts.inside, zig_starts.period⟩
  obtain ⟨x, e, r⟩ := runs2 a1 s1 (fun _ _ => 0)
  refine ⟨_, zigWorld, x, a1, one_pos, sq_nonneg _, ?_, e ▸ s1, r, ?_, ?_⟩
  · show lightSpeed ^ 2 * (6 / (5 * lightSpeed)) ^ 2 * (1 / 3 ^ 2 + 1 / 4 ^ 2) = (1 / 2) ^ 2
    field_simp
    norm_num
  · exact vacuum2 a1 (e ▸ s1) r (by rw [e]; rfl) (by intro t _ f v _; rw [e]; rfl)
  · rw [e]
    show (1 / 2 : ℚ) * zig (index _ _ fun _ => 0) ≠ 0
    have := zig_sq (index oneConf.n oneConf.ng fun _ => 0)
    intro h
    rcases mul_eq_zero.mp h with h | h
    · norm_num at h
    · rw [show zig (index oneConf.n oneConf.ng fun _ => 0) = 0 from h] at this
      norm_num at this

end Verif.WholeRun
