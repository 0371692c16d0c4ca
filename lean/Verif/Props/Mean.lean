import Verif.Proofs.Mean
import Verif.Props.Energy
import Verif.Props.Reverse
/-!
# C113 — the mean fields of a periodic box

Runs, configurations and starts are those of C66. Sums go over the own cells of all patches and over the living particles, as the program
stores them.
-/
namespace Verif.WholeRun
open Verif.Maxwell Verif.SyncFields Verif.Pusher Verif.Deposit Verif.Geometry Verif.Neighbors Verif.PicSpec
open Verif.PicStep (closed2 closed3)
open Finset (range)

section Spec
variable {k : Nat}

/-- Specification: sum of one component over the own cells of the patches `0 … N-1` -/
def sumCells (n : Fin k → Nat) (N : Nat) (A : Comp k) (f : Fin 3) : ℚ :=
  ∑ t ∈ range N, ∑ u : (a : Fin k) → Fin (n a), A t f fun a => ((u a : Nat) : Int)

/-- Specification: charge times weight times velocity, summed over all living particles in the patches `0 … N-1` -/
def netCurrent (N : Nat) (x : St k) (f : Fin 3) : ℚ :=
  ((cloudOf N x.parts).map fun s => (s.2.map fun p => s.1.q * p.mom.w * (uAt p.mom f * lightSpeed * p.mom.invGamma)).sum).sum
end Spec

section Gen
variable {k : Nat}

theorem sum_tot {N : Nat} {g : Place k} {C : Conf k} (L : Layout C N g) {A : Comp k} {X : V3 k} (f : Fin 3)
    (hA : ∀ t, t < N → ∀ v, Own C.n v → A t f v = X f (globalCell C.n (g.coord t) v)) :
    sumCells C.n N A f = tot (fun a => C.np a * C.n a) (X f) := by
  have := sum_patches (n := C.n) L.bound L.inj L.full (X f)
  rw [L.np] at this
  rw [← this]
  unfold sumCells
  refine Finset.sum_congr rfl fun t ht => Finset.sum_congr rfl fun u _ => ?_
  exact hA t (Finset.mem_range.mp ht) _ fun a => ⟨Int.natCast_nonneg _, Int.ofNat_lt.mpr (u a).2⟩

theorem On.means {D A : Type} {Y : Sys k D A} {C : Conf k} {g : Place k} {CB : V3 k → V3 k} {x : St k} {G : GF k}
    (L : Layout C Y.npatches g) (hn : Y.solver.sync.n = C.n) (hng : Y.solver.sync.ng = C.ng)
    (hN : Y.solver.sync.npatches = Y.npatches) (h : On Y C g CB x G) (f : Fin 3) :
    sumCells C.n Y.npatches (storedE C x) f = tot (fun a => C.np a * C.n a) (G.e f) ∧
    sumCells C.n Y.npatches (storedB C x) f = tot (fun a => C.np a * C.n a) (G.b f) ∧
    sumCells C.n Y.npatches (storedJ C x) f = tot (fun a => C.np a * C.n a) (G.j f) := by
  refine ⟨sum_tot L f ?_, sum_tot L f ?_, sum_tot L f ?_⟩
  · intro t ht v hv
    have := h.rep.e t (hN ▸ ht) f v (by rw [hn, hng]; exact hv.inRange _)
    rwa [hn, hng] at this
  · intro t ht v hv
    have := h.rep.b t (hN ▸ ht) f v (by rw [hn, hng]; exact hv.inRange _)
    rwa [hn, hng] at this
  · intro t ht v hv
    have := h.rep.j t (hN ▸ ht) f v (by rw [hn]; exact hv)
    rwa [hn, hng] at this

theorem mean_between {D A : Type} {Y : Sys k D A} {C : Conf k} {g : Place k} {CB CE : V3 k → V3 k} {R : ℚ} {x x' : St k} {G : GF k} {J : V3 k}
    {FE : ℚ → V3 k → V3 k → V3 k} {FB : ℚ → V3 k → V3 k}
    (Z : Yee (fun a => C.np a * C.n a) C.c2 C.eps0 R FE FB CB CE)
    (hCB : ∀ b : V3 k, (∀ d, Per1 (fun a => C.np a * C.n a) (b d)) → ∀ d, tot (fun a => C.np a * C.n a) (CB b d) = 0)
    (hCE : ∀ e : V3 k, (∀ d, Per1 (fun a => C.np a * C.n a) (e d)) → ∀ d, tot (fun a => C.np a * C.n a) (CE e d) = 0)
    (hl : LocalFE FE) (L : Layout C Y.npatches g) (hn : Y.solver.sync.n = C.n) (hng : Y.solver.sync.ng = C.ng)
    (hN : Y.solver.sync.npatches = Y.npatches) (h : On Y C g CB x G) (h' : On Y C g CB x' (G.step FE FB C.dt J)) (f : Fin 3) :
    sumCells C.n Y.npatches (storedB C x') f = sumCells C.n Y.npatches (storedB C x) f ∧
    sumCells C.n Y.npatches (storedE C x') f = sumCells C.n Y.npatches (storedE C x) f -
      C.dt / C.eps0 * ((sumCells C.n Y.npatches (storedJ C x) f + sumCells C.n Y.npatches (storedJ C x') f) / 2) := by
  obtain ⟨s1, s2, s3⟩ := h.means L hn hng hN f
  obtain ⟨t1, t2, t3⟩ := h'.means L hn hng hN f
  have hp := h.per
  have hp' := h'.per
  rw [L.np, hn] at hp hp'
  obtain ⟨m1, m2⟩ := means_step Z hCB hCE C.dt J G (fun d => hp.b.comp d) (fun d => (hp.stepE hl (1 / 2 * C.dt)).e.comp d)
    (fun d => hp'.b.comp d) f
  rw [s1, s2, s3, t1, t2, t3, m1, m2]
  exact ⟨rfl, rfl⟩

/-- sums over the same particles are the same if positions do not matter -/
theorem SameCloud.sums {L : Fin k → ℚ} {a b : List (Kind × List (Ptc k))} (h : SameCloud L a b) (F : ℚ → Mom → ℚ) :
    (a.map fun s => (s.2.map fun p => F s.1.q p.mom).sum).sum = (b.map fun s => (s.2.map fun p => F s.1.q p.mom).sum).sum := by
  unfold SameCloud at h
  induction h with
  | nil => rfl
  | cons hs _ ih =>
    rename_i s s' _ _ _
    rw [List.map_cons, List.map_cons, List.sum_cons, List.sum_cons, ih]
    congr 1
    obtain ⟨hk, b', hp, hf⟩ := hs
    rw [hk, ← (hp.map fun p => F s'.1.q p.mom).sum_eq]
    congr 1
    clear ih hp
    generalize s.2 = l at hf ⊢
    induction hf with
    | nil => rfl
    | cons h1 _ ih => rw [List.map_cons, List.map_cons, ih, h1.1]

theorem tot_list {N : Fin k → Nat} {α : Type} (l : List α) (F : α → (Fin k → Int) → ℚ) :
    tot N (fun v => (l.map fun a => F a v).sum) = (l.map fun a => tot N (F a)).sum := by
  induction l with
  | nil => simp [tot]
  | cons a l ih =>
    have : (fun v => ((a :: l).map fun a => F a v).sum) = fun v => F a v + (l.map fun a => F a v).sum := by
      funext v; rw [List.map_cons, List.sum_cons]
    rw [this, tot_add, ih, List.map_cons, List.sum_cons]

theorem list_mul {α : Type} (l : List α) (F : α → ℚ) (r : ℚ) : (l.map F).sum * r = (l.map fun a => F a * r).sum := by
  induction l with
  | nil => simp
  | cons a l ih => rw [List.map_cons, List.map_cons, List.sum_cons, List.sum_cons, add_mul, ih]
end Gen

theorem cur2_tot {N : Fin 2 → Nat} (hN : ∀ a, 0 < N a) {d : Fin 2 → ℚ} (hd : ∀ a, 0 < d a) {dt : ℚ} (hdt : dt ≠ 0)
    {cl : List (Kind × List (Ptc 2))} (hv : Symmetry.Slow d dt cl) (f : Fin 3) :
    tot N (cur2 N d dt cl f) * (d 0 * d 1) = (cl.map fun s => (s.2.map fun p => s.1.q * p.mom.w * vel p.mom f).sum).sum := by
  have e : cur2 N d dt cl f = fun c => (cl.map fun s => (s.2.map fun p =>
      closed2 ⟨N 0, d 0, 0⟩ ⟨N 1, d 1, 0⟩ dt ⟨s.1.q, p.pos 0, p.pos 1, p.mom⟩ f.castSucc fun a => c a % (N a : Int)).sum).sum :=
    funext fun c => cur_sum2 hN hd hdt hv f c
  rw [e, tot_list, list_mul]
  refine congrArg List.sum (List.map_congr_left fun s hs => ?_)
  rw [tot_list, list_mul]
  refine congrArg List.sum (List.map_congr_left fun p hp => ?_)
  exact closed2_tot hN hd hdt (m := ⟨s.1.q, p.pos 0, p.pos 1, p.mom⟩) (hv s hs p hp 0) (hv s hs p hp 1) f

theorem cur3_tot {N : Fin 3 → Nat} (hN : ∀ a, 2 ≤ N a) {d : Fin 3 → ℚ} (hd : ∀ a, 0 < d a) {dt : ℚ} (hdt : dt ≠ 0)
    {cl : List (Kind × List (Ptc 3))} (hv : Symmetry.Slow d dt cl) (f : Fin 3) :
    tot N (cur3 N d dt cl f) * (d 0 * d 1 * d 2) = (cl.map fun s => (s.2.map fun p => s.1.q * p.mom.w * vel p.mom f).sum).sum := by
  have e : cur3 N d dt cl f = fun c => (cl.map fun s => (s.2.map fun p =>
      closed3 ⟨N 0, d 0, 0⟩ ⟨N 1, d 1, 0⟩ ⟨N 2, d 2, 0⟩ dt ⟨s.1.q, p.pos 0, p.pos 1, p.pos 2, p.mom⟩ f.castSucc
        fun a => c a % (N a : Int)).sum).sum :=
    funext fun c => cur_sum3 hN hd hdt hv f c
  rw [e, tot_list, list_mul]
  refine congrArg List.sum (List.map_congr_left fun s hs => ?_)
  rw [tot_list, list_mul]
  refine congrArg List.sum (List.map_congr_left fun p hp => ?_)
  exact closed3_tot hN hd hdt (m := ⟨s.1.q, p.pos 0, p.pos 1, p.pos 2, p.mom⟩) (hv s hs p hp 0) (hv s hs p hp 1) (hv s hs p hp 2) f

/-- **C113 (2D), B.** In every run of the 2D program with periodic boundaries the mean of every component of B stays what it is. -/
theorem mean_b2 {C : Conf 2} {β : ℚ} (hC : Admissible C β) {W : World 2} {rk : Nat → Nat → Nat} {x : Nat → St 2}
    (h0 : Starts C (sys2 C).npatches C.coord2 β (x 0) W) (hrun : Run (sys2 C) rk x) (i : Nat) (f : Fin 3) :
    sumCells C.n (sys2 C).npatches (storedB C (x i)) f = sumCells C.n (sys2 C).npatches (storedB C (x 0)) f := by
  induction i with
  | zero => rfl
  | succ i ih =>
    obtain ⟨G, J, a, b⟩ := on_run2 hC h0 hrun i
    rw [← ih]
    exact (mean_between (yee2 _ C.par) (fun _ h => curlB2_tot C.par h) (fun _ h => curlE2_tot C.par h) (localFE2 C.par) (layout2 C) (vec2 C.n)
      rfl rfl a b f).1

/-- **C113 (2D), E.** In a step the sum of a component of E over the cells changes by `-dt/ε₀` times the mean of the sums of the currents
before and after the step: nothing but a net current changes the mean of E. -/
theorem mean_e2 {C : Conf 2} {β : ℚ} (hC : Admissible C β) {W : World 2} {rk : Nat → Nat → Nat} {x : Nat → St 2}
    (h0 : Starts C (sys2 C).npatches C.coord2 β (x 0) W) (hrun : Run (sys2 C) rk x) (i : Nat) (f : Fin 3) :
    sumCells C.n (sys2 C).npatches (storedE C (x (i + 1))) f = sumCells C.n (sys2 C).npatches (storedE C (x i)) f -
      C.dt / C.eps0 *
        ((sumCells C.n (sys2 C).npatches (storedJ C (x i)) f + sumCells C.n (sys2 C).npatches (storedJ C (x (i + 1))) f) / 2) := by
  obtain ⟨G, J, a, b⟩ := on_run2 hC h0 hrun i
  exact (mean_between (yee2 _ C.par) (fun _ h => curlB2_tot C.par h) (fun _ h => curlE2_tot C.par h) (localFE2 C.par) (layout2 C) (vec2 C.n)
    rfl rfl a b f).2

/-- **C113 (2D), currents.** After every step the sum of the stored currents over the cells, times the size of a cell, is the sum of charge
times weight times velocity over the stored particles, all three components, whichever path pushed them. -/
theorem net_current2 {C : Conf 2} {β : ℚ} (hC : Admissible C β) {W : World 2} {rk : Nat → Nat → Nat} {x : Nat → St 2}
    (h0 : Starts C (sys2 C).npatches C.coord2 β (x 0) W) (hrun : Run (sys2 C) rk x) (i : Nat) (f : Fin 3) :
    sumCells C.n (sys2 C).npatches (storedJ C (x (i + 1))) f * (C.d 0 * C.d 1) = netCurrent (sys2 C).npatches (x (i + 1)) f := by
  have h := follows2.mp (run_follows hC.facts2 hC.bounds2 (follows2.mpr h0) hrun (i + 1))
  have hN : ∀ a, 0 < C.np a * C.n a := fun a => lt_of_lt_of_le (by omega) (Reverse.cells_two hC a)
  have hs := Reverse.slow_start hC h
  have e1 : sumCells C.n (sys2 C).npatches (storedJ C (x (i + 1))) f = tot (fun a => C.np a * C.n a) ((W.run C.phys2 (i + 1)).fld.j f) :=
    sum_tot (X := (W.run C.phys2 (i + 1)).fld.j) (layout2 C) f fun t ht v hv => h.agrees.j t ht f v (stored_zero.mpr hv)
  have e2 : (W.run C.phys2 (i + 1)).fld.j f = cur2 (fun a => C.np a * C.n a) C.d C.dt (W.run C.phys2 (i + 1)).cloud f := rfl
  rw [e1, e2, cur2_tot hN hC.cell hC.step hs]
  exact (h.agrees.species.sums fun q m => q * m.w * vel m f).symm

/-- **C113 (3D), B.** -/
theorem mean_b3 {C : Conf 3} {β : ℚ} (hC : Admissible C β) {W : World 3} {rk : Nat → Nat → Nat} {x : Nat → St 3}
    (h0 : Starts C (sys3 C).npatches C.coord3 β (x 0) W) (hrun : Run (sys3 C) rk x) (i : Nat) (f : Fin 3) :
    sumCells C.n (sys3 C).npatches (storedB C (x i)) f = sumCells C.n (sys3 C).npatches (storedB C (x 0)) f := by
  induction i with
  | zero => rfl
  | succ i ih =>
    obtain ⟨G, J, a, b⟩ := on_run3 hC h0 hrun i
    rw [← ih]
    exact (mean_between (yee3 _ C.par) (fun _ h => curlB3_tot C.par h) (fun _ h => curlE3_tot C.par h) (localFE3 C.par) (layout3 C) (vec3 C.n)
      rfl rfl a b f).1

/-- **C113 (3D), E.** -/
theorem mean_e3 {C : Conf 3} {β : ℚ} (hC : Admissible C β) {W : World 3} {rk : Nat → Nat → Nat} {x : Nat → St 3}
    (h0 : Starts C (sys3 C).npatches C.coord3 β (x 0) W) (hrun : Run (sys3 C) rk x) (i : Nat) (f : Fin 3) :
    sumCells C.n (sys3 C).npatches (storedE C (x (i + 1))) f = sumCells C.n (sys3 C).npatches (storedE C (x i)) f -
      C.dt / C.eps0 *
        ((sumCells C.n (sys3 C).npatches (storedJ C (x i)) f + sumCells C.n (sys3 C).npatches (storedJ C (x (i + 1))) f) / 2) := by
  obtain ⟨G, J, a, b⟩ := on_run3 hC h0 hrun i
  exact (mean_between (yee3 _ C.par) (fun _ h => curlB3_tot C.par h) (fun _ h => curlE3_tot C.par h) (localFE3 C.par) (layout3 C) (vec3 C.n)
    rfl rfl a b f).2

/-- **C113 (3D), currents,** for species on the unified path. Missing for the full property: species on the split path. -/
theorem net_current3_partial {C : Conf 3} {β : ℚ} (hC : Admissible C β) {W : World 3} {rk : Nat → Nat → Nat} {x : Nat → St 3}
    (h0 : Starts C (sys3 C).npatches C.coord3 β (x 0) W) (hu : ∀ a ∈ (x 0).parts, a.1.unified = true)
    (hrun : Run (sys3 C) rk x) (i : Nat) (f : Fin 3) :
    sumCells C.n (sys3 C).npatches (storedJ C (x (i + 1))) f * (C.d 0 * C.d 1 * C.d 2) = netCurrent (sys3 C).npatches (x (i + 1)) f := by
  have h := (follows3.mp (run_follows hC.facts3 hC.bounds3 (follows3.mpr ⟨h0, hu⟩) hrun (i + 1))).1
  have hs := Reverse.slow_start hC h
  have e1 : sumCells C.n (sys3 C).npatches (storedJ C (x (i + 1))) f = tot (fun a => C.np a * C.n a) ((W.run C.phys3 (i + 1)).fld.j f) :=
    sum_tot (X := (W.run C.phys3 (i + 1)).fld.j) (layout3 C) f fun t ht v hv => h.agrees.j t ht f v (stored_zero.mpr hv)
  have e2 : (W.run C.phys3 (i + 1)).fld.j f = cur3 (fun a => C.np a * C.n a) C.d C.dt (W.run C.phys3 (i + 1)).cloud f := rfl
  rw [e1, e2, cur3_tot (Reverse.cells_two hC) hC.cell hC.step hs]
  exact (h.agrees.species.sums fun q m => q * m.w * vel m f).symm

/-- **C113 (2D).** From the first step on the mean of E is driven by the moving particles alone. -/
theorem mean_driven2 {C : Conf 2} {β : ℚ} (hC : Admissible C β) (he : C.eps0 ≠ 0) {W : World 2} {rk : Nat → Nat → Nat} {x : Nat → St 2}
    (h0 : Starts C (sys2 C).npatches C.coord2 β (x 0) W) (hrun : Run (sys2 C) rk x) (i : Nat) (f : Fin 3) :
    C.eps0 * (C.d 0 * C.d 1) *
        (sumCells C.n (sys2 C).npatches (storedE C (x (i + 2))) f - sumCells C.n (sys2 C).npatches (storedE C (x (i + 1))) f) =
      -C.dt * ((netCurrent (sys2 C).npatches (x (i + 1)) f + netCurrent (sys2 C).npatches (x (i + 2)) f) / 2) := by
  rw [mean_e2 hC h0 hrun (i + 1) f, ← net_current2 hC h0 hrun i f, ← net_current2 hC h0 hrun (i + 1) f]
  field_simp
  ring

/-- **C113 (3D),** for species on the unified path. Missing for the full property: species on the split path. -/
theorem mean_driven3_partial {C : Conf 3} {β : ℚ} (hC : Admissible C β) (he : C.eps0 ≠ 0) {W : World 3} {rk : Nat → Nat → Nat}
    {x : Nat → St 3} (h0 : Starts C (sys3 C).npatches C.coord3 β (x 0) W) (hu : ∀ a ∈ (x 0).parts, a.1.unified = true)
    (hrun : Run (sys3 C) rk x) (i : Nat) (f : Fin 3) :
    C.eps0 * (C.d 0 * C.d 1 * C.d 2) *
        (sumCells C.n (sys3 C).npatches (storedE C (x (i + 2))) f - sumCells C.n (sys3 C).npatches (storedE C (x (i + 1))) f) =
      -C.dt * ((netCurrent (sys3 C).npatches (x (i + 1)) f + netCurrent (sys3 C).npatches (x (i + 2)) f) / 2) := by
  rw [mean_e3 hC h0 hrun (i + 1) f, ← net_current3_partial hC h0 hu hrun i f, ← net_current3_partial hC h0 hu hrun (i + 1) f]
  field_simp
  ring

/-- the hypotheses are met: two patches that change their rank in every step -/
example : ∃ (rk : Nat → Nat → Nat) (x : Nat → St 2), let C := exConf 2 ![2, 1] ![4, 3]
    Admissible C 1 ∧ C.eps0 ≠ 0 ∧ Starts C (sys2 C).npatches C.coord2 1 (x 0) (exWorld 2) ∧ Run (sys2 C) rk x := by
  have a1 : Admissible (exConf 2 ![2, 1] ![4, 3]) 1 :=
    exConf_ok (fun a => match a with | 0 => by decide | 1 => by decide) (fun a => match a with | 0 => by decide | 1 => by decide)
  have s1 := exStarts (np := ![2, 1]) (n := ![4, 3]) (N := (sys2 (exConf 2 ![2, 1] ![4, 3])).npatches)
    (co := (exConf 2 ![2, 1] ![4, 3]).coord2) (fun a => match a with | 0 => by decide | 1 => by decide) (by decide)
    (by funext a; match a with | 0 => rfl | 1 => rfl) false
  obtain ⟨x, e, r⟩ := runs2 a1 s1 (fun i t => (i + t) % 2)
  exact ⟨_, x, a1, one_ne_zero, e ▸ s1, r⟩

/-- the same in 3D -/
example : ∃ (rk : Nat → Nat → Nat) (x : Nat → St 3), let C := exConf 3 ![2, 1, 1] ![4, 3, 3]
    Admissible C 1 ∧ C.eps0 ≠ 0 ∧ Starts C (sys3 C).npatches C.coord3 1 (x 0) (exWorld 3) ∧
    (∀ a ∈ (x 0).parts, a.1.unified = true) ∧ Run (sys3 C) rk x := by
  have a1 : Admissible (exConf 3 ![2, 1, 1] ![4, 3, 3]) 1 :=
    exConf_ok (fun a => match a with | 0 => by decide | 1 => by decide | 2 => by decide)
      (fun a => match a with | 0 => by decide | 1 => by decide | 2 => by decide)
  have s1 := exStarts (np := ![2, 1, 1]) (n := ![4, 3, 3]) (N := (sys3 (exConf 3 ![2, 1, 1] ![4, 3, 3])).npatches)
    (co := (exConf 3 ![2, 1, 1] ![4, 3, 3]).coord3) (fun a => match a with | 0 => by decide | 1 => by decide | 2 => by decide) (by decide)
    (by funext a; match a with | 0 => rfl | 1 => rfl | 2 => rfl) true
  have hu : ∀ a ∈ (exState 3 true).parts, a.1.unified = true := by
    intro a ha
    rcases List.mem_singleton.mp ha with rfl
    rfl
  obtain ⟨x, e, r⟩ := runs3 a1 s1 hu (fun _ t => t)
  exact ⟨_, x, a1, one_ne_zero, e ▸ s1, e ▸ hu, r⟩

end Verif.WholeRun
