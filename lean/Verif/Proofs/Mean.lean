import Verif.Proofs.Energy
import Verif.Proofs.Symmetry3
import Mathlib.Algebra.BigOperators.Fin
import Mathlib.Logic.Equiv.Fin.Basic
/-! # Sums of the fields over a periodic box (C113) -/
namespace Verif.WholeRun
open Verif.Maxwell Verif.SyncFields Verif.Pusher Verif.Deposit Verif.Geometry Verif.Neighbors Verif.PicSpec Verif.DepositProps
open Verif.PicStep (field closed2 closed3 zeroAcc dep2_closed adds3_closed)
open Finset (range)

section Gen
variable {k : Nat}

theorem tot_dn_sub {N : Fin k → Nat} {f : (Fin k → Int) → ℚ} (hf : Per1 N f) (a : Fin k) (r : ℚ) :
    tot N (fun v => (f v - f (dn a v)) / r) = 0 := by
  have : (fun v => (f v - f (dn a v)) / r) = fun v => r⁻¹ * (f v - f (dn a v)) := by funext v; rw [div_eq_mul_inv, mul_comm]
  rw [this, tot_mul, tot_sub, tot_dn hf, sub_self, mul_zero]

theorem tot_up_sub {N : Fin k → Nat} {f : (Fin k → Int) → ℚ} (hf : Per1 N f) (a : Fin k) (r : ℚ) :
    tot N (fun v => (f (up a v) - f v) / r) = 0 := by
  have : (fun v => (f (up a v) - f v) / r) = fun v => r⁻¹ * (f (up a v) - f v) := by funext v; rw [div_eq_mul_inv, mul_comm]
  rw [this, tot_mul, tot_sub, tot_up hf, sub_self, mul_zero]

theorem tot_neg_div {N : Fin k → Nat} {g : (Fin k → Int) → ℚ} {r : ℚ} (h : tot N (fun v => g v / r) = 0) :
    tot N (fun v => -(g v) / r) = 0 := by
  have : (fun v => -(g v) / r) = fun v => (-1) * (g v / r) := by funext v; ring
  rw [this, tot_mul, h, mul_zero]

theorem curlB2_tot {N : Fin 2 → Nat} (P : Par 2) {b : V3 2} (hb : ∀ d, Per1 N (b d)) (d : Fin 3) : tot N (curlB2 P b d) = 0 := by
  match d with
  | 0 => exact tot_dn_sub (hb 2) 1 _
  | 1 => exact tot_neg_div (tot_dn_sub (hb 2) 0 _)
  | 2 =>
    show tot N (fun v => (b 1 v - b 1 (dn 0 v)) / P.d 0 - (b 0 v - b 0 (dn 1 v)) / P.d 1) = 0
    rw [tot_sub, tot_dn_sub (hb 1), tot_dn_sub (hb 0), sub_zero]

theorem curlE2_tot {N : Fin 2 → Nat} (P : Par 2) {e : V3 2} (he : ∀ d, Per1 N (e d)) (d : Fin 3) : tot N (curlE2 P e d) = 0 := by
  match d with
  | 0 => exact tot_up_sub (he 2) 1 _
  | 1 => exact tot_neg_div (tot_up_sub (he 2) 0 _)
  | 2 =>
    show tot N (fun v => (e 1 (up 0 v) - e 1 v) / P.d 0 - (e 0 (up 1 v) - e 0 v) / P.d 1) = 0
    rw [tot_sub, tot_up_sub (he 1), tot_up_sub (he 0), sub_zero]

theorem curlB3_tot {N : Fin 3 → Nat} (P : Par 3) {b : V3 3} (hb : ∀ d, Per1 N (b d)) (d : Fin 3) : tot N (curlB3 P b d) = 0 := by
  match d with
  | 0 =>
    show tot N (fun v => (b 2 v - b 2 (dn 1 v)) / P.d 1 - (b 1 v - b 1 (dn 2 v)) / P.d 2) = 0
    rw [tot_sub, tot_dn_sub (hb 2), tot_dn_sub (hb 1), sub_zero]
  | 1 =>
    show tot N (fun v => (b 0 v - b 0 (dn 2 v)) / P.d 2 - (b 2 v - b 2 (dn 0 v)) / P.d 0) = 0
    rw [tot_sub, tot_dn_sub (hb 0), tot_dn_sub (hb 2), sub_zero]
  | 2 =>
    show tot N (fun v => (b 1 v - b 1 (dn 0 v)) / P.d 0 - (b 0 v - b 0 (dn 1 v)) / P.d 1) = 0
    rw [tot_sub, tot_dn_sub (hb 1), tot_dn_sub (hb 0), sub_zero]

theorem curlE3_tot {N : Fin 3 → Nat} (P : Par 3) {e : V3 3} (he : ∀ d, Per1 N (e d)) (d : Fin 3) : tot N (curlE3 P e d) = 0 := by
  match d with
  | 0 =>
    show tot N (fun v => (e 2 (up 1 v) - e 2 v) / P.d 1 - (e 1 (up 2 v) - e 1 v) / P.d 2) = 0
    rw [tot_sub, tot_up_sub (he 2), tot_up_sub (he 1), sub_zero]
  | 1 =>
    show tot N (fun v => (e 0 (up 2 v) - e 0 v) / P.d 2 - (e 2 (up 0 v) - e 2 v) / P.d 0) = 0
    rw [tot_sub, tot_up_sub (he 0), tot_up_sub (he 2), sub_zero]
  | 2 =>
    show tot N (fun v => (e 1 (up 0 v) - e 1 v) / P.d 0 - (e 0 (up 1 v) - e 0 v) / P.d 1) = 0
    rw [tot_sub, tot_up_sub (he 1), tot_up_sub (he 0), sub_zero]

/-- one step on the undivided grid: the sum of B stays, that of E changes by the mean of the currents -/
theorem means_step {N : Fin k → Nat} {c2 eps0 R : ℚ} {FE : ℚ → V3 k → V3 k → V3 k} {FB : ℚ → V3 k → V3 k} {CB CE : V3 k → V3 k}
    (Y : Yee N c2 eps0 R FE FB CB CE) (hCB : ∀ b : V3 k, (∀ d, Per1 N (b d)) → ∀ d, tot N (CB b d) = 0)
    (hCE : ∀ e : V3 k, (∀ d, Per1 N (e d)) → ∀ d, tot N (CE e d) = 0) (dt : ℚ) (J : V3 k) (G : GF k) (hb : ∀ d, Per1 N (G.b d))
    (he1 : ∀ d, Per1 N ((G.stepE FE (1 / 2 * dt)).e d)) (hb1 : ∀ d, Per1 N ((G.step FE FB dt J).b d)) (d : Fin 3) :
    tot N ((G.step FE FB dt J).b d) = tot N (G.b d) ∧
    tot N ((G.step FE FB dt J).e d) = tot N (G.e d) - dt / eps0 * ((tot N (G.j d) + tot N (J d)) / 2) := by
  have hFE : ∀ (h : ℚ) (b j : V3 k), (∀ d, Per1 N (b d)) → tot N (FE h b j d) = -(h / eps0 * tot N (j d)) := by
    intro h b j hb
    have : FE h b j d = fun v => h * c2 * CB b d v - h / eps0 * j d v := funext fun v => Y.fe h b j d v
    rw [this, tot_sub, tot_mul, tot_mul]
    have := hCB b hb d
    rw [this, mul_zero, zero_sub]
  have hFB : ∀ (h : ℚ) (e : V3 k), (∀ d, Per1 N (e d)) → tot N (FB h e d) = 0 := by
    intro h e he
    have : FB h e d = fun v => (-h) * CE e d v := funext fun v => by rw [Y.fb]; ring
    rw [this, tot_mul]
    have := hCE e he d
    rw [this, mul_zero]
  obtain ⟨m, hm⟩ : ∃ m : V3 k, m = (G.stepE FE (1 / 2 * dt)).e := ⟨_, rfl⟩
  have hmp : ∀ d, Per1 N (m d) := by rw [hm]; exact he1
  have eb : (G.step FE FB dt J).b d = fun v => (G.b d v + FB (1 / 2 * dt) m d v) + FB (1 / 2 * dt) m d v := by rw [hm]; rfl
  have ee : (G.step FE FB dt J).e d = fun v => (G.e d v + FE (1 / 2 * dt) G.b G.j d v) +
      FE (1 / 2 * dt) (G.step FE FB dt J).b J d v := rfl
  constructor
  · rw [eb, tot_add, tot_add]
    have := hFB (1 / 2 * dt) m hmp
    change _ + tot N (FB (1 / 2 * dt) m d) + tot N (FB (1 / 2 * dt) m d) = _
    rw [this, add_zero, add_zero]
  · rw [ee, tot_add, tot_add]
    have h1 := hFE (1 / 2 * dt) G.b G.j hb
    have h2 := hFE (1 / 2 * dt) (G.step FE FB dt J).b J hb1
    change tot N (G.e d) + tot N (FE (1 / 2 * dt) G.b G.j d) + tot N (FE (1 / 2 * dt) (G.step FE FB dt J).b J d) = _
    rw [h1, h2]
    ring
end Gen

/-! ### the current of a particle -/

theorem tot_two (N : Fin 2 → Nat) (f : (Fin 2 → Int) → ℚ) :
    tot N f = ∑ i ∈ range (N 0), ∑ j ∈ range (N 1), f ![(i : Int), (j : Int)] := by
  have h1 : ∀ i, ∑ j ∈ range (N 1), f ![(i : Int), (j : Int)] = ∑ j : Fin (N 1), f ![(i : Int), ((j : Nat) : Int)] :=
    fun i => Finset.sum_range _
  simp only [h1]
  rw [Finset.sum_range, ← Fintype.sum_prod_type', tot]
  refine Fintype.sum_equiv (piFinTwoEquiv fun a => Fin (N a)) _ _ fun u => ?_
  congr 1
  funext a
  match a with
  | 0 => rfl
  | 1 => rfl

theorem tot_three (N : Fin 3 → Nat) (f : (Fin 3 → Int) → ℚ) :
    tot N f = ∑ i ∈ range (N 0), ∑ j ∈ range (N 1), ∑ l ∈ range (N 2), f ![(i : Int), (j : Int), (l : Int)] := by
  have h1 : ∀ i j, ∑ l ∈ range (N 2), f ![(i : Int), (j : Int), (l : Int)] = ∑ l : Fin (N 2), f ![(i : Int), (j : Int), ((l : Nat) : Int)] :=
    fun i j => Finset.sum_range _
  simp only [h1]
  have h2 : ∀ i, ∑ j ∈ range (N 1), ∑ l : Fin (N 2), f ![(i : Int), (j : Int), ((l : Nat) : Int)] =
      ∑ j : Fin (N 1), ∑ l : Fin (N 2), f ![(i : Int), ((j : Nat) : Int), ((l : Nat) : Int)] := fun i => Finset.sum_range _
  simp only [h2]
  rw [Finset.sum_range, tot]
  have h3 : ∀ i : Fin (N 0), ∑ j : Fin (N 1), ∑ l : Fin (N 2), f ![((i : Nat) : Int), ((j : Nat) : Int), ((l : Nat) : Int)] =
      ∑ p : Fin (N 1) × Fin (N 2), f ![((i : Nat) : Int), ((p.1 : Nat) : Int), ((p.2 : Nat) : Int)] :=
    fun i => (Fintype.sum_prod_type' fun (j : Fin (N 1)) (l : Fin (N 2)) => f ![((i : Nat) : Int), ((j : Nat) : Int), ((l : Nat) : Int)]).symm
  simp only [h3]
  rw [← Fintype.sum_prod_type' fun (i : Fin (N 0)) (p : Fin (N 1) × Fin (N 2)) => f ![((i : Nat) : Int), ((p.1 : Nat) : Int), ((p.2 : Nat) : Int)]]
  refine Fintype.sum_bijective (fun u => (u 0, (u 1, u 2))) ⟨?_, ?_⟩ _ _ ?_
  · intro u v h
    funext a
    match a with
    | 0 => exact congrArg (fun p => p.1) h
    | 1 => exact congrArg (fun p => p.2.1) h
    | 2 => exact congrArg (fun p => p.2.2) h
  · rintro ⟨i, j, l⟩
    exact ⟨fun a => match a with | 0 => i | 1 => j | 2 => l, rfl⟩
  · intro u
    congr 1
    funext a
    match a with
    | 0 => rfl
    | 1 => rfl
    | 2 => rfl

theorem mod_own {N : Nat} {i : Nat} (h : i < N) : (i : Int) % (N : Int) = i := Int.emod_eq_of_lt (Int.natCast_nonneg _) (Int.ofNat_lt.mpr h)

theorem closed2_tot {N : Fin 2 → Nat} (hN : ∀ a, 0 < N a) {d : Fin 2 → ℚ} (hd : ∀ a, 0 < d a) {dt : ℚ} (hdt : dt ≠ 0) {m : Macro2}
    (cx : |m.mom.vx * dt| ≤ d 0) (cy : |m.mom.vy * dt| ≤ d 1) (f : Fin 3) :
    tot N (fun c => closed2 ⟨N 0, d 0, 0⟩ ⟨N 1, d 1, 0⟩ dt m f.castSucc fun a => c a % (N a : Int)) * (d 0 * d 1) =
      m.q * m.mom.w * vel m.mom f := by
  have hx : GridOK ⟨N 0, d 0, 0⟩ := ⟨hN 0, hd 0⟩
  have hy : GridOK ⟨N 1, d 1, 0⟩ := ⟨hN 1, hd 1⟩
  have e : tot N (fun c => closed2 ⟨N 0, d 0, 0⟩ ⟨N 1, d 1, 0⟩ dt m f.castSucc fun a => c a % (N a : Int)) =
      total2 ⟨N 0, d 0, 0⟩ ⟨N 1, d 1, 0⟩ (closed2 ⟨N 0, d 0, 0⟩ ⟨N 1, d 1, 0⟩ dt m f.castSucc) := by
    rw [tot_two]
    unfold total2
    refine Finset.sum_congr rfl fun i hi => Finset.sum_congr rfl fun j hj => ?_
    congr 1
    funext a
    match a with
    | 0 => exact mod_own (Finset.mem_range.mp hi)
    | 1 => exact mod_own (Finset.mem_range.mp hj)
  rw [e]
  obtain ⟨-, t0, t1, t2⟩ := deposit2_totals ⟨N 0, d 0, 0⟩ ⟨N 1, d 1, 0⟩ hx hy dt m.q m.x m.y m.mom hdt cx cy zeroAcc
  have hc : ∀ g : Fin 4, closed2 ⟨N 0, d 0, 0⟩ ⟨N 1, d 1, 0⟩ dt m g = fun l =>
      field (deposit2 ⟨N 0, d 0, 0⟩ ⟨N 1, d 1, 0⟩ dt m.q m.x m.y m.mom zeroAcc) g l - field (zeroAcc : Acc 2) g l := by
    intro g
    funext l
    have := dep2_closed hx hy hdt cx cy zeroAcc g l
    rw [eq_sub_iff_add_eq, add_comm]
    exact this.symm
  rw [hc]
  match f with
  | 0 => exact t0
  | 1 => exact t1
  | 2 => exact t2

theorem closed3_tot {N : Fin 3 → Nat} (hN : ∀ a, 2 ≤ N a) {d : Fin 3 → ℚ} (hd : ∀ a, 0 < d a) {dt : ℚ} (hdt : dt ≠ 0) {m : Macro3}
    (cx : |m.mom.vx * dt| ≤ d 0) (cy : |m.mom.vy * dt| ≤ d 1) (cz : |m.mom.vz * dt| ≤ d 2) (f : Fin 3) :
    tot N (fun c => closed3 ⟨N 0, d 0, 0⟩ ⟨N 1, d 1, 0⟩ ⟨N 2, d 2, 0⟩ dt m f.castSucc fun a => c a % (N a : Int)) * (d 0 * d 1 * d 2) =
      m.q * m.mom.w * vel m.mom f := by
  have hN' : ∀ a, 0 < N a := fun a => lt_of_lt_of_le (by omega) (hN a)
  have hx : GridOK ⟨N 0, d 0, 0⟩ := ⟨hN' 0, hd 0⟩
  have hy : GridOK ⟨N 1, d 1, 0⟩ := ⟨hN' 1, hd 1⟩
  have hz : GridOK ⟨N 2, d 2, 0⟩ := ⟨hN' 2, hd 2⟩
  have e : tot N (fun c => closed3 ⟨N 0, d 0, 0⟩ ⟨N 1, d 1, 0⟩ ⟨N 2, d 2, 0⟩ dt m f.castSucc fun a => c a % (N a : Int)) =
      total3 ⟨N 0, d 0, 0⟩ ⟨N 1, d 1, 0⟩ ⟨N 2, d 2, 0⟩ (closed3 ⟨N 0, d 0, 0⟩ ⟨N 1, d 1, 0⟩ ⟨N 2, d 2, 0⟩ dt m f.castSucc) := by
    rw [tot_three]
    unfold total3
    refine Finset.sum_congr rfl fun i hi => Finset.sum_congr rfl fun j hj => Finset.sum_congr rfl fun l hl => ?_
    congr 1
    funext a
    match a with
    | 0 => exact mod_own (Finset.mem_range.mp hi)
    | 1 => exact mod_own (Finset.mem_range.mp hj)
    | 2 => exact mod_own (Finset.mem_range.mp hl)
  rw [e]
  have D := deposit3Fast_adds ⟨N 0, d 0, 0⟩ ⟨N 1, d 1, 0⟩ ⟨N 2, d 2, 0⟩ hx hy hz (hN 0) (hN 1) (hN 2) dt m.q m.x m.y m.z hdt m.mom cx cy cz
  obtain ⟨-, t0, t1, t2⟩ := totals3_of_adds hx hy hz hdt cx cy cz D zeroAcc
  have hc : ∀ g : Fin 4, closed3 ⟨N 0, d 0, 0⟩ ⟨N 1, d 1, 0⟩ ⟨N 2, d 2, 0⟩ dt m g = fun l =>
      field (deposit3Fast ⟨N 0, d 0, 0⟩ ⟨N 1, d 1, 0⟩ ⟨N 2, d 2, 0⟩ dt m.q m.x m.y m.z m.mom zeroAcc) g l - field (zeroAcc : Acc 3) g l := by
    intro g
    funext l
    have := adds3_closed D zeroAcc g l
    rw [eq_sub_iff_add_eq, add_comm]
    exact this.symm
  rw [hc]
  match f with
  | 0 => exact t0
  | 1 => exact t1
  | 2 => exact t2

end Verif.WholeRun
