import Verif.Proofs.SymmetryBoris
import Verif.Proofs.WholeRun2
/-!
# Other views of the undivided 2D simulation
-/
namespace Verif.Symmetry
open Verif.Maxwell Verif.Pusher Verif.Deposit Verif.Shape Verif.WholeRun Verif.PicStep
open Finset (range)

/-! ## currents -/

/-- one axis at the beginning of the step, for a particle at `x` with velocity `v` -/
def l0 (N : Nat) (d dt x v : ℚ) (c : Int) : ℚ := w0 N ((x - v * (1 / 2) * dt) / d) ((x + v * (1 / 2) * dt) / d) c
/-- at the end -/
def l1 (N : Nat) (d dt x v : ℚ) (c : Int) : ℚ := w1 N ((x - v * (1 / 2) * dt) / d) ((x + v * (1 / 2) * dt) / d) c
/-- running sum -/
def lc (N : Nat) (d dt x v : ℚ) (c : Int) : ℚ := wc N ((x - v * (1 / 2) * dt) / d) ((x + v * (1 / 2) * dt) / d) c

section
variable {N : Nat} (hN : 0 < N) {d : ℚ} (hd : 0 < d) (dt x v : ℚ)
include hN hd
theorem move_eq (z : Int) : (x + z * d - v * (1 / 2) * dt) / d = (x - v * (1 / 2) * dt) / d + z ∧
    (x + z * d + v * (1 / 2) * dt) / d = (x + v * (1 / 2) * dt) / d + z := by
  constructor <;> field_simp <;> ring
theorem l0_move (z c : Int) : l0 N d dt (x + z * d) v c = l0 N d dt x v (c - z) := by
  unfold l0; rw [(move_eq hN hd dt x v z).1, (move_eq hN hd dt x v z).2, w0_move hN]
theorem l1_move (z c : Int) : l1 N d dt (x + z * d) v c = l1 N d dt x v (c - z) := by
  unfold l1; rw [(move_eq hN hd dt x v z).1, (move_eq hN hd dt x v z).2, w1_move hN]
theorem lc_move (z c : Int) : lc N d dt (x + z * d) v c = lc N d dt x v (c - z) := by
  unfold lc; rw [(move_eq hN hd dt x v z).1, (move_eq hN hd dt x v z).2, wc_move hN]

omit hN hd in
theorem neg_eq : (-x - -v * (1 / 2) * dt) / d = -((x - v * (1 / 2) * dt) / d) ∧
    (-x + -v * (1 / 2) * dt) / d = -((x + v * (1 / 2) * dt) / d) := by
  constructor <;> rw [← neg_div] <;> congr 1 <;> ring
omit hN in
theorem near {dt x v : ℚ} (h : |v * dt| ≤ d) : |(x + v * (1 / 2) * dt) / d - (x - v * (1 / 2) * dt) / d| ≤ 1 := by
  rw [← sub_div, show x + v * (1 / 2) * dt - (x - v * (1 / 2) * dt) = v * dt by ring, abs_div, abs_of_pos hd]
  exact (div_le_one hd).mpr h
omit hd in
theorem l0_refl (c : Int) : l0 N d dt (-x) (-v) c = l0 N d dt x v (-c) := by
  unfold l0; rw [(neg_eq dt x v).1, (neg_eq dt x v).2, w0_neg hN]
theorem l1_refl {dt x v : ℚ} (h : |v * dt| ≤ d) (c : Int) : l1 N d dt (-x) (-v) c = l1 N d dt x v (-c) := by
  unfold l1; rw [(neg_eq dt x v).1, (neg_eq dt x v).2, w1_neg hN (near hd h)]
theorem lc_refl {dt x v : ℚ} (h : |v * dt| ≤ d) (c : Int) : lc N d dt (-x) (-v) c = -lc N d dt x v (-c - 1) := by
  unfold lc; rw [(neg_eq dt x v).1, (neg_eq dt x v).2, wc_neg hN (near hd h)]
end

/-- mean of the weights at the beginning and at the end -/
def lm (N : Nat) (d dt x v : ℚ) (c : Int) : ℚ := 1 / 2 * (l0 N d dt x v c + l1 N d dt x v c)

/-- currents of one particle of charge `q` -/
def j2 (N : Fin 2 → Nat) (d : Fin 2 → ℚ) (dt q : ℚ) (p : Ptc 2) (f : Fin 3) (c : Fin 2 → Int) : ℚ :=
  let Q := q * p.mom.w / (d 0 * d 1)
  match f with
  | 0 => -(Q / dt * d 0) * (lc (N 0) (d 0) dt (p.pos 0) p.mom.vx (c 0) * lm (N 1) (d 1) dt (p.pos 1) p.mom.vy (c 1))
  | 1 => -(Q / dt * d 1) * (lm (N 0) (d 0) dt (p.pos 0) p.mom.vx (c 0) * lc (N 1) (d 1) dt (p.pos 1) p.mom.vy (c 1))
  | 2 => Q * p.mom.vz * (lm (N 0) (d 0) dt (p.pos 0) p.mom.vx (c 0) * lm (N 1) (d 1) dt (p.pos 1) p.mom.vy (c 1))
      + Q * p.mom.vz * (1 / 12) *
        ((l1 (N 0) (d 0) dt (p.pos 0) p.mom.vx (c 0) - l0 (N 0) (d 0) dt (p.pos 0) p.mom.vx (c 0))
          * (l1 (N 1) (d 1) dt (p.pos 1) p.mom.vy (c 1) - l0 (N 1) (d 1) dt (p.pos 1) p.mom.vy (c 1)))

/-- a sum over all particles -/
def total {k : Nat} (h : ℚ → Ptc k → ℚ) (cl : List (Kind × List (Ptc k))) : ℚ :=
  (cl.map fun s => (s.2.map fun p => h s.1.q p).sum).sum

theorem axis_zero (N : Nat) (d x v dt : ℚ) : axisOf ⟨N, d, 0⟩ x v dt = mkAxRef ((x - v * (1 / 2) * dt) / d) ((x + v * (1 / 2) * dt) / d) := by
  unfold axisOf xOld xAdv
  simp only [sub_zero]

theorem cur_total2 {N : Fin 2 → Nat} (hN : ∀ a, 0 < N a) {d : Fin 2 → ℚ} (hd : ∀ a, 0 < d a) {dt : ℚ} (hdt : dt ≠ 0)
    {cl : List (Kind × List (Ptc 2))} (hv : Slow d dt cl) (f : Fin 3) (c : Fin 2 → Int) :
    cur2 N d dt cl f c = total (fun q p => j2 N d dt q p f c) cl := by
  rw [cur_sum2 hN hd hdt hv]
  unfold total
  congr 1
  refine List.map_congr_left fun s _ => ?_
  congr 1
  refine List.map_congr_left fun p _ => ?_
  unfold closed2
  dsimp only
  rw [axis_zero, axis_zero]
  match f with
  | 0 => show _ * (_ * proj _ (Ax.mid _) _) = _; rw [proj_mid]; rfl
  | 1 => show _ * (proj _ (Ax.mid _) _ * _) = _; rw [proj_mid]; rfl
  | 2 =>
    show _ * (proj _ (Ax.mid _) _ * proj _ (Ax.mid _) _) + _ * (proj _ (Ax.DS _) _ * proj _ (Ax.DS _) _) = _
    rw [proj_mid, proj_mid, proj_DS, proj_DS]; rfl

theorem total_map {k : Nat} (T : View k) (r : ℚ) {h h' : ℚ → Ptc k → ℚ} {cl : List (Kind × List (Ptc k))}
    (H : ∀ s ∈ cl, ∀ p ∈ s.2, h' (T.kind s.1).q (T.ptc p) = r * h s.1.q p) : total h' (T.cloud cl) = r * total h cl := by
  unfold total View.cloud
  rw [← List.sum_map_mul_left, List.map_map]
  congr 1
  refine List.map_congr_left fun s hs => ?_
  rw [← List.sum_map_mul_left]
  show (List.map _ (List.map _ s.2)).sum = _
  rw [List.map_map]
  congr 1
  exact List.map_congr_left fun p hp => H s hs p hp

/-! ## the views -/

theorem ex2_dn0 (c : Fin 2 → Int) : ex2 (dn 0 c) = dn 1 (ex2 c) := by funext x; fin_cases x <;> rfl
theorem ex2_dn1 (c : Fin 2 → Int) : ex2 (dn 1 c) = dn 0 (ex2 c) := by funext x; fin_cases x <;> rfl
theorem ex2_up0 (c : Fin 2 → Int) : ex2 (up 0 c) = up 1 (ex2 c) := by funext x; fin_cases x <;> rfl
theorem ex2_up1 (c : Fin 2 → Int) : ex2 (up 1 c) = up 0 (ex2 c) := by funext x; fin_cases x <;> rfl

theorem v3_ext {k : Nat} {u w : V3 k} (h0 : ∀ c, u 0 c = w 0 c) (h1 : ∀ c, u 1 c = w 1 c) (h2 : ∀ c, u 2 c = w 2 c) : u = w := by
  funext f c
  match f with
  | 0 => exact h0 c
  | 1 => exact h1 c
  | 2 => exact h2 c

/-- a step of a particle in another view -/
theorem push_view {k : Nat} {T : View k} {Φ Φ' : Phys k} (hdt : Φ'.dt = Φ.dt)
    (hx : ∀ x m h i, T.pos (fun i => x i + h * m.invGamma * uAt m i) i = T.pos x i + h * (T.mom m).invGamma * uAt (T.mom m) i)
    (hu : ∀ κ G x m, T.mom (pushed Φ κ G ⟨x, m⟩).mom = (pushed Φ' (T.kind κ) (T.fields G) ⟨T.pos x, T.mom m⟩).mom)
    (κ : Kind) (G : GF k) (p : Ptc k) : pushed Φ' (T.kind κ) (T.fields G) (T.ptc p) = T.ptc (pushed Φ κ G p) := by
  have h1 : (pushed Φ' (T.kind κ) (T.fields G) (T.ptc p)).mom = T.mom (pushed Φ κ G p).mom := (hu κ G p.pos p.mom).symm
  have h2 : (pushed Φ' (T.kind κ) (T.fields G) (T.ptc p)).pos = T.pos (pushed Φ κ G p).pos := by
    funext i
    show T.pos p.pos i + lightSpeed * (1 / 2) * Φ'.dt * (T.mom p.mom).invGamma * uAt (T.mom p.mom) i
      + lightSpeed * (1 / 2) * Φ'.dt * (pushed Φ' (T.kind κ) (T.fields G) (T.ptc p)).mom.invGamma
        * uAt (pushed Φ' (T.kind κ) (T.fields G) (T.ptc p)).mom i = _
    rw [h1, hdt, ← hx, ← hx]
    rfl
  show (⟨(pushed Φ' (T.kind κ) (T.fields G) (T.ptc p)).pos, (pushed Φ' (T.kind κ) (T.fields G) (T.ptc p)).mom⟩ : Ptc k) = _
  rw [h1, h2]
  rfl

/-- the momentum after the Boris rotation in the fields `f` -/
def bor {k : Nat} (Φ : Phys k) (κ : Kind) (f : EB) (m : Mom) : Mom :=
  let r := borisUnified Φ.rs lightSpeed κ.q κ.m Φ.dt ⟨f.ex, f.ey, f.ez, f.bx, f.by', f.bz⟩ ⟨m.ux, m.uy, m.uz, m.invGamma⟩
  ⟨r.ux, r.uy, r.uz, r.ig, m.w⟩

theorem push_mom {k : Nat} {T : View k} {Φ Φ' : Phys k} (hdt : Φ'.dt = Φ.dt)
    (hx : ∀ x m h i, T.pos (fun i => x i + h * m.invGamma * uAt m i) i = T.pos x i + h * (T.mom m).invGamma * uAt (T.mom m) i)
    (eb : EB → EB) (hs : ∀ G x, Φ'.see (T.fields G) (T.pos x) = eb (Φ.see G x))
    (hb : ∀ κ f m, T.mom (bor Φ κ f m) = bor Φ' (T.kind κ) (eb f) (T.mom m)) (κ : Kind) (G : GF k) (p : Ptc k) :
    pushed Φ' (T.kind κ) (T.fields G) (T.ptc p) = T.ptc (pushed Φ κ G p) := by
  refine push_view hdt hx ?_ κ G p
  intro κ G x m
  have e : (fun i : Fin k => T.pos x i + lightSpeed * (1 / 2) * Φ'.dt * (T.mom m).invGamma * uAt (T.mom m) i)
      = T.pos fun i => x i + lightSpeed * (1 / 2) * Φ.dt * m.invGamma * uAt m i := by
    funext i
    rw [hx, hdt]
  show T.mom (bor Φ κ (Φ.see G fun i => x i + lightSpeed * (1 / 2) * Φ.dt * m.invGamma * uAt m i) m)
    = bor Φ' (T.kind κ) (Φ'.see (T.fields G) fun i => T.pos x i + lightSpeed * (1 / 2) * Φ'.dt * (T.mom m).invGamma * uAt (T.mom m) i) (T.mom m)
  rw [e, hs, hb]

theorem slow_view {k : Nat} {T : View k} {d d' : Fin k → ℚ} {dt : ℚ}
    (hm : ∀ m : Mom, (∀ i : Fin k, |vel m i * dt| ≤ d i) → ∀ i : Fin k, |vel (T.mom m) i * dt| ≤ d' i)
    {cl : List (Kind × List (Ptc k))} (hs : Slow d dt cl) : Slow d' dt (T.cloud cl) := by
  intro s hs1 p hp i
  obtain ⟨s0, hs0, rfl⟩ := List.mem_map.mp hs1
  obtain ⟨p0, hp0, rfl⟩ := List.mem_map.mp hp
  exact hm _ (hs s0 hs0 p0 hp0) i

theorem cur_view2 {T : View 2} {N N' : Fin 2 → Nat} (hN : ∀ a, 0 < N a) (hN' : ∀ a, 0 < N' a) {d d' : Fin 2 → ℚ}
    (hd : ∀ a, 0 < d a) (hd' : ∀ a, 0 < d' a) {dt : ℚ} (hdt : dt ≠ 0) {cl : List (Kind × List (Ptc 2))} (hs : Slow d dt cl)
    (hs' : Slow d' dt (T.cloud cl)) (r : ℚ) (f g : Fin 3) (c c' : Fin 2 → Int)
    (hj : ∀ κ p, (∀ i : Fin 2, |vel p.mom i * dt| ≤ d i) → j2 N' d' dt (T.kind κ).q (T.ptc p) f c = r * j2 N d dt κ.q p g c') :
    cur2 N' d' dt (T.cloud cl) f c = r * cur2 N d dt cl g c' := by
  rw [cur_total2 hN' hd' hdt hs', cur_total2 hN hd hdt hs]
  exact total_map T r fun s h p hp => hj _ p (hs s h p hp)

/-- the limits of the time step -/
structure Lim {k : Nat} (d : Fin k → ℚ) (rs : ℚ → ℚ) (dt β : ℚ) : Prop where
  d_pos : ∀ i, 0 < d i
  step : dt ≠ 0
  β0 : 0 ≤ β
  rsβ : ∀ s, 1 ≤ s → rs s ^ 2 * s ≤ β ^ 2
  cfl : ∀ i, lightSpeed * |dt| * β ≤ d i

theorem Lim.slow {k : Nat} {Φ : Phys k} {d : Fin k → ℚ} {β : ℚ} (L : Lim d Φ.rs Φ.dt β) (W : World k) :
    Slow d Φ.dt (W.step Φ).cloud :=
  step_slow (n := fun _ => 1) (ng := 3) ⟨le_refl _, fun _ => le_refl _, L.d_pos, L.β0, L.rsβ, L.cfl⟩ W

/-! ### reflection at the diagonal -/

section
variable {N : Fin 2 → Nat} (hN : ∀ a, 0 < N a) {d : Fin 2 → ℚ} {c2 eps0 dt : ℚ} {rs : ℚ → ℚ} (hd : ∀ a, 0 < d a)
  (hdt : dt ≠ 0)
include hN hd hdt

theorem respects_swap2 : Respects swap2 (phys2 N d c2 eps0 dt rs) (phys2 (ex2 N) (ex2 d) c2 eps0 dt rs) d := by
  have hx : ∀ x m h i, swap2.pos (fun i => x i + h * m.invGamma * uAt m i) i
      = swap2.pos x i + h * (swap2.mom m).invGamma * uAt (swap2.mom m) i := by
    intro x m h i
    match i with
    | 0 => rfl
    | 1 => rfl
  refine ⟨rfl, fun u w => v3_ext (fun _ => rfl) (fun _ => rfl) (fun _ => rfl),
    fun u w => v3_ext (fun _ => neg_add _ _) (fun _ => neg_add _ _) (fun _ => neg_add _ _), ?_, ?_, ?_, ?_⟩
  · intro h b j
    refine v3_ext (fun c => ?_) (fun c => ?_) (fun c => ?_)
    · show h * c2 * ((-b 2 (ex2 c) - -b 2 (ex2 (dn 1 c))) / d 0) - h / eps0 * j 1 (ex2 c)
        = h * c2 * (-(b 2 (ex2 c) - b 2 (dn 0 (ex2 c))) / d 0) - h / eps0 * j 1 (ex2 c)
      rw [ex2_dn1]; ring
    · show h * c2 * (-(-b 2 (ex2 c) - -b 2 (ex2 (dn 0 c))) / d 1) - h / eps0 * j 0 (ex2 c)
        = h * c2 * ((b 2 (ex2 c) - b 2 (dn 1 (ex2 c))) / d 1) - h / eps0 * j 0 (ex2 c)
      rw [ex2_dn0]; ring
    · show h * c2 * ((-b 0 (ex2 c) - -b 0 (ex2 (dn 0 c))) / d 1 - (-b 1 (ex2 c) - -b 1 (ex2 (dn 1 c))) / d 0) - h / eps0 * j 2 (ex2 c)
        = h * c2 * ((b 1 (ex2 c) - b 1 (dn 0 (ex2 c))) / d 0 - (b 0 (ex2 c) - b 0 (dn 1 (ex2 c))) / d 1) - h / eps0 * j 2 (ex2 c)
      rw [ex2_dn0, ex2_dn1]
      ring
  · intro h e
    refine v3_ext (fun c => ?_) (fun c => ?_) (fun c => ?_)
    · show -(h * ((e 2 (ex2 (up 1 c)) - e 2 (ex2 c)) / d 0)) = - -(h * (-(e 2 (up 0 (ex2 c)) - e 2 (ex2 c)) / d 0))
      rw [ex2_up1]; ring
    · show -(h * (-(e 2 (ex2 (up 0 c)) - e 2 (ex2 c)) / d 1)) = - -(h * ((e 2 (up 1 (ex2 c)) - e 2 (ex2 c)) / d 1))
      rw [ex2_up0]; ring
    · show -(h * ((e 0 (ex2 (up 0 c)) - e 0 (ex2 c)) / d 1 - (e 1 (ex2 (up 1 c)) - e 1 (ex2 c)) / d 0))
        = - -(h * ((e 1 (up 0 (ex2 c)) - e 1 (ex2 c)) / d 0 - (e 0 (up 1 (ex2 c)) - e 0 (ex2 c)) / d 1))
      rw [ex2_up0, ex2_up1]
      ring
  · refine push_mom rfl hx (fun f => ⟨f.ey, f.ex, f.ez, -f.by', -f.bx, -f.bz⟩) ?_ ?_
    · intro G x
      show see2 (ex2 d) (swap2.fields G) (swap2.pos x) = ⟨(see2 d G x).ey, (see2 d G x).ex, (see2 d G x).ez,
        -(see2 d G x).by', -(see2 d G x).bx, -(see2 d G x).bz⟩
      unfold see2
      dsimp only
      congr 1
      · exact sample2_swap _ _ _ _ _
      · exact sample2_swap _ _ _ _ _
      · exact sample2_swap _ _ _ _ _
      · exact (sample2_swap _ _ _ _ _).trans (sample2_neg' _ _ _ _ fun m n => G.b 1 ![m, n])
      · exact (sample2_swap _ _ _ _ _).trans (sample2_neg' _ _ _ _ fun m n => G.b 0 ![m, n])
      · exact (sample2_swap _ _ _ _ _).trans (sample2_neg' _ _ _ _ fun m n => G.b 2 ![m, n])
    · intro κ f m
      exact congrArg (fun r : Mo ℚ => (⟨r.ux, r.uy, r.uz, r.ig, m.w⟩ : Mom)) (boris_swap rs _ _ ⟨f.ex, f.ey, f.ez, f.bx, f.by', f.bz⟩
        ⟨m.ux, m.uy, m.uz, m.invGamma⟩).symm
  · intro cl hs
    have hs' : Slow (ex2 d) dt (swap2.cloud cl) :=
      slow_view (fun m h i => by match i with | 0 => exact h 1 | 1 => exact h 0) hs
    have hN' : ∀ a, 0 < ex2 N a := fun a => by match a with | 0 => exact hN 1 | 1 => exact hN 0
    have hd' : ∀ a, 0 < ex2 d a := fun a => by match a with | 0 => exact hd 1 | 1 => exact hd 0
    have H := cur_view2 (T := swap2) hN hN' hd hd' hdt hs hs'
    refine v3_ext (fun c => (H 1 0 1 c (ex2 c) fun ⟨q, _⟩ p _ => ?_).trans (one_mul _))
      (fun c => (H 1 1 0 c (ex2 c) fun ⟨q, _⟩ p _ => ?_).trans (one_mul _))
      (fun c => (H 1 2 2 c (ex2 c) fun ⟨q, _⟩ p _ => ?_).trans (one_mul _))
    · show -(q * p.mom.w / (d 1 * d 0) / dt * d 1) * (lc (N 1) (d 1) dt (p.pos 1) p.mom.vy (c 0) * lm (N 0) (d 0) dt (p.pos 0) p.mom.vx (c 1))
        = 1 * (-(q * p.mom.w / (d 0 * d 1) / dt * d 1) * (lm (N 0) (d 0) dt (p.pos 0) p.mom.vx (c 1) * lc (N 1) (d 1) dt (p.pos 1) p.mom.vy (c 0)))
      ring
    · show -(q * p.mom.w / (d 1 * d 0) / dt * d 0) * (lm (N 1) (d 1) dt (p.pos 1) p.mom.vy (c 0) * lc (N 0) (d 0) dt (p.pos 0) p.mom.vx (c 1))
        = 1 * (-(q * p.mom.w / (d 0 * d 1) / dt * d 0) * (lc (N 0) (d 0) dt (p.pos 0) p.mom.vx (c 1) * lm (N 1) (d 1) dt (p.pos 1) p.mom.vy (c 0)))
      ring
    · show q * p.mom.w / (d 1 * d 0) * p.mom.vz * (lm (N 1) (d 1) dt (p.pos 1) p.mom.vy (c 0) * lm (N 0) (d 0) dt (p.pos 0) p.mom.vx (c 1))
          + q * p.mom.w / (d 1 * d 0) * p.mom.vz * (1 / 12) * ((l1 (N 1) (d 1) dt (p.pos 1) p.mom.vy (c 0) - l0 (N 1) (d 1) dt (p.pos 1) p.mom.vy (c 0))
            * (l1 (N 0) (d 0) dt (p.pos 0) p.mom.vx (c 1) - l0 (N 0) (d 0) dt (p.pos 0) p.mom.vx (c 1)))
        = 1 * (q * p.mom.w / (d 0 * d 1) * p.mom.vz * (lm (N 0) (d 0) dt (p.pos 0) p.mom.vx (c 1) * lm (N 1) (d 1) dt (p.pos 1) p.mom.vy (c 0))
          + q * p.mom.w / (d 0 * d 1) * p.mom.vz * (1 / 12) * ((l1 (N 0) (d 0) dt (p.pos 0) p.mom.vx (c 1) - l0 (N 0) (d 0) dt (p.pos 0) p.mom.vx (c 1))
            * (l1 (N 1) (d 1) dt (p.pos 1) p.mom.vy (c 0) - l0 (N 1) (d 1) dt (p.pos 1) p.mom.vy (c 0))))
      ring

/-! ### reflection of `x` -/

omit hN hd hdt in
theorem mir_dn0 (c : Fin 2 → Int) : (![-dn 0 c 0, dn 0 c 1] : Fin 2 → Int) = up 0 ![-c 0, c 1] := by
  funext x; fin_cases x
  · show -(c 0 - 1) = -c 0 + 1; ring
  · rfl
omit hN hd hdt in
theorem mir_dn0' (c : Fin 2 → Int) : (![-dn 0 c 0 - 1, dn 0 c 1] : Fin 2 → Int) = ![-c 0, c 1] := by
  funext x; fin_cases x
  · show -(c 0 - 1) - 1 = -c 0; ring
  · rfl
omit hN hd hdt in
theorem mir_dn (c : Fin 2 → Int) : (![-c 0 - 1, c 1] : Fin 2 → Int) = dn 0 ![-c 0, c 1] := by
  funext x; fin_cases x <;> rfl
omit hN hd hdt in
theorem mir_dn1 (c : Fin 2 → Int) : (![-dn 1 c 0, dn 1 c 1] : Fin 2 → Int) = dn 1 ![-c 0, c 1] := by
  funext x; fin_cases x <;> rfl
omit hN hd hdt in
theorem mir_dn1' (c : Fin 2 → Int) : (![-dn 1 c 0 - 1, dn 1 c 1] : Fin 2 → Int) = dn 1 ![-c 0 - 1, c 1] := by
  funext x; fin_cases x <;> rfl
omit hN hd hdt in
theorem mir_up0 (c : Fin 2 → Int) : (![-up 0 c 0, up 0 c 1] : Fin 2 → Int) = ![-c 0 - 1, c 1] := by
  funext x; fin_cases x
  · show -(c 0 + 1) = -c 0 - 1; ring
  · rfl
omit hN hd hdt in
theorem mir_up (c : Fin 2 → Int) : up 0 (![-c 0 - 1, c 1] : Fin 2 → Int) = ![-c 0, c 1] := by
  funext x; fin_cases x
  · show -c 0 - 1 + 1 = -c 0; ring
  · rfl
omit hN hd hdt in
theorem mir_up1 (c : Fin 2 → Int) : (![-up 1 c 0, up 1 c 1] : Fin 2 → Int) = up 1 ![-c 0, c 1] := by
  funext x; fin_cases x <;> rfl
omit hN hd hdt in
theorem mir_up1' (c : Fin 2 → Int) : (![-up 1 c 0 - 1, up 1 c 1] : Fin 2 → Int) = up 1 ![-c 0 - 1, c 1] := by
  funext x; fin_cases x <;> rfl

theorem respects_mirror2 : Respects mirror2 (phys2 N d c2 eps0 dt rs) (phys2 N d c2 eps0 dt rs) d := by
  have hx : ∀ x m h i, mirror2.pos (fun i => x i + h * m.invGamma * uAt m i) i
      = mirror2.pos x i + h * (mirror2.mom m).invGamma * uAt (mirror2.mom m) i := by
    intro x m h i
    match i with
    | 0 => show -(x 0 + h * m.invGamma * m.ux) = -x 0 + h * m.invGamma * -m.ux; ring
    | 1 => rfl
  refine ⟨rfl, fun u w => v3_ext (fun _ => neg_add _ _) (fun _ => rfl) (fun _ => rfl),
    fun u w => v3_ext (fun _ => rfl) (fun _ => neg_add _ _) (fun _ => neg_add _ _), ?_, ?_, ?_, ?_⟩
  · intro h b j
    refine v3_ext (fun c => ?_) (fun c => ?_) (fun c => ?_)
    · show h * c2 * ((-b 2 ![-c 0 - 1, c 1] - -b 2 ![-dn 1 c 0 - 1, dn 1 c 1]) / d 1) - h / eps0 * -j 0 ![-c 0 - 1, c 1]
        = -(h * c2 * ((b 2 ![-c 0 - 1, c 1] - b 2 (dn 1 ![-c 0 - 1, c 1])) / d 1) - h / eps0 * j 0 ![-c 0 - 1, c 1])
      rw [mir_dn1']; ring
    · show h * c2 * (-(-b 2 ![-c 0 - 1, c 1] - -b 2 ![-dn 0 c 0 - 1, dn 0 c 1]) / d 0) - h / eps0 * j 1 ![-c 0, c 1]
        = h * c2 * (-(b 2 ![-c 0, c 1] - b 2 (dn 0 ![-c 0, c 1])) / d 0) - h / eps0 * j 1 ![-c 0, c 1]
      rw [mir_dn0', mir_dn]; ring
    · show h * c2 * ((-b 1 ![-c 0 - 1, c 1] - -b 1 ![-dn 0 c 0 - 1, dn 0 c 1]) / d 0 - (b 0 ![-c 0, c 1] - b 0 ![-dn 1 c 0, dn 1 c 1]) / d 1)
          - h / eps0 * j 2 ![-c 0, c 1]
        = h * c2 * ((b 1 ![-c 0, c 1] - b 1 (dn 0 ![-c 0, c 1])) / d 0 - (b 0 ![-c 0, c 1] - b 0 (dn 1 ![-c 0, c 1])) / d 1)
          - h / eps0 * j 2 ![-c 0, c 1]
      rw [mir_dn0', mir_dn, mir_dn1]; ring
  · intro h e
    refine v3_ext (fun c => ?_) (fun c => ?_) (fun c => ?_)
    · show -(h * ((e 2 ![-up 1 c 0, up 1 c 1] - e 2 ![-c 0, c 1]) / d 1)) = -(h * ((e 2 (up 1 ![-c 0, c 1]) - e 2 ![-c 0, c 1]) / d 1))
      rw [mir_up1]
    · show -(h * (-(e 2 ![-up 0 c 0, up 0 c 1] - e 2 ![-c 0, c 1]) / d 0))
        = - -(h * (-(e 2 (up 0 ![-c 0 - 1, c 1]) - e 2 ![-c 0 - 1, c 1]) / d 0))
      rw [mir_up, mir_up0]; ring
    · show -(h * ((e 1 ![-up 0 c 0, up 0 c 1] - e 1 ![-c 0, c 1]) / d 0 - (-e 0 ![-up 1 c 0 - 1, up 1 c 1] - -e 0 ![-c 0 - 1, c 1]) / d 1))
        = - -(h * ((e 1 (up 0 ![-c 0 - 1, c 1]) - e 1 ![-c 0 - 1, c 1]) / d 0 - (e 0 (up 1 ![-c 0 - 1, c 1]) - e 0 ![-c 0 - 1, c 1]) / d 1))
      rw [mir_up, mir_up0, mir_up1']; ring
  · refine push_mom rfl hx (fun f => ⟨-f.ex, f.ey, f.ez, f.bx, -f.by', -f.bz⟩) ?_ ?_
    · intro G x
      show see2 d (mirror2.fields G) (mirror2.pos x) = ⟨-(see2 d G x).ex, (see2 d G x).ey, (see2 d G x).ez,
        (see2 d G x).bx, -(see2 d G x).by', -(see2 d G x).bz⟩
      have e0 : (![-x 0, x 1] : Fin 2 → ℚ) 0 / d 0 = -(x 0 / d 0) := neg_div _ _
      unfold see2
      dsimp only
      show EB.mk (sample2 (1 / 2) 0 (-x 0 / d 0) (x 1 / d 1) fun m n => -G.e 0 ![-m - 1, n])
        (sample2 0 (1 / 2) (-x 0 / d 0) (x 1 / d 1) fun m n => G.e 1 ![-m, n])
        (sample2 0 0 (-x 0 / d 0) (x 1 / d 1) fun m n => G.e 2 ![-m, n])
        (sample2 0 (1 / 2) (-x 0 / d 0) (x 1 / d 1) fun m n => G.b 0 ![-m, n])
        (sample2 (1 / 2) 0 (-x 0 / d 0) (x 1 / d 1) fun m n => -G.b 1 ![-m - 1, n])
        (sample2 (1 / 2) (1 / 2) (-x 0 / d 0) (x 1 / d 1) fun m n => -G.b 2 ![-m - 1, n]) = _
      simp only [sample2_neg', neg_div]
      unfold sample2
      simp only [sample_refl0, sample_refl1, neg_neg, show ∀ m : ℤ, -(-m - 1) - 1 = m from fun m => by ring]
    · intro κ f m
      exact congrArg (fun r : Mo ℚ => (⟨r.ux, r.uy, r.uz, r.ig, m.w⟩ : Mom)) (boris_mirror rs _ _ ⟨f.ex, f.ey, f.ez, f.bx, f.by', f.bz⟩
        ⟨m.ux, m.uy, m.uz, m.invGamma⟩).symm
  · intro cl hs
    have hv : ∀ m : Mom, (mirror2.mom m).vx = -m.vx := fun m => by
      show -m.ux * lightSpeed * m.invGamma = -(m.ux * lightSpeed * m.invGamma); ring
    have hs' : Slow d dt (mirror2.cloud cl) := by
      refine slow_view (fun m h i => ?_) hs
      match i with
      | 0 => show |(mirror2.mom m).vx * dt| ≤ d 0; rw [hv, neg_mul, abs_neg]; exact h 0
      | 1 => exact h 1
    have H := cur_view2 (T := mirror2) hN hN hd hd hdt hs hs'
    refine v3_ext (fun c => (H (-1) 0 0 c ![-c 0 - 1, c 1] fun ⟨q, _⟩ p hp => ?_).trans (neg_one_mul _))
      (fun c => (H 1 1 1 c ![-c 0, c 1] fun ⟨q, _⟩ p hp => ?_).trans (one_mul _))
      (fun c => (H 1 2 2 c ![-c 0, c 1] fun ⟨q, _⟩ p hp => ?_).trans (one_mul _))
    · have e1 := lc_refl (hN 0) (hd 0) (dt := dt) (x := p.pos 0) (v := p.mom.vx) (hp 0) (c 0)
      show -(q * p.mom.w / (d 0 * d 1) / dt * d 0) * (lc (N 0) (d 0) dt (-p.pos 0) (mirror2.mom p.mom).vx (c 0) * lm (N 1) (d 1) dt (p.pos 1) p.mom.vy (c 1))
        = -1 * (-(q * p.mom.w / (d 0 * d 1) / dt * d 0) * (lc (N 0) (d 0) dt (p.pos 0) p.mom.vx (-c 0 - 1) * lm (N 1) (d 1) dt (p.pos 1) p.mom.vy (c 1)))
      rw [hv, e1]; ring
    · have e1 := l0_refl (hN 0) (d := d 0) dt (p.pos 0) p.mom.vx (c 0)
      have e2 := l1_refl (hN 0) (hd 0) (dt := dt) (x := p.pos 0) (v := p.mom.vx) (hp 0) (c 0)
      show -(q * p.mom.w / (d 0 * d 1) / dt * d 1) * ((1 / 2 * (l0 (N 0) (d 0) dt (-p.pos 0) (mirror2.mom p.mom).vx (c 0)
          + l1 (N 0) (d 0) dt (-p.pos 0) (mirror2.mom p.mom).vx (c 0))) * lc (N 1) (d 1) dt (p.pos 1) p.mom.vy (c 1))
        = 1 * (-(q * p.mom.w / (d 0 * d 1) / dt * d 1) * ((1 / 2 * (l0 (N 0) (d 0) dt (p.pos 0) p.mom.vx (-c 0)
          + l1 (N 0) (d 0) dt (p.pos 0) p.mom.vx (-c 0))) * lc (N 1) (d 1) dt (p.pos 1) p.mom.vy (c 1)))
      rw [hv, e1, e2, one_mul]
    · have e1 := l0_refl (hN 0) (d := d 0) dt (p.pos 0) p.mom.vx (c 0)
      have e2 := l1_refl (hN 0) (hd 0) (dt := dt) (x := p.pos 0) (v := p.mom.vx) (hp 0) (c 0)
      rw [one_mul]
      unfold j2
      dsimp only
      unfold lm
      show q * p.mom.w / (d 0 * d 1) * p.mom.vz * ((1 / 2 * (l0 (N 0) (d 0) dt (-p.pos 0) (mirror2.mom p.mom).vx (c 0)
            + l1 (N 0) (d 0) dt (-p.pos 0) (mirror2.mom p.mom).vx (c 0))) * _)
          + q * p.mom.w / (d 0 * d 1) * p.mom.vz * (1 / 12) * ((l1 (N 0) (d 0) dt (-p.pos 0) (mirror2.mom p.mom).vx (c 0)
            - l0 (N 0) (d 0) dt (-p.pos 0) (mirror2.mom p.mom).vx (c 0)) * _) = _
      rw [hv, e1, e2]
      rfl

/-! ### reflection of `z`, moves by whole cells, the sign of the charges -/

theorem respects_upside2 : Respects upside2 (phys2 N d c2 eps0 dt rs) (phys2 N d c2 eps0 dt rs) d := by
  have hx : ∀ x m h i, upside2.pos (fun i => x i + h * m.invGamma * uAt m i) i
      = upside2.pos x i + h * (upside2.mom m).invGamma * uAt (upside2.mom m) i := by
    intro x m h i
    match i with
    | 0 => rfl
    | 1 => rfl
  refine ⟨rfl, fun u w => v3_ext (fun _ => rfl) (fun _ => rfl) (fun _ => neg_add _ _),
    fun u w => v3_ext (fun _ => neg_add _ _) (fun _ => neg_add _ _) (fun _ => rfl), ?_, ?_, ?_, ?_⟩
  · intro h b j
    refine v3_ext (fun c => rfl) (fun c => rfl) (fun c => ?_)
    show h * c2 * ((-b 1 c - -b 1 (dn 0 c)) / d 0 - (-b 0 c - -b 0 (dn 1 c)) / d 1) - h / eps0 * -j 2 c
        = -(h * c2 * ((b 1 c - b 1 (dn 0 c)) / d 0 - (b 0 c - b 0 (dn 1 c)) / d 1) - h / eps0 * j 2 c)
    ring
  · intro h e
    refine v3_ext (fun c => ?_) (fun c => ?_) (fun c => rfl)
    · show -(h * ((-e 2 (up 1 c) - -e 2 c) / d 1)) = - -(h * ((e 2 (up 1 c) - e 2 c) / d 1)); ring
    · show -(h * (-(-e 2 (up 0 c) - -e 2 c) / d 0)) = - -(h * (-(e 2 (up 0 c) - e 2 c) / d 0)); ring
  · refine push_mom rfl hx (fun f => ⟨f.ex, f.ey, -f.ez, -f.bx, -f.by', f.bz⟩) ?_ ?_
    · intro G x
      show EB.mk _ _ (sample2 0 0 (x 0 / d 0) (x 1 / d 1) fun m n => -G.e 2 ![m, n])
        (sample2 0 (1 / 2) (x 0 / d 0) (x 1 / d 1) fun m n => -G.b 0 ![m, n])
        (sample2 (1 / 2) 0 (x 0 / d 0) (x 1 / d 1) fun m n => -G.b 1 ![m, n]) _ = _
      simp only [sample2_neg']
      rfl
    · intro κ f m
      exact congrArg (fun r : Mo ℚ => (⟨r.ux, r.uy, r.uz, r.ig, m.w⟩ : Mom)) (boris_up rs _ _ ⟨f.ex, f.ey, f.ez, f.bx, f.by', f.bz⟩
        ⟨m.ux, m.uy, m.uz, m.invGamma⟩).symm
  · intro cl hs
    have hs' : Slow d dt (upside2.cloud cl) := slow_view (fun m h i => by match i with | 0 => exact h 0 | 1 => exact h 1) hs
    have H := cur_view2 (T := upside2) hN hN hd hd hdt hs hs'
    refine v3_ext (fun c => (H 1 0 0 c c fun ⟨q, _⟩ p _ => (one_mul _).symm).trans (one_mul _))
      (fun c => (H 1 1 1 c c fun ⟨q, _⟩ p _ => (one_mul _).symm).trans (one_mul _))
      (fun c => (H (-1) 2 2 c c fun ⟨q, _⟩ p _ => ?_).trans (neg_one_mul _))
    have hv : (upside2.mom p.mom).vz = -p.mom.vz := by
      show -p.mom.uz * lightSpeed * p.mom.invGamma = -(p.mom.uz * lightSpeed * p.mom.invGamma); ring
    unfold j2
    dsimp only
    show q * p.mom.w / (d 0 * d 1) * (upside2.mom p.mom).vz * (lm (N 0) (d 0) dt (p.pos 0) p.mom.vx (c 0) * lm (N 1) (d 1) dt (p.pos 1) p.mom.vy (c 1))
      + q * p.mom.w / (d 0 * d 1) * (upside2.mom p.mom).vz * (1 / 12) *
        ((l1 (N 0) (d 0) dt (p.pos 0) p.mom.vx (c 0) - l0 (N 0) (d 0) dt (p.pos 0) p.mom.vx (c 0))
          * (l1 (N 1) (d 1) dt (p.pos 1) p.mom.vy (c 1) - l0 (N 1) (d 1) dt (p.pos 1) p.mom.vy (c 1))) = _
    rw [hv]
    ring

omit hN hd hdt in
theorem move_dn {k : Nat} (z : Fin k → Int) (a : Fin k) (c : Fin k → Int) : (fun x => dn a c x - z x) = dn a fun x => c x - z x := by
  funext x
  unfold dn
  split
  · ring
  · rfl
omit hN hd hdt in
theorem move_up {k : Nat} (z : Fin k → Int) (a : Fin k) (c : Fin k → Int) : (fun x => up a c x - z x) = up a fun x => c x - z x := by
  funext x
  unfold up
  split
  · ring
  · rfl

theorem respects_move2 (z : Fin 2 → Int) : Respects (move d z) (phys2 N d c2 eps0 dt rs) (phys2 N d c2 eps0 dt rs) d := by
  have hx : ∀ x m h i, (move d z).pos (fun i => x i + h * m.invGamma * uAt m i) i
      = (move d z).pos x i + h * ((move d z).mom m).invGamma * uAt ((move d z).mom m) i := by
    intro x m h i
    show x i + h * m.invGamma * uAt m i + z i * d i = x i + z i * d i + h * m.invGamma * uAt m i
    ring
  refine ⟨rfl, fun u w => rfl, fun u w => rfl, ?_, ?_, ?_, ?_⟩
  · intro h b j
    have e0 := move_dn z 0
    have e1 := move_dn z 1
    refine v3_ext (fun c => ?_) (fun c => ?_) (fun c => ?_)
    · show h * c2 * ((b 2 _ - b 2 fun x => dn 1 c x - z x) / d 1) - _ = _
      rw [e1]; rfl
    · show h * c2 * (-(b 2 _ - b 2 fun x => dn 0 c x - z x) / d 0) - _ = _
      rw [e0]; rfl
    · show h * c2 * ((b 1 _ - b 1 fun x => dn 0 c x - z x) / d 0 - (b 0 _ - b 0 fun x => dn 1 c x - z x) / d 1) - _ = _
      rw [e0, e1]; rfl
  · intro h e
    have e0 := move_up z 0
    have e1 := move_up z 1
    refine v3_ext (fun c => ?_) (fun c => ?_) (fun c => ?_)
    · show -(h * ((e 2 (fun x => up 1 c x - z x) - _) / d 1)) = _
      rw [e1]; rfl
    · show -(h * (-(e 2 (fun x => up 0 c x - z x) - _) / d 0)) = _
      rw [e0]; rfl
    · show -(h * ((e 1 (fun x => up 0 c x - z x) - _) / d 0 - (e 0 (fun x => up 1 c x - z x) - _) / d 1)) = _
      rw [e0, e1]; rfl
  · refine push_mom rfl hx id ?_ (fun _ _ _ => rfl)
    intro G x
    have e : ∀ i, (x i + z i * d i) / d i = x i / d i + z i := fun i => by
      have := (hd i).ne'
      field_simp
    have ec : ∀ m n : ℤ, (fun a => (![m + z 0, n + z 1] : Fin 2 → Int) a - z a) = ![m, n] := fun m n => by
      funext a; fin_cases a
      · show m + z 0 - z 0 = m; ring
      · show n + z 1 - z 1 = n; ring
    show EB.mk (sample2 _ _ ((x 0 + z 0 * d 0) / d 0) ((x 1 + z 1 * d 1) / d 1) fun m n => G.e 0 fun a => (![m, n] : Fin 2 → Int) a - z a)
      (sample2 _ _ ((x 0 + z 0 * d 0) / d 0) ((x 1 + z 1 * d 1) / d 1) fun m n => G.e 1 fun a => (![m, n] : Fin 2 → Int) a - z a)
      (sample2 _ _ ((x 0 + z 0 * d 0) / d 0) ((x 1 + z 1 * d 1) / d 1) fun m n => G.e 2 fun a => (![m, n] : Fin 2 → Int) a - z a)
      (sample2 _ _ ((x 0 + z 0 * d 0) / d 0) ((x 1 + z 1 * d 1) / d 1) fun m n => G.b 0 fun a => (![m, n] : Fin 2 → Int) a - z a)
      (sample2 _ _ ((x 0 + z 0 * d 0) / d 0) ((x 1 + z 1 * d 1) / d 1) fun m n => G.b 1 fun a => (![m, n] : Fin 2 → Int) a - z a)
      (sample2 _ _ ((x 0 + z 0 * d 0) / d 0) ((x 1 + z 1 * d 1) / d 1) fun m n => G.b 2 fun a => (![m, n] : Fin 2 → Int) a - z a) = _
    simp only [e, sample2_add, ec]
    rfl
  · intro cl hs
    have H := cur_view2 (T := move d z) hN hN hd hd hdt hs (slow_view (T := move d z) (d := d) (fun m h i => h i) hs)
    have key : ∀ f c, cur2 N d dt ((move d z).cloud cl) f c = cur2 N d dt cl f fun a => c a - z a := by
      intro f c
      refine (H 1 f f c (fun a => c a - z a) fun ⟨q, _⟩ p _ => ?_).trans (one_mul _)
      have a0 := l0_move (hN 0) (hd 0) dt (p.pos 0) p.mom.vx (z 0) (c 0)
      have a1 := l1_move (hN 0) (hd 0) dt (p.pos 0) p.mom.vx (z 0) (c 0)
      have a2 := lc_move (hN 0) (hd 0) dt (p.pos 0) p.mom.vx (z 0) (c 0)
      have b0 := l0_move (hN 1) (hd 1) dt (p.pos 1) p.mom.vy (z 1) (c 1)
      have b1 := l1_move (hN 1) (hd 1) dt (p.pos 1) p.mom.vy (z 1) (c 1)
      have b2 := lc_move (hN 1) (hd 1) dt (p.pos 1) p.mom.vy (z 1) (c 1)
      rw [one_mul]
      match f with
      | 0 =>
        show _ * (lc (N 0) (d 0) dt (p.pos 0 + z 0 * d 0) p.mom.vx (c 0) * (_ * (l0 (N 1) (d 1) dt (p.pos 1 + z 1 * d 1) p.mom.vy (c 1)
          + l1 (N 1) (d 1) dt (p.pos 1 + z 1 * d 1) p.mom.vy (c 1)))) = _
        rw [a2, b0, b1]; rfl
      | 1 =>
        show _ * ((_ * (l0 (N 0) (d 0) dt (p.pos 0 + z 0 * d 0) p.mom.vx (c 0) + l1 (N 0) (d 0) dt (p.pos 0 + z 0 * d 0) p.mom.vx (c 0)))
          * lc (N 1) (d 1) dt (p.pos 1 + z 1 * d 1) p.mom.vy (c 1)) = _
        rw [a0, a1, b2]; rfl
      | 2 =>
        show _ * ((_ * (l0 (N 0) (d 0) dt (p.pos 0 + z 0 * d 0) p.mom.vx (c 0) + l1 (N 0) (d 0) dt (p.pos 0 + z 0 * d 0) p.mom.vx (c 0)))
            * (_ * (l0 (N 1) (d 1) dt (p.pos 1 + z 1 * d 1) p.mom.vy (c 1) + l1 (N 1) (d 1) dt (p.pos 1 + z 1 * d 1) p.mom.vy (c 1))))
          + _ * ((l1 (N 0) (d 0) dt (p.pos 0 + z 0 * d 0) p.mom.vx (c 0) - l0 (N 0) (d 0) dt (p.pos 0 + z 0 * d 0) p.mom.vx (c 0))
            * (l1 (N 1) (d 1) dt (p.pos 1 + z 1 * d 1) p.mom.vy (c 1) - l0 (N 1) (d 1) dt (p.pos 1 + z 1 * d 1) p.mom.vy (c 1))) = _
        rw [a0, a1, b0, b1]; rfl
    funext f c
    exact key f c

theorem respects_charge2 : Respects charge (phys2 N d c2 eps0 dt rs) (phys2 N d c2 eps0 dt rs) d := by
  refine ⟨rfl, fun u w => by funext f c; exact neg_add _ _, fun u w => by funext f c; exact neg_add _ _, ?_, ?_, ?_, ?_⟩
  · intro h b j
    refine v3_ext (fun c => ?_) (fun c => ?_) (fun c => ?_)
    · show h * c2 * ((-b 2 c - -b 2 (dn 1 c)) / d 1) - h / eps0 * -j 0 c = -(h * c2 * ((b 2 c - b 2 (dn 1 c)) / d 1) - h / eps0 * j 0 c)
      ring
    · show h * c2 * (-(-b 2 c - -b 2 (dn 0 c)) / d 0) - h / eps0 * -j 1 c = -(h * c2 * (-(b 2 c - b 2 (dn 0 c)) / d 0) - h / eps0 * j 1 c)
      ring
    · show h * c2 * ((-b 1 c - -b 1 (dn 0 c)) / d 0 - (-b 0 c - -b 0 (dn 1 c)) / d 1) - h / eps0 * -j 2 c
        = -(h * c2 * ((b 1 c - b 1 (dn 0 c)) / d 0 - (b 0 c - b 0 (dn 1 c)) / d 1) - h / eps0 * j 2 c)
      ring
  · intro h e
    refine v3_ext (fun c => ?_) (fun c => ?_) (fun c => ?_)
    · show -(h * ((-e 2 (up 1 c) - -e 2 c) / d 1)) = - -(h * ((e 2 (up 1 c) - e 2 c) / d 1)); ring
    · show -(h * (-(-e 2 (up 0 c) - -e 2 c) / d 0)) = - -(h * (-(e 2 (up 0 c) - e 2 c) / d 0)); ring
    · show -(h * ((-e 1 (up 0 c) - -e 1 c) / d 0 - (-e 0 (up 1 c) - -e 0 c) / d 1))
        = - -(h * ((e 1 (up 0 c) - e 1 c) / d 0 - (e 0 (up 1 c) - e 0 c) / d 1))
      ring
  · refine push_mom rfl (fun _ _ _ _ => rfl) (fun f => ⟨-f.ex, -f.ey, -f.ez, -f.bx, -f.by', -f.bz⟩) ?_ ?_
    · intro G x
      show EB.mk (sample2 _ _ _ _ fun m n => -G.e 0 ![m, n]) (sample2 _ _ _ _ fun m n => -G.e 1 ![m, n])
        (sample2 _ _ _ _ fun m n => -G.e 2 ![m, n]) (sample2 _ _ _ _ fun m n => -G.b 0 ![m, n])
        (sample2 _ _ _ _ fun m n => -G.b 1 ![m, n]) (sample2 _ _ _ _ fun m n => -G.b 2 ![m, n]) = _
      simp only [sample2_neg']
      rfl
    · intro κ f m
      have e := boris_charge rs (κ.q * dt / (2 * κ.m * lightSpeed)) (κ.q * dt / (2 * κ.m)) ⟨f.ex, f.ey, f.ez, f.bx, f.by', f.bz⟩
        ⟨m.ux, m.uy, m.uz, m.invGamma⟩
      rw [show -(κ.q * dt / (2 * κ.m * lightSpeed)) = -κ.q * dt / (2 * κ.m * lightSpeed) by ring,
        show -(κ.q * dt / (2 * κ.m)) = -κ.q * dt / (2 * κ.m) by ring] at e
      exact congrArg (fun r : Mo ℚ => (⟨r.ux, r.uy, r.uz, r.ig, m.w⟩ : Mom)) e.symm
  · intro cl hs
    have H := cur_view2 (T := charge) hN hN hd hd hdt hs (slow_view (T := charge) (d := d) (fun m h i => h i) hs)
    have key : ∀ f c, cur2 N d dt (charge.cloud cl) f c = -cur2 N d dt cl f c := by
      intro f c
      refine (H (-1) f f c c fun ⟨q, _⟩ p _ => ?_).trans (neg_one_mul _)
      show j2 N d dt (-q) p f c = -1 * j2 N d dt q p f c
      unfold j2
      match f with
      | 0 => dsimp only; ring
      | 1 => dsimp only; ring
      | 2 => dsimp only; ring
    funext f c
    exact key f c
end
end Verif.Symmetry
