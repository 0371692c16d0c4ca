import Verif.Proofs.Symmetry2
import Verif.Proofs.WholeRun3
/-!
# Other views of the undivided 3D simulation
-/
namespace Verif.Symmetry
open Verif.Maxwell Verif.Pusher Verif.Deposit Verif.Shape Verif.WholeRun Verif.PicStep
open Finset (range)

/-! ## currents -/

/-- mean over the step of the product of the weights along two axes -/
def tw (a0 a1 b0 b1 : ℚ) : ℚ := 1 / 3 * (a0 * b0) + 1 / 6 * (a1 * b0) + 1 / 6 * (a0 * b1) + 1 / 3 * (a1 * b1)

theorem neg_helper (a b c : ℚ) : a * (-b * c) = -1 * (a * (b * c)) := by ring

theorem tw_comm (a0 a1 b0 b1 : ℚ) : tw a0 a1 b0 b1 = tw b0 b1 a0 a1 := by unfold tw; ring

/-- currents of one particle of charge `q` -/
def j3 (N : Fin 3 → Nat) (d : Fin 3 → ℚ) (dt q : ℚ) (p : Ptc 3) (f : Fin 3) (c : Fin 3 → Int) : ℚ :=
  let Q := q * p.mom.w / (d 0 * d 1 * d 2)
  let X0 := l0 (N 0) (d 0) dt (p.pos 0) p.mom.vx (c 0)
  let X1 := l1 (N 0) (d 0) dt (p.pos 0) p.mom.vx (c 0)
  let Y0 := l0 (N 1) (d 1) dt (p.pos 1) p.mom.vy (c 1)
  let Y1 := l1 (N 1) (d 1) dt (p.pos 1) p.mom.vy (c 1)
  let Z0 := l0 (N 2) (d 2) dt (p.pos 2) p.mom.vz (c 2)
  let Z1 := l1 (N 2) (d 2) dt (p.pos 2) p.mom.vz (c 2)
  match f with
  | 0 => -(Q / dt * d 0) * (lc (N 0) (d 0) dt (p.pos 0) p.mom.vx (c 0) * tw Y0 Y1 Z0 Z1)
  | 1 => -(Q / dt * d 1) * (lc (N 1) (d 1) dt (p.pos 1) p.mom.vy (c 1) * tw X0 X1 Z0 Z1)
  | 2 => -(Q / dt * d 2) * (lc (N 2) (d 2) dt (p.pos 2) p.mom.vz (c 2) * tw X0 X1 Y0 Y1)

theorem cur_total3 {N : Fin 3 → Nat} (hN : ∀ a, 2 ≤ N a) {d : Fin 3 → ℚ} (hd : ∀ a, 0 < d a) {dt : ℚ} (hdt : dt ≠ 0)
    {cl : List (Kind × List (Ptc 3))} (hv : Slow d dt cl) (f : Fin 3) (c : Fin 3 → Int) :
    cur3 N d dt cl f c = total (fun q p => j3 N d dt q p f c) cl := by
  rw [cur_sum3 hN hd hdt hv]
  unfold total
  congr 1
  refine List.map_congr_left fun s _ => ?_
  congr 1
  refine List.map_congr_left fun p _ => ?_
  unfold closed3 tri
  dsimp only
  rw [axis_zero, axis_zero, axis_zero]
  unfold j3 tw l0 l1 lc w0 w1 wc
  match f with
  | 0 =>
    show - _ * (1/3 * (_ * _ * _) + 1/6 * (_ * _ * _) + 1/6 * (_ * _ * _) + 1/3 * (_ * _ * _)) = _
    dsimp only; unfold Mom.vx Mom.vy Mom.vz; ring
  | 1 =>
    show - _ * (1/3 * (_ * _ * _) + 1/6 * (_ * _ * _) + 1/6 * (_ * _ * _) + 1/3 * (_ * _ * _)) = _
    dsimp only; unfold Mom.vx Mom.vy Mom.vz; ring
  | 2 =>
    show - _ * (1/3 * (_ * _ * _) + 1/6 * (_ * _ * _) + 1/6 * (_ * _ * _) + 1/3 * (_ * _ * _)) = _
    dsimp only; unfold Mom.vx Mom.vy Mom.vz; ring

theorem cur_view3 {T : View 3} {N N' : Fin 3 → Nat} (hN : ∀ a, 2 ≤ N a) (hN' : ∀ a, 2 ≤ N' a) {d d' : Fin 3 → ℚ}
    (hd : ∀ a, 0 < d a) (hd' : ∀ a, 0 < d' a) {dt : ℚ} (hdt : dt ≠ 0) {cl : List (Kind × List (Ptc 3))} (hs : Slow d dt cl)
    (hs' : Slow d' dt (T.cloud cl)) (r : ℚ) (f g : Fin 3) (c c' : Fin 3 → Int)
    (hj : ∀ κ p, (∀ i : Fin 3, |vel p.mom i * dt| ≤ d i) → j3 N' d' dt (T.kind κ).q (T.ptc p) f c = r * j3 N d dt κ.q p g c') :
    cur3 N' d' dt (T.cloud cl) f c = r * cur3 N d dt cl g c' := by
  rw [cur_total3 hN' hd' hdt hs', cur_total3 hN hd hdt hs]
  exact total_map T r fun s h p hp => hj _ p (hs s h p hp)

/-! ## the views -/

theorem back3_dn0 (c : Fin 3 → Int) : back3 (dn 0 c) = dn 1 (back3 c) := by funext x; fin_cases x <;> rfl
theorem back3_dn1 (c : Fin 3 → Int) : back3 (dn 1 c) = dn 2 (back3 c) := by funext x; fin_cases x <;> rfl
theorem back3_dn2 (c : Fin 3 → Int) : back3 (dn 2 c) = dn 0 (back3 c) := by funext x; fin_cases x <;> rfl
theorem ex3_dn0 (c : Fin 3 → Int) : ex3 (dn 0 c) = dn 1 (ex3 c) := by funext x; fin_cases x <;> rfl
theorem ex3_dn1 (c : Fin 3 → Int) : ex3 (dn 1 c) = dn 0 (ex3 c) := by funext x; fin_cases x <;> rfl
theorem ex3_dn2 (c : Fin 3 → Int) : ex3 (dn 2 c) = dn 2 (ex3 c) := by funext x; fin_cases x <;> rfl
theorem back3_up0 (c : Fin 3 → Int) : back3 (up 0 c) = up 1 (back3 c) := by funext x; fin_cases x <;> rfl
theorem back3_up1 (c : Fin 3 → Int) : back3 (up 1 c) = up 2 (back3 c) := by funext x; fin_cases x <;> rfl
theorem back3_up2 (c : Fin 3 → Int) : back3 (up 2 c) = up 0 (back3 c) := by funext x; fin_cases x <;> rfl
theorem ex3_up0 (c : Fin 3 → Int) : ex3 (up 0 c) = up 1 (ex3 c) := by funext x; fin_cases x <;> rfl
theorem ex3_up1 (c : Fin 3 → Int) : ex3 (up 1 c) = up 0 (ex3 c) := by funext x; fin_cases x <;> rfl
theorem ex3_up2 (c : Fin 3 → Int) : ex3 (up 2 c) = up 2 (ex3 c) := by funext x; fin_cases x <;> rfl

section
variable {N : Fin 3 → Nat} (hN : ∀ a, 2 ≤ N a) {d : Fin 3 → ℚ} {c2 eps0 dt : ℚ} {rs : ℚ → ℚ} (hd : ∀ a, 0 < d a)
  (hdt : dt ≠ 0)
include hN hd hdt

theorem respects_turn3 : Respects turn3 (phys3 N d c2 eps0 dt rs) (phys3 (rot3 N) (rot3 d) c2 eps0 dt rs) d := by
  have hx : ∀ x m h i, turn3.pos (fun i => x i + h * m.invGamma * uAt m i) i
      = turn3.pos x i + h * (turn3.mom m).invGamma * uAt (turn3.mom m) i := by
    intro x m h i
    match i with
    | 0 => rfl
    | 1 => rfl
    | 2 => rfl
  refine ⟨rfl, fun u w => v3_ext (fun _ => rfl) (fun _ => rfl) (fun _ => rfl),
    fun u w => v3_ext (fun _ => rfl) (fun _ => rfl) (fun _ => rfl), ?_, ?_, ?_, ?_⟩
  · intro h b j
    refine v3_ext (fun c => ?_) (fun c => ?_) (fun c => ?_)
    · show h * c2 * ((b 0 (back3 c) - b 0 (back3 (dn 1 c))) / d 2 - (b 2 (back3 c) - b 2 (back3 (dn 2 c))) / d 0) - h / eps0 * j 1 (back3 c)
        = h * c2 * ((b 0 (back3 c) - b 0 (dn 2 (back3 c))) / d 2 - (b 2 (back3 c) - b 2 (dn 0 (back3 c))) / d 0) - h / eps0 * j 1 (back3 c)
      rw [back3_dn1, back3_dn2]
    · show h * c2 * ((b 1 (back3 c) - b 1 (back3 (dn 2 c))) / d 0 - (b 0 (back3 c) - b 0 (back3 (dn 0 c))) / d 1) - h / eps0 * j 2 (back3 c)
        = h * c2 * ((b 1 (back3 c) - b 1 (dn 0 (back3 c))) / d 0 - (b 0 (back3 c) - b 0 (dn 1 (back3 c))) / d 1) - h / eps0 * j 2 (back3 c)
      rw [back3_dn2, back3_dn0]
    · show h * c2 * ((b 2 (back3 c) - b 2 (back3 (dn 0 c))) / d 1 - (b 1 (back3 c) - b 1 (back3 (dn 1 c))) / d 2) - h / eps0 * j 0 (back3 c)
        = h * c2 * ((b 2 (back3 c) - b 2 (dn 1 (back3 c))) / d 1 - (b 1 (back3 c) - b 1 (dn 2 (back3 c))) / d 2) - h / eps0 * j 0 (back3 c)
      rw [back3_dn0, back3_dn1]
  · intro h e
    refine v3_ext (fun c => ?_) (fun c => ?_) (fun c => ?_)
    · show -(h * ((e 0 (back3 (up 1 c)) - e 0 (back3 c)) / d 2 - (e 2 (back3 (up 2 c)) - e 2 (back3 c)) / d 0))
        = -(h * ((e 0 (up 2 (back3 c)) - e 0 (back3 c)) / d 2 - (e 2 (up 0 (back3 c)) - e 2 (back3 c)) / d 0))
      rw [back3_up1, back3_up2]
    · show -(h * ((e 1 (back3 (up 2 c)) - e 1 (back3 c)) / d 0 - (e 0 (back3 (up 0 c)) - e 0 (back3 c)) / d 1))
        = -(h * ((e 1 (up 0 (back3 c)) - e 1 (back3 c)) / d 0 - (e 0 (up 1 (back3 c)) - e 0 (back3 c)) / d 1))
      rw [back3_up2, back3_up0]
    · show -(h * ((e 2 (back3 (up 0 c)) - e 2 (back3 c)) / d 1 - (e 1 (back3 (up 1 c)) - e 1 (back3 c)) / d 2))
        = -(h * ((e 2 (up 1 (back3 c)) - e 2 (back3 c)) / d 1 - (e 1 (up 2 (back3 c)) - e 1 (back3 c)) / d 2))
      rw [back3_up0, back3_up1]
  · refine push_mom rfl hx (fun f => ⟨f.ey, f.ez, f.ex, f.by', f.bz, f.bx⟩) ?_ ?_
    · intro G x
      show see3 (rot3 d) (turn3.fields G) (turn3.pos x) = ⟨(see3 d G x).ey, (see3 d G x).ez, (see3 d G x).ex, (see3 d G x).by', (see3 d G x).bz, (see3 d G x).bx⟩
      unfold see3
      dsimp only
      congr 1
      · exact sample3_swap' _ _ _ _ _ _ _ |>.trans (sample3_swap _ _ _ _ _ _ _)
      · exact sample3_swap' _ _ _ _ _ _ _ |>.trans (sample3_swap _ _ _ _ _ _ _)
      · exact sample3_swap' _ _ _ _ _ _ _ |>.trans (sample3_swap _ _ _ _ _ _ _)
      · exact sample3_swap' _ _ _ _ _ _ _ |>.trans (sample3_swap _ _ _ _ _ _ _)
      · exact sample3_swap' _ _ _ _ _ _ _ |>.trans (sample3_swap _ _ _ _ _ _ _)
      · exact sample3_swap' _ _ _ _ _ _ _ |>.trans (sample3_swap _ _ _ _ _ _ _)
    · intro κ f m
      exact congrArg (fun r : Mo ℚ => (⟨r.ux, r.uy, r.uz, r.ig, m.w⟩ : Mom)) (boris_turn rs _ _ ⟨f.ex, f.ey, f.ez, f.bx, f.by', f.bz⟩
        ⟨m.ux, m.uy, m.uz, m.invGamma⟩).symm
  · intro cl hs
    have hs' : Slow (rot3 d) dt (turn3.cloud cl) :=
      slow_view (fun m h i => by match i with | 0 => exact h 1 | 1 => exact h 2 | 2 => exact h 0) hs
    have hN' : ∀ a, 2 ≤ rot3 N a := fun a => by match a with | 0 => exact hN 1 | 1 => exact hN 2 | 2 => exact hN 0
    have hd' : ∀ a, 0 < rot3 d a := fun a => by match a with | 0 => exact hd 1 | 1 => exact hd 2 | 2 => exact hd 0
    have H := cur_view3 (T := turn3) hN hN' hd hd' hdt hs hs'
    refine v3_ext (fun c => (H 1 0 1 c (back3 c) fun ⟨q, _⟩ p _ => ?_).trans (one_mul _))
      (fun c => (H 1 1 2 c (back3 c) fun ⟨q, _⟩ p _ => ?_).trans (one_mul _))
      (fun c => (H 1 2 0 c (back3 c) fun ⟨q, _⟩ p _ => ?_).trans (one_mul _))
    · show -(q * p.mom.w / (d 1 * d 2 * d 0) / dt * d 1) * (lc (N 1) (d 1) dt (p.pos 1) p.mom.vy (c 0) * tw (l0 (N 2) (d 2) dt (p.pos 2) p.mom.vz (c 1)) (l1 (N 2) (d 2) dt (p.pos 2) p.mom.vz (c 1)) (l0 (N 0) (d 0) dt (p.pos 0) p.mom.vx (c 2)) (l1 (N 0) (d 0) dt (p.pos 0) p.mom.vx (c 2)))
        = 1 * (-(q * p.mom.w / (d 0 * d 1 * d 2) / dt * d 1) * (lc (N 1) (d 1) dt (p.pos 1) p.mom.vy (c 0) * tw (l0 (N 0) (d 0) dt (p.pos 0) p.mom.vx (c 2)) (l1 (N 0) (d 0) dt (p.pos 0) p.mom.vx (c 2)) (l0 (N 2) (d 2) dt (p.pos 2) p.mom.vz (c 1)) (l1 (N 2) (d 2) dt (p.pos 2) p.mom.vz (c 1))))
      unfold tw; ring
    · show -(q * p.mom.w / (d 1 * d 2 * d 0) / dt * d 2) * (lc (N 2) (d 2) dt (p.pos 2) p.mom.vz (c 1) * tw (l0 (N 1) (d 1) dt (p.pos 1) p.mom.vy (c 0)) (l1 (N 1) (d 1) dt (p.pos 1) p.mom.vy (c 0)) (l0 (N 0) (d 0) dt (p.pos 0) p.mom.vx (c 2)) (l1 (N 0) (d 0) dt (p.pos 0) p.mom.vx (c 2)))
        = 1 * (-(q * p.mom.w / (d 0 * d 1 * d 2) / dt * d 2) * (lc (N 2) (d 2) dt (p.pos 2) p.mom.vz (c 1) * tw (l0 (N 0) (d 0) dt (p.pos 0) p.mom.vx (c 2)) (l1 (N 0) (d 0) dt (p.pos 0) p.mom.vx (c 2)) (l0 (N 1) (d 1) dt (p.pos 1) p.mom.vy (c 0)) (l1 (N 1) (d 1) dt (p.pos 1) p.mom.vy (c 0))))
      unfold tw; ring
    · show -(q * p.mom.w / (d 1 * d 2 * d 0) / dt * d 0) * (lc (N 0) (d 0) dt (p.pos 0) p.mom.vx (c 2) * tw (l0 (N 1) (d 1) dt (p.pos 1) p.mom.vy (c 0)) (l1 (N 1) (d 1) dt (p.pos 1) p.mom.vy (c 0)) (l0 (N 2) (d 2) dt (p.pos 2) p.mom.vz (c 1)) (l1 (N 2) (d 2) dt (p.pos 2) p.mom.vz (c 1)))
        = 1 * (-(q * p.mom.w / (d 0 * d 1 * d 2) / dt * d 0) * (lc (N 0) (d 0) dt (p.pos 0) p.mom.vx (c 2) * tw (l0 (N 1) (d 1) dt (p.pos 1) p.mom.vy (c 0)) (l1 (N 1) (d 1) dt (p.pos 1) p.mom.vy (c 0)) (l0 (N 2) (d 2) dt (p.pos 2) p.mom.vz (c 1)) (l1 (N 2) (d 2) dt (p.pos 2) p.mom.vz (c 1))))
      unfold tw; ring

theorem respects_swap3 : Respects swap3 (phys3 N d c2 eps0 dt rs) (phys3 (ex3 N) (ex3 d) c2 eps0 dt rs) d := by
  have hx : ∀ x m h i, swap3.pos (fun i => x i + h * m.invGamma * uAt m i) i
      = swap3.pos x i + h * (swap3.mom m).invGamma * uAt (swap3.mom m) i := by
    intro x m h i
    match i with
    | 0 => rfl
    | 1 => rfl
    | 2 => rfl
  refine ⟨rfl, fun u w => v3_ext (fun _ => rfl) (fun _ => rfl) (fun _ => rfl),
    fun u w => v3_ext (fun _ => neg_add _ _) (fun _ => neg_add _ _) (fun _ => neg_add _ _), ?_, ?_, ?_, ?_⟩
  · intro h b j
    refine v3_ext (fun c => ?_) (fun c => ?_) (fun c => ?_)
    · show h * c2 * ((-b 2 (ex3 c) - -b 2 (ex3 (dn 1 c))) / d 0 - (-b 0 (ex3 c) - -b 0 (ex3 (dn 2 c))) / d 2) - h / eps0 * j 1 (ex3 c)
        = h * c2 * ((b 0 (ex3 c) - b 0 (dn 2 (ex3 c))) / d 2 - (b 2 (ex3 c) - b 2 (dn 0 (ex3 c))) / d 0) - h / eps0 * j 1 (ex3 c)
      rw [ex3_dn1, ex3_dn2]; ring
    · show h * c2 * ((-b 1 (ex3 c) - -b 1 (ex3 (dn 2 c))) / d 2 - (-b 2 (ex3 c) - -b 2 (ex3 (dn 0 c))) / d 1) - h / eps0 * j 0 (ex3 c)
        = h * c2 * ((b 2 (ex3 c) - b 2 (dn 1 (ex3 c))) / d 1 - (b 1 (ex3 c) - b 1 (dn 2 (ex3 c))) / d 2) - h / eps0 * j 0 (ex3 c)
      rw [ex3_dn2, ex3_dn0]; ring
    · show h * c2 * ((-b 0 (ex3 c) - -b 0 (ex3 (dn 0 c))) / d 1 - (-b 1 (ex3 c) - -b 1 (ex3 (dn 1 c))) / d 0) - h / eps0 * j 2 (ex3 c)
        = h * c2 * ((b 1 (ex3 c) - b 1 (dn 0 (ex3 c))) / d 0 - (b 0 (ex3 c) - b 0 (dn 1 (ex3 c))) / d 1) - h / eps0 * j 2 (ex3 c)
      rw [ex3_dn0, ex3_dn1]; ring
  · intro h e
    refine v3_ext (fun c => ?_) (fun c => ?_) (fun c => ?_)
    · show -(h * ((e 2 (ex3 (up 1 c)) - e 2 (ex3 c)) / d 0 - (e 0 (ex3 (up 2 c)) - e 0 (ex3 c)) / d 2))
        = - -(h * ((e 0 (up 2 (ex3 c)) - e 0 (ex3 c)) / d 2 - (e 2 (up 0 (ex3 c)) - e 2 (ex3 c)) / d 0))
      rw [ex3_up1, ex3_up2]; ring
    · show -(h * ((e 1 (ex3 (up 2 c)) - e 1 (ex3 c)) / d 2 - (e 2 (ex3 (up 0 c)) - e 2 (ex3 c)) / d 1))
        = - -(h * ((e 2 (up 1 (ex3 c)) - e 2 (ex3 c)) / d 1 - (e 1 (up 2 (ex3 c)) - e 1 (ex3 c)) / d 2))
      rw [ex3_up2, ex3_up0]; ring
    · show -(h * ((e 0 (ex3 (up 0 c)) - e 0 (ex3 c)) / d 1 - (e 1 (ex3 (up 1 c)) - e 1 (ex3 c)) / d 0))
        = - -(h * ((e 1 (up 0 (ex3 c)) - e 1 (ex3 c)) / d 0 - (e 0 (up 1 (ex3 c)) - e 0 (ex3 c)) / d 1))
      rw [ex3_up0, ex3_up1]; ring
  · refine push_mom rfl hx (fun f => ⟨f.ey, f.ex, f.ez, -f.by', -f.bx, -f.bz⟩) ?_ ?_
    · intro G x
      show see3 (ex3 d) (swap3.fields G) (swap3.pos x) = ⟨(see3 d G x).ey, (see3 d G x).ex, (see3 d G x).ez, -(see3 d G x).by', -(see3 d G x).bx, -(see3 d G x).bz⟩
      unfold see3
      dsimp only
      congr 1
      · exact sample3_swap _ _ _ _ _ _ _
      · exact sample3_swap _ _ _ _ _ _ _
      · exact sample3_swap _ _ _ _ _ _ _
      · exact (sample3_swap _ _ _ _ _ _ _).trans (sample3_neg' _ _ _ _ _ _ fun m n l => G.b 1 ![m, n, l])
      · exact (sample3_swap _ _ _ _ _ _ _).trans (sample3_neg' _ _ _ _ _ _ fun m n l => G.b 0 ![m, n, l])
      · exact (sample3_swap _ _ _ _ _ _ _).trans (sample3_neg' _ _ _ _ _ _ fun m n l => G.b 2 ![m, n, l])
    · intro κ f m
      exact congrArg (fun r : Mo ℚ => (⟨r.ux, r.uy, r.uz, r.ig, m.w⟩ : Mom)) (boris_swap rs _ _ ⟨f.ex, f.ey, f.ez, f.bx, f.by', f.bz⟩
        ⟨m.ux, m.uy, m.uz, m.invGamma⟩).symm
  · intro cl hs
    have hs' : Slow (ex3 d) dt (swap3.cloud cl) :=
      slow_view (fun m h i => by match i with | 0 => exact h 1 | 1 => exact h 0 | 2 => exact h 2) hs
    have hN' : ∀ a, 2 ≤ ex3 N a := fun a => by match a with | 0 => exact hN 1 | 1 => exact hN 0 | 2 => exact hN 2
    have hd' : ∀ a, 0 < ex3 d a := fun a => by match a with | 0 => exact hd 1 | 1 => exact hd 0 | 2 => exact hd 2
    have H := cur_view3 (T := swap3) hN hN' hd hd' hdt hs hs'
    refine v3_ext (fun c => (H 1 0 1 c (ex3 c) fun ⟨q, _⟩ p _ => ?_).trans (one_mul _))
      (fun c => (H 1 1 0 c (ex3 c) fun ⟨q, _⟩ p _ => ?_).trans (one_mul _))
      (fun c => (H 1 2 2 c (ex3 c) fun ⟨q, _⟩ p _ => ?_).trans (one_mul _))
    · show -(q * p.mom.w / (d 1 * d 0 * d 2) / dt * d 1) * (lc (N 1) (d 1) dt (p.pos 1) p.mom.vy (c 0) * tw (l0 (N 0) (d 0) dt (p.pos 0) p.mom.vx (c 1)) (l1 (N 0) (d 0) dt (p.pos 0) p.mom.vx (c 1)) (l0 (N 2) (d 2) dt (p.pos 2) p.mom.vz (c 2)) (l1 (N 2) (d 2) dt (p.pos 2) p.mom.vz (c 2)))
        = 1 * (-(q * p.mom.w / (d 0 * d 1 * d 2) / dt * d 1) * (lc (N 1) (d 1) dt (p.pos 1) p.mom.vy (c 0) * tw (l0 (N 0) (d 0) dt (p.pos 0) p.mom.vx (c 1)) (l1 (N 0) (d 0) dt (p.pos 0) p.mom.vx (c 1)) (l0 (N 2) (d 2) dt (p.pos 2) p.mom.vz (c 2)) (l1 (N 2) (d 2) dt (p.pos 2) p.mom.vz (c 2))))
      unfold tw; ring
    · show -(q * p.mom.w / (d 1 * d 0 * d 2) / dt * d 0) * (lc (N 0) (d 0) dt (p.pos 0) p.mom.vx (c 1) * tw (l0 (N 1) (d 1) dt (p.pos 1) p.mom.vy (c 0)) (l1 (N 1) (d 1) dt (p.pos 1) p.mom.vy (c 0)) (l0 (N 2) (d 2) dt (p.pos 2) p.mom.vz (c 2)) (l1 (N 2) (d 2) dt (p.pos 2) p.mom.vz (c 2)))
        = 1 * (-(q * p.mom.w / (d 0 * d 1 * d 2) / dt * d 0) * (lc (N 0) (d 0) dt (p.pos 0) p.mom.vx (c 1) * tw (l0 (N 1) (d 1) dt (p.pos 1) p.mom.vy (c 0)) (l1 (N 1) (d 1) dt (p.pos 1) p.mom.vy (c 0)) (l0 (N 2) (d 2) dt (p.pos 2) p.mom.vz (c 2)) (l1 (N 2) (d 2) dt (p.pos 2) p.mom.vz (c 2))))
      unfold tw; ring
    · show -(q * p.mom.w / (d 1 * d 0 * d 2) / dt * d 2) * (lc (N 2) (d 2) dt (p.pos 2) p.mom.vz (c 2) * tw (l0 (N 1) (d 1) dt (p.pos 1) p.mom.vy (c 0)) (l1 (N 1) (d 1) dt (p.pos 1) p.mom.vy (c 0)) (l0 (N 0) (d 0) dt (p.pos 0) p.mom.vx (c 1)) (l1 (N 0) (d 0) dt (p.pos 0) p.mom.vx (c 1)))
        = 1 * (-(q * p.mom.w / (d 0 * d 1 * d 2) / dt * d 2) * (lc (N 2) (d 2) dt (p.pos 2) p.mom.vz (c 2) * tw (l0 (N 0) (d 0) dt (p.pos 0) p.mom.vx (c 1)) (l1 (N 0) (d 0) dt (p.pos 0) p.mom.vx (c 1)) (l0 (N 1) (d 1) dt (p.pos 1) p.mom.vy (c 0)) (l1 (N 1) (d 1) dt (p.pos 1) p.mom.vy (c 0))))
      unfold tw; ring

/-! ### reflection of `x` -/
omit hN hd hdt in
theorem m3_dn0' (c : Fin 3 → Int) : (![-dn 0 c 0 - 1, dn 0 c 1, dn 0 c 2] : Fin 3 → Int) = ![-c 0, c 1, c 2] := by
  funext x; fin_cases x
  · show -(c 0 - 1) - 1 = -c 0; ring
  · rfl
  · rfl
omit hN hd hdt in
theorem m3_dn (c : Fin 3 → Int) : (![-c 0 - 1, c 1, c 2] : Fin 3 → Int) = dn 0 ![-c 0, c 1, c 2] := by
  funext x; fin_cases x
  · rfl
  · rfl
  · rfl
omit hN hd hdt in
theorem m3_dn1 (c : Fin 3 → Int) : (![-dn 1 c 0, dn 1 c 1, dn 1 c 2] : Fin 3 → Int) = dn 1 ![-c 0, c 1, c 2] := by
  funext x; fin_cases x
  · rfl
  · rfl
  · rfl
omit hN hd hdt in
theorem m3_dn1' (c : Fin 3 → Int) : (![-dn 1 c 0 - 1, dn 1 c 1, dn 1 c 2] : Fin 3 → Int) = dn 1 ![-c 0 - 1, c 1, c 2] := by
  funext x; fin_cases x
  · rfl
  · rfl
  · rfl
omit hN hd hdt in
theorem m3_up1 (c : Fin 3 → Int) : (![-up 1 c 0, up 1 c 1, up 1 c 2] : Fin 3 → Int) = up 1 ![-c 0, c 1, c 2] := by
  funext x; fin_cases x
  · rfl
  · rfl
  · rfl
omit hN hd hdt in
theorem m3_up1' (c : Fin 3 → Int) : (![-up 1 c 0 - 1, up 1 c 1, up 1 c 2] : Fin 3 → Int) = up 1 ![-c 0 - 1, c 1, c 2] := by
  funext x; fin_cases x
  · rfl
  · rfl
  · rfl
omit hN hd hdt in
theorem m3_dn2 (c : Fin 3 → Int) : (![-dn 2 c 0, dn 2 c 1, dn 2 c 2] : Fin 3 → Int) = dn 2 ![-c 0, c 1, c 2] := by
  funext x; fin_cases x
  · rfl
  · rfl
  · rfl
omit hN hd hdt in
theorem m3_dn2' (c : Fin 3 → Int) : (![-dn 2 c 0 - 1, dn 2 c 1, dn 2 c 2] : Fin 3 → Int) = dn 2 ![-c 0 - 1, c 1, c 2] := by
  funext x; fin_cases x
  · rfl
  · rfl
  · rfl
omit hN hd hdt in
theorem m3_up2 (c : Fin 3 → Int) : (![-up 2 c 0, up 2 c 1, up 2 c 2] : Fin 3 → Int) = up 2 ![-c 0, c 1, c 2] := by
  funext x; fin_cases x
  · rfl
  · rfl
  · rfl
omit hN hd hdt in
theorem m3_up2' (c : Fin 3 → Int) : (![-up 2 c 0 - 1, up 2 c 1, up 2 c 2] : Fin 3 → Int) = up 2 ![-c 0 - 1, c 1, c 2] := by
  funext x; fin_cases x
  · rfl
  · rfl
  · rfl
omit hN hd hdt in
theorem m3_up0 (c : Fin 3 → Int) : (![-up 0 c 0, up 0 c 1, up 0 c 2] : Fin 3 → Int) = ![-c 0 - 1, c 1, c 2] := by
  funext x; fin_cases x
  · show -(c 0 + 1) = -c 0 - 1; ring
  · rfl
  · rfl
omit hN hd hdt in
theorem m3_up (c : Fin 3 → Int) : up 0 (![-c 0 - 1, c 1, c 2] : Fin 3 → Int) = ![-c 0, c 1, c 2] := by
  funext x; fin_cases x
  · show -c 0 - 1 + 1 = -c 0; ring
  · rfl
  · rfl

theorem respects_mirror3 : Respects mirror3 (phys3 N d c2 eps0 dt rs) (phys3 N d c2 eps0 dt rs) d := by
  have hx : ∀ x m h i, mirror3.pos (fun i => x i + h * m.invGamma * uAt m i) i
      = mirror3.pos x i + h * (mirror3.mom m).invGamma * uAt (mirror3.mom m) i := by
    intro x m h i
    match i with
    | 0 => show -(x 0 + h * m.invGamma * m.ux) = -x 0 + h * m.invGamma * -m.ux; ring
    | 1 => rfl
    | 2 => rfl
  refine ⟨rfl, fun u w => v3_ext (fun _ => neg_add _ _) (fun _ => rfl) (fun _ => rfl),
    fun u w => v3_ext (fun _ => rfl) (fun _ => neg_add _ _) (fun _ => neg_add _ _), ?_, ?_, ?_, ?_⟩
  · intro h b j
    refine v3_ext (fun c => ?_) (fun c => ?_) (fun c => ?_)
    · show h * c2 * ((-b 2 ![-c 0 - 1, c 1, c 2] - -b 2 ![-dn 1 c 0 - 1, dn 1 c 1, dn 1 c 2]) / d 1 - (-b 1 ![-c 0 - 1, c 1, c 2] - -b 1 ![-dn 2 c 0 - 1, dn 2 c 1, dn 2 c 2]) / d 2) - h / eps0 * -j 0 ![-c 0 - 1, c 1, c 2]
        = -(h * c2 * ((b 2 ![-c 0 - 1, c 1, c 2] - b 2 (dn 1 ![-c 0 - 1, c 1, c 2])) / d 1 - (b 1 ![-c 0 - 1, c 1, c 2] - b 1 (dn 2 ![-c 0 - 1, c 1, c 2])) / d 2) - h / eps0 * j 0 ![-c 0 - 1, c 1, c 2])
      rw [m3_dn1', m3_dn2']; ring
    · show h * c2 * ((b 0 ![-c 0, c 1, c 2] - b 0 ![-dn 2 c 0, dn 2 c 1, dn 2 c 2]) / d 2 - (-b 2 ![-c 0 - 1, c 1, c 2] - -b 2 ![-dn 0 c 0 - 1, dn 0 c 1, dn 0 c 2]) / d 0) - h / eps0 * j 1 ![-c 0, c 1, c 2]
        = (h * c2 * ((b 0 ![-c 0, c 1, c 2] - b 0 (dn 2 ![-c 0, c 1, c 2])) / d 2 - (b 2 ![-c 0, c 1, c 2] - b 2 (dn 0 ![-c 0, c 1, c 2])) / d 0) - h / eps0 * j 1 ![-c 0, c 1, c 2])
      rw [m3_dn2, m3_dn0', m3_dn]; ring
    · show h * c2 * ((-b 1 ![-c 0 - 1, c 1, c 2] - -b 1 ![-dn 0 c 0 - 1, dn 0 c 1, dn 0 c 2]) / d 0 - (b 0 ![-c 0, c 1, c 2] - b 0 ![-dn 1 c 0, dn 1 c 1, dn 1 c 2]) / d 1) - h / eps0 * j 2 ![-c 0, c 1, c 2]
        = (h * c2 * ((b 1 ![-c 0, c 1, c 2] - b 1 (dn 0 ![-c 0, c 1, c 2])) / d 0 - (b 0 ![-c 0, c 1, c 2] - b 0 (dn 1 ![-c 0, c 1, c 2])) / d 1) - h / eps0 * j 2 ![-c 0, c 1, c 2])
      rw [m3_dn0', m3_dn, m3_dn1]; ring
  · intro h e
    refine v3_ext (fun c => ?_) (fun c => ?_) (fun c => ?_)
    · show -(h * ((e 2 ![-up 1 c 0, up 1 c 1, up 1 c 2] - e 2 ![-c 0, c 1, c 2]) / d 1 - (e 1 ![-up 2 c 0, up 2 c 1, up 2 c 2] - e 1 ![-c 0, c 1, c 2]) / d 2))
        = -(h * ((e 2 (up 1 ![-c 0, c 1, c 2]) - e 2 ![-c 0, c 1, c 2]) / d 1 - (e 1 (up 2 ![-c 0, c 1, c 2]) - e 1 ![-c 0, c 1, c 2]) / d 2))
      rw [m3_up1, m3_up2]
    · show -(h * ((-e 0 ![-up 2 c 0 - 1, up 2 c 1, up 2 c 2] - -e 0 ![-c 0 - 1, c 1, c 2]) / d 2 - (e 2 ![-up 0 c 0, up 0 c 1, up 0 c 2] - e 2 ![-c 0, c 1, c 2]) / d 0))
        = - -(h * ((e 0 (up 2 ![-c 0 - 1, c 1, c 2]) - e 0 ![-c 0 - 1, c 1, c 2]) / d 2 - (e 2 (up 0 ![-c 0 - 1, c 1, c 2]) - e 2 ![-c 0 - 1, c 1, c 2]) / d 0))
      rw [m3_up2', m3_up, m3_up0]; ring
    · show -(h * ((e 1 ![-up 0 c 0, up 0 c 1, up 0 c 2] - e 1 ![-c 0, c 1, c 2]) / d 0 - (-e 0 ![-up 1 c 0 - 1, up 1 c 1, up 1 c 2] - -e 0 ![-c 0 - 1, c 1, c 2]) / d 1))
        = - -(h * ((e 1 (up 0 ![-c 0 - 1, c 1, c 2]) - e 1 ![-c 0 - 1, c 1, c 2]) / d 0 - (e 0 (up 1 ![-c 0 - 1, c 1, c 2]) - e 0 ![-c 0 - 1, c 1, c 2]) / d 1))
      rw [m3_up, m3_up0, m3_up1']; ring
  · refine push_mom rfl hx (fun f => ⟨-f.ex, f.ey, f.ez, f.bx, -f.by', -f.bz⟩) ?_ ?_
    · intro G x
      show see3 d (mirror3.fields G) (mirror3.pos x) = ⟨-(see3 d G x).ex, (see3 d G x).ey, (see3 d G x).ez,
        (see3 d G x).bx, -(see3 d G x).by', -(see3 d G x).bz⟩
      unfold see3
      dsimp only
      show EB.mk (sample3 (1 / 2) 0 0 (-x 0 / d 0) (x 1 / d 1) (x 2 / d 2) fun m n l => -G.e 0 ![-m - 1, n, l])
        (sample3 0 (1 / 2) 0 (-x 0 / d 0) (x 1 / d 1) (x 2 / d 2) fun m n l => G.e 1 ![-m, n, l])
        (sample3 0 0 (1 / 2) (-x 0 / d 0) (x 1 / d 1) (x 2 / d 2) fun m n l => G.e 2 ![-m, n, l])
        (sample3 0 (1 / 2) (1 / 2) (-x 0 / d 0) (x 1 / d 1) (x 2 / d 2) fun m n l => G.b 0 ![-m, n, l])
        (sample3 (1 / 2) 0 (1 / 2) (-x 0 / d 0) (x 1 / d 1) (x 2 / d 2) fun m n l => -G.b 1 ![-m - 1, n, l])
        (sample3 (1 / 2) (1 / 2) 0 (-x 0 / d 0) (x 1 / d 1) (x 2 / d 2) fun m n l => -G.b 2 ![-m - 1, n, l]) = _
      simp only [sample3_neg', neg_div]
      unfold sample3
      simp only [sample_refl0, sample_refl1, neg_neg, show ∀ m : ℤ, -(-m - 1) - 1 = m from fun m => by ring]
    · intro κ f m
      exact congrArg (fun r : Mo ℚ => (⟨r.ux, r.uy, r.uz, r.ig, m.w⟩ : Mom)) (boris_mirror rs _ _ ⟨f.ex, f.ey, f.ez, f.bx, f.by', f.bz⟩
        ⟨m.ux, m.uy, m.uz, m.invGamma⟩).symm
  · intro cl hs
    have hv : ∀ m : Mom, (mirror3.mom m).vx = -m.vx := fun m => by
      show -m.ux * lightSpeed * m.invGamma = -(m.ux * lightSpeed * m.invGamma); ring
    have hs' : Slow d dt (mirror3.cloud cl) := by
      refine slow_view (fun m h i => ?_) hs
      match i with
      | 0 => show |(mirror3.mom m).vx * dt| ≤ d 0; rw [hv, neg_mul, abs_neg]; exact h 0
      | 1 => exact h 1
      | 2 => exact h 2
    have hN0 : 0 < N 0 := lt_of_lt_of_le (by decide) (hN 0)
    have H := cur_view3 (T := mirror3) hN hN hd hd hdt hs hs'
    refine v3_ext (fun c => (H (-1) 0 0 c ![-c 0 - 1, c 1, c 2] fun ⟨q, _⟩ p hp => ?_).trans (neg_one_mul _))
      (fun c => (H 1 1 1 c ![-c 0, c 1, c 2] fun ⟨q, _⟩ p hp => ?_).trans (one_mul _))
      (fun c => (H 1 2 2 c ![-c 0, c 1, c 2] fun ⟨q, _⟩ p hp => ?_).trans (one_mul _))
    · have e1 := lc_refl hN0 (hd 0) (dt := dt) (x := p.pos 0) (v := p.mom.vx) (hp 0) (c 0)
      show -(q * p.mom.w / (d 0 * d 1 * d 2) / dt * d 0) * (lc (N 0) (d 0) dt (-p.pos 0) (mirror3.mom p.mom).vx (c 0) * _)
        = -1 * (-(q * p.mom.w / (d 0 * d 1 * d 2) / dt * d 0) * (lc (N 0) (d 0) dt (p.pos 0) p.mom.vx (-c 0 - 1) * _))
      rw [hv, e1]
      exact neg_helper _ _ _
    · have e1 := l0_refl hN0 (d := d 0) dt (p.pos 0) p.mom.vx (c 0)
      have e2 := l1_refl hN0 (hd 0) (dt := dt) (x := p.pos 0) (v := p.mom.vx) (hp 0) (c 0)
      rw [one_mul]
      show _ * (_ * tw (l0 (N 0) (d 0) dt (-p.pos 0) (mirror3.mom p.mom).vx (c 0)) (l1 (N 0) (d 0) dt (-p.pos 0) (mirror3.mom p.mom).vx (c 0)) _ _) = _
      rw [hv, e1, e2]
      rfl
    · have e1 := l0_refl hN0 (d := d 0) dt (p.pos 0) p.mom.vx (c 0)
      have e2 := l1_refl hN0 (hd 0) (dt := dt) (x := p.pos 0) (v := p.mom.vx) (hp 0) (c 0)
      rw [one_mul]
      show _ * (_ * tw (l0 (N 0) (d 0) dt (-p.pos 0) (mirror3.mom p.mom).vx (c 0)) (l1 (N 0) (d 0) dt (-p.pos 0) (mirror3.mom p.mom).vx (c 0)) _ _) = _
      rw [hv, e1, e2]
      rfl

/-! ### moves by whole cells, the sign of the charges -/

theorem respects_move3 (z : Fin 3 → Int) : Respects (move d z) (phys3 N d c2 eps0 dt rs) (phys3 N d c2 eps0 dt rs) d := by
  have hx : ∀ x m h i, (move d z).pos (fun i => x i + h * m.invGamma * uAt m i) i
      = (move d z).pos x i + h * ((move d z).mom m).invGamma * uAt ((move d z).mom m) i := by
    intro x m h i
    show x i + h * m.invGamma * uAt m i + z i * d i = x i + z i * d i + h * m.invGamma * uAt m i
    ring
  refine ⟨rfl, fun u w => rfl, fun u w => rfl, ?_, ?_, ?_, ?_⟩
  · intro h b j
    have e0 := move_dn z 0
    have e1 := move_dn z 1
    have e2 := move_dn z 2
    refine v3_ext (fun c => ?_) (fun c => ?_) (fun c => ?_)
    · show h * c2 * ((b 2 _ - b 2 fun x => dn 1 c x - z x) / d 1 - (b 1 _ - b 1 fun x => dn 2 c x - z x) / d 2) - _ = _
      rw [e1, e2]; rfl
    · show h * c2 * ((b 0 _ - b 0 fun x => dn 2 c x - z x) / d 2 - (b 2 _ - b 2 fun x => dn 0 c x - z x) / d 0) - _ = _
      rw [e2, e0]; rfl
    · show h * c2 * ((b 1 _ - b 1 fun x => dn 0 c x - z x) / d 0 - (b 0 _ - b 0 fun x => dn 1 c x - z x) / d 1) - _ = _
      rw [e0, e1]; rfl
  · intro h e
    have e0 := move_up z 0
    have e1 := move_up z 1
    have e2 := move_up z 2
    refine v3_ext (fun c => ?_) (fun c => ?_) (fun c => ?_)
    · show -(h * ((e 2 (fun x => up 1 c x - z x) - _) / d 1 - (e 1 (fun x => up 2 c x - z x) - _) / d 2)) = _
      rw [e1, e2]; rfl
    · show -(h * ((e 0 (fun x => up 2 c x - z x) - _) / d 2 - (e 2 (fun x => up 0 c x - z x) - _) / d 0)) = _
      rw [e2, e0]; rfl
    · show -(h * ((e 1 (fun x => up 0 c x - z x) - _) / d 0 - (e 0 (fun x => up 1 c x - z x) - _) / d 1)) = _
      rw [e0, e1]; rfl
  · refine push_mom rfl hx id ?_ (fun _ _ _ => rfl)
    intro G x
    have e : ∀ i, (x i + z i * d i) / d i = x i / d i + z i := fun i => by
      have := (hd i).ne'
      field_simp
    have ec : ∀ m n l : ℤ, (fun a => (![m + z 0, n + z 1, l + z 2] : Fin 3 → Int) a - z a) = ![m, n, l] := fun m n l => by
      funext a; fin_cases a
      · show m + z 0 - z 0 = m; ring
      · show n + z 1 - z 1 = n; ring
      · show l + z 2 - z 2 = l; ring
    show EB.mk (sample3 _ _ _ ((x 0 + z 0 * d 0) / d 0) ((x 1 + z 1 * d 1) / d 1) ((x 2 + z 2 * d 2) / d 2) fun m n l => G.e 0 fun a => (![m, n, l] : Fin 3 → Int) a - z a)
      (sample3 _ _ _ ((x 0 + z 0 * d 0) / d 0) ((x 1 + z 1 * d 1) / d 1) ((x 2 + z 2 * d 2) / d 2) fun m n l => G.e 1 fun a => (![m, n, l] : Fin 3 → Int) a - z a)
      (sample3 _ _ _ ((x 0 + z 0 * d 0) / d 0) ((x 1 + z 1 * d 1) / d 1) ((x 2 + z 2 * d 2) / d 2) fun m n l => G.e 2 fun a => (![m, n, l] : Fin 3 → Int) a - z a)
      (sample3 _ _ _ ((x 0 + z 0 * d 0) / d 0) ((x 1 + z 1 * d 1) / d 1) ((x 2 + z 2 * d 2) / d 2) fun m n l => G.b 0 fun a => (![m, n, l] : Fin 3 → Int) a - z a)
      (sample3 _ _ _ ((x 0 + z 0 * d 0) / d 0) ((x 1 + z 1 * d 1) / d 1) ((x 2 + z 2 * d 2) / d 2) fun m n l => G.b 1 fun a => (![m, n, l] : Fin 3 → Int) a - z a)
      (sample3 _ _ _ ((x 0 + z 0 * d 0) / d 0) ((x 1 + z 1 * d 1) / d 1) ((x 2 + z 2 * d 2) / d 2) fun m n l => G.b 2 fun a => (![m, n, l] : Fin 3 → Int) a - z a) = _
    simp only [e, sample3_add, ec]
    rfl
  · intro cl hs
    have hp : ∀ a, 0 < N a := fun a => lt_of_lt_of_le (by decide) (hN a)
    have H := cur_view3 (T := move d z) hN hN hd hd hdt hs (slow_view (T := move d z) (d := d) (fun m h i => h i) hs)
    have key : ∀ f c, cur3 N d dt ((move d z).cloud cl) f c = cur3 N d dt cl f fun a => c a - z a := by
      intro f c
      refine (H 1 f f c (fun a => c a - z a) fun ⟨q, _⟩ p _ => ?_).trans (one_mul _)
      have m0 : ∀ i v, l0 (N i) (d i) dt (p.pos i + z i * d i) v (c i) = l0 (N i) (d i) dt (p.pos i) v (c i - z i) :=
        fun i v => l0_move (hp i) (hd i) dt (p.pos i) v (z i) (c i)
      have m1 : ∀ i v, l1 (N i) (d i) dt (p.pos i + z i * d i) v (c i) = l1 (N i) (d i) dt (p.pos i) v (c i - z i) :=
        fun i v => l1_move (hp i) (hd i) dt (p.pos i) v (z i) (c i)
      have mc : ∀ i v, lc (N i) (d i) dt (p.pos i + z i * d i) v (c i) = lc (N i) (d i) dt (p.pos i) v (c i - z i) :=
        fun i v => lc_move (hp i) (hd i) dt (p.pos i) v (z i) (c i)
      rw [one_mul]
      unfold j3
      dsimp only
      rw [show ((move d z).ptc p).pos = fun a => p.pos a + z a * d a from rfl, show ((move d z).ptc p).mom = p.mom from rfl]
      dsimp only
      simp only [m0, m1, mc]
      rfl
    funext f c
    exact key f c

theorem respects_charge3 : Respects charge (phys3 N d c2 eps0 dt rs) (phys3 N d c2 eps0 dt rs) d := by
  refine ⟨rfl, fun u w => by funext f c; exact neg_add _ _, fun u w => by funext f c; exact neg_add _ _, ?_, ?_, ?_, ?_⟩
  · intro h b j
    refine v3_ext (fun c => ?_) (fun c => ?_) (fun c => ?_)
    · show h * c2 * ((-b 2 c - -b 2 (dn 1 c)) / d 1 - (-b 1 c - -b 1 (dn 2 c)) / d 2) - h / eps0 * -j 0 c
        = -(h * c2 * ((b 2 c - b 2 (dn 1 c)) / d 1 - (b 1 c - b 1 (dn 2 c)) / d 2) - h / eps0 * j 0 c)
      ring
    · show h * c2 * ((-b 0 c - -b 0 (dn 2 c)) / d 2 - (-b 2 c - -b 2 (dn 0 c)) / d 0) - h / eps0 * -j 1 c
        = -(h * c2 * ((b 0 c - b 0 (dn 2 c)) / d 2 - (b 2 c - b 2 (dn 0 c)) / d 0) - h / eps0 * j 1 c)
      ring
    · show h * c2 * ((-b 1 c - -b 1 (dn 0 c)) / d 0 - (-b 0 c - -b 0 (dn 1 c)) / d 1) - h / eps0 * -j 2 c
        = -(h * c2 * ((b 1 c - b 1 (dn 0 c)) / d 0 - (b 0 c - b 0 (dn 1 c)) / d 1) - h / eps0 * j 2 c)
      ring
  · intro h e
    refine v3_ext (fun c => ?_) (fun c => ?_) (fun c => ?_)
    · show -(h * ((-e 2 (up 1 c) - -e 2 c) / d 1 - (-e 1 (up 2 c) - -e 1 c) / d 2))
        = - -(h * ((e 2 (up 1 c) - e 2 c) / d 1 - (e 1 (up 2 c) - e 1 c) / d 2))
      ring
    · show -(h * ((-e 0 (up 2 c) - -e 0 c) / d 2 - (-e 2 (up 0 c) - -e 2 c) / d 0))
        = - -(h * ((e 0 (up 2 c) - e 0 c) / d 2 - (e 2 (up 0 c) - e 2 c) / d 0))
      ring
    · show -(h * ((-e 1 (up 0 c) - -e 1 c) / d 0 - (-e 0 (up 1 c) - -e 0 c) / d 1))
        = - -(h * ((e 1 (up 0 c) - e 1 c) / d 0 - (e 0 (up 1 c) - e 0 c) / d 1))
      ring
  · refine push_mom rfl (fun _ _ _ _ => rfl) (fun f => ⟨-f.ex, -f.ey, -f.ez, -f.bx, -f.by', -f.bz⟩) ?_ ?_
    · intro G x
      show EB.mk (sample3 _ _ _ _ _ _ fun m n l => -G.e 0 ![m, n, l])
        (sample3 _ _ _ _ _ _ fun m n l => -G.e 1 ![m, n, l])
        (sample3 _ _ _ _ _ _ fun m n l => -G.e 2 ![m, n, l])
        (sample3 _ _ _ _ _ _ fun m n l => -G.b 0 ![m, n, l])
        (sample3 _ _ _ _ _ _ fun m n l => -G.b 1 ![m, n, l])
        (sample3 _ _ _ _ _ _ fun m n l => -G.b 2 ![m, n, l]) = _
      simp only [sample3_neg']
      rfl
    · intro κ f m
      have e := boris_charge rs (κ.q * dt / (2 * κ.m * lightSpeed)) (κ.q * dt / (2 * κ.m)) ⟨f.ex, f.ey, f.ez, f.bx, f.by', f.bz⟩
        ⟨m.ux, m.uy, m.uz, m.invGamma⟩
      rw [show -(κ.q * dt / (2 * κ.m * lightSpeed)) = -κ.q * dt / (2 * κ.m * lightSpeed) by ring,
        show -(κ.q * dt / (2 * κ.m)) = -κ.q * dt / (2 * κ.m) by ring] at e
      exact congrArg (fun r : Mo ℚ => (⟨r.ux, r.uy, r.uz, r.ig, m.w⟩ : Mom)) e.symm
  · intro cl hs
    have H := cur_view3 (T := charge) hN hN hd hd hdt hs (slow_view (T := charge) (d := d) (fun m h i => h i) hs)
    have key : ∀ f c, cur3 N d dt (charge.cloud cl) f c = -cur3 N d dt cl f c := by
      intro f c
      refine (H (-1) f f c c fun ⟨q, _⟩ p _ => ?_).trans (neg_one_mul _)
      show j3 N d dt (-q) p f c = -1 * j3 N d dt q p f c
      unfold j3
      match f with
      | 0 => dsimp only; ring
      | 1 => dsimp only; ring
      | 2 => dsimp only; ring
    funext f c
    exact key f c
end
end Verif.Symmetry
