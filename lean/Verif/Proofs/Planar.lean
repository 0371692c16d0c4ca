import Verif.Spec.Planar
import Verif.Proofs.Matter
/-!
# Lemmas for C103: a 3D step of a problem that does not depend on z is the 2D step
-/
namespace Verif.Planar
open Verif.Maxwell Verif.Pusher Verif.Deposit Verif.Shape Verif.WholeRun Verif.PicStep Verif.Symmetry Verif.Matter
open Finset (range)

/-! ## fields -/

/-- a vector field drawn out along z -/
def ext (A : V3 2) : V3 3 := fun f c => A f (flat c)
/-- fields drawn out along z -/
def extF (G : GF 2) : GF 3 := ⟨ext G.e, ext G.b, ext G.j⟩

theorem flat_dn0 (c : Fin 3 → Int) : flat (dn 0 c) = dn 0 (flat c) := by
  funext a; match a with | 0 => rfl | 1 => rfl
theorem flat_dn1 (c : Fin 3 → Int) : flat (dn 1 c) = dn 1 (flat c) := by
  funext a; match a with | 0 => rfl | 1 => rfl
theorem flat_dn2 (c : Fin 3 → Int) : flat (dn 2 c) = flat c := by
  funext a; match a with | 0 => rfl | 1 => rfl
theorem flat_up0 (c : Fin 3 → Int) : flat (up 0 c) = up 0 (flat c) := by
  funext a; match a with | 0 => rfl | 1 => rfl
theorem flat_up1 (c : Fin 3 → Int) : flat (up 1 c) = up 1 (flat c) := by
  funext a; match a with | 0 => rfl | 1 => rfl
theorem flat_up2 (c : Fin 3 → Int) : flat (up 2 c) = flat c := by
  funext a; match a with | 0 => rfl | 1 => rfl

section
variable (d : Fin 3 → ℚ) (c2 eps0 : ℚ)

theorem yeeE_ext (h : ℚ) (b j : V3 2) : yeeE3 ⟨d, c2, eps0⟩ h (ext b) (ext j) = ext (yeeE2 ⟨flat d, c2, eps0⟩ h b j) := by
  refine v3_ext (fun c => ?_) (fun c => ?_) (fun c => ?_)
  · show h * c2 * ((b 2 (flat c) - b 2 (flat (dn 1 c))) / d 1 - (b 1 (flat c) - b 1 (flat (dn 2 c))) / d 2) - h / eps0 * j 0 (flat c)
      = h * c2 * ((b 2 (flat c) - b 2 (dn 1 (flat c))) / d 1) - h / eps0 * j 0 (flat c)
    rw [flat_dn1, flat_dn2]; ring
  · show h * c2 * ((b 0 (flat c) - b 0 (flat (dn 2 c))) / d 2 - (b 2 (flat c) - b 2 (flat (dn 0 c))) / d 0) - h / eps0 * j 1 (flat c)
      = h * c2 * (-(b 2 (flat c) - b 2 (dn 0 (flat c))) / d 0) - h / eps0 * j 1 (flat c)
    rw [flat_dn0, flat_dn2]; ring
  · show h * c2 * ((b 1 (flat c) - b 1 (flat (dn 0 c))) / d 0 - (b 0 (flat c) - b 0 (flat (dn 1 c))) / d 1) - h / eps0 * j 2 (flat c)
      = h * c2 * ((b 1 (flat c) - b 1 (dn 0 (flat c))) / d 0 - (b 0 (flat c) - b 0 (dn 1 (flat c))) / d 1) - h / eps0 * j 2 (flat c)
    rw [flat_dn0, flat_dn1]

theorem yeeB_ext (h : ℚ) (e : V3 2) : yeeB3 ⟨d, c2, eps0⟩ h (ext e) = ext (yeeB2 ⟨flat d, c2, eps0⟩ h e) := by
  refine v3_ext (fun c => ?_) (fun c => ?_) (fun c => ?_)
  · show -(h * ((e 2 (flat (up 1 c)) - e 2 (flat c)) / d 1 - (e 1 (flat (up 2 c)) - e 1 (flat c)) / d 2))
      = -(h * ((e 2 (up 1 (flat c)) - e 2 (flat c)) / d 1))
    rw [flat_up1, flat_up2]; ring
  · show -(h * ((e 0 (flat (up 2 c)) - e 0 (flat c)) / d 2 - (e 2 (flat (up 0 c)) - e 2 (flat c)) / d 0))
      = -(h * (-(e 2 (up 0 (flat c)) - e 2 (flat c)) / d 0))
    rw [flat_up0, flat_up2]; ring
  · show -(h * ((e 1 (flat (up 0 c)) - e 1 (flat c)) / d 0 - (e 0 (flat (up 1 c)) - e 0 (flat c)) / d 1))
      = -(h * ((e 1 (up 0 (flat c)) - e 1 (flat c)) / d 0 - (e 0 (up 1 (flat c)) - e 0 (flat c)) / d 1))
    rw [flat_up0, flat_up1]

theorem stepE_ext (h : ℚ) (G : GF 2) : (extF G).stepE (yeeE3 ⟨d, c2, eps0⟩) h = extF (G.stepE (yeeE2 ⟨flat d, c2, eps0⟩) h) := by
  unfold GF.stepE extF
  dsimp only
  rw [yeeE_ext]
  rfl
theorem stepB_ext (h : ℚ) (G : GF 2) : (extF G).stepB (yeeB3 ⟨d, c2, eps0⟩) h = extF (G.stepB (yeeB2 ⟨flat d, c2, eps0⟩) h) := by
  unfold GF.stepB extF
  dsimp only
  rw [yeeB_ext]
  rfl

theorem see_ext (G : GF 2) (x : Fin 3 → ℚ) : see3 d (extF G) x = see2 (flat d) G (flat x) := by
  have key : ∀ (sx sy sz X Y Z : ℚ) (A : Arr 2), sample3 sx sy sz X Y Z (fun m n l => A (flat ![m, n, l]))
      = sample2 sx sy X Y fun m n => A ![m, n] := by
    intro sx sy sz X Y Z A
    show sample sx X (fun m => sample sy Y fun n => sample sz Z fun _ => A ![m, n]) = _
    simp only [sample_const]
    rfl
  unfold see3 see2
  dsimp only
  show EB.mk (sample3 _ _ _ _ _ _ fun m n l => G.e 0 (flat ![m, n, l])) (sample3 _ _ _ _ _ _ fun m n l => G.e 1 (flat ![m, n, l]))
    (sample3 _ _ _ _ _ _ fun m n l => G.e 2 (flat ![m, n, l])) (sample3 _ _ _ _ _ _ fun m n l => G.b 0 (flat ![m, n, l]))
    (sample3 _ _ _ _ _ _ fun m n l => G.b 1 (flat ![m, n, l])) (sample3 _ _ _ _ _ _ fun m n l => G.b 2 (flat ![m, n, l])) = _
  simp only [key]
  rfl
end

/-! ## particles -/

section
variable (N : Fin 3 → Nat) (d : Fin 3 → ℚ) (c2 eps0 dt : ℚ) (rs : ℚ → ℚ)

theorem mid_ext (G : GF 2) : midField (phys3 N d c2 eps0 dt rs) (extF G) = extF (midField (phys2 (flat N) (flat d) c2 eps0 dt rs) G) := by
  unfold midField
  show ((extF G).stepE (yeeE3 ⟨d, c2, eps0⟩) _).stepB (yeeB3 ⟨d, c2, eps0⟩) _ = _
  rw [stepE_ext, stepB_ext]
  rfl

omit N d c2 eps0 dt rs in
theorem ptc_ext {k : Nat} {p q : Ptc k} (h : p.pos = q.pos) (h' : p.mom = q.mom) : p = q := by
  cases p; cases q; cases h; cases h'; rfl

/-- the new momentum, from the fields a particle sees -/
def kick (rs : ℚ → ℚ) (dt : ℚ) (κ : Kind) (f : EB) (m : Mom) : Mom :=
  let r := borisUnified rs lightSpeed κ.q κ.m dt ⟨f.ex, f.ey, f.ez, f.bx, f.by', f.bz⟩ ⟨m.ux, m.uy, m.uz, m.invGamma⟩
  ⟨r.ux, r.uy, r.uz, r.ig, m.w⟩

/-- the position after half a step -/
def half {k : Nat} (dt : ℚ) (p : Ptc k) : Fin k → ℚ := fun i => p.pos i + lightSpeed * (1 / 2) * dt * p.mom.invGamma * uAt p.mom i

theorem pushed_mom3 (κ : Kind) (G : GF 3) (p : Ptc 3) :
    (pushed (phys3 N d c2 eps0 dt rs) κ G p).mom = kick rs dt κ (see3 d G (half dt p)) p.mom := rfl
theorem pushed_mom2 (N : Fin 2 → Nat) (d : Fin 2 → ℚ) (κ : Kind) (G : GF 2) (p : Ptc 2) :
    (pushed (phys2 N d c2 eps0 dt rs) κ G p).mom = kick rs dt κ (see2 d G (half dt p)) p.mom := rfl

/-- a particle seen along z -/
def flatP (p : Ptc 3) : Ptc 2 := ⟨flat p.pos, p.mom⟩

theorem push_flat (κ : Kind) (G : GF 2) (p : Ptc 3) :
    flatP (pushed (phys3 N d c2 eps0 dt rs) κ (extF G) p) = pushed (phys2 (flat N) (flat d) c2 eps0 dt rs) κ G (flatP p) := by
  have hf : flat (half dt p) = half dt (flatP p) := by
    funext a
    match a with
    | 0 => rfl
    | 1 => rfl
  have hm : (pushed (phys3 N d c2 eps0 dt rs) κ (extF G) p).mom = (pushed (phys2 (flat N) (flat d) c2 eps0 dt rs) κ G (flatP p)).mom := by
    rw [pushed_mom3, pushed_mom2, see_ext, hf]
    rfl
  have hp : flat (pushed (phys3 N d c2 eps0 dt rs) κ (extF G) p).pos = (pushed (phys2 (flat N) (flat d) c2 eps0 dt rs) κ G (flatP p)).pos := by
    funext a
    rw [pushed_pos, ← hm]
    match a with
    | 0 => exact pushed_pos (phys3 N d c2 eps0 dt rs) κ (extF G) p 0
    | 1 => exact pushed_pos (phys3 N d c2 eps0 dt rs) κ (extF G) p 1
  exact ptc_ext hp hm

/-- a particle moved along z -/
def liftP (h : ℚ) (p : Ptc 3) : Ptc 3 := ⟨along h p.pos, p.mom⟩

theorem push_lift (κ : Kind) (G : GF 2) (h : ℚ) (p : Ptc 3) :
    pushed (phys3 N d c2 eps0 dt rs) κ (extF G) (liftP h p) = liftP h (pushed (phys3 N d c2 eps0 dt rs) κ (extF G) p) := by
  have f1 := push_flat N d c2 eps0 dt rs κ G p
  have f2 := push_flat N d c2 eps0 dt rs κ G (liftP h p)
  have e : flatP (liftP h p) = flatP p := by
    show (⟨flat (along h p.pos), p.mom⟩ : Ptc 2) = ⟨flat p.pos, p.mom⟩
    congr 1
  rw [e, ← f1] at f2
  have hm : (pushed (phys3 N d c2 eps0 dt rs) κ (extF G) (liftP h p)).mom = (pushed (phys3 N d c2 eps0 dt rs) κ (extF G) p).mom :=
    congrArg (fun q : Ptc 2 => q.mom) f2
  have hp : (pushed (phys3 N d c2 eps0 dt rs) κ (extF G) (liftP h p)).pos = along h (pushed (phys3 N d c2 eps0 dt rs) κ (extF G) p).pos := by
    funext a
    rw [pushed_pos, hm]
    match a with
    | 0 => exact (pushed_pos (phys3 N d c2 eps0 dt rs) κ (extF G) p 0).symm
    | 1 => exact (pushed_pos (phys3 N d c2 eps0 dt rs) κ (extF G) p 1).symm
    | 2 =>
      show p.pos 2 + h + _ + _ = (pushed _ κ (extF G) p).pos 2 + h
      rw [pushed_pos]
      show p.pos 2 + h + vel p.mom ((2 : Fin 3) : Nat) * _ / 2 + _ = _
      ring
  exact ptc_ext hp hm

theorem amount_map {k : Nat} (F : Kind → (Fin k → ℚ) → Motion → ℚ) (g : Kind → Ptc k → Ptc k) (H : Kind → (Fin k → ℚ) → Motion → ℚ)
    (hg : ∀ κ p, (g κ p).mom.w * F κ (g κ p).pos (motion (g κ p)) = p.mom.w * H κ p.pos (motion p)) (cl : List (Kind × List (Ptc k))) :
    amount F (cl.map fun s => (s.1, s.2.map (g s.1))) = amount H cl := by
  unfold amount
  rw [List.map_map]
  congr 1
  refine List.map_congr_left fun s _ => ?_
  show (List.map _ (s.2.map (g s.1))).sum = _
  rw [List.map_map]
  congr 1
  exact List.map_congr_left fun p _ => hg _ _

theorem unit_push {k : Nat} (Φ : Phys k) (κ : Kind) (G : GF k) (p : Ptc k) :
    (pushed Φ κ G (unitPtc p.pos (motion p))).pos = (pushed Φ κ G p).pos ∧
    motion (pushed Φ κ G (unitPtc p.pos (motion p))) = motion (pushed Φ κ G p) ∧ (pushed Φ κ G p).mom.w = p.mom.w := ⟨rfl, rfl, rfl⟩

/-- the push keeps matter drawn out -/
theorem push_drawn {np n : Fin 3 → Nat} (hd : ∀ a, 0 < d a) {G : GF 2} (hG : G.Per (flat np) (flat n)) {a : List (Kind × List (Ptc 2))}
    {b : List (Kind × List (Ptc 3))} (hE : (extF G).Per np n) (h : DrawnOut (len np n d) (d 2) a b) :
    DrawnOut (len np n d) (d 2) (a.map fun s => (s.1, s.2.map (pushed (phys2 (flat N) (flat d) c2 eps0 dt rs) s.1 G)))
      (b.map fun s => (s.1, s.2.map (pushed (phys3 N d c2 eps0 dt rs) s.1 (extF G)))) := by
  have hfl : flat (len np n d) = len (flat np) (flat n) (flat d) := by
    funext i; match i with | 0 => rfl | 1 => rfl
  have hd2 : ∀ a, 0 < flat d a := fun a => match a with | 0 => hd 0 | 1 => hd 1
  refine ⟨fun F hF => ?_, fun F hF => ?_⟩
  · -- moving along z and pushing commute
    have e1 : lifted (d 2) (b.map fun s => (s.1, s.2.map (pushed (phys3 N d c2 eps0 dt rs) s.1 (extF G))))
        = (lifted (d 2) b).map fun s => (s.1, s.2.map (pushed (phys3 N d c2 eps0 dt rs) s.1 (extF G))) := by
      unfold lifted
      rw [List.map_map, List.map_map]
      refine List.map_congr_left fun s _ => ?_
      show (s.1, List.map (liftP (d 2)) (List.map _ s.2)) = (s.1, List.map _ (List.map (liftP (d 2)) s.2))
      rw [List.map_map, List.map_map]
      congr 1
      exact List.map_congr_left fun p _ => (push_lift N d c2 eps0 dt rs s.1 G (d 2) p).symm
    rw [e1]
    have key := fun cl => amount_map F (fun κ => pushed (phys3 N d c2 eps0 dt rs) κ (extF G))
      (fun κ x u => F κ (pushed (phys3 N d c2 eps0 dt rs) κ (extF G) (unitPtc x u)).pos
        (motion (pushed (phys3 N d c2 eps0 dt rs) κ (extF G) (unitPtc x u)))) (fun _ _ => rfl) cl
    rw [key, key]
    refine h.even _ fun κ x u z => ?_
    have hm : (pushed (phys3 N d c2 eps0 dt rs) κ (extF G) (unitPtc (fun i => x i + z i * len np n d i) u)).mom
        = (pushed (phys3 N d c2 eps0 dt rs) κ (extF G) (unitPtc x u)).mom := by
      rw [pushed_mom3, pushed_mom3]
      have : see3 d (extF G) (half dt (unitPtc (fun i => x i + z i * len np n d i) u)) = see3 d (extF G) (half dt (unitPtc x u)) :=
        see_congr3 hd hE fun i => ⟨z i, add_right_comm _ _ _⟩
      rw [this]
      rfl
    have hx : (pushed (phys3 N d c2 eps0 dt rs) κ (extF G) (unitPtc (fun i => x i + z i * len np n d i) u)).pos
        = fun i => (pushed (phys3 N d c2 eps0 dt rs) κ (extF G) (unitPtc x u)).pos i + z i * len np n d i := by
      funext i
      rw [pushed_pos, pushed_pos, hm]
      show x i + z i * len np n d i + _ + _ = x i + _ + _ + _
      have : (unitPtc (fun i => x i + z i * len np n d i) u).mom = (unitPtc x u).mom := rfl
      rw [this]; ring
    have hm' : motion (pushed (phys3 N d c2 eps0 dt rs) κ (extF G) (unitPtc (fun i => x i + z i * len np n d i) u))
        = motion (pushed (phys3 N d c2 eps0 dt rs) κ (extF G) (unitPtc x u)) := by unfold motion; rw [hm]
    rw [hm', hx, hF]
  · -- seen along z, the 3D push is the 2D push
    have k3 := amount_map (fun κ (x : Fin 3 → ℚ) u => F κ (flat x) u) (fun κ => pushed (phys3 N d c2 eps0 dt rs) κ (extF G))
      (fun κ x u => F κ (pushed (phys2 (flat N) (flat d) c2 eps0 dt rs) κ G (unitPtc (flat x) u)).pos
        (motion (pushed (phys2 (flat N) (flat d) c2 eps0 dt rs) κ G (unitPtc (flat x) u)))) (fun κ p => by
          have e := push_flat N d c2 eps0 dt rs κ G p
          have e1 : flat (pushed (phys3 N d c2 eps0 dt rs) κ (extF G) p).pos = (pushed (phys2 (flat N) (flat d) c2 eps0 dt rs) κ G (flatP p)).pos :=
            congrArg (fun q : Ptc 2 => q.pos) e
          have e2 : (pushed (phys3 N d c2 eps0 dt rs) κ (extF G) p).mom = (pushed (phys2 (flat N) (flat d) c2 eps0 dt rs) κ G (flatP p)).mom :=
            congrArg (fun q : Ptc 2 => q.mom) e
          have e3 : motion (pushed (phys3 N d c2 eps0 dt rs) κ (extF G) p) = motion (pushed (phys2 (flat N) (flat d) c2 eps0 dt rs) κ G (flatP p)) := by
            unfold motion; rw [e2]
          rw [e1, e3]
          rfl) b
    have k2 := amount_map F (fun κ => pushed (phys2 (flat N) (flat d) c2 eps0 dt rs) κ G)
      (fun κ x u => F κ (pushed (phys2 (flat N) (flat d) c2 eps0 dt rs) κ G (unitPtc x u)).pos
        (motion (pushed (phys2 (flat N) (flat d) c2 eps0 dt rs) κ G (unitPtc x u)))) (fun _ _ => rfl) a
    rw [k3, k2]
    refine h.column (fun κ x u => F κ (pushed (phys2 (flat N) (flat d) c2 eps0 dt rs) κ G (unitPtc x u)).pos
        (motion (pushed (phys2 (flat N) (flat d) c2 eps0 dt rs) κ G (unitPtc x u)))) fun κ x u z => ?_
    rw [hfl] at hF ⊢
    have hm : (pushed (phys2 (flat N) (flat d) c2 eps0 dt rs) κ G (unitPtc (fun i => x i + z i * len (flat np) (flat n) (flat d) i) u)).mom
        = (pushed (phys2 (flat N) (flat d) c2 eps0 dt rs) κ G (unitPtc x u)).mom := by
      rw [pushed_mom2, pushed_mom2]
      have : see2 (flat d) G (half dt (unitPtc (fun i => x i + z i * len (flat np) (flat n) (flat d) i) u)) = see2 (flat d) G (half dt (unitPtc x u)) :=
        see_congr2 hd2 hG fun i => ⟨z i, add_right_comm _ _ _⟩
      rw [this]
      rfl
    have hx : (pushed (phys2 (flat N) (flat d) c2 eps0 dt rs) κ G (unitPtc (fun i => x i + z i * len (flat np) (flat n) (flat d) i) u)).pos
        = fun i => (pushed (phys2 (flat N) (flat d) c2 eps0 dt rs) κ G (unitPtc x u)).pos i + z i * len (flat np) (flat n) (flat d) i := by
      funext i
      rw [pushed_pos, pushed_pos, hm]
      show x i + z i * len (flat np) (flat n) (flat d) i + _ + _ = x i + _ + _ + _
      have : (unitPtc (fun i => x i + z i * len (flat np) (flat n) (flat d) i) u).mom = (unitPtc x u).mom := rfl
      rw [this]; ring
    have hm' : motion (pushed (phys2 (flat N) (flat d) c2 eps0 dt rs) κ G (unitPtc (fun i => x i + z i * len (flat np) (flat n) (flat d) i) u))
        = motion (pushed (phys2 (flat N) (flat d) c2 eps0 dt rs) κ G (unitPtc x u)) := by unfold motion; rw [hm]
    rw [hm', hx, hF]
end

/-! ## currents -/

theorem w0_sum {N : Nat} (hN : 0 < N) {o a : ℚ} (h : |a - o| ≤ 1) : ∑ c ∈ range N, w0 N o a (c : Int) = 1 := by
  rw [← (mkAxRef_ok h).sum0, ← Symmetry.sum_proj hN]
  refine Finset.sum_congr rfl fun c hc => ?_
  unfold w0
  rw [Int.emod_eq_of_lt (by omega) (by have := Finset.mem_range.mp hc; omega)]

theorem w1_sum {N : Nat} (hN : 0 < N) {o a : ℚ} (h : |a - o| ≤ 1) : ∑ c ∈ range N, w1 N o a (c : Int) = 1 := by
  rw [← (mkAxRef_ok h).sum1, ← Symmetry.sum_proj hN]
  refine Finset.sum_congr rfl fun c hc => ?_
  unfold w1
  rw [Int.emod_eq_of_lt (by omega) (by have := Finset.mem_range.mp hc; omega)]

/-- the weights along z add up to one, and the currents along z to the velocity -/
theorem line_sums {N : Nat} (hN : 0 < N) {d dt x v : ℚ} (hd : 0 < d) (h : |v * dt| ≤ d) :
    ∑ c ∈ range N, l0 N d dt x v (c : Int) = 1 ∧ ∑ c ∈ range N, l1 N d dt x v (c : Int) = 1 ∧
    ∑ c ∈ range N, lc N d dt x v (c : Int) = -(v * dt / d) := by
  have hn := near (x := x) hd h
  refine ⟨w0_sum hN hn, w1_sum hN hn, ?_⟩
  have := wc_sum hN hn
  unfold lc
  rw [this]
  ring

/-- currents of one particle, summed along z -/
theorem j3_column {N : Fin 3 → Nat} (hN : ∀ a, 0 < N a) {d : Fin 3 → ℚ} (hd : ∀ a, 0 < d a) {dt : ℚ} (hdt : dt ≠ 0) (q : ℚ) (p : Ptc 3)
    (hv : |p.mom.vz * dt| ≤ d 2) (f : Fin 3) (c : Fin 2 → Int) :
    ∑ l ∈ range (N 2), j3 N d dt q p f ![c 0, c 1, (l : Int)] = 1 / d 2 * j2 (flat N) (flat d) dt q (flatP p) f c := by
  obtain ⟨s0, s1, s2⟩ := line_sums (x := p.pos 2) (hN 2) (hd 2) hv
  have d2 := (hd 2).ne'
  have tsum : ∀ a0 a1 : ℚ, ∑ l ∈ range (N 2), tw a0 a1 (l0 (N 2) (d 2) dt (p.pos 2) p.mom.vz (l : Int)) (l1 (N 2) (d 2) dt (p.pos 2) p.mom.vz (l : Int))
      = 1 / 2 * (a0 + a1) := by
    intro a0 a1
    unfold tw
    rw [Finset.sum_add_distrib, Finset.sum_add_distrib, Finset.sum_add_distrib]
    simp only [← Finset.mul_sum, s0, s1]
    ring
  match f with
  | 0 =>
    show ∑ l ∈ range (N 2), -(q * p.mom.w / (d 0 * d 1 * d 2) / dt * d 0) * (lc (N 0) (d 0) dt (p.pos 0) p.mom.vx (c 0) *
        tw (l0 (N 1) (d 1) dt (p.pos 1) p.mom.vy (c 1)) (l1 (N 1) (d 1) dt (p.pos 1) p.mom.vy (c 1)) (l0 (N 2) (d 2) dt (p.pos 2) p.mom.vz (l : Int)) (l1 (N 2) (d 2) dt (p.pos 2) p.mom.vz (l : Int)))
      = 1 / d 2 * (-(q * p.mom.w / (d 0 * d 1) / dt * d 0) * (lc (N 0) (d 0) dt (p.pos 0) p.mom.vx (c 0) *
        (1 / 2 * (l0 (N 1) (d 1) dt (p.pos 1) p.mom.vy (c 1) + l1 (N 1) (d 1) dt (p.pos 1) p.mom.vy (c 1)))))
    rw [← Finset.mul_sum, ← Finset.mul_sum, tsum]
    have := (hd 0).ne'; have := (hd 1).ne'
    field_simp
  | 1 =>
    show ∑ l ∈ range (N 2), -(q * p.mom.w / (d 0 * d 1 * d 2) / dt * d 1) * (lc (N 1) (d 1) dt (p.pos 1) p.mom.vy (c 1) *
        tw (l0 (N 0) (d 0) dt (p.pos 0) p.mom.vx (c 0)) (l1 (N 0) (d 0) dt (p.pos 0) p.mom.vx (c 0)) (l0 (N 2) (d 2) dt (p.pos 2) p.mom.vz (l : Int)) (l1 (N 2) (d 2) dt (p.pos 2) p.mom.vz (l : Int)))
      = 1 / d 2 * (-(q * p.mom.w / (d 0 * d 1) / dt * d 1) *
        (1 / 2 * (l0 (N 0) (d 0) dt (p.pos 0) p.mom.vx (c 0) + l1 (N 0) (d 0) dt (p.pos 0) p.mom.vx (c 0)) * lc (N 1) (d 1) dt (p.pos 1) p.mom.vy (c 1)))
    rw [← Finset.mul_sum, ← Finset.mul_sum, tsum]
    have := (hd 0).ne'; have := (hd 1).ne'
    field_simp
  | 2 =>
    show ∑ l ∈ range (N 2), -(q * p.mom.w / (d 0 * d 1 * d 2) / dt * d 2) * (lc (N 2) (d 2) dt (p.pos 2) p.mom.vz (l : Int) *
        tw (l0 (N 0) (d 0) dt (p.pos 0) p.mom.vx (c 0)) (l1 (N 0) (d 0) dt (p.pos 0) p.mom.vx (c 0)) (l0 (N 1) (d 1) dt (p.pos 1) p.mom.vy (c 1)) (l1 (N 1) (d 1) dt (p.pos 1) p.mom.vy (c 1)))
      = 1 / d 2 * (q * p.mom.w / (d 0 * d 1) * p.mom.vz * (1 / 2 * (l0 (N 0) (d 0) dt (p.pos 0) p.mom.vx (c 0) + l1 (N 0) (d 0) dt (p.pos 0) p.mom.vx (c 0))
          * (1 / 2 * (l0 (N 1) (d 1) dt (p.pos 1) p.mom.vy (c 1) + l1 (N 1) (d 1) dt (p.pos 1) p.mom.vy (c 1))))
        + q * p.mom.w / (d 0 * d 1) * p.mom.vz * (1 / 12) * ((l1 (N 0) (d 0) dt (p.pos 0) p.mom.vx (c 0) - l0 (N 0) (d 0) dt (p.pos 0) p.mom.vx (c 0))
          * (l1 (N 1) (d 1) dt (p.pos 1) p.mom.vy (c 1) - l0 (N 1) (d 1) dt (p.pos 1) p.mom.vy (c 1))))
    rw [← Finset.mul_sum, ← Finset.sum_mul, s2]
    have := (hd 0).ne'; have := (hd 1).ne'
    unfold tw
    field_simp
    ring

theorem amount_congr {k : Nat} {F H : Kind → (Fin k → ℚ) → Motion → ℚ} {cl : List (Kind × List (Ptc k))}
    (h : ∀ s ∈ cl, ∀ p ∈ s.2, F s.1 p.pos (motion p) = H s.1 p.pos (motion p)) : amount F cl = amount H cl := by
  unfold amount
  congr 1
  refine List.map_congr_left fun s hs => ?_
  congr 1
  exact List.map_congr_left fun p hp => by rw [h s hs p hp]

theorem amount_zero {k : Nat} (cl : List (Kind × List (Ptc k))) : amount (fun _ _ _ => 0) cl = 0 := by
  unfold amount
  simp

theorem sum_add_list {α : Type*} (f g : α → ℚ) (l : List α) : (l.map fun a => f a + g a).sum = (l.map f).sum + (l.map g).sum := by
  induction l with
  | nil => simp
  | cons a l ih => simp only [List.map_cons, List.sum_cons, ih]; ring

theorem amount_add {k : Nat} (F H : Kind → (Fin k → ℚ) → Motion → ℚ) (cl : List (Kind × List (Ptc k))) :
    amount (fun κ x u => F κ x u + H κ x u) cl = amount F cl + amount H cl := by
  unfold amount
  simp only [mul_add, sum_add_list]

theorem amount_mul {k : Nat} (r : ℚ) (F : Kind → (Fin k → ℚ) → Motion → ℚ) (cl : List (Kind × List (Ptc k))) :
    amount (fun κ x u => r * F κ x u) cl = r * amount F cl := by
  unfold amount
  rw [← List.sum_map_mul_left]
  congr 1
  refine List.map_congr_left fun s _ => ?_
  rw [← List.sum_map_mul_left]
  congr 1
  exact List.map_congr_left fun p _ => by ring

theorem amount_sum {k : Nat} (N : Nat) (F : Nat → Kind → (Fin k → ℚ) → Motion → ℚ) (cl : List (Kind × List (Ptc k))) :
    amount (fun κ x u => ∑ l ∈ range N, F l κ x u) cl = ∑ l ∈ range N, amount (F l) cl := by
  induction N with
  | zero => simp only [Finset.sum_range_zero, amount_zero]
  | succ N ih => simp only [Finset.sum_range_succ]; rw [amount_add, ih]

/-- the currents of a particle one cell further along z are its currents one cell further -/
theorem j3_along {N : Fin 3 → Nat} (hN : ∀ a, 0 < N a) {d : Fin 3 → ℚ} (hd : ∀ a, 0 < d a) (dt q : ℚ) (x : Fin 3 → ℚ) (u : Motion) (f : Fin 3)
    (c0 c1 l : Int) : j3 N d dt q (unitPtc (along (d 2) x) u) f ![c0, c1, l + 1] = j3 N d dt q (unitPtc x u) f ![c0, c1, l] := by
  have e : x 2 + d 2 = x 2 + ((1 : Int) : ℚ) * d 2 := by push_cast; ring
  have h0 := fun v => l0_move (hN 2) (hd 2) dt (x 2) v 1 (l + 1)
  have h1 := fun v => l1_move (hN 2) (hd 2) dt (x 2) v 1 (l + 1)
  have hc := fun v => lc_move (hN 2) (hd 2) dt (x 2) v 1 (l + 1)
  rw [← e] at h0 h1 hc
  rw [add_sub_cancel_right] at h0 h1 hc
  have p0 : (unitPtc (along (d 2) x) u).pos 0 = x 0 := rfl
  have p1 : (unitPtc (along (d 2) x) u).pos 1 = x 1 := rfl
  have p2 : (unitPtc (along (d 2) x) u).pos 2 = x 2 + d 2 := rfl
  have m : (unitPtc (along (d 2) x) u).mom = (unitPtc x u).mom := rfl
  have z : (![c0, c1, l + 1] : Fin 3 → Int) 2 = l + 1 := rfl
  have z' : (![c0, c1, l] : Fin 3 → Int) 2 = l := rfl
  unfold j3
  dsimp only
  rw [p0, p1, p2, m, z, z', h0, h1, hc]
  rfl

/-- the currents of drawn out matter are drawn out -/
theorem cur_drawn {np n : Fin 3 → Nat} (hN : ∀ a, 2 ≤ np a * n a) {d : Fin 3 → ℚ} (hd : ∀ a, 0 < d a) {dt : ℚ} (hdt : dt ≠ 0)
    {a : List (Kind × List (Ptc 2))} {b : List (Kind × List (Ptc 3))} (ha : Slow (flat d) dt a) (hb : Slow d dt b)
    (h : DrawnOut (len np n d) (d 2) a b) :
    cur3 (fun a => np a * n a) d dt b = ext (cur2 (flat fun a => np a * n a) (flat d) dt a) := by
  have hN' : ∀ a, 0 < np a * n a := fun a => lt_of_lt_of_le (by omega) (hN a)
  have hN2 : ∀ a, 0 < flat np a * flat n a := fun a => match a with | 0 => hN' 0 | 1 => hN' 1
  have hd2 : ∀ a, 0 < flat d a := fun a => match a with | 0 => hd 0 | 1 => hd 1
  have eN : (flat fun a => np a * n a) = fun a => flat np a * flat n a := by funext a; match a with | 0 => rfl | 1 => rfl
  have hfl : flat (len np n d) = len (flat np) (flat n) (flat d) := by funext i; match i with | 0 => rfl | 1 => rfl
  funext f c
  show _ = cur2 _ (flat d) dt a f (flat c)
  rw [cur_total3 hN hd hdt hb, eN, cur_total2 hN2 hd2 hdt ha, total_amount fun q p => j3_unit _ d dt q p f c,
    total_amount fun q p => j2_unit _ (flat d) dt q p f (flat c)]
  have next : ∀ l : Int, amount (fun κ x u => j3 (fun a => np a * n a) d dt κ.q (unitPtc x u) f ![c 0, c 1, l]) b
      = amount (fun κ x u => j3 (fun a => np a * n a) d dt κ.q (unitPtc x u) f ![c 0, c 1, l + 1]) b := by
    intro l
    have e := h.even (fun κ x u => j3 (fun a => np a * n a) d dt κ.q (unitPtc x u) f ![c 0, c 1, l + 1])
      fun κ x u z => j3_shift hN' hd dt κ.q x (unitPtc x u).mom z f _
    rw [← e]
    exact (amount_map (fun κ x u => j3 (fun a => np a * n a) d dt κ.q (unitPtc x u) f ![c 0, c 1, l + 1]) (fun _ => liftP (d 2))
      (fun κ x u => j3 (fun a => np a * n a) d dt κ.q (unitPtc x u) f ![c 0, c 1, l])
      (fun κ p => by
        show p.mom.w * j3 (fun a => np a * n a) d dt κ.q (unitPtc (along (d 2) p.pos) (motion p)) f ![c 0, c 1, l + 1] = _
        rw [j3_along hN' hd]) b).symm
  have all : ∀ l : Int, amount (fun κ x u => j3 (fun a => np a * n a) d dt κ.q (unitPtc x u) f ![c 0, c 1, l]) b
      = amount (fun κ x u => j3 (fun a => np a * n a) d dt κ.q (unitPtc x u) f ![c 0, c 1, 0]) b := by
    intro l
    induction l using Int.induction_on with
    | zero => rfl
    | succ i ih => rw [← next]; exact ih
    | pred i ih => rw [next, sub_add_cancel]; exact ih
  have ec : (![c 0, c 1, c 2] : Fin 3 → Int) = c := by funext i; match i with | 0 => rfl | 1 => rfl | 2 => rfl
  have hc := all (c 2)
  rw [ec] at hc
  have hsum : ((np 2 * n 2 : Nat) : ℚ) * amount (fun κ x u => j3 (fun a => np a * n a) d dt κ.q (unitPtc x u) f c) b
      = amount (fun κ x u => ∑ l ∈ range (np 2 * n 2), j3 (fun a => np a * n a) d dt κ.q (unitPtc x u) f ![c 0, c 1, (l : Int)]) b := by
    rw [amount_sum]
    simp only [all]
    rw [Finset.sum_const, Finset.card_range, nsmul_eq_mul, hc]
  have hcol : amount (fun κ x u => ∑ l ∈ range (np 2 * n 2), j3 (fun a => np a * n a) d dt κ.q (unitPtc x u) f ![c 0, c 1, (l : Int)]) b
      = amount (fun κ x u => 1 / d 2 * j2 (fun a => flat np a * flat n a) (flat d) dt κ.q (unitPtc (flat x) u) f (flat c)) b := by
    refine amount_congr fun s hs p hp => ?_
    have := j3_column (N := fun a => np a * n a) hN' hd hdt s.1.q (unitPtc p.pos (motion p)) (hb s hs p hp 2) f (flat c)
    rw [eN] at this
    exact this
  have key := h.column (fun κ x u => 1 / d 2 * j2 (fun a => flat np a * flat n a) (flat d) dt κ.q (unitPtc x u) f (flat c)) fun κ x u z => by
    rw [hfl]
    exact congrArg (1 / d 2 * ·) (j2_shift hN2 hd2 dt κ.q x (unitPtc x u).mom z f _)
  rw [← hcol, ← hsum, amount_mul] at key
  have hL : len np n d 2 * (1 / d 2) = ((np 2 * n 2 : Nat) : ℚ) := by
    have := (hd 2).ne'
    unfold len
    push_cast
    field_simp
  rw [← mul_assoc, hL] at key
  have hpos : ((np 2 * n 2 : Nat) : ℚ) ≠ 0 := by exact_mod_cast (hN' 2).ne'
  exact mul_left_cancel₀ hpos key

/-! ## steps -/

theorem per_ext {np n : Fin 3 → Nat} {G : GF 2} (h : G.Per (flat np) (flat n)) : (extF G).Per np n :=
  ⟨fun f v w hvw => h.e f _ _ fun a => match a with | 0 => hvw 0 | 1 => hvw 1,
    fun f v w hvw => h.b f _ _ fun a => match a with | 0 => hvw 0 | 1 => hvw 1,
    fun f v w hvw => h.j f _ _ fun a => match a with | 0 => hvw 0 | 1 => hvw 1⟩

theorem fields_ext {L : Fin 3 → ℚ} {dz : ℚ} {V : World 2} {W : World 3} (h : Planar L dz V W) : W.fld = extF V.fld := by
  obtain ⟨⟨e, b, j⟩, cl⟩ := W
  have he : e = ext V.fld.e := funext fun f => funext fun c => (h.fields f c).1
  have hb : b = ext V.fld.b := funext fun f => funext fun c => (h.fields f c).2.1
  have hj : j = ext V.fld.j := funext fun f => funext fun c => (h.fields f c).2.2
  rw [he, hb, hj]
  rfl

theorem planar_step {np n : Fin 3 → Nat} (hN : ∀ a, 2 ≤ np a * n a) {d : Fin 3 → ℚ} (hd : ∀ a, 0 < d a) {c2 eps0 dt : ℚ} (hdt : dt ≠ 0)
    {rs : ℚ → ℚ} {V : World 2} {W : World 3} (hper : V.fld.Per (flat np) (flat n)) (h : Planar (len np n d) (d 2) V W)
    (hV : Slow (flat d) dt (V.step (phys2 (flat fun a => np a * n a) (flat d) c2 eps0 dt rs)).cloud)
    (hW : Slow d dt (W.step (phys3 (fun a => np a * n a) d c2 eps0 dt rs)).cloud) :
    Planar (len np n d) (d 2) (V.step (phys2 (flat fun a => np a * n a) (flat d) c2 eps0 dt rs))
      (W.step (phys3 (fun a => np a * n a) d c2 eps0 dt rs)) := by
  have hf := fields_ext h
  have hmid : midField (phys3 (fun a => np a * n a) d c2 eps0 dt rs) W.fld
      = extF (midField (phys2 (flat fun a => np a * n a) (flat d) c2 eps0 dt rs) V.fld) := by rw [hf, mid_ext]
  have hp2 : (midField (phys2 (flat fun a => np a * n a) (flat d) c2 eps0 dt rs) V.fld).Per (flat np) (flat n) :=
    (hper.stepE (localFE2 _) _).stepB (localFB2 _) _
  have hm : DrawnOut (len np n d) (d 2) (V.step (phys2 (flat fun a => np a * n a) (flat d) c2 eps0 dt rs)).cloud
      (W.step (phys3 (fun a => np a * n a) d c2 eps0 dt rs)).cloud := by
    have := push_drawn (fun a => np a * n a) d c2 eps0 dt rs hd hp2 (per_ext hp2) h.matter
    rw [← hmid] at this
    exact this
  have hcur := cur_drawn hN hd hdt hV hW hm
  have hfld : (W.step (phys3 (fun a => np a * n a) d c2 eps0 dt rs)).fld
      = extF (V.step (phys2 (flat fun a => np a * n a) (flat d) c2 eps0 dt rs)).fld := by
    show ((({ midField (phys3 (fun a => np a * n a) d c2 eps0 dt rs) W.fld with
        j := cur3 (fun a => np a * n a) d dt (W.step (phys3 (fun a => np a * n a) d c2 eps0 dt rs)).cloud } : GF 3).stepB
        (yeeB3 ⟨d, c2, eps0⟩) (1 / 2 * dt)).stepE (yeeE3 ⟨d, c2, eps0⟩) (1 / 2 * dt)) = _
    rw [hmid, hcur]
    show ((extF { midField (phys2 (flat fun a => np a * n a) (flat d) c2 eps0 dt rs) V.fld with
        j := cur2 (flat fun a => np a * n a) (flat d) dt (V.step (phys2 (flat fun a => np a * n a) (flat d) c2 eps0 dt rs)).cloud }).stepB
        (yeeB3 ⟨d, c2, eps0⟩) (1 / 2 * dt)).stepE (yeeE3 ⟨d, c2, eps0⟩) (1 / 2 * dt) = _
    rw [stepB_ext, stepE_ext]
    rfl
  refine ⟨fun f c => ?_, hm⟩
  rw [hfld]
  exact ⟨rfl, rfl, rfl⟩

theorem planar_run {np n : Fin 3 → Nat} (hN : ∀ a, 2 ≤ np a * n a) {d : Fin 3 → ℚ} (hd : ∀ a, 0 < d a) {c2 eps0 dt : ℚ} (hdt : dt ≠ 0)
    {rs : ℚ → ℚ} {V : World 2} {W : World 3} (h : Planar (len np n d) (d 2) V W)
    (hper : ∀ i, (World.run (phys2 (flat fun a => np a * n a) (flat d) c2 eps0 dt rs) V i).fld.Per (flat np) (flat n))
    (hV : ∀ i, Slow (flat d) dt (World.run (phys2 (flat fun a => np a * n a) (flat d) c2 eps0 dt rs) V i).cloud)
    (hW : ∀ i, Slow d dt (World.run (phys3 (fun a => np a * n a) d c2 eps0 dt rs) W i).cloud) (i : Nat) :
    Planar (len np n d) (d 2) (World.run (phys2 (flat fun a => np a * n a) (flat d) c2 eps0 dt rs) V i)
      (World.run (phys3 (fun a => np a * n a) d c2 eps0 dt rs) W i) := by
  induction i with
  | zero => exact h
  | succ i ih => exact planar_step hN hd hdt (hper i) ih (hV (i + 1)) (hW (i + 1))

end Verif.Planar
