import Verif.Spec.Scale
import Verif.Proofs.Symmetry3
/-!
# A simulation in another scale
-/
namespace Verif.Scale
open Verif.Maxwell Verif.Pusher Verif.Deposit Verif.Shape Verif.WholeRun Verif.PicStep Verif.Symmetry
open Finset (range)

variable {k : Nat}

theorem sample_smul (a s X : ℚ) (f : ℤ → ℚ) : sample s X (fun m => a * f m) = a * sample s X f := by
  rw [sample_three, sample_three]; ring

theorem sample2_smul (a s t X Y : ℚ) (f : ℤ → ℤ → ℚ) : sample2 s t X Y (fun m n => a * f m n) = a * sample2 s t X Y f := by
  unfold sample2; simp only [sample_smul]

theorem sample3_smul (a s t u X Y Z : ℚ) (f : ℤ → ℤ → ℤ → ℚ) :
    sample3 s t u X Y Z (fun m n l => a * f m n l) = a * sample3 s t u X Y Z f := by
  unfold sample3; simp only [sample2_smul, sample_smul]

/-- the update depends on the fields only through the products with its two factors -/
theorem boris_scale (rs : ℚ → ℚ) {E B E' B' a : ℚ} (hE : E' * a = E) (hB : B' * a = B) (f : FieldsAt ℚ) (p : Mo ℚ) :
    borisC rs E' B' ⟨a * f.ex, a * f.ey, a * f.ez, a * f.bx, a * f.by', a * f.bz⟩ p = borisC rs E B f p := by
  unfold borisC
  dsimp only
  have h : ∀ v, E' * (a * v) = E * v := fun v => by rw [← mul_assoc, hE]
  have h' : ∀ v, B' * (a * v) = B * v := fun v => by rw [← mul_assoc, hB]
  simp only [h, h']

/-- the laws `Φ'` are the laws `Φ` in the other scale -/
structure Scales (S : Scale) (Φ Φ' : Phys k) (d : Fin k → ℚ) : Prop where
  dt : Φ'.dt = S.len * Φ.dt
  rs : Φ'.rs = Φ.rs
  E : ∀ h b j, Φ'.FE (S.len * h) (fun f c => S.eb * b f c) (fun f c => S.j * j f c) = fun f c => S.eb * Φ.FE h b j f c
  B : ∀ h e, Φ'.FB (S.len * h) (fun f c => S.eb * e f c) = fun f c => S.eb * Φ.FB h e f c
  see : ∀ G x, Φ'.see (S.fields G) (fun i => S.len * x i) = ⟨S.eb * (Φ.see G x).ex, S.eb * (Φ.see G x).ey, S.eb * (Φ.see G x).ez,
    S.eb * (Φ.see G x).bx, S.eb * (Φ.see G x).by', S.eb * (Φ.see G x).bz⟩
  cur : ∀ cl, Slow d Φ.dt cl → Φ'.cur (S.cloud cl) = fun f c => S.j * Φ.cur cl f c

section
variable {S : Scale} (hS : S.Ok) {Φ Φ' : Phys k} {d : Fin k → ℚ} (R : Scales S Φ Φ' d)
include R

theorem Scales.half : 1 / 2 * Φ'.dt = S.len * (1 / 2 * Φ.dt) := by rw [R.dt]; ring

theorem Scales.stepE (h : ℚ) (G : GF k) : (S.fields G).stepE Φ'.FE (S.len * h) = S.fields (G.stepE Φ.FE h) := by
  unfold GF.stepE Scale.fields
  dsimp only
  rw [R.E]
  simp only [mul_add]

theorem Scales.stepB (h : ℚ) (G : GF k) : (S.fields G).stepB Φ'.FB (S.len * h) = S.fields (G.stepB Φ.FB h) := by
  unfold GF.stepB Scale.fields
  dsimp only
  rw [R.B]
  simp only [mul_add]

theorem Scales.mid (G : GF k) : midField Φ' (S.fields G) = S.fields (midField Φ G) := by
  unfold midField
  rw [R.half, R.stepE, R.stepB]

include hS in
theorem Scales.push (κ : Kind) (G : GF k) (p : Ptc k) : pushed Φ' (S.kind κ) (S.fields G) (S.ptc p) = S.ptc (pushed Φ κ G p) := by
  have hu : ∀ (m : Mom) (w : ℚ) (i : Nat), uAt ⟨m.ux, m.uy, m.uz, m.invGamma, w⟩ i = uAt m i := by
    intro m w i; unfold uAt; split <;> rfl
  have hx : (fun i : Fin k => (S.ptc p).pos i + lightSpeed * (1 / 2) * Φ'.dt * (S.ptc p).mom.invGamma * uAt (S.ptc p).mom i)
      = fun i => S.len * (p.pos i + lightSpeed * (1 / 2) * Φ.dt * p.mom.invGamma * uAt p.mom i) := by
    funext i
    rw [R.dt]
    show S.len * p.pos i + lightSpeed * (1 / 2) * (S.len * Φ.dt) * p.mom.invGamma * uAt ⟨p.mom.ux, p.mom.uy, p.mom.uz, p.mom.invGamma, _⟩ i = _
    rw [hu]
    ring
  have hm : (pushed Φ' (S.kind κ) (S.fields G) (S.ptc p)).mom = (S.ptc (pushed Φ κ G p)).mom := by
    show bor Φ' (S.kind κ) (Φ'.see (S.fields G) fun i : Fin k => (S.ptc p).pos i + lightSpeed * (1 / 2) * Φ'.dt
      * (S.ptc p).mom.invGamma * uAt (S.ptc p).mom i) (S.ptc p).mom = _
    rw [hx, R.see]
    have hm' : (pushed Φ κ G p).mom = bor Φ κ (Φ.see G fun i => p.pos i + lightSpeed * (1 / 2) * Φ.dt * p.mom.invGamma * uAt p.mom i) p.mom := rfl
    unfold Scale.ptc
    rw [hm']
    generalize Φ.see G (fun i => p.pos i + lightSpeed * (1 / 2) * Φ.dt * p.mom.invGamma * uAt p.mom i) = f
    have l0 := hS.len.ne'
    have q0 := hS.q
    have m0 := hS.m
    have e1 : (S.kind κ).q * Φ'.dt / (2 * (S.kind κ).m * lightSpeed) * S.eb = κ.q * Φ.dt / (2 * κ.m * lightSpeed) := by
      rw [R.dt]
      unfold Scale.kind Scale.eb
      dsimp only
      rcases eq_or_ne κ.m 0 with h | h
      · rw [h]; simp
      · have : lightSpeed ≠ 0 := by unfold lightSpeed; norm_num
        field_simp
    have e2 : (S.kind κ).q * Φ'.dt / (2 * (S.kind κ).m) * S.eb = κ.q * Φ.dt / (2 * κ.m) := by
      rw [R.dt]
      unfold Scale.kind Scale.eb
      dsimp only
      rcases eq_or_ne κ.m 0 with h | h
      · rw [h]; simp
      · field_simp
    have hb := boris_scale Φ.rs e1 e2 ⟨f.ex, f.ey, f.ez, f.bx, f.by', f.bz⟩ ⟨p.mom.ux, p.mom.uy, p.mom.uz, p.mom.invGamma⟩
    rw [← R.rs] at hb
    have := congrArg (fun r : Mo ℚ => (⟨r.ux, r.uy, r.uz, r.ig, S.w k * p.mom.w⟩ : Mom)) hb
    refine this.trans ?_
    rw [R.rs]
    rfl
  have hpos : (pushed Φ' (S.kind κ) (S.fields G) (S.ptc p)).pos = (S.ptc (pushed Φ κ G p)).pos := by
    funext i
    have e1 := congrFun hx i
    show (S.ptc p).pos i + lightSpeed * (1 / 2) * Φ'.dt * (S.ptc p).mom.invGamma * uAt (S.ptc p).mom i
      + lightSpeed * (1 / 2) * Φ'.dt * (pushed Φ' (S.kind κ) (S.fields G) (S.ptc p)).mom.invGamma
        * uAt (pushed Φ' (S.kind κ) (S.fields G) (S.ptc p)).mom i = _
    rw [e1, hm, R.dt]
    show _ + lightSpeed * (1 / 2) * (S.len * Φ.dt) * (pushed Φ κ G p).mom.invGamma
      * uAt ⟨(pushed Φ κ G p).mom.ux, (pushed Φ κ G p).mom.uy, (pushed Φ κ G p).mom.uz, (pushed Φ κ G p).mom.invGamma, _⟩ i
      = S.len * (p.pos i + lightSpeed * (1 / 2) * Φ.dt * p.mom.invGamma * uAt p.mom i
        + lightSpeed * (1 / 2) * Φ.dt * (pushed Φ κ G p).mom.invGamma * uAt (pushed Φ κ G p).mom i)
    rw [hu (pushed Φ κ G p).mom]
    ring
  show (⟨(pushed Φ' (S.kind κ) (S.fields G) (S.ptc p)).pos, (pushed Φ' (S.kind κ) (S.fields G) (S.ptc p)).mom⟩ : Ptc k) = _
  rw [hm, hpos]

include hS in
theorem Scales.step (W : World k) (hs : Slow d Φ.dt (W.step Φ).cloud) : (S.world W).step Φ' = S.world (W.step Φ) := by
  have hc : ((S.world W).step Φ').cloud = S.cloud (W.step Φ).cloud := by
    show List.map _ (List.map _ W.cloud) = List.map _ (List.map _ W.cloud)
    rw [List.map_map, List.map_map]
    refine List.map_congr_left fun s _ => ?_
    show (S.kind s.1, List.map _ (List.map _ s.2)) = (S.kind s.1, List.map _ (List.map _ s.2))
    rw [List.map_map, List.map_map]
    congr 1
    refine List.map_congr_left fun p _ => ?_
    show pushed Φ' (S.kind s.1) (midField Φ' (S.fields W.fld)) (S.ptc p) = _
    rw [R.mid, R.push hS]
    rfl
  have hf : ((S.world W).step Φ').fld = S.fields (W.step Φ).fld := by
    show GF.step Φ'.FE Φ'.FB Φ'.dt (Φ'.cur ((S.world W).step Φ').cloud) (S.fields W.fld)
      = S.fields (GF.step Φ.FE Φ.FB Φ.dt (Φ.cur (W.step Φ).cloud) W.fld)
    rw [hc, R.cur _ hs]
    unfold GF.step
    dsimp only
    rw [R.half, R.stepE, R.stepB]
    generalize GF.stepB Φ.FB (1 / 2 * Φ.dt) (GF.stepE Φ.FE (1 / 2 * Φ.dt) W.fld) = G
    generalize Φ.cur (World.step Φ W).cloud = J
    exact (congrArg _ (R.stepB _ ⟨G.e, G.b, J⟩)).trans (R.stepE _ _)
  show World.mk ((S.world W).step Φ').fld ((S.world W).step Φ').cloud = World.mk _ _
  rw [hc, hf]

include hS in
theorem Scales.run (hs : ∀ W : World k, Slow d Φ.dt (W.step Φ).cloud) (W : World k) (i : Nat) :
    (S.world W).run Φ' i = S.world (W.run Φ i) := by
  induction i with
  | zero => rfl
  | succ i ih =>
    show ((S.world W).run Φ' i).step Φ' = _
    rw [ih, R.step hS _ (hs _)]
    rfl
end

theorem total_scale (S : Scale) (r : ℚ) {h h' : ℚ → Ptc k → ℚ} {cl : List (Kind × List (Ptc k))}
    (H : ∀ s ∈ cl, ∀ p ∈ s.2, h' (S.kind s.1).q (S.ptc p) = r * h s.1.q p) : total h' (S.cloud cl) = r * total h cl := by
  unfold total Scale.cloud
  rw [← List.sum_map_mul_left, List.map_map]
  congr 1
  refine List.map_congr_left fun s hs => ?_
  rw [← List.sum_map_mul_left]
  show (List.map _ (List.map _ s.2)).sum = _
  rw [List.map_map]
  congr 1
  exact List.map_congr_left fun p hp => H s hs p hp

theorem slow_scale {S : Scale} (hS : S.Ok) {d : Fin k → ℚ} {dt : ℚ} {cl : List (Kind × List (Ptc k))} (hs : Slow d dt cl) :
    Slow (fun a => S.len * d a) (S.len * dt) (S.cloud cl) := by
  intro s hs1 p hp i
  obtain ⟨s0, hs0, rfl⟩ := List.mem_map.mp hs1
  obtain ⟨p0, hp0, rfl⟩ := List.mem_map.mp hp
  have e : vel (S.ptc p0).mom i = vel p0.mom i := by
    unfold vel
    have : uAt (S.ptc p0).mom i = uAt p0.mom i := by
      show uAt ⟨p0.mom.ux, p0.mom.uy, p0.mom.uz, p0.mom.invGamma, _⟩ i = _
      unfold uAt; split <;> rfl
    rw [this]
    rfl
  rw [e, show vel p0.mom i * (S.len * dt) = S.len * (vel p0.mom i * dt) by ring, abs_mul, abs_of_pos hS.len]
  exact mul_le_mul_of_nonneg_left (hs s0 hs0 p0 hp0 i) hS.len.le

theorem line_scale {l : ℚ} (hl : l ≠ 0) (d dt x v : ℚ) : (l * x - v * (1 / 2) * (l * dt)) / (l * d) = (x - v * (1 / 2) * dt) / d ∧
    (l * x + v * (1 / 2) * (l * dt)) / (l * d) = (x + v * (1 / 2) * dt) / d := by
  constructor
  · rw [show l * x - v * (1 / 2) * (l * dt) = l * (x - v * (1 / 2) * dt) by ring, mul_div_mul_left _ _ hl]
  · rw [show l * x + v * (1 / 2) * (l * dt) = l * (x + v * (1 / 2) * dt) by ring, mul_div_mul_left _ _ hl]

section
variable {l : ℚ} (hl : l ≠ 0) (N : Nat) (d dt x v : ℚ) (c : Int)
include hl
theorem l0_scale : l0 N (l * d) (l * dt) (l * x) v c = l0 N d dt x v c := by
  unfold l0; rw [(line_scale hl d dt x v).1, (line_scale hl d dt x v).2]
theorem l1_scale : l1 N (l * d) (l * dt) (l * x) v c = l1 N d dt x v c := by
  unfold l1; rw [(line_scale hl d dt x v).1, (line_scale hl d dt x v).2]
theorem lc_scale : lc N (l * d) (l * dt) (l * x) v c = lc N d dt x v c := by
  unfold lc; rw [(line_scale hl d dt x v).1, (line_scale hl d dt x v).2]
theorem lm_scale : lm N (l * d) (l * dt) (l * x) v c = lm N d dt x v c := by
  unfold lm; rw [l0_scale hl, l1_scale hl]
end

/-! ## the laws of the 2D and the 3D simulation -/

theorem yee_e {l eb j : ℚ} (hl : l ≠ 0) (hj : j * l = eb) (h c2 eps0 D J : ℚ) :
    l * h * c2 * (eb * D / l) - l * h / eps0 * (j * J) = eb * (h * c2 * D - h / eps0 * J) := by
  rw [← hj]
  field_simp

theorem jl {S : Scale} (hS : S.Ok) : S.j * S.len = S.eb := by
  have := hS.len.ne'; have := hS.q
  unfold Scale.j Scale.dens Scale.eb
  field_simp

theorem scales2 {S : Scale} (hS : S.Ok) {N : Fin 2 → Nat} (hN : ∀ a, 0 < N a) {d : Fin 2 → ℚ} {c2 eps0 dt : ℚ} {rs : ℚ → ℚ}
    (hd : ∀ a, 0 < d a) (hdt : dt ≠ 0) :
    Scales S (phys2 N d c2 eps0 dt rs) (phys2 N (fun a => S.len * d a) c2 eps0 (S.len * dt) rs) d := by
  have l0 := hS.len.ne'
  have hd' : ∀ a, 0 < S.len * d a := fun a => mul_pos hS.len (hd a)
  have q0 := hS.q
  refine ⟨rfl, rfl, ?_, ?_, ?_, ?_⟩
  · intro h b j
    have key := @yee_e S.len S.eb S.j l0 (jl hS)
    refine v3_ext (fun c => ?_) (fun c => ?_) (fun c => ?_)
    · show S.len * h * c2 * ((S.eb * b 2 c - S.eb * b 2 (dn 1 c)) / (S.len * d 1)) - S.len * h / eps0 * (S.j * j 0 c)
        = S.eb * (h * c2 * ((b 2 c - b 2 (dn 1 c)) / d 1) - h / eps0 * j 0 c)
      rw [← key]; congr 2; have := (hd 1).ne'; field_simp
    · show S.len * h * c2 * (-(S.eb * b 2 c - S.eb * b 2 (dn 0 c)) / (S.len * d 0)) - S.len * h / eps0 * (S.j * j 1 c)
        = S.eb * (h * c2 * (-(b 2 c - b 2 (dn 0 c)) / d 0) - h / eps0 * j 1 c)
      rw [← key]; congr 2; have := (hd 0).ne'; field_simp
    · show S.len * h * c2 * ((S.eb * b 1 c - S.eb * b 1 (dn 0 c)) / (S.len * d 0) - (S.eb * b 0 c - S.eb * b 0 (dn 1 c)) / (S.len * d 1))
          - S.len * h / eps0 * (S.j * j 2 c)
        = S.eb * (h * c2 * ((b 1 c - b 1 (dn 0 c)) / d 0 - (b 0 c - b 0 (dn 1 c)) / d 1) - h / eps0 * j 2 c)
      rw [← key]; congr 2; have := (hd 0).ne'; have := (hd 1).ne'; field_simp
  · intro h e
    refine v3_ext (fun c => ?_) (fun c => ?_) (fun c => ?_)
    · show -(S.len * h * ((S.eb * e 2 (up 1 c) - S.eb * e 2 c) / (S.len * d 1))) = S.eb * -(h * ((e 2 (up 1 c) - e 2 c) / d 1))
      have := (hd 1).ne'; field_simp
    · show -(S.len * h * (-(S.eb * e 2 (up 0 c) - S.eb * e 2 c) / (S.len * d 0))) = S.eb * -(h * (-(e 2 (up 0 c) - e 2 c) / d 0))
      have := (hd 0).ne'; field_simp
    · show -(S.len * h * ((S.eb * e 1 (up 0 c) - S.eb * e 1 c) / (S.len * d 0) - (S.eb * e 0 (up 1 c) - S.eb * e 0 c) / (S.len * d 1)))
        = S.eb * -(h * ((e 1 (up 0 c) - e 1 c) / d 0 - (e 0 (up 1 c) - e 0 c) / d 1))
      have := (hd 0).ne'; have := (hd 1).ne'; field_simp
  · intro G x
    show EB.mk (sample2 _ _ (S.len * x 0 / (S.len * d 0)) (S.len * x 1 / (S.len * d 1)) fun m n => S.eb * G.e 0 ![m, n])
      (sample2 _ _ (S.len * x 0 / (S.len * d 0)) (S.len * x 1 / (S.len * d 1)) fun m n => S.eb * G.e 1 ![m, n])
      (sample2 _ _ (S.len * x 0 / (S.len * d 0)) (S.len * x 1 / (S.len * d 1)) fun m n => S.eb * G.e 2 ![m, n])
      (sample2 _ _ (S.len * x 0 / (S.len * d 0)) (S.len * x 1 / (S.len * d 1)) fun m n => S.eb * G.b 0 ![m, n])
      (sample2 _ _ (S.len * x 0 / (S.len * d 0)) (S.len * x 1 / (S.len * d 1)) fun m n => S.eb * G.b 1 ![m, n])
      (sample2 _ _ (S.len * x 0 / (S.len * d 0)) (S.len * x 1 / (S.len * d 1)) fun m n => S.eb * G.b 2 ![m, n]) = _
    simp only [sample2_smul, mul_div_mul_left _ _ l0]
    rfl
  · intro cl hs
    funext f c
    show cur2 N (fun a => S.len * d a) (S.len * dt) (S.cloud cl) f c = S.j * cur2 N d dt cl f c
    rw [cur_total2 hN hd' (mul_ne_zero l0 hdt) (slow_scale hS hs), cur_total2 hN hd hdt hs]
    refine total_scale S S.j fun s _ p _ => ?_
    show j2 N (fun a => S.len * d a) (S.len * dt) (S.q * s.1.q) ⟨fun i => S.len * p.pos i,
      ⟨p.mom.ux, p.mom.uy, p.mom.uz, p.mom.invGamma, S.w 2 * p.mom.w⟩⟩ f c = _
    have vx : (⟨p.mom.ux, p.mom.uy, p.mom.uz, p.mom.invGamma, S.w 2 * p.mom.w⟩ : Mom).vx = p.mom.vx := rfl
    have vy : (⟨p.mom.ux, p.mom.uy, p.mom.uz, p.mom.invGamma, S.w 2 * p.mom.w⟩ : Mom).vy = p.mom.vy := rfl
    have vz : (⟨p.mom.ux, p.mom.uy, p.mom.uz, p.mom.invGamma, S.w 2 * p.mom.w⟩ : Mom).vz = p.mom.vz := rfl
    unfold j2
    dsimp only
    rw [vx, vy, vz]
    simp only [lc_scale l0, lm_scale l0, l0_scale l0, l1_scale l0]
    have hQ : S.q * s.1.q * (S.w 2 * p.mom.w) / (S.len * d 0 * (S.len * d 1)) = S.j * (s.1.q * p.mom.w / (d 0 * d 1)) := by
      have := (hd 0).ne'; have := (hd 1).ne'
      unfold Scale.w Scale.j
      field_simp
    rw [hQ]
    have hl : ∀ Q D : ℚ, S.j * Q / (S.len * dt) * (S.len * D) = S.j * (Q / dt * D) := by
      intro Q D; field_simp
    match f with
    | 0 => dsimp only; rw [hl]; ring
    | 1 => dsimp only; rw [hl]; ring
    | 2 => dsimp only; ring

theorem scales3 {S : Scale} (hS : S.Ok) {N : Fin 3 → Nat} (hN : ∀ a, 2 ≤ N a) {d : Fin 3 → ℚ} {c2 eps0 dt : ℚ} {rs : ℚ → ℚ}
    (hd : ∀ a, 0 < d a) (hdt : dt ≠ 0) :
    Scales S (phys3 N d c2 eps0 dt rs) (phys3 N (fun a => S.len * d a) c2 eps0 (S.len * dt) rs) d := by
  have l0 := hS.len.ne'
  have hd' : ∀ a, 0 < S.len * d a := fun a => mul_pos hS.len (hd a)
  have q0 := hS.q
  have d0 := (hd 0).ne'
  have d1 := (hd 1).ne'
  have d2 := (hd 2).ne'
  refine ⟨rfl, rfl, ?_, ?_, ?_, ?_⟩
  · intro h b j
    have key := @yee_e S.len S.eb S.j l0 (jl hS)
    refine v3_ext (fun c => ?_) (fun c => ?_) (fun c => ?_)
    · show S.len * h * c2 * ((S.eb * b 2 c - S.eb * b 2 (dn 1 c)) / (S.len * d 1) - (S.eb * b 1 c - S.eb * b 1 (dn 2 c)) / (S.len * d 2))
          - S.len * h / eps0 * (S.j * j 0 c)
        = S.eb * (h * c2 * ((b 2 c - b 2 (dn 1 c)) / d 1 - (b 1 c - b 1 (dn 2 c)) / d 2) - h / eps0 * j 0 c)
      rw [← key]; congr 2; field_simp
    · show S.len * h * c2 * ((S.eb * b 0 c - S.eb * b 0 (dn 2 c)) / (S.len * d 2) - (S.eb * b 2 c - S.eb * b 2 (dn 0 c)) / (S.len * d 0))
          - S.len * h / eps0 * (S.j * j 1 c)
        = S.eb * (h * c2 * ((b 0 c - b 0 (dn 2 c)) / d 2 - (b 2 c - b 2 (dn 0 c)) / d 0) - h / eps0 * j 1 c)
      rw [← key]; congr 2; field_simp
    · show S.len * h * c2 * ((S.eb * b 1 c - S.eb * b 1 (dn 0 c)) / (S.len * d 0) - (S.eb * b 0 c - S.eb * b 0 (dn 1 c)) / (S.len * d 1))
          - S.len * h / eps0 * (S.j * j 2 c)
        = S.eb * (h * c2 * ((b 1 c - b 1 (dn 0 c)) / d 0 - (b 0 c - b 0 (dn 1 c)) / d 1) - h / eps0 * j 2 c)
      rw [← key]; congr 2; field_simp
  · intro h e
    refine v3_ext (fun c => ?_) (fun c => ?_) (fun c => ?_)
    · show -(S.len * h * ((S.eb * e 2 (up 1 c) - S.eb * e 2 c) / (S.len * d 1) - (S.eb * e 1 (up 2 c) - S.eb * e 1 c) / (S.len * d 2)))
        = S.eb * -(h * ((e 2 (up 1 c) - e 2 c) / d 1 - (e 1 (up 2 c) - e 1 c) / d 2))
      field_simp
    · show -(S.len * h * ((S.eb * e 0 (up 2 c) - S.eb * e 0 c) / (S.len * d 2) - (S.eb * e 2 (up 0 c) - S.eb * e 2 c) / (S.len * d 0)))
        = S.eb * -(h * ((e 0 (up 2 c) - e 0 c) / d 2 - (e 2 (up 0 c) - e 2 c) / d 0))
      field_simp
    · show -(S.len * h * ((S.eb * e 1 (up 0 c) - S.eb * e 1 c) / (S.len * d 0) - (S.eb * e 0 (up 1 c) - S.eb * e 0 c) / (S.len * d 1)))
        = S.eb * -(h * ((e 1 (up 0 c) - e 1 c) / d 0 - (e 0 (up 1 c) - e 0 c) / d 1))
      field_simp
  · intro G x
    show EB.mk (sample3 _ _ _ (S.len * x 0 / (S.len * d 0)) (S.len * x 1 / (S.len * d 1)) (S.len * x 2 / (S.len * d 2)) fun m n l => S.eb * G.e 0 ![m, n, l])
      (sample3 _ _ _ (S.len * x 0 / (S.len * d 0)) (S.len * x 1 / (S.len * d 1)) (S.len * x 2 / (S.len * d 2)) fun m n l => S.eb * G.e 1 ![m, n, l])
      (sample3 _ _ _ (S.len * x 0 / (S.len * d 0)) (S.len * x 1 / (S.len * d 1)) (S.len * x 2 / (S.len * d 2)) fun m n l => S.eb * G.e 2 ![m, n, l])
      (sample3 _ _ _ (S.len * x 0 / (S.len * d 0)) (S.len * x 1 / (S.len * d 1)) (S.len * x 2 / (S.len * d 2)) fun m n l => S.eb * G.b 0 ![m, n, l])
      (sample3 _ _ _ (S.len * x 0 / (S.len * d 0)) (S.len * x 1 / (S.len * d 1)) (S.len * x 2 / (S.len * d 2)) fun m n l => S.eb * G.b 1 ![m, n, l])
      (sample3 _ _ _ (S.len * x 0 / (S.len * d 0)) (S.len * x 1 / (S.len * d 1)) (S.len * x 2 / (S.len * d 2)) fun m n l => S.eb * G.b 2 ![m, n, l]) = _
    simp only [sample3_smul, mul_div_mul_left _ _ l0]
    rfl
  · intro cl hs
    funext f c
    show cur3 N (fun a => S.len * d a) (S.len * dt) (S.cloud cl) f c = S.j * cur3 N d dt cl f c
    rw [cur_total3 hN hd' (mul_ne_zero l0 hdt) (slow_scale hS hs), cur_total3 hN hd hdt hs]
    refine total_scale S S.j fun s _ p _ => ?_
    show j3 N (fun a => S.len * d a) (S.len * dt) (S.q * s.1.q) ⟨fun i => S.len * p.pos i,
      ⟨p.mom.ux, p.mom.uy, p.mom.uz, p.mom.invGamma, S.w 3 * p.mom.w⟩⟩ f c = _
    have vx : (⟨p.mom.ux, p.mom.uy, p.mom.uz, p.mom.invGamma, S.w 3 * p.mom.w⟩ : Mom).vx = p.mom.vx := rfl
    have vy : (⟨p.mom.ux, p.mom.uy, p.mom.uz, p.mom.invGamma, S.w 3 * p.mom.w⟩ : Mom).vy = p.mom.vy := rfl
    have vz : (⟨p.mom.ux, p.mom.uy, p.mom.uz, p.mom.invGamma, S.w 3 * p.mom.w⟩ : Mom).vz = p.mom.vz := rfl
    unfold j3
    dsimp only
    rw [vx, vy, vz]
    simp only [lc_scale l0, l0_scale l0, l1_scale l0]
    have hQ : S.q * s.1.q * (S.w 3 * p.mom.w) / (S.len * d 0 * (S.len * d 1) * (S.len * d 2)) = S.j * (s.1.q * p.mom.w / (d 0 * d 1 * d 2)) := by
      unfold Scale.w Scale.j
      field_simp
    rw [hQ]
    have hl : ∀ Q D : ℚ, S.j * Q / (S.len * dt) * (S.len * D) = S.j * (Q / dt * D) := by
      intro Q D; field_simp
    match f with
    | 0 => dsimp only; rw [hl]; ring
    | 1 => dsimp only; rw [hl]; ring
    | 2 => dsimp only; rw [hl]; ring

end Verif.Scale
