import Verif.Spec.Reverse
import Verif.Proofs.Symmetry3
/-!
# A simulation turned back in time

The magnetic rotation of the momentum update is undone by the opposite field, the currents of a particle on the way back
are the opposite ones, and so every step can be undone.
-/
namespace Verif.Reverse
open Verif.Maxwell Verif.Pusher Verif.Deposit Verif.Shape Verif.WholeRun Verif.PicStep Verif.Symmetry
open Finset (range)

variable {k : Nat}

/-! ## the momentum update -/

/-- first component of the magnetic rotation -/
def turn (a b c Tx Ty Tz : ℚ) : ℚ :=
  let S := 2 / (1 + Tx * Tx + Ty * Ty + Tz * Tz)
  a + (b + c * Tx - a * Tz) * (S * Tz) - (c + a * Ty - b * Tx) * (S * Ty)

theorem turn_norm (a b c Tx Ty Tz : ℚ) :
    turn a b c Tx Ty Tz ^ 2 + turn b c a Ty Tz Tx ^ 2 + turn c a b Tz Tx Ty ^ 2 = a ^ 2 + b ^ 2 + c ^ 2 := by
  have h : (1 + Tx * Tx + Ty * Ty + Tz * Tz) ≠ 0 := by
    have := mul_self_nonneg Tx; have := mul_self_nonneg Ty; have := mul_self_nonneg Tz; linarith
  have h2 : (1 + Ty * Ty + Tz * Tz + Tx * Tx) = 1 + Tx * Tx + Ty * Ty + Tz * Tz := by ring
  have h3 : (1 + Tz * Tz + Tx * Tx + Ty * Ty) = 1 + Tx * Tx + Ty * Ty + Tz * Tz := by ring
  unfold turn
  dsimp only
  rw [h2, h3]
  field_simp
  ring

theorem turn_back (a b c Tx Ty Tz : ℚ) :
    turn (-turn a b c Tx Ty Tz) (-turn b c a Ty Tz Tx) (-turn c a b Tz Tx Ty) (-Tx) (-Ty) (-Tz) = -a := by
  have h : (1 + Tx * Tx + Ty * Ty + Tz * Tz) ≠ 0 := by
    have := mul_self_nonneg Tx; have := mul_self_nonneg Ty; have := mul_self_nonneg Tz; linarith
  have h2 : (1 + Ty * Ty + Tz * Tz + Tx * Tx) = 1 + Tx * Tx + Ty * Ty + Tz * Tz := by ring
  have h3 : (1 + Tz * Tz + Tx * Tx + Ty * Ty) = 1 + Tx * Tx + Ty * Ty + Tz * Tz := by ring
  have h4 : (1 + -Tx * -Tx + -Ty * -Ty + -Tz * -Tz) = 1 + Tx * Tx + Ty * Ty + Tz * Tz := by ring
  unfold turn
  dsimp only
  rw [h4, h2, h3]
  field_simp
  ring

theorem boris_turn (rs : ℚ → ℚ) (e b : ℚ) (f : FieldsAt ℚ) (p : Mo ℚ) :
    let ax := p.ux + e * f.ex
    let ay := p.uy + e * f.ey
    let az := p.uz + e * f.ez
    let g := rs (1 + ax * ax + ay * ay + az * az)
    let Tx := b * f.bx * g
    let Ty := b * f.by' * g
    let Tz := b * f.bz * g
    let r := borisC rs e b f p
    r.ux = turn ax ay az Tx Ty Tz + e * f.ex ∧ r.uy = turn ay az ax Ty Tz Tx + e * f.ey
      ∧ r.uz = turn az ax ay Tz Tx Ty + e * f.ez
      ∧ r.ig = rs (1 + r.ux * r.ux + r.uy * r.uy + r.uz * r.uz) := by
  intro ax ay az g Tx Ty Tz r
  have h2 : (1 + Ty * Ty + Tz * Tz + Tx * Tx) = 1 + Tx * Tx + Ty * Ty + Tz * Tz := by ring
  have h3 : (1 + Tz * Tz + Tx * Tx + Ty * Ty) = 1 + Tx * Tx + Ty * Ty + Tz * Tz := by ring
  refine ⟨rfl, ?_, ?_, rfl⟩
  · unfold turn; dsimp only; rw [h2]; rfl
  · unfold turn; dsimp only; rw [h3]; rfl

/-- the update with opposite momentum and opposite B gives the opposite of the old momentum -/
theorem boris_back (rs : ℚ → ℚ) (e b : ℚ) (f : FieldsAt ℚ) (p : Mo ℚ) :
    borisC rs e b ⟨f.ex, f.ey, f.ez, -f.bx, -f.by', -f.bz⟩
        ⟨-(borisC rs e b f p).ux, -(borisC rs e b f p).uy, -(borisC rs e b f p).uz, (borisC rs e b f p).ig⟩
      = ⟨-p.ux, -p.uy, -p.uz, rs (1 + p.ux * p.ux + p.uy * p.uy + p.uz * p.uz)⟩ := by
  obtain ⟨h1, h2, h3, -⟩ := boris_turn rs e b f p
  generalize borisC rs e b f p = r at *
  obtain ⟨k1, k2, k3, k4⟩ := boris_turn rs e b ⟨f.ex, f.ey, f.ez, -f.bx, -f.by', -f.bz⟩ ⟨-r.ux, -r.uy, -r.uz, r.ig⟩
  generalize borisC rs e b ⟨f.ex, f.ey, f.ez, -f.bx, -f.by', -f.bz⟩ ⟨-r.ux, -r.uy, -r.uz, r.ig⟩ = t at *
  dsimp only at h1 h2 h3 k1 k2 k3
  generalize hg : rs (1 + (p.ux + e * f.ex) * (p.ux + e * f.ex) + (p.uy + e * f.ey) * (p.uy + e * f.ey)
      + (p.uz + e * f.ez) * (p.uz + e * f.ez)) = g at *
  have n1 : -r.ux + e * f.ex = -turn (p.ux + e * f.ex) (p.uy + e * f.ey) (p.uz + e * f.ez) (b * f.bx * g) (b * f.by' * g) (b * f.bz * g) := by
    rw [h1]; ring
  have n2 : -r.uy + e * f.ey = -turn (p.uy + e * f.ey) (p.uz + e * f.ez) (p.ux + e * f.ex) (b * f.by' * g) (b * f.bz * g) (b * f.bx * g) := by
    rw [h2]; ring
  have n3 : -r.uz + e * f.ez = -turn (p.uz + e * f.ez) (p.ux + e * f.ex) (p.uy + e * f.ey) (b * f.bz * g) (b * f.bx * g) (b * f.by' * g) := by
    rw [h3]; ring
  have hsame : rs (1 + (-r.ux + e * f.ex) * (-r.ux + e * f.ex) + (-r.uy + e * f.ey) * (-r.uy + e * f.ey)
      + (-r.uz + e * f.ez) * (-r.uz + e * f.ez)) = g := by
    rw [← hg]
    congr 1
    have := turn_norm (p.ux + e * f.ex) (p.uy + e * f.ey) (p.uz + e * f.ez) (b * f.bx * g) (b * f.by' * g) (b * f.bz * g)
    rw [n1, n2, n3]
    linear_combination this
  rw [hsame] at k1 k2 k3
  have t1 : b * -f.bx * g = -(b * f.bx * g) := by ring
  have t2 : b * -f.by' * g = -(b * f.by' * g) := by ring
  have t3 : b * -f.bz * g = -(b * f.bz * g) := by ring
  rw [t1, t2, t3, n1, n2, n3, turn_back] at k1 k2 k3
  have e1 : t.ux = -p.ux := by rw [k1]; ring
  have e2 : t.uy = -p.uy := by rw [k2]; ring
  have e3 : t.uz = -p.uz := by rw [k3]; ring
  rw [e1, e2, e3, show 1 + -p.ux * -p.ux + -p.uy * -p.uy + -p.uz * -p.uz = 1 + p.ux * p.ux + p.uy * p.uy + p.uz * p.uz by ring] at k4
  obtain ⟨a1, a2, a3, a4⟩ := t
  dsimp only at e1 e2 e3 k4
  rw [e1, e2, e3, k4]

/-! ## deposits along one axis -/

theorem near_swap {o a : ℚ} (h : |a - o| ≤ 1) : |o - a| ≤ 1 := by rw [abs_sub_comm]; exact h

theorem w0_swap {N : Nat} (hN : 0 < N) {o a : ℚ} (h : |a - o| ≤ 1) (c : Int) : w0 N a o c = w1 N o a c := by
  unfold w0 w1; rw [proj_S0 N hN, proj_S1 N hN h]

theorem w1_swap {N : Nat} (hN : 0 < N) {o a : ℚ} (h : |a - o| ≤ 1) (c : Int) : w1 N a o c = w0 N o a c := by
  unfold w0 w1; rw [proj_S0 N hN, proj_S1 N hN (near_swap h)]

theorem wc_swap {N : Nat} (hN : 0 < N) {o a : ℚ} (h : |a - o| ≤ 1) (c : Int) : wc N a o c = -wc N o a c := by
  have hd : ∀ x : Int, wc N a o x + wc N o a x = wc N a o (x - 1) + wc N o a (x - 1) := by
    intro x
    have h1 := wc_sub hN (near_swap h) x
    have h2 := wc_sub hN h x
    rw [w1_swap hN h, w0_swap hN h] at h1
    linarith
  have hn : ∀ x : Nat, wc N a o x + wc N o a x = wc N a o 0 + wc N o a 0 := by
    intro x
    induction x with
    | zero => simp
    | succ x ih =>
      have := hd ((x + 1 : Nat) : Int)
      rw [this, ← ih]
      push_cast
      rw [show (x : Int) + 1 - 1 = x by ring]
  have hs : ∑ x ∈ range N, (wc N a o (x : Int) + wc N o a (x : Int)) = 0 := by
    rw [Finset.sum_add_distrib, wc_sum hN (near_swap h), wc_sum hN h]
    ring
  have hz : wc N a o 0 + wc N o a 0 = 0 := by
    rw [Finset.sum_congr rfl fun x _ => hn x, Finset.sum_const, Finset.card_range, nsmul_eq_mul] at hs
    rcases mul_eq_zero.mp hs with h0 | h0
    · exact absurd (by exact_mod_cast h0) hN.ne'
    · exact h0
  have hp : (0 : Int) < N := by exact_mod_cast hN
  have e : ((c % N).toNat : Int) = c % N := Int.toNat_of_nonneg (Int.emod_nonneg _ hp.ne')
  have := hn (c % N).toNat
  rw [e, hz, wc_per, wc_per] at this
  linarith

section
variable {N : Nat} (hN : 0 < N) {d : ℚ} (hd : 0 < d) {dt x v : ℚ} (h : |v * dt| ≤ d)
include hN hd h
theorem l0_opp (c : Int) : l0 N d dt x (-v) c = l1 N d dt x v c := by
  unfold l0 l1
  rw [show x - -v * (1 / 2) * dt = x + v * (1 / 2) * dt by ring, show x + -v * (1 / 2) * dt = x - v * (1 / 2) * dt by ring,
    w0_swap hN (near hd h)]
theorem l1_opp (c : Int) : l1 N d dt x (-v) c = l0 N d dt x v c := by
  unfold l0 l1
  rw [show x - -v * (1 / 2) * dt = x + v * (1 / 2) * dt by ring, show x + -v * (1 / 2) * dt = x - v * (1 / 2) * dt by ring,
    w1_swap hN (near hd h)]
theorem lc_opp (c : Int) : lc N d dt x (-v) c = -lc N d dt x v c := by
  unfold lc
  rw [show x - -v * (1 / 2) * dt = x + v * (1 / 2) * dt by ring, show x + -v * (1 / 2) * dt = x - v * (1 / 2) * dt by ring,
    wc_swap hN (near hd h)]
theorem lm_opp (c : Int) : lm N d dt x (-v) c = lm N d dt x v c := by
  unfold lm; rw [l0_opp hN hd h, l1_opp hN hd h, add_comm]
end

/-! ## laws that can be undone -/

/-- the view of the particles in the turned simulation -/
def backView : View k := ⟨id, fun b f c => -b f c, id, id, opposite⟩

theorem turnedCloud_view (cl : List (Kind × List (Ptc k))) : turnedCloud cl = (backView (k := k)).cloud cl := rfl

theorem vel_opposite (m : Mom) (i : Nat) : vel (opposite m) i = -vel m i := by
  unfold vel
  have : uAt (opposite m) i = -uAt m i := by
    unfold uAt
    split <;> rfl
  rw [this]
  show -uAt m i * lightSpeed * m.invGamma = _
  ring

theorem slow_turned {d : Fin k → ℚ} {dt : ℚ} {cl : List (Kind × List (Ptc k))} (hs : Slow d dt cl) : Slow d dt (turnedCloud cl) := by
  rw [turnedCloud_view]
  refine slow_view (fun m h i => ?_) hs
  show |vel (opposite m) i * dt| ≤ d i
  rw [vel_opposite, neg_mul, abs_neg]
  exact h i

/-- the laws do not tell forward from backward -/
structure Undoes (Φ : Phys k) (d : Fin k → ℚ) : Prop where
  E : ∀ h b j, Φ.FE h (fun f c => -b f c) (fun f c => -j f c) = fun f c => -Φ.FE h b j f c
  see : ∀ G G' x, G'.e = G.e → (G'.b = fun f c => -G.b f c) →
    Φ.see G' x = ⟨(Φ.see G x).ex, (Φ.see G x).ey, (Φ.see G x).ez, -(Φ.see G x).bx, -(Φ.see G x).by', -(Φ.see G x).bz⟩
  cur : ∀ cl, Slow d Φ.dt cl → Φ.cur (turnedCloud cl) = fun f c => -Φ.cur cl f c

/-- the stored `1/γ` belongs to the momentum -/
def Fits (rs : ℚ → ℚ) (m : Mom) : Prop := m.invGamma = rs (1 + m.ux * m.ux + m.uy * m.uy + m.uz * m.uz)

section
variable {Φ : Phys k} {d : Fin k → ℚ} (U : Undoes Φ d)
include U

theorem push_back (κ : Kind) (G G' : GF k) (he : G'.e = G.e) (hb : G'.b = fun f c => -G.b f c) (p : Ptc k) (hp : Fits Φ.rs p.mom) :
    pushed Φ κ G' ⟨(pushed Φ κ G p).pos, opposite (pushed Φ κ G p).mom⟩ = ⟨p.pos, opposite p.mom⟩ := by
  have hu : ∀ (m : Mom) (i : Nat), uAt (opposite m) i = -uAt m i := by intro m i; unfold uAt; split <;> rfl
  -- the place where the fields are seen
  have hx : (fun i : Fin k => (pushed Φ κ G p).pos i + lightSpeed * (1 / 2) * Φ.dt * (opposite (pushed Φ κ G p).mom).invGamma
        * uAt (opposite (pushed Φ κ G p).mom) i)
      = fun i => p.pos i + lightSpeed * (1 / 2) * Φ.dt * p.mom.invGamma * uAt p.mom i := by
    funext i
    rw [hu]
    show p.pos i + lightSpeed * (1 / 2) * Φ.dt * p.mom.invGamma * uAt p.mom i
      + lightSpeed * (1 / 2) * Φ.dt * (pushed Φ κ G p).mom.invGamma * uAt (pushed Φ κ G p).mom i
      + lightSpeed * (1 / 2) * Φ.dt * (pushed Φ κ G p).mom.invGamma * -uAt (pushed Φ κ G p).mom i = _
    ring
  have hm : (pushed Φ κ G' ⟨(pushed Φ κ G p).pos, opposite (pushed Φ κ G p).mom⟩).mom = opposite p.mom := by
    show bor Φ κ (Φ.see G' fun i : Fin k => (pushed Φ κ G p).pos i + lightSpeed * (1 / 2) * Φ.dt
      * (opposite (pushed Φ κ G p).mom).invGamma * uAt (opposite (pushed Φ κ G p).mom) i) (opposite (pushed Φ κ G p).mom) = _
    rw [hx, U.see G G' _ he hb]
    have hm' : (pushed Φ κ G p).mom = bor Φ κ (Φ.see G fun i => p.pos i + lightSpeed * (1 / 2) * Φ.dt * p.mom.invGamma * uAt p.mom i) p.mom := rfl
    rw [hm']
    generalize Φ.see G (fun i => p.pos i + lightSpeed * (1 / 2) * Φ.dt * p.mom.invGamma * uAt p.mom i) = f
    have hb := boris_back Φ.rs (κ.q * Φ.dt / (2 * κ.m * lightSpeed)) (κ.q * Φ.dt / (2 * κ.m)) ⟨f.ex, f.ey, f.ez, f.bx, f.by', f.bz⟩
      ⟨p.mom.ux, p.mom.uy, p.mom.uz, p.mom.invGamma⟩
    have := congrArg (fun r : Mo ℚ => (⟨r.ux, r.uy, r.uz, r.ig, p.mom.w⟩ : Mom)) hb
    refine this.trans ?_
    unfold opposite
    rw [show p.mom.invGamma = _ from hp]
  have hpos : (pushed Φ κ G' ⟨(pushed Φ κ G p).pos, opposite (pushed Φ κ G p).mom⟩).pos = p.pos := by
    funext i
    have e1 := congrFun hx i
    show (pushed Φ κ G p).pos i + lightSpeed * (1 / 2) * Φ.dt * (opposite (pushed Φ κ G p).mom).invGamma
        * uAt (opposite (pushed Φ κ G p).mom) i
      + lightSpeed * (1 / 2) * Φ.dt * (pushed Φ κ G' ⟨(pushed Φ κ G p).pos, opposite (pushed Φ κ G p).mom⟩).mom.invGamma
        * uAt (pushed Φ κ G' ⟨(pushed Φ κ G p).pos, opposite (pushed Φ κ G p).mom⟩).mom i = _
    rw [e1, hm, hu]
    show _ + lightSpeed * (1 / 2) * Φ.dt * p.mom.invGamma * -uAt p.mom i = _
    ring
  show (⟨(pushed Φ κ G' ⟨(pushed Φ κ G p).pos, opposite (pushed Φ κ G p).mom⟩).pos,
    (pushed Φ κ G' ⟨(pushed Φ κ G p).pos, opposite (pushed Φ κ G p).mom⟩).mom⟩ : Ptc k) = _
  rw [hm, hpos]

/-- the fields in the middle of the step back are the turned ones of the step forward -/
theorem mid_back (W : World k) : (midField Φ (turned (W.step Φ)).fld).e = (midField Φ W.fld).e ∧
    ((midField Φ (turned (W.step Φ)).fld).b = fun f c => -(midField Φ W.fld).b f c) := by
  have he : (midField Φ (turned (W.step Φ)).fld).e = (midField Φ W.fld).e := by
    funext f c
    show (W.step Φ).fld.e f c + Φ.FE _ (fun f c => -(W.step Φ).fld.b f c) (fun f c => -(W.step Φ).fld.j f c) f c = _
    rw [U.E]
    show (midField Φ W.fld).e f c + Φ.FE (1 / 2 * Φ.dt) (W.step Φ).fld.b (W.step Φ).fld.j f c
      + -Φ.FE (1 / 2 * Φ.dt) (W.step Φ).fld.b (W.step Φ).fld.j f c = _
    ring
  refine ⟨he, ?_⟩
  funext f c
  show -((midField Φ W.fld).b f c + Φ.FB (1 / 2 * Φ.dt) (midField Φ W.fld).e f c)
    + Φ.FB (1 / 2 * Φ.dt) (midField Φ (turned (W.step Φ)).fld).e f c = _
  rw [he]
  ring

/-- the particles after the step back -/
theorem cloud_back (W : World k) (hf : ∀ s ∈ W.cloud, ∀ p ∈ s.2, Fits Φ.rs p.mom) :
    ((turned (W.step Φ)).step Φ).cloud = turnedCloud W.cloud := by
  obtain ⟨he, hb⟩ := mid_back U W
  show List.map _ (List.map _ (List.map _ W.cloud)) = List.map _ W.cloud
  rw [List.map_map, List.map_map]
  refine List.map_congr_left fun s hs => ?_
  show (s.1, List.map _ (List.map _ (List.map _ s.2))) = (s.1, List.map _ s.2)
  rw [List.map_map, List.map_map]
  congr 1
  refine List.map_congr_left fun p hp => ?_
  exact push_back U s.1 _ _ he hb p (hf s hs p hp)

/-- the fields after the step back, with whatever currents the step forward began -/
theorem fields_back (W : World k) (hf : ∀ s ∈ W.cloud, ∀ p ∈ s.2, Fits Φ.rs p.mom) (hs : Slow d Φ.dt W.cloud) :
    ((turned (W.step Φ)).step Φ).fld.b = (fun f c => -W.fld.b f c) ∧
    ((turned (W.step Φ)).step Φ).fld.j = (fun f c => -Φ.cur W.cloud f c) ∧
    ∀ f c, ((turned (W.step Φ)).step Φ).fld.e f c
      = W.fld.e f c + Φ.FE (1 / 2 * Φ.dt) W.fld.b W.fld.j f c - Φ.FE (1 / 2 * Φ.dt) W.fld.b (Φ.cur W.cloud) f c := by
  obtain ⟨he, hb⟩ := mid_back U W
  have hj : ((turned (W.step Φ)).step Φ).fld.j = fun f c => -Φ.cur W.cloud f c := by
    show Φ.cur ((turned (W.step Φ)).step Φ).cloud = _
    rw [cloud_back U W hf, U.cur _ hs]
  have hB : ((turned (W.step Φ)).step Φ).fld.b = fun f c => -W.fld.b f c := by
    funext f c
    show (midField Φ (turned (W.step Φ)).fld).b f c + Φ.FB (1 / 2 * Φ.dt) (midField Φ (turned (W.step Φ)).fld).e f c = _
    rw [hb, he]
    show -(W.fld.b f c + Φ.FB (1 / 2 * Φ.dt) (midField Φ W.fld).e f c) + _ = _
    ring
  refine ⟨hB, hj, fun f c => ?_⟩
  show (midField Φ (turned (W.step Φ)).fld).e f c
    + Φ.FE (1 / 2 * Φ.dt) ((turned (W.step Φ)).step Φ).fld.b ((turned (W.step Φ)).step Φ).fld.j f c = _
  rw [hB, hj, U.E, he]
  show W.fld.e f c + Φ.FE (1 / 2 * Φ.dt) W.fld.b W.fld.j f c + -_ = _
  ring

/-- every step that began with the currents of its particles can be undone -/
theorem step_back (W : World k) (hf : ∀ s ∈ W.cloud, ∀ p ∈ s.2, Fits Φ.rs p.mom) (hs : Slow d Φ.dt W.cloud)
    (hj : W.fld.j = Φ.cur W.cloud) : (turned (W.step Φ)).step Φ = turned W := by
  obtain ⟨h1, h2, h3⟩ := fields_back U W hf hs
  have hc := cloud_back U W hf
  have h3' : ((turned (W.step Φ)).step Φ).fld.e = W.fld.e := by
    funext f c
    rw [h3, hj]; ring
  rw [← hj] at h2
  generalize (turned (W.step Φ)).step Φ = V at *
  obtain ⟨⟨e, b, j⟩, cl⟩ := V
  dsimp only at *
  rw [h3', h1, h2, hc]
  rfl

omit U in
theorem step_fits (W : World k) : ∀ s ∈ (W.step Φ).cloud, ∀ p ∈ s.2, Fits Φ.rs p.mom := by
  intro s hs p hp
  obtain ⟨s0, _, rfl⟩ := List.mem_map.mp hs
  obtain ⟨p0, _, rfl⟩ := List.mem_map.mp hp
  rfl

/-- a turned simulation goes back through all the states it came from -/
theorem run_back (hs : ∀ W : World k, Slow d Φ.dt (W.step Φ).cloud) (W : World k) (n : Nat) :
    ∀ i, i < n → (turned (W.run Φ n)).run Φ i = turned (W.run Φ (n - i)) := by
  intro i
  induction i with
  | zero => intro _; rfl
  | succ i ih =>
    intro hi
    show ((turned (W.run Φ n)).run Φ i).step Φ = _
    rw [ih (by omega)]
    obtain ⟨m, hm⟩ : ∃ m, n = m + 2 + i := ⟨n - 2 - i, by omega⟩
    rw [show n - i = m + 1 + 1 by omega, show n - (i + 1) = m + 1 by omega]
    exact step_back U (W.run Φ (m + 1)) (step_fits (W.run Φ m)) (hs _) rfl

/-- the last step back: the particles, B, and E but for the currents the first step began with -/
theorem run_back_all (hs : ∀ W : World k, Slow d Φ.dt (W.step Φ).cloud) (W : World k)
    (hf : ∀ s ∈ W.cloud, ∀ p ∈ s.2, Fits Φ.rs p.mom) (hs0 : Slow d Φ.dt W.cloud) (n : Nat) (hn : 0 < n) :
    ((turned (W.run Φ n)).run Φ n).cloud = turnedCloud W.cloud ∧
    (((turned (W.run Φ n)).run Φ n).fld.b = fun f c => -W.fld.b f c) ∧
    (∀ f c, ((turned (W.run Φ n)).run Φ n).fld.e f c
      = W.fld.e f c + Φ.FE (1 / 2 * Φ.dt) W.fld.b W.fld.j f c - Φ.FE (1 / 2 * Φ.dt) W.fld.b (Φ.cur W.cloud) f c) := by
  obtain ⟨m, rfl⟩ : ∃ m, n = m + 1 := ⟨n - 1, by omega⟩
  have h := run_back U hs W (m + 1) m (by omega)
  have e : (turned (W.run Φ (m + 1))).run Φ (m + 1) = (turned (W.step Φ)).step Φ := by
    show ((turned (W.run Φ (m + 1))).run Φ m).step Φ = _
    rw [h, show m + 1 - m = 1 by omega]
    rfl
  rw [e]
  obtain ⟨h1, _, h3⟩ := fields_back U W hf hs0
  exact ⟨cloud_back U W hf, h1, h3⟩
end

/-! ## the laws of the 2D and the 3D simulation -/

theorem undoes2 {N : Fin 2 → Nat} (hN : ∀ a, 0 < N a) {d : Fin 2 → ℚ} {c2 eps0 dt : ℚ} {rs : ℚ → ℚ} (hd : ∀ a, 0 < d a)
    (hdt : dt ≠ 0) : Undoes (phys2 N d c2 eps0 dt rs) d := by
  refine ⟨?_, ?_, ?_⟩
  · intro h b j
    exact (respects_charge2 (c2 := c2) (eps0 := eps0) (rs := rs) hN hd hdt).E h b j
  · intro G G' x he hb
    show EB.mk (sample2 _ _ _ _ fun m n => G'.e 0 ![m, n]) (sample2 _ _ _ _ fun m n => G'.e 1 ![m, n])
      (sample2 _ _ _ _ fun m n => G'.e 2 ![m, n]) (sample2 _ _ _ _ fun m n => G'.b 0 ![m, n])
      (sample2 _ _ _ _ fun m n => G'.b 1 ![m, n]) (sample2 _ _ _ _ fun m n => G'.b 2 ![m, n]) = _
    rw [he, hb]
    simp only [sample2_neg']
    rfl
  · intro cl hs
    have H := cur_view2 (T := backView) hN hN hd hd hdt hs (slow_turned hs)
    funext f c
    refine (H (-1) f f c c fun ⟨q, _⟩ p hp => ?_).trans (neg_one_mul _)
    show j2 N d dt q ⟨p.pos, opposite p.mom⟩ f c = _
    have ex : (opposite p.mom).vx = -p.mom.vx := vel_opposite p.mom 0
    have ey : (opposite p.mom).vy = -p.mom.vy := vel_opposite p.mom 1
    have ez : (opposite p.mom).vz = -p.mom.vz := vel_opposite p.mom 2
    have hx : |p.mom.vx * dt| ≤ d 0 := hp 0
    have hy : |p.mom.vy * dt| ≤ d 1 := hp 1
    have ew : (opposite p.mom).w = p.mom.w := rfl
    unfold j2
    dsimp only
    rw [ex, ey, ez, ew, lc_opp (hN 0) (hd 0) hx, lc_opp (hN 1) (hd 1) hy, lm_opp (hN 0) (hd 0) hx, lm_opp (hN 1) (hd 1) hy,
      l0_opp (hN 0) (hd 0) hx, l0_opp (hN 1) (hd 1) hy, l1_opp (hN 0) (hd 0) hx, l1_opp (hN 1) (hd 1) hy]
    match f with
    | 0 => dsimp only; ring
    | 1 => dsimp only; ring
    | 2 => dsimp only; ring

theorem undoes3 {N : Fin 3 → Nat} (hN : ∀ a, 2 ≤ N a) {d : Fin 3 → ℚ} {c2 eps0 dt : ℚ} {rs : ℚ → ℚ} (hd : ∀ a, 0 < d a)
    (hdt : dt ≠ 0) : Undoes (phys3 N d c2 eps0 dt rs) d := by
  refine ⟨?_, ?_, ?_⟩
  · intro h b j
    exact (respects_charge3 (c2 := c2) (eps0 := eps0) (rs := rs) hN hd hdt).E h b j
  · intro G G' x he hb
    show EB.mk (sample3 _ _ _ _ _ _ fun m n l => G'.e 0 ![m, n, l]) (sample3 _ _ _ _ _ _ fun m n l => G'.e 1 ![m, n, l])
      (sample3 _ _ _ _ _ _ fun m n l => G'.e 2 ![m, n, l]) (sample3 _ _ _ _ _ _ fun m n l => G'.b 0 ![m, n, l])
      (sample3 _ _ _ _ _ _ fun m n l => G'.b 1 ![m, n, l]) (sample3 _ _ _ _ _ _ fun m n l => G'.b 2 ![m, n, l]) = _
    rw [he, hb]
    simp only [sample3_neg']
    rfl
  · intro cl hs
    have H := cur_view3 (T := backView) hN hN hd hd hdt hs (slow_turned hs)
    have p0 : ∀ a, 0 < N a := fun a => by have := hN a; omega
    funext f c
    refine (H (-1) f f c c fun ⟨q, _⟩ p hp => ?_).trans (neg_one_mul _)
    show j3 N d dt q ⟨p.pos, opposite p.mom⟩ f c = _
    have ex : (opposite p.mom).vx = -p.mom.vx := vel_opposite p.mom 0
    have ey : (opposite p.mom).vy = -p.mom.vy := vel_opposite p.mom 1
    have ez : (opposite p.mom).vz = -p.mom.vz := vel_opposite p.mom 2
    have hx : |p.mom.vx * dt| ≤ d 0 := hp 0
    have hy : |p.mom.vy * dt| ≤ d 1 := hp 1
    have hz : |p.mom.vz * dt| ≤ d 2 := hp 2
    have ew : (opposite p.mom).w = p.mom.w := rfl
    unfold j3
    dsimp only
    rw [ex, ey, ez, ew, lc_opp (p0 0) (hd 0) hx, lc_opp (p0 1) (hd 1) hy, lc_opp (p0 2) (hd 2) hz,
      l0_opp (p0 0) (hd 0) hx, l0_opp (p0 1) (hd 1) hy, l0_opp (p0 2) (hd 2) hz,
      l1_opp (p0 0) (hd 0) hx, l1_opp (p0 1) (hd 1) hy, l1_opp (p0 2) (hd 2) hz]
    unfold tw
    match f with
    | 0 => dsimp only; ring
    | 1 => dsimp only; ring
    | 2 => dsimp only; ring

end Verif.Reverse
