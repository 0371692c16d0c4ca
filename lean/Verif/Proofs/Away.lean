import Verif.Spec.Away
import Verif.Proofs.Causal2
import Verif.Proofs.WholePml3
import Verif.Proofs.Track
/-!
# Lemmas: away from its layers an undivided simulation is one on a periodic grid
-/
namespace Verif.Away
open Verif.Maxwell Verif.SyncFields Verif.Pusher Verif.Deposit Verif.WholeRun Verif.Symmetry Verif.Causal
open Verif.Cpml (Whole Grid)
open Verif.WholePml (LWorld Free room curOpen2 curOpen3 lphys2 lphys3 midGrid)

variable {k : Nat}

/-- the cell of the domain that a cell of the periodic grid stands for -/
def wrap (W : Whole k) (c : Fin k → Int) : Fin k → Int := fun a => if W.pml a = true then c a % (W.N a : Int) else c a

/-- a field of the domain, repeated -/
def fk (W : Whole k) (F : V3 k) : V3 k := fun f c => F f (wrap W c)

/-- the domain with its layers, repeated, as a simulation without layers -/
def fake (W : Whole k) (U : LWorld k) : World k := ⟨⟨fk W U.grid.e, fk W U.grid.b, fk W U.grid.j⟩, U.cloud⟩

theorem wrap_mod (W : Whole k) (c : Fin k → Int) (a : Fin k) : wrap W c a ≡ c a [ZMOD (W.N a : Int)] := by
  unfold wrap
  split
  · exact Int.mod_modEq _ _
  · exact Int.ModEq.refl _

theorem wrap_self {W : Whole k} {c : Fin k → Int} (h : ∀ a, W.pml a = true → 0 ≤ c a ∧ c a < W.N a) : wrap W c = c := by
  funext a
  unfold wrap
  split
  · rename_i hp
    exact Int.emod_eq_of_lt (h a hp).1 (h a hp).2
  · rfl

theorem wrap_range {W : Whole k} (hN : ∀ a, 0 < W.N a) (c : Fin k → Int) (a : Fin k) (hp : W.pml a = true) :
    0 ≤ wrap W c a ∧ wrap W c a < W.N a := by
  unfold wrap
  rw [if_pos hp]
  have : (0 : Int) < W.N a := by exact_mod_cast hN a
  exact ⟨Int.emod_nonneg _ this.ne', Int.emod_lt_of_pos _ this⟩

/-- the cells of a domain between its layers -/
def Mid (W : Whole k) (v : Fin k → Int) : Prop := ∀ a, W.pml a = true → (W.thick : Int) ≤ v a ∧ v a + W.thick + 1 < W.N a

theorem mid_wrap {W : Whole k} {c : Fin k → Int} (h : Clear W c) : Mid W (wrap W c) := by
  intro a hp
  have := h a hp
  unfold wrap
  rwa [if_pos hp]

theorem wrap_dn {W : Whole k} (ht : 0 < W.thick) {c : Fin k → Int} (h : Clear W c) (x : Fin k) : wrap W (dn x c) = dn x (wrap W c) := by
  funext a
  unfold wrap dn
  dsimp only
  by_cases hx : a = x
  · rw [if_pos hx, if_pos hx]
    by_cases hp : W.pml a = true
    · rw [if_pos hp, if_pos hp]
      have := h a hp
      have e := Int.emod_add_mul_ediv (c a) (W.N a)
      have h2 : (c a - 1) % (W.N a : Int) = (c a % (W.N a : Int) - 1) % (W.N a : Int) := by
        conv_lhs => rw [← e]
        rw [show c a % (W.N a : Int) + W.N a * (c a / W.N a) - 1 = c a % (W.N a : Int) - 1 + W.N a * (c a / W.N a) by ring, Int.add_mul_emod_self_left]
      rw [h2]
      exact Int.emod_eq_of_lt (by omega) (by omega)
    · rw [if_neg hp, if_neg hp]
  · rw [if_neg hx, if_neg hx]

theorem wrap_up {W : Whole k} {c : Fin k → Int} (h : Clear W c) (x : Fin k) : wrap W (up x c) = up x (wrap W c) := by
  funext a
  unfold wrap up
  dsimp only
  by_cases hx : a = x
  · rw [if_pos hx, if_pos hx]
    by_cases hp : W.pml a = true
    · rw [if_pos hp, if_pos hp]
      have := h a hp
      have e := Int.emod_add_mul_ediv (c a) (W.N a)
      have h2 : (c a + 1) % (W.N a : Int) = (c a % (W.N a : Int) + 1) % (W.N a : Int) := by
        conv_lhs => rw [← e]
        rw [show c a % (W.N a : Int) + W.N a * (c a / W.N a) + 1 = c a % (W.N a : Int) + 1 + W.N a * (c a / W.N a) by ring, Int.add_mul_emod_self_left]
      rw [h2]
      exact Int.emod_eq_of_lt (by omega) (by omega)
    · rw [if_neg hp, if_neg hp]
  · rw [if_neg hx, if_neg hx]

/-! ## fields -/

theorem kap_mid {W : Whole k} {v : Fin k → Int} (h : Mid W v) (a : Fin k) : W.kapE a (v a).toNat = 1 ∧ W.kapB a (v a).toNat = 1 := by
  unfold Whole.kapE Whole.kapB
  by_cases hp : W.pml a = true
  · rw [if_pos hp, if_pos hp]
    have := h a hp
    have e1 : ∀ mx, (W.wall (a, mx)).kE (v a).toNat = 1 := by
      intro mx
      show Cpml.kappaAt _ (Cpml.startE mx (W.N a) W.thick) (Cpml.stopE mx (W.N a) W.thick) _ _ = 1
      unfold Cpml.kappaAt Cpml.startE Cpml.stopE
      rw [if_neg]
      cases mx
      · rw [if_neg (by decide), if_neg (by decide)]; omega
      · rw [if_pos rfl, if_pos rfl]; omega
    have e2 : ∀ mx, (W.wall (a, mx)).kB (v a).toNat = 1 := by
      intro mx
      show Cpml.kappaAt _ (Cpml.startB mx (W.N a) W.thick) (Cpml.stopB mx (W.N a) W.thick) _ _ = 1
      unfold Cpml.kappaAt Cpml.startB Cpml.stopB
      rw [if_neg]
      cases mx
      · rw [if_neg (by decide), if_neg (by decide)]; omega
      · rw [if_pos rfl, if_pos rfl]; omega
    rw [e1, e1, e2, e2]
    norm_num
  · rw [if_neg hp, if_neg hp]
    exact ⟨rfl, rfl⟩

theorem out_mid {W : Whole k} {v : Fin k → Int} (h : Mid W v) (s : Fin k × Bool) : ¬ W.InE s v ∧ ¬ W.InB s v := by
  obtain ⟨a, mx⟩ := s
  constructor
  · rintro ⟨hp, h1, h2⟩
    have := h a hp
    replace h1 : ((Cpml.startE mx (W.N a) W.thick : Nat) : Int) ≤ v a := h1
    replace h2 : v a < ((Cpml.stopE mx (W.N a) W.thick : Nat) : Int) := h2
    unfold Cpml.startE at h1
    unfold Cpml.stopE at h2
    cases mx
    · rw [if_neg (by decide)] at h1 h2; omega
    · rw [if_pos rfl] at h1 h2; omega
  · rintro ⟨hp, h1, h2⟩
    have := h a hp
    replace h1 : ((Cpml.startB mx (W.N a) W.thick : Nat) : Int) ≤ v a := h1
    replace h2 : v a < ((Cpml.stopB mx (W.N a) W.thick : Nat) : Int) := h2
    unfold Cpml.startB at h1
    unfold Cpml.stopB at h2
    cases mx
    · rw [if_neg (by decide)] at h1 h2; omega
    · rw [if_pos rfl] at h1 h2; omega

theorem inside_mid {W : Whole k} {v : Fin k → Int} (h : Mid W v) : W.Inside v := fun a hp => by
  have := h a hp
  constructor <;> omega

/-- what a dimension supplies: `Φ'` are the laws with layers, `Φ` those of the periodic grid -/
structure Law (W : Whole k) (Φ' Φ : Phys k) (np n : Fin k → Nat) (d : Fin k → ℚ) : Prop where
  near : Near Φ np n d
  cells : ∀ a, W.N a = np a * n a
  dt : Φ'.dt = Φ.dt
  push : ∀ κ G p, pushed Φ' κ G p = pushed Φ κ G p
  fe : ∀ h b j f v, (∀ a, W.kapE a (v a).toNat = 1) → Cpml.stretchE W.par h W.kapE b j f v = Φ.FE h b j f v
  fb : ∀ h e f v, (∀ a, W.kapB a (v a).toNat = 1) → Cpml.stretchB W.par h W.kapB e f v = Φ.FB h e f v
  cur : ∀ cl, Slow d Φ.dt cl → (∀ s ∈ cl, ∀ p ∈ s.2, ∀ a, W.pml a = true → -1 ≤ cellOf d p.pos a ∧ cellOf d p.pos a ≤ W.N a + 1) →
    ∀ (f : Fin 3) (c : Fin k → Int), (∀ a, W.pml a = true → 8 < c a ∧ c a + 8 < W.N a) → Φ'.cur cl f c = Φ.cur cl f c
  fast : ∀ κ G p (i : Fin k), |vel (pushed Φ κ G p).mom i * Φ.dt| ≤ d i
  curPer : ∀ cl (f : Fin 3) (c c' : Fin k → Int), (∀ a, c a ≡ c' a [ZMOD (W.N a : Int)]) → Φ.cur cl f c = Φ.cur cl f c'

section
variable {W : Whole k} {Φ' Φ : Phys k} {np n : Fin k → Nat} {d : Fin k → ℚ} (H : Law W Φ' Φ np n d) (ht : 0 < W.thick)
include H ht

/-- E by some time in a cell between the layers -/
theorem field_e (h : ℚ) (G : Grid k) {c : Fin k → Int} (hc : Clear W c) (f : Fin 3) :
    fk W (W.stepE h G).e f c = fk W G.e f c + Φ.FE h (fk W G.b) (fk W G.j) f c := by
  have hm := mid_wrap hc
  have e1 : (W.stepE h G).e f (wrap W c) = G.e f (wrap W c) + Φ.FE h G.b G.j f (wrap W c) := by
    unfold Whole.stepE
    dsimp only
    rw [if_pos (inside_mid hm), H.fe _ _ _ _ _ fun a => (kap_mid hm a).1, Finset.sum_eq_zero, add_zero]
    intro a _
    exact Finset.sum_eq_zero fun mx _ => if_neg (out_mid hm (a, mx)).1
  show (W.stepE h G).e f (wrap W c) = _
  rw [e1]
  show G.e f (wrap W c) + _ = G.e f (wrap W c) + _
  congr 1
  have e2 : wrap W c = fun a => (wrap W c a - c a) + c a := by funext a; ring
  have e3 : ∀ a, dn a (wrap W c) = fun b => (wrap W c b - c b) + dn a c b := fun a => by
    rw [← dn_shift]
    congr 1
  conv_lhs => rw [e2]
  rw [H.near.fe.shift h G.b G.j f c fun a => wrap W c a - c a]
  refine H.near.fe.loc _ _ _ _ _ _ _ (fun g => ?_) (fun g a => ?_) fun g => ?_
  · show G.b g _ = G.b g (wrap W c)
    rw [← e2]
  · show G.b g _ = G.b g (wrap W (dn a c))
    rw [wrap_dn ht hc, e3]
  · show G.j g _ = G.j g (wrap W c)
    rw [← e2]

omit ht in
/-- B by some time in a cell between the layers -/
theorem field_b (h : ℚ) (G : Grid k) {c : Fin k → Int} (hc : Clear W c) (f : Fin 3) :
    fk W (W.stepB h G).b f c = fk W G.b f c + Φ.FB h (fk W G.e) f c := by
  have hm := mid_wrap hc
  have e1 : (W.stepB h G).b f (wrap W c) = G.b f (wrap W c) + Φ.FB h G.e f (wrap W c) := by
    unfold Whole.stepB
    dsimp only
    rw [if_pos (inside_mid hm), H.fb _ _ _ _ fun a => (kap_mid hm a).2, Finset.sum_eq_zero, add_zero]
    intro a _
    exact Finset.sum_eq_zero fun mx _ => if_neg (out_mid hm (a, mx)).2
  show (W.stepB h G).b f (wrap W c) = _
  rw [e1]
  show G.b f (wrap W c) + _ = G.b f (wrap W c) + _
  congr 1
  have e2 : wrap W c = fun a => (wrap W c a - c a) + c a := by funext a; ring
  have e3 : ∀ a, up a (wrap W c) = fun b => (wrap W c b - c b) + up a c b := fun a => by
    rw [← up_shift]
    congr 1
  conv_lhs => rw [e2]
  rw [H.near.fb.shift h G.e f c fun a => wrap W c a - c a]
  refine H.near.fb.loc _ _ _ _ _ (fun g => ?_) fun g a => ?_
  · show G.e g _ = G.e g (wrap W c)
    rw [← e2]
  · show G.e g _ = G.e g (wrap W (up a c))
    rw [wrap_up hc, e3]

variable {R : (Fin k → Int) → Prop} (hR : ∀ c, R c → Clear W c)
include hR

theorem mid_e (U : LWorld k) {c : Fin k → Int} (hc : R c) (f : Fin 3) :
    fk W (midGrid W Φ' U.grid).e f c = (midField Φ (fake W U).fld).e f c := by
  have := field_e H ht (1 / 2 * Φ'.dt) U.grid (hR c hc) f
  rw [H.dt] at this
  unfold midGrid
  rw [H.dt]
  exact this

theorem mid_b (U : LWorld k) {c : Fin k → Int} (hc : inner 1 R c) (f : Fin 3) :
    fk W (midGrid W Φ' U.grid).b f c = (midField Φ (fake W U).fld).b f c := by
  have h1 := field_b H (1 / 2 * Φ'.dt) (W.stepE (1 / 2 * Φ'.dt) U.grid) (hR c (inner_self hc)) f
  have h2 : fk W (midGrid W Φ' U.grid).b f c = fk W U.grid.b f c + Φ.FB (1 / 2 * Φ'.dt) (fk W (midGrid W Φ' U.grid).e) f c := h1
  rw [h2, H.near.fb.loc _ _ (midField Φ (fake W U).fld).e f c (fun g => mid_e H ht hR U (inner_self hc) g)
    (fun g a => mid_e H ht hR U (hc _ (up_near a c)) g), H.dt]
  rfl

theorem step_b (U : LWorld k) (J J' : V3 k) {c : Fin k → Int} (hc : inner 1 R c) (f : Fin 3) :
    fk W (W.step Φ'.dt J U.grid).b f c = (GF.step Φ.FE Φ.FB Φ.dt J' (fake W U).fld).b f c := by
  have h1 := field_b H (1 / 2 * Φ'.dt) { W.stepB (1 / 2 * Φ'.dt) (W.stepE (1 / 2 * Φ'.dt) U.grid) with j := J } (hR c (inner_self hc)) f
  have h2 : fk W (W.step Φ'.dt J U.grid).b f c = fk W (midGrid W Φ' U.grid).b f c + Φ.FB (1 / 2 * Φ'.dt) (fk W (midGrid W Φ' U.grid).e) f c := h1
  rw [h2, mid_b H ht hR U hc, H.near.fb.loc _ _ (midField Φ (fake W U).fld).e f c (fun g => mid_e H ht hR U (inner_self hc) g)
    (fun g a => mid_e H ht hR U (hc _ (up_near a c)) g), H.dt]
  rfl

theorem step_e (U : LWorld k) {J J' : V3 k} {c : Fin k → Int} (hc : inner 2 R c) (hJ : ∀ f, fk W J f c = J' f c) (f : Fin 3) :
    fk W (W.step Φ'.dt J U.grid).e f c = (GF.step Φ.FE Φ.FB Φ.dt J' (fake W U).fld).e f c := by
  have hc1 : inner 1 (inner 1 R) c := inner_inner (r := 1) (s := 1) hc
  have h1 := field_e H ht (1 / 2 * Φ'.dt)
    (W.stepB (1 / 2 * Φ'.dt) { W.stepB (1 / 2 * Φ'.dt) (W.stepE (1 / 2 * Φ'.dt) U.grid) with j := J }) (hR c (inner_self hc)) f
  have h2 : fk W (W.step Φ'.dt J U.grid).e f c = fk W (midGrid W Φ' U.grid).e f c +
      Φ.FE (1 / 2 * Φ'.dt) (fk W (W.step Φ'.dt J U.grid).b) (fk W J) f c := h1
  rw [h2, mid_e H ht hR U (inner_self hc), H.near.fe.loc _ _ (GF.step Φ.FE Φ.FB Φ.dt J' (fake W U).fld).b _ J' f c
    (fun g => step_b H ht hR U J J' (inner_self hc1) g) (fun g a => step_b H ht hR U J J' (hc1 _ (dn_near a c)) g) hJ, H.dt]
  rfl

omit H in
/-- a cell that is so many cells away from the layers, in the domain or at its upper end, is away from the ends -/
theorem clear_range {r : Nat} {c : Fin k → Int} (hc : inner r R c) {a : Fin k} (hp : W.pml a = true) (h0 : 0 ≤ c a) (h1 : c a ≤ W.N a) :
    r < c a ∧ c a + r < W.N a := by
  constructor
  · by_contra hcon
    have := (hR _ (hc (Function.update c a 0) fun b => ?_) a hp).1
    · rw [Function.update_self, Int.zero_emod] at this
      omega
    · by_cases hb : b = a
      · subst hb
        rw [Function.update_self, abs_le]
        constructor <;> omega
      · rw [Function.update_of_ne hb, sub_self, abs_zero]
        exact Int.natCast_nonneg _
  · by_contra hcon
    have := (hR _ (hc (Function.update c a (W.N a)) fun b => ?_) a hp).1
    · rw [Function.update_self, Int.emod_self] at this
      omega
    · by_cases hb : b = a
      · subst hb
        rw [Function.update_self, abs_le]
        constructor <;> omega
      · rw [Function.update_of_ne hb, sub_self, abs_zero]
        exact Int.natCast_nonneg _

/-! ## particles -/

/-- a particle away from the layers is pushed as on the periodic grid -/
theorem push_mid (hd : ∀ a, 0 < d a) (U : LWorld k) (κ : Kind) (p : Ptc k) (hs : ∀ i : Fin k, |vel p.mom i * Φ.dt| ≤ d i)
    (hp : ∀ a, W.pml a = true → 0 ≤ cellOf d p.pos a ∧ cellOf d p.pos a ≤ W.N a) (hc : inner 4 R (cellOf d p.pos)) :
    pushed Φ' κ (midGrid W Φ' U.grid) p = pushed Φ κ (midField Φ (fake W U).fld) p := by
  rw [H.push]
  obtain ⟨x, m⟩ := p
  dsimp only at hs hp hc
  have hsee : Φ.see (midGrid W Φ' U.grid) (fun i : Fin k => x i + lightSpeed * (1 / 2) * Φ.dt * m.invGamma * uAt m i)
      = Φ.see (midField Φ (fake W U).fld) (fun i : Fin k => x i + lightSpeed * (1 / 2) * Φ.dt * m.invGamma * uAt m i) := by
    refine H.near.see _ _ _ fun c hcx => ?_
    have hnear : ∀ a, |c a - cellOf d x a| ≤ (3 : Nat) := by
      intro a
      have h1 := hcx a
      have h2 : |vel m a * Φ.dt / d a| ≤ 1 := by
        rw [abs_div, abs_of_pos (hd a)]
        exact (div_le_one (hd a)).mpr (hs a)
      have e : (x a + lightSpeed * (1 / 2) * Φ.dt * m.invGamma * uAt m a) / d a = x a / d a + vel m a * Φ.dt / d a / 2 := by
        unfold vel; ring
      rw [e, abs_le] at h1
      rw [abs_le] at h2
      show |c a - ⌊x a / d a + 1 / 2⌋| ≤ (3 : Nat)
      have f1 := Int.floor_le (x a / d a + 1 / 2)
      have f2 := Int.lt_floor_add_one (x a / d a + 1 / 2)
      have g1 : ((c a - ⌊x a / d a + 1 / 2⌋ : ℤ) : ℚ) ≤ 3 := by push_cast; linarith [h1.2, h2.2]
      have g2 : (-3 : ℚ) ≤ ((c a - ⌊x a / d a + 1 / 2⌋ : ℤ) : ℚ) := by push_cast; linarith [h1.1, h2.1]
      rw [abs_le]
      constructor
      · exact_mod_cast g2
      · exact_mod_cast g1
    have hc' : inner 1 R c := inner_inner (r := 3) (s := 1) hc c hnear
    have hw : wrap W c = c := wrap_self fun a hpa => by
      obtain ⟨q1, q2⟩ := clear_range ht hR hc hpa (hp a hpa).1 (hp a hpa).2
      have := abs_le.mp (hnear a)
      constructor <;> omega
    intro f
    have e1 := mid_e H ht hR U (inner_self hc') f
    have e2 := mid_b H ht hR U hc' f
    unfold fk at e1 e2
    rw [hw] at e1 e2
    exact ⟨e1, e2⟩
  unfold pushed
  dsimp only
  rw [hsee]

open Classical in
theorem push_list_mid (hd : ∀ a, 0 < d a) (hdW : d = W.par.d) (U : LWorld k) (κ : Kind) (l : List (Ptc k))
    (hs : ∀ p ∈ l, (∀ i : Fin k, |vel p.mom i * Φ.dt| ≤ d i) ∧ ∀ G, ∀ i : Fin k, |vel (pushed Φ κ G p).mom i * Φ.dt| ≤ d i)
    (hp : ∀ p ∈ l, ∀ a, W.pml a = true → 0 ≤ cellOf d p.pos a ∧ cellOf d p.pos a ≤ W.N a) :
    ((l.map (pushed Φ' κ (midGrid W Φ' U.grid))).filter fun p => decide (inner 5 R (cellOf d p.pos))) =
      ((l.map (pushed Φ κ (midField Φ (fake W U).fld))).filter fun p => decide (inner 5 R (cellOf d p.pos))) ∧
    (((l.map (pushed Φ' κ (midGrid W Φ' U.grid))).filter fun p => decide (Free W p.pos)).filter fun p => decide (inner 5 R (cellOf d p.pos))) =
      ((l.map (pushed Φ κ (midField Φ (fake W U).fld))).filter fun p => decide (inner 5 R (cellOf d p.pos))) := by
  induction l with
  | nil => exact ⟨rfl, rfl⟩
  | cons p l ih =>
    obtain ⟨i1, i2⟩ := ih (fun q hq => hs q (List.mem_cons_of_mem _ hq)) fun q hq => hp q (List.mem_cons_of_mem _ hq)
    obtain ⟨s1, s2⟩ := hs p List.mem_cons_self
    have hp1 := hp p List.mem_cons_self
    have cells := fun G => push_cell (Φ := Φ) hd κ G p s1 (s2 G)
    simp only [List.map_cons]
    by_cases hc : inner 4 R (cellOf d p.pos)
    · have e := push_mid H ht hR hd U κ p s1 hp1 hc
      rw [e]
      constructor
      · rw [List.filter_cons, List.filter_cons, i1]
      · rw [List.filter_cons (p := fun p : Ptc k => decide (Free W p.pos))]
        by_cases hS : inner 5 R (cellOf d (pushed Φ κ (midField Φ (fake W U).fld) p).pos)
        · have hf : Free W (pushed Φ κ (midField Φ (fake W U).fld) p).pos := by
            intro a hpa
            have hcl := hR _ (inner_self hS) a hpa
            obtain ⟨q1, q2⟩ := clear_range ht hR hc hpa (hp1 a hpa).1 (hp1 a hpa).2
            have hmv := abs_le.mp (cells (midField Φ (fake W U).fld) a)
            push_cast at hmv
            generalize pushed Φ κ (midField Φ (fake W U).fld) p = q at *
            rw [Int.emod_eq_of_lt (by omega) (by omega)] at hcl
            have hda := hd a
            have f1 := Int.floor_le (q.pos a / d a + 1 / 2)
            have f2 := Int.lt_floor_add_one (q.pos a / d a + 1 / 2)
            have c1 : ((W.thick : Int) : ℚ) ≤ (cellOf d q.pos a : ℚ) := by exact_mod_cast hcl.1
            have c2 : (((cellOf d q.pos a + W.thick + 1 : Int)) : ℚ) < ((W.N a : Int) : ℚ) := by exact_mod_cast hcl.2
            unfold cellOf at c1 c2
            push_cast at c1 c2
            have g1 : (W.thick : ℚ) - 1 / 2 ≤ q.pos a / d a := by linarith
            have g2 : q.pos a / d a ≤ (W.N a : ℚ) - W.thick - 1 / 2 := by linarith
            rw [le_div_iff₀ hda] at g1
            rw [div_le_iff₀ hda] at g2
            rw [hdW] at g1 g2
            constructor <;> linarith
          rw [if_pos (by simpa using hf), List.filter_cons, List.filter_cons, i2]
        · by_cases hf : Free W (pushed Φ κ (midField Φ (fake W U).fld) p).pos
          · rw [if_pos (by simpa using hf), List.filter_cons, List.filter_cons, i2]
          · rw [if_neg (by simpa using hf), List.filter_cons, if_neg (by simpa using hS), i2]
    · have no : ∀ G, ¬ inner 5 R (cellOf d (pushed Φ κ G p).pos) := fun G h5 =>
        hc (inner_inner (r := 1) (s := 4) h5 _ fun a => cells G a)
      have n1 := no (midGrid W Φ' U.grid)
      have n2 := no (midField Φ (fake W U).fld)
      rw [H.push] at *
      constructor
      · rw [List.filter_cons, if_neg (by simpa using n1), List.filter_cons, if_neg (by simpa using n2), i1]
      · rw [List.filter_cons_of_neg (p := fun p : Ptc k => decide (inner 5 R (cellOf d p.pos)))
          (a := pushed Φ κ (midField Φ (fake W U).fld) p) (by simpa using n2), List.filter_cons (p := fun p : Ptc k => decide (Free W p.pos))]
        split
        · rw [List.filter_cons_of_neg (by simpa using n1), i2]
        · exact i2

theorem moved_within (hd : ∀ a, 0 < d a) (hdW : d = W.par.d) (U : LWorld k) (hs : Slow d Φ.dt U.cloud)
    (hp : ∀ s ∈ U.cloud, ∀ p ∈ s.2, ∀ a, W.pml a = true → 0 ≤ cellOf d p.pos a ∧ cellOf d p.pos a ≤ W.N a) :
    within d (inner 5 R) (U.moved W Φ') = within d (inner 5 R) ((fake W U).step Φ).cloud ∧
    within d (inner 5 R) (U.step W Φ').cloud = within d (inner 5 R) ((fake W U).step Φ).cloud := by
  have key := fun s (h : s ∈ U.cloud) => push_list_mid H ht hR hd hdW U s.1 s.2 (fun p hp => ⟨hs s h p hp, fun G => H.fast s.1 G p⟩) (hp s h)
  constructor
  · show (U.cloud.map _).map _ = (U.cloud.map _).map _
    rw [List.map_map, List.map_map]
    exact List.map_congr_left fun s h => Prod.ext rfl (key s h).1
  · show ((U.cloud.map _).map _).map _ = (U.cloud.map _).map _
    rw [List.map_map, List.map_map, List.map_map]
    exact List.map_congr_left fun s h => Prod.ext rfl (key s h).2

omit ht hR in
theorem moved_slow (U : LWorld k) : Slow d Φ.dt (U.moved W Φ') ∧ Slow d Φ.dt ((fake W U).step Φ).cloud := by
  constructor
  · intro s hs p hp i
    obtain ⟨s0, _, rfl⟩ := List.mem_map.mp hs
    obtain ⟨p0, _, rfl⟩ := List.mem_map.mp hp
    rw [H.push]
    exact H.fast _ _ _ i
  · intro s hs p hp i
    obtain ⟨s0, _, rfl⟩ := List.mem_map.mp hs
    obtain ⟨p0, _, rfl⟩ := List.mem_map.mp hp
    exact H.fast _ _ _ i

/-- one step of the domain with layers and one of the periodic grid -/
theorem fake_step (hd : ∀ a, 0 < d a) (hdW : d = W.par.d) (hreg : Region W.N R) (U : LWorld k) (hs : Slow d Φ.dt U.cloud)
    (hp : ∀ s ∈ U.cloud, ∀ p ∈ s.2, ∀ a, W.pml a = true → 0 ≤ cellOf d p.pos a ∧ cellOf d p.pos a ≤ W.N a) (L : Fin k → ℚ)
    (hN : ∀ a, 0 < W.N a) :
    AgreeOn L d (inner 8 R) (fake W (U.step W Φ')) ((fake W U).step Φ) := by
  obtain ⟨w1, w2⟩ := moved_within H ht hR hd hdW U hs hp
  obtain ⟨f1, f2⟩ := moved_slow H U
  have hNe : W.N = fun a => np a * n a := funext H.cells
  have hJ : ∀ c, inner 8 R c → ∀ f, fk W (Φ'.cur (U.moved W Φ')) f c = Φ.cur ((fake W U).step Φ).cloud f c := by
    intro c hc f
    have hwc : inner 8 R (wrap W c) := (inner_region hreg 8 _ _ (wrap_mod W c)).mpr hc
    have hreg5 : Region (fun a => np a * n a) (inner 5 R) := hNe ▸ inner_region hreg 5
    rw [H.curPer _ f c (wrap W c) fun a => (wrap_mod W c a).symm]
    show Φ'.cur (U.moved W Φ') f (wrap W c) = _
    have c1 : ∀ a, W.pml a = true → 8 < wrap W c a ∧ wrap W c a + 8 < W.N a := by
      intro a hpa
      obtain ⟨q1, q2⟩ := wrap_range hN c a hpa
      have := clear_range ht hR hwc hpa q1 q2.le
      push_cast at this
      exact this
    have c2 : ∀ s ∈ U.moved W Φ', ∀ p ∈ s.2, ∀ a, W.pml a = true → -1 ≤ cellOf d p.pos a ∧ cellOf d p.pos a ≤ W.N a + 1 := by
      intro s hs' p hp' a hpa
      obtain ⟨s0, hs0, rfl⟩ := List.mem_map.mp hs'
      obtain ⟨p0, hp0, rfl⟩ := List.mem_map.mp hp'
      rw [H.push]
      have := abs_le.mp (push_cell (Φ := Φ) hd s0.1 (midGrid W Φ' U.grid) p0 (hs _ hs0 _ hp0) (H.fast _ _ _) a)
      have h2 := hp _ hs0 _ hp0 a hpa
      push_cast at this
      constructor <;> omega
    rw [H.cur _ f1 c2 f (wrap W c) c1, H.near.cur _ f1 _ hreg5 f _ (inner_inner (r := 3) (s := 5) hwc),
      H.near.cur _ f2 _ hreg5 f _ (inner_inner (r := 3) (s := 5) hwc), w1]
  refine ⟨fun c hc f => ⟨?_, ?_, ?_⟩, ?_⟩
  · exact step_e H ht hR U (inner_mono (by omega) hc) (hJ c hc) f
  · exact step_b H ht hR U _ _ (inner_mono (by omega) hc) f
  · exact hJ c hc f
  · have e : within d (inner 8 R) (fake W (U.step W Φ')).cloud = within d (inner 8 R) ((fake W U).step Φ).cloud := by
      show within d (inner 8 R) (U.step W Φ').cloud = _
      have h58 : ∀ c, inner 8 R c → inner 5 R c := fun c hc => inner_mono (by omega) hc
      rw [← within_within h58 (U.step W Φ').cloud, ← within_within h58 ((fake W U).step Φ).cloud, w2]
    rw [e]
    exact List.forall₂_same.mpr fun _ _ => ⟨rfl, .of_perm (.refl _)⟩

/-- steps of the domain with layers and of the periodic grid -/
theorem away_run (hd : ∀ a, 0 < d a) (hdW : d = W.par.d) (hreg : Region W.N R) (hN : ∀ a, 0 < W.N a) {U : LWorld k} {V : World k}
    (hs : ∀ i, Slow d Φ.dt (LWorld.run W Φ' U i).cloud)
    (hp : ∀ i, ∀ s ∈ (LWorld.run W Φ' U i).cloud, ∀ p ∈ s.2, ∀ a, W.pml a = true → 0 ≤ cellOf d p.pos a ∧ cellOf d p.pos a ≤ W.N a)
    (hper : ∀ i, (World.run Φ V i).fld.Per np n) (hsV : ∀ i, Slow d Φ.dt (World.run Φ V i).cloud)
    (h : AgreeOn (len np n d) d R (fake W U) V) (i : Nat) :
    AgreeOn (len np n d) d (inner (8 * i) R) (fake W (LWorld.run W Φ' U i)) (World.run Φ V i) := by
  have hNe : W.N = fun a => np a * n a := funext H.cells
  induction i with
  | zero =>
    have : inner (8 * 0) R = R := funext fun c => propext inner_zero
    rw [this]
    exact h
  | succ i ih =>
    have hreg' := inner_region hreg (8 * i)
    have h1 := fake_step H ht (fun c hc => hR c (inner_self hc)) hd hdW hreg' _ (hs i) (hp i) (len np n d) hN
    have h2 := step_agree H.near hd (hNe ▸ hreg') (hper i) (W := fake W (LWorld.run W Φ' U i)) (hs i) (hsV i)
      (moved_slow H _).2 (hsV (i + 1)) ih
    have hin : ∀ c, inner (8 * (i + 1)) R c → inner 8 (inner (8 * i) R) c := fun c hc =>
      inner_inner (r := 8) (s := 8 * i) (by rwa [show 8 + 8 * i = 8 * (i + 1) by ring])
    refine ⟨fun c hc f => ?_, ?_⟩
    · obtain ⟨a1, a2, a3⟩ := h1.fields c (hin c hc) f
      obtain ⟨b1, b2, b3⟩ := h2.fields c (hin c hc) f
      exact ⟨a1.trans b1, a2.trans b2, a3.trans b3⟩
    · have := within_same hd (hNe ▸ inner_region hreg (8 * (i + 1))) (h1.species.trans h2.species)
      rwa [within_within hin, within_within hin] at this
end

theorem fake_per {np n : Fin k → Nat} {W : Whole k} (hN : ∀ a, W.N a = np a * n a) {U : LWorld k}
    (he : W.Periodic U.grid.e) (hb : W.Periodic U.grid.b) (hj : W.Periodic U.grid.j) : (fake W U).fld.Per np n := by
  have key : ∀ v w : Fin k → Int, (∀ a, v a ≡ w a [ZMOD (np a * n a : Int)]) →
      ∀ a, if W.pml a = true then wrap W v a = wrap W w a else wrap W v a ≡ wrap W w a [ZMOD (W.N a : Int)] := by
    intro v w h a
    have h' : v a ≡ w a [ZMOD (W.N a : Int)] := by
      rw [hN a]
      exact_mod_cast h a
    unfold wrap
    by_cases hp : W.pml a = true
    · rw [if_pos hp, if_pos hp, if_pos hp]
      exact h'
    · rw [if_neg hp, if_neg hp, if_neg hp]
      exact h'
  exact ⟨fun f v w h => he f _ _ (key v w h), fun f v w h => hb f _ _ (key v w h), fun f v w h => hj f _ _ (key v w h)⟩

theorem run_per {W : Whole k} {Φ' Φ : Phys k} {np n : Fin k → Nat} {d : Fin k → ℚ} (H : Law W Φ' Φ np n d) {V : World k}
    (h : V.fld.Per np n) (i : Nat) : (World.run Φ V i).fld.Per np n := by
  induction i with
  | zero => exact h
  | succ i ih =>
    have h1 := mid_per H.near ih
    have h2 : (GF.mk (midField Φ (World.run Φ V i).fld).e (midField Φ (World.run Φ V i).fld).b (Φ.cur ((World.run Φ V i).step Φ).cloud)).Per np n :=
      ⟨h1.e, h1.b, fun f v w hvw => H.curPer _ f v w fun a => by rw [H.cells a]; exact_mod_cast hvw a⟩
    exact (h2.stepB H.near.fb (1 / 2 * Φ.dt)).stepE H.near.fe (1 / 2 * Φ.dt)

theorem run_slow {W : Whole k} {Φ' Φ : Phys k} {np n : Fin k → Nat} {d : Fin k → ℚ} (H : Law W Φ' Φ np n d) {V : World k}
    (h : Slow d Φ.dt V.cloud) (i : Nat) : Slow d Φ.dt (World.run Φ V i).cloud := by
  cases i with
  | zero => exact h
  | succ i =>
    intro s hs p hp j
    obtain ⟨s0, _, rfl⟩ := List.mem_map.mp hs
    obtain ⟨p0, _, rfl⟩ := List.mem_map.mp hp
    exact H.fast _ _ _ j

/-- the particles of a domain are in it -/
def InBox (W : Whole k) (d : Fin k → ℚ) (cl : List (Kind × List (Ptc k))) : Prop :=
  ∀ s ∈ cl, ∀ p ∈ s.2, ∀ a, W.pml a = true → 0 ≤ cellOf d p.pos a ∧ cellOf d p.pos a ≤ W.N a

/-- two domains with layers -/
theorem away_both {W W' : Whole k} {Φ₁ Φ₂ Φ : Phys k} {np n : Fin k → Nat} {d : Fin k → ℚ} (H : Law W Φ₁ Φ np n d) (H' : Law W' Φ₂ Φ np n d)
    (ht : 0 < W.thick) (ht' : 0 < W'.thick) (hd : ∀ a, 0 < d a) (hdW : d = W.par.d) (hdW' : d = W'.par.d)
    {R : (Fin k → Int) → Prop} (hreg : Region (fun a => np a * n a) R) (hR : ∀ c, R c → Clear W c ∧ Clear W' c) (hN : ∀ a, 0 < np a * n a)
    {U U' : LWorld k} (hs : ∀ i, Slow d Φ.dt (LWorld.run W Φ₁ U i).cloud) (hs' : ∀ i, Slow d Φ.dt (LWorld.run W' Φ₂ U' i).cloud)
    (hp : ∀ i, InBox W d (LWorld.run W Φ₁ U i).cloud) (hp' : ∀ i, InBox W' d (LWorld.run W' Φ₂ U' i).cloud)
    (hper : (fake W' U').fld.Per np n) (h : AgreeOn (len np n d) d R (fake W U) (fake W' U')) (i : Nat) :
    AgreeOn (len np n d) d (inner (8 * i) R) (fake W (LWorld.run W Φ₁ U i)) (fake W' (LWorld.run W' Φ₂ U' i)) := by
  have e : W.N = fun a => np a * n a := funext H.cells
  have e' : W'.N = fun a => np a * n a := funext H'.cells
  have hV := run_per H' hper
  have sV := run_slow H' (V := fake W' U') (hs' 0)
  have h1 := away_run H ht (fun c hc => (hR c hc).1) hd hdW (e ▸ hreg) (fun a => H.cells a ▸ hN a) hs hp hV sV h i
  have h2 := away_run H' ht' (fun c hc => (hR c hc).2) hd hdW' (e' ▸ hreg) (fun a => H'.cells a ▸ hN a) hs' hp' hV sV
    ⟨fun _ _ _ => ⟨rfl, rfl, rfl⟩, List.forall₂_same.mpr fun _ _ => ⟨rfl, .of_perm (.refl _)⟩⟩ i
  refine ⟨fun c hc f => ?_, h1.species.trans h2.species.symm⟩
  obtain ⟨a1, a2, a3⟩ := h1.fields c hc f
  obtain ⟨b1, b2, b3⟩ := h2.fields c hc f
  exact ⟨a1.trans b1.symm, a2.trans b2.symm, a3.trans b3.symm⟩

/-! ## currents -/

theorem proj_room {N N' : Nat} (hN : 0 < N) (hle : N ≤ N') {i0 m c : Int} (hi : |i0 - m| ≤ 1) (hm : -1 ≤ m ∧ m ≤ N + 1)
    (hc : 8 < c ∧ c + 8 < N) (f : Nat → ℚ) : proj (wrapIdx N' i0) f (c % N') = proj (wrapIdx N i0) f (c % N) := by
  unfold proj
  refine Finset.sum_congr rfl fun i hi5 => ?_
  have h5 : i < 5 := Finset.mem_range.mp hi5
  rw [wrapIdx_eq N hN, wrapIdx_eq N' (by omega)]
  rw [abs_le] at hi
  have key : ∀ M : Nat, N ≤ M → ((i0 + ((i : Int) - 2)) % (M : Int) = c % (M : Int) ↔ i0 + ((i : Int) - 2) = c) := by
    intro M hM
    constructor
    · intro h
      have hdvd : (M : Int) ∣ c - (i0 + ((i : Int) - 2)) := Int.ModEq.dvd h
      have := Int.eq_zero_of_abs_lt_dvd hdvd (by rw [abs_lt]; constructor <;> omega)
      omega
    · intro h; rw [h]
  have e : ((i0 + ((i : Int) - 2)) % (N' : Int) = c % (N' : Int)) ↔ ((i0 + ((i : Int) - 2)) % (N : Int) = c % (N : Int)) :=
    (key N' hle).trans (key N le_rfl).symm
  by_cases h : (i0 + ((i : Int) - 2)) % (N : Int) = c % (N : Int)
  · rw [if_pos h, if_pos (e.mpr h)]
  · rw [if_neg h, if_neg fun hh => h (e.mp hh)]

theorem line_room {N N' : Nat} (hN : 0 < N) (hle : N ≤ N') {d dt x v : ℚ} (hd : 0 < d) (hv : |v * dt| ≤ d) {c : Int}
    (hm : -1 ≤ ⌊x / d + 1 / 2⌋ ∧ ⌊x / d + 1 / 2⌋ ≤ N + 1) (hc : 8 < c ∧ c + 8 < N) :
    l0 N' d dt x v c = l0 N d dt x v c ∧ l1 N' d dt x v c = l1 N d dt x v c ∧ lc N' d dt x v c = lc N d dt x v c := by
  have hi : |(mkAxRef ((x - v * (1 / 2) * dt) / d) ((x + v * (1 / 2) * dt) / d)).i0 - ⌊x / d + 1 / 2⌋| ≤ 1 := by
    show |⌊(x - v * (1 / 2) * dt) / d + 1 / 2⌋ - ⌊x / d + 1 / 2⌋| ≤ (1 : Nat)
    apply Causal.floor_near
    have : (x - v * (1 / 2) * dt) / d + 1 / 2 - (x / d + 1 / 2) = -(v * dt / d / 2) := by ring
    have h2 : |v * dt / d| ≤ 1 := by
      rw [abs_div, abs_of_pos hd]
      exact (div_le_one hd).mpr hv
    rw [this, abs_neg]
    rw [abs_le] at h2 ⊢
    push_cast
    constructor <;> linarith [h2.1, h2.2]
  exact ⟨proj_room hN hle hi hm hc _, proj_room hN hle hi hm hc _, proj_room hN hle hi hm hc _⟩

theorem total_congr {h h' : ℚ → Ptc k → ℚ} {cl : List (Kind × List (Ptc k))} (H : ∀ s ∈ cl, ∀ p ∈ s.2, h s.1.q p = h' s.1.q p) :
    Symmetry.total h cl = Symmetry.total h' cl := by
  unfold Symmetry.total
  congr 1
  refine List.map_congr_left fun s hs => ?_
  congr 1
  exact List.map_congr_left fun p hp => H s hs p hp

theorem axis_room (W : Whole k) (hN : ∀ a, 0 < W.N a) {d : Fin k → ℚ} (hd : ∀ a, 0 < d a) {dt : ℚ} (p : Ptc k) {c : Fin k → Int}
    (hm : ∀ a, W.pml a = true → -1 ≤ cellOf d p.pos a ∧ cellOf d p.pos a ≤ W.N a + 1)
    (hc : ∀ a, W.pml a = true → 8 < c a ∧ c a + 8 < W.N a) (a : Fin k) {v : ℚ} (hv : |v * dt| ≤ d a) :
    l0 (room W a) (d a) dt (p.pos a) v (c a) = l0 (W.N a) (d a) dt (p.pos a) v (c a) ∧
    l1 (room W a) (d a) dt (p.pos a) v (c a) = l1 (W.N a) (d a) dt (p.pos a) v (c a) ∧
    lc (room W a) (d a) dt (p.pos a) v (c a) = lc (W.N a) (d a) dt (p.pos a) v (c a) := by
  by_cases hp : W.pml a = true
  · exact line_room (hN a) (by unfold room; omega) (hd a) hv (hm a hp) (hc a hp)
  · have : room W a = W.N a := by unfold room; rw [if_neg hp]; rfl
    rw [this]
    exact ⟨rfl, rfl, rfl⟩

theorem cur_room2 (W : Whole 2) (hN : ∀ a, 0 < W.N a) (hd : ∀ a, 0 < W.par.d a) {dt : ℚ} (hdt : dt ≠ 0)
    {cl : List (Kind × List (Ptc 2))} (hv : Slow W.par.d dt cl)
    (hm : ∀ s ∈ cl, ∀ p ∈ s.2, ∀ a, W.pml a = true → -1 ≤ cellOf W.par.d p.pos a ∧ cellOf W.par.d p.pos a ≤ W.N a + 1)
    (f : Fin 3) (c : Fin 2 → Int) (hc : ∀ a, W.pml a = true → 8 < c a ∧ c a + 8 < W.N a) :
    curOpen2 W dt cl f c = cur2 W.N W.par.d dt cl f c := by
  show cur2 (room W) W.par.d dt cl f c = _
  rw [cur_total2 (N := room W) (fun a => lt_of_lt_of_le (hN a) (Nat.le_add_right _ _)) hd hdt hv, cur_total2 hN hd hdt hv]
  refine total_congr fun s hs p hp => ?_
  have h0 := axis_room W hN hd (dt := dt) p (hm s hs p hp) hc 0 (show |p.mom.vx * dt| ≤ _ from hv s hs p hp 0)
  have h1 := axis_room W hN hd (dt := dt) p (hm s hs p hp) hc 1 (show |p.mom.vy * dt| ≤ _ from hv s hs p hp 1)
  unfold j2 lm
  rw [h0.1, h0.2.1, h0.2.2, h1.1, h1.2.1, h1.2.2]

theorem cur_room3 (W : Whole 3) (hN : ∀ a, 2 ≤ W.N a) (hd : ∀ a, 0 < W.par.d a) {dt : ℚ} (hdt : dt ≠ 0)
    {cl : List (Kind × List (Ptc 3))} (hv : Slow W.par.d dt cl)
    (hm : ∀ s ∈ cl, ∀ p ∈ s.2, ∀ a, W.pml a = true → -1 ≤ cellOf W.par.d p.pos a ∧ cellOf W.par.d p.pos a ≤ W.N a + 1)
    (f : Fin 3) (c : Fin 3 → Int) (hc : ∀ a, W.pml a = true → 8 < c a ∧ c a + 8 < W.N a) :
    curOpen3 W dt cl f c = cur3 W.N W.par.d dt cl f c := by
  have hN' : ∀ a, 0 < W.N a := fun a => lt_of_lt_of_le (by omega) (hN a)
  show cur3 (room W) W.par.d dt cl f c = _
  rw [cur_total3 (N := room W) (fun a => (hN a).trans (Nat.le_add_right _ _)) hd hdt hv, cur_total3 hN hd hdt hv]
  refine total_congr fun s hs p hp => ?_
  have h0 := axis_room W hN' hd (dt := dt) p (hm s hs p hp) hc 0 (show |p.mom.vx * dt| ≤ _ from hv s hs p hp 0)
  have h1 := axis_room W hN' hd (dt := dt) p (hm s hs p hp) hc 1 (show |p.mom.vy * dt| ≤ _ from hv s hs p hp 1)
  have h2 := axis_room W hN' hd (dt := dt) p (hm s hs p hp) hc 2 (show |p.mom.vz * dt| ≤ _ from hv s hs p hp 2)
  unfold j3
  rw [h0.1, h0.2.1, h0.2.2, h1.1, h1.2.1, h1.2.2, h2.1, h2.2.1, h2.2.2]

theorem push_congr {Φ Φ' : Phys k} (h1 : Φ'.see = Φ.see) (h2 : Φ'.rs = Φ.rs) (h3 : Φ'.dt = Φ.dt) (κ : Kind) (G : GF k) (p : Ptc k) :
    pushed Φ' κ G p = pushed Φ κ G p := by
  unfold pushed
  rw [h1, h2, h3]

theorem push_fast {Φ : Phys k} {d : Fin k → ℚ} {β : ℚ} (hβ : 0 ≤ β) (hrs : ∀ s, 1 ≤ s → Φ.rs s ^ 2 * s ≤ β ^ 2)
    (hcfl : ∀ i, lightSpeed * |Φ.dt| * β ≤ d i) (κ : Kind) (G : GF k) (p : Ptc k) (i : Fin k) : |vel (pushed Φ κ G p).mom i * Φ.dt| ≤ d i :=
  vel_dt (hcfl i) (boris_speed hβ hrs lightSpeed κ.q κ.m Φ.dt _ _ p.mom.w i)

theorem law2 (W : Whole 2) (np n : Fin 2 → Nat) (hN : ∀ a, W.N a = np a * n a) (hpos : ∀ a, 0 < W.N a) (hd : ∀ a, 0 < W.par.d a) {dt : ℚ}
    (hdt : dt ≠ 0) (rs : ℚ → ℚ) {β : ℚ} (hβ : 0 ≤ β) (hrs : ∀ s, 1 ≤ s → rs s ^ 2 * s ≤ β ^ 2) (hcfl : ∀ i, lightSpeed * |dt| * β ≤ W.par.d i) :
    Law W (lphys2 W dt rs) (phys2 (fun a => np a * n a) W.par.d W.par.c2 W.par.eps0 dt rs) np n W.par.d := by
  have hNe : W.N = fun a => np a * n a := funext hN
  refine ⟨near2 (fun a => hN a ▸ hpos a) hd hdt rs, hN, rfl, push_congr rfl rfl rfl, fun h b j f v hk => Cpml.stretchE2_one _ _ _ _ _ _ _ hk,
    fun h e f v hk => Cpml.stretchB2_one _ _ _ _ _ _ hk, fun cl hv hm f c hc => ?_, push_fast hβ hrs hcfl, fun cl f c c' h => ?_⟩
  · rw [show (phys2 (fun a => np a * n a) W.par.d W.par.c2 W.par.eps0 dt rs).cur = cur2 W.N W.par.d dt by rw [hNe]; rfl]
    exact cur_room2 W hpos hd hdt hv hm f c hc
  · show cur2 _ _ _ cl f c = cur2 _ _ _ cl f c'
    unfold cur2
    congr 1
    funext a
    have := h a
    rw [hN a] at this
    exact this

theorem law3 (W : Whole 3) (np n : Fin 3 → Nat) (hN : ∀ a, W.N a = np a * n a) (hpos : ∀ a, 2 ≤ W.N a) (hd : ∀ a, 0 < W.par.d a) {dt : ℚ}
    (hdt : dt ≠ 0) (rs : ℚ → ℚ) {β : ℚ} (hβ : 0 ≤ β) (hrs : ∀ s, 1 ≤ s → rs s ^ 2 * s ≤ β ^ 2) (hcfl : ∀ i, lightSpeed * |dt| * β ≤ W.par.d i) :
    Law W (lphys3 W dt rs) (phys3 (fun a => np a * n a) W.par.d W.par.c2 W.par.eps0 dt rs) np n W.par.d := by
  have hNe : W.N = fun a => np a * n a := funext hN
  refine ⟨near3 (fun a => hN a ▸ hpos a) hd hdt rs, hN, rfl, push_congr rfl rfl rfl, fun h b j f v hk => Cpml.stretchE3_one _ _ _ _ _ _ _ hk,
    fun h e f v hk => Cpml.stretchB3_one _ _ _ _ _ _ hk, fun cl hv hm f c hc => ?_, push_fast hβ hrs hcfl, fun cl f c c' h => ?_⟩
  · rw [show (phys3 (fun a => np a * n a) W.par.d W.par.c2 W.par.eps0 dt rs).cur = cur3 W.N W.par.d dt by rw [hNe]; rfl]
    exact cur_room3 W hpos hd hdt hv hm f c hc
  · show cur3 _ _ _ cl f c = cur3 _ _ _ cl f c'
    unfold cur3
    congr 1
    funext a
    have := h a
    rw [hN a] at this
    exact this

end Verif.Away
