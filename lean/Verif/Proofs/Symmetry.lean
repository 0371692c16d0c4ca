import Verif.Spec.Symmetry
import Verif.Proofs.WholeGauss
/-!
# Lemmas for the symmetries of complete runs

A change of the view of a simulation (`View`) that the laws respect commutes with every step; deposits along one axis
under a move by whole cells and under a reflection.
-/
namespace Verif.Symmetry
open Verif.Maxwell Verif.Pusher Verif.Deposit Verif.Shape Verif.WholeRun Verif.PicStep
open Finset (range)

variable {k : Nat}

/-- no particle moves further than one cell along an axis in a step -/
def Slow (d : Fin k → ℚ) (dt : ℚ) (cl : List (Kind × List (Ptc k))) : Prop :=
  ∀ s ∈ cl, ∀ p ∈ s.2, ∀ i : Fin k, |vel p.mom i * dt| ≤ d i

/-- the laws `Φ'` are the laws `Φ` in the other view -/
structure Respects (T : View k) (Φ Φ' : Phys k) (d : Fin k → ℚ) : Prop where
  dt : Φ'.dt = Φ.dt
  ejAdd : ∀ u w, T.ej (fun f c => u f c + w f c) = fun f c => T.ej u f c + T.ej w f c
  bAdd : ∀ u w, T.b (fun f c => u f c + w f c) = fun f c => T.b u f c + T.b w f c
  E : ∀ h b j, Φ'.FE h (T.b b) (T.ej j) = T.ej (Φ.FE h b j)
  B : ∀ h e, Φ'.FB h (T.ej e) = T.b (Φ.FB h e)
  push : ∀ κ G p, pushed Φ' (T.kind κ) (T.fields G) (T.ptc p) = T.ptc (pushed Φ κ G p)
  cur : ∀ cl, Slow d Φ.dt cl → Φ'.cur (T.cloud cl) = T.ej (Φ.cur cl)

section
variable {T : View k} {Φ Φ' : Phys k} {d : Fin k → ℚ} (R : Respects T Φ Φ' d)
include R

theorem Respects.stepE (h : ℚ) (G : GF k) : (T.fields G).stepE Φ'.FE h = T.fields (G.stepE Φ.FE h) := by
  unfold GF.stepE View.fields
  dsimp only
  rw [R.ejAdd, R.E]

theorem Respects.stepB (h : ℚ) (G : GF k) : (T.fields G).stepB Φ'.FB h = T.fields (G.stepB Φ.FB h) := by
  unfold GF.stepB View.fields
  dsimp only
  rw [R.bAdd, R.B]

theorem Respects.mid (G : GF k) : midField Φ' (T.fields G) = T.fields (midField Φ G) := by
  unfold midField
  rw [R.dt, R.stepE, R.stepB]

theorem Respects.step (W : World k) (hs : Slow d Φ.dt (W.step Φ).cloud) :
    (T.world W).step Φ' = T.world (W.step Φ) := by
  have hc : ((T.world W).step Φ').cloud = T.cloud (W.step Φ).cloud := by
    show List.map _ (List.map _ W.cloud) = List.map _ (List.map _ W.cloud)
    rw [List.map_map, List.map_map]
    refine List.map_congr_left fun s _ => ?_
    show (T.kind s.1, List.map _ (List.map _ s.2)) = (T.kind s.1, List.map _ (List.map _ s.2))
    rw [List.map_map, List.map_map]
    congr 1
    refine List.map_congr_left fun p _ => ?_
    show pushed Φ' (T.kind s.1) (midField Φ' (T.fields W.fld)) (T.ptc p) = _
    rw [R.mid, R.push]
    rfl
  have hf : ((T.world W).step Φ').fld = T.fields (W.step Φ).fld := by
    show GF.step Φ'.FE Φ'.FB Φ'.dt (Φ'.cur ((T.world W).step Φ').cloud) (T.fields W.fld)
      = T.fields (GF.step Φ.FE Φ.FB Φ.dt (Φ.cur (W.step Φ).cloud) W.fld)
    rw [hc, R.cur _ hs, R.dt]
    unfold GF.step
    dsimp only
    rw [R.stepE, R.stepB]
    generalize GF.stepB Φ.FB (1 / 2 * Φ.dt) (GF.stepE Φ.FE (1 / 2 * Φ.dt) W.fld) = G
    generalize Φ.cur (World.step Φ W).cloud = J
    exact (congrArg _ (R.stepB _ ⟨G.e, G.b, J⟩)).trans (R.stepE _ _)
  show World.mk ((T.world W).step Φ').fld ((T.world W).step Φ').cloud = World.mk _ _
  rw [hc, hf]

theorem Respects.run (hs : ∀ W : World k, Slow d Φ.dt (W.step Φ).cloud) (W : World k) (i : Nat) :
    (T.world W).run Φ' i = T.world (W.run Φ i) := by
  induction i with
  | zero => rfl
  | succ i ih =>
    show ((T.world W).run Φ' i).step Φ' = _
    rw [ih, R.step _ (hs _)]
    rfl
end

/-! ## deposits along one axis -/

/-- weight on cell `c` of a line of `N` cells at the beginning of the step -/
def w0 (N : Nat) (o a : ℚ) (c : Int) : ℚ := proj (wrapIdx N (mkAxRef o a).i0) (mkAxRef o a).S0 (c % N)
/-- at the end -/
def w1 (N : Nat) (o a : ℚ) (c : Int) : ℚ := proj (wrapIdx N (mkAxRef o a).i0) (mkAxRef o a).S1 (c % N)
/-- running sum of the difference -/
def wc (N : Nat) (o a : ℚ) (c : Int) : ℚ := proj (wrapIdx N (mkAxRef o a).i0) (cum (mkAxRef o a).DS) (c % N)

theorem proj_move {N : Nat} (hN : 0 < N) (i0 z c : Int) (f : Nat → ℚ) :
    proj (wrapIdx N (i0 + z)) f (c % N) = proj (wrapIdx N i0) f ((c - z) % N) := by
  unfold proj
  refine Finset.sum_congr rfl fun i _ => ?_
  rw [wrapIdx_eq N hN, wrapIdx_eq N hN]
  have : (i0 + z + ((i : Int) - 2)) % N = c % N ↔ (i0 + ((i : Int) - 2)) % N = (c - z) % N := by
    rw [Int.emod_eq_emod_iff_emod_sub_eq_zero, Int.emod_eq_emod_iff_emod_sub_eq_zero,
      show i0 + z + ((i : Int) - 2) - c = i0 + ((i : Int) - 2) - (c - z) by ring]
  simp only [this]

theorem w0_move {N : Nat} (hN : 0 < N) (o a : ℚ) (z c : Int) : w0 N (o + z) (a + z) c = w0 N o a (c - z) := by
  unfold w0; rw [mkAxRef_shift]; exact proj_move hN _ _ _ _
theorem w1_move {N : Nat} (hN : 0 < N) (o a : ℚ) (z c : Int) : w1 N (o + z) (a + z) c = w1 N o a (c - z) := by
  unfold w1; rw [mkAxRef_shift]; exact proj_move hN _ _ _ _
theorem wc_move {N : Nat} (hN : 0 < N) (o a : ℚ) (z c : Int) : wc N (o + z) (a + z) c = wc N o a (c - z) := by
  unfold wc; rw [mkAxRef_shift]; exact proj_move hN _ _ _ _

theorem shape_neg (t : ℚ) : shape (-t) = shape t := by unfold shape; rw [abs_neg, neg_sq]

theorem line_neg {N : Nat} (X : ℚ) (c : Int) : lineWeight N (-X) (c % N) = lineWeight N X (-c % N) := by
  unfold lineWeight
  rw [← finsum_comp_equiv (Equiv.neg ℤ)]
  refine finsum_congr fun m => ?_
  show (if (-m) % (N : Int) = c % N then shape (-X - ((-m : ℤ) : ℚ)) else 0) = _
  have h1 : (-m) % (N : Int) = c % N ↔ m % (N : Int) = -c % N := by
    rw [Int.emod_eq_emod_iff_emod_sub_eq_zero, Int.emod_eq_emod_iff_emod_sub_eq_zero, ← Int.dvd_iff_emod_eq_zero,
      ← Int.dvd_iff_emod_eq_zero, show m - -c = -(-m - c) by ring, Int.dvd_neg]
  have h2 : shape (-X - ((-m : ℤ) : ℚ)) = shape (X - m) := by
    rw [show -X - ((-m : ℤ) : ℚ) = -(X - m) by push_cast; ring, shape_neg]
  simp only [h1, h2]

theorem w0_neg {N : Nat} (hN : 0 < N) (o a : ℚ) (c : Int) : w0 N (-o) (-a) c = w0 N o a (-c) := by
  unfold w0; rw [proj_S0 N hN, proj_S0 N hN, line_neg]

theorem near_neg {o a : ℚ} (h : |a - o| ≤ 1) : |-a - -o| ≤ 1 := by
  rw [show -a - -o = -(a - o) by ring, abs_neg]; exact h

theorem w1_neg {N : Nat} (hN : 0 < N) {o a : ℚ} (h : |a - o| ≤ 1) (c : Int) : w1 N (-o) (-a) c = w1 N o a (-c) := by
  unfold w1; rw [proj_S1 N hN (near_neg h), proj_S1 N hN h, line_neg]

theorem wc_sub {N : Nat} (hN : 0 < N) {o a : ℚ} (h : |a - o| ≤ 1) (c : Int) :
    wc N o a c - wc N o a (c - 1) = w1 N o a c - w0 N o a c := by
  have hp : (0 : Int) < N := by exact_mod_cast hN
  have := proj_cum_sub N hN (mkAxRef o a).i0 (mkAxRef o a).DS (mkAxRef_ok h).sumDS (c % N) (Int.emod_nonneg _ hp.ne')
    (Int.emod_lt_of_pos _ hp)
  rw [Int.emod_sub_emod, proj_DS] at this
  exact this

/-- all entries of the line together -/
theorem sum_proj {N : Nat} (hN : 0 < N) (i0 : Int) (f : Nat → ℚ) :
    ∑ c ∈ range N, proj (wrapIdx N i0) f (c : Int) = ∑ i ∈ range 5, f i := by
  unfold proj
  rw [Finset.sum_comm]
  refine Finset.sum_congr rfl fun i _ => ?_
  have hp : (0 : Int) < N := by exact_mod_cast hN
  have h0 := Int.emod_nonneg (i0 + ((i : Int) - 2)) hp.ne'
  have h1 := Int.emod_lt_of_pos (i0 + ((i : Int) - 2)) hp
  rw [wrapIdx_eq N hN]
  generalize (i0 + ((i : Int) - 2)) % (N : Int) = r at *
  rw [Finset.sum_eq_single r.toNat]
  · rw [if_pos (by omega)]
  · intro b _ hb
    rw [if_neg (by omega)]
  · intro hb
    exact absurd (Finset.mem_range.mpr (by omega)) hb

theorem wc_per (N : Nat) (o a : ℚ) (c : Int) : wc N o a (c % N) = wc N o a c := by
  unfold wc; rw [Int.emod_emod_of_dvd _ (dvd_refl _)]

theorem wc_congr {N : Nat} {o a : ℚ} {c c' : Int} (h : c % N = c' % N) : wc N o a c = wc N o a c' := by
  unfold wc; rw [h]

theorem wc_sum {N : Nat} (hN : 0 < N) {o a : ℚ} (h : |a - o| ≤ 1) : ∑ c ∈ range N, wc N o a (c : Int) = -(a - o) := by
  rw [← sum_cum h, ← sum_proj hN]
  refine Finset.sum_congr rfl fun c hc => ?_
  unfold wc
  rw [Int.emod_eq_of_lt (by omega) (by have := Finset.mem_range.mp hc; omega)]

theorem wc_neg {N : Nat} (hN : 0 < N) {o a : ℚ} (h : |a - o| ≤ 1) (c : Int) :
    wc N (-o) (-a) c = - wc N o a (-c - 1) := by
  -- the difference of both sides is the same in every cell
  have hd : ∀ x : Int, wc N (-o) (-a) x + wc N o a (-x - 1) = wc N (-o) (-a) (x - 1) + wc N o a (-(x - 1) - 1) := by
    intro x
    have h1 := wc_sub hN (near_neg h) x
    have h2 := wc_sub hN h (-x)
    rw [w1_neg hN h, w0_neg hN] at h1
    rw [show -(x - 1) - 1 = -x by ring]
    linarith
  have hn : ∀ x : Nat, wc N (-o) (-a) x + wc N o a (-x - 1) = wc N (-o) (-a) 0 + wc N o a (-0 - 1) := by
    intro x
    induction x with
    | zero => simp
    | succ x ih =>
      have := hd ((x + 1 : Nat) : Int)
      rw [this, ← ih]
      push_cast
      rw [show (x : Int) + 1 - 1 = x by ring]
  -- and its sum is zero
  have hs : ∑ x ∈ range N, (wc N (-o) (-a) (x : Int) + wc N o a (-(x : Int) - 1)) = 0 := by
    rw [Finset.sum_add_distrib, wc_sum hN (near_neg h), ← Finset.sum_range_reflect]
    have : ∑ x ∈ range N, wc N o a (-((N - 1 - x : Nat) : Int) - 1) = ∑ x ∈ range N, wc N o a (x : Int) := by
      refine Finset.sum_congr rfl fun x hx => wc_congr ?_
      have := Finset.mem_range.mp hx
      rw [show -((N - 1 - x : Nat) : Int) - 1 = x - N by omega, Int.sub_emod_right]
    rw [this, wc_sum hN h]
    ring
  have hz : wc N (-o) (-a) 0 + wc N o a (-0 - 1) = 0 := by
    rw [Finset.sum_congr rfl fun x _ => hn x, Finset.sum_const, Finset.card_range, nsmul_eq_mul] at hs
    rcases mul_eq_zero.mp hs with h0 | h0
    · exact absurd (by exact_mod_cast h0) hN.ne'
    · exact h0
  have hp : (0 : Int) < N := by exact_mod_cast hN
  have e : ((c % N).toNat : Int) = c % N := Int.toNat_of_nonneg (Int.emod_nonneg _ hp.ne')
  have := hn (c % N).toNat
  rw [e, hz, wc_per] at this
  have e2 : wc N o a (-(c % N) - 1) = wc N o a (-c - 1) := by
    apply wc_congr
    rw [Int.emod_eq_emod_iff_emod_sub_eq_zero, ← Int.dvd_iff_emod_eq_zero,
      show -(c % (N : Int)) - 1 - (-c - 1) = c - c % N by ring]
    exact Int.dvd_self_sub_emod
  rw [e2] at this
  linarith
end Verif.Symmetry
